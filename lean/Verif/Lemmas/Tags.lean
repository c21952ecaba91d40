import Verif.Lemmas.Custom
import Verif.Lemmas.Algorithms
import Verif.Lemmas.Kernels
import Verif.Props.FullMatrix
import Verif.Spec.Tags
import Verif.Model.Tags
/-!
# A kernel function that always raises on some pair of samples, for one or two samples
-/
namespace KMethods
open PyM

theorem mem_lowerPairs' {n m i j : Nat} (hi : i < n) (hj : j < m) (h : j < i) : (i, j) ∈ KMState.lowerPairs n m := by
  simp only [KMState.lowerPairs, List.mem_flatMap, List.mem_range, List.mem_map, Prod.mk.injEq]
  exact ⟨i, hi, j, by omega, rfl, rfl⟩

namespace KMState
variable {K X V : Type} {env : Env K X V} {k : K} {a : Attachment X} {i j : Nat}

variable (env k a) in
/-- attached to `a`; the pair `(i, j)` has not been evaluated -/
def Pending (i j : Nat) (s : KMState K X V) : Prop :=
  AttachedTo env a s ∧ s.kernel = k ∧ s.cache.lookup (i, j) = none

section
variable (hfail : ∀ t, env.fails t k (a.one.row i) ((a.two.getD a.one).row j) = true) (hij : a.two = none → i ≤ j)
include hfail

theorem pending_evalAt (p : Nat × Nat) {s : KMState K X V} (hs : Pending env k a i j s) :
    (evalAt env p s).2.cache.lookup (i, j) = none ∧ (p = (i, j) → ∃ e, (evalAt env p s).1 = .error e) := by
  obtain ⟨ha, hk, hl⟩ := hs
  unfold evalAt
  rw [get_bind_run]
  rcases hp : s.cache.lookup p with _ | v
  swap
  · refine ⟨hl, fun h => ?_⟩
    rw [h, hl] at hp
    cases hp
  have hx : s.sample = some a.one := ha.sample
  have hy : s.sampleTwo = some (a.two.getD a.one) := ha.sampleTwo
  by_cases ha : p.1 < a.one.nrows
  swap
  · simp [bind_run, rowAt, hx, ha, hl]
  by_cases hb : p.2 < (a.two.getD a.one).nrows
  swap
  · simp [bind_run, rowAt, hx, ha, hy, hb, hl]
  by_cases hf : env.fails s.clock s.kernel (a.one.row p.1) ((a.two.getD a.one).row p.2) = true
  · simp [bind_run, rowAt, hx, ha, hy, hb, callKernel, hf, hl]
  · have hne : p ≠ (i, j) := by
      rintro rfl
      rw [hk] at hf
      exact hf (hfail _)
    simp only [bind_run, rowAt, hx, ha, hy, hb, callKernel, hf, if_true]
    refine ⟨?_, fun h => absurd h hne⟩
    show List.lookup (i, j) ((p, _) :: s.cache) = none
    rw [List.lookup_cons, beq_eq_false_iff_ne.2 fun h => hne h.symm]
    exact hl

include hij

theorem pending_evalKernel (x y : Nat) : Holds (Pending env k a i j) (evalKernel env x y) fun _ => (x, y) ≠ (i, j) := by
  intro s hs
  have hext := evalKernel_ext env s x y
  have hrun : evalKernel env x y s = evalAt env (memoKey s.twoSamples x y) s := by
    rw [evalKernel_run, if_neg (by rw [hs.1.two]; simp)]
  obtain ⟨h4, h5⟩ := pending_evalAt hfail (memoKey s.twoSamples x y) hs
  rw [← hrun] at h4 h5
  refine ⟨⟨hs.1.ext hext, hext.kernel.trans hs.2.1, h4⟩, fun v hv hxy => ?_⟩
  obtain ⟨rfl, rfl⟩ := Prod.mk.inj hxy
  obtain ⟨e, he⟩ := h5 (by
    unfold memoKey
    refine if_neg fun h => ?_
    rw [hs.1.two] at h
    have h2 : a.two = none := by
      have := h.2
      cases h3 : a.two with
      | none => rfl
      | some b => rw [h3] at this; cases this
    have := hij h2
    omega)
  rw [hv] at he
  cases he

theorem pending_fillCells (l : List (Nat × Nat)) : Holds (Pending env k a i j) (fillCells env l) fun _ => (i, j) ∉ l := by
  induction l with
  | nil => exact Holds.pure (by simp)
  | cons p l ih =>
    show Holds _ ((evalKernel env p.1 p.2 >>= fun v => setCell p.1 p.2 v) >>= fun _ => fillCells env l) _
    refine Holds.bind (R := fun _ => p ≠ (i, j)) ((pending_evalKernel hfail hij p.1 p.2).bind fun v hv => ?_) fun _ hp => ih.imp fun _ hl => ?_
    · exact fun s hs => ⟨⟨hs.1.congr rfl rfl rfl rfl rfl rfl rfl, hs.2⟩, fun _ _ => hv⟩
    · rw [List.mem_cons, not_or]
      exact ⟨fun h => hp h.symm, hl⟩

/-- `full` right after `attach_to` raises `RuntimeError` if the kernel function raises on some pair of samples -/
theorem full_pending (hi : i < a.nrows) (hj : j < a.ncols) (norm : Bool) (c : Nat) (o : Option (Fmt × Mat V)) :
    (full env (attachedState k norm a c o)).1 = .error .runtimeError := by
  let s : KMState K X V := attachedState k norm a c o
  let f0 : Full V := ⟨.dense, fun _ _ => env.ops.nan⟩
  let s0 : KMState K X V := { s with fullKm := some f0 }
  have hs0 : Pending env k a i j s0 := ⟨(attachedTo_attachedState env k norm a c o).congr rfl rfl rfl rfl rfl rfl rfl, rfl, rfl⟩
  suffices h : ∃ s', ensurePopulated env s = (.error .runtimeError, s') by
    obtain ⟨s', h⟩ := h
    show ((ensurePopulated env >>= _ : PyM (KMState K X V) _) s).1 = _
    rw [bind_error h]
  suffices h : ∃ s', (populateUpper env true >>= fun _ => populateLower env true) s = (.error .runtimeError, s') by
    obtain ⟨s', h⟩ := h
    refine ⟨s', ?_⟩
    show ((populateUpper env true >>= fun _ => populateLower env true >>= _ : PyM (KMState K X V) Unit) s) = _
    rw [bind_run] at h ⊢
    rcases e : populateUpper env true s with ⟨e1 | _, s1⟩
    · rw [e] at h; simpa using h
    · rw [e] at h
      exact bind_error h
  have hup : populateUpper env true s = (catchAll .runtimeError (fillCells env (upperPairs a.nrows a.ncols)) >>= fun _ =>
      modify fun s => { s with populated := true } : PyM (KMState K X V) Unit) s0 := rfl
  obtain ⟨h1, h2⟩ := pending_fillCells hfail hij (upperPairs a.nrows a.ncols) s0 hs0
  obtain ⟨r, s1, f1, hr, _, hsame, _⟩ := fillCells_any (env := env) (a := a) (upperPairs a.nrows a.ncols) (upperPairs_nodup _ _) (s := s0) (f := f0) hs0.1 rfl
  rw [hr] at h1 h2
  rcases r with e | ⟨⟩
  · refine ⟨s1, bind_error ?_⟩
    rw [hup]
    exact bind_error (by rw [catchAll_run, hr])
  have hgt : j < i := by
    by_contra h
    exact h2 () rfl (mem_upperPairs.2 ⟨hi, hj, by simp only; omega⟩)
  have htwo : a.two.isSome := by
    cases h : a.two with
    | none => exact absurd (hij h) (by omega)
    | some _ => rfl
  have hup' : populateUpper env true s = (.ok (), { s1 with populated := true }) := by
    rw [hup]
    exact bind_ok (by rw [catchAll_run, hr])
  obtain ⟨s2, hs2⟩ : ∃ s2 : KMState K X V, s2 = { s1 with populated := true } := ⟨_, rfl⟩
  rw [← hs2] at hup'
  have hlow : s2.lowerFilled = false := by
    obtain ⟨_, _, _, _, _, rfl⟩ := hsame
    rw [hs2]
    rfl
  have hs2 : Pending env k a i j s2 := by
    rw [hs2]
    exact ⟨h1.1.congr rfl rfl rfl rfl rfl rfl rfl, h1.2⟩
  obtain ⟨h3, h4⟩ := pending_fillCells hfail hij (lowerPairs a.nrows a.ncols) _ hs2
  have hm := mem_lowerPairs' hi hj hgt
  rcases hr2 : fillCells env (lowerPairs a.nrows a.ncols) s2 with ⟨e | ⟨⟩, s3⟩
  swap
  · rw [hr2] at h4
    exact absurd hm (h4 () rfl)
  refine ⟨s3, ?_⟩
  rw [bind_ok hup']
  unfold populateLower
  rw [get_bind_run, hlow]
  show (catchAll .runtimeError _ >>= _ : PyM (KMState K X V) Unit) s2 = _
  refine bind_error (s' := s3) ?_
  rw [catchAll_run, bind_ok (getAttr_run_some (fun s : KMState K X V => s.shape) _ _ hs2.1.shape), bind_ok (getAttr_run_some (fun s : KMState K X V => s.twoSamples) _ _ hs2.1.two), htwo]
  rw [if_neg (by simp), hr2]

end

/-- without failures of the kernel function, `full` right after `attach_to` does not raise `RuntimeError` -/
theorem full_quiet {X : Type} {env : Env K X F} {a : Attachment X} (hops : env.ops = realOps) (hq : env.fmtRaises k = false) (hf : NoFaultsOn env k a) {norm : Bool} {P : KMOp X → Prop}
    (hP : ∀ op, P op → op = .full) {t : KMState K X F} (ht : Since env k norm a P t) :
    (full env t).1 ≠ .error .runtimeError ∧ (norm = false → ∃ T, (full env t).1 = .ok T) := by
  have hQ : Quiet env k a := fun h => by rw [hq] at h; cases h
  cases norm with
  | false =>
    have h1 := C08_full_is_gram hf hQ (Since.mono (fun op h => by rw [hP op h]; simp [KMOp.MayGoSparse]) ht)
    rw [exec_full_run] at h1
    rcases hr : (full env t).1 with e | T
    · rw [hr] at h1; cases h1
    · exact ⟨fun h => (by cases h), fun _ => ⟨T, rfl⟩⟩
  | true =>
    refine ⟨fun h => ?_, fun h => (by cases h)⟩
    have h1 := C09_full_is_normalised_gram hops hf hQ (fun h => by rw [hq] at h; cases h) (Since.mono (fun _ _ => trivial) ht)
    rw [exec_full_run] at h1
    rw [show (full env t).1 = .error .runtimeError from h] at h1
    revert h1
    rcases a.two with _ | B
    · unfold normalizeKm normalizeSquare
      split_ifs <;> intro h <;> cases h
    · show _ = (normalizeKm2 _ _ _ _).map _ → _
      unfold normalizeKm2
      split_ifs <;> intro h <;> cases h

end KMState
open KMState
variable {P X M Y : Type}

/-- what a kernel of the library raises on vectors of equal length -/
theorem NumKernel.fails_iff (k : NumKernel) {x y : List ℝ} (h : x.length = y.length) (t : Nat) :
    (argEnv (P := P) realOps).fails t (.num k) x y = true ↔ (∃ γ, k = .chi2 γ) ∧ ((∃ a ∈ x, a < 0) ∨ ∃ a ∈ y, a < 0) := by
  show (match k.call false (.vec x) (.vec y) with
    | .ok _ => false
    | .error _ => true) = true ↔ _
  rw [call_vec k h]
  cases k <;> simp [NumKernel.eval]
  split_ifs with h <;> simp [h]

theorem Machine.tag_iff {s : Machine (KernelArg P) X M Y} {k : NumKernel} (hk : s.kFunc = some (.num k)) : Tag.requiresPositiveX ∈ s.moreTags ↔ ∃ γ, k = .chi2 γ := by
  unfold Machine.moreTags
  rw [hk]
  cases k <;> simp

theorem KMState.noFaults_num {k : NumKernel} {a : Attachment (List ℝ)} {d : Nat} (hl : ∀ x, a.IsRow x → x.length = d)
    (h : ¬ ((∃ γ, k = .chi2 γ) ∧ ∃ x, a.IsRow x ∧ ∃ b ∈ x, b < 0)) : NoFaultsOn (argEnv (P := P) realOps) (.num k) a := by
  intro t x y hx hy
  by_contra hc
  obtain ⟨h1, h2⟩ := (NumKernel.fails_iff k ((hl x hx).trans (hl y hy).symm) t).1 (by simpa using hc)
  rcases h2 with h2 | h2
  · exact h ⟨h1, x, hx, h2⟩
  · exact h ⟨h1, y, hy, h2⟩

theorem Arr2.Rect.rows {A : Arr2 (List ℝ)} (hA : A.Rect) : ∀ x, Attachment.IsRow ⟨A, none⟩ x → x.length = A.ncols := by
  rintro x (⟨i, hi, rfl⟩ | ⟨B, i, h, -⟩)
  · exact hA i hi
  · cases h

theorem Arr2.Rect.rows2 {A B : Arr2 (List ℝ)} (hA : A.Rect) (hB : B.Rect) (h : B.ncols = A.ncols) : ∀ x, Attachment.IsRow ⟨B, some A⟩ x → x.length = A.ncols := by
  rintro x (⟨i, hi, rfl⟩ | ⟨C, i, hC, hi, rfl⟩)
  · exact (hB i hi).trans h
  · cases hC
    exact hA i hi

end KMethods
