import Verif.Lemmas.Rely
import Verif.Spec.Threads
import Verif.Lemmas.Access
import Verif.Lemmas.KMFaultFree
import Verif.Lemmas.Threads
import Verif.Lemmas.KMGood
/-!
# Threads: what every interleaving keeps
-/
namespace KMethods
namespace Shared
variable {K X V α β ι : Type}
open Prog Rely

/-- what else threads rely on: an invariant, and facts that are never invalidated -/
structure Extra (K X V : Type) where
  holds : Shared K X V → Prop
  kept : (Shared K X V → Prop) → Prop

/-- the changes that the threads make: nothing that exists disappears -/
structure Grows (J : Extra K X V) (t t' : Shared K X V) : Prop where
  cache : ∀ p, (t.km.cache.lookup p).isSome = true → (t'.km.cache.lookup p).isSome = true
  ref : t.ref.isSome = true → t'.ref.isSome = true
  normed : t.km.isNormed = true → t'.km.isNormed = true
  normedKm : t.km.normedKm.isSome = true → t'.km.normedKm.isSome = true
  centered : t.km.isCentered = true → t'.km.isCentered = true
  centeredKm : t.km.centeredKm.isSome = true → t'.km.centeredKm.isSome = true
  frob : t.km.frobNorm.isSome = true → t'.km.frobNorm.isSome = true
  kept : ∀ A, J.kept A → A t → A t'

/-- what threads rely on: attached to `a` with kernel `k`, memoised values right, and `J`; counted are the completed
evaluations of the pair `p0` -/
def rely (env : Env K X V) (a : Attachment X) (k : K) (p0 : Nat × Nat) (J : Extra K X V) : Rely (Shared K X V) where
  Inv t := KMState.AttachedTo env a t.km ∧ t.km.kernel = k ∧ J.holds t
  R := Grows J
  c t := t.km.succ.count p0
  refl _ := ⟨fun _ h => h, id, id, id, id, id, id, fun _ _ h => h⟩
  trans h h' := ⟨fun p hp => h'.cache p (h.cache p hp), fun x => h'.ref (h.ref x), fun x => h'.normed (h.normed x),
    fun x => h'.normedKm (h.normedKm x), fun x => h'.centered (h.centered x), fun x => h'.centeredKm (h.centeredKm x),
    fun x => h'.frob (h.frob x), fun A hA x => h'.kept A hA (h.kept A hA x)⟩

/-- the assertion does not concern memo table and counters -/
def Unaffected' (A : Shared K X V → Prop) : Prop :=
  ∀ t c n u cl, A t → A { t with km := { t.km with cache := c, numKerEval := n, succ := u, clock := cl } }

/-- `J` does not concern memo table and counters -/
def Unaffected (J : Extra K X V) : Prop := Unaffected' J.holds ∧ ∀ A, J.kept A → Unaffected' A

/-- the pair may still be evaluated by this thread, or it is memoised -/
def Allow (p0 : Nat × Nat) (b : Nat) (t : Shared K X V) : Prop := 0 < b ∨ (t.km.cache.lookup p0).isSome = true

section
variable {env : Env K X V} {a : Attachment X} {k : K} {p0 : Nat × Nat} {J : Extra K X V}

theorem stable_allow : Stable (rely env a k p0 J) (Allow p0) := fun _ _ _ h hr => h.imp id fun h => hr.cache _ h

/-- exceptions that leave the budget in order -/
def Err (p0 : Nat × Nat) (E : PyErr → Prop) (e : PyErr) (b : Nat) (t : Shared K X V) : Prop := Allow p0 b t ∧ E e

theorem stable_and {ρ : Rely (Shared K X V)} {P Q : Nat → Shared K X V → Prop} (h : Stable ρ P) (h' : Stable ρ Q) :
    Stable ρ (fun b s => P b s ∧ Q b s) := fun b s s' hp hr => ⟨h b s s' hp.1 hr, h' b s s' hp.2 hr⟩

theorem stable_const {ρ : Rely (Shared K X V)} (C : Prop) : Stable ρ (fun _ _ => C) := fun _ _ _ h _ => h

/-- a step that changes memo table and counters only -/
theorem grows_cache (hJ : Unaffected J) (t : Shared K X V) (c : List ((Nat × Nat) × V)) (n : Nat) (u : List (Nat × Nat)) (cl : Nat)
    (h : ∀ p, (t.km.cache.lookup p).isSome = true → (c.lookup p).isSome = true) :
    Grows J t { t with km := { t.km with cache := c, numKerEval := n, succ := u, clock := cl } } :=
  ⟨h, id, id, id, id, id, id, fun A hA => hJ.2 A hA t c n u cl⟩

theorem lookup_cons_isSome (p q : Nat × Nat) (v : V) (c : List ((Nat × Nat) × V)) (h : (c.lookup p).isSome = true) :
    (((q, v) :: c).lookup p).isSome = true := by
  rw [List.lookup_cons]
  split
  · rfl
  · exact h

/-- the rows of the memo key `p` exist -/
def KeyOk (a : Attachment X) (p : Nat × Nat) : Prop := p.1 < a.one.nrows ∧ p.2 < (a.two.getD a.one).nrows

theorem KeyOk.row {p : Nat × Nat} (h : KeyOk a p) : a.IsRow (a.one.row p.1) ∧ a.IsRow ((a.two.getD a.one).row p.2) := by
  refine ⟨Or.inl ⟨_, h.1, rfl⟩, ?_⟩
  have h2 := h.2
  rcases ha : a.two with _ | y
  · rw [ha] at h2; exact Or.inl ⟨_, h2, rfl⟩
  · rw [ha] at h2; exact Or.inr ⟨_, _, ha, h2, rfl⟩

theorem tri_memo {E : PyErr → Nat → Shared K X V → Prop} {F : Nat → Shared K X V → Prop} (hF : Stable (rely env a k p0 J) F) (p : Nat × Nat) :
    (rely env a k p0 J).Tri (fun b t => F b t ∧ (t.km.cache.lookup p).isSome = true) (memo p)
      (fun v b t => F b t ∧ v = env.kval k (a.one.row p.1) ((a.two.getD a.one).row p.2)) E := by
  refine tri_look fun b s0 s hp hr hi => ?_
  have hc := hr.cache _ hp.2
  obtain ⟨v, hv⟩ := Option.isSome_iff_exists.1 hc
  refine ⟨v, by unfold onKM; simp only [hv], hF _ _ _ hp.1 hr, ?_⟩
  have := hi.1.sound _ _ hv
  rw [hi.2.1] at this
  exact this

theorem tri_evalAt (hJ : Unaffected J) {p : Nat × Nat} (hp : KeyOk a p) :
    (rely env a k p0 J).Tri (Allow p0) (evalAtP env p)
      (fun v b t => Allow p0 b t ∧ v = env.kval k (a.one.row p.1) ((a.two.getD a.one).row p.2))
      (Err p0 fun e => e = .kernelFault ∧ HasFault env a k) := by
  refine (tri_read stable_allow _).bind fun hit => ?_
  cases hit
  swap
  · refine (tri_memo (F := Allow p0) stable_allow p).mono ?_ (fun _ _ _ h => h) fun _ _ _ h => h
    rintro b s ⟨h1, _, h3⟩
    exact ⟨h1, h3.symm⟩
  · simp only [Bool.false_eq_true, if_false]
    -- the pair is missing: if it is the counted one, the budget is positive
    have hst : Stable (rely env a k p0 J) (fun b t => Allow p0 b t ∧ (p = p0 → 0 < b)) :=
      stable_and stable_allow fun _ _ _ h _ => h
    have key : ∀ b s, (Allow p0 b s ∧ (rely env a k p0 J).Inv s ∧ false = (s.km.cache.lookup p).isSome) → Allow p0 b s ∧ (p = p0 → 0 < b) := by
      rintro b s ⟨h1, _, h3⟩
      refine ⟨h1, ?_⟩
      rintro rfl
      rcases h1 with h1 | h1
      · exact h1
      · rw [h1] at h3; simp at h3
    refine Tri.mono (P := fun b t => Allow p0 b t ∧ (p = p0 → 0 < b)) ?_ key (fun _ _ _ h => h) fun _ _ _ h => h
    refine Tri.bind (Q := fun x b t => (Allow p0 b t ∧ (p = p0 → 0 < b)) ∧ x = a.one.row p.1) ?_ fun x => Tri.given ?_
    · exact tri_look fun b s0 s h hr hi => ⟨a.one.row p.1,
        by unfold onKM KMState.rowAt; simp only [hi.1.sample, hp.1, if_true], hst _ _ _ h hr, rfl⟩
    rintro rfl
    refine Tri.bind (Q := fun y b t => (Allow p0 b t ∧ (p = p0 → 0 < b)) ∧ y = (a.two.getD a.one).row p.2) ?_ fun y => Tri.given ?_
    · exact tri_look fun b s0 s h hr hi => ⟨(a.two.getD a.one).row p.2,
        by unfold onKM KMState.rowAt; simp only [hi.1.sampleTwo, hp.2, if_true], hst _ _ _ h hr, rfl⟩
    rintro rfl
    generalize hval : env.kval k (a.one.row p.1) ((a.two.getD a.one).row p.2) = val
    refine Tri.bind (Q := fun v b t => (p ≠ p0 → Allow p0 b t) ∧ v = val) ?_ fun v => Tri.given ?_
    · refine tri_atomic' fun b s0 s h hr hi => ?_
      have h := hst _ _ _ h hr
      by_cases hf : env.fails s.km.clock s.km.kernel (a.one.row p.1) ((a.two.getD a.one).row p.2) = true
      · have hm : onKM (KMState.callKernel env p (a.one.row p.1) ((a.two.getD a.one).row p.2)) s =
            (.error .kernelFault, { s with km := { s.km with clock := s.km.clock + 1 } }) := by
          unfold onKM KMState.callKernel; simp only [hf, if_true]
        refine ⟨_, _, hm, ⟨hi.1.congr rfl rfl rfl rfl rfl rfl rfl, hi.2.1, hJ.1 _ _ _ _ _ hi.2.2⟩, ⟨fun _ h => h, id, id, id, id, id, id, fun A hA => hJ.2 A hA _ _ _ _ _⟩, b, le_rfl, ?_⟩
        exact ⟨h.1, rfl, ⟨_, _, _, hp.row.1, hp.row.2, by rw [hi.2.1] at hf; exact hf⟩⟩
      · have hm : onKM (KMState.callKernel env p (a.one.row p.1) ((a.two.getD a.one).row p.2)) s =
            (.ok (env.kval s.km.kernel (a.one.row p.1) ((a.two.getD a.one).row p.2)),
              { s with km := { s.km with clock := s.km.clock + 1, succ := p :: s.km.succ } }) := by
          unfold onKM KMState.callKernel; simp only [hf, if_false, Bool.false_eq_true]
        refine ⟨_, _, hm, ⟨hi.1.congr rfl rfl rfl rfl rfl rfl rfl, hi.2.1, hJ.1 _ _ _ _ _ hi.2.2⟩, ⟨fun _ h => h, id, id, id, id, id, id, fun A hA => hJ.2 A hA _ _ _ _ _⟩,
          if p = p0 then b - 1 else b, ?_, ?_⟩
        · show (p :: s.km.succ).count p0 + _ ≤ s.km.succ.count p0 + b
          rw [List.count_cons]
          by_cases hpp : p = p0
          · have := h.2 hpp
            simp only [hpp, beq_self_eq_true, if_true]
            omega
          · simp [hpp]
        · refine ⟨fun hpp => ?_, by rw [hi.2.1]; exact hval⟩
          simp only [hpp, if_false]
          exact h.1
    rintro rfl
    have hst2 : Stable (rely env a k p0 J) (fun b t => p ≠ p0 → Allow p0 b t) := fun b s s' h hr hpp => stable_allow b s s' (h hpp) hr
    refine Tri.bind (Q := fun _ b t => Allow p0 b t ∧ (t.km.cache.lookup p).isSome = true) ?_ fun _ => ?_
    · refine tri_write hst2 ?_ ?_
      · rintro s hi -
        refine ⟨⟨⟨hi.1.sample, hi.1.sampleTwo, hi.1.shape, hi.1.two, hi.1.num, ?_⟩, hi.2.1, hJ.1 _ _ _ _ _ hi.2.2⟩,
          grows_cache hJ _ _ _ _ _ fun q hq => lookup_cons_isSome _ _ _ _ hq, rfl⟩
        intro q w hw
        have hw : ((p, v) :: s.km.cache).lookup q = some w := hw
        rw [List.lookup_cons] at hw
        split at hw
        · rename_i hqp
          have : q = p := by simpa using hqp
          have hw : v = w := by simpa using hw
          rw [← hw, ← hval, this]
          show _ = env.kval s.km.kernel _ _
          rw [hi.2.1]
        · exact hi.1.sound q w hw
      · intro b s _ h
        have hself : (((p, v) :: s.km.cache).lookup p).isSome = true := by simp
        refine ⟨?_, hself⟩
        by_cases hpp : p = p0
        · subst hpp; exact Or.inr hself
        · exact (h hpp).imp id fun h => lookup_cons_isSome _ _ _ _ h
    have hst3 : Stable (rely env a k p0 J) (fun b t => Allow p0 b t ∧ (t.km.cache.lookup p).isSome = true) :=
      stable_and stable_allow fun _ _ _ h hr => hr.cache _ h
    refine (tri_read hst3 _).bind fun n => Tri.bind (Q := fun _ b t => Allow p0 b t ∧ (t.km.cache.lookup p).isSome = true) ?_ fun _ => ?_
    · refine Tri.mono (tri_write hst3 ?_ fun b s _ h => h) (fun _ _ h => h.1) (fun _ _ _ h => h) fun _ _ _ h => h
      rintro s hi -
      exact ⟨⟨hi.1.congr rfl rfl rfl rfl rfl rfl rfl, hi.2.1, hJ.1 _ _ _ _ _ hi.2.2⟩, ⟨fun _ h => h, id, id, id, id, id, id, fun A hA => hJ.2 A hA _ _ _ _ _⟩, rfl⟩
    · subst hval
      exact (tri_memo (F := Allow p0) stable_allow p)

theorem tri_attr {f : KMState K X V → Option α} {x : α} {P : Nat → Shared K X V → Prop} {E : PyErr → Nat → Shared K X V → Prop}
    (hP : Stable (rely env a k p0 J) P) (hx : ∀ t, (rely env a k p0 J).Inv t → f t.km = some x) :
    (rely env a k p0 J).Tri P (attr f) (fun v b t => P b t ∧ v = x) E :=
  tri_look fun b s0 s hp hr hi => ⟨x, by unfold onKM; rw [PyM.getAttr_run, hx s hi], hP _ _ _ hp hr, rfl⟩

theorem tri_evalKernel (hJ : Unaffected J) {i j : Nat} (hi : i < a.nrows) (hj : j < a.ncols) :
    (rely env a k p0 J).Tri (Allow p0) (evalKernelP env i j)
      (fun v b t => Allow p0 b t ∧ v = a.entry (env.kval k) i j)
      (Err p0 fun e => e = .kernelFault ∧ HasFault env a k) := by
  have hcols : a.two = none → a.ncols = a.nrows := fun h => by unfold Attachment.ncols Attachment.nrows; rw [h]
  have hval : ∀ p : Nat × Nat, p = (if i > j ∧ a.two = none then (j, i) else (i, j)) → KeyOk a p ∧
      env.kval k (a.one.row p.1) ((a.two.getD a.one).row p.2) = a.entry (env.kval k) i j := by
    rintro p rfl
    rcases a with ⟨x, _ | y⟩
    · have := hcols rfl
      by_cases hij : i > j
      · have h1 : min i j = j := by omega
        have h2 : max i j = i := by omega
        simp [hij, KeyOk, Attachment.entry, h1, h2]
        exact ⟨by rw [this] at hj; exact hj, hi⟩
      · have h1 : min i j = i := by omega
        have h2 : max i j = j := by omega
        simp [hij, KeyOk, Attachment.entry, h1, h2]
        exact ⟨hi, by rw [this] at hj; exact hj⟩
    · simp [KeyOk, Attachment.entry]
      exact ⟨hi, hj⟩
  have go : ∀ p : Nat × Nat, p = (if i > j ∧ a.two = none then (j, i) else (i, j)) →
      (rely env a k p0 J).Tri (Allow p0) (evalAtP env p) (fun v b t => Allow p0 b t ∧ v = a.entry (env.kval k) i j)
        (Err p0 fun e => e = .kernelFault ∧ HasFault env a k) := by
    intro p hp
    obtain ⟨h1, h2⟩ := hval p hp
    exact (tri_evalAt hJ h1).mono (fun _ _ h => h) (fun v b t h => ⟨h.1, h.2.trans h2⟩) fun _ _ _ h => h
  unfold evalKernelP
  refine tri_ite (fun hij => ?_) fun hij => go _ (by simp [hij])
  refine (tri_attr stable_allow (x := a.two.isSome) fun t ht => ht.1.two).bind fun tw => Tri.given ?_
  rintro rfl
  rcases h : a.two with _ | y
  · exact go _ (by simp [hij, h])
  · exact go _ (by simp [h])

end

section general
variable {env : Env K X V} {a : Attachment X} {k : K} {p0 : Nat × Nat} {keep : Bool}

/-- every cell of every array is right or has not been written yet; flags are raised after the things they stand for exist -/
structure Sound (env : Env K X V) (a : Attachment X) (k : K) (keep : Bool) (t : Shared K X V) : Prop where
  keep : t.km.keepNormed = keep
  cells : ∀ r i j, CellOk env a k i j ((t.heap r).cell i j)
  populated : t.km.populated = true → t.ref.isSome = true
  normed : t.km.isNormed = true → t.km.normedKm.isSome = true
  centered : t.km.isCentered = true → t.km.centeredKm.isSome = true

/-- no more than that -/
abbrev soundly (env : Env K X V) (a : Attachment X) (k : K) (keep : Bool) : Extra K X V := ⟨Sound env a k keep, fun _ => False⟩

theorem unaffected_sound : Unaffected (soundly env a k keep) :=
  ⟨fun _ _ _ _ _ h => ⟨h.keep, h.cells, h.populated, h.normed, h.centered⟩, fun _ h => h.elim⟩

local notation "ρg" => rely env a k p0 (soundly env a k keep)

/-- the attribute `_full_km` exists -/
abbrev HasRef (_ : Nat) (t : Shared K X V) : Prop := t.ref.isSome = true

theorem stable_ref {J : Extra K X V} : Stable (rely env a k p0 J) HasRef := fun _ _ _ h hr => hr.ref h

abbrev Ready (p0 : Nat × Nat) (b : Nat) (t : Shared K X V) : Prop := Allow p0 b t ∧ t.ref.isSome = true
theorem stable_ready {J : Extra K X V} : Stable (rely env a k p0 J) (Ready p0) := stable_and stable_allow stable_ref

theorem grows_poke (t : Shared K X V) (r : Option Nat) (g : Full V → Full V) : Grows (soundly env a k keep) t (poke r g t) :=
  ⟨fun _ h => h, id, id, id, id, id, id, fun _ h => h.elim⟩
theorem grows_alloc (t : Shared K X V) (f : Full V) : Grows (soundly env a k keep) t (alloc f t) :=
  ⟨fun _ h => h, fun _ => rfl, id, id, id, id, id, fun _ h => h.elim⟩

theorem Sound.poke {t : Shared K X V} (h : Sound env a k keep t) (r : Option Nat) (g : Full V → Full V)
    (hg : ∀ f : Full V, (∀ i j, CellOk env a k i j (f.cell i j)) → ∀ i j, CellOk env a k i j ((g f).cell i j)) :
    Sound env a k keep (poke r g t) := by
  refine ⟨h.keep, fun r' => ?_, h.populated, h.normed, h.centered⟩
  show ∀ i j, CellOk env a k i j ((if r = some r' then g (t.heap r') else t.heap r').cell i j)
  split
  · exact hg _ (h.cells r')
  · exact h.cells r'

theorem Sound.alloc {t : Shared K X V} (h : Sound env a k keep t) (f : Full V) (hf : ∀ i j, CellOk env a k i j (f.cell i j)) :
    Sound env a k keep (alloc f t) := by
  refine ⟨h.keep, fun r' => ?_, fun _ => rfl, h.normed, h.centered⟩
  show ∀ i j, CellOk env a k i j ((if r' = t.next then f else t.heap r').cell i j)
  split
  · exact hf
  · exact h.cells r'

theorem tri_fillCells {l : List (Nat × Nat)} (hl : ∀ p ∈ l, p.1 < a.nrows ∧ p.2 < a.ncols) :
    (ρg).Tri (Allow p0) (fillCellsP env l) (fun _ => Allow p0) (Err p0 (FaultErr env a k)) := by
  refine tri_forEach fun p hp => ?_
  refine (tri_evalKernel unaffected_sound (hl p hp).1 (hl p hp).2).bind fun v => Tri.given ?_
  rintro rfl
  refine (tri_read stable_allow _).bind fun r => ?_
  refine Tri.mono (tri_write stable_allow ?_ fun b s _ h => h) (fun _ _ h => h.1) (fun _ _ _ h => h) fun _ _ _ h => h
  rintro s hi -
  refine ⟨⟨hi.1.congr rfl rfl rfl rfl rfl rfl rfl, hi.2.1, hi.2.2.poke r _ ?_⟩, grows_poke _ _ _, rfl⟩
  intro f hf i j
  show CellOk env a k i j (if i = p.1 ∧ j = p.2 then _ else f.cell i j)
  split
  · rename_i h; rw [h.1, h.2]; exact Or.inl rfl
  · exact hf i j

theorem tri_symmetrize (h2 : a.two = none) {E : PyErr → Nat → Shared K X V → Prop} :
    (ρg).Tri (Allow p0) symmetrizeP (fun _ => Allow p0) E := by
  refine (tri_read stable_allow _).bind fun r => ?_
  refine Tri.mono (P := Allow p0) ?_ (fun _ _ h => h.1) (fun _ _ _ h => h) fun _ _ _ h => h
  refine (tri_read stable_allow _).bind fun old => ?_
  refine Tri.mono (P := fun b t => Allow p0 b t ∧ ∀ f, old = some f → ∀ i j, CellOk env a k i j (f.cell i j)) ?_ ?_ (fun _ _ _ h => h) fun _ _ _ h => h
  swap
  · rintro b t ⟨h1, h2, rfl⟩
    refine ⟨h1, fun f hf => ?_⟩
    obtain ⟨r', _, rfl⟩ := Option.map_eq_some_iff.1 hf
    exact h2.2.2.cells r'
  refine Tri.given fun hold => (tri_read stable_allow _).bind fun r' => ?_
  refine Tri.mono (tri_write stable_allow ?_ fun b s _ h => h) (fun _ _ h => h.1) (fun _ _ _ h => h) fun _ _ _ h => h
  rintro s hi -
  refine ⟨⟨hi.1.congr rfl rfl rfl rfl rfl rfl rfl, hi.2.1, hi.2.2.poke r' _ ?_⟩, grows_poke _ _ _, rfl⟩
  intro f hf i j
  show CellOk env a k i j (if j < i then (old.getD f).cell j i else f.cell i j)
  split
  · have : CellOk env a k j i ((old.getD f).cell j i) := by
      rcases old with _ | g
      · exact hf j i
      · exact hold g rfl j i
    unfold CellOk at this ⊢
    rwa [Attachment.entry_symm a _ h2 i j]
  · exact hf i j

theorem tri_wr {P : Nat → Shared K X V → Prop} {Q : Unit → Nat → Shared K X V → Prop} {E : PyErr → Nat → Shared K X V → Prop}
    {f : KMState K X V → KMState K X V} {J : Extra K X V} (hP : Stable (rely env a k p0 J) P)
    (hatt : ∀ s, (f s).sample = s.sample ∧ (f s).sampleTwo = s.sampleTwo ∧ (f s).shape = s.shape ∧ (f s).twoSamples = s.twoSamples ∧
      (f s).numSamples = s.numSamples ∧ (f s).cache = s.cache ∧ (f s).kernel = s.kernel ∧ (f s).succ = s.succ)
    (hJ : ∀ t b, (rely env a k p0 J).Inv t → P b t → J.holds { t with km := f t.km } ∧ Grows J t { t with km := f t.km })
    (hQ : ∀ b t, (rely env a k p0 J).Inv t → P b t → Q () b { t with km := f t.km }) : (rely env a k p0 J).Tri P (wr f) Q E := by
  refine tri_write hP ?_ hQ
  rintro t hi ⟨b, hp⟩
  obtain ⟨h1, h2, h3, h4, h5, h6, h7, h8⟩ := hatt t.km
  obtain ⟨g1, g2⟩ := hJ t b hi hp
  refine ⟨⟨hi.1.congr h1 h2 h3 h4 h5 h6 h7, h7.trans hi.2.1, g1⟩, g2, ?_⟩
  show (f t.km).succ.count p0 = t.km.succ.count p0
  rw [h8]

theorem tri_populateUpper (d : Bool) : (ρg).Tri (Allow p0) (populateUpperP env d) (fun _ => Ready p0) (Err p0 (FillErr env a k)) := by
  refine (tri_read stable_allow _).bind fun pop => ?_
  cases pop
  swap
  · refine tri_pure ?_
    rintro b s ⟨h1, h2, h3⟩
    exact ⟨h1, h2.2.2.populated h3.symm⟩
  refine Tri.mono (P := Allow p0) ?_ (fun _ _ h => h.1) (fun _ _ _ h => h) fun _ _ _ h => h
  refine (tri_read stable_allow _).bind fun missing => tri_when (fun _ => ?_) ?_
  swap
  · rintro rfl b s ⟨h1, h2, h3⟩
    exact ⟨h1, by rcases hr : s.ref with _ | r <;> simp_all⟩
  refine Tri.mono (P := Allow p0) ?_ (fun _ _ h => h.1) (fun _ _ _ h => h) fun _ _ _ h => h
  refine (tri_attr stable_allow (x := (a.nrows, a.ncols)) fun t ht => ht.1.shape).bind fun sh => Tri.given ?_
  rintro rfl
  refine Tri.bind (Q := fun _ => Ready p0) (tri_write stable_allow ?_ ?_) fun _ => ?_
  · rintro s hi -
    refine ⟨⟨hi.1.congr rfl rfl rfl rfl rfl rfl rfl, hi.2.1, hi.2.2.alloc _ ?_⟩, grows_alloc _ _, rfl⟩
    intro i j
    cases d
    · exact Or.inr (Or.inr rfl)
    · exact Or.inr (Or.inl rfl)
  · exact fun b s _ h => ⟨h, rfl⟩
  refine Tri.bind (Q := fun _ => Ready p0) ?_ fun _ => ?_
  · intro b s hp
    refine Safe.catchAll (E := Err p0 (FaultErr env a k)) ?_ ?_
    · refine ((tri_fillCells (keep := keep) fun p hp => ?_).frame (F := fun t => t.ref.isSome = true) fun s s' h (hr : Grows _ s s') => hr.ref h) b s hp
      obtain ⟨h1, h2, _⟩ := KMState.mem_upperPairs.1 hp
      exact ⟨h1, h2⟩
    · exact fun _ _ _ h => ⟨h.1, Or.inl ⟨rfl, h.2.2⟩⟩
  · exact tri_wr stable_ready (fun _ => ⟨rfl, rfl, rfl, rfl, rfl, rfl, rfl, rfl⟩)
      (fun t b hi hp => ⟨⟨hi.2.2.keep, hi.2.2.cells, fun _ => hp.2, hi.2.2.normed, hi.2.2.centered⟩, ⟨fun _ h => h, id, id, id, id, id, id, fun _ h => h.elim⟩⟩)
      fun b t _ h => h

theorem tri_populateLower (l : Bool) : (ρg).Tri (Allow p0) (populateLowerP env l) (fun _ => Allow p0) (Err p0 (FillErr env a k)) := by
  refine tri_when (fun _ => ?_) fun _ b s h => h
  refine (tri_read stable_allow _).bind fun low => tri_when (fun _ => ?_) fun _ b s h => h.1
  refine Tri.mono (P := Allow p0) ?_ (fun _ _ h => h.1) (fun _ _ _ h => h) fun _ _ _ h => h
  refine Tri.bind (Q := fun _ => Allow p0) ?_ fun _ => ?_
  · intro b s hp
    refine Safe.catchAll (E := Err p0 (FaultErr env a k)) ?_ ?_
    · refine Tri.bind (tri_attr stable_allow (x := (a.nrows, a.ncols)) fun t ht => ht.1.shape) (fun sh => Tri.given ?_) b s hp
      rintro rfl
      refine (tri_attr stable_allow (x := a.two.isSome) fun t ht => ht.1.two).bind fun tw => Tri.given ?_
      rintro rfl
      refine tri_ite (fun h => ?_) fun _ => ?_
      · refine tri_symmetrize ?_
        rcases h2 : a.two with _ | y
        · rfl
        · rw [h2] at h; simp at h
      · refine tri_fillCells fun p hp => ?_
        obtain ⟨h1, h2, _⟩ := KMState.mem_lowerPairs.1 hp
        exact ⟨h1, h2⟩
    · exact fun _ _ _ h => ⟨h.1, Or.inl ⟨rfl, h.2.2⟩⟩
  · exact tri_wr stable_allow (fun _ => ⟨rfl, rfl, rfl, rfl, rfl, rfl, rfl, rfl⟩)
      (fun t b hi hp => ⟨⟨hi.2.2.keep, hi.2.2.cells, hi.2.2.populated, hi.2.2.normed, hi.2.2.centered⟩, ⟨fun _ h => h, id, id, id, id, id, id, fun _ h => h.elim⟩⟩)
      fun b t _ h => h

theorem tri_load {J : Extra K X V} {E : PyErr → Nat → Shared K X V → Prop} :
    (rely env a k p0 J).Tri (Ready p0) load (fun _ => Ready p0) E := by
  refine tri_look fun b s0 s hp hr hi => ?_
  obtain ⟨r, hr'⟩ := Option.isSome_iff_exists.1 (hr.ref hp.2)
  exact ⟨r, by simp only [hr'], stable_ready _ _ _ hp hr⟩

theorem tri_densify (d : Bool) {E : PyErr → Nat → Shared K X V → Prop} : (ρg).Tri (Ready p0) (densifyP d) (fun _ => Ready p0) E := by
  refine tri_load.bind fun r => (tri_read stable_ready _).bind fun sp => tri_when (fun _ => ?_) fun _ b s h => h.1
  refine Tri.mono (P := Ready p0) ?_ (fun _ _ h => h.1) (fun _ _ _ h => h) fun _ _ _ h => h
  refine tri_load.bind fun r => (tri_read stable_ready _).bind fun f => ?_
  refine Tri.mono (P := fun b t => Ready p0 b t ∧ ∀ i j, CellOk env a k i j (f.cell i j)) ?_ ?_ (fun _ _ _ h => h) fun _ _ _ h => h
  swap
  · rintro b t ⟨h1, h2, rfl⟩
    exact ⟨h1, h2.2.2.cells r⟩
  refine Tri.given fun hf => tri_write stable_ready ?_ fun b s _ h => ⟨h.1, rfl⟩
  rintro s hi -
  exact ⟨⟨hi.1.congr rfl rfl rfl rfl rfl rfl rfl, hi.2.1, hi.2.2.alloc _ hf⟩, grows_alloc _ _, rfl⟩

theorem tri_fullMat {E : PyErr → Nat → Shared K X V → Prop} :
    (ρg).Tri (Ready p0) fullMatP (fun A b t => Ready p0 b t ∧ MatOk env a k A.2) E := by
  refine tri_load.bind fun r => (tri_attr stable_ready (x := (a.nrows, a.ncols)) fun t ht => ht.1.shape).bind fun sh => Tri.given ?_
  rintro rfl
  refine (tri_read stable_ready _).mono (fun _ _ h => h) ?_ fun _ _ _ h => h
  rintro A b t ⟨h1, h2, rfl⟩
  exact ⟨h1, _, rfl, h2.2.2.cells r⟩

theorem tri_warn {P : Nat → Shared K X V → Prop} (hP : Stable ρg P) (hA : ∀ b t, P b t → Allow p0 b t) (M : Mat V) :
    (ρg).Tri P (warnNonFiniteP env M) (fun _ => P) (Err p0 fun e => e = .typeError ∧ env.fmtRaises k = true) := by
  refine (tri_read hP _).bind fun k' => tri_raiseIf ?_ fun _ b s h => h.1
  rintro h b s ⟨h1, h2, rfl⟩
  refine ⟨hA _ _ h1, rfl, ?_⟩
  have h : (env.fmtRaises s.km.kernel && env.ops.nonFinite M) = true := h
  rw [h2.2.1, Bool.and_eq_true] at h
  exact h.1

theorem tri_populateFully (d l : Bool) : (ρg).Tri (Allow p0) (populateFullyP env d l) (fun _ => Ready p0) (Err p0 (FillErr env a k)) := by
  refine (tri_populateUpper d).bind fun _ => Tri.bind (Q := fun _ => Ready p0) ?_ fun _ => (tri_densify d).bind fun _ => tri_fullMat.bind fun A => ?_
  · exact Tri.frame (F := fun t : Shared K X V => t.ref.isSome = true) (fun s s' h (hr : Grows _ s s') => hr.ref h) (tri_populateLower l)
  · exact (tri_warn stable_ready (fun _ _ h => h.1) A.2).mono (fun _ _ h => h.1) (fun _ _ _ h => h) fun _ _ _ h => ⟨h.1, Or.inr h.2⟩

theorem tri_ensure : (ρg).Tri (Allow p0) (ensurePopulatedP env) (fun _ => Ready p0) (Err p0 (FillErr env a k)) := by
  refine (tri_read stable_allow _).bind fun pop => tri_when (fun _ => ?_) ?_
  · exact (tri_populateFully true true).mono (fun _ _ h => h.1) (fun _ _ _ h => h) fun _ _ _ h => h
  · rintro h b s ⟨h1, h2, rfl⟩
    exact ⟨h1, h2.2.2.populated (by simpa using h)⟩

theorem tri_diagonal : (ρg).Tri (Allow p0) (diagonalP env) (fun l b t => Allow p0 b t ∧ a.two = none ∧ l = a.one.selfs (env.kval k))
    (Err p0 fun e => (e = .kmAccess ∧ a.two.isSome = true) ∨ FaultErr env a k e) := by
  refine (tri_attr stable_allow (x := a.two.isSome) fun t ht => ht.1.two).bind fun tw => Tri.given ?_
  rintro rfl
  refine tri_ite (fun h => tri_throw fun b s hp => ⟨hp, Or.inl ⟨rfl, h⟩⟩) fun h => ?_
  have h2 : a.two = none := by
    rcases ha : a.two with _ | y
    · rfl
    · rw [ha] at h; simp at h
  have hcols : a.ncols = a.nrows := by unfold Attachment.ncols Attachment.nrows; rw [h2]
  refine (tri_attr stable_allow (x := (a.nrows, a.ncols)) fun t ht => ht.1.shape).bind fun sh => Tri.given ?_
  rintro rfl
  refine Tri.mono (tri_mapEach (P := Allow p0) (fun i => a.entry (env.kval k) i i) fun i hi => ?_) (fun _ _ h => h) ?_ fun _ _ _ h => h
  · have hi := List.mem_range.1 hi
    exact (tri_evalKernel unaffected_sound hi (by rw [hcols]; exact hi)).mono (fun _ _ h => h) (fun _ _ _ h => h) fun _ _ _ h => ⟨h.1, Or.inr h.2⟩
  · rintro l b t ⟨h1, rfl⟩
    refine ⟨h1, h2, ?_⟩
    unfold Arr2.selfs Attachment.entry
    rw [h2]
    simp only [min_self, max_self]
    rfl

theorem tri_compute {J : Extra K X V} (hJ : Unaffected J) {one two : List Nat} (h1 : ∀ i ∈ one, i < a.nrows) (h2 : ∀ j ∈ two, j < a.ncols) :
    (rely env a k p0 J).Tri (Allow p0) (computeP env one two) (fun A b t => Allow p0 b t ∧ A = (.dense, a.sub (env.kval k) one two))
      (Err p0 (FaultErr env a k)) := by
  refine (tri_mapEach (P := Allow p0) (fun p : Nat × Nat => a.entry (env.kval k) p.1 p.2) fun p hp => ?_).bind fun vs => Tri.given ?_
  · obtain ⟨i, hi, hp⟩ := List.mem_flatMap.1 hp
    obtain ⟨j, hj, rfl⟩ := List.mem_map.1 hp
    exact tri_evalKernel hJ (h1 i hi) (h2 j hj)
  · rintro rfl
    refine tri_pure fun b s hp => ⟨hp, ?_⟩
    congr 1
    apply KMState.ofCells_congr
    intro p hp q hq
    rw [List.map_flatMap]
    have := flatMap_getD one two (fun i j => a.entry (env.kval k) i j) env.ops.nan p q hp hq
    simp only [List.map_map] at *
    rw [show (fun i => List.map ((fun p : Nat × Nat => a.entry (env.kval k) p.1 p.2) ∘ fun j => (i, j)) two)
      = fun i => two.map fun j => a.entry (env.kval k) i j from rfl]
    rw [this]
    simp [List.getD_eq_getElem?_getD, hp, hq]

open IndexSpec

theorem whole_flags {n m : Nat} {S T : Idx} {one two : List Nat × Bool} (h1 : getIndicesInSample (some (n, m)) S false = .ok one)
    (h2 : getIndicesInSample (some (n, m)) T true = .ok two) (hw : WholeKey n m (.pair S T)) : (one.2 && two.2) = true := by
  rcases getIndices_spec n m S false with ⟨_, h⟩ | ⟨_, _, h⟩ | ⟨_, _, l, b, h, e1, e2, e3, e4, e5⟩
  · rw [h1] at h; simp at h
  · rw [h1] at h; simp at h
  rcases getIndices_spec n m T true with ⟨_, h'⟩ | ⟨_, _, h'⟩ | ⟨_, _, l', b', h', e1', e2', e3', e4', e5'⟩
  · rw [h2] at h'; simp at h'
  · rw [h2] at h'; simp at h'
  rw [h1] at h; rw [h2] at h'
  simp only [Except.ok.injEq] at h h'
  subst h; subst h'
  have len : ∀ (l : List Nat) (n : Nat), l.Pairwise (· < ·) → (∀ i ∈ l, i < n) → (∀ i < n, i ∈ l) → l.length = n := by
    intro l n hp h1 h2
    have hnd : l.Nodup := hp.imp (by intro a b h; omega)
    refine le_antisymm ?_ ?_
    · simpa using (hnd.subperm fun x hx => List.mem_range.2 (h1 x hx)).length_le
    · simpa using (List.nodup_range.subperm fun x hx => h2 x (List.mem_range.1 hx) : (List.range n).Subperm l).length_le
  rw [Bool.and_eq_true]
  exact ⟨e5.2 (len _ _ e1 e3 fun i hi => (e4 i).2 (hw.1 i hi)), e5'.2 (len _ _ e1' e3' fun i hi => (e4' i).2 (hw.2 i hi))⟩

theorem isSelection_of {n m : Nat} {S : Idx} {d : Bool} {one : List Nat × Bool} (h1 : getIndicesInSample (some (n, m)) S d = .ok one) :
    IsSelection (dimOf n m d) S one.1 := by
  rcases getIndices_spec n m S d with ⟨_, h⟩ | ⟨_, _, h⟩ | ⟨_, _, l, b, h, e1, e2, e3, e4, e5⟩
  · rw [h1] at h; simp at h
  · rw [h1] at h; simp at h
  · rw [h1] at h; simp at h; subst h
    exact ⟨e1, fun i => ⟨fun hi => ⟨e3 i hi, (e4 i).1 hi⟩, fun hi => (e4 i).2 hi.2⟩⟩

theorem err_of {n m : Nat} {S : Idx} {d : Bool} {e : PyErr} (h1 : getIndicesInSample (some (n, m)) S d = .error e) :
    (e = .valueError ∧ ZeroStep S) ∨ (e = .kmAccess ∧ Invalid (dimOf n m d) S) := by
  rcases getIndices_spec n m S d with ⟨hz, h⟩ | ⟨_, hi, h⟩ | ⟨_, _, l, b, h, _⟩
  · rw [h1] at h; simp at h; exact Or.inl ⟨h, hz⟩
  · rw [h1] at h; simp at h; exact Or.inr ⟨h, hi⟩
  · rw [h1] at h; simp at h

/-- `__getitem__` once the two index objects are known -/
theorem tri_getItem_pair (S T : Idx) :
    (ρg).Tri (Allow p0) (rd (·.shape) >>= fun sh => lift (getIndicesInSample sh S false) >>= fun one =>
      lift (getIndicesInSample sh T true) >>= fun two =>
        if one.2 && two.2 then (populateFullyP env false true >>= fun _ => fullMatP) else computeP env one.1 two.1)
      (fun r b t => Allow p0 b t ∧ PartOk env a k S T r) (Err p0 (PartErr env a k S T)) := by
  refine (tri_read stable_allow _).bind fun sh => ?_
  refine Tri.mono (P := fun b t => Allow p0 b t ∧ sh = some (a.nrows, a.ncols)) (Tri.given ?_) ?_ (fun _ _ _ h => h) fun _ _ _ h => h
  swap
  · rintro b t ⟨h1, h2, rfl⟩
    exact ⟨h1, h2.1.shape⟩
  rintro rfl
  refine Tri.bind (Q := fun one b t => Allow p0 b t ∧ getIndicesInSample (some (a.nrows, a.ncols)) S false = .ok one)
    (tri_lift (fun one h b s hp => ⟨hp, h⟩) fun e h b s hp => ⟨hp, ?_⟩) fun one => Tri.given fun h1 => ?_
  · rcases err_of h with ⟨h1, h2⟩ | ⟨h1, h2⟩
    · exact Or.inl ⟨h1, Or.inl h2⟩
    · exact Or.inr (Or.inl ⟨h1, Or.inl h2⟩)
  refine Tri.bind (Q := fun two b t => Allow p0 b t ∧ getIndicesInSample (some (a.nrows, a.ncols)) T true = .ok two)
    (tri_lift (fun one h b s hp => ⟨hp, h⟩) fun e h b s hp => ⟨hp, ?_⟩) fun two => Tri.given fun h2 => ?_
  · rcases err_of h with ⟨h1, h2⟩ | ⟨h1, h2⟩
    · exact Or.inl ⟨h1, Or.inr h2⟩
    · exact Or.inr (Or.inl ⟨h1, Or.inr h2⟩)
  refine tri_ite (fun hb => ?_) fun hb => ?_
  · have hw := KMState.whole_of_flags h1 h2 hb
    refine Tri.bind (Q := fun _ => Ready p0) ((tri_populateFully false true).mono (fun _ _ h => h) (fun _ _ _ h => h)
      fun _ _ _ h => ⟨h.1, Or.inr (Or.inr (Or.inr ⟨hw, h.2⟩))⟩) fun _ => ?_
    exact tri_fullMat.mono (fun _ _ h => h) (fun A b t h => ⟨h.1.1, Or.inl ⟨hw, h.2⟩⟩) fun _ _ _ h => h
  · have hw : ¬ WholeKey a.nrows a.ncols (.pair S T) := fun hw => hb (whole_flags h1 h2 hw)
    have i1 := isSelection_of h1
    have i2 := isSelection_of h2
    refine (tri_compute unaffected_sound (fun i hi => ((i1.2 i).1 hi).1) fun j hj => ((i2.2 j).1 hj).1).mono (fun _ _ h => h) ?_
      fun _ _ _ h => ⟨h.1, Or.inr (Or.inr (Or.inl h.2))⟩
    rintro A b t ⟨h, rfl⟩
    exact ⟨h, Or.inr ⟨hw, _, _, i1, i2, rfl⟩⟩

/-- exceptions of the operations about which nothing more is said -/
abbrev AnyErr (p0 : Nat × Nat) : PyErr → Nat → Shared K X V → Prop := Err p0 fun _ => True

theorem tri_getItem (key : Key) : (ρg).Tri (Allow p0) (getItemP env key)
    (fun r b t => Allow p0 b t ∧ ∀ S T, key = .pair S T → PartOk env a k S T r)
    (Err p0 fun e => ∀ S T, key = .pair S T → PartErr env a k S T e) := by
  unfold getItemP
  rcases key with n | ⟨S, T⟩ | _
  · refine Tri.bind (Q := fun _ => Allow p0) ?_ fun q => ?_
    · refine tri_atomic' fun b s0 s hp hr hi => ?_
      have hk : ∃ r, KMState.keyPair (.linear n) s.km = (r, s.km) := by
        refine ⟨(KMState.unravel n a.nrows a.ncols).map fun q => (Idx.int q.1, Idx.int q.2), ?_⟩
        show (PyM.getAttr (fun s : KMState K X V => s.shape) >>= _) _ = _
        rw [PyM.bind_ok (PyM.getAttr_run_some _ _ _ hi.1.shape)]
        rcases KMState.unravel n a.nrows a.ncols with e | q <;> rfl
      obtain ⟨r, hk⟩ := hk
      refine ⟨r, s, by unfold onKM; rw [hk], hi, (ρg).refl s, b, le_rfl, ?_⟩
      rcases r with e | q
      · exact ⟨stable_allow _ _ _ hp hr, fun S T h => by simp at h⟩
      · exact stable_allow _ _ _ hp hr
    · exact (tri_getItem_pair q.1 q.2).mono (fun _ _ h => h) (fun r b t h => ⟨h.1, fun S T h => by simp at h⟩)
        fun _ _ _ h => ⟨h.1, fun S T h => by simp at h⟩
  · refine Tri.bind (Q := fun q b t => Allow p0 b t ∧ q = (S, T))
      (tri_look fun b s0 s hp hr hi => ⟨(S, T), rfl, stable_allow _ _ _ hp hr, rfl⟩) fun q => Tri.given ?_
    rintro rfl
    refine (tri_getItem_pair S T).mono (fun _ _ h => h) ?_ ?_
    · rintro r b t ⟨h1, h2⟩
      refine ⟨h1, ?_⟩
      rintro S' T' h
      injection h with h h'
      subst h; subst h'
      exact h2
    · rintro r b t ⟨h1, h2⟩
      refine ⟨h1, ?_⟩
      rintro S' T' h
      injection h with h h'
      subst h; subst h'
      exact h2
  · refine Tri.bind (Q := fun _ _ _ => False) (tri_atomic' fun b s0 s hp hr hi =>
      ⟨.error .kmAccess, s, rfl, hi, (ρg).refl s, b, le_rfl, stable_allow _ _ _ hp hr, fun S T h => by simp at h⟩) fun _ b s h => h.elim

theorem tri_privateDiag {P : Nat → Shared K X V → Prop} (hP : Stable ρg P) (hP' : ∀ b (t : Shared K X V) cl, P b t → P b { t with km := { t.km with clock := cl } })
    (hA : ∀ b t, P b t → Allow p0 b t) (l : List Nat) (q : KMState K X V) :
    (ρg).Tri P (privateDiagP env l q) (fun _ => P) (AnyErr p0) := by
  induction l generalizing q with
  | nil => exact tri_pure fun _ _ h => h
  | cons i l ih =>
    refine Tri.bind (Q := fun _ => P) (tri_atomic' fun b s0 s hp hr hi => ?_) fun r => (ih r.2).bind fun _ => tri_pure fun _ _ h => h
    have hp := hP _ _ _ hp hr
    refine ⟨_, _, rfl, ⟨hi.1.congr rfl rfl rfl rfl rfl rfl rfl, hi.2.1, unaffected_sound.1 _ _ _ _ _ hi.2.2⟩, ⟨fun _ h => h, id, id, id, id, id, id, fun _ h => h.elim⟩, b, le_rfl, ?_⟩
    rcases hr : (KMState.evalKernel env i i { q with clock := s.km.clock }).1 with e | v
    · exact ⟨hA _ _ (hP' _ _ _ hp), trivial⟩
    · exact hP' _ _ _ hp

theorem tri_freshDiagonal (f : KMState K X V → Option (Arr2 X)) {x : Arr2 X} (hx : ∀ t, (ρg).Inv t → f t.km = some x) :
    (ρg).Tri (Ready p0) (freshDiagonalP env f) (fun _ => Ready p0) (AnyErr p0) := by
  refine (tri_attr stable_ready hx).bind fun x => Tri.given fun _ => (tri_read stable_ready _).bind fun k' => ?_
  exact (tri_privateDiag stable_ready (fun _ _ _ h => h) (fun _ _ h => h.1) _ _).mono (fun _ _ h => h.1) (fun _ _ _ h => h) fun _ _ _ h => h

theorem tri_computeNormed (m : String) : (ρg).Tri (Ready p0) (computeNormedP env m) (fun _ => Ready p0) (AnyErr p0) := by
  refine (tri_attr stable_ready (x := a.two.isSome) fun t ht => ht.1.two).bind fun tw => Tri.given fun _ => tri_ite (fun _ => ?_) fun _ => ?_
  · exact tri_fullMat.bind fun A => (tri_lift (Q := fun _ => Ready p0) (fun _ _ _ _ h => h.1) fun _ _ _ _ h => ⟨h.1.1, trivial⟩).bind
      fun _ => tri_pure fun _ _ h => h
  · exact (tri_freshDiagonal _ fun t ht => ht.1.sample).bind fun _ => (tri_freshDiagonal _ fun t ht => ht.1.sampleTwo).bind fun _ =>
      tri_fullMat.bind fun A => (tri_lift (Q := fun _ => Ready p0) (fun _ _ _ _ h => h.1) fun _ _ _ _ h => ⟨h.1.1, trivial⟩).bind
      fun _ => tri_pure fun _ _ h => h

/-- `_normed_km` exists -/
abbrev ReadyN (p0 : Nat × Nat) (b : Nat) (t : Shared K X V) : Prop := Allow p0 b t ∧ t.km.normedKm.isSome = true
theorem stable_readyN {J : Extra K X V} : Stable (rely env a k p0 J) (ReadyN p0) := stable_and stable_allow fun _ _ _ h hr => hr.normedKm h

theorem tri_getNormed : (ρg).Tri (ReadyN p0) (attr (·.normedKm)) (fun _ => ReadyN p0) (AnyErr p0) := by
  refine tri_look fun b s0 s hp hr hi => ?_
  have hp := stable_readyN _ _ _ hp hr
  obtain ⟨N, hN⟩ := Option.isSome_iff_exists.1 hp.2
  exact ⟨N, by unfold onKM; rw [PyM.getAttr_run, hN], hp⟩

theorem tri_normalize (m : String) : (ρg).Tri (Allow p0) (normalizeP env m) (fun _ => ReadyN p0) (AnyErr p0) := by
  refine (tri_ensure.mono (fun _ _ h => h) (fun _ _ _ h => h) fun _ _ _ h => ⟨h.1, trivial⟩).bind fun _ =>
    (tri_read stable_ready _).bind fun isN => tri_when (fun _ => ?_) ?_
  swap
  · rintro h b t ⟨h1, h2, rfl⟩
    exact ⟨h1.1, h2.2.2.normed (by simpa using h)⟩
  refine Tri.mono (P := Ready p0) ?_ (fun _ _ h => h.1) (fun _ _ _ h => h) fun _ _ _ h => h
  refine (tri_computeNormed m).bind fun N => Tri.bind (Q := fun _ => ReadyN p0) ?_ fun _ => Tri.bind (Q := fun _ => ReadyN p0) ?_ fun _ => tri_getNormed.bind fun N => ?_
  · exact tri_wr stable_ready (fun _ => ⟨rfl, rfl, rfl, rfl, rfl, rfl, rfl, rfl⟩)
      (fun t b hi hp => ⟨⟨hi.2.2.keep, hi.2.2.cells, hi.2.2.populated, fun _ => rfl, hi.2.2.centered⟩, ⟨fun _ h => h, id, id, fun _ => rfl, id, id, id, fun _ h => h.elim⟩⟩)
      fun b t _ h => ⟨h.1, rfl⟩
  · exact tri_wr stable_readyN (fun _ => ⟨rfl, rfl, rfl, rfl, rfl, rfl, rfl, rfl⟩)
      (fun t b hi hp => ⟨⟨hi.2.2.keep, hi.2.2.cells, hi.2.2.populated, fun _ => hp.2, hi.2.2.centered⟩, ⟨fun _ h => h, id, fun _ => rfl, id, id, id, id, fun _ h => h.elim⟩⟩)
      fun b t _ h => h
  · exact (tri_warn stable_readyN (fun _ _ h => h.1) N.2).mono (fun _ _ h => h) (fun _ _ _ h => h) fun _ _ _ h => ⟨h.1, trivial⟩

theorem tri_normedKmVal : (ρg).Tri (Allow p0) (normedKmValP env) (fun _ => ReadyN p0) (AnyErr p0) := by
  refine (tri_read stable_allow _).bind fun isN => Tri.bind (Q := fun _ => ReadyN p0) (tri_when (fun _ => ?_) ?_) fun _ => tri_getNormed
  · exact (tri_normalize _).mono (fun _ _ h => h.1) (fun _ _ _ h => h) fun _ _ _ h => h
  · rintro h b t ⟨h1, h2, rfl⟩
    exact ⟨h1, h2.2.2.normed (by simpa using h)⟩

theorem tri_full : (ρg).Tri (Allow p0) (fullP env) (fun r b t => Ready p0 b t ∧ (keep = false → MatOk env a k r.2))
    (Err p0 fun e => keep = false → FillErr env a k e) := by
  refine (tri_read stable_allow _).bind fun x => ?_
  refine Tri.mono (P := fun b t => Allow p0 b t ∧ x = (false, keep)) (Tri.given ?_) ?_ (fun _ _ _ h => h) fun _ _ _ h => h
  swap
  · rintro b t ⟨h1, h2, rfl⟩
    refine ⟨h1, ?_⟩
    simp only
    rw [h2.1.sample, h2.2.2.keep]
    rfl
  rintro rfl
  refine Tri.bind (Q := fun _ => Allow p0) (tri_pure fun _ _ h => h) fun _ => ?_
  refine (tri_ensure.mono (fun _ _ h => h) (fun _ _ _ h => h) fun _ _ _ h => ⟨h.1, fun _ => h.2⟩).bind fun _ => ?_
  refine tri_ite (fun hk => ?_) fun hk => ?_
  · have hk : keep = true := hk
    exact Tri.mono (Tri.frame (F := fun t : Shared K X V => t.ref.isSome = true) (fun s s' h (hr : Grows _ s s') => hr.ref h) tri_normedKmVal)
      (fun _ _ h => h) (fun _ _ _ h => ⟨⟨h.1.1, h.2⟩, fun h' => by simp [hk] at h'⟩) fun _ _ _ h => ⟨h.1, fun h' => by simp [hk] at h'⟩
  · exact tri_fullMat.mono (fun _ _ h => h) (fun _ _ _ h => ⟨h.1, fun _ => h.2⟩) fun _ _ _ h => h

theorem tri_fullSparse : (ρg).Tri (Allow p0) (fullSparseP env) (fun r b t => Allow p0 b t ∧ (keep = false → MatOk env a k r.2))
    (Err p0 fun e => keep = false → FillErr env a k e) := by
  refine (tri_read stable_allow _).bind fun x => ?_
  refine Tri.mono (P := fun b t => Allow p0 b t ∧ x = keep) (Tri.given ?_) ?_ (fun _ _ _ h => h) fun _ _ _ h => h
  swap
  · rintro b t ⟨h1, h2, rfl⟩
    exact ⟨h1, h2.2.2.keep⟩
  rintro rfl
  refine tri_ite (fun hk => ?_) fun hk => ?_
  · exact tri_normedKmVal.mono (fun _ _ h => h) (fun _ _ _ h => ⟨h.1, fun h' => by simp [hk] at h'⟩) fun _ _ _ h => ⟨h.1, fun h' => by simp [hk] at h'⟩
  · refine ((tri_populateFully false false).mono (fun _ _ h => h) (fun _ _ _ h => h) fun _ _ _ h => ⟨h.1, fun _ => h.2⟩).bind fun _ => ?_
    exact tri_fullMat.mono (fun _ _ h => h) (fun _ _ _ h => ⟨h.1.1, fun _ => h.2⟩) fun _ _ _ h => h

abbrev ReadyC (p0 : Nat × Nat) (b : Nat) (t : Shared K X V) : Prop := Allow p0 b t ∧ t.km.centeredKm.isSome = true
theorem stable_readyC {J : Extra K X V} : Stable (rely env a k p0 J) (ReadyC p0) := stable_and stable_allow fun _ _ _ h hr => hr.centeredKm h

theorem tri_center : (ρg).Tri (Allow p0) (centerP env) (fun _ => ReadyC p0) (AnyErr p0) := by
  refine (tri_attr stable_allow (x := a.two.isSome) fun t ht => ht.1.two).bind fun tw => Tri.given fun _ => ?_
  refine Tri.bind (Q := fun _ => Allow p0) (tri_raiseIf (fun _ _ _ h => ⟨h, trivial⟩) fun _ _ _ h => h) fun _ => ?_
  refine (tri_read stable_allow _).bind fun pop => Tri.bind (Q := fun _ => Ready p0) (tri_when (fun _ => ?_) ?_) fun _ => ?_
  · refine Tri.bind (Q := fun _ => Ready p0) ((tri_populateFully true true).mono (fun _ _ h => h.1) (fun _ _ _ h => h) fun _ _ _ h => ⟨h.1, trivial⟩) fun _ => ?_
    refine tri_load.bind fun r => tri_write stable_ready ?_ fun b t _ h => ⟨h.1, rfl⟩
    rintro s hi -
    exact ⟨⟨hi.1.congr rfl rfl rfl rfl rfl rfl rfl, hi.2.1, ⟨hi.2.2.keep, hi.2.2.cells, fun _ => rfl, hi.2.2.normed, hi.2.2.centered⟩⟩,
      ⟨fun _ h => h, fun _ => rfl, id, id, id, id, id, fun _ h => h.elim⟩, rfl⟩
  · rintro h b t ⟨h1, h2, rfl⟩
    exact ⟨h1, h2.2.2.populated (by simpa using h)⟩
  refine tri_fullMat.bind fun A => Tri.bind (Q := fun _ => Ready p0) (tri_raiseIf (fun _ _ _ h => ⟨h.1.1, trivial⟩) fun _ _ _ h => h.1) fun _ => ?_
  refine (tri_lift (Q := fun _ => Ready p0) (fun _ _ _ _ h => h) fun _ _ _ _ h => ⟨h.1, trivial⟩).bind fun C => ?_
  refine Tri.bind (Q := fun _ => ReadyC p0) ?_ fun _ => ?_
  · exact tri_wr stable_ready (fun _ => ⟨rfl, rfl, rfl, rfl, rfl, rfl, rfl, rfl⟩)
      (fun t b hi hp => ⟨⟨hi.2.2.keep, hi.2.2.cells, hi.2.2.populated, hi.2.2.normed, fun _ => rfl⟩, ⟨fun _ h => h, id, id, id, id, fun _ => rfl, id, fun _ h => h.elim⟩⟩)
      fun b t _ h => ⟨h.1, rfl⟩
  · exact tri_wr stable_readyC (fun _ => ⟨rfl, rfl, rfl, rfl, rfl, rfl, rfl, rfl⟩)
      (fun t b hi hp => ⟨⟨hi.2.2.keep, hi.2.2.cells, hi.2.2.populated, hi.2.2.normed, fun _ => hp.2⟩, ⟨fun _ h => h, id, id, id, fun _ => rfl, id, id, fun _ h => h.elim⟩⟩)
      fun b t _ h => h

theorem tri_centered : (ρg).Tri (Allow p0) (centeredP env) (fun _ => Allow p0) (AnyErr p0) := by
  refine (tri_attr stable_allow (x := a.two.isSome) fun t ht => ht.1.two).bind fun tw => Tri.given fun _ => ?_
  refine Tri.bind (Q := fun _ => Allow p0) (tri_raiseIf (fun _ _ _ h => ⟨h, trivial⟩) fun _ _ _ h => h) fun _ => ?_
  refine (tri_read stable_allow _).bind fun isC => Tri.bind (Q := fun _ => ReadyC p0) (tri_when (fun _ => ?_) ?_) fun _ => ?_
  · exact tri_center.mono (fun _ _ h => h.1) (fun _ _ _ h => h) fun _ _ _ h => h
  · rintro h b t ⟨h1, h2, rfl⟩
    exact ⟨h1, h2.2.2.centered (by simpa using h)⟩
  · refine tri_look fun b s0 s hp hr hi => ?_
    have hp := stable_readyC _ _ _ hp hr
    obtain ⟨N, hN⟩ := Option.isSome_iff_exists.1 hp.2
    exact ⟨N, by unfold onKM; rw [PyM.getAttr_run, hN], hp.1⟩

abbrev ReadyF (p0 : Nat × Nat) (b : Nat) (t : Shared K X V) : Prop := Allow p0 b t ∧ t.km.frobNorm.isSome = true
theorem stable_readyF {J : Extra K X V} : Stable (rely env a k p0 J) (ReadyF p0) := stable_and stable_allow fun _ _ _ h hr => hr.frob h

theorem tri_frobNorm : (ρg).Tri (Allow p0) (frobNormP env) (fun _ => Allow p0) (AnyErr p0) := by
  refine (tri_ensure.mono (fun _ _ h => h) (fun _ _ _ h => h) fun _ _ _ h => ⟨h.1, trivial⟩).bind fun _ =>
    (tri_read stable_ready _).bind fun missing => Tri.bind (Q := fun _ => ReadyF p0) (tri_when (fun _ => ?_) ?_) fun _ => ?_
  · refine Tri.mono (P := Ready p0) ?_ (fun _ _ h => h.1) (fun _ _ _ h => h) fun _ _ _ h => h
    refine tri_fullMat.bind fun A => (tri_lift (Q := fun _ => Ready p0) (fun _ _ _ _ h => h.1) fun _ _ _ _ h => ⟨h.1.1, trivial⟩).bind fun v => ?_
    exact tri_wr stable_ready (fun _ => ⟨rfl, rfl, rfl, rfl, rfl, rfl, rfl, rfl⟩)
      (fun t b hi hp => ⟨⟨hi.2.2.keep, hi.2.2.cells, hi.2.2.populated, hi.2.2.normed, hi.2.2.centered⟩, ⟨fun _ h => h, id, id, id, id, id, fun _ => rfl, fun _ h => h.elim⟩⟩)
      fun b t _ h => ⟨h.1, rfl⟩
  · rintro rfl b t ⟨h1, h2, h3⟩
    refine ⟨h1.1, ?_⟩
    rcases hf : t.km.frobNorm with _ | v
    · have h3 : false = t.km.frobNorm.isNone := h3
      rw [hf] at h3; simp at h3
    · rfl
  · refine tri_look fun b s0 s hp hr hi => ?_
    have hp := stable_readyF _ _ _ hp hr
    obtain ⟨N, hN⟩ := Option.isSome_iff_exists.1 hp.2
    exact ⟨N, by unfold onKM; rw [PyM.getAttr_run, hN], hp.1⟩

end general
end Shared
end KMethods
