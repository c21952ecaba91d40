import Verif.Props.Ranking
import Verif.Props.Sampling
import Verif.Props.Operations
import Verif.Lemmas.Pipeline
/-!
# Rankings where matrices may contain NaN; kernels of the default buckets
-/
namespace KMethods
open PyM KMState
variable {K X : Type} {env : Env K X F}

/-! ### rankings -/

theorem Heap.KernelOn.matrixOn (hops : env.ops = realOps) {h : Heap K X} {r : Nat} {A : Arr2 X} {M : Matrix (Fin A.nrows) (Fin A.nrows) ℝ}
    (hk : h.KernelOn env r A M) : h.MatrixOn env r A (Mat.ofReal M) := by
  obtain ⟨k, norm, h1, h2⟩ := hk
  refine ⟨k, norm, h1, fun t ht => ?_⟩
  have := h2.full hops ht
  rw [exec_full_run]
  show ((KMState.full env t).1.map _) = _
  rw [this]
  rfl

theorem NowAttached.fullF {s s' : SetSt K X} {A : Arr2 X} (ha : s.NowAttached env s' A) {r : Nat} (hr : r ∈ s.set.members)
    {M : Mat F} (hk : s.heap.MatrixOn env r A M) :
    ∃ s'', SetSt.onHeap (Heap.full env r) s' = (.ok (.dense, M), s'') ∧ s.NowAttached env s'' A := by
  obtain ⟨h1, h2, h3⟩ := ha
  obtain ⟨k, norm, hkm, hM⟩ := hk
  have hat := h3 r k norm hr hkm
  obtain ⟨t, ht, hs⟩ := hat
  have hg : s'.heap.Gives env IsDense r M := by
    unfold Heap.Gives
    rw [ht]
    exact givesFull_of_inv (P := IsDense) (Q := Since env k norm ⟨A, none⟩ (fun op => op = .full)) (fun s h => Since.full (Q := fun op => op = .full) rfl h)
      (fun s h => ⟨.dense, rfl, hM s h⟩) hs
  obtain ⟨f, h', hfd, e, -⟩ := Heap.full_gives hg
  obtain rfl : f = .dense := hfd
  have hrun : SetSt.onHeap (Heap.full env r) s' = (.ok (.dense, M), { s' with heap := h' }) := by
    unfold SetSt.onHeap; rw [e]
  have he : (Heap.full env r s'.heap).2 = h' := by rw [e]
  have hfull : Heap.full env r s'.heap = Heap.call r (KMState.full env) s'.heap := by unfold Heap.full; rw [ht]
  refine ⟨_, hrun, h1, ?_, ?_⟩
  · intro q hq
    rw [← h2 q hq, ← he, hfull, Heap.call_km _ ht]
    exact Function.update_of_ne (by rintro rfl; exact hq hr) _ _
  · intro q k' norm' hq hkm'
    show Heap.AttachedTo env h' q k' norm' A
    rw [← he]
    exact (h3 q k' norm' hq hkm').full ht

theorem alignRanking_runF {s s' : SetSt K X} {A : Arr2 X} (ha : s.NowAttached env s' A) (targets : List F)
    {G : Nat → Mat F} (hG : ∀ r ∈ s.set.members, s.heap.MatrixOn env r A (G r)) {sc : Nat → F}
    (hsc : ∀ r ∈ s.set.members, alignmentCentered (G r) (idealKernel targets) (.value 0) false = .ok (sc r)) :
    ∃ s'', alignRanking env targets {} s' = (.ok (s.set.members.map sc), s'') ∧ s.NowAttached env s'' A := by
  obtain ⟨s'', e, h⟩ := mapEach_inv (I := fun s' => s.NowAttached env s' A) (f := alignScoreOne env targets {})
    (g := sc) s.set.members (fun r hr s1 h1 => by
      obtain ⟨s2, e2, h2⟩ := NowAttached.fullF h1 hr (hG r hr)
      refine ⟨s2, ?_, h2⟩
      show (SetSt.onHeap (Heap.full env r) >>= _ : PyM (SetSt K X) F) s1 = _
      rw [bind_ok e2]
      show (alignmentCentered (G r) (idealKernel targets) (.value 0) false, s2) = _
      rw [hsc r hr]) s' ha
  refine ⟨s'', ?_, h⟩
  show mapEach s'.set.members _ s' = _
  rw [ha.1]
  exact e

/-- a NaN in the first matrix, and targets that are not constant: NaN -/
theorem alignmentCentered_nan {n : Nat} {M : Fin n → Fin n → F} (hn : ∃ i j, M i j = .nan) (B : Matrix (Fin n) (Fin n) ℝ)
    (hB : ¬ NearZero (Real.sqrt (frobInner (centered B) (centered B)))) (zd : ZeroDiv) :
    alignmentCentered ⟨n, n, M⟩ (Mat.ofReal B) zd false = .ok .nan := by
  obtain ⟨C, hC, c1, c2, hn'⟩ := centerKm_nan ⟨n, n, M⟩ rfl hn
  rw [alignmentCentered, if_neg (by rintro (h | h) <;> exact h rfl)]
  have hcB : centerUnless false (Mat.ofReal B) = .ok (Mat.ofReal (centered B)) := centerKm_real B
  rw [show centerUnless false ⟨n, n, M⟩ = .ok C from hC, hcB]
  show alignmentOf C (Mat.ofReal (centered B)) zd = _
  unfold alignmentOf
  obtain ⟨p, hp⟩ := (C22_errors C (Mat.ofReal (centered B))).2 ⟨c1, c2⟩
  rw [frobeniusNorm_nan C hn', frobeniusNorm_real, hp]
  show (if _ then _ else _) = _
  rw [if_neg]
  · show Except.ok (p / (F.nan * _)) = _
    simp
  · rintro (h | h)
    · exact h
    · exact hB ((F.isClose_zero _).1 h)

theorem argmaxF_first_nan {l : List F} {i : Nat} (hi : l[i]? = some .nan) (hlt : ∀ j < i, ∃ x : ℝ, l[j]? = some (.real x)) : argmaxF l = .ok i := by
  classical
  have hil : i < l.length := by
    rcases Nat.lt_or_ge i l.length with h | h
    · exact h
    · rw [List.getElem?_eq_none h] at hi; cases hi
  have hne : l ≠ [] := by rintro rfl; simp at hil
  have hf : l.findIdx? (fun x => decide (¬ x.isFinite)) = some i := by
    rw [List.findIdx?_eq_some_iff_getElem]
    refine ⟨hil, ?_, fun j hj => ?_⟩
    · rw [List.getElem?_eq_getElem hil] at hi
      rw [Option.some.inj hi]
      simp [F.isFinite]
    · obtain ⟨x, hx⟩ := hlt j hj
      rw [List.getElem?_eq_getElem (by omega)] at hx
      rw [Option.some.inj hx]
      simp [F.isFinite]
  unfold argmaxF
  rw [if_neg hne]
  have hf' := hf
  simp only [decide_not] at hf' ⊢
  split
  · rename_i j hj
    have : some j = some i := by
      rw [← hf', ← hj]
    rw [Option.some.inj this]
  · rename_i hj
    exfalso
    have : none = some i := by
      rw [← hf', ← hj]
    cases this

/-! ### the kernels of the default buckets -/

theorem zipWith_comm_list {f : ℝ → ℝ → ℝ} (hf : ∀ a b, f a b = f b a) : ∀ x y : List ℝ, List.zipWith f x y = List.zipWith f y x
  | [], [] => rfl
  | [], _ :: _ => rfl
  | _ :: _, [] => rfl
  | a :: x, b :: y => by rw [List.zipWith_cons_cons, List.zipWith_cons_cons, hf, zipWith_comm_list hf x y]

/-- the kernels that occur in the buckets -/
def NumKernel.InBucket : NumKernel → Prop
  | .linear => True
  | .poly d γ b => 0 ≤ d ∧ γ = 1 ∧ b = 1
  | .gaussian _ _ => True
  | .laplacian _ => True
  | .sigmoid _ _ => True
  | _ => False

theorem NumKernel.formula_comm {k : NumKernel} (hk : k.InBucket) (x y : List ℝ) : k.formula x y = k.formula y x := by
  cases k <;> simp only [NumKernel.formula]
  case hadamard => exact hk.elim
  case chi2 => exact hk.elim
  case poly => rw [zipWith_comm_list mul_comm]
  case linear => rw [zipWith_comm_list mul_comm]
  case sigmoid => rw [zipWith_comm_list mul_comm]
  case gaussian => rw [zipWith_comm_list (fun a b => by ring)]
  case laplacian => rw [zipWith_comm_list (fun a b => abs_sub_comm a b)]

theorem sumZip_nonneg {f : ℝ → ℝ → ℝ} (hf : ∀ a b, 0 ≤ f a b) : ∀ x y : List ℝ, 0 ≤ sumZip f x y
  | [], _ => by simp [sumZip]
  | _ :: _, [] => by simp [sumZip]
  | a :: x, b :: y => by
    have := sumZip_nonneg hf x y
    unfold sumZip at this ⊢
    rw [List.zipWith_cons_cons, List.sum_cons]
    exact add_nonneg (hf a b) this

theorem NumKernel.call_inBucket {k : NumKernel} (hk : k.InBucket) (skip : Bool) {x y : List ℝ} (h : x.length = y.length) :
    k.call skip (.vec x) (.vec y) = .ok (.real (k.formula x y)) := by
  have he : k.call skip (.vec x) (.vec y) = k.eval x y := by
    cases skip
    · exact call_vec k h
    · rfl
  rw [he]
  cases k
  case hadamard => exact hk.elim
  case chi2 => exact hk.elim
  case poly d γ b =>
    show Except.ok (intPow _ _) = _
    rw [intPow, if_neg (by have := hk.1; omega)]
    rfl
  case gaussian σ γ =>
    show Except.ok (F.real (Real.exp (-γ * Real.sqrt (sumZip (fun a b => (a - b) ^ 2) x y) ^ 2))) = _
    rw [Real.sq_sqrt (sumZip_nonneg (fun a b => sq_nonneg _) x y)]
    rfl
  all_goals rfl

section
variable {A : Arr2 (List ℝ)} (hA : ∀ i, i < A.nrows → (A.row i).length = A.ncols)
include hA

theorem lib_kval {k : LibKernel} (hk : k.kernel.InBucket) {x y : List ℝ} (hx : Attachment.IsRow ⟨A, none⟩ x) (hy : Attachment.IsRow ⟨A, none⟩ y) :
    k.kernel.call k.skip (.vec x) (.vec y) = .ok (.real (k.kernel.formula x y)) := by
  obtain ⟨i, rfl⟩ := isRow_none hx
  obtain ⟨j, rfl⟩ := isRow_none hy
  exact NumKernel.call_inBucket hk _ (by rw [hA i i.2, hA j j.2])

theorem lib_noFaultsOn {k : LibKernel} (hk : k.kernel.InBucket) (ops : Ops F) : NoFaultsOn (libEnv ops) k ⟨A, none⟩ := by
  intro t x y hx hy
  show (match k.kernel.call k.skip (.vec x) (.vec y) with | .ok _ => false | .error _ => true) = false
  rw [lib_kval hA hk hx hy]

theorem lib_realOn {k : LibKernel} (hk : k.kernel.InBucket) (ops : Ops F) : RealOn ((libEnv ops).kval k) k.kernel.formula ⟨A, none⟩ := by
  intro x y hx hy
  show (match k.kernel.call k.skip (.vec x) (.vec y) with | .ok v => v | .error _ => .nan) = _
  rw [lib_kval hA hk hx hy]

omit hA in
theorem lib_gramR {k : NumKernel} (hk : k.InBucket) : A.gramR k.formula = k.matrixOn A := by
  funext i j
  show k.formula (A.row (min (i : Nat) j)) (A.row (max (i : Nat) j)) = _
  rcases Nat.le_total i j with h | h
  · rw [Nat.min_eq_left h, Nat.max_eq_right h]; rfl
  · rw [Nat.min_eq_right h, Nat.max_eq_left h, NumKernel.formula_comm hk]; rfl

/-- finite matrix -/
theorem lib_isMatrix1 {k : LibKernel} (hk : k.kernel.InBucket) {norm : Bool}
    (hs : norm = true → ∀ i : Fin A.nrows, 1e-8 < k.kernel.formula (A.row i) (A.row i)) :
    IsMatrix1 (libEnv realOps) k norm A (k.kernel.matrixOf norm A) := by
  refine ⟨k.kernel.formula, lib_noFaultsOn hA hk _, lib_realOn hA hk _, ?_⟩
  unfold NumKernel.matrixOf
  cases norm
  · rw [if_neg (by simp), if_neg (by simp), lib_gramR hk]
  · rw [if_pos rfl, if_pos rfl, lib_gramR hk]
    refine ⟨fun i => ⟨?_, ?_⟩, rfl⟩
    · exact le_trans (by norm_num) (hs rfl i).le
    · rw [NearZero, abs_of_pos (lt_trans (by norm_num) (hs rfl i))]
      exact not_le.2 (hs rfl i)

/-- what `full` gives on an attached, normalising object -/
theorem lib_full_normed {k : LibKernel} (hk : k.kernel.InBucket) {t : KMState LibKernel (List ℝ) F}
    (ht : SinceAny (libEnv realOps) k true ⟨A, none⟩ t) :
    (exec (libEnv realOps) .full t).1 = (normalizeKm (Mat.ofReal (k.kernel.matrixOn A)) "cosine").map (KMOut.mat .dense) := by
  rw [C09_full_is_normalised_gram rfl (lib_noFaultsOn hA hk _) (fun h => by cases h) (fun h => by cases h) ht]
  rw [gram_ofReal (lib_realOn hA hk _), lib_gramR hk]

end

theorem sqNorm_eq (A : Arr2 (List ℝ)) (i : Nat) : (List.zipWith (· * ·) (A.row i) (A.row i)).sum = A.sqNorm i := by
  unfold Arr2.sqNorm
  congr 1
  induction A.row i with
  | nil => rfl
  | cons a l ih => rw [List.zipWith_cons_cons, List.map_cons, ih, sq]

theorem sqNorm_nonneg (A : Arr2 (List ℝ)) (i : Nat) : 0 ≤ A.sqNorm i := by
  refine List.sum_nonneg fun a ha => ?_
  obtain ⟨b, -, rfl⟩ := List.mem_map.1 ha
  exact sq_nonneg b

theorem zipWith_self_zero {f : ℝ → ℝ → ℝ} (hf : ∀ a, f a a = 0) (x : List ℝ) : (List.zipWith f x x).sum = 0 := by
  induction x with
  | nil => rfl
  | cons a l ih => rw [List.zipWith_cons_cons, List.sum_cons, hf, ih, add_zero]

/-- self-kernels of the kernels of the buckets -/
theorem formula_self (k : NumKernel) (A : Arr2 (List ℝ)) (i : Nat) :
    (k = .linear → k.formula (A.row i) (A.row i) = A.sqNorm i) ∧
    ((∃ d : ℤ, 0 ≤ d ∧ k = .poly d 1 1) → 1e-8 < k.formula (A.row i) (A.row i)) ∧
    ((∃ s g, k = .gaussian s g) → 1e-8 < k.formula (A.row i) (A.row i)) ∧
    ((∃ g, k = .laplacian g) → 1e-8 < k.formula (A.row i) (A.row i)) ∧
    ((∃ g o, 0 ≤ g ∧ 1 ≤ o ∧ k = .sigmoid g o) → 1e-8 < k.formula (A.row i) (A.row i)) ∧
    (∀ o, k = .sigmoid 1 o → k.formula (A.row i) (A.row i) = Real.tanh (o + A.sqNorm i)) := by
  refine ⟨?_, ?_, ?_, ?_, ?_, ?_⟩
  · rintro rfl
    exact sqNorm_eq A i
  · rintro ⟨d, hd, rfl⟩
    show 1e-8 < (1 + 1 * (List.zipWith (· * ·) (A.row i) (A.row i)).sum) ^ d
    rw [sqNorm_eq]
    obtain ⟨m, rfl⟩ := Int.eq_ofNat_of_zero_le hd
    have : (1 : ℝ) ≤ (1 + 1 * A.sqNorm i) ^ ((m : ℤ)) := by
      rw [zpow_natCast]
      exact one_le_pow₀ (by linarith [sqNorm_nonneg A i])
    exact lt_of_lt_of_le (by norm_num) this
  · rintro ⟨s, g, rfl⟩
    show 1e-8 < Real.exp (-g * (List.zipWith (fun a b => (a - b) ^ 2) (A.row i) (A.row i)).sum)
    rw [zipWith_self_zero (fun a => by ring), mul_zero, Real.exp_zero]
    norm_num
  · rintro ⟨g, rfl⟩
    show 1e-8 < Real.exp (-g * (List.zipWith (fun a b => |a - b|) (A.row i) (A.row i)).sum)
    rw [zipWith_self_zero (fun a => by simp), mul_zero, Real.exp_zero]
    norm_num
  · rintro ⟨g, o, hg, ho, rfl⟩
    show 1e-8 < Real.tanh (o + g * (List.zipWith (· * ·) (A.row i) (A.row i)).sum)
    rw [sqNorm_eq]
    exact lt_trans (by norm_num) (tanh_ge (by nlinarith [sqNorm_nonneg A i, mul_nonneg hg (sqNorm_nonneg A i)]))
  · rintro o rfl
    show Real.tanh (o + 1 * (List.zipWith (· * ·) (A.row i) (A.row i)).sum) = _
    rw [sqNorm_eq, one_mul]

/-! ### fresh buckets -/

theorem SetSt.Grown.fresh {s s' : SetSt K X} {norm : Bool} {ks : List K} (g : s.Grown s' norm ks) (h0 : s.set.members = []) :
    List.Forall₂ (fun r k => s'.heap.objs r = some (.km (KMState.init k norm 0))) s'.set.members ks := by
  obtain ⟨rs, h1, -, h2, -⟩ := g
  rw [h1, h0]
  exact h2.imp fun _ _ h => h.2.2

/-- the kernel function of an object -/
def Heap.kernelAt (h : Heap K X) (r : Nat) (d : K) : K :=
  match h.objs r with
  | some (.km t) => t.kernel
  | _ => d

theorem kernelAt_new {h : Heap K X} {r : Nat} {k : K} {norm : Bool} (e : h.objs r = some (.km (KMState.init k norm 0))) (d : K) : h.kernelAt r d = k := by
  unfold Heap.kernelAt; rw [e]; rfl

theorem map_fresh {α : Type} {h : Heap K X} {norm : Bool} {rs : List Nat} {ks : List K}
    (g : List.Forall₂ (fun r k => h.objs r = some (.km (KMState.init k norm 0))) rs ks) (d : K) (f : K → α) :
    rs.map (fun r => f (h.kernelAt r d)) = ks.map f := by
  induction g with
  | nil => rfl
  | cons e _ ih => rw [List.map_cons, List.map_cons, ih, kernelAt_new e]

theorem fresh_get {h : Heap K X} {norm : Bool} {rs : List Nat} {ks : List K}
    (g : List.Forall₂ (fun r k => h.objs r = some (.km (KMState.init k norm 0))) rs ks) {i r : Nat} (hi : rs[i]? = some r) :
    ∃ k, ks[i]? = some k ∧ h.objs r = some (.km (KMState.init k norm 0)) := by
  induction g generalizing i with
  | nil => simp at hi
  | cons e _ ih =>
    cases i with
    | zero =>
      rw [List.getElem?_cons_zero] at hi
      obtain rfl := Option.some.inj hi
      exact ⟨_, rfl, e⟩
    | succ i =>
      rw [List.getElem?_cons_succ] at hi
      exact ih hi

theorem fresh_mem {h : Heap K X} {norm : Bool} {rs : List Nat} {ks : List K}
    (g : List.Forall₂ (fun r k => h.objs r = some (.km (KMState.init k norm 0))) rs ks) {r : Nat} (hr : r ∈ rs) :
    ∃ k ∈ ks, h.objs r = some (.km (KMState.init k norm 0)) := by
  obtain ⟨i, hi⟩ := List.getElem?_of_mem hr
  obtain ⟨k, hk, e⟩ := fresh_get g hi
  exact ⟨k, List.mem_of_getElem? hk, e⟩

/-- all matrices finite -/
theorem fresh_align {s : SetSt LibKernel (List ℝ)} {norm : Bool} {ks : List LibKernel} (hne : ks ≠ [])
    (g : List.Forall₂ (fun r k => s.heap.objs r = some (.km (KMState.init k norm 0))) s.set.members ks) (hn : s.set.numSamples = .unset)
    {A : Arr2 (List ℝ)} (hA : ∀ i, i < A.nrows → (A.row i).length = A.ncols)
    (hk : ∀ k ∈ ks, k.kernel.InBucket ∧ (norm = true → ∀ i : Fin A.nrows, 1e-8 < k.kernel.formula (A.row i) (A.row i)))
    (cv : CVScore) (y : Fin A.nrows → ℝ) {method : String} (hm : method.toLower = "align/corr") :
    ∃ i r k s', findOptimalKernel (libEnv realOps) cv true (sampleArg A) ((List.ofFn y).map .real) method {} s = (.ok r, s') ∧ s.set.members[i]? = some r ∧
      ks[i]? = some k ∧ s'.heap.AttachedTo (libEnv realOps) r k norm A ∧
      FirstBest ((ks.map (·.kernel)).map fun k => calign (k.matrixOf norm A) (outerR A.nrows y)) i := by
  have hG : ∀ r ∈ s.set.members, s.heap.KernelOn (libEnv realOps) r A ((s.heap.kernelAt r ⟨.linear, false⟩).kernel.matrixOf norm A) := by
    intro r hr
    obtain ⟨k, hks, e⟩ := fresh_mem g hr
    rw [kernelAt_new e]
    exact ⟨k, norm, ⟨_, e, .new 0⟩, lib_isMatrix1 hA (hk k hks).1 (hk k hks).2⟩
  have hne' : s.set.members ≠ [] := by
    intro h
    have := g.length_eq
    rw [h] at this
    exact hne (List.length_eq_zero_iff.1 this.symm)
  obtain ⟨i, r, s', e, hat, hr, hb⟩ := C45_align (env := libEnv realOps) rfl cv y hm (.inl hn) hne' hG
  obtain ⟨k, hki, ek⟩ := fresh_get g hr
  refine ⟨i, r, k, s', e, hr, hki, hat.2.2 r k norm (List.mem_of_getElem? hr) ⟨_, ek, .new 0⟩, ?_⟩
  rw [List.map_map]
  rw [map_fresh g ⟨.linear, false⟩ fun k => calign (k.kernel.matrixOf norm A) (outerR A.nrows y)] at hb
  exact hb

/-- the first of the matrices with NaN -/
theorem first_nan {s : SetSt K X} {A : Arr2 X} (cv : CVScore) (y : Fin A.nrows → ℝ) {method : String} (hm : method.toLower = "align/corr")
    (hn : s.set.numSamples = .unset ∨ s.set.numSamples = .one A.nrows)
    {G : Nat → Fin A.nrows → Fin A.nrows → F} (hG : ∀ r ∈ s.set.members, s.heap.MatrixOn env r A ⟨A.nrows, A.nrows, G r⟩)
    (hy : ¬ NearZero (Real.sqrt (frobInner (centered (outerR A.nrows y)) (centered (outerR A.nrows y)))))
    {i r : Nat} (hr : s.set.members[i]? = some r) (hnan : ∃ a b, G r a b = .nan)
    (hfin : ∀ j < i, ∀ q, s.set.members[j]? = some q → ∀ a b, G q a b ≠ .nan) :
    ∃ s', findOptimalKernel env cv true (sampleArg A) ((List.ofFn y).map .real) method {} s = (.ok r, s') ∧ s.NowAttached env s' A := by
  classical
  obtain ⟨s1, e1, h1⟩ := attach_nowAttached (env := env) hn fun r hr => by
    obtain ⟨k, norm, h, -⟩ := hG r hr
    exact ⟨k, norm, h⟩
  have hsc : ∀ q, ∃ v : F, alignmentCentered ⟨A.nrows, A.nrows, G q⟩ (idealKernel ((List.ofFn y).map .real)) (.value 0) false = .ok v ∧
      ((∃ a b, G q a b = .nan) → v = .nan) ∧ ((∀ a b, G q a b ≠ .nan) → ∃ x, v = .real x) := by
    intro q
    rw [idealKernel_real]
    by_cases h : ∃ a b, G q a b = .nan
    · exact ⟨.nan, alignmentCentered_nan h _ hy _, fun _ => rfl, fun h' => (h.elim fun a ha => ha.elim fun b hb => h' a b hb).elim⟩
    · have hreal : ∃ R : Matrix (Fin A.nrows) (Fin A.nrows) ℝ, (⟨A.nrows, A.nrows, G q⟩ : Mat F) = Mat.ofReal R := by
        rcases Mat.real_or_nan ⟨A.nrows, A.nrows, G q⟩ with ⟨R, hR⟩ | h'
        · exact ⟨R, hR⟩
        · exact (h h').elim
      obtain ⟨R, hR⟩ := hreal
      rw [hR]
      refine ⟨.real (calign R (outerR A.nrows y)), ?_, fun h' => (h h').elim, fun _ => ⟨_, rfl⟩⟩
      exact alignMetric_real (f := .dense) (g := .dense) (by decide) (by decide) _ _
  choose sc hsc1 hsc2 hsc3 using hsc
  obtain ⟨s2, e2, h2⟩ := alignRanking_runF h1 ((List.ofFn y).map .real) (G := fun r => ⟨A.nrows, A.nrows, G r⟩) hG (sc := sc) (fun r _ => hsc1 r)
  refine ⟨s2, findOptimal_run (i := i) (by simp [validMethod, hm]) e1 ((rank_align hm).trans e2) (argmaxF_first_nan ?_ ?_) (by rw [h2.1]; exact hr), h2⟩
  · rw [List.getElem?_map, hr, Option.map_some, hsc2 r hnan]
  · intro j hj
    have hil : i < s.set.members.length := by
      rcases Nat.lt_or_ge i s.set.members.length with h | h
      · exact h
      · rw [List.getElem?_eq_none h] at hr; cases hr
    have hjl : j < s.set.members.length := by omega
    obtain ⟨x, hx⟩ := hsc3 (s.set.members[j]) (hfin j hj _ (List.getElem?_eq_getElem hjl))
    exact ⟨x, by rw [List.getElem?_map, List.getElem?_eq_getElem hjl, Option.map_some, hx]⟩

/-- a row of length zero, and the linear kernel first -/
theorem fresh_zero_row {s : SetSt LibKernel (List ℝ)} {ks : List LibKernel} {b : Bool}
    (g : List.Forall₂ (fun r k => s.heap.objs r = some (.km (KMState.init k true 0))) s.set.members (⟨.linear, b⟩ :: ks)) (hn : s.set.numSamples = .unset)
    {A : Arr2 (List ℝ)} (hA : ∀ i, i < A.nrows → (A.row i).length = A.ncols) {i : Nat} (hi : i < A.nrows) (hz : A.sqNorm i ≤ 1e-8)
    (cv : CVScore) (targets : List F) {method : String} (hm : method.toLower = "align/corr") (p : MethodParams) :
    (findOptimalKernel (libEnv realOps) cv true (sampleArg A) targets method p s).1 = .error .kmNorm := by
  obtain ⟨s1, e1, h1⟩ := attach_nowAttached (env := libEnv realOps) (s := s) (A := A) (.inl hn) fun r hr => by
    obtain ⟨k, -, e⟩ := fresh_mem g hr
    exact ⟨k, true, _, e, .new 0⟩
  rcases hms : s.set.members with _ | ⟨r, rs⟩
  · rw [hms] at g; cases g
  rw [hms] at g
  obtain ⟨t, ht, hsince⟩ := h1.2.2 r ⟨.linear, b⟩ true (by rw [hms]; simp) ⟨_, (List.forall₂_cons.1 g).1, .new 0⟩
  have hfull := lib_full_normed hA (k := ⟨.linear, b⟩) trivial (Since.mono (fun _ _ => trivial) hsince)
  have herr : normalizeKm (Mat.ofReal (NumKernel.linear.matrixOn A)) "cosine" = .error .kmNorm := by
    refine ((C20_errors (Mat.ofReal (NumKernel.linear.matrixOn A)) "cosine").2.2 rfl (by decide +kernel)).1 ⟨⟨i, hi⟩, A.sqNorm i, ?_, ?_⟩
    · show F.real (NumKernel.linear.formula (A.row i) (A.row i)) = _
      rw [(formula_self .linear A i).1 rfl]
    · rwa [abs_of_nonneg (sqNorm_nonneg A i)]
  rw [herr, exec_full_run] at hfull
  have hfull' : (KMState.full (libEnv realOps) t).1 = .error .kmNorm := by
    have : ((KMState.full (libEnv realOps) t).1.map fun m => KMOut.mat m.1 m.2) = .error .kmNorm := hfull
    cases hh : (KMState.full (libEnv realOps) t).1 with
    | error e => rw [hh] at this; cases this; rfl
    | ok m => rw [hh] at this; cases this
  have hheap : (Heap.full (libEnv realOps) r s1.heap).1 = .error .kmNorm := by
    unfold Heap.full
    rw [ht]
    show (Heap.call r (KMState.full (libEnv realOps)) s1.heap).1 = _
    rw [Heap.call_km _ ht]
    exact hfull'
  have hone : ∃ s2, alignScoreOne (libEnv realOps) targets p r s1 = (.error .kmNorm, s2) := by
    refine ⟨{ s1 with heap := (Heap.full (libEnv realOps) r s1.heap).2 }, ?_⟩
    show (SetSt.onHeap (Heap.full (libEnv realOps) r) >>= _ : PyM (SetSt LibKernel (List ℝ)) F) s1 = _
    have h0 : SetSt.onHeap (Heap.full (libEnv realOps) r) s1 = (.error .kmNorm, { s1 with heap := (Heap.full (libEnv realOps) r s1.heap).2 }) := by
      unfold SetSt.onHeap
      rw [hheap]
    exact bind_error h0
  obtain ⟨s2, e2⟩ := hone
  have e3 : rankKernels (libEnv realOps) cv targets method p s1 = (.error .kmNorm, s2) := by
    rw [rank_align hm]
    show mapEach s1.set.members _ s1 = _
    rw [h1.1]
    show mapEach s.set.members _ s1 = _
    rw [hms]
    show (alignScoreOne (libEnv realOps) targets p r >>= _ : PyM (SetSt LibKernel (List ℝ)) (List F)) s1 = _
    exact bind_error e2
  have : findOptimalKernel (libEnv realOps) cv true (sampleArg A) targets method p s = (.error .kmNorm, s2) := by
    show (raiseIf (!validMethod method) .notImplemented >>= fun _ => _ : PyM (SetSt LibKernel (List ℝ)) Nat) s = _
    rw [show validMethod method = true by simp [validMethod, hm]]
    show (SetSt.attach (sampleArg A) none >>= _ : PyM (SetSt LibKernel (List ℝ)) Nat) s = _
    rw [bind_ok e1]
    show (rankKernels (libEnv realOps) cv targets method p >>= _ : PyM (SetSt LibKernel (List ℝ)) Nat) s1 = _
    exact bind_error e3
  rw [this]

theorem strategy_good {A : Arr2 (List ℝ)} {norm : Bool} {ds sigma laplace sigmoid : List ℤ} {offsets : List ℝ} (hd : ∀ d ∈ ds, 0 ≤ d)
    (ho : ∀ o ∈ offsets, 1 ≤ o ∨ (norm = true → ∀ i : Fin A.nrows, 1e-8 < Real.tanh (o + A.sqNorm i)))
    (hrow : norm = true → ∀ i : Fin A.nrows, 1e-8 < A.sqNorm i) {k : NumKernel} (hk : k ∈ strategyKernels ds sigma laplace sigmoid offsets) :
    k.InBucket ∧ (norm = true → ∀ i : Fin A.nrows, 1e-8 < k.formula (A.row i) (A.row i)) := by
  simp only [strategyKernels, List.mem_cons, List.mem_append, List.mem_map] at hk
  rcases hk with rfl | (((⟨d, hd', rfl⟩ | ⟨e, -, rfl⟩) | ⟨e, -, rfl⟩) | ⟨e, -, rfl⟩) | ⟨o, ho', rfl⟩
  · exact ⟨trivial, fun h i => by rw [(formula_self .linear A i).1 rfl]; exact hrow h i⟩
  · exact ⟨⟨hd d hd', rfl, rfl⟩, fun _ i => (formula_self _ A i).2.1 ⟨d, hd d hd', rfl⟩⟩
  · exact ⟨trivial, fun _ i => (formula_self _ A i).2.2.1 ⟨_, _, rfl⟩⟩
  · exact ⟨trivial, fun _ i => (formula_self _ A i).2.2.2.1 ⟨_, rfl⟩⟩
  · exact ⟨trivial, fun _ i => (formula_self _ A i).2.2.2.2.1 ⟨_, _, by positivity, le_refl _, rfl⟩⟩
  · refine ⟨trivial, fun hn i => ?_⟩
    rcases ho o ho' with h | h
    · exact (formula_self _ A i).2.2.2.2.1 ⟨_, _, by norm_num, h, rfl⟩
    · rw [(formula_self _ A i).2.2.2.2.2 o rfl]; exact h hn i

theorem tanh_pos_iff' {x : ℝ} : 0 < Real.tanh x ↔ 0 < x := by
  rw [Real.tanh_eq_sinh_div_cosh, div_pos_iff_of_pos_right (Real.cosh_pos x), Real.sinh_pos_iff]

theorem tanh_neg_iff' {x : ℝ} : Real.tanh x < 0 ↔ x < 0 := by
  rw [Real.tanh_eq_sinh_div_cosh, div_neg_iff]
  have := Real.cosh_pos x
  constructor
  · rintro (⟨-, h⟩ | ⟨h, -⟩)
    · linarith
    · exact Real.sinh_neg_iff.1 h
  · exact fun h => .inr ⟨Real.sinh_neg_iff.2 h, this⟩

end KMethods
