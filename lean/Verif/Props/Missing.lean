import Verif.Lemmas.MissingKM
import Verif.Props.FullMatrix
import Verif.Props.Pipeline
/-!
# C74: missing values

A missing value (NaN) in a sample should show in the kernel values of that sample, and only there.
-/
namespace KMethods
open F KMState

/-- **C74** without missing values the kernels are the ones of the other properties -/
theorem C74_no_missing (k : NumKernel) (x y : List ℝ) : k.callF false (.vecF (x.map .real)) (.vecF (y.map .real)) = k.call false (.vec x) (.vec y) := by
  by_cases h : x.length = y.length
  · rw [callF_vec k (by simpa using h), call_vec k h, evalF_real k h]
  · rw [callF_vec_ne k (by simpa using h), call_vec_ne k h]

/-- **C74** (all kernels but Hadamard, chi² and the polynomial kernel of degree 0) The value is NaN as soon as one value in one of the two samples is missing. For
the others it is false: `C74_hadamard`, `C74_chi2`, `C74_constant`. -/
theorem C74_value_partial {k : NumKernel} (hk : k.Propagates) {x y : List F} (hl : x.length = y.length) (h : ¬ Complete x ∨ ¬ Complete y) :
    k.callF false (.vecF x) (.vecF y) = .ok .nan := by
  rw [callF_vec k hl, evalF_nan hk hl (h.imp not_not.1 not_not.1)]

/-- **C74** Hadamard: the coordinates at which a value is missing are left out. With a positive exponent this is the same as replacing missing values by 0. -/
theorem C74_hadamard (α : ℝ) {x y : List F} (hl : x.length = y.length) :
    (NumKernel.hadamard α).callF false (.vecF x) (.vecF y) =
      (NumKernel.hadamard α).call false (.vec ((bothPresent x y).map (·.1))) (.vec ((bothPresent x y).map (·.2))) ∧
    (0 < α → (NumKernel.hadamard α).callF false (.vecF x) (.vecF y) =
      (NumKernel.hadamard α).call false (.vec (imputed 0 x)) (.vec (imputed 0 y))) := by
  rw [callF_vec _ hl, call_vec _ (by simp), call_vec _ (by simp [imputed, hl])]
  exact ⟨evalF_hadamard α x y, fun hα => evalF_hadamard_zero hα x y⟩

/-- **C74** chi²: the coordinates at which a value is missing are left out; negative values are rejected even where the other value is missing. -/
theorem C74_chi2 (γ : ℝ) {x y : List F} (hl : x.length = y.length) :
    (NonNegF x ∧ NonNegF y → (NumKernel.chi2 γ).callF false (.vecF x) (.vecF y) =
      (NumKernel.chi2 γ).call false (.vec ((bothPresent x y).map (·.1))) (.vec ((bothPresent x y).map (·.2)))) ∧
    (¬ (NonNegF x ∧ NonNegF y) → (NumKernel.chi2 γ).callF false (.vecF x) (.vecF y) = .error .chi2Negative) := by
  rw [callF_vec _ hl, call_vec _ (by simp)]
  exact ⟨fun h => evalF_chi2 γ h.1 h.2, evalF_chi2_neg γ⟩

/-- **C74** the polynomial kernel of degree 0 is 1 -/
theorem C74_constant (γ b : ℝ) {x y : List F} (hl : x.length = y.length) : (NumKernel.poly 0 γ b).callF false (.vecF x) (.vecF y) = .ok 1 := by
  rw [callF_vec _ hl]
  simp only [NumKernel.evalF]
  rcases (real b + real γ * dotF x y : F) with v | _
  · simp [powF, intPow, one_def]
  · simp [powF]

/-- a sample with a missing value, and a complete one -/
example : ¬ Complete [.real 1, .nan, .real 3] ∧ Complete [.real 2, .real 5, .real 3] ∧
    bothPresent [.real 1, .nan, .real 3] [.real 2, .real 5, .real 3] = [(1, 2), (3, 3)] ∧
    NumKernel.linear.callF false (.vecF [.real 1, .nan, .real 3]) (.vecF [.real 2, .real 5, .real 3]) = .ok .nan ∧
    NonNegF [.real 1, .nan, .real 3] := by
  refine ⟨by simp [Complete], by simp [Complete], rfl, C74_value_partial (k := .linear) trivial rfl (.inl (by simp [Complete])), fun a ha => ?_⟩
  simp only [List.mem_cons, F.real.injEq, reduceCtorEq, List.not_mem_nil, or_false, false_or] at ha
  rcases ha with rfl | rfl <;> norm_num

/-- **C74** (no normalisation; kernels as above) After any calls not requesting sparse storage, the entries of `km.full` in the rows and columns of samples with a
missing value are NaN, the others are the values of the kernel. -/
theorem C74_full_partial {k : NumKernel} (hk : k.Propagates) {A : Arr2 (List F)} (hA : A.Rectangular) {s : KMState NumKernel (List F) F}
    (h : SinceDense (missingEnv realOps) k false ⟨A, none⟩ s) :
    ∃ c : Fin A.nrows → Fin A.nrows → F, (exec (missingEnv realOps) .full s).1 = .ok (.mat .dense ⟨A.nrows, A.nrows, c⟩) ∧
      ∀ i j : Fin A.nrows, (¬ Complete (A.row i) ∨ ¬ Complete (A.row j) → c i j = .nan) ∧
        ∀ x y, A.row i = x.map .real → A.row j = y.map .real → k.call false (.vec x) (.vec y) = .ok (c i j) := by
  have hnc : ∀ γ, k = .chi2 γ → ∀ i, i < A.nrows → NonNegF (A.row i) := fun γ e => by subst e; exact hk.elim
  refine ⟨fun i j => k.valF (A.row i) (A.row j), ?_, fun i j => ⟨fun hm => valF_nan hk ((hA i i.2).trans (hA j j.2).symm) hm, fun x y hx hy => ?_⟩⟩
  · rw [C08_full_is_gram (missing_noFaultsOn realOps hA hnc) (missing_quiet _ _ _) h, missing_gram realOps k hA]
  · have hl : x.length = y.length := by
      have := (hA i i.2).trans (hA j j.2).symm
      rw [hx, hy] at this
      simpa using this
    have e := valF_eq (k := k) (x := A.row i) (y := A.row j) fun γ e => ⟨hnc γ e i i.2, hnc γ e j j.2⟩
    rw [call_vec k hl, ← evalF_real k hl, ← hx, ← hy]
    exact e

/-- **C74** (the same for two samples) -/
theorem C74_full_two_partial {k : NumKernel} (hk : k.Propagates) {A B : Arr2 (List F)} (hA : A.Rectangular) (hB : B.Rectangular) (hc : A.ncols = B.ncols)
    {s : KMState NumKernel (List F) F} (h : SinceDense (missingEnv realOps) k false ⟨A, some B⟩ s) :
    ∃ c : Fin A.nrows → Fin B.nrows → F, (exec (missingEnv realOps) .full s).1 = .ok (.mat .dense ⟨A.nrows, B.nrows, c⟩) ∧
      ∀ (i : Fin A.nrows) (j : Fin B.nrows), (¬ Complete (A.row i) ∨ ¬ Complete (B.row j) → c i j = .nan) ∧
        ∀ x y, A.row i = x.map .real → B.row j = y.map .real → k.call false (.vec x) (.vec y) = .ok (c i j) := by
  have hlen : ∀ (i : Fin A.nrows) (j : Fin B.nrows), (A.row i).length = (B.row j).length := fun i j => by rw [hA i i.2, hB j j.2, hc]
  refine ⟨fun i j => k.valF (A.row i) (B.row j), ?_, fun i j => ⟨fun hm => valF_nan hk (hlen i j) hm, fun x y hx hy => ?_⟩⟩
  · rw [C08_full_is_gram (missing_noFaultsOn_two realOps hA hB hc hk) (missing_quiet _ _ _) h]
    show Except.ok (KMOut.mat .dense (⟨A.nrows, B.nrows, _⟩ : Mat F)) = _
    congr 3
    funext i j
    exact missing_kval realOps k (hlen i j)
  · have hl : x.length = y.length := by
      have := hlen i j
      rw [hx, hy] at this
      simpa using this
    have e := valF_eq (k := k) (x := A.row i) (y := B.row j) fun γ e => by subst e; exact hk.elim
    rw [call_vec k hl, ← evalF_real k hl, ← hx, ← hy]
    exact e

/-- **C74** (violated by normalisation, the default) One missing value in one sample: after any calls, `km.full` of a normalising object is NaN everywhere, also in the
rows and columns of the complete samples, unless `KMNormError` is raised because the self-kernel of a complete sample is close to zero. -/
theorem C74_violated_normalised {k : NumKernel} (hk : k.Propagates) {A : Arr2 (List F)} (hA : A.Rectangular) (hm : ∃ i : Fin A.nrows, ¬ Complete (A.row i))
    {s : KMState NumKernel (List F) F} (h : SinceAny (missingEnv realOps) k true ⟨A, none⟩ s) :
    ((∃ (i : Fin A.nrows) (x : List ℝ) (v : ℝ), A.row i = x.map .real ∧ k.call false (.vec x) (.vec x) = .ok (.real v) ∧ NearZero v) →
      (exec (missingEnv realOps) .full s).1 = .error .kmNorm) ∧
    ((¬ ∃ (i : Fin A.nrows) (x : List ℝ) (v : ℝ), A.row i = x.map .real ∧ k.call false (.vec x) (.vec x) = .ok (.real v) ∧ NearZero v) →
      (exec (missingEnv realOps) .full s).1 = .ok (.mat .dense ⟨A.nrows, A.nrows, fun _ _ => .nan⟩)) := by
  have hnc : ∀ γ, k = .chi2 γ → ∀ i, i < A.nrows → NonNegF (A.row i) := fun γ e => by subst e; exact hk.elim
  obtain ⟨r, hr⟩ := hm
  have e : (exec (missingEnv realOps) .full s).1 =
      (normalizeKm ⟨A.nrows, A.nrows, fun i j => k.valF (A.row i) (A.row j)⟩ "cosine").map (KMOut.mat .dense) := by
    rw [C09_full_is_normalised_gram rfl (missing_noFaultsOn realOps hA hnc) (missing_quiet _ _ _) (missing_quietNormed _ _ _) h, missing_gram realOps k hA]
  have hn := normalizeKm_nan (fun i j : Fin A.nrows => k.valF (A.row i) (A.row j)) (r := r) (c := r) (valF_nan hk rfl (.inl hr)) toLower_cosine
  have hclose : (∃ i : Fin A.nrows, isClose (k.valF (A.row i) (A.row i)) 0) ↔
      ∃ (i : Fin A.nrows) (x : List ℝ) (v : ℝ), A.row i = x.map .real ∧ k.call false (.vec x) (.vec x) = .ok (.real v) ∧ NearZero v := by
    constructor
    · rintro ⟨i, hi⟩
      have hci : Complete (A.row i) := by
        by_contra hci
        rw [valF_nan hk rfl (.inl hci)] at hi
        exact hi
      have hx : A.row i = ((A.row i).map F.val).map .real := by
        rw [List.map_map]
        refine (List.map_id _).symm.trans (List.map_congr_left fun a ha => ?_)
        rcases a with a | _
        · rfl
        · exact absurd ha hci
      rcases hv : k.valF (A.row i) (A.row i) with v | _
      · refine ⟨i, (A.row i).map F.val, v, hx, ?_, ?_⟩
        · have e := valF_eq (k := k) (x := A.row i) (y := A.row i) fun γ e => ⟨hnc γ e i i.2, hnc γ e i i.2⟩
          rw [hv] at e
          rw [call_vec k rfl, ← evalF_real k rfl, ← hx]
          exact e
        · rw [hv] at hi
          exact (isClose_zero v).1 hi
      · rw [hv] at hi
        exact hi.elim
    · rintro ⟨i, x, v, hx, hv, hz⟩
      refine ⟨i, ?_⟩
      rw [call_vec k rfl, ← evalF_real k rfl, ← hx] at hv
      rw [NumKernel.valF, hv]
      exact (isClose_zero v).2 hz
  rw [e, ← hclose]
  exact ⟨fun hz => by rw [hn.1 hz]; rfl, fun hz => by rw [hn.2 hz]; rfl⟩

/-- **C74** (violated by centering) One missing value in one sample makes `km.centered` NaN everywhere. -/
theorem C74_violated_centered {k : NumKernel} (hk : k.Propagates) {norm : Bool} {A : Arr2 (List F)} (hA : A.Rectangular)
    (hm : ∃ i : Fin A.nrows, ¬ Complete (A.row i)) {s : KMState NumKernel (List F) F} (h : SinceDense (missingEnv realOps) k norm ⟨A, none⟩ s) :
    (exec (missingEnv realOps) .centered s).1 = .ok (.mat .dense ⟨A.nrows, A.nrows, fun _ _ => .nan⟩) := by
  have hnc : ∀ γ, k = .chi2 γ → ∀ i, i < A.nrows → NonNegF (A.row i) := fun γ e => by subst e; exact hk.elim
  have hf := missing_noFaultsOn realOps hA hnc
  obtain ⟨r, hr⟩ := hm
  have := (centered_ff (noFaults_faultless (missingEnv realOps)) (h.goodOnDense hf)).2 (h.quiet (missing_quiet _ _ _)) rfl rfl
  rw [h.exec_faultless hf rfl]
  unfold exec
  rw [(exec_state s).2, this, h.kernel, faultless_ops, faultless_kval, missing_gram realOps k hA]
  show Except.map _ (Except.map _ (centerKm _)) = _
  rw [centerKm_all_nan _ (r := r) (c := r) (valF_nan hk rfl (.inl hr))]
  rfl

/-- three samples, a value of the second is missing; freshly attached -/
example : let A : Arr2 (List F) := ⟨3, 2, fun i => if i = 1 then [.real 4, .nan] else [.real i, .real 1]⟩
    A.Rectangular ∧ (∃ i : Fin A.nrows, ¬ Complete (A.row i)) ∧ Complete (A.row 0) ∧ Complete (A.row 2) ∧
    ∀ norm, SinceDense (missingEnv realOps) .linear norm ⟨A, none⟩
      (exec (missingEnv realOps) (.attach (.arr [3, 2] A.row) none) (init .linear norm 0)).2 := by
  refine ⟨fun i _ => ?_, ⟨1, by simp [Complete]⟩, by simp [Complete], by simp [Complete], fun norm => .attached (.new 0) (two := none) ⟨⟨0, rfl⟩, trivial⟩ rfl⟩
  dsimp only
  split <;> rfl

/-- **C74** (violated) The chi² kernel with missing values is not positive semidefinite, for any positive gamma: there are three samples for which, after any calls not
requesting sparse storage, `km.full` is a finite matrix that `is_PSD` rejects. -/
theorem C74_violated_chi2_psd {γ : ℝ} (hγ : 0 < γ) : ∃ (A : Arr2 (List F)) (K : Matrix (Fin A.nrows) (Fin A.nrows) ℝ), A.nrows = 3 ∧ A.Rectangular ∧
    (∀ i, NonNegF (A.row i)) ∧ ¬ IsPSD K ∧ isPSD (.arr (Mat.ofReal K)) 1e-6 = .ok false ∧
    ∀ s, SinceDense (missingEnv realOps) (.chi2 γ) false ⟨A, none⟩ s → (exec (missingEnv realOps) .full s).1 = .ok (.mat .dense (Mat.ofReal K)) := by
  let A : Arr2 (List F) := ⟨3, 1, fun i => if i = 0 then [.real 0] else if i = 1 then [.nan] else [.real (1 / γ)]⟩
  let K : Matrix (Fin 3) (Fin 3) ℝ := !![1, 1, Real.exp (-1); 1, 1, 1; Real.exp (-1), 1, 1]
  have hA : A.Rectangular := fun i _ => by
    show List.length (if i = 0 then _ else if i = 1 then _ else _) = 1
    split
    · rfl
    · split <;> rfl
  have hnn : ∀ i, NonNegF (A.row i) := fun i a ha => by
    change F.real a ∈ (if i = 0 then _ else if i = 1 then _ else _) at ha
    split at ha
    · simp only [List.mem_singleton, F.real.injEq] at ha; exact ha.ge
    · split at ha
      · simp at ha
      · simp only [List.mem_singleton, F.real.injEq] at ha
        rw [ha]; positivity
  have hsym : ∀ i j, K i j = K j i := by
    intro i j
    fin_cases i <;> fin_cases j <;> rfl
  have he : Real.exp (-1) < 1 / 2 := by
    rw [Real.exp_neg, ← one_div]
    exact one_div_lt_one_div_of_lt two_pos (by have := Real.add_one_lt_exp (one_ne_zero (α := ℝ)); linarith)
  have hq : ∑ i, ∑ j, (![1, -2, 1] : Fin 3 → ℝ) i * K i j * (![1, -2, 1] : Fin 3 → ℝ) j = 2 * Real.exp (-1) - 2 := by
    simp only [Fin.sum_univ_three, K]
    simp
    ring
  have hval : ∀ i j : Fin 3, (NumKernel.chi2 γ).valF (A.row i) (A.row j) = .real (K i j) := by
    have hev : ∀ x y : List F, NonNegF x → NonNegF y → (NumKernel.chi2 γ).valF x y =
        .real (Real.exp (-γ * sumZip chi2Term ((bothPresent x y).map (·.1)) ((bothPresent x y).map (·.2)))) := fun x y hx hy => by
      have hp : ¬ ((∃ a ∈ (bothPresent x y).map (·.1), a < 0) ∨ ∃ a ∈ (bothPresent x y).map (·.2), a < 0) := by
        rintro (⟨a, ha, hn⟩ | ⟨a, ha, hn⟩)
        · obtain ⟨p, hp, rfl⟩ := List.mem_map.1 ha
          exact absurd (hx _ (mem_bothPresent hp).1) (not_le.2 hn)
        · obtain ⟨p, hp, rfl⟩ := List.mem_map.1 ha
          exact absurd (hy _ (mem_bothPresent hp).2) (not_le.2 hn)
      rw [NumKernel.valF, evalF_chi2 γ hx hy, NumKernel.eval, if_neg hp]
    have h1 : γ * (1 / γ) = 1 := mul_one_div_cancel hγ.ne'
    have hg : (1:ℝ) / γ ≠ 0 := (one_div_pos.2 hγ).ne'
    intro i j
    rw [hev _ _ (hnn i) (hnn j)]
    congr 1
    fin_cases i <;> fin_cases j <;> simp only [A, K] <;> simp [bothPresent, sumZip, chi2Term, hγ.ne'] <;> field_simp
  refine ⟨A, K, rfl, hA, hnn, fun hp => ?_, ?_, fun s h => ?_⟩
  · have := hp.2 ![1, -2, 1]
    rw [hq] at this
    linarith
  · obtain ⟨b, hb, hb'⟩ := C25_decides K hsym 1e-6
    cases b with
    | false => exact hb
    | true =>
      have := hb'.1 rfl ![1, -2, 1]
      rw [hq] at this
      rw [show ∑ i, (![1, -2, 1] : Fin 3 → ℝ) i * (![1, -2, 1] : Fin 3 → ℝ) i = 6 by simp [Fin.sum_univ_three]; norm_num] at this
      linarith
  · rw [C08_full_is_gram (missing_noFaultsOn realOps hA fun _ _ i _ => hnn i) (missing_quiet _ _ _) h, missing_gram realOps _ hA]
    congr 3
    funext i j
    exact hval i j

/-- **C74** the Hadamard kernel with a positive exponent stays positive semidefinite: after any calls not requesting sparse storage -/
theorem C74_hadamard_psd {α : ℝ} (hα : 0 < α) {A : Arr2 (List F)} (hA : A.Rectangular) {s : KMState NumKernel (List F) F}
    (h : SinceDense (missingEnv realOps) (.hadamard α) false ⟨A, none⟩ s) :
    ∃ K, IsPSD K ∧ (exec (missingEnv realOps) .full s).1 = .ok (.mat .dense (Mat.ofReal (n := A.nrows) (m := A.nrows) K)) := by
  obtain ⟨K, hK, hg⟩ := psdOn_of_validOn (k := .hadamard α) (A := ⟨A.nrows, A.ncols, fun i => imputed 0 (A.row i)⟩)
    ⟨fun i hi => by simp [imputed, hA i hi], .inl hα⟩
  refine ⟨K, hK, ?_⟩
  rw [C08_full_is_gram (missing_noFaultsOn realOps hA fun _ e => by cases e) (missing_quiet _ _ _) h, missing_gram realOps _ hA]
  congr 3
  funext i j
  have hl : (A.row i).length = (A.row j).length := (hA i i.2).trans (hA j j.2).symm
  have e := hg i j
  dsimp only at e
  rw [call_vec _ (by simp [imputed, hl])] at e
  rw [NumKernel.valF, evalF_hadamard_zero hα, e]

/-- three samples with missing values -/
example : SinceDense (missingEnv realOps) (.hadamard 2) false ⟨⟨3, 2, fun i => [.real i, .nan]⟩, none⟩
      (exec (missingEnv realOps) (.attach (.arr [3, 2] fun i => [.real i, .nan]) none) (init (.hadamard 2) false 0)).2 ∧
    Arr2.Rectangular (⟨3, 2, fun i => [.real i, .nan]⟩ : Arr2 (List F)) :=
  ⟨.attached (.new 0) (two := none) ⟨⟨0, rfl⟩, trivial⟩ rfl, fun _ _ => rfl⟩

end KMethods
