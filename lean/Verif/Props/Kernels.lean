import Verif.Lemmas.Kernels
import Verif.Props.Operations
/-!
# C27-C31, C55: kernel functions
-/
namespace KMethods
open F
variable {n d : Nat}

/-! ### C27 symmetry -/

/-- **C27** Every numeric kernel, with all parameters and all inputs (of any shape and dtype, input checks on or off), gives the
same value or the same exception when its arguments are exchanged. -/
theorem C27_numeric_symmetric (k : NumKernel) (skip : Bool) (x y : NdArray ℝ) : k.call skip x y = k.call skip y x := by
  unfold NumKernel.call
  split
  · exact eval_comm k _ _
  · unfold checkInputArrays
    rcases hx : ensureNdarray1D x k.wantDType with e | x'
    · rcases hy : ensureNdarray1D y k.wantDType with e' | y'
      · rw [ensureNdarray1D_error hx, ensureNdarray1D_error hy]
      · rw [ensureNdarray1D_error hx]; rfl
    · rcases hy : ensureNdarray1D y k.wantDType with e' | y'
      · rfl
      · change ((if x'.shape.prod ≠ y'.shape.prod then _ else _ : Except PyErr (NdArray ℝ × NdArray ℝ)) >>= _) =
          ((if y'.shape.prod ≠ x'.shape.prod then _ else _ : Except PyErr (NdArray ℝ × NdArray ℝ)) >>= _)
        by_cases h : x'.shape.prod = y'.shape.prod
        · rw [if_neg (not_not.2 h), if_neg (not_not.2 h.symm)]
          exact eval_comm k _ _
        · rw [if_pos h, if_pos (Ne.symm h)]

/-- **C27** the same for the categorical kernel (`data` lists the entries of the array, so has as many elements as the shape
says) -/
theorem C27_match_symmetric (p : Bool) (x y : CatArray) (hx : x.data.length = x.shape.prod)
    (hy : y.data.length = y.shape.prod) : matchCall p x y = matchCall p y x := by
  unfold matchCall checkCategoricalArrays
  rcases h1 : ensureTypeSize x with e | sx
  · rcases h2 : ensureTypeSize y with e' | sy
    · rw [ensureTypeSize_error h1, ensureTypeSize_error h2]; rfl
    · rw [ensureTypeSize_error h1]; rfl
  · rcases h2 : ensureTypeSize y with e' | sy
    · rfl
    · have e1 := ensureTypeSize_prod h1
      have e2 := ensureTypeSize_prod h2
      change ((if sx.prod ≠ sy.prod then _ else _ : Except PyErr Unit) >>= _) =
        ((if sy.prod ≠ sx.prod then _ else _ : Except PyErr Unit) >>= _)
      by_cases h : sx.prod = sy.prod
      · rw [if_neg (not_not.2 h), if_neg (not_not.2 h.symm)]
        show (if ¬ (x.isStr = true ∧ y.isStr = true) then _ else _) = (if ¬ (y.isStr = true ∧ x.isStr = true) then _ else _)
        rw [matchCount_comm, show x.data.length = y.data.length by omega]
        by_cases hs : x.isStr = true ∧ y.isStr = true
        · rw [if_neg (not_not.2 hs), if_neg (not_not.2 hs.symm)]
        · rw [if_pos hs, if_pos fun h => hs h.symm]
      · rw [if_pos h, if_pos (Ne.symm h)]; rfl

/-- both a computed value and an exception -/
example : (NumKernel.chi2 1).on ![1, 0] ![0, -1] = .error .chi2Negative ∧
    NumKernel.linear.on ![1, 2] ![3, 4] = .ok (.real 11) := by
  constructor
  · rw [on_eq, NumKernel.eval, if_pos]
    exact Or.inr ⟨-1, by simp, by norm_num⟩
  · rw [on_linear]; norm_num [Fin.sum_univ_two]

/-! ### C28 positive semidefiniteness -/

/-- **C28** linear kernel -/
theorem C28_linear (x : Fin n → Fin d → ℝ) : PSDOn NumKernel.linear.on x :=
  ⟨_, isPSD_dot x, fun _ _ => on_linear _ _⟩

/-- **C28** polynomial kernel with non-negative intercept and scale, every natural degree -/
theorem C28_poly (deg : Nat) {γ b : ℝ} (hγ : 0 ≤ γ) (hb : 0 ≤ b) (x : Fin n → Fin d → ℝ) :
    PSDOn (NumKernel.poly deg γ b).on x :=
  ⟨_, ((isPSD_const hb).add ((isPSD_dot x).smul hγ)).pow deg, fun _ _ => on_poly deg γ b _ _⟩

/-- **C28** Gaussian kernel, whatever bandwidth was asked for -/
theorem C28_gaussian (σ : ℝ) (x : Fin n → Fin d → ℝ) : PSDOn (mkGaussian σ).on x :=
  ⟨_, isPSD_gaussian (ensureMinEps_pos _).le x, fun _ _ => on_gaussian _ _ _ _⟩

/-- **C28** Laplacian kernel -/
theorem C28_laplacian {γ : ℝ} (hγ : 0 ≤ γ) (x : Fin n → Fin d → ℝ) : PSDOn (NumKernel.laplacian γ).on x :=
  ⟨_, isPSD_laplacian hγ x, fun _ _ => on_laplacian _ _ _⟩

/-- **C28** chi² kernel on non-negative data -/
theorem C28_chi2 {γ : ℝ} (hγ : 0 ≤ γ) (x : Fin n → Fin d → ℝ) (hx : ∀ i k, 0 ≤ x i k) :
    PSDOn (NumKernel.chi2 γ).on x :=
  ⟨_, isPSD_chi2 hγ x hx, fun i j => on_chi2 γ (hx i) (hx j)⟩

/-- **C28** Hadamard kernel with positive alpha on all data, with any alpha on data without zeros -/
theorem C28_hadamard {α : ℝ} (x : Fin n → Fin d → ℝ) (h : 0 < α ∨ ∀ i k, x i k ≠ 0) :
    PSDOn (NumKernel.hadamard α).on x := by
  refine ⟨_, isPSD_finset_sum Finset.univ (A := fun k i j => 1 / 2 * (|x i k| ^ α * |x j k| ^ α / (|x i k| ^ α + |x j k| ^ α)))
    fun k _ => (isPSD_harmonic (fun i => |x i k| ^ α) fun i => Real.rpow_nonneg (abs_nonneg _) _).smul (by norm_num),
    fun i j => on_hadamard ?_⟩
  exact h.imp id fun h => ⟨h i, h j⟩

/-- **C28** match-count kernel -/
theorem C28_match_count (x : Fin n → Fin d → String) : PSDOn (fun a b => matchCall false (.vec a) (.vec b)) x :=
  ⟨_, isPSD_agreement x, fun _ _ => matchCall_vec _ _ _⟩

/-- **C28** match-percentage kernel (on vectors with at least one coordinate) -/
theorem C28_match_perc (hd : 0 < d) (x : Fin n → Fin d → String) :
    PSDOn (fun a b => matchCall true (.vec a) (.vec b)) x := by
  refine ⟨_, (isPSD_agreement x).smul (c := 1 / d) (by positivity), fun i j => ?_⟩
  show matchCall true _ _ = _
  rw [matchCall_vec, if_pos rfl, real_div_nat, if_neg hd.ne', div_mul_eq_mul_div, one_mul]

/-- three points on which the Gaussian, chi² and Hadamard kernels are defined, with a zero entry -/
example : (∀ i k, 0 ≤ (![![0, 1], ![2, 3], ![0, 0]] : Fin 3 → Fin 2 → ℝ) i k) ∧
    (NumKernel.chi2 1).on ![0, 1] ![0, 0] = .ok (.real (Real.exp (-1))) := by
  constructor
  · intro i k; fin_cases i <;> fin_cases k <;> norm_num
  · rw [on_chi2 1 (by intro k; fin_cases k <;> norm_num) (by intro k; fin_cases k <;> norm_num)]
    norm_num [Fin.sum_univ_two]

/-! ### C29 ranges -/

/-- **C29** Gaussian: in (0, 1], and 1 exactly at equal vectors -/
theorem C29_gaussian (σ : ℝ) (x y : Fin d → ℝ) :
    ∃ v, (mkGaussian σ).on x y = .ok (.real v) ∧ 0 < v ∧ v ≤ 1 ∧ (v = 1 ↔ x = y) := by
  refine ⟨_, on_gaussian _ _ _ _, (exp_range (ensureMinEps_pos _).le ?_).1, (exp_range (ensureMinEps_pos _).le ?_).2, ?_⟩
  · exact Finset.sum_nonneg fun k _ => sq_nonneg _
  · exact Finset.sum_nonneg fun k _ => sq_nonneg _
  · rw [exp_eq_one (ensureMinEps_pos _), Finset.sum_eq_zero_iff_of_nonneg fun k _ => sq_nonneg _, funext_iff]
    simp [sub_eq_zero]

/-- **C29** Laplacian: in (0, 1], 1 at equal vectors, and only there for positive `γ` -/
theorem C29_laplacian {γ : ℝ} (hγ : 0 ≤ γ) (x y : Fin d → ℝ) :
    ∃ v, (NumKernel.laplacian γ).on x y = .ok (.real v) ∧ 0 < v ∧ v ≤ 1 ∧ (x = y → v = 1) ∧ (0 < γ → v = 1 → x = y) := by
  refine ⟨_, on_laplacian _ _ _, (exp_range hγ ?_).1, (exp_range hγ ?_).2, ?_, ?_⟩
  · exact Finset.sum_nonneg fun k _ => abs_nonneg _
  · exact Finset.sum_nonneg fun k _ => abs_nonneg _
  · rintro rfl; simp
  · intro h
    rw [exp_eq_one h, Finset.sum_eq_zero_iff_of_nonneg fun k _ => abs_nonneg _, funext_iff]
    simp [sub_eq_zero]

/-- **C29** chi²: in (0, 1], 1 at equal vectors, and only there for positive `γ` -/
theorem C29_chi2 {γ : ℝ} (hγ : 0 ≤ γ) {x y : Fin d → ℝ} (hx : ∀ k, 0 ≤ x k) (hy : ∀ k, 0 ≤ y k) :
    ∃ v, (NumKernel.chi2 γ).on x y = .ok (.real v) ∧ 0 < v ∧ v ≤ 1 ∧ (x = y → v = 1) ∧ (0 < γ → v = 1 → x = y) := by
  have h0 : ∀ k, 0 ≤ (x k - y k) ^ 2 / (x k + y k) := fun k => div_nonneg (sq_nonneg _) (add_nonneg (hx k) (hy k))
  refine ⟨_, on_chi2 γ hx hy, (exp_range hγ ?_).1, (exp_range hγ ?_).2, ?_, ?_⟩
  · exact Finset.sum_nonneg fun k _ => h0 k
  · exact Finset.sum_nonneg fun k _ => h0 k
  · rintro rfl; simp
  · intro h
    rw [exp_eq_one h, Finset.sum_eq_zero_iff_of_nonneg fun k _ => h0 k, funext_iff]
    intro h k
    have h1 := h k (Finset.mem_univ k)
    rcases div_eq_zero_iff.1 h1 with h2 | h2
    · have := pow_eq_zero_iff (two_ne_zero) |>.1 h2; linarith
    · have h3 := hx k
      have h4 := hy k
      linarith

/-- **C29** sigmoid: in (-1, 1) -/
theorem C29_sigmoid (γ o : ℝ) (x y : Fin d → ℝ) :
    ∃ v, (NumKernel.sigmoid γ o).on x y = .ok (.real v) ∧ -1 < v ∧ v < 1 :=
  ⟨_, on_sigmoid _ _ _ _, Real.neg_one_lt_tanh _, Real.tanh_lt_one _⟩

/-- **C29** Hadamard: never negative (for every alpha, whenever the value is finite); always finite for positive alpha -/
theorem C29_hadamard (α : ℝ) (x y : Fin d → ℝ) :
    (∀ v, (NumKernel.hadamard α).on x y = .ok (.real v) → 0 ≤ v) ∧
    (0 < α → ∃ v, (NumKernel.hadamard α).on x y = .ok (.real v)) := by
  constructor
  · intro v h
    rw [on_eq, NumKernel.eval] at h
    split at h
    · cases h
    · injection h with h; injection h with h
      rw [← h, sumZip_ofFn]
      refine Finset.sum_nonneg fun k _ => ?_
      rw [hadamardTerm_eq]
      have h1 := Real.rpow_nonneg (abs_nonneg (x k)) α
      have h2 := Real.rpow_nonneg (abs_nonneg (y k)) α
      positivity
  · exact fun h => ⟨_, on_hadamard (Or.inl h)⟩

/-- **C29** match count: a number between 0 and the dimension, which is the dimension exactly for equal vectors -/
theorem C29_match_count (x y : Fin d → String) :
    ∃ c : Nat, matchCall false (.vec x) (.vec y) = .ok (.real c) ∧ c ≤ d ∧ (c = d ↔ x = y) := by
  refine ⟨_, matchCall_vec _ _ _, ?_, ?_⟩
  · exact (Finset.card_filter_le _ _).trans (by simp)
  · unfold agreement
    constructor
    · intro h
      have := Finset.filter_eq_self.1 (Finset.eq_univ_of_card _ (h.trans (Fintype.card_fin d).symm))
      exact funext fun k => this k (Finset.mem_univ k)
    · rintro rfl; simp

/-- **C29** match percentage: in [0, 1], and 1 exactly for equal vectors -/
theorem C29_match_perc (hd : 0 < d) (x y : Fin d → String) :
    ∃ v, matchCall true (.vec x) (.vec y) = .ok (.real v) ∧ 0 ≤ v ∧ v ≤ 1 ∧ (v = 1 ↔ x = y) := by
  obtain ⟨c, hc, h1, h2⟩ := C29_match_count x y
  have hd' : (0:ℝ) < d := by exact_mod_cast hd
  rw [matchCall_vec] at hc ⊢
  simp only [Bool.false_eq_true, if_false, Except.ok.injEq, real.injEq] at hc
  rw [if_pos rfl, real_div_nat, if_neg hd.ne', hc]
  refine ⟨_, rfl, by positivity, (div_le_one hd').2 (by exact_mod_cast h1), ?_⟩
  rw [div_eq_one_iff_eq hd'.ne', ← h2]
  exact_mod_cast Iff.rfl

example : matchCall true (.vec ![("a" : String), "b"]) (.vec ![("a" : String), "c"]) = .ok (.real (1 / 2)) := by
  rw [matchCall_vec, if_pos rfl, real_div_nat, if_neg (by norm_num)]
  have : agreement ![("a" : String), "b"] ![("a" : String), "c"] = 1 := by decide
  rw [this]; norm_num

/-! ### C30 input validation -/

/-- **C30** With input checks, vectors of different length are rejected with `ValueError`, by every numeric kernel -/
theorem C30_length (k : NumKernel) (x y : List ℝ) (h : x.length ≠ y.length) :
    k.call false (.vec x) (.vec y) = .error .valueError := by
  rw [NumKernel.call, if_neg (by simp), checkInputArrays_vec, if_pos h]
  rfl

/-- **C30** the chi² kernel raises its exception exactly when an entry is negative; no other numeric kernel raises on vectors of
equal length -/
theorem C30_chi2_negative (k : NumKernel) (x y : Fin d → ℝ) (e : PyErr) :
    k.on x y = .error e ↔ e = .chi2Negative ∧ (∃ γ, k = .chi2 γ) ∧ ((∃ i, x i < 0) ∨ ∃ i, y i < 0) := by
  have key : ((∃ a ∈ List.ofFn x, a < 0) ∨ (∃ a ∈ List.ofFn y, a < 0)) ↔ ((∃ i, x i < 0) ∨ ∃ i, y i < 0) := by
    simp [List.mem_ofFn']
  rw [on_eq]
  cases k <;> simp only [NumKernel.eval, reduceCtorEq, exists_false, false_and, and_false]
  rename_i γ
  by_cases h : (∃ i, x i < 0) ∨ ∃ i, y i < 0
  · rw [if_pos (key.2 h)]
    simp only [Except.error.injEq, h, and_true, NumKernel.chi2.injEq, exists_eq']
    exact eq_comm
  · rw [if_neg fun h' => h (key.1 h')]
    simp [h]

/-- **C30** `HadamardKernel(alpha)` raises exactly when alpha is close to zero -/
theorem C30_hadamard_alpha (α : ℝ) :
    (NearZero α → mkHadamard α = .error .valueError) ∧ (¬ NearZero α → mkHadamard α = .ok (.hadamard α)) := by
  constructor
  · intro h; rw [mkHadamard, if_pos ((isClose_zero α).2 h)]
  · intro h; rw [mkHadamard, if_neg fun h' => h ((isClose_zero α).1 h')]

/-- **C30** `GaussianKernel(sigma)`: bandwidth and scale are at least machine epsilon, are what was asked for when that is large
enough, and the denominator is never zero -/
theorem C30_gaussian_eps (σ : ℝ) : ∃ s g, mkGaussian σ = .gaussian s g ∧ 2⁻¹ ^ 52 ≤ s ∧ 2⁻¹ ^ 52 ≤ g ∧ 2 * s ^ 2 ≠ 0 ∧
    (2⁻¹ ^ 52 ≤ σ → s = σ ∧ (2⁻¹ ^ 52 ≤ 1 / (2 * σ ^ 2) → g = 1 / (2 * σ ^ 2))) := by
  refine ⟨_, _, rfl, ensureMinEps_ge _, ensureMinEps_ge _, ?_, ?_⟩
  · have := ensureMinEps_pos σ; positivity
  · intro h
    have h1 : ensureMinEps σ = σ := max_eq_right h
    exact ⟨h1, fun h2 => by rw [h1]; exact max_eq_right h2⟩

/-! ### C31 the sigmoid kernel -/

/-- **C31** For every positive scale and every non-zero offset there is a sample on which the sigmoid kernel is not positive
semidefinite. -/
theorem C31_not_psd {γ o : ℝ} (hγ : 0 < γ) (ho : o ≠ 0) :
    ∃ (n : Nat) (x : Fin n → Fin 1 → ℝ), ¬ PSDOn (NumKernel.sigmoid γ o).on x := by
  rcases lt_or_gt_of_ne ho with ho | ho
  · refine ⟨1, fun _ _ => 0, ?_⟩
    rintro ⟨K, hK, h⟩
    have h1 := h 0 0
    rw [on_sigmoid] at h1
    have h2 : Real.tanh o = K 0 0 := by simpa using h1
    have h3 := hK.diag_nonneg 0
    have h4 := tanh_pos' (neg_pos.2 ho)
    rw [Real.tanh_neg] at h4
    linarith
  · refine ⟨3, threePoints 1, ?_⟩
    rintro ⟨K, hK, h⟩
    have h1 := hK.2 ![-2, 1, 1]
    rw [sigmoid_three γ o 1 h, tanh_sum] at h1
    have e : o + γ * 1 ^ 2 + (o - γ * 1 ^ 2) = o + o := by ring
    rw [e] at h1
    have h2 : Real.tanh o + Real.tanh o = Real.sinh (o + o) / (Real.cosh o * Real.cosh o) := tanh_sum o o
    have hs : 0 < Real.sinh (o + o) := Real.sinh_pos_iff.2 (by linarith)
    have hc : Real.cosh o * Real.cosh o < Real.cosh (o + γ * 1 ^ 2) * Real.cosh (o - γ * 1 ^ 2) := by
      rw [Real.cosh_add, Real.cosh_sub]
      have h3 := Real.cosh_sq o
      have h4 := Real.cosh_sq (γ * 1 ^ 2)
      have h5 : 0 < Real.sinh (γ * 1 ^ 2) := Real.sinh_pos_iff.2 (by linarith)
      nlinarith [mul_pos h5 h5, sq_nonneg (Real.sinh o)]
    have : Real.sinh (o + o) / (Real.cosh (o + γ * 1 ^ 2) * Real.cosh (o - γ * 1 ^ 2)) <
        Real.sinh (o + o) / (Real.cosh o * Real.cosh o) :=
      div_lt_div_of_pos_left hs (mul_pos (Real.cosh_pos o) (Real.cosh_pos o)) hc
    linarith

/-- **C31** for all default parameters (positive scales, offsets -2, 1, 2) there is a sample for whose Gram matrix `is_PSD` answers
False with its default tolerance -/
theorem C31_is_psd_false {γ o : ℝ} (hγ : 0 < γ) (ho : 1 ≤ |o|) :
    ∃ (n : Nat) (x : Fin n → Fin 1 → ℝ) (K : Matrix (Fin n) (Fin n) ℝ),
      (∀ i j, (NumKernel.sigmoid γ o).on (x i) (x j) = .ok (.real (K i j))) ∧
      isPSD (.arr (Mat.ofReal K)) 1e-6 = .ok false := by
  have key : ∀ {n : Nat} (x : Fin n → Fin 1 → ℝ) (v : Fin n → ℝ) (K : Matrix (Fin n) (Fin n) ℝ),
      (∀ i j, (NumKernel.sigmoid γ o).on (x i) (x j) = .ok (.real (K i j))) →
      ∑ i, ∑ j, v i * K i j * v j < -1e-6 * ∑ i, v i * v i → isPSD (.arr (Mat.ofReal K)) 1e-6 = .ok false := by
    intro n x v K hK hv
    have hs : ∀ i j, K i j = K j i := by
      intro i j
      have h1 := hK i j
      rw [show (NumKernel.sigmoid γ o).on (x i) (x j) = (NumKernel.sigmoid γ o).on (x j) (x i) from
        C27_numeric_symmetric _ _ _ _, hK j i] at h1
      simpa using h1.symm
    obtain ⟨b, hb, h⟩ := C25_decides K hs 1e-6
    cases b with
    | false => exact hb
    | true => exact absurd (h.1 rfl v) (not_le.2 hv)
  rcases le_or_gt o 0 with h0 | h0
  · rw [abs_of_nonpos h0] at ho
    refine ⟨1, fun _ _ => 0, fun _ _ => Real.tanh o, fun i j => by rw [on_sigmoid]; simp, ?_⟩
    refine key (fun _ _ => 0) (fun _ => 1) _ (fun i j => by rw [on_sigmoid]; simp) ?_
    have := tanh_ge ho
    rw [Real.tanh_neg] at this
    simp
    norm_num
    linarith
  · rw [abs_of_pos h0] at ho
    let t := Real.sqrt (2 * o / γ)
    let K : Matrix (Fin 3) (Fin 3) ℝ := fun i j => Real.tanh (o + γ * ∑ k, threePoints t i k * threePoints t j k)
    have hK : ∀ i j, (NumKernel.sigmoid γ o).on (threePoints t i) (threePoints t j) = .ok (.real (K i j)) :=
      fun i j => on_sigmoid _ _ _ _
    refine ⟨3, threePoints t, K, hK, key (threePoints t) ![-2, 1, 1] K hK ?_⟩
    rw [sigmoid_three γ o t hK]
    have e : γ * t ^ 2 = 2 * o := by
      rw [Real.sq_sqrt (by positivity)]; field_simp
    rw [e, show o - 2 * o = -o by ring, Real.tanh_neg]
    have h1 := Real.tanh_lt_one (o + 2 * o)
    have h2 := tanh_ge ho
    simp [Fin.sum_univ_three]
    norm_num
    linarith

/-- the parameters of the default bucket are covered -/
example : (0:ℝ) < 2⁻¹ ^ 5 ∧ (1:ℝ) ≤ |(-2:ℝ)| ∧ (1:ℝ) ≤ |(1:ℝ)| := by norm_num

/-! ### C55 formulas -/

/-- **C55** linear kernel -/
theorem C55_linear (x y : Fin d → ℝ) : NumKernel.linear.on x y = .ok (.real (∑ k, x k * y k)) := on_linear x y

/-- **C55** polynomial kernel: for natural degree always, for negative degree if the base is not zero -/
theorem C55_poly (γ b : ℝ) (x y : Fin d → ℝ) :
    (∀ deg : Nat, (NumKernel.poly deg γ b).on x y = .ok (.real ((b + γ * ∑ k, x k * y k) ^ deg))) ∧
    ∀ deg : Nat, b + γ * ∑ k, x k * y k ≠ 0 →
      (NumKernel.poly (-deg) γ b).on x y = .ok (.real (1 / (b + γ * ∑ k, x k * y k) ^ deg)) := by
  refine ⟨fun deg => on_poly deg γ b x y, fun deg h => ?_⟩
  rw [on_eq, NumKernel.eval, dot, sumZip_ofFn, intPow, if_neg fun h' => h h'.1, zpow_neg, zpow_natCast, one_div]

/-- **C55** Gaussian kernel, for bandwidths from machine epsilon up to 2^25 -/
theorem C55_gaussian {σ : ℝ} (h1 : 2⁻¹ ^ 52 ≤ σ) (h2 : σ ≤ 2 ^ 25) (x y : Fin d → ℝ) :
    (mkGaussian σ).on x y = .ok (.real (Real.exp (-(∑ k, (x k - y k) ^ 2) / (2 * σ ^ 2)))) := by
  have hσ : 0 < σ := lt_of_lt_of_le (by positivity) h1
  obtain ⟨s, g, e, _, _, _, h⟩ := C30_gaussian_eps σ
  obtain ⟨rfl, h⟩ := h h1
  rw [e, on_gaussian, h]
  · congr 3; ring
  · rw [inv_pow, inv_eq_one_div]
    refine one_div_le_one_div_of_le (by positivity) ?_
    have : s ^ 2 ≤ (2 ^ 25) ^ 2 := pow_le_pow_left₀ hσ.le h2 2
    calc 2 * s ^ 2 ≤ 2 * (2 ^ 25) ^ 2 := by linarith
      _ ≤ 2 ^ 52 := by norm_num

/-- **C55** Laplacian kernel -/
theorem C55_laplacian (γ : ℝ) (x y : Fin d → ℝ) :
    (NumKernel.laplacian γ).on x y = .ok (.real (Real.exp (-γ * ∑ k, |x k - y k|))) := on_laplacian γ x y

/-- **C55** chi² kernel: coordinates where both entries are zero do not count -/
theorem C55_chi2 (γ : ℝ) {x y : Fin d → ℝ} (hx : ∀ k, 0 ≤ x k) (hy : ∀ k, 0 ≤ y k) :
    (NumKernel.chi2 γ).on x y = .ok (.real (Real.exp (-γ *
      ∑ k ∈ Finset.univ.filter (fun k => x k + y k ≠ 0), (x k - y k) ^ 2 / (x k + y k)))) := by
  rw [on_chi2 γ hx hy, Finset.sum_filter_of_ne]
  intro k _ h h0
  exact h (by rw [h0, div_zero])

/-- **C55** sigmoid kernel -/
theorem C55_sigmoid (γ o : ℝ) (x y : Fin d → ℝ) :
    (NumKernel.sigmoid γ o).on x y = .ok (.real (Real.tanh (o + γ * ∑ k, x k * y k))) := on_sigmoid γ o x y

/-- **C55** Hadamard kernel with positive alpha: coordinates where both entries are zero do not count -/
theorem C55_hadamard {α : ℝ} (hα : 0 < α) (x y : Fin d → ℝ) :
    (NumKernel.hadamard α).on x y = .ok (.real (∑ k ∈ Finset.univ.filter (fun k => x k ≠ 0 ∨ y k ≠ 0),
      |x k| ^ α * |y k| ^ α / (2 * (|x k| ^ α + |y k| ^ α)))) := by
  rw [on_hadamard (Or.inl hα), Finset.sum_filter_of_ne]
  · congr 2
    refine Finset.sum_congr rfl fun k _ => ?_
    rw [← div_div, div_right_comm]; ring
  · intro k _ h
    by_contra h0
    rw [not_or, not_not, not_not] at h0
    refine h ?_
    rw [h0.1, h0.2, abs_zero, Real.zero_rpow hα.ne']
    simp

/-- **C55** match-count kernel -/
theorem C55_match (x y : Fin d → String) :
    matchCall false (.vec x) (.vec y) = .ok (.real (agreement x y)) ∧
    (0 < d → matchCall true (.vec x) (.vec y) = .ok (.real (agreement x y / d))) := by
  constructor
  · exact matchCall_vec _ _ _
  · intro hd; rw [matchCall_vec, if_pos rfl, real_div_nat, if_neg hd.ne']

example : (2⁻¹ : ℝ) ^ 52 ≤ 2 ∧ (2 : ℝ) ≤ 2 ^ 25 ∧ (NumKernel.poly 2 1 1).on ![1, 2] ![3, 4] = .ok (.real 144) := by
  refine ⟨by norm_num, by norm_num, ?_⟩
  rw [show (2:ℤ) = ((2:ℕ):ℤ) from rfl, on_poly]; norm_num [Fin.sum_univ_two]

end KMethods
