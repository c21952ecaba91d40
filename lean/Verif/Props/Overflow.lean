import Verif.Lemmas.OverflowKM
import Verif.Props.FullMatrix
import Verif.Props.Rounding
/-!
# C83, C84: overflow, and infinite numbers in samples

C83: intermediate results that are too large become infinite. A kernel value that is finite should nevertheless be accurate, i.e. overflow should be visible.
C84: an infinite number in a sample should be visible in the kernel matrix.
-/
namespace KMethods
open F Rounding KMState FloatFormat Finset
variable {Φ : FloatFormat} {k : NumKernel} {d : Nat}

/-! ## C83: overflow -/

/-- **C83** (linear, polynomial, Gaussian and Laplacian kernel) A computed value that is finite differs from the exact one by at most the rounding errors of C71, plus, for Gaussian and
Laplacian kernel, the (tiny) value of the kernel at distances that cannot be represented. Missing: the other kernels, for which it is false, `C83_violated_chi2`, `C83_violated_chi2_far`, `C83_violated_hadamard`,
`C83_violated_sigmoid`. -/
theorem C83_error_partial (hk : k.Detects) {x y : Fin d → ℝ} (hx : k.ValidAt x) (hy : k.ValidAt y) (hm : k.roundings d * Φ.R.u < 1) {v : ℝ}
    (h : Φ.Computes k (fun i => .fin (x i)) (fun i => .fin (y i)) (.fin v)) :
    ∃ c a b, k.on x y = .ok (.real c) ∧ k.on x x = .ok (.real a) ∧ k.on y y = .ok (.real b) ∧
      |v - c| ≤ Φ.R.gamma (k.roundings d) * Real.sqrt (a * b) + Φ.lost k (k.roundings d) := by
  rcases detects hk hx hm h with h | ⟨c, hc, hle⟩
  · obtain ⟨c, a, b, hc, ha, hb, herr⟩ := C71_kernel_error hx hy h hm
    exact ⟨c, a, b, hc, ha, hb, herr.trans (le_add_of_nonneg_right (lost_nonneg k _))⟩
  · obtain ⟨v', hv'⟩ := Rounding.exists_computes (R := Φ.R) k (by rintro γ o rfl; exact hk.elim) x y
    obtain ⟨c', a, b, hc', ha, hb, -⟩ := C71_kernel_error hx hy hv' hm
    exact ⟨c, a, b, hc, ha, hb, hle.trans (le_add_of_nonneg_left (mul_nonneg (gamma_nonneg hm) (Real.sqrt_nonneg _)))⟩

/-- **C83** The values of Gaussian and Laplacian kernel are finite whatever the (finite) samples are. -/
theorem C83_bounded_finite (hk : (∃ σ γ, 0 < γ ∧ k = .gaussian σ γ) ∨ ∃ γ, 0 < γ ∧ k = .laplacian γ) {x y : Fin d → ℝ} {v : Dbl}
    (h : Φ.Computes k (fun i => .fin (x i)) (fun i => .fin (y i)) v) : v.Finite := by
  rcases hk with ⟨σ, γ, hγ, rfl⟩ | ⟨γ, hγ, rfl⟩
  · obtain ⟨r, rfl, -⟩ := computes_gaussian hγ h
    trivial
  · obtain ⟨r, rfl, -⟩ := computes_laplacian hγ h
    trivial

/-- **C83** For Python floats, `γ ≥ 2⁻⁵²` and fewer than 10⁹ coordinates the additional error is below `exp(-2⁹⁷⁰)`, which is rounded to 0 itself. -/
theorem C83_lost_double {γ : ℝ} (hγ : 2⁻¹ ^ 52 ≤ γ) {m : Nat} (hm : m ≤ 10 ^ 9) (σ : ℝ) :
    double.lost (.gaussian σ γ) m ≤ Real.exp (-2 ^ 970) ∧ double.lost (.laplacian γ) m ≤ Real.exp (-2 ^ 970) := by
  have hu : (m : ℝ) * double.R.u ≤ 1 / 2 := by
    rw [double_u]
    calc (m : ℝ) * 2⁻¹ ^ 53 ≤ (10 ^ 9 : ℕ) * 2⁻¹ ^ 53 := mul_le_mul_of_nonneg_right (by exact_mod_cast hm) (by positivity)
      _ ≤ 1 / 2 := by norm_num
  have hg : double.R.gamma m ≤ 1 := by
    unfold Rounding.gamma
    rw [div_le_one (by linarith)]
    linarith
  have hg0 : 0 ≤ double.R.gamma m := gamma_nonneg (by linarith)
  have hmin : (2⁻¹ : ℝ) ^ 52 ≤ min γ 1 := le_min hγ (by norm_num)
  have e : (2 : ℝ) ^ 970 * 2 = 2⁻¹ ^ 52 * 2 ^ 1023 := by
    rw [show 1023 = 971 + 52 from rfl, pow_add 2 971 52, _root_.mul_comm ((2 : ℝ) ^ 971), ← mul_assoc, ← mul_pow, inv_mul_cancel₀ two_ne_zero, one_pow, one_mul, ← pow_succ]
  have key : (2 : ℝ) ^ 970 ≤ min γ 1 * double.max / (1 + double.R.gamma m) := by
    rw [le_div_iff₀ (by linarith)]
    have h1 : (2⁻¹ : ℝ) ^ 52 * 2 ^ 1023 ≤ min γ 1 * double.max := mul_le_mul hmin double_max (by positivity) (le_trans (by positivity) hmin)
    refine le_trans (mul_le_mul_of_nonneg_left (show 1 + double.R.gamma m ≤ 2 by linarith) (by positivity)) ?_
    rw [e]
    exact h1
  exact ⟨Real.exp_le_exp.2 (neg_le_neg key), Real.exp_le_exp.2 (neg_le_neg key)⟩

/-- Gaussian kernel, Python floats: (1, 2) and (3, 4) are valid, some value is computed, and it is finite -/
example : ∃ v, double.Computes (.gaussian 1 (1 / 2)) (fun i => .fin (![(1 : ℝ), 2] i)) (fun i => .fin (![3, 4] i)) (.fin v) ∧
    (NumKernel.gaussian 1 (1 / 2)).Detects ∧ (NumKernel.gaussian 1 (1 / 2)).ValidAt ![(1 : ℝ), 2] ∧
    ((NumKernel.gaussian 1 (1 / 2)).roundings 2 : ℝ) * double.R.u < 1 := by
  obtain ⟨v, hv⟩ := FloatFormat.exists_computes (Φ := double) (.gaussian 1 (1 / 2)) (x := fun i => .fin (![(1 : ℝ), 2] i)) (y := fun i => .fin (![3, 4] i)) (by rintro _ ⟨⟩)
  have hf := C83_bounded_finite (.inl ⟨1, 1 / 2, by norm_num, rfl⟩) hv
  cases v with
  | fin r => exact ⟨r, hv, by norm_num [NumKernel.Detects], by norm_num [NumKernel.ValidAt], by rw [double_u]; norm_num [NumKernel.roundings]⟩
  | inf s => exact hf.elim
  | nan => exact hf.elim

/-- **C83** Every kernel but the sigmoid: if, in exact arithmetic, all numbers on the way are at most `M`, and `M` is smaller than the largest number by a factor that makes
up for rounding, then nothing overflows, in any order of evaluation; the value is finite and has the error of C71. -/
theorem C83_moderate {M : ℝ} {x y : Fin d → ℝ} (hx : k.ValidAt x) (hy : k.ValidAt y) (hm : k.roundings d * Φ.R.u < 1) (hM : k.Moderate M x y) (hM0 : 0 ≤ M)
    (hmax : (1 + Φ.R.gamma (k.roundings d)) * M < Φ.max) {v : Dbl} (h : Φ.Computes k (fun i => .fin (x i)) (fun i => .fin (y i)) v) :
    ∃ r c a b, v = .fin r ∧ k.on x y = .ok (.real c) ∧ k.on x x = .ok (.real a) ∧ k.on y y = .ok (.real b) ∧
      |r - c| ≤ Φ.R.gamma (k.roundings d) * Real.sqrt (a * b) := by
  have hw := pow_w_le _ hm
  obtain ⟨r, rfl, hr⟩ := computes_moderate hx hy hM ((mul_le_mul_of_nonneg_right (by linarith) hM0).trans_lt hmax) h
  obtain ⟨c, a, b, hc, ha, hb, herr⟩ := C71_kernel_error hx hy hr hm
  exact ⟨r, c, a, b, rfl, hc, ha, hb, herr⟩

/-- chi² on (1, 2) and (3, 4) -/
example : (NumKernel.chi2 1).ValidAt ![(1 : ℝ), 2] ∧ (NumKernel.chi2 1).Moderate 10 ![(1 : ℝ), 2] ![3, 4] ∧
    (1 + double.R.gamma ((NumKernel.chi2 1).roundings 2)) * 10 < double.max := by
  refine ⟨⟨zero_le_one, fun i => by fin_cases i <;> norm_num⟩, ⟨fun i => by fin_cases i <;> norm_num, by norm_num [Fin.sum_univ_two], by norm_num [Fin.sum_univ_two]⟩, ?_⟩
  refine lt_of_lt_of_le ?_ (le_trans (pow_le_pow_right₀ one_le_two (show 5 ≤ 1023 by norm_num)) double_max)
  rw [Rounding.gamma, double_u]
  norm_num [NumKernel.roundings]

/-- **C83** (violated by the chi² kernel) Two samples whose squared difference and sum both overflow: `inf / inf` is NaN, which `np.nansum` drops. The value is 1, as for equal samples, instead
of one that is all but 0. In every order of evaluation, for every accuracy of at least 2 bits. -/
theorem C83_violated_chi2 {γ : ℝ} (hu : Φ.R.u ≤ 1 / 4) (hmax : 10 < Φ.max) :
    let x : Fin 1 → ℝ := fun _ => Φ.max
    let y : Fin 1 → ℝ := fun _ => Φ.max / 2
    (∃ v, Φ.Computes (.chi2 γ) (fun i => .fin (x i)) (fun i => .fin (y i)) v) ∧
    (∀ v, Φ.Computes (.chi2 γ) (fun i => .fin (x i)) (fun i => .fin (y i)) v → v = .fin 1) ∧
    (NumKernel.chi2 γ).on x y = .ok (.real (Real.exp (-γ * (Φ.max / 6)))) := by
  intro x y
  have h0 := Φ.max_pos
  have hx : ∀ i, 0 ≤ x i := fun _ => h0.le
  have hy : ∀ i, 0 ≤ y i := fun _ => by show 0 ≤ Φ.max / 2; linarith
  refine ⟨FloatFormat.exists_computes _ fun _ _ i => ⟨not_lt.2 (hx i), not_lt.2 (hy i)⟩, ?_, ?_⟩
  · rintro v ⟨-, t, q, ht, hq, rfl⟩
    rw [sum_const_zero]
    · have hc : Φ.clip 0 = .fin 0 := clip_of_le (by rw [abs_zero]; exact h0.le)
      show Φ.exp (Φ.clip (Φ.R.fl (-γ * 0))) = _
      rw [mul_zero, Φ.R.fl_zero, hc, exp_fin le_rfl, Φ.R.exp_zero]
    · intro i
      have hsum : Φ.rnd ((Dbl.fin Φ.max).addX (.fin (Φ.max / 2))) = .inf false := by
        apply clip_of_lt
        have := abs_le.1 (Φ.R.err (Φ.max + Φ.max / 2))
        rw [abs_of_pos (by linarith)] at this
        nlinarith [mul_le_mul_of_nonneg_right hu (show 0 ≤ Φ.max + Φ.max / 2 by linarith)]
      have herr := abs_le.1 (Φ.R.err (Φ.max - Φ.max / 2))
      rw [abs_of_pos (by linarith)] at herr
      have hd := mul_le_mul_of_nonneg_right hu (show 0 ≤ Φ.max - Φ.max / 2 by linarith)
      have hdiff : Φ.rnd ((Dbl.fin Φ.max).addX (Dbl.fin (Φ.max / 2)).neg) = .fin (Φ.R.fl (Φ.max - Φ.max / 2)) := by
        rw [sub_eq_add_neg]
        apply clip_of_le
        rw [← sub_eq_add_neg, abs_le]
        constructor <;> nlinarith
      have hqi : q i = .inf false := by
        have hqi : Φ.PowInt 2 (Φ.rnd ((Dbl.fin Φ.max).addX (Dbl.fin (Φ.max / 2)).neg)) (q i) := hq i
        rw [hdiff, PowInt, if_neg (by norm_num)] at hqi
        obtain ⟨r, hr, e⟩ := hqi
        rw [e]
        apply clip_of_lt
        rw [show (2 : ℤ) = ((2 : ℕ) : ℤ) from rfl, zpow_natCast] at hr
        have hr := abs_le.1 hr
        rw [abs_of_nonneg (sq_nonneg _)] at hr
        have h2 := mul_le_mul_of_nonneg_right hu (sq_nonneg (Φ.R.fl (Φ.max - Φ.max / 2)))
        have h3 : 3 / 8 * Φ.max ≤ Φ.R.fl (Φ.max - Φ.max / 2) := by nlinarith
        nlinarith [mul_self_le_mul_self (by linarith) h3]
      show Dbl.nanToZero (Φ.rnd ((q i).divX (Φ.rnd ((Dbl.fin Φ.max).addX (.fin (Φ.max / 2)))))) = _
      rw [hsum, hqi]
      rfl
  · rw [on_chi2 γ hx hy]
    congr 4
    rw [Fin.sum_univ_one]
    show (Φ.max - Φ.max / 2) ^ 2 / (Φ.max + Φ.max / 2) = _
    field_simp
    ring

/-- **C83** The chi² kernel, when the square of a difference overflows but the sum of the two entries does not: the term is infinite, `np.nansum` keeps it, and the value is 0, in every
order of evaluation, whatever the other coordinates are. The exact value is below `exp(-8γ)`; it need not be small, `C83_violated_chi2_far`. -/
theorem C83_chi2_far {γ : ℝ} (hγ : 0 < γ) (hu : Φ.R.u ≤ 1 / 4) {x y : Fin d → ℝ} (hx : ∀ i, 0 ≤ x i) (hy : ∀ i, 0 ≤ y i) {i : Fin d}
    (hd : 4 * Φ.max < (x i - y i) ^ 2) (hs : x i + y i ≤ Φ.max / 2) :
    (∃ v, Φ.Computes (.chi2 γ) (fun i => .fin (x i)) (fun i => .fin (y i)) v) ∧
    (∀ v, Φ.Computes (.chi2 γ) (fun i => .fin (x i)) (fun i => .fin (y i)) v → v = .fin 0) ∧
    ∃ c, (NumKernel.chi2 γ).on x y = .ok (.real c) ∧ 0 < c ∧ c ≤ Real.exp (-γ * 8) := by
  have h0 := Φ.max_pos
  refine ⟨FloatFormat.exists_computes _ fun _ _ i => ⟨not_lt.2 (hx i), not_lt.2 (hy i)⟩, ?_, _, on_chi2 γ hx hy, Real.exp_pos _, ?_⟩
  · rintro v ⟨-, t, q, ht, hq, rfl⟩
    rw [sum_inf (i := i) (fun j => ?_) (Complete.mem ht i) (chi2_term_inf hu (hx i) (hy i) hd hs (hq i))]
    · have h1 : (-γ : ℝ) ≠ 0 := by linarith
      have h2 : (-γ : ℝ) < 0 := by linarith
      rw [Dbl.mulX, if_neg h1, decide_eq_true h2]
      rfl
    · refine chi2_term_nn (powInt_two_nn ?_ (hq j)) (clip_nn (fl_nonneg (add_nonneg (hx j) (hy j))))
      show Φ.clip _ ≠ _
      unfold FloatFormat.clip
      split <;> simp
  · rw [Real.exp_le_exp, neg_mul, neg_mul, neg_le_neg_iff]
    refine mul_le_mul_of_nonneg_left ?_ hγ.le
    have hterm : ∀ j, 0 ≤ (x j - y j) ^ 2 / (x j + y j) := fun j => div_nonneg (sq_nonneg _) (add_nonneg (hx j) (hy j))
    refine le_trans ?_ (single_le_sum (f := fun j => (x j - y j) ^ 2 / (x j + y j)) (fun j _ => hterm j) (mem_univ i))
    have hpos : 0 < x i + y i := by
      rcases (add_nonneg (hx i) (hy i)).lt_or_eq with h | h
      · exact h
      · have e1 : x i = 0 := le_antisymm (by linarith [hy i]) (hx i)
        have e2 : y i = 0 := by linarith
        rw [e1, e2] at hd
        norm_num at hd
        linarith
    rw [le_div_iff₀ hpos]
    linarith

/-- (2⁶⁰⁰, 1) and (0, 1), Python floats -/
example : double.R.u ≤ 1 / 4 ∧ (∀ i, 0 ≤ (![(2 : ℝ) ^ 600, 1] : Fin 2 → ℝ) i) ∧ 4 * double.max < ((![(2 : ℝ) ^ 600, 1] : Fin 2 → ℝ) 0 - (![0, 1] : Fin 2 → ℝ) 0) ^ 2 ∧
    (![(2 : ℝ) ^ 600, 1] : Fin 2 → ℝ) 0 + (![0, 1] : Fin 2 → ℝ) 0 ≤ double.max / 2 := by
  refine ⟨by rw [double_u]; norm_num, fun i => by fin_cases i <;> norm_num, ?_, ?_⟩
  · show 4 * ((2 - 2⁻¹ ^ 52) * 2 ^ 1023) < ((2 : ℝ) ^ 600 - 0) ^ 2
    rw [sub_zero, ← pow_mul, show 600 * 2 = 177 + 1023 from rfl, pow_add, ← mul_assoc]
    exact mul_lt_mul_of_pos_right (by norm_num) (by positivity)
  · show (2 : ℝ) ^ 600 + 0 ≤ (2 - 2⁻¹ ^ 52) * 2 ^ 1023 / 2
    rw [add_zero, show 1023 = 423 + 600 from rfl, pow_add, ← mul_assoc, mul_div_right_comm]
    have h : (2 : ℝ) ≤ 2 ^ 423 := le_self_pow₀ one_le_two (by norm_num)
    refine le_mul_of_one_le_left (by positivity) ?_
    generalize (2 : ℝ) ^ 423 = a at h
    norm_num
    linarith

/-- **C83** (violated by the chi² kernel, too) Two samples close to each other, relative to their size: the square of the difference overflows, the quotient would not. The value is 0
instead of at least `exp(-64γ)`; 0 instead of 1/e for `γ = 1/64`. -/
theorem C83_violated_chi2_far {γ : ℝ} (hγ : 0 < γ) (hu : Φ.R.u ≤ 1 / 4) (hmax : 256 ≤ Φ.max) :
    let x : Fin 1 → ℝ := fun _ => Φ.max / 4
    let y : Fin 1 → ℝ := fun _ => Φ.max / 4 - 4 * Real.sqrt Φ.max
    (∀ i, 0 ≤ y i ∧ y i ≤ x i ∧ x i ≤ Φ.max) ∧ (∃ v, Φ.Computes (.chi2 γ) (fun i => .fin (x i)) (fun i => .fin (y i)) v) ∧
    (∀ v, Φ.Computes (.chi2 γ) (fun i => .fin (x i)) (fun i => .fin (y i)) v → v = .fin 0) ∧
    ∃ c, (NumKernel.chi2 γ).on x y = .ok (.real c) ∧ Real.exp (-γ * 64) ≤ c := by
  intro x y
  have h0 := Φ.max_pos
  have hr0 := Real.sqrt_nonneg Φ.max
  have hr := Real.sq_sqrt h0.le
  have hr16 : 16 ≤ Real.sqrt Φ.max := Real.le_sqrt_of_sq_le (by linarith)
  have hy0 : ∀ i, 0 ≤ y i := fun _ => by show 0 ≤ Φ.max / 4 - 4 * Real.sqrt Φ.max; nlinarith
  have hx0 : ∀ i, 0 ≤ x i := fun _ => by show 0 ≤ Φ.max / 4; linarith
  have hd : (x 0 - y 0) ^ 2 = 16 * Φ.max := by
    show (Φ.max / 4 - (Φ.max / 4 - 4 * Real.sqrt Φ.max)) ^ 2 = _
    rw [sub_sub_cancel, mul_pow, hr]
    norm_num
  obtain ⟨h1, h2, -⟩ := C83_chi2_far hγ hu hx0 hy0 (i := 0) (by rw [hd]; linarith)
    (by show Φ.max / 4 + (Φ.max / 4 - 4 * Real.sqrt Φ.max) ≤ _; linarith)
  refine ⟨fun i => ⟨hy0 i, ?_, ?_⟩, h1, h2, _, on_chi2 γ hx0 hy0, ?_⟩
  · show Φ.max / 4 - 4 * Real.sqrt Φ.max ≤ Φ.max / 4
    linarith
  · show Φ.max / 4 ≤ Φ.max
    linarith
  · rw [Real.exp_le_exp, neg_mul, neg_mul, neg_le_neg_iff, Fin.sum_univ_one]
    refine mul_le_mul_of_nonneg_left ?_ hγ.le
    have hx4 : Φ.max / 4 ≤ x 0 + y 0 := le_add_of_nonneg_right (hy0 0)
    rw [div_le_iff₀ (by linarith), hd]
    linarith

/-- **C83** (violated by the Hadamard kernel) If only the denominator overflows, the term vanishes: the value is 0 instead of at least 1/4, in every order of evaluation, for every
accuracy of at least 4 bits. -/
theorem C83_violated_hadamard {α : ℝ} (hα : 1 ≤ α) (hu : Φ.R.u ≤ 1 / 16) (hmax : 100 ≤ Φ.max) :
    let x : Fin 1 → ℝ := fun _ => (3 / 4 * Φ.max) ^ (1 / α)
    let y : Fin 1 → ℝ := fun _ => 1
    (∀ i, |x i| ≤ Φ.max) ∧ (∃ v, Φ.Computes (.hadamard α) (fun i => .fin (x i)) (fun i => .fin (y i)) v) ∧
    (∀ v, Φ.Computes (.hadamard α) (fun i => .fin (x i)) (fun i => .fin (y i)) v → v = .fin 0) ∧
    ∃ c, (NumKernel.hadamard α).on x y = .ok (.real c) ∧ 1 / 4 ≤ c := by
  intro x y
  have h0 := Φ.max_pos
  have hα0 : 0 < α := by linarith
  have hb : 0 ≤ 3 / 4 * Φ.max := by linarith
  have hxn : ∀ i, 0 ≤ x i := fun _ => Real.rpow_nonneg hb _
  have hxa : ∀ i, |x i| ^ α = 3 / 4 * Φ.max := fun i => by
    rw [abs_of_nonneg (hxn i)]
    show ((3 / 4 * Φ.max) ^ (1 / α)) ^ α = _
    rw [← Real.rpow_mul hb, one_div, inv_mul_cancel₀ hα0.ne', Real.rpow_one]
  have hya : ∀ i, |y i| ^ α = 1 := fun i => by show |(1 : ℝ)| ^ α = 1; rw [abs_one, Real.one_rpow]
  refine ⟨fun i => ?_, FloatFormat.exists_computes _ (by rintro _ ⟨⟩), ?_, ?_⟩
  · rw [abs_of_nonneg (hxn i)]
    calc (3 / 4 * Φ.max) ^ (1 / α) ≤ (3 / 4 * Φ.max) ^ (1 : ℝ) :=
          Real.rpow_le_rpow_of_exponent_le (by linarith) (by rw [div_le_one hα0]; exact hα)
      _ ≤ Φ.max := by rw [Real.rpow_one]; linarith
  · rintro v ⟨a, b, t, ht, ha, hb, rfl⟩
    have pw : ∀ {c : ℝ} {a : Dbl}, Φ.PowAbs α (Dbl.fin c).abs a → Φ.Lib a (|c| ^ α) := fun {c a} h => by
      rw [Dbl.abs, PowAbs, if_neg (by rintro ⟨h, -⟩; linarith)] at h
      exact h
    rw [sum_const_zero]
    intro i
    obtain ⟨p, hp, hap⟩ := pw (ha i)
    obtain ⟨q, hq, hbq⟩ := pw (hb i)
    rw [hxa i] at hp
    rw [hya i] at hq
    have hp := abs_le.1 hp
    have hq := abs_le.1 hq
    rw [abs_of_nonneg (by linarith)] at hp
    rw [abs_one] at hq
    have h1 := mul_le_mul_of_nonneg_right hu (show 0 ≤ 3 / 4 * Φ.max by linarith)
    have hp1 : 45 / 64 * Φ.max ≤ p := by linarith
    have hp2 : p ≤ 51 / 64 * Φ.max := by linarith
    have hq1 : 15 / 16 ≤ q := by linarith
    have hq2 : q ≤ 17 / 16 := by linarith
    rw [clip_of_le (by rw [abs_le]; constructor <;> linarith)] at hap hbq
    have hnum : Φ.rnd ((Dbl.fin p).mulX (.fin q)) = .fin (Φ.R.fl (p * q)) := by
      apply clip_of_le
      have hpq0 : 0 ≤ p * q := mul_nonneg (by linarith) (by linarith)
      have hpq : p * q ≤ 51 / 64 * Φ.max * (17 / 16) := mul_le_mul hp2 hq2 (by linarith) (by linarith)
      have := abs_le.1 (Φ.R.err (p * q))
      rw [abs_of_nonneg hpq0] at this
      have h2 := mul_le_mul_of_nonneg_right hu hpq0
      rw [abs_le]
      constructor <;> linarith
    have hden : Φ.rnd ((Dbl.fin 2).mulX (Φ.rnd ((Dbl.fin p).addX (.fin q)))) = .inf false := by
      have hs := abs_le.1 (Φ.R.err (p + q))
      rw [abs_of_nonneg (by linarith)] at hs
      have h2 := mul_le_mul_of_nonneg_right hu (show 0 ≤ p + q by linarith)
      have e : Φ.rnd ((Dbl.fin p).addX (.fin q)) = Φ.clip (Φ.R.fl (p + q)) := rfl
      rw [e]
      rcases clip_nonneg (Φ := Φ) (r := Φ.R.fl (p + q)) (by linarith) with h | ⟨h, -⟩
      · rw [h]
        apply clip_of_lt
        have hs' := abs_le.1 (Φ.R.err (2 * Φ.R.fl (p + q)))
        rw [abs_of_nonneg (by linarith)] at hs'
        have h3 := mul_le_mul_of_nonneg_right hu (show 0 ≤ 2 * Φ.R.fl (p + q) by linarith)
        linarith
      · rw [h]
        simp only [Dbl.mulX]
        rw [if_neg (by norm_num), decide_eq_false (by norm_num)]
        rfl
    dsimp only
    rw [hap, hbq, hden, if_pos (show (Dbl.inf false).Pos from rfl), hnum]
    show Φ.clip (Φ.R.fl 0) = _
    rw [Φ.R.fl_zero]
    exact clip_of_le (by rw [abs_zero]; exact h0.le)
  · refine ⟨_, on_hadamard (.inl hα0), ?_⟩
    rw [Fin.sum_univ_one, hxa 0, hya 0, mul_one, ← mul_div_assoc, le_div_iff₀ (by linarith)]
    linarith

/-- **C83** (violated by the sigmoid kernel) An inner product of which a partial sum overflows: added up from left to right it is infinite and the value is 1, while the exact one is 0. -/
theorem C83_violated_sigmoid (hu : Φ.R.u ≤ 1 / 16) :
    let x : Fin 4 → ℝ := fun _ => 3 / 4 * Φ.max
    let y : Fin 4 → ℝ := ![1, 1, -1, -1]
    Φ.Computes (.sigmoid 1 0) (fun i => .fin (x i)) (fun i => .fin (y i)) (.fin 1) ∧ (NumKernel.sigmoid 1 0).on x y = .ok (.real 0) := by
  intro x y
  have h0 := Φ.max_pos
  constructor
  · refine ⟨.node (.node (.node (.leaf 0) (.leaf 1)) (.leaf 2)) (.leaf 3), ?_, ?_⟩
    · show List.Perm [(0 : Fin 4), 1, 2, 3] (List.finRange 4)
      rw [show List.finRange 4 = [(0 : Fin 4), 1, 2, 3] from rfl]
    · have h1 := abs_le.1 (Φ.R.err (3 / 4 * Φ.max * 1))
      rw [abs_of_nonneg (by linarith)] at h1
      have h2 := mul_le_mul_of_nonneg_right hu (show 0 ≤ 3 / 4 * Φ.max * 1 by linarith)
      have hle : |Φ.R.fl (3 / 4 * Φ.max * 1)| ≤ Φ.max := by
        rw [abs_le]
        constructor <;> linarith
      have l0 : Φ.rnd ((Dbl.fin (x 0)).mulX (.fin (y 0))) = .fin (Φ.R.fl (3 / 4 * Φ.max * 1)) := clip_of_le hle
      have l1 : Φ.rnd ((Dbl.fin (x 1)).mulX (.fin (y 1))) = .fin (Φ.R.fl (3 / 4 * Φ.max * 1)) := clip_of_le hle
      have ln : Φ.rnd ((Dbl.fin (3 / 4 * Φ.max)).mulX (.fin (-1))) = .fin (Φ.R.fl (3 / 4 * Φ.max * -1)) := by
        apply clip_of_le
        rw [mul_neg, Φ.R.odd, abs_neg]
        exact hle
      have hs : Φ.rnd ((Dbl.fin (Φ.R.fl (3 / 4 * Φ.max * 1))).addX (.fin (Φ.R.fl (3 / 4 * Φ.max * 1)))) = .inf false := by
        apply clip_of_lt
        have h3 := abs_le.1 (Φ.R.err (Φ.R.fl (3 / 4 * Φ.max * 1) + Φ.R.fl (3 / 4 * Φ.max * 1)))
        rw [abs_of_nonneg (by linarith)] at h3
        have h4 := mul_le_mul_of_nonneg_right hu (show 0 ≤ Φ.R.fl (3 / 4 * Φ.max * 1) + Φ.R.fl (3 / 4 * Φ.max * 1) by linarith)
        linarith
      have hdot : Φ.dot (fun i => .fin (x i)) (fun i => .fin (y i)) (.node (.node (.node (.leaf 0) (.leaf 1)) (.leaf 2)) (.leaf 3)) = .inf false := by
        show Φ.rnd ((Φ.rnd ((Φ.rnd ((Φ.rnd ((Dbl.fin (x 0)).mulX (.fin (y 0)))).addX (Φ.rnd ((Dbl.fin (x 1)).mulX (.fin (y 1)))))).addX
          (Φ.rnd ((Dbl.fin (3 / 4 * Φ.max)).mulX (.fin (-1)))))).addX (Φ.rnd ((Dbl.fin (3 / 4 * Φ.max)).mulX (.fin (-1))))) = _
        rw [l0, l1, hs, ln]
        rfl
      rw [hdot]
      have e : (Dbl.fin 1).mulX (.inf false) = .inf false := by
        simp only [Dbl.mulX]
        rw [if_neg (by norm_num), decide_eq_false (by norm_num)]
        rfl
      rw [e]
      rfl
  · rw [on_sigmoid]
    congr 2
    have : ∑ i, x i * y i = 0 := by
      simp only [Fin.sum_univ_four]
      show 3 / 4 * Φ.max * 1 + 3 / 4 * Φ.max * 1 + 3 / 4 * Φ.max * -1 + 3 / 4 * Φ.max * -1 = 0
      ring
    rw [this, mul_zero, add_zero, Real.tanh_zero]

/-- **C83** (Laplacian kernel with a tiny γ) The additional error in `C83_error_partial` is not always negligible: the value is 0 instead of `exp(-2)`, in every order of evaluation. -/
theorem C83_violated_laplacian (hu : Φ.R.u ≤ 1 / 4) :
    let x : Fin 1 → ℝ := fun _ => Φ.max
    let y : Fin 1 → ℝ := fun _ => -Φ.max
    (∀ v, Φ.Computes (.laplacian (1 / Φ.max)) (fun i => .fin (x i)) (fun i => .fin (y i)) v ↔ v = .fin 0) ∧
    (NumKernel.laplacian (1 / Φ.max)).on x y = .ok (.real (Real.exp (-2))) := by
  intro x y
  have h0 := Φ.max_pos
  have h1 := abs_le.1 (Φ.R.err (Φ.max + Φ.max))
  rw [abs_of_nonneg (by linarith)] at h1
  have h2 := mul_le_mul_of_nonneg_right hu (show 0 ≤ Φ.max + Φ.max by linarith)
  have hz : Φ.rnd ((Dbl.fin Φ.max).addX (Dbl.fin (-Φ.max)).neg) = .inf false := by
    rw [Dbl.neg, neg_neg]
    exact clip_of_lt (by linarith)
  have hexp : Φ.exp (Φ.rnd ((Dbl.fin (-(1 / Φ.max))).mulX (.inf false))) = .fin 0 := by
    have h3 : (1 : ℝ) / Φ.max > 0 := by positivity
    simp only [Dbl.mulX]
    rw [if_neg (by linarith), decide_eq_true (by linarith)]
    rfl
  have hsum : ∀ t : SumTree 1, t.leaves ≠ [] → Φ.sum (fun _ => Dbl.inf false) t = .inf false := fun t => by
    have hall : ∀ s : SumTree 1, Φ.sum (fun _ => Dbl.inf false) s = .inf false ∨ (s.leaves = [] ∧ Φ.sum (fun _ => Dbl.inf false) s = .fin 0) := fun s => by
      have hc : Φ.rnd ((Dbl.fin 0).addX (.fin 0)) = .fin 0 := by
        show Φ.clip (Φ.R.fl (0 + 0)) = _
        rw [add_zero, Φ.R.fl_zero]
        exact clip_of_le (by rw [abs_zero]; exact h0.le)
      induction s with
      | zero => exact .inr ⟨rfl, rfl⟩
      | leaf i => exact .inl rfl
      | node l r ihl ihr =>
        rw [FloatFormat.sum, SumTree.leaves]
        rcases ihl with ihl | ⟨el, ihl⟩ <;> rcases ihr with ihr | ⟨er, ihr⟩ <;> rw [ihl, ihr]
        · exact .inl rfl
        · exact .inl rfl
        · exact .inl rfl
        · exact .inr ⟨by rw [el, er]; rfl, hc⟩
      | fma i s ih =>
        left
        rw [FloatFormat.sum]
        rcases ih with ih | ⟨-, ih⟩ <;> rw [ih] <;> rfl
    intro h
    exact (hall t).resolve_right fun h' => h h'.1
  have hz' : ∀ t : SumTree 1, t.Complete → Φ.exp (Φ.rnd ((Dbl.fin (-(1 / Φ.max))).mulX (Φ.sum (fun i => (Φ.rnd ((Dbl.fin (x i)).addX (Dbl.fin (y i)).neg)).abs) t))) = .fin 0 := fun t ht => by
    have e : (fun i : Fin 1 => (Φ.rnd ((Dbl.fin (x i)).addX (Dbl.fin (y i)).neg)).abs) = fun _ => Dbl.inf false := by
      funext i
      show (Φ.rnd ((Dbl.fin Φ.max).addX (Dbl.fin (-Φ.max)).neg)).abs = _
      rw [hz]
      rfl
    rw [e, hsum t, hexp]
    intro h
    have := ht.length
    rw [h] at this
    cases this
  refine ⟨fun v => ⟨?_, ?_⟩, ?_⟩
  · rintro ⟨t, ht, rfl⟩
    exact hz' t ht
  · rintro rfl
    exact ⟨.all 1, SumTree.all_complete 1, (hz' _ (SumTree.all_complete 1)).symm⟩
  · rw [on_laplacian]
    congr 3
    rw [Fin.sum_univ_one]
    show -(1 / Φ.max) * |Φ.max - -Φ.max| = -2
    rw [sub_neg_eq_add, abs_of_pos (by linarith)]
    field_simp
    ring

/-- Python floats meet the hypotheses of these four -/
example : double.R.u ≤ 1 / 16 ∧ 100 ≤ double.max :=
  ⟨by rw [double_u]; norm_num, le_trans (le_trans (by norm_num) (pow_le_pow_right₀ one_le_two (show 7 ≤ 1023 by norm_num))) double_max⟩

/-- **C83** (no normalisation; the kernels of `C83_error_partial`) After any calls not requesting sparse storage, an entry of `km.full` is not finite, or it has the error of `C83_error_partial`. -/
theorem C83_full_partial {env : Env NumKernel (List Dbl) F} (he : OverflowEnv Φ env) (hk : k.Detects) {A : Arr2 (List Dbl)} {X : Fin A.nrows → Fin d → ℝ}
    (hA : ∀ i : Fin A.nrows, A.row i = List.ofFn fun j => .fin (X i j)) (hX : ∀ i, k.ValidAt (X i)) (hm : k.roundings d * Φ.R.u < 1) {s : KMState NumKernel (List Dbl) F}
    (h : SinceDense env k false ⟨A, none⟩ s) :
    ∃ c : Fin A.nrows → Fin A.nrows → F, (exec env .full s).1 = .ok (.mat .dense ⟨A.nrows, A.nrows, c⟩) ∧ ∀ i j, c i j = .nan ∨
      ∃ v e a b, c i j = .real v ∧ k.on (X i) (X j) = .ok (.real e) ∧ k.on (X i) (X i) = .ok (.real a) ∧ k.on (X j) (X j) = .ok (.real b) ∧
        |v - e| ≤ Φ.R.gamma (k.roundings d) * Real.sqrt (a * b) + Φ.lost k (k.roundings d) := by
  have hc : ∀ γ, k ≠ .chi2 γ := by rintro γ rfl; exact hk.elim
  have hf : NoFaultsOn env k ⟨A, none⟩ := by
    intro t x y hx hy
    obtain ⟨i, rfl⟩ := isRow_none hx
    obtain ⟨j, rfl⟩ := isRow_none hy
    rw [hA i, hA j]
    exact (he.call k _ _ fun γ e => (hc γ e).elim).1 t
  refine ⟨_, C08_full_is_gram hf (overflow_quiet he _ _) h, fun i j => ?_⟩
  show env.kval k (A.row (min (i : Nat) j)) (A.row (max (i : Nat) j)) = _ ∨ ∃ v e a b, env.kval k (A.row (min (i : Nat) j)) (A.row (max (i : Nat) j)) = _ ∧ _
  have key : ∀ i j : Fin A.nrows, env.kval k (A.row i) (A.row j) = .nan ∨
      ∃ v e a b, env.kval k (A.row i) (A.row j) = .real v ∧ k.on (X i) (X j) = .ok (.real e) ∧ k.on (X i) (X i) = .ok (.real a) ∧ k.on (X j) (X j) = .ok (.real b) ∧
        |v - e| ≤ Φ.R.gamma (k.roundings d) * Real.sqrt (a * b) + Φ.lost k (k.roundings d) := fun i j => by
    rw [hA i, hA j]
    obtain ⟨-, v, hv, hcomp⟩ := he.call k (fun l => .fin (X i l)) (fun l => .fin (X j l)) fun γ e => (hc γ e).elim
    rw [hv]
    cases v with
    | fin v =>
      obtain ⟨e, a, b, h1, h2, h3, h4⟩ := C83_error_partial hk (hX i) (hX j) hm hcomp
      exact .inr ⟨v, e, a, b, rfl, h1, h2, h3, h4⟩
    | inf s => exact .inl rfl
    | nan => exact .inl rfl
  rcases le_total (i : Nat) j with hij | hij
  · rw [Nat.min_eq_left hij, Nat.max_eq_right hij]
    exact key i j
  · rw [Nat.min_eq_right hij, Nat.max_eq_left hij]
    refine (key j i).imp_right ?_
    rintro ⟨v, e, a, b, h1, h2, h3, h4, h5⟩
    refine ⟨v, e, b, a, h1, ?_, h4, h3, by rwa [_root_.mul_comm b a]⟩
    rw [on_eq, eval_comm, ← on_eq]
    exact h2

/-- **C83** (no normalisation; every kernel but the sigmoid) If the samples are moderate, `km.full` is finite and has the rounding errors of C71. -/
theorem C83_full_moderate {env : Env NumKernel (List Dbl) F} (he : OverflowEnv Φ env) {A : Arr2 (List Dbl)} {X : Fin A.nrows → Fin d → ℝ}
    (hA : ∀ i : Fin A.nrows, A.row i = List.ofFn fun j => .fin (X i j)) (hX : ∀ i, k.ValidAt (X i)) (hm : k.roundings d * Φ.R.u < 1) {M : ℝ} (hM0 : 0 ≤ M)
    (hM : ∀ i j, k.Moderate M (X i) (X j)) (hmax : (1 + Φ.R.gamma (k.roundings d)) * M < Φ.max) {s : KMState NumKernel (List Dbl) F}
    (h : SinceDense env k false ⟨A, none⟩ s) :
    ∃ K : Matrix (Fin A.nrows) (Fin A.nrows) ℝ, (exec env .full s).1 = .ok (.mat .dense (Mat.ofReal K)) ∧ ∀ i j,
      ∃ e a b, k.on (X i) (X j) = .ok (.real e) ∧ k.on (X i) (X i) = .ok (.real a) ∧ k.on (X j) (X j) = .ok (.real b) ∧
        |K i j - e| ≤ Φ.R.gamma (k.roundings d) * Real.sqrt (a * b) := by
  have hc : ∀ i j γ, k = .chi2 γ → ∀ l, ¬ (Dbl.fin (X i l)).Neg ∧ ¬ (Dbl.fin (X j l)).Neg := by
    rintro i j γ rfl l
    exact ⟨not_lt.2 ((hX i).2 l), not_lt.2 ((hX j).2 l)⟩
  have hf : NoFaultsOn env k ⟨A, none⟩ := by
    intro t x y hx hy
    obtain ⟨i, rfl⟩ := isRow_none hx
    obtain ⟨j, rfl⟩ := isRow_none hy
    rw [hA i, hA j]
    exact (he.call k _ _ (hc i j)).1 t
  have key : ∀ i j : Fin A.nrows, ∃ v e a b, env.kval k (A.row i) (A.row j) = .real v ∧ k.on (X i) (X j) = .ok (.real e) ∧ k.on (X i) (X i) = .ok (.real a) ∧
      k.on (X j) (X j) = .ok (.real b) ∧ |v - e| ≤ Φ.R.gamma (k.roundings d) * Real.sqrt (a * b) := fun i j => by
    rw [hA i, hA j]
    obtain ⟨-, v, hv, hcomp⟩ := he.call k (fun l => .fin (X i l)) (fun l => .fin (X j l)) (hc i j)
    rw [hv]
    obtain ⟨r, e, a, b, rfl, h1, h2, h3, h4⟩ := C83_moderate (hX i) (hX j) hm (hM i j) hM0 hmax hcomp
    exact ⟨r, e, a, b, rfl, h1, h2, h3, h4⟩
  have key' : ∀ i j : Fin A.nrows, ∃ v e a b, env.kval k (A.row (min (i : Nat) j)) (A.row (max (i : Nat) j)) = .real v ∧ k.on (X i) (X j) = .ok (.real e) ∧
      k.on (X i) (X i) = .ok (.real a) ∧ k.on (X j) (X j) = .ok (.real b) ∧ |v - e| ≤ Φ.R.gamma (k.roundings d) * Real.sqrt (a * b) := fun i j => by
    rcases le_total (i : Nat) j with hij | hij
    · rw [Nat.min_eq_left hij, Nat.max_eq_right hij]
      exact key i j
    · rw [Nat.min_eq_right hij, Nat.max_eq_left hij]
      obtain ⟨v, e, a, b, h1, h2, h3, h4, h5⟩ := key j i
      refine ⟨v, e, b, a, h1, ?_, h4, h3, by rwa [_root_.mul_comm b a]⟩
      rw [on_eq, eval_comm, ← on_eq]
      exact h2
  choose K e a b h1 h2 h3 h4 h5 using key'
  refine ⟨K, ?_, fun i j => ⟨e i j, a i j, b i j, h2 i j, h3 i j, h4 i j, h5 i j⟩⟩
  rw [C08_full_is_gram hf (overflow_quiet he _ _) h]
  show Except.ok (KMOut.mat .dense (⟨A.nrows, A.nrows, _⟩ : Mat F)) = _
  congr 3
  funext i j
  exact h1 i j

/-- an environment, two samples of Python floats, and the state after `attach_to` -/
example : let X : Fin 2 → Fin 2 → ℝ := ![![1, 2], ![3, 4]]
    let A : Arr2 (List Dbl) := ⟨2, 2, fun i => List.ofFn fun j => .fin (X (Fin.ofNat 2 i) j)⟩
    OverflowEnv double (overflowEnv double) ∧ (∀ i : Fin 2, A.row i = List.ofFn fun j => .fin (X i j)) ∧
    (∀ i, (NumKernel.chi2 1).ValidAt (X i)) ∧ (∀ i j, (NumKernel.chi2 1).Moderate 20 (X i) (X j)) ∧
    SinceDense (overflowEnv double) (.chi2 1) false ⟨A, none⟩ (exec (overflowEnv double) (.attach (.arr [2, 2] A.row) none) (init (.chi2 1) false 0)).2 := by
  refine ⟨overflowEnv_ok _, fun i => ?_, fun i => ?_, fun i j => ?_, .attached (.new 0) (two := none) ⟨⟨0, rfl⟩, trivial⟩ rfl⟩
  · dsimp only
    rw [show Fin.ofNat 2 (i : Nat) = i from by fin_cases i <;> rfl]
  · exact ⟨zero_le_one, fun j => by fin_cases i <;> fin_cases j <;> norm_num⟩
  · fin_cases i <;> fin_cases j <;>
      exact ⟨fun l => by fin_cases l <;> norm_num, by norm_num [Fin.sum_univ_two], by norm_num [Fin.sum_univ_two]⟩

/-! ## C84: infinite numbers -/

/-- **C84** (linear, polynomial kernel of degree at least 1, Hadamard kernel with positive exponent) If one of two samples without missing values contains an infinite number,
the value is not finite. -/
theorem C84_value_partial (hk : k.Propagating) {x y : Fin d → Dbl} (hn : ∀ i, x i ≠ .nan ∧ y i ≠ .nan) (h : ∃ i, (x i).Infinite ∨ (y i).Infinite) {v : Dbl}
    (hv : Φ.Computes k x y v) : ¬ v.Finite := propagating hk hn h hv

/-- **C84** (the same kernels, and Gaussian and Laplacian kernel) The value on a sample with an infinite number and itself is not finite. For the other kernels it is false:
`C84_violated_chi2`, `C84_violated_sigmoid`. -/
theorem C84_self_partial (hk : k.Shows) {x : Fin d → Dbl} (hn : ∀ i, x i ≠ .nan) (h : ∃ i, (x i).Infinite) {v : Dbl} (hv : Φ.Computes k x x v) : ¬ v.Finite :=
  shows hk hn h hv

/-- **C84** (violated by the chi² kernel) Infinite numbers count as missing: the possible values are those with NaN in their place (coordinates left out, C74). On a sample and itself the value is 1,
whatever the sample contains. -/
theorem C84_violated_chi2 (γ : ℝ) {x y : Fin d → Dbl} (hx : ∀ i, ¬ (x i).Neg) (hy : ∀ i, ¬ (y i).Neg) (v : Dbl) :
    (Φ.Computes (.chi2 γ) x y v ↔ Φ.Computes (.chi2 γ) (fun i => match x i with | .inf _ => .nan | a => a) (fun i => match y i with | .inf _ => .nan | a => a) v) ∧
    (Φ.Computes (.chi2 γ) x x v ↔ v = .fin 1) := by
  refine ⟨chi2_missing γ hx hy v, chi2_self, ?_⟩
  rintro rfl
  obtain ⟨w, hw⟩ := FloatFormat.exists_computes (Φ := Φ) (.chi2 γ) (x := x) (y := x) fun _ _ i => ⟨hx i, hx i⟩
  rwa [chi2_self hw] at hw

/-- **C84** (violated by the sigmoid kernel) With `γ > 0` the value on a sample with an infinite number and itself is 1. -/
theorem C84_violated_sigmoid {γ : ℝ} (hγ : 0 < γ) (o : ℝ) {x : Fin d → Dbl} (hn : ∀ i, x i ≠ .nan) (h : ∃ i, (x i).Infinite) (v : Dbl) :
    Φ.Computes (.sigmoid γ o) x x v ↔ v = .fin 1 := by
  obtain ⟨i, hi⟩ := h
  have e : ∀ t : SumTree d, t.Complete → Φ.rnd ((Dbl.fin o).addX (Φ.rnd ((Dbl.fin γ).mulX (Φ.dot x x t)))) = .inf false := fun t ht => by
    rw [dot_self_inf hn (Complete.mem ht i) hi]
    simp only [Dbl.mulX]
    rw [if_neg hγ.ne', decide_eq_false (not_lt.2 hγ.le)]
    rfl
  constructor
  · rintro ⟨t, ht, hv⟩
    rw [e t ht] at hv
    exact hv
  · rintro rfl
    refine ⟨.all d, SumTree.all_complete d, ?_⟩
    rw [e _ (SumTree.all_complete d)]
    rfl

/-- a sample with an infinite number -/
example : (∀ i, (![.fin 1, .inf false, .fin 3] : Fin 3 → Dbl) i ≠ .nan) ∧ (∃ i, ((![.fin 1, .inf false, .fin 3] : Fin 3 → Dbl) i).Infinite) ∧
    (∀ i, ¬ ((![.fin 1, .inf false, .fin 3] : Fin 3 → Dbl) i).Neg) ∧ ∃ v, double.Computes (.gaussian 1 (1 / 2)) ![.fin 1, .inf false, .fin 3] ![.fin 1, .inf false, .fin 3] v := by
  refine ⟨fun i => ?_, ⟨1, trivial⟩, fun i => ?_, FloatFormat.exists_computes _ (by rintro _ ⟨⟩)⟩
  · fin_cases i <;> exact fun h => Dbl.noConfusion h
  fin_cases i
  · exact not_lt.2 zero_le_one
  · exact fun h => Bool.false_ne_true h
  · exact not_lt.2 (by norm_num)

/-- **C84** (no normalisation; the kernels of `C84_self_partial`; samples without missing values) After any calls not requesting sparse storage, the diagonal of `km.full` is not finite for samples with an infinite
number; with the kernels of `C84_value_partial` their whole rows and columns are not finite. -/
theorem C84_full_partial {env : Env NumKernel (List Dbl) F} (he : OverflowEnv Φ env) (hk : k.Shows) {A : Arr2 (List Dbl)} (hA : A.Rectangular)
    (hn : ∀ i : Fin A.nrows, Dbl.nan ∉ A.row i) {s : KMState NumKernel (List Dbl) F} (h : SinceDense env k false ⟨A, none⟩ s) :
    ∃ c : Fin A.nrows → Fin A.nrows → F, (exec env .full s).1 = .ok (.mat .dense ⟨A.nrows, A.nrows, c⟩) ∧
      ∀ i : Fin A.nrows, (∃ a ∈ A.row i, a.Infinite) → c i i = .nan ∧ (k.Propagating → ∀ j, c i j = .nan ∧ c j i = .nan) := by
  have hc : ∀ γ, k ≠ .chi2 γ := by rintro γ rfl; exact hk.elim
  refine ⟨_, C08_full_is_gram (overflow_noFaultsOn he hA fun γ e => (hc γ e).elim) (overflow_quiet he _ _) h, fun i hi => ?_⟩
  have hnf : ∀ {v : Dbl}, ¬ v.Finite → v.toF = .nan := fun {v} h => by
    cases v
    · exact (h trivial).elim
    · rfl
    · rfl
  have hinf : ∀ {l : List Dbl} {n : Nat} (hl : l.length = n), (∃ a ∈ l, a.Infinite) → ∃ m : Fin n, (l.get (m.cast hl.symm)).Infinite := fun {l n} hl ⟨a, ha, hi⟩ => by
    subst hl
    obtain ⟨m, rfl⟩ := List.get_of_mem ha
    exact ⟨m, hi⟩
  have hne : ∀ (j : Fin A.nrows) (m : Fin (A.row j).length), (A.row j).get m ≠ .nan := fun j m e => hn j (e ▸ List.get_mem _ _)
  have prop : k.Propagating → ∀ i j : Fin A.nrows, ((∃ a ∈ A.row i, a.Infinite) ∨ ∃ a ∈ A.row j, a.Infinite) → env.kval k (A.row i) (A.row j) = .nan := fun hp i j hij => by
    obtain ⟨-, v, hv, hcomp⟩ := overflow_entry (k := k) he (hA i i.2) (hA j j.2) fun γ e => (hc γ e).elim
    rw [hv]
    refine hnf (propagating hp (fun m => ⟨hne i _, hne j _⟩) ?_ hcomp)
    rcases hij with h | h
    · exact (hinf (hA i i.2) h).imp fun m hm => .inl hm
    · exact (hinf (hA j j.2) h).imp fun m hm => .inr hm
  have prop' : k.Propagating → ∀ i j : Fin A.nrows, ((∃ a ∈ A.row i, a.Infinite) ∨ ∃ a ∈ A.row j, a.Infinite) →
      env.kval k (A.row (min (i : Nat) j)) (A.row (max (i : Nat) j)) = .nan := fun hp i j hij => by
    rcases le_total (i : Nat) j with h | h
    · rw [Nat.min_eq_left h, Nat.max_eq_right h]
      exact prop hp i j hij
    · rw [Nat.min_eq_right h, Nat.max_eq_left h]
      exact prop hp j i hij.symm
  refine ⟨?_, fun hp j => ⟨prop' hp i j (.inl hi), prop' hp j i (.inr hi)⟩⟩
  show env.kval k (A.row (min (i : Nat) i)) (A.row (max (i : Nat) i)) = _
  rw [Nat.min_self, Nat.max_self]
  obtain ⟨-, v, hv, hcomp⟩ := overflow_entry (k := k) he (hA i i.2) (hA i i.2) fun γ e => (hc γ e).elim
  rw [hv]
  exact hnf (shows hk (fun m => hne i _) (hinf (hA i i.2) hi) hcomp)

/-- two samples, one with an infinite number; freshly attached -/
example : let A : Arr2 (List Dbl) := ⟨2, 2, fun i => if i = 1 then [.fin 4, .inf true] else [.fin i, .fin 1]⟩
    A.Rectangular ∧ (∀ i : Fin A.nrows, Dbl.nan ∉ A.row i) ∧ (∃ a ∈ A.row 1, a.Infinite) ∧ NumKernel.linear.Shows ∧
    SinceDense (overflowEnv double) .linear false ⟨A, none⟩ (exec (overflowEnv double) (.attach (.arr [2, 2] A.row) none) (init .linear false 0)).2 := by
  refine ⟨fun i _ => ?_, fun i => ?_, ⟨.inf true, by simp, trivial⟩, trivial, .attached (.new 0) (two := none) ⟨⟨0, rfl⟩, trivial⟩ rfl⟩
  · dsimp only
    split <;> rfl
  · dsimp only
    split <;> simp

end KMethods
