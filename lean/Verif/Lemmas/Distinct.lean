import Verif.Spec.Distinct
import Verif.Lemmas.Defaults
import Mathlib.Analysis.SpecialFunctions.Artanh
/-!
# Different kernels have different values
-/
namespace KMethods
open Filter Topology

/-- kernels with sensible parameters -/
def NumKernel.Proper : NumKernel → Prop
  | .linear => True
  | .poly d γ b => 1 ≤ d ∧ γ = 1 ∧ b = 1
  | .gaussian σ γ => 0 < σ ∧ γ = 1 / (2 * σ ^ 2)
  | .laplacian γ => 0 < γ
  | .sigmoid γ _ => 0 < γ
  | _ => False

namespace NumKernel

theorem Proper.inBucket {k : NumKernel} (h : k.Proper) : k.InBucket := by
  cases k <;> simp only [Proper, InBucket] at *
  exact ⟨by omega, h.2⟩

/-- the value on two numbers -/
noncomputable def at1 (k : NumKernel) (x y : ℝ) : ℝ := k.formula [x] [y]

theorem at1_linear (x y : ℝ) : linear.at1 x y = x * y := by simp [at1, formula]
theorem at1_poly (n : ℕ) (x y : ℝ) : (poly n 1 1).at1 x y = (1 + x * y) ^ n := by simp [at1, formula]
theorem at1_gaussian (σ γ x y : ℝ) : (gaussian σ γ).at1 x y = Real.exp (-γ * (x - y) ^ 2) := by simp [at1, formula]
theorem at1_laplacian (γ x y : ℝ) : (laplacian γ).at1 x y = Real.exp (-γ * |x - y|) := by simp [at1, formula]
theorem at1_sigmoid (γ o x y : ℝ) : (sigmoid γ o).at1 x y = Real.tanh (o + γ * (x * y)) := by simp [at1, formula]

theorem gaussian_eq {σ γ σ' γ' : ℝ} (h : (gaussian σ γ).Proper) (h' : (gaussian σ' γ').Proper) (e : γ = γ') : gaussian σ γ = gaussian σ' γ' := by
  obtain ⟨h1, h2⟩ := h
  obtain ⟨h3, h4⟩ := h'
  subst e
  have h5 : 2 * σ ^ 2 = 2 * σ' ^ 2 := by
    have := h2.symm.trans h4
    exact inv_injective (by rwa [one_div, one_div] at this)
  have h6 : σ = σ' := by
    have := (pow_left_inj₀ h1.le h3.le two_ne_zero).1 (by linarith : σ ^ 2 = σ' ^ 2)
    exact this
  rw [h6]

theorem Proper.nat {d : ℤ} {γ b : ℝ} (h : (poly d γ b).Proper) : ∃ n : ℕ, 1 ≤ n ∧ poly d γ b = poly n 1 1 := by
  obtain ⟨h1, rfl, rfl⟩ := h
  exact ⟨d.toNat, by omega, by rw [Int.toNat_of_nonneg (by omega)]⟩

theorem gaussian_pos {σ γ : ℝ} (h : (gaussian σ γ).Proper) : 0 < γ := by
  obtain ⟨h1, rfl⟩ := h
  positivity

/-- bell-shaped kernels with the same values at distances 1 and 2 -/
theorem bell_inj {k k' : NumKernel} (hk : k.Proper) (hk' : k'.Proper) (h1 : (∃ σ γ, k = gaussian σ γ) ∨ ∃ γ, k = laplacian γ)
    (h1' : (∃ σ γ, k' = gaussian σ γ) ∨ ∃ γ, k' = laplacian γ) (x : ℝ) (e1 : k.at1 x (x + 1) = k'.at1 x (x + 1)) (e2 : k.at1 x (x + 2) = k'.at1 x (x + 2)) : k = k' := by
  have a1 : |x - (x + 1)| = 1 := by rw [show x - (x + 1) = -1 by ring, abs_neg, abs_one]
  have a2 : |x - (x + 2)| = 2 := by rw [show x - (x + 2) = -2 by ring, abs_neg, abs_two]
  rcases h1 with ⟨σ, γ, rfl⟩ | ⟨γ, rfl⟩ <;> rcases h1' with ⟨σ', γ', rfl⟩ | ⟨γ', rfl⟩ <;>
    simp only [at1_gaussian, at1_laplacian, a1, a2, Real.exp_eq_exp] at e1 e2
  · exact gaussian_eq hk hk' (by nlinarith)
  · have := gaussian_pos hk
    have h : (0 : ℝ) < γ' := hk'
    nlinarith
  · have := gaussian_pos hk'
    have h : (0 : ℝ) < γ := hk
    nlinarith
  · rw [show γ = γ' by linarith]

/-! ### without normalisation -/

theorem at22_poly {n : ℕ} (hn : 1 ≤ n) : 5 ≤ (poly n 1 1).at1 2 2 := by
  rw [at1_poly]
  norm_num
  exact le_self_pow₀ (by norm_num) (by omega)

theorem at1_inj {k k' : NumKernel} (hk : k.Proper) (hk' : k'.Proper) (h : ∀ x y, k.at1 x y = k'.at1 x y) : k = k' := by
  have h22 := h 2 2
  have poly22 : ∀ {d γ b}, (poly d γ b).Proper → 5 ≤ (poly d γ b).at1 2 2 := fun hp => by
    obtain ⟨n, hn, e⟩ := hp.nat
    rw [e]
    exact at22_poly hn
  have sig22 : ∀ γ o, (sigmoid γ o).at1 2 2 < 1 := fun γ o => by rw [at1_sigmoid]; exact Real.tanh_lt_one _
  have g22 : ∀ σ γ, (gaussian σ γ).at1 2 2 = 1 := fun σ γ => by rw [at1_gaussian]; simp
  have l22 : ∀ γ, (laplacian γ).at1 2 2 = 1 := fun γ => by rw [at1_laplacian]; simp
  have n22 : linear.at1 2 2 = 4 := by rw [at1_linear]; norm_num
  cases k with
  | hadamard => exact hk.elim
  | chi2 => exact hk.elim
  | linear =>
    cases k' with
    | hadamard => exact hk'.elim
    | chi2 => exact hk'.elim
    | linear => rfl
    | poly d γ b => linarith [poly22 hk']
    | gaussian σ γ => linarith [g22 σ γ]
    | laplacian γ => linarith [l22 γ]
    | sigmoid γ o => linarith [sig22 γ o]
  | poly d γ b =>
    cases k' with
    | hadamard => exact hk'.elim
    | chi2 => exact hk'.elim
    | linear => linarith [poly22 hk]
    | poly d' γ' b' =>
      obtain ⟨n, hn, e⟩ := hk.nat
      obtain ⟨n', hn', e'⟩ := hk'.nat
      rw [e, e'] at h ⊢
      have := h 1 1
      rw [at1_poly, at1_poly] at this
      rw [pow_right_injective₀ (by norm_num) (by norm_num) this]
    | gaussian σ γ => linarith [g22 σ γ, poly22 hk]
    | laplacian γ => linarith [l22 γ, poly22 hk]
    | sigmoid γ o => linarith [sig22 γ o, poly22 hk]
  | gaussian σ γ =>
    cases k' with
    | hadamard => exact hk'.elim
    | chi2 => exact hk'.elim
    | linear => linarith [g22 σ γ]
    | poly d' γ' b' => linarith [g22 σ γ, poly22 hk']
    | gaussian σ' γ' => exact bell_inj hk hk' (.inl ⟨_, _, rfl⟩) (.inl ⟨_, _, rfl⟩) 0 (h _ _) (h _ _)
    | laplacian γ' => exact bell_inj hk hk' (.inl ⟨_, _, rfl⟩) (.inr ⟨_, rfl⟩) 0 (h _ _) (h _ _)
    | sigmoid γ' o => linarith [sig22 γ' o, g22 σ γ]
  | laplacian γ =>
    cases k' with
    | hadamard => exact hk'.elim
    | chi2 => exact hk'.elim
    | linear => linarith [l22 γ]
    | poly d' γ' b' => linarith [l22 γ, poly22 hk']
    | gaussian σ' γ' => exact bell_inj hk hk' (.inr ⟨_, rfl⟩) (.inl ⟨_, _, rfl⟩) 0 (h _ _) (h _ _)
    | laplacian γ' => exact bell_inj hk hk' (.inr ⟨_, rfl⟩) (.inr ⟨_, rfl⟩) 0 (h _ _) (h _ _)
    | sigmoid γ' o => linarith [sig22 γ' o, l22 γ]
  | sigmoid γ o =>
    cases k' with
    | hadamard => exact hk'.elim
    | chi2 => exact hk'.elim
    | linear => linarith [sig22 γ o]
    | poly d' γ' b' => linarith [sig22 γ o, poly22 hk']
    | gaussian σ' γ' => linarith [sig22 γ o, g22 σ' γ']
    | laplacian γ' => linarith [sig22 γ o, l22 γ']
    | sigmoid γ' o' =>
      have h0 := h 0 0
      have h1 := h 1 1
      rw [at1_sigmoid, at1_sigmoid] at h0 h1
      have h0 := Real.tanh_injective h0
      have h1 := Real.tanh_injective h1
      obtain rfl : o = o' := by linarith
      obtain rfl : γ = γ' := by linarith
      rfl

/-! ### with normalisation -/

/-- the normalised value -/
noncomputable def norm1 (k : NumKernel) (x y : ℝ) : ℝ := k.at1 x y / Real.sqrt (k.at1 x x * k.at1 y y)

theorem tanh_eq_one_sub (t : ℝ) : Real.tanh t = 1 - 2 / (Real.exp (2 * t) + 1) := by
  have h1 := Real.exp_pos t
  have h2 : Real.exp (2 * t) = Real.exp t * Real.exp t := by rw [← Real.exp_add]; ring_nf
  rw [Real.tanh_eq, h2, Real.exp_neg]
  field_simp
  ring

theorem tendsto_tanh : Tendsto Real.tanh atTop (𝓝 1) := by
  have h1 : Tendsto (fun t : ℝ => Real.exp (2 * t) + 1) atTop atTop :=
    tendsto_atTop_add_const_right _ _ (Real.tendsto_exp_atTop.comp (tendsto_id.const_mul_atTop two_pos))
  have h2 : Tendsto (fun t : ℝ => 1 - 2 / (Real.exp (2 * t) + 1)) atTop (𝓝 (1 - 0)) := tendsto_const_nhds.sub (h1.const_div_atTop 2)
  rw [sub_zero] at h2
  exact h2.congr fun t => (tanh_eq_one_sub t).symm

theorem sigmoid_arg {γ : ℝ} (hγ : 0 < γ) (o : ℝ) {x : ℝ} (hx : 0 < x) : Tendsto (fun y => o + γ * (x * y)) atTop atTop :=
  tendsto_atTop_add_const_left _ _ ((tendsto_id.const_mul_atTop hx).const_mul_atTop hγ)

theorem sigmoid_arg_self {γ : ℝ} (hγ : 0 < γ) (o : ℝ) : Tendsto (fun y : ℝ => o + γ * (y * y)) atTop atTop :=
  tendsto_atTop_add_const_left _ _ ((tendsto_id.atTop_mul_atTop₀ tendsto_id).const_mul_atTop hγ)

/-- self-kernels of large numbers -/
theorem self_large {k : NumKernel} (hk : k.Proper) : ∀ᶠ x in atTop, 1e-8 < k.at1 x x := by
  cases k with
  | hadamard => exact hk.elim
  | chi2 => exact hk.elim
  | linear =>
    filter_upwards [eventually_ge_atTop 1] with x hx
    rw [at1_linear]
    nlinarith
  | poly d γ b =>
    obtain ⟨n, hn, e⟩ := hk.nat
    filter_upwards [] with x
    rw [e, at1_poly]
    exact lt_of_lt_of_le (by norm_num) (one_le_pow₀ (by nlinarith [mul_self_nonneg x]))
  | gaussian σ γ =>
    filter_upwards [] with x
    rw [at1_gaussian]
    norm_num
  | laplacian γ =>
    filter_upwards [] with x
    rw [at1_laplacian]
    norm_num
  | sigmoid γ o =>
    filter_upwards [(tendsto_tanh.comp (sigmoid_arg_self hk o)).eventually (lt_mem_nhds (show (1e-8 : ℝ) < 1 by norm_num))] with x hx
    rw [at1_sigmoid]
    exact hx

theorem norm1_linear {x y : ℝ} (hx : 0 < x) (hy : 0 < y) : linear.norm1 x y = 1 := by
  rw [norm1, at1_linear, at1_linear, at1_linear, show x * x * (y * y) = (x * y) ^ 2 by ring, Real.sqrt_sq (mul_pos hx hy).le, div_self (mul_pos hx hy).ne']

/-- the cosine in the normalised polynomial kernel -/
noncomputable def cos1 (x y : ℝ) : ℝ := (1 + x * y) / Real.sqrt ((1 + x * x) * (1 + y * y))

theorem norm1_poly (n : ℕ) (x y : ℝ) : (poly n 1 1).norm1 x y = cos1 x y ^ n := by
  rw [norm1, at1_poly, at1_poly, at1_poly, ← mul_pow, cos1, div_pow]
  congr 1
  rw [Real.sqrt_eq_iff_mul_self_eq_of_pos]
  · rw [← mul_pow, Real.mul_self_sqrt (mul_nonneg _ _)] <;> nlinarith [mul_self_nonneg x, mul_self_nonneg y]
  · exact pow_pos (Real.sqrt_pos.2 (mul_pos (by nlinarith [mul_self_nonneg x]) (by nlinarith [mul_self_nonneg y]))) _

theorem cos1_pos {x y : ℝ} (hx : 0 < x) (hy : 0 < y) : 0 < cos1 x y :=
  div_pos (by positivity) (Real.sqrt_pos.2 (by positivity))

theorem cos1_lt {x y : ℝ} (hx : 0 < x) (hy : 0 < y) (h : x ≠ y) : cos1 x y < 1 := by
  rw [cos1, div_lt_one (Real.sqrt_pos.2 (by positivity)), Real.lt_sqrt (by positivity)]
  have : 0 < (x - y) ^ 2 := by positivity [sub_ne_zero.2 h]
  nlinarith

theorem cos1_ge {x y : ℝ} (hx : 1 ≤ x) (hy : 0 < y) : 1 / Real.sqrt (1 + x * x) ≤ cos1 x y := by
  have h1 : 0 < 1 + x * x := by positivity
  have h2 : 0 < 1 + y * y := by positivity
  rw [cos1, Real.sqrt_mul h1.le, div_le_div_iff₀ (Real.sqrt_pos.2 h1) (mul_pos (Real.sqrt_pos.2 h1) (Real.sqrt_pos.2 h2)), one_mul, _root_.mul_comm]
  refine mul_le_mul_of_nonneg_right ?_ (Real.sqrt_nonneg _)
  rw [Real.sqrt_le_left (by positivity)]
  nlinarith [mul_pos (lt_of_lt_of_le one_pos hx) hy, mul_le_mul hx hx zero_le_one (by linarith : (0 : ℝ) ≤ x), sq_nonneg (x * y), mul_self_nonneg y]

theorem norm1_gaussian (σ γ x y : ℝ) : (gaussian σ γ).norm1 x y = (gaussian σ γ).at1 x y := by
  rw [norm1, at1_gaussian, at1_gaussian, at1_gaussian]
  simp

theorem norm1_laplacian (γ x y : ℝ) : (laplacian γ).norm1 x y = (laplacian γ).at1 x y := by
  rw [norm1, at1_laplacian, at1_laplacian, at1_laplacian]
  simp

theorem far_gaussian {σ γ : ℝ} (hk : (gaussian σ γ).Proper) (x : ℝ) : Tendsto ((gaussian σ γ).norm1 x) atTop (𝓝 0) := by
  have hγ := gaussian_pos hk
  have h1 : Tendsto (fun y : ℝ => (y - x) * (y - x)) atTop atTop :=
    (tendsto_atTop_add_const_right _ (-x) tendsto_id).atTop_mul_atTop₀ (tendsto_atTop_add_const_right _ (-x) tendsto_id)
  have h2 := Real.tendsto_exp_neg_atTop_nhds_zero.comp (h1.const_mul_atTop hγ)
  refine h2.congr fun y => ?_
  rw [norm1_gaussian, at1_gaussian]
  show Real.exp (-(γ * ((y - x) * (y - x)))) = _
  congr 1
  ring

theorem far_laplacian {γ : ℝ} (hγ : 0 < γ) (x : ℝ) : Tendsto ((laplacian γ).norm1 x) atTop (𝓝 0) := by
  have h1 : Tendsto (fun y : ℝ => y - x) atTop atTop := tendsto_atTop_add_const_right _ (-x) tendsto_id
  have h2 := Real.tendsto_exp_neg_atTop_nhds_zero.comp (h1.const_mul_atTop hγ)
  refine h2.congr' ?_
  filter_upwards [eventually_ge_atTop x] with y hy
  rw [norm1_laplacian, at1_laplacian, abs_sub_comm, abs_of_nonneg (by linarith)]
  show Real.exp (-(γ * (y - x))) = _
  rw [neg_mul]

theorem far_sigmoid {γ : ℝ} (hγ : 0 < γ) (o : ℝ) {x : ℝ} (hx : 0 < x) (hs : 0 < (sigmoid γ o).at1 x x) :
    Tendsto ((sigmoid γ o).norm1 x) atTop (𝓝 (1 / Real.sqrt ((sigmoid γ o).at1 x x))) := by
  have h1 := tendsto_tanh.comp (sigmoid_arg hγ o hx)
  have h2 := tendsto_tanh.comp (sigmoid_arg_self hγ o)
  have h3 := (Real.continuous_sqrt.tendsto _).comp (h2.const_mul ((sigmoid γ o).at1 x x))
  rw [mul_one] at h3
  refine (h1.div h3 (Real.sqrt_pos.2 hs).ne').congr fun y => ?_
  rw [norm1, at1_sigmoid γ o x y, at1_sigmoid γ o y y]
  rfl

theorem one_lt_far_sigmoid {γ o x : ℝ} (hs : 0 < (sigmoid γ o).at1 x x) : 1 < 1 / Real.sqrt ((sigmoid γ o).at1 x x) := by
  rw [lt_div_iff₀ (Real.sqrt_pos.2 hs), one_mul, Real.sqrt_lt' one_pos, one_pow, at1_sigmoid]
  exact Real.tanh_lt_one _

/-- which kernels have larger normalised values, far away -/
def rank : NumKernel → Nat
  | .poly _ _ _ => 1
  | .linear => 2
  | .sigmoid _ _ => 3
  | _ => 0

theorem far_bell {k : NumKernel} (hk : k.Proper) (hr : k.rank = 0) (x : ℝ) {c : ℝ} (hc : 0 < c) : ∀ᶠ y in atTop, k.norm1 x y < c := by
  cases k with
  | hadamard => exact hk.elim
  | chi2 => exact hk.elim
  | linear => cases hr
  | poly => cases hr
  | sigmoid => cases hr
  | gaussian σ γ => exact (far_gaussian hk x).eventually (gt_mem_nhds hc)
  | laplacian γ => exact (far_laplacian hk x).eventually (gt_mem_nhds hc)

theorem far_poly {k : NumKernel} (hk : k.Proper) (hr : k.rank = 1) {x : ℝ} (hx : 1 ≤ x) : ∃ c > 0, ∀ᶠ y in atTop, c ≤ k.norm1 x y ∧ k.norm1 x y < 1 := by
  cases k with
  | poly d γ b =>
    obtain ⟨n, hn, e⟩ := hk.nat
    have h1 : 0 < 1 / Real.sqrt (1 + x * x) := div_pos one_pos (Real.sqrt_pos.2 (by positivity))
    refine ⟨_, pow_pos h1 n, ?_⟩
    filter_upwards [eventually_gt_atTop x] with y hy
    rw [e, norm1_poly]
    exact ⟨pow_le_pow_left₀ h1.le (cos1_ge hx (by linarith)) n, pow_lt_one₀ (cos1_pos (by linarith) (by linarith)).le (cos1_lt (by linarith) (by linarith) hy.ne) (by omega)⟩
  | _ => cases hr

theorem far_linear {k : NumKernel} (hr : k.rank = 2) {x : ℝ} (hx : 1 ≤ x) : ∀ᶠ y in atTop, k.norm1 x y = 1 := by
  cases k with
  | linear =>
    filter_upwards [eventually_gt_atTop 0] with y hy
    exact norm1_linear (by linarith) hy
  | _ => cases hr

theorem far_sig {k : NumKernel} (hk : k.Proper) (hr : k.rank = 3) {x : ℝ} (hx : 1 ≤ x) (hs : 0 < k.at1 x x) : ∀ᶠ y in atTop, 1 < k.norm1 x y := by
  cases k with
  | sigmoid γ o => exact (far_sigmoid hk o (by linarith) hs).eventually (lt_mem_nhds (one_lt_far_sigmoid hs))
  | _ => cases hr

theorem far_lt {k k' : NumKernel} (hk : k.Proper) (hk' : k'.Proper) (hr : k.rank < k'.rank) {x : ℝ} (hx : 1 ≤ x) (hs : 0 < k'.at1 x x) :
    ∀ᶠ y in atTop, k.norm1 x y < k'.norm1 x y := by
  have h3 : k'.rank ≤ 3 := by cases k' <;> simp [rank]
  have h' : k'.rank = 1 ∨ k'.rank = 2 ∨ k'.rank = 3 := by omega
  have h : k.rank = 0 ∨ k.rank = 1 ∧ 1 < k'.rank ∨ k.rank = 2 ∧ k'.rank = 3 := by omega
  rcases h with h | ⟨h, h1⟩ | ⟨h, h1⟩
  · have : ∃ c > 0, ∀ᶠ y in atTop, c ≤ k'.norm1 x y := by
      rcases h' with h' | h' | h'
      · obtain ⟨c, hc, e⟩ := far_poly hk' h' hx
        exact ⟨c, hc, e.mono fun y hy => hy.1⟩
      · exact ⟨1, one_pos, (far_linear h' hx).mono fun y hy => hy.ge⟩
      · exact ⟨1, one_pos, (far_sig hk' h' hx hs).mono fun y hy => hy.le⟩
    obtain ⟨c, hc, e⟩ := this
    exact ((far_bell hk h x hc).and e).mono fun y hy => hy.1.trans_le hy.2
  · have : ∀ᶠ y in atTop, 1 ≤ k'.norm1 x y := by
      rcases h' with h' | h' | h'
      · omega
      · exact (far_linear h' hx).mono fun y hy => hy.ge
      · exact (far_sig hk' h' hx hs).mono fun y hy => hy.le
    obtain ⟨c, -, e⟩ := far_poly hk h hx
    exact (e.and this).mono fun y hy => hy.1.2.trans_le hy.2
  · exact ((far_linear h hx).and (far_sig hk' h1 hx hs)).mono fun y hy => hy.1.trans_lt hy.2

/-- kernels whose normalised values agree on large numbers are equal -/
theorem norm1_inj {k k' : NumKernel} (hk : k.Proper) (hk' : k'.Proper) (h : ∀ᶠ x in atTop, ∀ y, x ≤ y → k.norm1 x y = k'.norm1 x y) : k = k' := by
  obtain ⟨X, hX, hs, hs', hX1⟩ := (h.and ((self_large hk).and ((self_large hk').and (eventually_ge_atTop 1)))).exists
  have hr : k.rank = k'.rank := by
    rcases lt_trichotomy k.rank k'.rank with hr | hr | hr
    · obtain ⟨y, hy, hy'⟩ := ((far_lt hk hk' hr hX1 (lt_trans (by norm_num) hs')).and (eventually_ge_atTop X)).exists
      exact (hy.ne (hX y hy')).elim
    · exact hr
    · obtain ⟨y, hy, hy'⟩ := ((far_lt hk' hk hr hX1 (lt_trans (by norm_num) hs)).and (eventually_ge_atTop X)).exists
      exact (hy.ne' (hX y hy')).elim
  have bell : ∀ {k : NumKernel}, k.Proper → k.rank = 0 → (∃ σ γ, k = gaussian σ γ) ∨ ∃ γ, k = laplacian γ := fun {k} hk hr => by
    cases k with
    | hadamard => exact hk.elim
    | chi2 => exact hk.elim
    | linear => cases hr
    | poly => cases hr
    | sigmoid => cases hr
    | gaussian σ γ => exact .inl ⟨_, _, rfl⟩
    | laplacian γ => exact .inr ⟨_, rfl⟩
  have bell1 : ∀ {k : NumKernel}, ((∃ σ γ, k = gaussian σ γ) ∨ ∃ γ, k = laplacian γ) → ∀ x y, k.norm1 x y = k.at1 x y := fun {k} h x y => by
    rcases h with ⟨σ, γ, rfl⟩ | ⟨γ, rfl⟩
    · exact norm1_gaussian _ _ _ _
    · exact norm1_laplacian _ _ _
  by_cases h0 : k.rank = 0
  · have b := bell hk h0
    have b' := bell hk' (hr ▸ h0)
    refine bell_inj hk hk' b b' X ?_ ?_ <;> rw [← bell1 b, ← bell1 b'] <;> exact hX _ (by linarith)
  · cases k with
    | hadamard => exact hk.elim
    | chi2 => exact hk.elim
    | gaussian => exact (h0 rfl).elim
    | laplacian => exact (h0 rfl).elim
    | linear =>
      cases k' with
      | linear => rfl
      | _ => cases hr
    | poly d γ b =>
      cases k' with
      | poly d' γ' b' =>
        obtain ⟨n, hn, e⟩ := hk.nat
        obtain ⟨n', hn', e'⟩ := hk'.nat
        rw [e, e'] at hX ⊢
        have := hX (X + 1) (by linarith)
        rw [norm1_poly, norm1_poly] at this
        rw [pow_right_injective₀ (cos1_pos (by linarith) (by linarith)) (cos1_lt (by linarith) (by linarith) (by linarith)).ne this]
      | _ => cases hr
    | sigmoid γ o =>
      cases k' with
      | sigmoid γ' o' =>
        -- the limits agree, at two places
        have key : ∀ x, 1 ≤ x → 1e-8 < (sigmoid γ o).at1 x x → 1e-8 < (sigmoid γ' o').at1 x x →
            (∀ y, x ≤ y → (sigmoid γ o).norm1 x y = (sigmoid γ' o').norm1 x y) → o + γ * (x * x) = o' + γ' * (x * x) := fun x hx hs hs' he => by
          have hs : 0 < (sigmoid γ o).at1 x x := lt_trans (by norm_num) hs
          have hs' : 0 < (sigmoid γ' o').at1 x x := lt_trans (by norm_num) hs'
          have := tendsto_nhds_unique ((far_sigmoid hk o (by linarith) hs).congr' ((eventually_ge_atTop x).mono he)) (far_sigmoid hk' o' (by linarith) hs')
          rw [one_div, one_div, inv_inj, Real.sqrt_inj hs.le hs'.le, at1_sigmoid, at1_sigmoid] at this
          exact Real.tanh_injective this
        obtain ⟨Y, hY, hYs, hYs', hXY⟩ := (h.and ((self_large hk).and ((self_large hk').and (eventually_gt_atTop X)))).exists
        have e1 := key X hX1 hs hs' hX
        have e2 := key Y (by linarith) hYs hYs' hY
        have hne : Y * Y - X * X ≠ 0 := by nlinarith
        obtain rfl : γ = γ' := mul_right_cancel₀ hne (by linarith)
        obtain rfl : o = o' := by linarith
        rfl
      | _ => cases hr

/-- two numbers that tell two kernels apart -/
theorem apart {k k' : NumKernel} (hk : k.Proper) (hk' : k'.Proper) (hne : k ≠ k') (norm : Bool) :
    ∃ x y : ℝ, (norm = true → (1e-8 < k.at1 x x ∧ 1e-8 < k.at1 y y) ∧ 1e-8 < k'.at1 x x ∧ 1e-8 < k'.at1 y y) ∧
      if norm then k.norm1 x y ≠ k'.norm1 x y else k.at1 x y ≠ k'.at1 x y := by
  cases norm with
  | false =>
    by_contra h
    push Not at h
    exact hne (at1_inj hk hk' fun x y => by simpa using h x y (by simp))
  | true =>
    obtain ⟨T, hT⟩ := eventually_atTop.1 ((self_large hk).and (self_large hk'))
    by_contra h
    push Not at h
    refine hne (norm1_inj hk hk' (eventually_atTop.2 ⟨T, fun x hx y hy => ?_⟩))
    have h1 := hT x hx
    have h2 := hT y (hx.trans hy)
    simpa using h x y fun _ => ⟨⟨h1.1, h2.1⟩, h1.2, h2.2⟩

end NumKernel

open KMState PyM NumKernel

theorem pairSample_rows (x y : ℝ) : ∀ i, i < (pairSample x y).nrows → ((pairSample x y).row i).length = (pairSample x y).ncols := by
  intro i _
  show (if i = 0 then [x] else [y]).length = 1
  split <;> rfl

/-- a new object, attached together with its set -/
theorem fresh_full {s : SetSt LibKernel (List ℝ)} {A : Arr2 (List ℝ)} (hA : ∀ i, i < A.nrows → (A.row i).length = A.ncols) {norm : Bool} {r : Nat} {k : LibKernel}
    (hr : r ∈ s.set.members) (e : s.heap.objs r = some (.km (KMState.init k norm 0))) (hk : k.kernel.InBucket)
    (hs : norm = true → ∀ i : Fin A.nrows, 1e-8 < k.kernel.formula (A.row i) (A.row i)) {s' : SetSt LibKernel (List ℝ)} (ha : s.NowAttached (libEnv realOps) s' A) :
    (Heap.full (libEnv realOps) r s'.heap).1 = .ok (.dense, Mat.ofReal (k.kernel.matrixOf norm A)) := by
  have hm : s.heap.MatrixOn (libEnv realOps) r A (Mat.ofReal (k.kernel.matrixOf norm A)) :=
    Heap.KernelOn.matrixOn rfl ⟨k, norm, ⟨_, e, .new 0⟩, lib_isMatrix1 hA hk hs⟩
  obtain ⟨s'', hrun, -⟩ := NowAttached.fullF ha hr hm
  exact congrArg Prod.fst hrun

theorem fresh_attach {s : SetSt LibKernel (List ℝ)} {norm : Bool} {ks : List LibKernel}
    (g : List.Forall₂ (fun r k => s.heap.objs r = some (.km (KMState.init k norm 0))) s.set.members ks) (hn : s.set.numSamples = .unset) (A : Arr2 (List ℝ)) :
    ∃ s', SetSt.attach (sampleArg A) none s = (.ok (), s') ∧ s.NowAttached (libEnv realOps) s' A :=
  attach_nowAttached (env := libEnv realOps) (.inl hn) fun r hr => by
    obtain ⟨k, -, e⟩ := fresh_mem g hr
    exact ⟨k, norm, _, e, .new 0⟩

theorem allDiffer_of {s : SetSt LibKernel (List ℝ)} {norm : Bool} {ks : List LibKernel}
    (g : List.Forall₂ (fun r k => s.heap.objs r = some (.km (KMState.init k norm 0))) s.set.members ks) (hn : s.set.numSamples = .unset)
    (hp : ∀ k ∈ ks, k.kernel.Proper) (hd : (ks.map (·.kernel)).Nodup) : s.AllDiffer (libEnv realOps) := by
  intro i j r q hij hr hq
  obtain ⟨k, hki, ek⟩ := fresh_get g hr
  obtain ⟨k', hkj, ek'⟩ := fresh_get g hq
  have hk := hp k (List.mem_of_getElem? hki)
  have hk' := hp k' (List.mem_of_getElem? hkj)
  have hne : k.kernel ≠ k'.kernel := fun h => by
    have hi : (ks.map (·.kernel))[i]? = some k.kernel := by rw [List.getElem?_map, hki]; rfl
    have hj : (ks.map (·.kernel))[j]? = some k'.kernel := by rw [List.getElem?_map, hkj]; rfl
    rw [← h] at hj
    obtain ⟨hil, -⟩ := List.getElem?_eq_some_iff.1 hi
    exact hij ((List.getElem?_inj hil hd).1 (hi.trans hj.symm))
  obtain ⟨x, y, hs, hxy⟩ := apart hk hk' hne norm
  obtain ⟨s', e, ha⟩ := fresh_attach g hn (pairSample x y)
  have self : ∀ {c : NumKernel}, 1e-8 < c.at1 x x → 1e-8 < c.at1 y y → ∀ i : Fin (pairSample x y).nrows,
      1e-8 < c.formula ((pairSample x y).row i) ((pairSample x y).row i) := fun {c} h1 h2 i => by
    show 1e-8 < c.formula (if (i : Nat) = 0 then [x] else [y]) (if (i : Nat) = 0 then [x] else [y])
    split
    · exact h1
    · exact h2
  refine ⟨x, y, s', e, k.kernel.matrixOf norm (pairSample x y), k'.kernel.matrixOf norm (pairSample x y), fun h => ?_,
    fresh_full (pairSample_rows x y) (List.mem_of_getElem? hr) ek hk.inBucket (fun h => self (hs h).1.1 (hs h).1.2) ha,
    fresh_full (pairSample_rows x y) (List.mem_of_getElem? hq) ek' hk'.inBucket (fun h => self (hs h).2.1 (hs h).2.2) ha⟩
  have h01 := congrFun (congrFun h (0 : Fin 2)) (1 : Fin 2)
  cases norm with
  | false =>
    rw [if_neg (by simp)] at hxy
    exact hxy h01
  | true =>
    rw [if_pos rfl] at hxy
    exact hxy h01

/-- the same kernel twice -/
theorem not_allDiffer {s : SetSt LibKernel (List ℝ)} {norm : Bool} {ks : List LibKernel}
    (g : List.Forall₂ (fun r k => s.heap.objs r = some (.km (KMState.init k norm 0))) s.set.members ks) (hn : s.set.numSamples = .unset)
    {i j : Nat} (hij : i ≠ j) {k : LibKernel} (hk : k.kernel.InBucket) (hi : ks[i]? = some k) (hj : ks[j]? = some k) : ¬ s.AllDiffer (libEnv realOps) := by
  intro h
  have get : ∀ {i : Nat}, ks[i]? = some k → ∃ r, s.set.members[i]? = some r ∧ s.heap.objs r = some (.km (KMState.init k norm 0)) := fun {i} hi => by
    obtain ⟨hl, e⟩ := List.getElem?_eq_some_iff.1 hi
    have hl' : i < s.set.members.length := by rw [g.length_eq]; exact hl
    have hr : s.set.members[i]? = some s.set.members[i] := List.getElem?_eq_getElem hl'
    obtain ⟨k', hk', ek'⟩ := fresh_get g hr
    rw [hi] at hk'
    obtain rfl := Option.some.inj hk'
    exact ⟨_, hr, ek'⟩
  obtain ⟨r, hr, er⟩ := get hi
  obtain ⟨q, hq, eq⟩ := get hj
  obtain ⟨x, y, s', e, M, N, hMN, hM, hN⟩ := h i j r q hij hr hq
  obtain ⟨s1, e1, ha⟩ := fresh_attach g hn (pairSample x y)
  obtain rfl : s1 = s' := congrArg Prod.snd (e1.symm.trans e)
  -- both give the same
  have out : ∀ {r : Nat}, r ∈ s.set.members → s.heap.objs r = some (.km (KMState.init k norm 0)) →
      ((Heap.full (libEnv realOps) r s1.heap).1.map fun m => KMOut.mat m.1 m.2) =
        if norm then (normalizeKm (Mat.ofReal (k.kernel.matrixOn (pairSample x y))) "cosine").map (KMOut.mat .dense)
        else .ok (.mat .dense ((⟨pairSample x y, none⟩ : Attachment (List ℝ)).gram ((libEnv realOps).kval k))) := fun {r} hr er => by
    obtain ⟨t, ht, hsince⟩ := ha.2.2 r k norm hr ⟨_, er, .new 0⟩
    have hA := pairSample_rows x y
    have hh : (Heap.full (libEnv realOps) r s1.heap).1 = (KMState.full (libEnv realOps) t).1 := by
      unfold Heap.full
      rw [ht]
      show (Heap.call r (KMState.full (libEnv realOps)) s1.heap).1 = _
      rw [Heap.call_km _ ht]
    rw [hh]
    cases norm with
    | false =>
      have := C08_full_is_gram (lib_noFaultsOn hA hk _) (fun h => by cases h) (Since.mono (fun op e => by rw [e]; exact id) hsince)
      rw [exec_full_run] at this
      exact this
    | true =>
      have := lib_full_normed hA hk (Since.mono (fun _ _ => trivial) hsince)
      rw [exec_full_run] at this
      exact this
  have h1 := (out (List.mem_of_getElem? hr) er).trans (out (List.mem_of_getElem? hq) eq).symm
  rw [hM, hN] at h1
  have h2 : KMOut.mat Fmt.dense (Mat.ofReal M) = KMOut.mat Fmt.dense (Mat.ofReal N) := Except.ok.inj h1
  injection h2 with _ h3
  injection h3 with _ _ h4
  refine hMN ?_
  funext a b
  exact F.real.inj (congrFun (congrFun h4 a) b)

/-! ### the kernels of a bucket -/

theorem mkGaussian_proper {σ : ℝ} (h : floatEps ≤ σ ∧ floatEps ≤ 1 / (2 * σ ^ 2)) : mkGaussian σ = .gaussian σ (1 / (2 * σ ^ 2)) := by
  unfold mkGaussian ensureMinEps
  rw [max_eq_right h.1, max_eq_right h.2]

variable {ds : List ℤ} {ss ls gs os : List ℝ}

theorem bucketKernels_proper (hv : ProperValues ds ss ls gs os) {k : NumKernel} (hk : k ∈ bucketKernels ds ss ls gs os) : k.Proper := by
  have heps : 0 < floatEps := by norm_num [floatEps]
  simp only [bucketKernels, List.mem_cons, List.mem_append, List.mem_map] at hk
  rcases hk with rfl | (((⟨d, hd, rfl⟩ | ⟨σ, hσ, rfl⟩) | ⟨g, hg, rfl⟩) | ⟨g, hg, rfl⟩) | ⟨o, ho, rfl⟩
  · trivial
  · exact ⟨hv.degrees_pos d hd, rfl, rfl⟩
  · rw [mkGaussian_proper (hv.sigma_range σ hσ)]
    exact ⟨heps.trans_le (hv.sigma_range σ hσ).1, rfl⟩
  · exact hv.laplace_pos g hg
  · exact hv.gamma_pos g hg
  · exact one_pos

theorem bucketKernels_nodup (hv : ProperValues ds ss ls gs os) : (bucketKernels ds ss ls gs os).Nodup := by
  obtain ⟨h1, h2, h3, h4, h5⟩ := hv.nodup
  have n1 : (ds.map fun d => NumKernel.poly d 1 1).Nodup := h1.map fun a b h => by injection h
  have n2 : (ss.map mkGaussian).Nodup := h2.map_on fun a ha b hb h => by
    rw [mkGaussian_proper (hv.sigma_range a ha), mkGaussian_proper (hv.sigma_range b hb)] at h
    injection h
  have n3 : (ls.map NumKernel.laplacian).Nodup := h3.map fun a b h => by injection h
  have n4 : (gs.map fun g => NumKernel.sigmoid g 1).Nodup := h4.map fun a b h => by injection h
  have n5 : (os.map fun o => NumKernel.sigmoid 1 o).Nodup := h5.map fun a b h => by injection h
  unfold bucketKernels
  refine List.nodup_cons.2 ⟨?_, List.nodup_append.2 ⟨List.nodup_append.2 ⟨List.nodup_append.2 ⟨List.nodup_append.2 ⟨n1, n2, ?_⟩, n3, ?_⟩, n4, ?_⟩, n5, ?_⟩⟩
  · simp [mkGaussian]
  all_goals
    intro a ha b hb e
    subst e
    simp only [List.mem_append, List.mem_map, mkGaussian] at ha hb
  · obtain ⟨_, -, rfl⟩ := ha
    obtain ⟨_, -, h⟩ := hb
    cases h
  · obtain ⟨_, -, rfl⟩ := hb
    rcases ha with ⟨_, -, h⟩ | ⟨_, -, h⟩ <;> cases h
  · obtain ⟨_, -, rfl⟩ := hb
    rcases ha with (⟨_, -, h⟩ | ⟨_, -, h⟩) | ⟨_, -, h⟩ <;> cases h
  · obtain ⟨o, ho, rfl⟩ := hb
    rcases ha with ((⟨_, -, h⟩ | ⟨_, -, h⟩) | ⟨_, -, h⟩) | ⟨g, hg, h⟩
    · cases h
    · cases h
    · cases h
    · injection h with e1 e2
      subst e1 e2
      exact hv.once ⟨hg, ho⟩

/-- the objects of a bucket with given lists of parameter values -/
theorem numeric_bucket_real {X : Type} (norm skip : Bool) {vals : BucketValues NumVal} (h1 : vals.polyDegree.Ints ds)
    (h2 : vals.rbfSigma.Reals ss) (h3 : vals.laplaceGamma.Reals ls) (h4 : vals.sigmoidGamma.Reals gs) (h5 : vals.sigmoidOffset.Reals os) (h : Heap LibKernel X) :
    ∃ b h' ks, mkBucket numericLib (some norm) (some skip) vals h = (.ok b, h') ∧ b.set.numSamples = .unset ∧
      SetSt.Grown ⟨h, ⟨[], .unset, true⟩⟩ ⟨h', b.set⟩ norm ks ∧ ks.map (·.kernel) = bucketKernels ds ss ls gs os ∧
      ks = ⟨.linear, false⟩ :: (bucketKernels ds ss ls gs os).tail.map fun k => ⟨k, skip⟩ := by
  have real : ∀ {a : ValuesArg NumVal} {l : List ℝ}, a.Reals l → a.Lists (l.map .real) := fun {a l} h => by
    rcases h with ⟨h, rfl⟩ | ⟨h, hl⟩
    · exact .inl ⟨h, rfl⟩
    · exact .inr ⟨h, by simpa using hl⟩
  have int : ∀ {a : ValuesArg NumVal} {l : List ℤ}, a.Ints l → a.Lists (l.map .int) := fun {a l} h => by
    rcases h with ⟨h, rfl⟩ | ⟨h, hl⟩
    · exact .inl ⟨h, rfl⟩
    · exact .inr ⟨h, by simpa using hl⟩
  obtain ⟨b, h', e, hn, -, g⟩ := C40_contents (X := X) numericLib norm skip vals (int h1) (real h2) (real h3) (real h4) (real h5) h
  rw [built_map (numericLib.poly skip "degree") NumVal.int (fun d => ⟨.poly d 1 1, skip⟩) (fun _ => rfl),
    built_map (numericLib.gaussian skip "sigma") NumVal.real (fun e => ⟨mkGaussian e, skip⟩) (fun _ => rfl),
    built_map (numericLib.laplacian skip "gamma") NumVal.real (fun e => ⟨.laplacian e, skip⟩) (fun _ => rfl),
    built_map (numericLib.sigmoid skip "gamma") NumVal.real (fun e => ⟨.sigmoid e 1, skip⟩) (fun _ => rfl),
    built_map (numericLib.sigmoid skip "offset") NumVal.real (fun o => ⟨.sigmoid 1 o, skip⟩) (fun _ => rfl)] at g
  refine ⟨b, h', _, e, hn, g, ?_, ?_⟩
  · simp only [List.map_cons, List.map_append, List.map_map, bucketKernels]
    rfl
  · simp only [bucketKernels, List.tail_cons, List.map_append, List.map_map]
    rfl

/-- powers of two other than 1, and any offsets -/
theorem powers_proper {ds es ls gs : List ℤ} {os : List ℝ} (hd : ds.Nodup ∧ ∀ d ∈ ds, 1 ≤ d) (he : es.Nodup ∧ ∀ e ∈ es, -5 ≤ e ∧ e ≤ 5) (hl : ls.Nodup) (hg : gs.Nodup ∧ 0 ∉ gs)
    (ho : os.Nodup) : ProperValues ds (es.map fun e => (2 : ℝ) ^ e) (ls.map fun e => (2 : ℝ) ^ e) (gs.map fun e => (2 : ℝ) ^ e) os := by
  have inj : Function.Injective fun e : ℤ => (2 : ℝ) ^ e := zpow_right_injective₀ (by norm_num) (by norm_num)
  have pos : ∀ {l : List ℤ}, ∀ g ∈ l.map (fun e => (2 : ℝ) ^ e), 0 < g := fun {l} g hg => by
    obtain ⟨e, -, rfl⟩ := List.mem_map.1 hg
    positivity
  refine ⟨⟨hd.1, he.1.map inj, hl.map inj, hg.1.map inj, ho⟩, hd.2, ?_, pos, pos, ?_⟩
  · intro s hs
    obtain ⟨e, hm, rfl⟩ := List.mem_map.1 hs
    obtain ⟨h1, h2⟩ := he.2 e hm
    have heps : floatEps ≤ 1 / 2048 := by norm_num [floatEps]
    have g1 : (2 : ℝ) ^ (-5 : ℤ) ≤ 2 ^ e := zpow_le_zpow_right₀ one_le_two h1
    have g2 : (2 : ℝ) ^ e ≤ 2 ^ (5 : ℤ) := zpow_le_zpow_right₀ one_le_two h2
    norm_num at g1 g2
    refine ⟨heps.trans (le_trans (by norm_num) g1), heps.trans ?_⟩
    have hp : (0 : ℝ) < 2 ^ e := by positivity
    rw [div_le_div_iff₀ (by norm_num) (by positivity)]
    nlinarith
  · rintro ⟨h, -⟩
    obtain ⟨e, hm, h⟩ := List.mem_map.1 h
    have h0 : e = 0 := inj (h.trans (zpow_zero _).symm)
    exact hg.2 (h0 ▸ hm)

end KMethods
