import Verif.Spec.Distance
import Verif.Lemmas.Kernels
import Mathlib.Analysis.InnerProductSpace.PiL2
import Mathlib.Analysis.Calculus.MeanValue
import Mathlib.Analysis.Calculus.Deriv.Inv
import Mathlib.Analysis.SpecialFunctions.Pow.Continuity
/-! Lipschitz bounds for the kernel functions. -/
namespace KMethods
open F
variable {d : Nat}

theorem exp_neg_lipschitz {a b : ℝ} (ha : 0 ≤ a) (hb : 0 ≤ b) : |Real.exp (-a) - Real.exp (-b)| ≤ |a - b| := by
  wlog h : a ≤ b generalizing a b
  · rw [abs_sub_comm, abs_sub_comm a]; exact this hb ha (le_of_not_ge h)
  have h1 : Real.exp (-b) ≤ Real.exp (-a) := Real.exp_le_exp.2 (by linarith)
  rw [abs_of_nonneg (by linarith), abs_of_nonpos (by linarith)]
  have h2 : Real.exp (-b) = Real.exp (-a) * Real.exp (-(b - a)) := by rw [← Real.exp_add]; ring_nf
  have h3 := Real.add_one_le_exp (-(b - a))
  have h4 : Real.exp (-a) ≤ 1 := Real.exp_le_one_iff.2 (by linarith)
  have h5 := Real.exp_pos (-a)
  rw [h2]
  nlinarith

theorem gauss_lipschitz (s t : ℝ) : |Real.exp (-s ^ 2) - Real.exp (-t ^ 2)| ≤ |s - t| := by
  have hd : ∀ u : ℝ, HasDerivAt (fun u => Real.exp (-u ^ 2)) (Real.exp (-u ^ 2) * (-(2 * u))) u := fun u => by
    have := ((hasDerivAt_pow 2 u).neg).exp
    simpa using this
  have := Convex.norm_image_sub_le_of_norm_hasDerivWithin_le (f := fun u : ℝ => Real.exp (-u ^ 2)) (C := 1) (s := Set.univ) (x := t) (y := s)
    (fun u _ => (hd u).hasDerivWithinAt) (fun u _ => ?_) convex_univ trivial trivial
  · simpa using this
  · rw [Real.norm_eq_abs, abs_mul, abs_of_pos (Real.exp_pos _), abs_neg]
    have h1 : |2 * u| ≤ 1 + u ^ 2 := by
      rw [abs_le]; constructor <;> nlinarith [sq_nonneg (u - 1), sq_nonneg (u + 1)]
    have h2 := Real.add_one_le_exp (u ^ 2)
    have h3 : Real.exp (-u ^ 2) * Real.exp (u ^ 2) = 1 := by rw [← Real.exp_add]; simp
    have h4 := Real.exp_pos (-u ^ 2)
    calc Real.exp (-u ^ 2) * |2 * u| ≤ Real.exp (-u ^ 2) * Real.exp (u ^ 2) := by
          apply mul_le_mul_of_nonneg_left _ h4.le; linarith
      _ = 1 := h3

theorem tanh_lipschitz (s t : ℝ) : |Real.tanh s - Real.tanh t| ≤ |s - t| := by
  have hd : ∀ u : ℝ, HasDerivAt Real.tanh (1 / Real.cosh u ^ 2) u := fun u => by
    have h := (Real.hasDerivAt_sinh u).div (Real.hasDerivAt_cosh u) (Real.cosh_pos u).ne'
    have e : (Real.sinh / Real.cosh : ℝ → ℝ) = Real.tanh := by funext v; exact (Real.tanh_eq_sinh_div_cosh v).symm
    rwa [e, show Real.cosh u * Real.cosh u - Real.sinh u * Real.sinh u = 1 by nlinarith [Real.cosh_sq u]] at h
  have := Convex.norm_image_sub_le_of_norm_hasDerivWithin_le (f := Real.tanh) (C := 1) (s := Set.univ) (x := t) (y := s)
    (fun u _ => (hd u).hasDerivWithinAt) (fun u _ => ?_) convex_univ trivial trivial
  · simpa using this
  · rw [Real.norm_eq_abs, abs_of_nonneg (by positivity), div_le_one (by have := Real.cosh_pos u; positivity)]
    have := Real.one_le_cosh u
    nlinarith

/-! ## distances -/

theorem length2_eq (x : Fin d → ℝ) : length2 x = ‖WithLp.toLp 2 x‖ := by
  rw [length2, EuclideanSpace.norm_eq]; simp

theorem dist2_eq (x y : Fin d → ℝ) : dist2 x y = dist (WithLp.toLp 2 x) (WithLp.toLp 2 y) := by
  rw [dist2, EuclideanSpace.dist_eq]; simp [Real.dist_eq]

theorem dist2_quad (x y x' y' : Fin d → ℝ) : |dist2 x y - dist2 x' y'| ≤ dist2 x x' + dist2 y y' := by
  simp only [dist2_eq]
  have := dist_dist_dist_le (WithLp.toLp 2 x) (WithLp.toLp 2 y) (WithLp.toLp 2 x') (WithLp.toLp 2 y')
  rwa [Real.dist_eq] at this

theorem dist1_quad (x y x' y' : Fin d → ℝ) : |dist1 x y - dist1 x' y'| ≤ dist1 x x' + dist1 y y' := by
  unfold dist1
  rw [← Finset.sum_sub_distrib, ← Finset.sum_add_distrib]
  refine (Finset.abs_sum_le_sum_abs _ _).trans (Finset.sum_le_sum fun k _ => ?_)
  refine (abs_abs_sub_abs_le_abs_sub _ _).trans ?_
  have : x k - y k - (x' k - y' k) = (x k - x' k) - (y k - y' k) := by ring
  rw [this]
  exact abs_sub _ _

theorem dot_inner (x y : Fin d → ℝ) : ∑ k, x k * y k = inner ℝ (WithLp.toLp 2 x) (WithLp.toLp 2 y) := by
  rw [PiLp.inner_apply]
  exact Finset.sum_congr rfl fun k _ => by simp [_root_.mul_comm]

theorem dot_change (x y x' y' : Fin d → ℝ) : |∑ k, x k * y k - ∑ k, x' k * y' k| ≤ dotChange x y x' y' := by
  rw [dotChange, dot_inner, dot_inner, length2_eq, length2_eq, dist2_eq, dist2_eq, dist_eq_norm, dist_eq_norm]
  have e : inner ℝ (WithLp.toLp 2 x) (WithLp.toLp 2 y) - inner ℝ (WithLp.toLp 2 x') (WithLp.toLp 2 y') =
      inner ℝ (WithLp.toLp 2 x - WithLp.toLp 2 x') (WithLp.toLp 2 y) + inner ℝ (WithLp.toLp 2 x') (WithLp.toLp 2 y - WithLp.toLp 2 y') := by
    rw [inner_sub_left, inner_sub_right]; ring
  rw [e]
  exact (abs_add_le _ _).trans (add_le_add (abs_real_inner_le_norm _ _) (abs_real_inner_le_norm _ _))

/-! ## fractions -/

/-- `ab / (a + b)`, with value 0 at `a = b = 0` -/
theorem harmonic_one {a a' b : ℝ} (ha : 0 ≤ a) (ha' : 0 ≤ a') (hb : 0 ≤ b) :
    ∃ r, 0 ≤ r ∧ r ≤ 1 ∧ a * b / (a + b) - a' * b / (a' + b) = r * (a - a') := by
  rcases hb.eq_or_lt with rfl | hb
  · exact ⟨0, le_rfl, zero_le_one, by simp⟩
  · have h1 : 0 < a + b := by linarith
    have h2 : 0 < a' + b := by linarith
    refine ⟨b ^ 2 / ((a + b) * (a' + b)), by positivity, ?_, ?_⟩
    · rw [div_le_one (by positivity)]; nlinarith
    · field_simp; ring

theorem harmonic_two {a a' b b' : ℝ} (ha : 0 ≤ a) (ha' : 0 ≤ a') (hb : 0 ≤ b) (hb' : 0 ≤ b') :
    |a * b / (a + b) - a' * b' / (a' + b')| ≤ |a - a'| + |b - b'| := by
  obtain ⟨r, h0, h1, e⟩ := harmonic_one ha ha' hb
  obtain ⟨q, g0, g1, f⟩ := harmonic_one hb hb' ha'
  have f' : a' * b / (a' + b) - a' * b' / (a' + b') = q * (b - b') := by
    rw [← f, _root_.mul_comm b, _root_.mul_comm b', add_comm b, add_comm b']
  have : a * b / (a + b) - a' * b' / (a' + b') = r * (a - a') + q * (b - b') := by linarith
  rw [this]
  refine (abs_add_le _ _).trans (add_le_add ?_ ?_) <;> rw [abs_mul, abs_of_nonneg ‹_›]
  · exact mul_le_of_le_one_left (abs_nonneg _) h1
  · exact mul_le_of_le_one_left (abs_nonneg _) g1

theorem chi2_frac {a b : ℝ} (ha : 0 ≤ a) (hb : 0 ≤ b) : (a - b) ^ 2 / (a + b) = a + b - 4 * (a * b / (a + b)) := by
  rcases (add_nonneg ha hb).eq_or_lt with h | h
  · have h1 : a = 0 := by linarith
    have h2 : b = 0 := by linarith
    simp [h1, h2]
  · field_simp; ring

theorem chi2_two {a a' b b' : ℝ} (ha : 0 ≤ a) (ha' : 0 ≤ a') (hb : 0 ≤ b) (hb' : 0 ≤ b') :
    |(a - b) ^ 2 / (a + b) - (a' - b') ^ 2 / (a' + b')| ≤ 3 * (|a - a'| + |b - b'|) := by
  obtain ⟨r, h0, h1, e⟩ := harmonic_one ha ha' hb
  obtain ⟨q, g0, g1, f⟩ := harmonic_one hb hb' ha'
  have f' : a' * b / (a' + b) - a' * b' / (a' + b') = q * (b - b') := by
    rw [← f, _root_.mul_comm b, _root_.mul_comm b', add_comm b, add_comm b']
  have : (a - b) ^ 2 / (a + b) - (a' - b') ^ 2 / (a' + b') = (1 - 4 * r) * (a - a') + (1 - 4 * q) * (b - b') := by
    rw [chi2_frac ha hb, chi2_frac ha' hb']; linarith
  rw [this, mul_add]
  refine (abs_add_le _ _).trans (add_le_add ?_ ?_) <;> rw [abs_mul] <;>
    exact mul_le_mul_of_nonneg_right (abs_le.2 ⟨by linarith, by linarith⟩) (abs_nonneg _)

/-! ## kernels -/

theorem sum_chi2_nonneg {x y : Fin d → ℝ} (hx : ∀ k, 0 ≤ x k) (hy : ∀ k, 0 ≤ y k) : 0 ≤ ∑ k, (x k - y k) ^ 2 / (x k + y k) :=
  Finset.sum_nonneg fun k _ => div_nonneg (sq_nonneg _) (add_nonneg (hx k) (hy k))

theorem kernel_change {k : NumKernel} {x y x' y' : Fin d → ℝ} (hx : k.MeantFor x) (hy : k.MeantFor y) (hx' : k.MeantFor x') (hy' : k.MeantFor y') :
    ∃ v v', k.on x y = .ok (.real v) ∧ k.on x' y' = .ok (.real v') ∧ |v - v'| ≤ k.change x y x' y' := by
  cases k with
  | hadamard α =>
    refine ⟨_, _, on_hadamard (.inl hx), on_hadamard (.inl hx), ?_⟩
    rw [NumKernel.change, ← Finset.sum_sub_distrib, Finset.mul_sum]
    refine (Finset.abs_sum_le_sum_abs _ _).trans (Finset.sum_le_sum fun i _ => ?_)
    rw [← mul_sub, abs_mul, abs_of_pos (by norm_num : (0:ℝ) < 1 / 2)]
    have hn : ∀ t : ℝ, 0 ≤ |t| ^ α := fun t => Real.rpow_nonneg (abs_nonneg _) _
    exact mul_le_mul_of_nonneg_left (harmonic_two (hn _) (hn _) (hn _) (hn _)) (by norm_num)
  | poly deg γ b =>
    obtain ⟨p, rfl⟩ := Int.eq_ofNat_of_zero_le hx
    refine ⟨_, _, on_poly _ _ _ _ _, on_poly _ _ _ _ _, ?_⟩
    have h1 := abs_pow_sub_pow_le (b + γ * ∑ i, x i * y i) (b + γ * ∑ i, x' i * y' i) p
    refine h1.trans ?_
    have h2 := dot_change x y x' y'
    have e : b + γ * ∑ i, x i * y i - (b + γ * ∑ i, x' i * y' i) = γ * (∑ i, x i * y i - ∑ i, x' i * y' i) := by ring
    rw [e, abs_mul, NumKernel.change, Int.toNat_natCast]
    have h3 : (0:ℝ) ≤ max |b + γ * ∑ i, x i * y i| |b + γ * ∑ i, x' i * y' i| := le_max_of_le_left (abs_nonneg _)
    calc _ = (p : ℝ) * max |b + γ * ∑ i, x i * y i| |b + γ * ∑ i, x' i * y' i| ^ (p - 1) * (|γ| * |∑ i, x i * y i - ∑ i, x' i * y' i|) := by ring
      _ ≤ _ := by gcongr
  | gaussian σ γ =>
    refine ⟨_, _, on_gaussian _ _ _ _, on_gaussian _ _ _ _, ?_⟩
    have e : ∀ x y : Fin d → ℝ, -γ * ∑ k, (x k - y k) ^ 2 = -(Real.sqrt γ * dist2 x y) ^ 2 := fun x y => by
      rw [mul_pow, Real.sq_sqrt hx, dist2, Real.sq_sqrt (Finset.sum_nonneg fun k _ => sq_nonneg _)]; ring
    rw [e, e]
    refine (gauss_lipschitz _ _).trans ?_
    rw [← mul_sub, abs_mul, abs_of_nonneg (Real.sqrt_nonneg _)]
    exact mul_le_mul_of_nonneg_left (dist2_quad x y x' y') (Real.sqrt_nonneg _)
  | laplacian γ =>
    refine ⟨_, _, on_laplacian _ _ _, on_laplacian _ _ _, ?_⟩
    have h0 : ∀ x y : Fin d → ℝ, 0 ≤ γ * ∑ k, |x k - y k| := fun x y => mul_nonneg hx (Finset.sum_nonneg fun k _ => abs_nonneg _)
    rw [neg_mul, neg_mul]
    refine (exp_neg_lipschitz (h0 _ _) (h0 _ _)).trans ?_
    rw [← mul_sub, abs_mul, abs_of_nonneg (show 0 ≤ γ from hx)]
    exact mul_le_mul_of_nonneg_left (dist1_quad x y x' y') hx
  | chi2 γ =>
    refine ⟨_, _, on_chi2 _ hx.2 hy.2, on_chi2 _ hx'.2 hy'.2, ?_⟩
    rw [neg_mul, neg_mul]
    refine (exp_neg_lipschitz (mul_nonneg hx.1 (sum_chi2_nonneg hx.2 hy.2)) (mul_nonneg hx.1 (sum_chi2_nonneg hx'.2 hy'.2))).trans ?_
    rw [← mul_sub, abs_mul, abs_of_nonneg hx.1, NumKernel.change, _root_.mul_comm 3 γ, mul_assoc]
    refine mul_le_mul_of_nonneg_left ?_ hx.1
    rw [← Finset.sum_sub_distrib, dist1, dist1, ← Finset.sum_add_distrib, Finset.mul_sum]
    exact (Finset.abs_sum_le_sum_abs _ _).trans (Finset.sum_le_sum fun i _ => chi2_two (hx.2 i) (hx'.2 i) (hy.2 i) (hy'.2 i))
  | sigmoid γ o =>
    refine ⟨_, _, on_sigmoid _ _ _ _, on_sigmoid _ _ _ _, ?_⟩
    refine (tanh_lipschitz _ _).trans ?_
    rw [add_sub_add_left_eq_sub, ← mul_sub, abs_mul]
    exact mul_le_mul_of_nonneg_left (dot_change _ _ _ _) (abs_nonneg _)
  | linear => exact ⟨_, _, on_linear _ _, on_linear _ _, dot_change _ _ _ _⟩

/-- the allowed change vanishes as the arguments come close -/
theorem change_continuous (k : NumKernel) (hk : ∀ α, k = .hadamard α → 0 < α) (x y : Fin d → ℝ) :
    Continuous fun p : (Fin d → ℝ) × (Fin d → ℝ) => k.change x y p.1 p.2 := by
  have h1 : Continuous fun p : (Fin d → ℝ) × (Fin d → ℝ) => dotChange x y p.1 p.2 := by
    unfold dotChange dist2 length2; fun_prop
  cases k with
  | hadamard α =>
    have hα := hk α rfl
    have hr : Continuous fun t : ℝ => |t| ^ α := continuous_abs.rpow_const fun _ => .inr hα.le
    unfold NumKernel.change
    dsimp only
    have hr1 : ∀ i, Continuous fun p : (Fin d → ℝ) × (Fin d → ℝ) => |p.1 i| ^ α := fun i => hr.comp (by fun_prop)
    have hr2 : ∀ i, Continuous fun p : (Fin d → ℝ) × (Fin d → ℝ) => |p.2 i| ^ α := fun i => hr.comp (by fun_prop)
    fun_prop
  | poly deg γ b => unfold NumKernel.change; dsimp only; fun_prop
  | gaussian σ γ => unfold NumKernel.change dist2; dsimp only; fun_prop
  | laplacian γ => unfold NumKernel.change dist1; dsimp only; fun_prop
  | chi2 γ => unfold NumKernel.change dist1; dsimp only; fun_prop
  | sigmoid γ o => unfold NumKernel.change; dsimp only; fun_prop
  | linear => exact h1

theorem change_self (k : NumKernel) (x y : Fin d → ℝ) : k.change x y x y = 0 := by
  have h2 : ∀ x : Fin d → ℝ, dist2 x x = 0 := fun x => by simp [dist2]
  have h1 : ∀ x : Fin d → ℝ, dist1 x x = 0 := fun x => by simp [dist1]
  have h : dotChange x y x y = 0 := by simp [dotChange, h2]
  cases k <;> simp [NumKernel.change, h, h1, h2]

theorem mean_close {n : Nat} {f g : Fin n → ℝ} {ε : ℝ} (h : ∀ i, |f i - g i| ≤ ε) (hn : 0 < n) : |(∑ i, f i) / n - (∑ i, g i) / n| ≤ ε := by
  have hn' : (0:ℝ) < n := Nat.cast_pos.2 hn
  rw [← sub_div, ← Finset.sum_sub_distrib, abs_div, abs_of_pos hn', div_le_iff₀ hn']
  refine (Finset.abs_sum_le_sum_abs _ _).trans ((Finset.sum_le_sum fun i _ => h i).trans ?_)
  simp [_root_.mul_comm]

theorem centered_close {n : Nat} {K K' : Matrix (Fin n) (Fin n) ℝ} {ε : ℝ} (h : ∀ i j, |K i j - K' i j| ≤ ε) (i j : Fin n) :
    |centered K i j - centered K' i j| ≤ 4 * ε := by
  have hn : 0 < n := i.pos
  have h1 := h i j
  have h2 := mean_close (fun l => h i l) hn
  have h3 := mean_close (fun l => h l j) hn
  have h4 := mean_close (fun a => mean_close (fun b => h a b) hn) hn
  simp only [← Finset.sum_div, div_div] at h4
  unfold centered
  rw [abs_le] at *
  constructor <;> linarith [h1.1, h1.2, h2.1, h2.2, h3.1, h3.2, h4.1, h4.2]

end KMethods
