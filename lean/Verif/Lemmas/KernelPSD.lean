import Verif.Lemmas.PSD
import Mathlib.Analysis.SpecialFunctions.Exponential
import Mathlib.Analysis.SpecificLimits.Basic
/-!
# Positive semidefinite kernels on real vectors
-/
namespace KMethods
open Finset
variable {n d : Nat}

/-- entrywise exponential -/
theorem IsPSD.exp {A : Matrix (Fin n) (Fin n) ℝ} (hA : IsPSD A) : IsPSD fun i j => Real.exp (A i j) := by
  refine isPSD_of_tendsto (A := fun N i j => ∑ k ∈ range N, (1 / (k.factorial : ℝ)) * A i j ^ k) (fun N => ?_) fun i j => ?_
  · exact isPSD_finset_sum _ fun k _ => (hA.pow k).smul (by positivity)
  · have := (NormedSpace.expSeries_div_hasSum_exp (A i j)).tendsto_sum_nat
    rw [← Real.exp_eq_exp_ℝ] at this
    refine this.congr fun N => sum_congr rfl fun k _ => by ring

/-- `min (s i) (s j)` for non-negative `s` -/
theorem isPSD_min (s : Fin n → ℝ) (hs : ∀ i, 0 ≤ s i) : IsPSD fun i j => min (s i) (s j) := by
  generalize hc : (univ.filter fun i => s i ≠ 0).card = c
  induction c using Nat.strong_induction_on generalizing s with
  | _ c ih =>
    by_cases h0 : (univ.filter fun i => s i ≠ 0).Nonempty
    · obtain ⟨a, ha, hmin⟩ := exists_min_image _ s h0
      have ha0 : s a ≠ 0 := by simpa using ha
      have hapos : 0 < s a := lt_of_le_of_ne (hs a) (Ne.symm ha0)
      have hle : ∀ i, s i ≠ 0 → s a ≤ s i := fun i hi => hmin i (by simpa using hi)
      let s' : Fin n → ℝ := fun i => if s i = 0 then 0 else s i - s a
      have h1 := ih (univ.filter fun i => s' i ≠ 0).card (by
        rw [← hc]
        refine card_lt_card ⟨?_, ?_⟩
        · intro i hi
          simp only [mem_filter, mem_univ, true_and, s'] at hi ⊢
          intro h; exact hi (if_pos h)
        · intro h
          have := h ha
          simp [s'] at this) s' (by
        intro i
        simp only [s']
        split
        · exact le_rfl
        · rename_i h; exact sub_nonneg.2 (hle i h)) rfl
      have h2 := ((isPSD_rank_one fun i => if s i = 0 then (0:ℝ) else 1).smul hapos.le).add h1
      have e : (fun i j => s a * ((if s i = 0 then (0:ℝ) else 1) * (if s j = 0 then (0:ℝ) else 1)) + min (s' i) (s' j)) =
          fun i j => min (s i) (s j) := by
        funext i j
        simp only [s']
        have hi := hs i
        have hj := hs j
        by_cases h3 : s i = 0
        · by_cases h4 : s j = 0
          · simp [h3, h4]
          · simp [h3, h4, hj, hle j h4]
        · by_cases h4 : s j = 0
          · simp [h3, h4, hi, hle i h3]
          · simp only [h3, h4, if_false, mul_one]
            rw [min_sub_sub_right]; ring
      rwa [e] at h2
    · rw [not_nonempty_iff_eq_empty, filter_eq_empty_iff] at h0
      have : ∀ i, s i = 0 := fun i => by simpa using h0 (mem_univ i)
      simpa [this] using isPSD_zero

/-- `1[s i = s j]` -/
theorem isPSD_indicator {α : Type} [DecidableEq α] (s : Fin n → α) :
    IsPSD fun i j => if s i = s j then (1:ℝ) else 0 := by
  have := isPSD_finset_sum (univ.image s) (A := fun v i j => (if s i = v then (1:ℝ) else 0) * (if s j = v then 1 else 0))
    fun v _ => isPSD_rank_one _
  have e : (fun i j => ∑ v ∈ univ.image s, (if s i = v then (1:ℝ) else 0) * (if s j = v then 1 else 0)) =
      fun i j => if s i = s j then (1:ℝ) else 0 := by
    funext i j
    rw [sum_eq_single (s i)]
    · simp [eq_comm]
    · intro v _ hv; rw [if_neg (Ne.symm hv), zero_mul]
    · intro h; exact absurd (mem_image_of_mem s (mem_univ i)) h
  rwa [e] at this

theorem abs_phi_lt {a : ℝ} (ha : 0 < a) : |(1 - a) / (1 + a)| < 1 := by
  rw [abs_div, abs_of_pos (by linarith : (0:ℝ) < 1 + a), div_lt_one (by linarith), abs_lt]
  constructor <;> linarith

/-- half the harmonic mean, `a b / (a + b)` -/
theorem isPSD_harmonic (s : Fin n → ℝ) (hs : ∀ i, 0 ≤ s i) : IsPSD fun i j => s i * s j / (s i + s j) := by
  refine isPSD_of_tendsto (A := fun N i j => ∑ k ∈ range N, 2 * ((s i / (1 + s i) * ((1 - s i) / (1 + s i)) ^ k) *
    (s j / (1 + s j) * ((1 - s j) / (1 + s j)) ^ k))) (fun N => ?_) fun i j => ?_
  · exact isPSD_finset_sum _ fun k _ => (isPSD_rank_one fun i => s i / (1 + s i) * ((1 - s i) / (1 + s i)) ^ k).smul (by norm_num)
  · rcases (hs i).eq_or_lt with hi | hi
    · simp [← hi]
    rcases (hs j).eq_or_lt with hj | hj
    · simp [← hj]
    set a := s i
    set b := s j
    have h1 : |(1 - a) / (1 + a) * ((1 - b) / (1 + b))| < 1 := by
      rw [abs_mul]
      exact mul_lt_one_of_nonneg_of_lt_one_left (abs_nonneg _) (abs_phi_lt hi) (abs_phi_lt hj).le
    have h2 := ((hasSum_geometric_of_abs_lt_one h1).mul_left (2 * (a / (1 + a)) * (b / (1 + b)))).tendsto_sum_nat
    have e : 2 * (a / (1 + a)) * (b / (1 + b)) * (1 - (1 - a) / (1 + a) * ((1 - b) / (1 + b)))⁻¹ = a * b / (a + b) := by
      have ha : 1 + a ≠ 0 := by linarith
      have hb : 1 + b ≠ 0 := by linarith
      have hab : a + b ≠ 0 := by linarith
      have : 1 - (1 - a) / (1 + a) * ((1 - b) / (1 + b)) = 2 * (a + b) / ((1 + a) * (1 + b)) := by
        field_simp; ring
      rw [this]
      field_simp
    rw [e] at h2
    refine h2.congr fun N => sum_congr rfl fun k _ => ?_
    rw [mul_pow]; ring

/-- `∑_k x_k y_k` -/
theorem isPSD_dot (x : Fin n → Fin d → ℝ) : IsPSD fun i j => ∑ k, x i k * x j k :=
  isPSD_finset_sum _ fun k _ => isPSD_rank_one fun i => x i k

theorem isPSD_gaussian {γ : ℝ} (hγ : 0 ≤ γ) (x : Fin n → Fin d → ℝ) :
    IsPSD fun i j => Real.exp (-γ * ∑ k, (x i k - x j k) ^ 2) := by
  have := (((isPSD_dot x).smul (by linarith : 0 ≤ 2 * γ)).exp).scale fun i => Real.exp (-γ * ∑ k, x i k ^ 2)
  have e : (fun i j => Real.exp (-γ * ∑ k, x i k ^ 2) * Real.exp (2 * γ * ∑ k, x i k * x j k) *
      Real.exp (-γ * ∑ k, x j k ^ 2)) = fun i j => Real.exp (-γ * ∑ k, (x i k - x j k) ^ 2) := by
    funext i j
    rw [← Real.exp_add, ← Real.exp_add]
    congr 1
    rw [mul_sum, mul_sum, mul_sum, mul_sum, ← sum_add_distrib, ← sum_add_distrib]
    exact sum_congr rfl fun k _ => by ring
  rwa [e] at this

theorem isPSD_laplacian1 {γ : ℝ} (hγ : 0 ≤ γ) (x : Fin n → ℝ) : IsPSD fun i j => Real.exp (-γ * |x i - x j|) := by
  have := (isPSD_min (fun i => Real.exp (2 * γ * x i)) fun i => (Real.exp_pos _).le).scale fun i => Real.exp (-γ * x i)
  have e : (fun i j => Real.exp (-γ * x i) * min (Real.exp (2 * γ * x i)) (Real.exp (2 * γ * x j)) * Real.exp (-γ * x j)) =
      fun i j => Real.exp (-γ * |x i - x j|) := by
    funext i j
    rcases le_total (x i) (x j) with h | h
    · rw [min_eq_left (Real.exp_le_exp.2 (mul_le_mul_of_nonneg_left h (by linarith))), abs_of_nonpos (by linarith),
        ← Real.exp_add, ← Real.exp_add]
      congr 1; ring
    · rw [min_eq_right (Real.exp_le_exp.2 (mul_le_mul_of_nonneg_left h (by linarith))), abs_of_nonneg (by linarith),
        ← Real.exp_add, ← Real.exp_add]
      congr 1; ring
  rwa [e] at this

theorem isPSD_laplacian {γ : ℝ} (hγ : 0 ≤ γ) (x : Fin n → Fin d → ℝ) :
    IsPSD fun i j => Real.exp (-γ * ∑ k, |x i k - x j k|) := by
  have := isPSD_finset_prod univ (A := fun k i j => Real.exp (-γ * |x i k - x j k|)) fun k _ =>
    isPSD_laplacian1 hγ fun i => x i k
  have e : (fun i j => ∏ k, Real.exp (-γ * |x i k - x j k|)) = fun i j => Real.exp (-γ * ∑ k, |x i k - x j k|) := by
    funext i j
    rw [← Real.exp_sum, mul_sum]
  rwa [e] at this

theorem isPSD_chi2 {γ : ℝ} (hγ : 0 ≤ γ) (x : Fin n → Fin d → ℝ) (hx : ∀ i k, 0 ≤ x i k) :
    IsPSD fun i j => Real.exp (-γ * ∑ k, (x i k - x j k) ^ 2 / (x i k + x j k)) := by
  have h1 := isPSD_finset_sum univ (A := fun k i j => x i k * x j k / (x i k + x j k)) fun k _ =>
    isPSD_harmonic (fun i => x i k) fun i => hx i k
  have := ((h1.smul (by linarith : 0 ≤ 4 * γ)).exp).scale fun i => Real.exp (-γ * ∑ k, x i k)
  have e : (fun i j => Real.exp (-γ * ∑ k, x i k) * Real.exp (4 * γ * ∑ k, x i k * x j k / (x i k + x j k)) *
      Real.exp (-γ * ∑ k, x j k)) = fun i j => Real.exp (-γ * ∑ k, (x i k - x j k) ^ 2 / (x i k + x j k)) := by
    funext i j
    rw [← Real.exp_add, ← Real.exp_add]
    congr 1
    rw [mul_sum, mul_sum, mul_sum, mul_sum, ← sum_add_distrib, ← sum_add_distrib]
    refine sum_congr rfl fun k _ => ?_
    by_cases h0 : x i k + x j k = 0
    · have h1 := hx i k
      have h2 := hx j k
      have h3 : x i k = 0 := by linarith
      have h4 : x j k = 0 := by linarith
      simp [h3, h4]
    · field_simp; ring
  rwa [e] at this

end KMethods
