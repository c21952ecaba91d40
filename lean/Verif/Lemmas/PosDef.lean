import Verif.Lemmas.KernelPSD
import Verif.Spec.PosDef
import Mathlib.Analysis.Matrix.Order
import Mathlib.Data.Nat.Choose.Multinomial
import Mathlib.Data.Sym.Card
import Mathlib.LinearAlgebra.Vandermonde
import Mathlib.Algebra.Module.Submodule.Union
/-! # Strictly positive definite kernels -/
namespace KMethods
open Finset
variable {n d : Nat}

/-- a matrix bordered by one more row and column -/
def border (A : Matrix (Fin n) (Fin n) ℝ) (v : Fin n → ℝ) (q : ℝ) : Matrix (Fin (n + 1)) (Fin (n + 1)) ℝ :=
  fun i j => (Fin.cons (Fin.cons q v) (fun i => Fin.cons (v i) (A i)) : Fin (n + 1) → Fin (n + 1) → ℝ) i j

theorem border_form (A : Matrix (Fin n) (Fin n) ℝ) (v : Fin n → ℝ) (q s : ℝ) (c : Fin n → ℝ) :
    ∑ i, ∑ j, (Fin.cons s c : Fin (n + 1) → ℝ) i * border A v q i j * (Fin.cons s c : Fin (n + 1) → ℝ) j =
      s ^ 2 * q + 2 * s * (∑ i, c i * v i) + ∑ i, ∑ j, c i * A i j * c j := by
  simp only [Fin.sum_univ_succ, border, Fin.cons_zero, Fin.cons_succ, sum_add_distrib]
  rw [show (∑ x, s * v x * c x) = s * ∑ i, c i * v i by rw [mul_sum]; exact sum_congr rfl fun i _ => by ring,
    show (∑ x, c x * v x * s) = s * ∑ i, c i * v i by rw [mul_sum]; exact sum_congr rfl fun i _ => by ring]
  ring

theorem border_pow (A : Matrix (Fin n) (Fin n) ℝ) (v : Fin n → ℝ) (q : ℝ) (k : Nat) :
    (fun i j => border A v q i j ^ k) = border (fun i j => A i j ^ k) (fun i => v i ^ k) (q ^ k) := by
  funext i j
  refine Fin.cases ?_ (fun i => ?_) i <;> refine Fin.cases ?_ (fun j => ?_) j <;> rfl

/-- adding a point whose feature vector is a combination of those of the others -/
theorem IsPSD.augment {A : Matrix (Fin n) (Fin n) ℝ} (hA : IsPSD A) (t : Fin n → ℝ) :
    IsPSD (border A (fun i => ∑ j, A i j * t j) (∑ i, t i * ∑ j, A i j * t j)) := by
  constructor
  · intro i j
    refine Fin.cases ?_ (fun i => ?_) i <;> refine Fin.cases ?_ (fun j => ?_) j
    · rfl
    · rfl
    · rfl
    · exact hA.1 i j
  · intro x
    rw [show x = Fin.cons (x 0) (fun i => x i.succ) from (Fin.cons_self_tail x).symm]
    generalize x 0 = s
    generalize (fun i => x (Fin.succ i)) = c
    rw [border_form]
    refine (hA.2 fun i => c i + s * t i).trans_eq ?_
    have e1 : ∀ i j, (c i + s * t i) * A i j * (c j + s * t j) = c i * A i j * c j + s * (c i * (A i j * t j)) +
        s * (c j * (A j i * t i)) + s ^ 2 * (t i * (A i j * t j)) := by
      intro i j; rw [hA.1 j i]; ring
    simp only [e1, sum_add_distrib, ← mul_sum]
    rw [show (∑ i, ∑ j, c j * (A j i * t i)) = ∑ i, c i * ∑ j, A i j * t j by
      rw [sum_comm]; exact sum_congr rfl fun i _ => by rw [mul_sum]]
    ring

/-- a quadratic without constant term that is never negative has no linear term -/
theorem linear_zero {a b : ℝ} (h : ∀ s : ℝ, 0 ≤ s ^ 2 * a + 2 * s * b) : b = 0 := by
  by_contra hb
  have ha := h (-b / (|a| + 1))
  have h1 : 0 < |a| + 1 := by positivity
  have h2 : (-b / (|a| + 1)) ^ 2 * a + 2 * (-b / (|a| + 1)) * b = b ^ 2 * (a - 2 * (|a| + 1)) / (|a| + 1) ^ 2 := by
    field_simp; ring
  rw [h2] at ha
  have h3 : b ^ 2 * (a - 2 * (|a| + 1)) < 0 := mul_neg_of_pos_of_neg (by positivity) (by linarith [le_abs_self a, abs_nonneg a])
  exact absurd (div_neg_of_neg_of_pos h3 (by positivity : 0 < (|a| + 1) ^ 2)) (not_lt.2 ha)

/-- where the form of an entrywise power vanishes -/
theorem IsPSD.pow_zero {A : Matrix (Fin n) (Fin n) ℝ} (hA : IsPSD A) (t c : Fin n → ℝ) (k : Nat)
    (h : ∑ i, ∑ j, c i * A i j ^ k * c j = 0) : ∑ i, c i * (∑ j, A i j * t j) ^ k = 0 := by
  have hp := (hA.augment t).pow k
  rw [border_pow] at hp
  refine linear_zero (a := (∑ i, t i * ∑ j, A i j * t j) ^ k) fun s => ?_
  exact (hp.2 (Fin.cons s c)).trans_eq ((border_form _ _ _ s c).trans (by rw [h, add_zero]))

/-- functionals that tell finitely many vectors apart -/
theorem exists_separating (v : Fin n → Fin d → ℝ) (hv : Function.Injective v) :
    ∃ t : Fin d → ℝ, Function.Injective fun i => ∑ j, v i j * t j := by
  obtain ⟨t, ht⟩ := Module.Dual.exists_forall_ne_zero_of_forall_exists (K := ℝ) (M := Fin d → ℝ)
    (ι := {p : Fin n × Fin n // p.1 ≠ p.2})
    (fun p => Fintype.linearCombination ℝ (fun j => v p.1.1 j - v p.1.2 j)) (by
      intro p
      have : v p.1.1 ≠ v p.1.2 := fun h => p.2 (hv h)
      obtain ⟨j, hj⟩ := Function.ne_iff.1 this
      refine ⟨Pi.single j 1, ?_⟩
      rw [Fintype.linearCombination_apply_single]
      simpa [sub_eq_zero] using hj)
  refine ⟨t, fun i j hij => ?_⟩
  by_contra h
  refine ht ⟨(i, j), h⟩ ?_
  rw [Fintype.linearCombination_apply]
  simp only [smul_eq_mul, mul_sub, sum_sub_distrib]
  rw [sub_eq_zero]
  simpa [mul_comm] using hij

/-- the exponential of a positive semidefinite matrix that tells its points apart -/
theorem IsPSD.exp_posDef {A : Matrix (Fin n) (Fin n) ℝ} (hA : IsPSD A)
    (hd : ∀ i j, i ≠ j → A i i - 2 * A i j + A j j ≠ 0) (c : Fin n → ℝ) (hc : c ≠ 0) :
    0 < ∑ i, ∑ j, c i * Real.exp (A i j) * c j := by
  refine lt_of_le_of_ne (hA.exp.2 c) fun h0 => hc ?_
  have hs : HasSum (fun k => ∑ i, ∑ j, c i * (A i j ^ k / (k.factorial : ℝ)) * c j) (∑ i, ∑ j, c i * Real.exp (A i j) * c j) := by
    refine hasSum_sum fun i _ => hasSum_sum fun j _ => ?_
    have := NormedSpace.expSeries_div_hasSum_exp (A i j)
    rw [← Real.exp_eq_exp_ℝ] at this
    exact (this.mul_left _).mul_right _
  have hk : ∀ k, ∑ i, ∑ j, c i * (A i j ^ k / (k.factorial : ℝ)) * c j = (∑ i, ∑ j, c i * A i j ^ k * c j) / (k.factorial : ℝ) := by
    intro k
    rw [sum_div]
    refine sum_congr rfl fun i _ => ?_
    rw [sum_div]
    exact sum_congr rfl fun j _ => by ring
  rw [← h0] at hs
  have hz := (hasSum_zero_iff_of_nonneg (fun k => by
    rw [hk]; exact div_nonneg ((hA.pow k).2 c) (by positivity))).1 hs
  have hz' : ∀ k, ∑ i, ∑ j, c i * A i j ^ k * c j = 0 := by
    intro k
    have := congrFun hz k
    simp only [hk, Pi.zero_apply] at this
    rcases div_eq_zero_iff.1 this with h | h
    · exact h
    · exact absurd h (by positivity)
  have hinj : Function.Injective fun i => A i := by
    intro i j hij
    by_contra hne
    refine hd i j hne ?_
    have h1 : A i i = A j i := congrFun hij i
    have h2 : A i j = A j j := congrFun hij j
    have h3 := hA.1 i j
    linarith
  obtain ⟨t, ht⟩ := exists_separating (fun i => A i) hinj
  exact Matrix.eq_zero_of_forall_pow_sum_mul_pow_eq_zero ht fun k => hA.pow_zero t c k (hz' k)

/-- the same, scaled by positive numbers -/
theorem IsPSD.exp_scale_posDef {A : Matrix (Fin n) (Fin n) ℝ} (hA : IsPSD A)
    (hd : ∀ i j, i ≠ j → A i i - 2 * A i j + A j j ≠ 0) {f : Fin n → ℝ} (hf : ∀ i, f i ≠ 0) (c : Fin n → ℝ) (hc : c ≠ 0) :
    0 < ∑ i, ∑ j, c i * (f i * Real.exp (A i j) * f j) * c j := by
  refine (hA.exp_posDef hd (fun i => c i * f i) fun h => hc (funext fun i => ?_)).trans_eq
    (sum_congr rfl fun i _ => sum_congr rfl fun j _ => by ring)
  exact (mul_eq_zero.1 (congrFun h i)).resolve_right (hf i)

section
variable {γ : ℝ} (hγ : 0 < γ) {x : Fin n → Fin d → ℝ} (hx : Function.Injective x)
include hγ hx

theorem isPD_gaussian : IsPD fun i j => Real.exp (-γ * ∑ k, (x i k - x j k) ^ 2) := by
  refine ⟨(isPSD_gaussian hγ.le x).1, fun c hc => ?_⟩
  have := ((isPSD_dot x).smul (by linarith : 0 ≤ 2 * γ)).exp_scale_posDef (f := fun i => Real.exp (-γ * ∑ k, x i k ^ 2)) (by
    intro i j hij h
    have h1 : ∑ k, (x i k - x j k) ^ 2 = 0 := by
      have e : 2 * γ * ∑ k, x i k * x i k - 2 * (2 * γ * ∑ k, x i k * x j k) + 2 * γ * ∑ k, x j k * x j k =
          2 * γ * ∑ k, (x i k - x j k) ^ 2 := by
        simp only [mul_sum, ← sum_sub_distrib, ← sum_add_distrib]
        exact sum_congr rfl fun k _ => by ring
      rw [e] at h
      exact (mul_eq_zero.1 h).resolve_left (by positivity)
    refine hij (hx (funext fun k => ?_))
    have := (sum_eq_zero_iff_of_nonneg fun k _ => sq_nonneg (x i k - x j k)).1 h1 k (mem_univ k)
    exact sub_eq_zero.1 (pow_eq_zero_iff two_ne_zero |>.1 this)) (fun i => (Real.exp_pos _).ne') c hc
  refine this.trans_eq (sum_congr rfl fun i _ => sum_congr rfl fun j _ => ?_)
  congr 2
  rw [← Real.exp_add, ← Real.exp_add]
  congr 1
  rw [mul_sum, mul_sum, mul_sum, mul_sum, ← sum_add_distrib, ← sum_add_distrib]
  exact sum_congr rfl fun k _ => by ring

theorem isPD_laplacian : IsPD fun i j => Real.exp (-γ * ∑ k, |x i k - x j k|) := by
  refine ⟨(isPSD_laplacian hγ.le x).1, fun c hc => ?_⟩
  let m : Fin d → ℝ := fun k => ∑ i, |x i k|
  have hm : ∀ i k, 0 ≤ x i k + m k := by
    intro i k
    have := single_le_sum (f := fun i => |x i k|) (fun i _ => abs_nonneg _) (mem_univ i)
    have h2 := neg_abs_le (x i k)
    simp only [m]; linarith
  have habs : ∀ a b : ℝ, |a - b| = a + b - 2 * min a b := by
    intro a b
    rcases le_total a b with h | h
    · rw [min_eq_left h, abs_of_nonpos (by linarith)]; ring
    · rw [min_eq_right h, abs_of_nonneg (by linarith)]; ring
  have h1 := isPSD_finset_sum univ (A := fun k i j => min (x i k + m k) (x j k + m k)) fun k _ =>
    isPSD_min (fun i => x i k + m k) fun i => hm i k
  have := (h1.smul (by linarith : 0 ≤ 2 * γ)).exp_scale_posDef (f := fun i => Real.exp (-γ * ∑ k, (x i k + m k))) (by
    intro i j hij h
    have h1 : ∑ k, |x i k - x j k| = 0 := by
      have e : 2 * γ * ∑ k, min (x i k + m k) (x i k + m k) - 2 * (2 * γ * ∑ k, min (x i k + m k) (x j k + m k)) +
          2 * γ * ∑ k, min (x j k + m k) (x j k + m k) = 2 * γ * ∑ k, |x i k - x j k| := by
        have : ∀ k, |x i k - x j k| = (x i k + m k) + (x j k + m k) - 2 * min (x i k + m k) (x j k + m k) := by
          intro k
          rw [← habs]; congr 1; ring
        simp only [this, sum_sub_distrib, min_self, ← mul_sum]
        rw [sum_add_distrib (f := fun k => x i k + m k)]
        ring
      rw [e] at h
      exact (mul_eq_zero.1 h).resolve_left (by positivity)
    refine hij (hx (funext fun k => ?_))
    have := (sum_eq_zero_iff_of_nonneg fun k _ => abs_nonneg (x i k - x j k)).1 h1 k (mem_univ k)
    exact sub_eq_zero.1 (abs_eq_zero.1 this)) (fun i => (Real.exp_pos _).ne') c hc
  refine this.trans_eq (sum_congr rfl fun i _ => sum_congr rfl fun j _ => ?_)
  congr 2
  rw [← Real.exp_add, ← Real.exp_add]
  congr 1
  rw [mul_sum, mul_sum, mul_sum, mul_sum, ← sum_add_distrib, ← sum_add_distrib]
  refine sum_congr rfl fun k _ => ?_
  have : |x i k - x j k| = (x i k + m k) + (x j k + m k) - 2 * min (x i k + m k) (x j k + m k) := by
    rw [← habs]; congr 1; ring
  rw [this]; ring

theorem isPD_chi2 (h0 : ∀ i k, 0 ≤ x i k) : IsPD fun i j => Real.exp (-γ * ∑ k, (x i k - x j k) ^ 2 / (x i k + x j k)) := by
  refine ⟨(isPSD_chi2 hγ.le x h0).1, fun c hc => ?_⟩
  have ht : ∀ a b : ℝ, 0 ≤ a → 0 ≤ b → (a - b) ^ 2 / (a + b) = a + b - 4 * (a * b / (a + b)) := by
    intro a b ha hb
    by_cases h : a + b = 0
    · have h3 : a = 0 := by linarith
      have h4 : b = 0 := by linarith
      simp [h3, h4]
    · field_simp; ring
  have hself : ∀ a : ℝ, a * a / (a + a) = a / 2 := by
    intro a
    by_cases h : a = 0
    · simp [h]
    · field_simp; ring
  have h1 := isPSD_finset_sum univ (A := fun k i j => x i k * x j k / (x i k + x j k)) fun k _ =>
    isPSD_harmonic (fun i => x i k) fun i => h0 i k
  have := (h1.smul (by linarith : 0 ≤ 4 * γ)).exp_scale_posDef (f := fun i => Real.exp (-γ * ∑ k, x i k)) (by
    intro i j hij h
    have h1 : ∑ k, (x i k - x j k) ^ 2 / (x i k + x j k) = 0 := by
      have e : 4 * γ * ∑ k, x i k * x i k / (x i k + x i k) - 2 * (4 * γ * ∑ k, x i k * x j k / (x i k + x j k)) +
          4 * γ * ∑ k, x j k * x j k / (x j k + x j k) = 2 * γ * ∑ k, (x i k - x j k) ^ 2 / (x i k + x j k) := by
        simp only [fun k => ht (x i k) (x j k) (h0 i k) (h0 j k), hself, sum_sub_distrib, sum_add_distrib, ← mul_sum, ← sum_div]
        ring
      rw [e] at h
      exact (mul_eq_zero.1 h).resolve_left (by positivity)
    refine hij (hx (funext fun k => ?_))
    have := (sum_eq_zero_iff_of_nonneg fun k _ =>
      div_nonneg (sq_nonneg (x i k - x j k)) (add_nonneg (h0 i k) (h0 j k))).1 h1 k (mem_univ k)
    rcases div_eq_zero_iff.1 this with h | h
    · exact sub_eq_zero.1 (pow_eq_zero_iff two_ne_zero |>.1 h)
    · have := h0 i k; have := h0 j k; linarith) (fun i => (Real.exp_pos _).ne') c hc
  refine this.trans_eq (sum_congr rfl fun i _ => sum_congr rfl fun j _ => ?_)
  congr 2
  rw [← Real.exp_add, ← Real.exp_add]
  congr 1
  rw [mul_sum, mul_sum, mul_sum, mul_sum, ← sum_add_distrib, ← sum_add_distrib]
  refine sum_congr rfl fun k _ => ?_
  rw [ht _ _ (h0 i k) (h0 j k)]; ring
end

theorem IsPD.isPSD {K : Matrix (Fin n) (Fin n) ℝ} (h : IsPD K) : IsPSD K := by
  refine ⟨h.1, fun x => ?_⟩
  by_cases hx : x = 0
  · simp [hx]
  · exact (h.2 x hx).le

theorem form_eq (K : Matrix (Fin n) (Fin n) ℝ) (x : Fin n → ℝ) : ∑ i, ∑ j, x i * K i j * x j = ∑ i, x i * ∑ j, K i j * x j :=
  sum_congr rfl fun i _ => by rw [mul_sum]; exact sum_congr rfl fun j _ => by ring

theorem IsPD.not_singular {K : Matrix (Fin n) (Fin n) ℝ} (h : IsPD K) : ¬ IsSingular K := by
  rintro ⟨x, hx, h0⟩
  have := h.2 x hx
  rw [form_eq] at this
  simp [h0] at this

/-- a positive semidefinite matrix is positive definite unless singular -/
theorem IsPSD.isPD_iff {K : Matrix (Fin n) (Fin n) ℝ} (h : IsPSD K) : IsPD K ↔ ¬ IsSingular K := by
  refine ⟨IsPD.not_singular, fun hs => ⟨h.1, fun x hx => lt_of_le_of_ne (h.2 x) fun h0 => hs ⟨x, hx, fun i => ?_⟩⟩⟩
  have := (((isPSD_iff K).1 h).dotProduct_mulVec_zero_iff x).1 ((dotProduct_mulVec_eq K x).trans h0.symm)
  exact congrFun this i

/-- the equations `K c = y` have exactly one solution -/
theorem IsPD.solve {K : Matrix (Fin n) (Fin n) ℝ} (h : IsPD K) (y : Fin n → ℝ) : ∃! c : Fin n → ℝ, ∀ i, ∑ j, K i j * c j = y i := by
  have hinj : Function.Injective (Matrix.mulVecLin K) := by
    rw [← LinearMap.ker_eq_bot, LinearMap.ker_eq_bot']
    intro c hc
    by_contra h0
    exact h.not_singular ⟨c, h0, fun i => congrFun hc i⟩
  obtain ⟨c, hc⟩ := (LinearMap.injective_iff_surjective.1 hinj) y
  refine ⟨c, fun i => congrFun hc i, fun c' hc' => hinj ?_⟩
  rw [hc]
  funext i
  exact hc' i

theorem IsPD.add_psd {A B : Matrix (Fin n) (Fin n) ℝ} (hA : IsPD A) (hB : IsPSD B) : IsPD fun i j => A i j + B i j := by
  refine ⟨fun i j => by dsimp only; rw [hA.1, hB.1], fun x hx => ?_⟩
  have := add_pos_of_pos_of_nonneg (hA.2 x hx) (hB.2 x)
  refine this.trans_eq ?_
  rw [← sum_add_distrib]
  refine sum_congr rfl fun i _ => ?_
  rw [← sum_add_distrib]
  exact sum_congr rfl fun j _ => by ring

theorem IsPD.diag_pos {K : Matrix (Fin n) (Fin n) ℝ} (h : IsPD K) (i : Fin n) : 0 < K i i := by
  have := h.2 (fun a => if a = i then 1 else 0) (fun h0 => by simpa using congrFun h0 i)
  simpa using this

theorem IsPD.scale {K : Matrix (Fin n) (Fin n) ℝ} (h : IsPD K) {f : Fin n → ℝ} (hf : ∀ i, f i ≠ 0) : IsPD fun i j => f i * K i j * f j := by
  refine ⟨fun i j => by dsimp only; rw [h.1]; ring, fun c hc => ?_⟩
  refine (h.2 (fun i => c i * f i) fun h0 => hc (funext fun i => ?_)).trans_eq
    (sum_congr rfl fun i _ => sum_congr rfl fun j _ => by ring)
  exact (mul_eq_zero.1 (congrFun h0 i)).resolve_right (hf i)

theorem IsPD.cosNorm {K : Matrix (Fin n) (Fin n) ℝ} (h : IsPD K) : IsPD (cosNorm K) := by
  have := h.scale (f := fun i => (Real.sqrt (K i i))⁻¹) fun i => inv_ne_zero (Real.sqrt_ne_zero'.2 (h.diag_pos i))
  have e : (fun i j => (Real.sqrt (K i i))⁻¹ * K i j * (Real.sqrt (K j j))⁻¹) = KMethods.cosNorm K := by
    funext i j
    rw [KMethods.cosNorm, Real.sqrt_mul (h.diag_pos i).le, div_eq_mul_inv, mul_inv]; ring
  rwa [e] at this

/-- the form of the centred matrix vanishes exactly at the constant vectors -/
theorem IsPD.centered_zero {K : Matrix (Fin n) (Fin n) ℝ} (h : IsPD K) (c : Fin n → ℝ) :
    ∑ i, ∑ j, c i * centered K i j * c j = 0 ↔ ∀ i j, c i = c j := by
  rw [← centered_form h.1]
  constructor
  · intro h0
    have : (fun i => c i - (∑ l, c l) / n) = 0 := by
      by_contra hne
      exact absurd h0 (h.2 _ hne).ne'
    intro i j
    have h1 := congrFun this i
    have h2 := congrFun this j
    simp only [Pi.zero_apply] at h1 h2
    linarith
  · intro hc
    have : ∀ i, c i - (∑ l, c l) / n = 0 := by
      intro i
      have hn : (n : ℝ) ≠ 0 := by have := i.pos; positivity
      rw [sum_congr rfl fun l _ => hc l i]
      simp only [sum_const, card_univ, Fintype.card_fin, nsmul_eq_mul]
      field_simp; ring
    simp [this]

open scoped MatrixOrder in
/-- Schur: the elementwise product with a positive semidefinite matrix that has a positive diagonal -/
theorem IsPD.hadamard_psd {A B : Matrix (Fin n) (Fin n) ℝ} (hA : IsPD A) (hB : IsPSD B) (hd : ∀ i, 0 < B i i) :
    IsPD fun i j => A i j * B i j := by
  refine ⟨fun i j => by dsimp only; rw [hA.1, hB.1], fun x hx => ?_⟩
  obtain ⟨C, hC⟩ := CStarAlgebra.nonneg_iff_eq_star_mul_self.mp ((isPSD_iff B).1 hB).nonneg
  have hB' : ∀ i j, B i j = ∑ k, C k i * C k j := fun i j => by
    rw [hC, Matrix.mul_apply]; rfl
  have e : ∑ i, ∑ j, x i * (A i j * B i j) * x j = ∑ k, ∑ i, ∑ j, (x i * C k i) * A i j * (x j * C k j) := by
    symm
    rw [sum_comm]
    refine sum_congr rfl fun i _ => ?_
    rw [sum_comm]
    refine sum_congr rfl fun j _ => ?_
    rw [hB', mul_sum, mul_sum, sum_mul]
    exact sum_congr rfl fun k _ => by ring
  rw [e]
  have h0 : ∀ k, 0 ≤ ∑ i, ∑ j, (x i * C k i) * A i j * (x j * C k j) := fun k => hA.isPSD.2 fun i => x i * C k i
  obtain ⟨i, hi⟩ := Function.ne_iff.1 hx
  obtain ⟨k, hk⟩ : ∃ k, C k i ≠ 0 := by
    by_contra hne
    push Not at hne
    have := hd i
    rw [hB'] at this
    simp [hne] at this
  exact sum_pos' (fun k _ => h0 k) ⟨k, mem_univ k, hA.2 (fun i => x i * C k i) fun h1 =>
    mul_ne_zero hi hk (congrFun h1 i)⟩

/-- values that are inner products of few features -/
theorem singular_of_features {ι : Type} [Fintype ι] {K : Matrix (Fin n) (Fin n) ℝ} (φ ψ : Fin n → ι → ℝ)
    (h : ∀ i j, K i j = ∑ s, φ i s * ψ j s) (hn : Fintype.card ι < n) : IsSingular K := by
  have hker := LinearMap.ker_ne_bot_of_finrank_lt (f := Matrix.mulVecLin (Matrix.of fun s j => ψ j s)) (K := ℝ)
    (by simpa using hn)
  obtain ⟨c, hc, hne⟩ := (Submodule.ne_bot_iff _).1 hker
  refine ⟨c, hne, fun i => ?_⟩
  have hc' : ∀ s, ∑ j, ψ j s * c j = 0 := fun s => congrFun (LinearMap.mem_ker.1 hc) s
  simp only [h, sum_mul]
  rw [sum_comm]
  refine sum_eq_zero fun s _ => ?_
  rw [show (∑ j, φ i s * ψ j s * c j) = φ i s * ∑ j, ψ j s * c j by rw [mul_sum]; exact sum_congr rfl fun j _ => by ring, hc', mul_zero]

theorem singular_dot {K : Matrix (Fin n) (Fin n) ℝ} {x : Fin n → Fin d → ℝ} (h : ∀ i j, K i j = ∑ k, x i k * x j k) (hn : d < n) :
    IsSingular K := singular_of_features x x h (by simpa using hn)

/-- the polynomial kernel has as many features as there are monomials of degree at most `deg` in `d` variables -/
theorem singular_poly {K : Matrix (Fin n) (Fin n) ℝ} {x : Fin n → Fin d → ℝ} {deg : Nat} {γ b : ℝ}
    (h : ∀ i j, K i j = (b + γ * ∑ k, x i k * x j k) ^ deg) (hn : (d + deg).choose deg < n) : IsSingular K := by
  let u : Fin n → Fin (d + 1) → ℝ := fun i => Fin.cons 1 (x i)
  let w : Fin (d + 1) → ℝ := Fin.cons b fun _ => γ
  have e : ∀ i j, K i j = ∑ s : Sym (Fin (d + 1)) deg, ((s.val.countPerms : ℝ) * (s.val.map w).prod * (s.val.map (u i)).prod) * (s.val.map (u j)).prod := by
    intro i j
    rw [h]
    have : b + γ * ∑ k, x i k * x j k = ∑ t, w t * u i t * u j t := by
      rw [Fin.sum_univ_succ]
      simp only [w, u, Fin.cons_zero, Fin.cons_succ, mul_one, mul_sum]
      congr 1
      exact sum_congr rfl fun k _ => by ring
    rw [this, sum_pow]
    simp only [sym_univ]
    refine sum_congr rfl fun s _ => ?_
    rw [Multiset.prod_map_mul, Multiset.prod_map_mul]; ring
  refine singular_of_features _ _ e ?_
  rw [Sym.card_sym_fin_eq_multichoose, Nat.multichoose_eq]
  simpa [add_assoc, add_comm 1] using hn

/-- equal rows and columns -/
theorem singular_of_rows {K : Matrix (Fin n) (Fin n) ℝ} {i j : Fin n} (hij : i ≠ j) (h : ∀ a, K a i = K a j) : IsSingular K := by
  refine ⟨fun a => (if a = i then 1 else 0) - if a = j then 1 else 0, fun h0 => ?_, fun a => ?_⟩
  · have := congrFun h0 i
    simp [hij] at this
  · simp [mul_sub, sum_sub_distrib, h]

/-- independent vectors -/
theorem isPD_dot {x : Fin n → Fin d → ℝ} : (IsPD fun i j => ∑ k, x i k * x j k) ↔ LinearIndependent ℝ x := by
  have hform : ∀ c : Fin n → ℝ, ∑ i, ∑ j, c i * (∑ k, x i k * x j k) * c j = ∑ k, (∑ i, c i * x i k) ^ 2 := by
    intro c
    simp only [pow_two, sum_mul_sum]
    rw [sum_comm (γ := Fin d)]
    refine sum_congr rfl fun i _ => ?_
    rw [sum_comm (γ := Fin d)]
    refine sum_congr rfl fun j _ => ?_
    rw [mul_sum, sum_mul]
    exact sum_congr rfl fun k _ => by ring
  rw [Fintype.linearIndependent_iff]
  constructor
  · intro h c hc
    by_contra hne
    push Not at hne
    have h1 := h.2 c fun h0 => by obtain ⟨i, hi⟩ := hne; exact hi (congrFun h0 i)
    rw [hform] at h1
    have : ∀ k, ∑ i, c i * x i k = 0 := fun k => by simpa using congrFun hc k
    simp [this] at h1
  · intro h
    refine ⟨(isPSD_dot x).1, fun c hc => lt_of_le_of_ne ((isPSD_dot x).2 c) fun h0 => hc ?_⟩
    rw [hform] at h0
    have h1 := (sum_eq_zero_iff_of_nonneg fun k _ => sq_nonneg (∑ i, c i * x i k)).1 h0.symm
    refine funext fun i => h c (funext fun k => ?_) i
    simpa using pow_eq_zero_iff two_ne_zero |>.1 (h1 k (mem_univ k))
end KMethods
