import Verif.Spec.Matrix
import Mathlib.Analysis.Matrix.Order
import Mathlib.Analysis.Matrix.PosDef
import Mathlib.Tactic.Linarith
import Mathlib.Tactic.Ring
import Mathlib.Tactic.FieldSimp
import Mathlib.Tactic.Positivity
/-! # Positive semidefinite matrices -/
namespace KMethods
open Matrix

variable {n : Nat}

theorem dotProduct_mulVec_eq (K : Matrix (Fin n) (Fin n) ℝ) (x : Fin n → ℝ) :
    star x ⬝ᵥ (K *ᵥ x) = ∑ i, ∑ j, x i * K i j * x j := by
  simp only [dotProduct, mulVec, star_trivial, Finset.mul_sum, mul_assoc]

theorem isPSD_iff (K : Matrix (Fin n) (Fin n) ℝ) : IsPSD K ↔ K.PosSemidef := by
  rw [posSemidef_iff_dotProduct_mulVec]
  refine and_congr ?_ ?_
  · constructor
    · intro h; ext i j; simp only [conjTranspose_apply, star_trivial]; exact h j i
    · intro h i j
      have := congrFun (congrFun h j) i
      simpa [conjTranspose_apply] using this
  · simp only [dotProduct_mulVec_eq]

theorem IsPSD.hadamard {A B : Matrix (Fin n) (Fin n) ℝ} (hA : IsPSD A) (hB : IsPSD B) :
    IsPSD fun i j => A i j * B i j :=
  (isPSD_iff _).2 (((isPSD_iff A).1 hA).hadamard ((isPSD_iff B).1 hB))

theorem IsPSD.add {A B : Matrix (Fin n) (Fin n) ℝ} (hA : IsPSD A) (hB : IsPSD B) : IsPSD fun i j => A i j + B i j :=
  (isPSD_iff _).2 (((isPSD_iff A).1 hA).add ((isPSD_iff B).1 hB))

theorem IsPSD.smul {A : Matrix (Fin n) (Fin n) ℝ} (hA : IsPSD A) {c : ℝ} (hc : 0 ≤ c) : IsPSD fun i j => c * A i j :=
  (isPSD_iff _).2 (((isPSD_iff A).1 hA).smul hc)

theorem isPSD_zero : IsPSD (fun _ _ => 0 : Matrix (Fin n) (Fin n) ℝ) := by
  refine ⟨fun _ _ => rfl, fun x => ?_⟩
  simp

/-- `f_i f_j` -/
theorem isPSD_rank_one (f : Fin n → ℝ) : IsPSD fun i j => f i * f j := by
  refine ⟨fun i j => mul_comm _ _, fun x => ?_⟩
  have : ∑ i, ∑ j, x i * (f i * f j) * x j = (∑ i, x i * f i) * (∑ j, x j * f j) := by
    rw [Finset.sum_mul_sum]
    exact Finset.sum_congr rfl fun i _ => Finset.sum_congr rfl fun j _ => by ring
  rw [this]
  exact mul_self_nonneg _

theorem isPSD_const {c : ℝ} (hc : 0 ≤ c) : IsPSD (fun _ _ => c : Matrix (Fin n) (Fin n) ℝ) := by
  have := (isPSD_rank_one (fun _ : Fin n => (1 : ℝ))).smul hc
  simpa using this

theorem isPSD_finset_sum {ι : Type} (s : Finset ι) {A : ι → Matrix (Fin n) (Fin n) ℝ} (h : ∀ a ∈ s, IsPSD (A a)) :
    IsPSD fun i j => ∑ a ∈ s, A a i j := by
  classical
  induction s using Finset.induction_on with
  | empty => simpa using isPSD_zero
  | insert a s ha ih =>
    have h1 := (h a (Finset.mem_insert_self a s)).add (ih fun b hb => h b (Finset.mem_insert_of_mem hb))
    simpa only [Finset.sum_insert ha] using h1

theorem isPSD_finset_prod {ι : Type} (s : Finset ι) {A : ι → Matrix (Fin n) (Fin n) ℝ} (h : ∀ a ∈ s, IsPSD (A a)) :
    IsPSD fun i j => ∏ a ∈ s, A a i j := by
  classical
  induction s using Finset.induction_on with
  | empty => simpa using isPSD_const zero_le_one
  | insert a s ha ih =>
    have h1 := (h a (Finset.mem_insert_self a s)).hadamard (ih fun b hb => h b (Finset.mem_insert_of_mem hb))
    simpa only [Finset.prod_insert ha] using h1

theorem IsPSD.pow {A : Matrix (Fin n) (Fin n) ℝ} (hA : IsPSD A) (k : Nat) : IsPSD fun i j => A i j ^ k := by
  induction k with
  | zero => simpa using isPSD_const zero_le_one
  | succ k ih =>
    have := ih.hadamard hA
    simpa only [pow_succ] using this

theorem IsPSD.diag_nonneg {A : Matrix (Fin n) (Fin n) ℝ} (hA : IsPSD A) (i : Fin n) : 0 ≤ A i i :=
  ((isPSD_iff A).1 hA).diag_nonneg

/-- pointwise limits -/
theorem isPSD_of_tendsto {A : Nat → Matrix (Fin n) (Fin n) ℝ} {B : Matrix (Fin n) (Fin n) ℝ} (h : ∀ k, IsPSD (A k))
    (hl : ∀ i j, Filter.Tendsto (fun k => A k i j) Filter.atTop (nhds (B i j))) : IsPSD B := by
  constructor
  · intro i j
    refine tendsto_nhds_unique (hl i j) ?_
    simp only [fun k => (h k).1 i j]
    exact hl j i
  · intro x
    refine ge_of_tendsto (x := Filter.atTop)
      (f := fun k => ∑ i, ∑ j, x i * A k i j * x j) ?_ (Filter.Eventually.of_forall fun k => (h k).2 x)
    refine tendsto_finsetSum _ fun i _ => tendsto_finsetSum _ fun j _ => ?_
    exact ((hl i j).const_mul _).mul_const _

/-- congruence by a diagonal matrix -/
theorem IsPSD.scale {A : Matrix (Fin n) (Fin n) ℝ} (hA : IsPSD A) (d : Fin n → ℝ) : IsPSD fun i j => d i * A i j * d j := by
  have := hA.hadamard (isPSD_rank_one d)
  have e : (fun i j => A i j * (d i * d j)) = fun i j => d i * A i j * d j := by
    funext i j; ring
  rwa [e] at this

theorem quad_single {A : Matrix (Fin n) (Fin n) ℝ} (hs : ∀ i j, A i j = A j i) (a b : Fin n) (s t : ℝ) :
    ∑ i, ∑ j, (Pi.single a s + Pi.single b t : Fin n → ℝ) i * A i j * (Pi.single a s + Pi.single b t : Fin n → ℝ) j =
      s * s * A a a + 2 * s * t * A a b + t * t * A b b := by
  simp only [Pi.add_apply, add_mul, mul_add, Finset.sum_add_distrib, Pi.single_apply, ite_mul, zero_mul, mul_ite, mul_zero,
    Finset.sum_ite_eq', Finset.mem_univ, if_true]
  rw [hs b a]
  ring

/-- Cauchy-Schwarz for PSD matrices -/
theorem IsPSD.sq_le {A : Matrix (Fin n) (Fin n) ℝ} (hA : IsPSD A) (i j : Fin n) : A i j ^ 2 ≤ A i i * A j j := by
  by_cases hij : i = j
  · subst hij; nlinarith
  · have key : ∀ s t : ℝ, 0 ≤ s * s * A i i + 2 * s * t * A i j + t * t * A j j := fun s t => by
      have := hA.2 (Pi.single i s + Pi.single j t)
      rwa [quad_single hA.1 i j] at this
    have hj := hA.diag_nonneg j
    rcases hj.eq_or_lt with h0 | h0
    · -- A j j = 0 forces A i j = 0
      have h1 := key 1 (-(A i i + 1) / (2 * A i j))
      have hz : A i j = 0 := by
        by_contra hne
        have : 2 * 1 * (-(A i i + 1) / (2 * A i j)) * A i j = -(A i i + 1) := by field_simp
        rw [← h0] at h1
        rw [this] at h1
        linarith
      rw [hz, ← h0]; norm_num
    · have := key (A j j) (-A i j)
      have h2 : A j j * A j j * A i i + 2 * A j j * -A i j * A i j + -A i j * -A i j * A j j =
          A j j * (A i i * A j j - A i j ^ 2) := by ring
      rw [h2] at this
      have := nonneg_of_mul_nonneg_right this h0
      linarith

theorem IsPSD.frobInner_nonneg {A B : Matrix (Fin n) (Fin n) ℝ} (hA : IsPSD A) (hB : IsPSD B) : 0 ≤ frobInner A B := by
  have := (hA.hadamard hB).2 fun _ => 1
  simpa [frobInner] using this

/-- centering is the congruence by `I - 1/n` -/
theorem centered_form {A : Matrix (Fin n) (Fin n) ℝ} (hA : ∀ i j, A i j = A j i) (x : Fin n → ℝ) :
    ∑ i, ∑ j, (x i - (∑ l, x l) / n) * A i j * (x j - (∑ l, x l) / n) = ∑ i, ∑ j, x i * centered A i j * x j := by
  rcases Nat.eq_zero_or_pos n with rfl | hn
  · simp
  have hn : (n : ℝ) ≠ 0 := by positivity
  set S := ∑ l, x l
  have e1 : ∀ i, ∑ j, (x i - S / n) * A i j * (x j - S / n) =
      x i * (∑ j, A i j * x j) - S / n * (∑ j, A i j * x j) - x i * (S / n) * (∑ j, A i j) + (S / n) ^ 2 * ∑ j, A i j := by
    intro i
    simp only [Finset.mul_sum, ← Finset.sum_sub_distrib, ← Finset.sum_add_distrib]
    exact Finset.sum_congr rfl fun j _ => by ring
  have e2 : ∀ i, ∑ j, x i * KMethods.centered A i j * x j =
      x i * (∑ j, A i j * x j) - x i * (∑ l, A i l) / n * S - x i / n * (∑ j, (∑ l, A l j) * x j) +
        x i * (∑ a, ∑ b, A a b) / (n * n) * S := by
    intro i
    have : ∀ j, x i * KMethods.centered A i j * x j = x i * (A i j * x j) - x i * (∑ l, A i l) / n * x j -
        x i / n * ((∑ l, A l j) * x j) + x i * (∑ a, ∑ b, A a b) / (n * n) * x j := fun j => by
      unfold KMethods.centered
      ring
    rw [Finset.sum_congr rfl fun j _ => this j]
    simp only [Finset.sum_sub_distrib, Finset.sum_add_distrib, ← Finset.mul_sum, S]
  have e3 : ∑ j, (∑ l, A l j) * x j = ∑ i, ∑ j, A i j * x j := by
    simp only [Finset.sum_mul]
    rw [Finset.sum_comm]
  have e4 : ∑ i, x i * (∑ j, A i j) = ∑ i, ∑ j, A i j * x j := by
    simp only [Finset.mul_sum]
    rw [Finset.sum_comm]
    exact Finset.sum_congr rfl fun i _ => Finset.sum_congr rfl fun j _ => by rw [hA j i]; ring
  rw [Finset.sum_congr rfl fun i _ => e1 i, Finset.sum_congr rfl fun i _ => e2 i]
  rw [e3]
  simp only [Finset.sum_add_distrib, Finset.sum_sub_distrib]
  have f1 : ∑ i, x i * (S / n) * (∑ j, A i j) = S / n * ∑ i, ∑ j, A i j * x j := by
    rw [← e4, Finset.mul_sum]
    exact Finset.sum_congr rfl fun i _ => by ring
  have f2 : ∑ i, x i * (∑ j, A i j) / n * S = S / n * ∑ i, ∑ j, A i j * x j := by
    rw [← e4, Finset.mul_sum]
    exact Finset.sum_congr rfl fun i _ => by ring
  have f3 : ∑ i, x i / n * (∑ i, ∑ j, A i j * x j) = S / n * ∑ i, ∑ j, A i j * x j := by
    rw [← Finset.sum_mul, ← Finset.sum_div]
  have f4 : ∑ i, x i * (∑ a, ∑ b, A a b) / (n * n) * S = (S / n) ^ 2 * ∑ a, ∑ b, A a b := by
    rw [← Finset.sum_mul, ← Finset.sum_div, ← Finset.sum_mul]
    simp only [S]
    field_simp
  rw [f1, f2, f3, f4, ← Finset.mul_sum, ← Finset.mul_sum]

theorem IsPSD.centered {A : Matrix (Fin n) (Fin n) ℝ} (hA : IsPSD A) : IsPSD (centered A) := by
  constructor
  · intro i j
    have h1 : ∑ l, A i l = ∑ l, A l i := Finset.sum_congr rfl fun l _ => hA.1 i l
    have h2 : ∑ l, A l j = ∑ l, A j l := Finset.sum_congr rfl fun l _ => hA.1 l j
    unfold KMethods.centered
    rw [hA.1 i j, h1, h2]
    ring
  · exact fun x => (hA.2 fun i => x i - (∑ l, x l) / n).trans_eq (centered_form hA.1 x)

theorem IsPSD.cosNorm {A : Matrix (Fin n) (Fin n) ℝ} (hA : IsPSD A) : IsPSD (cosNorm A) := by
  have := hA.scale fun i => 1 / Real.sqrt (A i i)
  have e : (fun i j => 1 / Real.sqrt (A i i) * A i j * (1 / Real.sqrt (A j j))) = KMethods.cosNorm A := by
    funext i j
    unfold KMethods.cosNorm
    rw [Real.sqrt_mul (hA.diag_nonneg i), div_mul_eq_mul_div, one_mul, div_mul_div_comm, mul_one]
  rwa [e] at this

end KMethods
