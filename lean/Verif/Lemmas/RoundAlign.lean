import Verif.Model.RoundAlign
import Verif.Spec.RoundAlign
import Verif.Lemmas.RoundOps
import Verif.Lemmas.RoundKernels
import Mathlib.Algebra.Order.Chebyshev
import Mathlib.Analysis.InnerProductSpace.PiL2
/-! # Rounding errors of centering and alignment -/
namespace KMethods
open F Rounding Finset

variable {R : Rounding} {n m : Nat}

/-! ### products -/

/-- an inner product of inexact vectors, in any order of summation -/
theorem SumTree.Complete.dotR_step {t : SumTree n} (ht : t.Complete) {p q : Nat} {a b a' b' S T : Fin n → ℝ}
    (ha : ∀ i, |a' i - a i| ≤ (R.w ^ p - 1) * S i) (hS : ∀ i, |a i| ≤ S i)
    (hb : ∀ i, |b' i - b i| ≤ (R.w ^ q - 1) * T i) (hT : ∀ i, |b i| ≤ T i) :
    |t.dotR R a' b' - ∑ i, a i * b i| ≤ (R.w ^ (n + (p + q)) - 1) * ∑ i, S i * T i := by
  have hST : 0 ≤ ∑ i, S i * T i := sum_nonneg fun i _ => mul_nonneg ((abs_nonneg _).trans (hS i)) ((abs_nonneg _).trans (hT i))
  have h1 : ∀ i, |a' i * b' i - a i * b i| ≤ (R.w ^ (p + q) - 1) * (S i * T i) := fun i => mul_step (ha i) (hS i) (hb i) (hT i)
  have h2 : ∀ i, |a' i * b' i| ≤ R.w ^ (p + q) * (S i * T i) := fun i => by
    have := abs_sub_abs_le_abs_sub (a' i * b' i) (a i * b i)
    have h3 : |a i * b i| ≤ S i * T i := by
      rw [abs_mul]; exact mul_le_mul (hS i) (hT i) (abs_nonneg _) ((abs_nonneg _).trans (hS i))
    linarith [h1 i]
  have h3 := ht.dotR_err (R := R) a' b'
  have h4 : ∑ i, |a' i * b' i| ≤ R.w ^ (p + q) * ∑ i, S i * T i := by
    rw [mul_sum]; exact sum_le_sum fun i _ => h2 i
  have h5 : |∑ i, a' i * b' i - ∑ i, a i * b i| ≤ (R.w ^ (p + q) - 1) * ∑ i, S i * T i := by
    rw [← sum_sub_distrib, mul_sum]
    exact (abs_sum_le_sum_abs _ _).trans (sum_le_sum fun i _ => h1 i)
  have h6 := abs_sub_le (t.dotR R a' b') (∑ i, a' i * b' i) (∑ i, a i * b i)
  have h7 : (R.w ^ n - 1) * ∑ i, |a' i * b' i| ≤ (R.w ^ n - 1) * (R.w ^ (p + q) * ∑ i, S i * T i) :=
    mul_le_mul_of_nonneg_left h4 (sub_nonneg.2 (one_le_pow_w n))
  rw [pow_add]
  nlinarith

/-! ### the centering matrix -/

/-- entries of the computed centering matrix -/
noncomputable def Rounding.cen (R : Rounding) (n : Nat) (i j : Fin n) : ℝ := R.fl ((if i = j then 1 else 0) - R.fl (1 / n))

theorem centeringMatrixFl_real (n : Nat) : centeringMatrixFl R n = fun i j => real (R.cen n i j) := by
  funext i j
  have hn : (n : ℝ) ≠ 0 := by
    have := i.pos
    positivity
  unfold centeringMatrixFl
  rw [one_def, real_div _ _ hn]
  split <;> rename_i h <;> simp [Rounding.cen, Rounding.round, h, zero_def]

/-- bound for the entries of the centering matrix -/
noncomputable def cenT (n : Nat) (i j : Fin n) : ℝ := (if i = j then 1 else 0) + 1 / n

theorem cen_abs (i j : Fin n) : |((if i = j then 1 else 0) - 1 / n : ℝ)| ≤ cenT n i j := by
  have h : (0 : ℝ) ≤ 1 / n := by positivity
  unfold cenT
  refine (abs_sub _ _).trans (le_of_eq ?_)
  rw [abs_of_nonneg h]
  split <;> simp

theorem cen_err (i j : Fin n) : |R.cen n i j - ((if i = j then 1 else 0) - 1 / n : ℝ)| ≤ (R.w ^ 2 - 1) * cenT n i j := by
  refine SumTree.fl_step (k := 1) ?_ (cen_abs i j)
  have h : (0 : ℝ) ≤ 1 / n := by positivity
  rw [sub_sub_sub_cancel_left, abs_sub_comm]
  refine (R.err _).trans ?_
  rw [abs_of_nonneg h, pow_one]
  have h1 : R.u ≤ R.w - 1 := by linarith [R.one_add_le_w]
  refine mul_le_mul h1 ?_ h (R.u_nonneg.trans h1)
  unfold cenT
  split <;> linarith

theorem cenT_row (s : Fin n → ℝ) (i : Fin n) : ∑ k, cenT n i k * s k = s i + (∑ l, s l) / n := by
  unfold cenT
  simp only [add_mul, sum_add_distrib, ite_mul, one_mul, zero_mul, sum_ite_eq, mem_univ, if_true, ← mul_sum]
  ring

theorem cenT_col (s : Fin n → ℝ) (j : Fin n) : ∑ k, s k * cenT n k j = s j + (∑ l, s l) / n := by
  unfold cenT
  simp only [mul_add, sum_add_distrib, mul_ite, mul_one, mul_zero, sum_ite_eq', mem_univ, if_true, ← sum_mul]
  ring

/-! ### centering -/

/-- the computed centred matrix -/
noncomputable def Rounding.centeredFl (R : Rounding) (o o' : SumOrder) (K : Matrix (Fin n) (Fin n) ℝ) : Matrix (Fin n) (Fin n) ℝ :=
  fun i j => (o'.tree n i j).dotR R (fun l => (o.tree n i l).dotR R (R.cen n i) fun k => K k l) fun l => R.cen n l j

theorem centerKmFl_real (o o' : SumOrder) (K : Matrix (Fin n) (Fin n) ℝ) :
    centerKmFl R o o' (Mat.ofReal K) = .ok (Mat.ofReal (R.centeredFl o o' K)) := by
  unfold centerKmFl Mat.ofReal
  rw [if_pos rfl]
  dsimp only
  congr 2
  rw [centeringMatrixFl_real]
  funext i j
  unfold matmulFl
  simp only [SumTree.dot_real]
  rfl

theorem centeredFl_err (o o' : SumOrder) {K : Matrix (Fin n) (Fin n) ℝ} {s : Fin n → ℝ} (hs : ∀ i j, |K i j| ≤ s i * s j) (i j : Fin n) :
    |R.centeredFl o o' K i j - centered K i j| ≤ (R.w ^ (2 * n + 4) - 1) * ((s i + (∑ l, s l) / n) * (s j + (∑ l, s l) / n)) := by
  have hn : (0 : ℝ) < n := by exact_mod_cast i.pos
  have hs0 : ∀ i, 0 ≤ s i * s i := fun i => (abs_nonneg _).trans (hs i i)
  have hrow := cenT_row s
  have hcol := cenT_col s
  have h1 : ∀ l : Fin n, |(o.tree n i l).dotR R (R.cen n i) (fun k => K k l) - ∑ k, ((if i = k then 1 else 0) - 1 / n : ℝ) * K k l| ≤
      (R.w ^ (n + 2) - 1) * ((s i + (∑ l, s l) / n) * s l) := fun l => by
    have := (o.complete n i l).dotR_step (R := R) (p := 2) (q := 0) (fun k => cen_err i k) (fun k => cen_abs i k) (a' := R.cen n i)
      (b := fun k => K k l) (b' := fun k => K k l) (T := fun k => s k * s l) (fun k => by simp) fun k => hs k l
    refine this.trans (le_of_eq ?_)
    rw [← hrow i, sum_mul]
    congr 1
    exact sum_congr rfl fun k _ => by ring
  have h2 : ∀ l : Fin n, |∑ k, ((if i = k then 1 else 0) - 1 / n : ℝ) * K k l| ≤ (s i + (∑ l, s l) / n) * s l := fun l => by
    rw [← hrow i, sum_mul]
    refine (abs_sum_le_sum_abs _ _).trans (sum_le_sum fun k _ => ?_)
    rw [abs_mul, mul_assoc]
    exact mul_le_mul (cen_abs i k) (hs k l) (abs_nonneg _) ((abs_nonneg _).trans (cen_abs i k))
  have h3 := (o'.complete n i j).dotR_step (R := R) (p := n + 2) (q := 2) h1 h2 (fun l => cen_err l j) (fun l => cen_abs l j)
  have e1 : ∑ l, (∑ k, ((if i = k then 1 else 0) - 1 / n : ℝ) * K k l) * ((if l = j then 1 else 0) - 1 / n : ℝ) = centered K i j := by
    rw [← centering_mul]
    simp [Matrix.mul_apply]
  have e2 : ∑ l, (s i + (∑ l, s l) / n) * s l * cenT n l j = (s i + (∑ l, s l) / n) * (s j + (∑ l, s l) / n) := by
    rw [← hcol j, mul_sum]
    exact sum_congr rfl fun k _ => by ring
  rw [e1, e2] at h3
  rwa [show 2 * n + 4 = n + (n + 2 + 2) by ring]

/-! ### matrices as vectors -/

/-- the entries of a matrix as a vector of Euclidean space -/
noncomputable def vecE (A : Matrix (Fin n) (Fin m) ℝ) : EuclideanSpace ℝ (Fin n × Fin m) := WithLp.toLp 2 fun p => A p.1 p.2

theorem inner_vecE (A B : Matrix (Fin n) (Fin m) ℝ) : inner ℝ (vecE A) (vecE B) = frobInner A B := by
  simp only [vecE, PiLp.inner_apply, RCLike.inner_apply, conj_trivial, Fintype.sum_prod_type, frobInner]
  exact sum_congr rfl fun i _ => sum_congr rfl fun j _ => _root_.mul_comm _ _

theorem norm_vecE (A : Matrix (Fin n) (Fin m) ℝ) : ‖vecE A‖ = Real.sqrt (frobInner A A) := by
  rw [← inner_vecE, real_inner_self_eq_norm_sq, Real.sqrt_sq (norm_nonneg _)]

theorem vecE_sub (A B : Matrix (Fin n) (Fin m) ℝ) : vecE A - vecE B = vecE (A - B) := rfl

/-- the cosine of the angle between two vectors changes little if the vectors change little -/
theorem cos_perturb {E : Type} [NormedAddCommGroup E] [InnerProductSpace ℝ E] {x y x' y' : E} (hx : x ≠ 0) (hy : y ≠ 0) (hx' : x' ≠ 0) (hy' : y' ≠ 0) :
    |inner ℝ x' y' / (‖x'‖ * ‖y'‖) - inner ℝ x y / (‖x‖ * ‖y‖)| ≤ 2 * (‖x' - x‖ / ‖x‖) + 2 * (‖y' - y‖ / ‖y‖) := by
  have key : ∀ {x x' : E}, x ≠ 0 → x' ≠ 0 → ‖(‖x'‖⁻¹ • x') - ‖x‖⁻¹ • x‖ ≤ 2 * (‖x' - x‖ / ‖x‖) := by
    intro x x' hx hx'
    have hx0 : 0 < ‖x‖ := norm_pos_iff.2 hx
    have hx0' : 0 < ‖x'‖ := norm_pos_iff.2 hx'
    have e : (‖x'‖⁻¹ • x') - ‖x‖⁻¹ • x = (‖x'‖⁻¹ - ‖x‖⁻¹) • x' + ‖x‖⁻¹ • (x' - x) := by
      rw [sub_smul, smul_sub]; abel
    rw [e]
    refine (norm_add_le _ _).trans ?_
    rw [norm_smul, norm_smul, Real.norm_eq_abs, Real.norm_eq_abs, abs_of_pos (inv_pos.2 hx0)]
    have h1 : |‖x'‖⁻¹ - ‖x‖⁻¹| * ‖x'‖ = |‖x‖ - ‖x'‖| / ‖x‖ := by
      rw [← abs_of_pos hx0', ← abs_mul, abs_of_pos hx0', ← abs_of_pos hx0, ← abs_div, abs_of_pos hx0]
      congr 1
      field_simp
    have h2 : |‖x‖ - ‖x'‖| ≤ ‖x' - x‖ := by rw [norm_sub_rev]; exact abs_norm_sub_norm_le x x'
    rw [h1, inv_mul_eq_div, two_mul]
    exact add_le_add (div_le_div_of_nonneg_right h2 hx0.le) le_rfl
  have unit : ∀ {x : E}, x ≠ 0 → ‖‖x‖⁻¹ • x‖ = 1 := fun {x} hx => by
    rw [norm_smul, norm_inv, norm_norm, inv_mul_cancel₀ (norm_ne_zero_iff.2 hx)]
  have e : ∀ x y : E, inner ℝ x y / (‖x‖ * ‖y‖) = inner ℝ (‖x‖⁻¹ • x) (‖y‖⁻¹ • y) := fun x y => by
    rw [real_inner_smul_left, real_inner_smul_right, div_eq_mul_inv, mul_inv]; ring
  rw [e, e]
  have h : inner ℝ (‖x'‖⁻¹ • x') (‖y'‖⁻¹ • y') - inner ℝ (‖x‖⁻¹ • x) (‖y‖⁻¹ • y) =
      inner ℝ ((‖x'‖⁻¹ • x') - ‖x‖⁻¹ • x) (‖y'‖⁻¹ • y') + inner ℝ (‖x‖⁻¹ • x) ((‖y'‖⁻¹ • y') - ‖y‖⁻¹ • y) := by
    rw [inner_sub_left, inner_sub_right]; ring
  rw [h]
  refine (abs_add_le _ _).trans (add_le_add ?_ ?_)
  · refine (abs_real_inner_le_norm _ _).trans ?_
    rw [unit hy', mul_one]
    exact key hx hx'
  · refine (abs_real_inner_le_norm _ _).trans ?_
    rw [unit hx, one_mul]
    exact key hy hy'

theorem vec_bound {E : Matrix (Fin n) (Fin n) ℝ} {s : Fin n → ℝ} {c : ℝ} (hc : 0 ≤ c)
    (h : ∀ i j, |E i j| ≤ c * ((s i + (∑ l, s l) / n) * (s j + (∑ l, s l) / n))) : ‖vecE E‖ ≤ c * (4 * ∑ i, s i ^ 2) := by
  have hss : 0 ≤ ∑ i, s i ^ 2 := sum_nonneg fun i _ => sq_nonneg _
  set b := (∑ l, s l) / n with hb
  have ht : ∑ i, (s i + b) ^ 2 ≤ 4 * ∑ i, s i ^ 2 := by
    rcases Nat.eq_zero_or_pos n with rfl | hn
    · simp
    have hn' : (0 : ℝ) < n := by exact_mod_cast hn
    have h1 : (∑ l, s l) ^ 2 ≤ n * ∑ i, s i ^ 2 := by
      have := sq_sum_le_card_mul_sum_sq (s := (univ : Finset (Fin n))) (f := s)
      simpa using this
    have h2 : n * b ^ 2 ≤ ∑ i, s i ^ 2 := by
      rw [hb, div_pow, mul_div_assoc', div_le_iff₀ (by positivity)]
      nlinarith
    have h3 : ∑ i, (s i + b) ^ 2 ≤ ∑ i, (2 * s i ^ 2 + 2 * b ^ 2) := sum_le_sum fun i _ => by nlinarith [sq_nonneg (s i - b)]
    rw [sum_add_distrib, ← mul_sum] at h3
    simp only [sum_const, card_univ, Fintype.card_fin, nsmul_eq_mul] at h3
    linarith
  rw [norm_vecE]
  refine Real.sqrt_le_iff.2 ⟨by positivity, ?_⟩
  have h1 : frobInner E E ≤ ∑ i, ∑ j, (c * ((s i + b) * (s j + b))) ^ 2 := by
    refine sum_le_sum fun i _ => sum_le_sum fun j _ => ?_
    rw [← sq, ← sq_abs]
    exact pow_le_pow_left₀ (abs_nonneg _) (h i j) 2
  refine h1.trans ?_
  have h2 : ∑ i, ∑ j, (c * ((s i + b) * (s j + b))) ^ 2 = (c * ∑ i, (s i + b) ^ 2) ^ 2 := by
    rw [mul_pow, sq (∑ i, (s i + b) ^ 2), sum_mul_sum, mul_sum]
    refine sum_congr rfl fun i _ => ?_
    rw [mul_sum]
    exact sum_congr rfl fun j _ => by ring
  rw [h2]
  exact pow_le_pow_left₀ (mul_nonneg hc (sum_nonneg fun i _ => sq_nonneg _)) (mul_le_mul_of_nonneg_left ht hc) 2

theorem centered_sub (A B : Matrix (Fin n) (Fin n) ℝ) : centered (A - B) = centered A - centered B := by
  rw [← centering_mul, ← centering_mul, ← centering_mul, mul_sub, sub_mul]

/-- entries of a centered matrix -/
theorem centered_abs {E : Matrix (Fin n) (Fin n) ℝ} {s : Fin n → ℝ} {c : ℝ} (h : ∀ i j, |E i j| ≤ c * (s i * s j)) (i j : Fin n) :
    |centered E i j| ≤ c * ((s i + (∑ l, s l) / n) * (s j + (∑ l, s l) / n)) := by
  have hrow := cenT_row s
  have hcol := cenT_col s
  rw [← centering_mul]
  simp only [Matrix.mul_apply, Matrix.of_apply]
  rw [← hrow i, ← hcol j, mul_sum, mul_sum]
  refine (abs_sum_le_sum_abs _ _).trans (sum_le_sum fun l _ => ?_)
  rw [abs_mul, ← mul_assoc, ← mul_assoc]
  have h1 : |∑ k, ((if i = k then 1 else 0) - 1 / n : ℝ) * E k l| ≤ c * (∑ k, cenT n i k * s k) * s l := by
    rw [mul_sum, sum_mul]
    refine (abs_sum_le_sum_abs _ _).trans (sum_le_sum fun k _ => ?_)
    rw [abs_mul, show c * (cenT n i k * s k) * s l = cenT n i k * (c * (s k * s l)) by ring]
    exact mul_le_mul (cen_abs i k) (h k l) (abs_nonneg _) ((abs_nonneg _).trans (cen_abs i k))
  exact mul_le_mul h1 (cen_abs l j) (abs_nonneg _) ((abs_nonneg _).trans h1)

/-- distance of the computed from the exact centred matrix, if the entries of the given matrix are inexact -/
theorem centeredFl_dist (o o' : SumOrder) {K H : Matrix (Fin n) (Fin n) ℝ} {s : Fin n → ℝ} {η : ℝ} (hη : 0 ≤ η) (hs : ∀ i j, |K i j| ≤ s i * s j)
    (hH : ∀ i j, |H i j - K i j| ≤ η * (s i * s j)) (hu : (2 * n + 4 : Nat) * R.u < 1) :
    ‖vecE (R.centeredFl o o' H) - vecE (centered K)‖ ≤ R.centerErr n η (∑ i, s i ^ 2) := by
  have hH' : ∀ i j, |H i j| ≤ (Real.sqrt (1 + η) * s i) * (Real.sqrt (1 + η) * s j) := fun i j => by
    have h1 := abs_sub_abs_le_abs_sub (H i j) (K i j)
    have h2 : (Real.sqrt (1 + η) * s i) * (Real.sqrt (1 + η) * s j) = (1 + η) * (s i * s j) := by
      rw [mul_mul_mul_comm, Real.mul_self_sqrt (by linarith)]
    rw [h2]
    linarith [hs i j, hH i j]
  have h1 : ‖vecE (R.centeredFl o o' H - centered H)‖ ≤ R.gamma (2 * n + 4) * (4 * ∑ i, (Real.sqrt (1 + η) * s i) ^ 2) := by
    refine vec_bound (gamma_nonneg hu) fun i j => (centeredFl_err o o' hH' i j).trans (mul_le_mul_of_nonneg_right (pow_w_le _ hu) ?_)
    have := (abs_nonneg _).trans (centered_abs (c := 1) (fun i j => (hH' i j).trans (one_mul _).ge) i j)
    rwa [one_mul] at this
  have h2 : ‖vecE (centered H - centered K)‖ ≤ η * (4 * ∑ i, s i ^ 2) := by
    refine vec_bound hη fun i j => ?_
    rw [← centered_sub]
    exact centered_abs (fun i j => hH i j) i j
  have e : vecE (R.centeredFl o o' H) - vecE (centered K) = vecE (R.centeredFl o o' H - centered H) + vecE (centered H - centered K) := by
    rw [← vecE_sub, ← vecE_sub]; abel
  rw [e]
  refine (norm_add_le _ _).trans ((add_le_add h1 h2).trans (le_of_eq ?_))
  simp only [mul_pow, Real.sq_sqrt (by linarith : 0 ≤ 1 + η), ← mul_sum]
  unfold Rounding.centerErr
  ring

/-! ### Frobenius products -/

theorem sum_flat (f : Fin n → Fin m → ℝ) : ∑ p : Fin (n * m), f p.divNat p.modNat = ∑ i, ∑ j, f i j := by
  rw [← Fintype.sum_prod_type' (f := f)]
  exact (Equiv.sum_comp finProdFinEquiv.symm fun p : Fin n × Fin m => f p.1 p.2)

/-- the computed Frobenius product -/
noncomputable def Rounding.frobFl (R : Rounding) (t : FlatOrder) (A B : Matrix (Fin n) (Fin m) ℝ) : ℝ :=
  (t.tree (n * m)).dotR R (fun p => A p.divNat p.modNat) fun p => B p.divNat p.modNat

theorem frobeniusProductFl_real (t : FlatOrder) (A B : Matrix (Fin n) (Fin m) ℝ) :
    frobeniusProductFl R t (Mat.ofReal A) (Mat.ofReal B) = .ok (real (R.frobFl t A B)) := by
  unfold frobeniusProductFl
  rw [dif_pos ⟨rfl, rfl⟩]
  simp only [Mat.ofReal, Fin.cast_eq_self, SumTree.dot_real]
  rfl

theorem frobFl_err (t : FlatOrder) (A B : Matrix (Fin n) (Fin m) ℝ) :
    |R.frobFl t A B - frobInner A B| ≤ (R.w ^ (n * m) - 1) * (Real.sqrt (frobInner A A) * Real.sqrt (frobInner B B)) := by
  have h := (t.complete (n * m)).dotR_err (R := R) (fun p => A p.divNat p.modNat) fun p => B p.divNat p.modNat
  rw [sum_flat fun i j => A i j * B i j] at h
  refine h.trans (mul_le_mul_of_nonneg_left ?_ (sub_nonneg.2 (one_le_pow_w _)))
  have h2 := sum_abs_mul_le (fun p : Fin (n * m) => A p.divNat p.modNat) fun p => B p.divNat p.modNat
  rw [sum_flat fun i j => A i j * A i j, sum_flat fun i j => B i j * B i j] at h2
  exact h2

theorem frobFl_self (t : FlatOrder) (A : Matrix (Fin n) (Fin m) ℝ) : R.Rel (n * m) (R.frobFl t A A) (frobInner A A) := by
  have h := SumTree.dotR_rel (R := R) (a := fun p : Fin (n * m) => A p.divNat p.modNat) (b := fun p => A p.divNat p.modNat)
    (fun p => mul_self_nonneg _) (t.tree (n * m))
  rw [(t.complete _).length, (t.complete _).total, sum_flat fun i j => A i j * A i j] at h
  exact h

/-- the computed Frobenius norm -/
noncomputable def Rounding.normFl (R : Rounding) (t : FlatOrder) (A : Matrix (Fin n) (Fin m) ℝ) : ℝ := R.fl (Real.sqrt (R.frobFl t A A))

theorem frobeniusNormFl_real (t : FlatOrder) (A : Matrix (Fin n) (Fin m) ℝ) :
    frobeniusNormFl R t (Mat.ofReal A) = .ok (real (R.normFl t A)) := by
  unfold frobeniusNormFl
  rw [frobeniusProductFl_real]
  simp only [Except.map]
  rw [sqrt_real _ ((frobFl_self t A).nonneg (frobInner_self_nonneg A))]
  rfl

theorem normFl_rel (t : FlatOrder) (A : Matrix (Fin n) (Fin m) ℝ) : R.Rel (n * m + 1) (R.normFl t A) (Real.sqrt (frobInner A A)) :=
  (frobFl_self t A).sqrt.fl

/-! ### alignment -/

/-- the computed alignment of two matrices that are not nearly zero -/
noncomputable def Rounding.alignFl (R : Rounding) (o : AlignOrders) (A B : Matrix (Fin n) (Fin m) ℝ) : ℝ :=
  R.fl (R.frobFl o.p A B / R.fl (R.normFl o.na A * R.normFl o.nb B))

theorem alignmentOfFl_real (o : AlignOrders) (A B : Matrix (Fin n) (Fin m) ℝ) (zd : ZeroDiv) :
    ((NearZero (R.normFl o.na A) ∨ NearZero (R.normFl o.nb B)) → alignmentOfFl R o (Mat.ofReal A) (Mat.ofReal B) zd =
      match zd with
      | .raise => .error .valueError
      | .value v => .ok v) ∧
    (¬ (NearZero (R.normFl o.na A) ∨ NearZero (R.normFl o.nb B)) →
      alignmentOfFl R o (Mat.ofReal A) (Mat.ofReal B) zd = .ok (real (R.alignFl o A B))) := by
  unfold alignmentOfFl
  rw [frobeniusNormFl_real, frobeniusNormFl_real, frobeniusProductFl_real]
  simp only [bind, Except.bind]
  have e := or_congr (isClose_zero (R.normFl o.na A)) (isClose_zero (R.normFl o.nb B))
  constructor
  · intro h
    rw [if_pos (e.2 h)]
    cases zd <;> rfl
  · intro h
    rw [if_neg (mt e.1 h)]
    push Not at h
    have ha : R.normFl o.na A ≠ 0 := fun e => h.1 (by rw [e]; norm_num [NearZero])
    have hb : R.normFl o.nb B ≠ 0 := fun e => h.2 (by rw [e]; norm_num [NearZero])
    rw [real_mul]
    show Except.ok (R.round (real _ / real (R.fl _))) = _
    rw [real_div _ _ (fl_ne_zero (mul_ne_zero ha hb))]
    rfl

theorem alignFl_err (o : AlignOrders) {A B : Matrix (Fin n) (Fin m) ℝ} (hA : 0 < Real.sqrt (frobInner A A)) (hB : 0 < Real.sqrt (frobInner B B)) :
    |R.alignFl o A B - frobInner A B / (Real.sqrt (frobInner A A) * Real.sqrt (frobInner B B))| ≤ R.w ^ (3 * (n * m) + 4) - 1 := by
  have hd := (((normFl_rel (R := R) o.na A).mul (normFl_rel o.nb B)).fl).inv
  have h1 := mul_step (R := R) (frobFl_err o.p A B) (frobInner_abs_le A B) hd.err le_rfl
  have hAB := mul_pos hA hB
  rw [abs_of_pos (inv_pos.2 hAB), mul_inv_cancel₀ hAB.ne'] at h1
  rw [← div_eq_mul_inv, ← div_eq_mul_inv] at h1
  have h2 := SumTree.fl_step h1 (by
    rw [abs_div, abs_of_pos hAB, div_le_one hAB]; exact frobInner_abs_le A B)
  rw [mul_one] at h2
  rwa [show 3 * (n * m) + 4 = n * m + (n * m + 1 + (n * m + 1) + 1) + 1 by ring]

/-- alignment of inexact centered matrices -/
theorem alignFl_near (o : AlignOrders) {C D C' D' : Matrix (Fin n) (Fin m) ℝ} {x y a b : ℝ} (hx : x = ‖vecE C‖) (hy : y = ‖vecE D‖)
    (ha : ‖vecE C' - vecE C‖ ≤ a) (hb : ‖vecE D' - vecE D‖ ≤ b) (hax : a < x) (hby : b < y) :
    |R.alignFl o C' D' - frobInner C D / (x * y)| ≤ 2 * (a / x) + 2 * (b / y) + (R.w ^ (3 * (n * m) + 4) - 1) := by
  subst hx hy
  have pos : ∀ {C C' : Matrix (Fin n) (Fin m) ℝ} {a : ℝ}, ‖vecE C' - vecE C‖ ≤ a → a < ‖vecE C‖ → 0 < ‖vecE C‖ ∧ 0 < ‖vecE C'‖ := by
    intro C C' a h1 h2
    have h3 := norm_sub_norm_le (vecE C) (vecE C')
    rw [norm_sub_rev] at h3
    exact ⟨((norm_nonneg _).trans h1).trans_lt h2, by linarith⟩
  obtain ⟨hx, hx'⟩ := pos ha hax
  obtain ⟨hy, hy'⟩ := pos hb hby
  have h1 := alignFl_err (R := R) o (A := C') (B := D') (by rw [← norm_vecE]; exact hx') (by rw [← norm_vecE]; exact hy')
  have h2 := cos_perturb (norm_pos_iff.1 hx) (norm_pos_iff.1 hy) (norm_pos_iff.1 hx') (norm_pos_iff.1 hy')
  rw [inner_vecE, inner_vecE, norm_vecE C', norm_vecE D'] at h2
  have h3 := abs_sub_le (R.alignFl o C' D') (frobInner C' D' / (Real.sqrt (frobInner C' C') * Real.sqrt (frobInner D' D'))) (frobInner C D / (‖vecE C‖ * ‖vecE D‖))
  have h4 := div_le_div_of_nonneg_right ha hx.le
  have h5 := div_le_div_of_nonneg_right hb hy.le
  linarith

/-- a computed norm is not close to 0 if the exact one is clearly above the threshold -/
theorem normFl_not_nearZero (t : FlatOrder) {C C' : Matrix (Fin n) (Fin m) ℝ} {a : ℝ} (ha : ‖vecE C' - vecE C‖ ≤ a) (hu : (n * m + 1 : Nat) * R.u < 1)
    (h : (1 + R.gamma (n * m + 1)) * 1e-8 + a < ‖vecE C‖) : ¬ NearZero (R.normFl t C') := by
  intro hz
  have h1 := (normFl_rel (R := R) t C').symm.le
  rw [← norm_vecE, abs_of_nonneg (norm_nonneg _)] at h1
  have h2 := pow_w_le (R := R) _ hu
  have h3 := norm_sub_norm_le (vecE C) (vecE C')
  rw [norm_sub_rev] at h3
  have h4 : R.w ^ (n * m + 1) * |R.normFl t C'| ≤ (1 + R.gamma (n * m + 1)) * 1e-8 :=
    mul_le_mul (by linarith) hz (abs_nonneg _) (by linarith [gamma_nonneg (R := R) hu])
  linarith

/-- and conversely -/
theorem normFl_nearZero (t : FlatOrder) {C' : Matrix (Fin n) (Fin m) ℝ} (hu : (n * m + 1 : Nat) * R.u < 1)
    (h : (1 + R.gamma (n * m + 1)) * ‖vecE C'‖ ≤ 1e-8) : NearZero (R.normFl t C') := by
  have h1 := (normFl_rel (R := R) t C').le
  rw [← norm_vecE, abs_of_nonneg (norm_nonneg _)] at h1
  have h2 := pow_w_le (R := R) _ hu
  exact h1.trans ((mul_le_mul_of_nonneg_right (by linarith) (norm_nonneg _)).trans h)

theorem cnorm_eq (K : Matrix (Fin n) (Fin n) ℝ) : cnorm K = ‖vecE (centered K)‖ := (norm_vecE _).symm

/-! ### symmetry -/

theorem SumTree.dotR_comm (a b : Fin n → ℝ) (t : SumTree n) : t.dotR R a b = t.dotR R b a := by
  induction t with
  | zero => rfl
  | leaf i => simp only [SumTree.dotR, _root_.mul_comm]
  | node l r hl hr => simp only [SumTree.dotR, hl, hr]
  | fma i t h => simp only [SumTree.dotR, h, _root_.mul_comm]

theorem SumTree.dot_comm (a b : Fin n → F) (t : SumTree n) : t.dot R a b = t.dot R b a := by
  induction t with
  | zero => rfl
  | leaf i => simp only [SumTree.dot, F.mul_comm]
  | node l r hl hr => simp only [SumTree.dot, hl, hr]
  | fma i t h => simp only [SumTree.dot, h, F.mul_comm]

theorem alignmentOfFl_comm (o : AlignOrders) (a b : Fin n → Fin m → F) (zd : ZeroDiv) :
    alignmentOfFl R o ⟨n, m, a⟩ ⟨n, m, b⟩ zd = alignmentOfFl R ⟨o.b₁, o.b₂, o.a₁, o.a₂, o.nb, o.na, o.p⟩ ⟨n, m, b⟩ ⟨n, m, a⟩ zd := by
  have hp : ∀ (t : FlatOrder) (a b : Fin n → Fin m → F), frobeniusProductFl R t ⟨n, m, a⟩ ⟨n, m, b⟩ =
      .ok ((t.tree (n * m)).dot R (fun p => a p.divNat p.modNat) fun p => b p.divNat p.modNat) := by
    intro t a b
    unfold frobeniusProductFl
    rw [dif_pos ⟨rfl, rfl⟩]
    rfl
  unfold alignmentOfFl frobeniusNormFl
  simp only [hp, Except.map, bind, Except.bind]
  rw [SumTree.dot_comm (fun p => a p.divNat p.modNat) (fun p => b p.divNat p.modNat), F.mul_comm (R.round _)]
  by_cases h : isClose (R.round (F.sqrt ((o.na.tree (n * m)).dot R (fun p => a p.divNat p.modNat) fun p => a p.divNat p.modNat))) 0 ∨
      isClose (R.round (F.sqrt ((o.nb.tree (n * m)).dot R (fun p => b p.divNat p.modNat) fun p => b p.divNat p.modNat))) 0
  · rw [if_pos h, if_pos h.symm]
  · rw [if_neg h, if_neg fun h' => h h'.symm]

end KMethods
