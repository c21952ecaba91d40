import Verif.Lemmas.Rounding
import Verif.Lemmas.PSD
/-! # Normalisation and the PSD test with rounding errors -/
namespace KMethods
open F Rounding

variable {R : Rounding} {n m : Nat}

/-- the computed `1 / √d` -/
noncomputable def Rounding.invSqrt (R : Rounding) (d : ℝ) : ℝ := R.fl (1 / R.fl (Real.sqrt d))

theorem Rounding.invSqrt_rel (d : ℝ) : R.Rel 2 (R.invSqrt d) (1 / Real.sqrt d) := by
  exact ((Rel.refl (R := R) 1).div (rel_fl (R := R) (Real.sqrt d))).fl

theorem Rounding.fl_ne_zero {x : ℝ} (h : x ≠ 0) : R.fl x ≠ 0 := by
  obtain ⟨c, h1, -, e⟩ := rel_fl (R := R) x
  rw [e]
  exact mul_ne_zero h ((inv_pos.2 (pow_w_pos 1)).trans_le h1).ne'

theorem invSqrtDiagFl_real (d : Fin n → ℝ) (h : ∀ i, 0 < d i) :
    invSqrtDiagFl R (fun i => real (d i)) = fun i j => real (Matrix.diagonal (fun i => R.invSqrt (d i)) i j) := by
  funext i j
  unfold invSqrtDiagFl
  rw [sqrt_real _ (h i).le, one_def]
  show (if i = j then R.round (real 1 / real (R.fl (Real.sqrt (d i)))) else 0) = _
  rw [real_div _ _ (fl_ne_zero (Real.sqrt_pos.2 (h i)).ne')]
  by_cases hij : i = j
  · subst hij; simp [Rounding.round, Rounding.invSqrt]
  · simp [hij, zero_def]

/-- the computed product `diag(1/√d) K diag(1/√e)` does not depend on the order of summation -/
theorem scaledFl_real (o o' : SumOrder) (d : Fin n → ℝ) (e : Fin m → ℝ) (K : Matrix (Fin n) (Fin m) ℝ)
    (h : ∀ i, 0 < d i) (h' : ∀ j, 0 < e j) :
    matmulFl R o' (matmulFl R o (invSqrtDiagFl R fun i => real (d i)) fun i j => real (K i j)) (invSqrtDiagFl R fun j => real (e j)) =
      fun i j => real (R.fl (R.fl (R.invSqrt (d i) * K i j) * R.invSqrt (e j))) := by
  rw [invSqrtDiagFl_real d h, invSqrtDiagFl_real e h']
  funext i j
  unfold matmulFl
  have h1 : ∀ l, (SumTree.dot R (fun l => real (Matrix.diagonal (fun i => R.invSqrt (d i)) i l)) (fun i => real (K i l)) (o.tree n i l)) =
      real (R.fl (R.invSqrt (d i) * K i l)) := fun l => by
    rw [SumTree.dot_real, (o.complete n i l).single i fun k hk => by rw [Matrix.diagonal_apply_ne' _ hk, zero_mul], Matrix.diagonal_apply_eq]
  simp only [h1]
  rw [SumTree.dot_real, (o'.complete m i j).single j fun k hk => by rw [Matrix.diagonal_apply_ne _ hk, mul_zero], Matrix.diagonal_apply_eq]

/-- entries of the computed normalised matrix -/
noncomputable def Rounding.normEntry (R : Rounding) (d e k : ℝ) : ℝ := R.fl (R.fl (R.invSqrt d * k) * R.invSqrt e)

theorem Rounding.normEntry_rel {d : ℝ} (hd : 0 ≤ d) (e k : ℝ) : R.Rel 6 (R.normEntry d e k) (k / Real.sqrt (d * e)) := by
  have h1 := ((invSqrt_rel (R := R) d).mul (Rel.refl (R := R) k)).fl
  have h2 := (h1.mul (invSqrt_rel (R := R) e)).fl
  have e1 : 1 / Real.sqrt d * k * (1 / Real.sqrt e) = k / Real.sqrt (d * e) := by
    rw [Real.sqrt_mul hd]
    field_simp
  rw [e1] at h2
  exact h2

theorem normalizeSquareFl_real (o o' : SumOrder) (K : Matrix (Fin n) (Fin n) ℝ) {method : String}
    (hm : method.toLower = "cosine") (h : ∀ i, 0 ≤ K i i) :
    ((∃ i, NearZero (K i i)) → normalizeSquareFl R o o' (fun i j => real (K i j)) method = .error .kmNorm) ∧
    ((¬ ∃ i, NearZero (K i i)) → normalizeSquareFl R o o' (fun i j => real (K i j)) method =
      .ok fun i j => real (R.normEntry (K i i) (K j j) (K i j))) := by
  unfold normalizeSquareFl
  rw [if_pos hm]
  have hiff : (∃ i, isClose (real (K i i)) 0) ↔ ∃ i, NearZero (K i i) :=
    exists_congr fun i => isClose_zero (K i i)
  constructor
  · intro hz; rw [if_pos (hiff.2 hz)]
  · intro hz
    have hp : ∀ i, 0 < K i i := fun i => pos_of_not_nearZero (h i) fun hi => hz ⟨i, hi⟩
    rw [if_neg (mt hiff.1 hz), scaledFl_real o o' (fun i => K i i) (fun i => K i i) K hp hp]
    rfl

theorem normalizeKmFl_ofReal (o o' : SumOrder) (K : Matrix (Fin n) (Fin n) ℝ) (method : String) :
    normalizeKmFl R o o' (Mat.ofReal K) method =
      (normalizeSquareFl R o o' (fun i j => real (K i j)) method).map fun N => ⟨n, n, N⟩ := by
  unfold normalizeKmFl Mat.ofReal
  rw [dif_pos rfl]
  rfl

theorem normalizeKm2Fl_real (o o' : SumOrder) (K : Matrix (Fin n) (Fin m) ℝ) (dx : Fin n → ℝ) (dy : Fin m → ℝ) {method : String}
    (hm : method.toLower = "cosine") (lx ly : List F) (hlx : lx = List.ofFn fun i => real (dx i))
    (hly : ly = List.ofFn fun i => real (dy i)) (hx : ∀ i, 0 ≤ dx i) (hy : ∀ j, 0 ≤ dy j) :
    ((∃ i, NearZero (dx i)) ∨ (∃ j, NearZero (dy j)) → normalizeKm2Fl R o o' (Mat.ofReal K) lx ly method = .error .kmNorm) ∧
    (¬ ((∃ i, NearZero (dx i)) ∨ (∃ j, NearZero (dy j))) → normalizeKm2Fl R o o' (Mat.ofReal K) lx ly method =
      .ok (Mat.ofReal fun i j => R.normEntry (dx i) (dy j) (K i j))) := by
  subst hlx hly
  unfold normalizeKm2Fl
  have hlen : ¬ ((List.ofFn fun i => real (dx i)).length ≠ (Mat.ofReal K).nrows ∨
      (Mat.ofReal K).ncols ≠ (List.ofFn fun j => real (dy j)).length) := by
    simp [Mat.ofReal]
  rw [if_neg hlen, if_pos hm]
  have hiff : ((∃ d ∈ List.ofFn fun i => real (dx i), isClose d 0) ∨ (∃ d ∈ List.ofFn fun j => real (dy j), isClose d 0)) ↔
      ((∃ i, NearZero (dx i)) ∨ (∃ j, NearZero (dy j))) := by
    simp only [List.mem_ofFn', Set.mem_range, exists_exists_eq_and, isClose_zero]
  constructor
  · intro hz; rw [if_pos (hiff.2 hz)]
  · intro hz
    rw [if_neg (mt hiff.1 hz)]
    have e1 : (invSqrtDiagFl R fun i : Fin n => (List.ofFn fun i => real (dx i)).getD i 0) =
        invSqrtDiagFl R fun i => real (dx i) := by
      congr 1; funext i; simp
    have e2 : (invSqrtDiagFl R fun i : Fin m => (List.ofFn fun i => real (dy i)).getD i 0) =
        invSqrtDiagFl R fun i => real (dy i) := by
      congr 1; funext i; simp
    have := scaledFl_real (R := R) o o' dx dy K (fun i => pos_of_not_nearZero (hx i) fun h => hz (Or.inl ⟨i, h⟩))
      (fun i => pos_of_not_nearZero (hy i) fun h => hz (Or.inr ⟨i, h⟩))
    simp only [Mat.ofReal]
    rw [e1, e2, this]
    rfl

/-! ### quadratic forms -/

/-- a perturbation bounded by `η s_i s_j` moves the quadratic form by at most `η (Σ s_i²) |x|²` -/
theorem quad_perturb {E : Matrix (Fin n) (Fin n) ℝ} {s : Fin n → ℝ} {η : ℝ} (hη : 0 ≤ η)
    (hE : ∀ i j, |E i j| ≤ η * (s i * s j)) (x : Fin n → ℝ) :
    |∑ i, ∑ j, x i * E i j * x j| ≤ η * (∑ i, s i ^ 2) * ∑ i, x i * x i := by
  have h1 : |∑ i, ∑ j, x i * E i j * x j| ≤ ∑ i, ∑ j, η * ((s i * |x i|) * (s j * |x j|)) := by
    refine (Finset.abs_sum_le_sum_abs _ _).trans (Finset.sum_le_sum fun i _ => (Finset.abs_sum_le_sum_abs _ _).trans
      (Finset.sum_le_sum fun j _ => ?_))
    rw [abs_mul, abs_mul]
    have := mul_le_mul_of_nonneg_left (hE i j) (mul_nonneg (abs_nonneg (x i)) (abs_nonneg (x j)))
    nlinarith
  have h2 : ∑ i, ∑ j, η * ((s i * |x i|) * (s j * |x j|)) = η * (∑ i, s i * |x i|) ^ 2 := by
    rw [sq, Finset.sum_mul_sum, Finset.mul_sum]
    exact Finset.sum_congr rfl fun i _ => (Finset.mul_sum _ _ _).symm
  have h3 : (∑ i, s i * |x i|) ^ 2 ≤ (∑ i, s i ^ 2) * ∑ i, |x i| ^ 2 := Finset.sum_mul_sq_le_sq_mul_sq _ _ _
  have h4 : ∑ i, |x i| ^ 2 = ∑ i, x i * x i := Finset.sum_congr rfl fun i _ => by rw [sq_abs, sq]
  rw [h4] at h3
  rw [mul_assoc]
  exact (h1.trans_eq h2).trans (mul_le_mul_of_nonneg_left h3 hη)

/-- a nearly symmetric matrix close to a PSD one passes the test -/
theorem isPSD_accepts {K N : Matrix (Fin n) (Fin n) ℝ} (hK : IsPSD K) {s : Fin n → ℝ} {η tol : ℝ} (hη : 0 ≤ η)
    (hE : ∀ i j, |N i j - K i j| ≤ η * (s i * s j)) (hsym : ∀ i j, |N i j - N j i| ≤ 1e-8 + 1e-5 * |N j i|)
    (htol : η * ∑ i, s i ^ 2 ≤ tol) : isPSD (.arr (Mat.ofReal N)) tol = .ok true := by
  rw [isPSD, dif_pos (show (Mat.ofReal N).nrows = (Mat.ofReal N).ncols from rfl), if_pos]
  swap
  · intro i j
    exact hsym i j
  congr 1
  rw [decide_eq_true_iff]
  simp only [not_lt]
  refine (eigen_ge_iff (lowerSym_isHermitian fun i j : Fin n => ((Mat.ofReal N).get i (Fin.cast rfl j)).val) (-tol)).2 fun x => ?_
  set L := lowerSym (fun i j : Fin n => ((Mat.ofReal N).get i (Fin.cast rfl j)).val) with hL
  have hLE : ∀ i j, |L i j - K i j| ≤ η * (s i * s j) := fun i j => by
    rw [hL]
    simp only [lowerSym, Mat.ofReal, Fin.cast_eq_self, val_real]
    split
    · exact hE i j
    · rw [hK.1 i j, _root_.mul_comm (s i)]; exact hE j i
  have h1 := quad_perturb (E := fun i j => L i j - K i j) hη hLE x
  have h2 : ∑ i, ∑ j, x i * (L i j - K i j) * x j = ∑ i, ∑ j, x i * L i j * x j - ∑ i, ∑ j, x i * K i j * x j := by
    simp only [mul_sub, sub_mul, Finset.sum_sub_distrib]
  rw [h2] at h1
  have h3 := (abs_le.1 h1).1
  have h4 := hK.2 x
  have h5 : 0 ≤ ∑ i, x i * x i := Finset.sum_nonneg fun i _ => mul_self_nonneg _
  nlinarith [mul_le_mul_of_nonneg_right htol h5]

/-! ### errors of normalised matrices -/

theorem normErr_nonneg {η : ℝ} (h0 : 0 ≤ η) (h1 : η < 1) (h6 : 6 * R.u < 1) : 0 ≤ R.normErr η := by
  have := gamma_nonneg (R := R) (m := 6) (by push_cast; exact h6)
  unfold Rounding.normErr
  apply div_nonneg <;> nlinarith

/-- the entry of the normalised matrix, from inexact data: `k̂` has error `η s t`, and `d̂`, `ê` have errors `η s²`, `η t²` -/
theorem normEntry_err {s t k d' e' k' η : ℝ} (hs : 0 < s) (ht : 0 < t) (hk : |k| ≤ s * t) (h0 : 0 ≤ η) (h1 : η < 1) (h6 : 6 * R.u < 1)
    (hd : |d' - s ^ 2| ≤ η * (s * s)) (he : |e' - t ^ 2| ≤ η * (t * t)) (hk' : |k' - k| ≤ η * (s * t)) :
    |R.normEntry d' e' k' - k / (s * t)| ≤ R.normErr η := by
  have hd1 := abs_le.1 hd
  have he1 := abs_le.1 he
  have hdl : (1 - η) * s ^ 2 ≤ d' := by nlinarith
  have hel : (1 - η) * t ^ 2 ≤ e' := by nlinarith
  have hdu : d' ≤ (1 + η) * s ^ 2 := by nlinarith
  have heu : e' ≤ (1 + η) * t ^ 2 := by nlinarith
  have hst : 0 < s * t := mul_pos hs ht
  have h1' : 0 < 1 - η := by linarith
  have hd0 : 0 < d' := lt_of_lt_of_le (by positivity) hdl
  have he0 : 0 < e' := lt_of_lt_of_le (by positivity) hel
  set q := Real.sqrt (d' * e') with hq
  have hql : (1 - η) * (s * t) ≤ q := by
    apply Real.le_sqrt_of_sq_le
    calc ((1 - η) * (s * t)) ^ 2 = ((1 - η) * s ^ 2) * ((1 - η) * t ^ 2) := by ring
      _ ≤ d' * e' := mul_le_mul hdl hel (by positivity) hd0.le
  have hqu : q ≤ (1 + η) * (s * t) := by
    rw [hq, Real.sqrt_le_left (by positivity)]
    calc d' * e' ≤ ((1 + η) * s ^ 2) * ((1 + η) * t ^ 2) := mul_le_mul hdu heu he0.le (by positivity)
      _ = _ := by ring
  have hq0 : 0 < q := lt_of_lt_of_le (by positivity) hql
  have hrel := (normEntry_rel (R := R) hd0.le e' k').err_gamma (by push_cast; exact h6)
  have hg := gamma_nonneg (R := R) (m := 6) (by push_cast; exact h6)
  have hkk : |k'| ≤ (1 + η) * (s * t) := by
    have := abs_sub_abs_le_abs_sub k' k
    linarith
  have h2 : |k' / q| ≤ (1 + η) / (1 - η) := by
    rw [abs_div, abs_of_pos hq0, div_le_div_iff₀ hq0 h1']
    nlinarith [mul_le_mul_of_nonneg_right hkk h1'.le, mul_le_mul_of_nonneg_left hql (show 0 ≤ 1 + η by linarith)]
  have h3 : |k' / q - k / (s * t)| ≤ 2 * η / (1 - η) := by
    have e1 : k' / q - k / (s * t) = ((k' - k) + k / (s * t) * (s * t - q)) / q := by field_simp; ring
    have hc : |k / (s * t)| ≤ 1 := by rw [abs_div, abs_of_pos hst, div_le_one hst]; exact hk
    have h4 : |s * t - q| ≤ η * (s * t) := by rw [abs_le]; constructor <;> nlinarith
    have h5 : |(k' - k) + k / (s * t) * (s * t - q)| ≤ 2 * η * (s * t) := by
      refine (abs_add_le _ _).trans ?_
      rw [abs_mul]
      have := mul_le_mul hc h4 (abs_nonneg _) zero_le_one
      linarith
    rw [e1, abs_div, abs_of_pos hq0, div_le_div_iff₀ hq0 h1']
    nlinarith [mul_le_mul_of_nonneg_right h5 h1'.le, mul_le_mul_of_nonneg_left hql (show 0 ≤ 2 * η by linarith)]
  have h4 : |R.normEntry d' e' k' - k / (s * t)| ≤ |R.normEntry d' e' k' - k' / q| + |k' / q - k / (s * t)| := abs_sub_le _ _ _
  have h5 : R.gamma 6 * |k' / q| ≤ R.gamma 6 * ((1 + η) / (1 - η)) := mul_le_mul_of_nonneg_left h2 hg
  have h6 : R.normErr η = R.gamma 6 * ((1 + η) / (1 - η)) + 2 * η / (1 - η) := by
    unfold Rounding.normErr
    field_simp
  rw [h6]
  linarith

/-- entries of the computed normalisation of a symmetric matrix are close to their mirror images -/
theorem normEntry_close {d e k : ℝ} (hd : 0 ≤ d) (he : 0 ≤ e) (hu : 24 * R.u ≤ 1e-5) :
    |R.normEntry d e k - R.normEntry e d k| ≤ 1e-5 * |R.normEntry e d k| := by
  have h1 := normEntry_rel (R := R) hd e k
  have h2 := normEntry_rel (R := R) he d k
  rw [_root_.mul_comm e d] at h2
  have h3 := (h1.trans h2.symm)
  have hu' : ((6 + 6 : Nat) : ℝ) * R.u < 1 := by push_cast; norm_num at hu ⊢; linarith [R.u_nonneg]
  refine (h3.err_gamma hu').trans (mul_le_mul_of_nonneg_right ?_ (abs_nonneg _))
  unfold Rounding.gamma
  push_cast at hu' ⊢
  have := R.u_nonneg
  rw [div_le_iff₀ (by linarith)]
  norm_num at hu ⊢
  nlinarith

/-- the error of normalised matrices in double precision -/
theorem normErr_double {m : Nat} (hR : R.u ≤ 2⁻¹ ^ 53) (hm1 : (m : ℝ) ≤ 4 * 10 ^ 9) : R.normErr (R.gamma m) ≤ 1.00001 * (2 * ((m + 3) * R.u)) := by
  have hu0 := R.u_nonneg
  have hu : R.u ≤ 1.2e-16 := hR.trans (by norm_num)
  have hm0 : (0 : ℝ) ≤ m := Nat.cast_nonneg m
  have hmu : m * R.u ≤ 5e-7 := by
    calc (m : ℝ) * R.u ≤ (4 * 10 ^ 9) * 1.2e-16 := mul_le_mul hm1 hu hu0 (by norm_num)
      _ ≤ 5e-7 := by norm_num
  have hmu0 : 0 ≤ m * R.u := mul_nonneg hm0 hu0
  have hg : ∀ a : ℝ, 0 ≤ a → a ≤ 5e-7 → a / (1 - a) ≤ 1.000001 * a := fun a ha ha' => by
    norm_num at ha' ⊢
    rw [div_le_iff₀ (by linarith)]
    nlinarith
  have hη : R.gamma m ≤ 1.000001 * (m * R.u) := hg _ hmu0 hmu
  have hη0 : 0 ≤ R.gamma m := gamma_nonneg (by norm_num at hmu; linarith)
  have h6 : R.gamma 6 ≤ 1.000001 * (6 * R.u) := by
    have := hg (6 * R.u) (by linarith) (by norm_num at hu ⊢; linarith)
    rw [Rounding.gamma]
    push_cast
    exact this
  have h60 : 0 ≤ R.gamma 6 := gamma_nonneg (by push_cast; norm_num at hu; linarith)
  rw [Rounding.normErr, div_le_iff₀ (by norm_num at hη hmu; linarith)]
  set a := m * R.u with ha
  have e1 : (m + 3) * R.u = a + 3 * R.u := by rw [ha]; ring
  rw [e1]
  set η := R.gamma m
  set c := R.gamma 6
  have hη1 : η ≤ 1e-6 := by norm_num at hη hmu ⊢; linarith
  have hc : (1 + η) * c ≤ 1.000001 * c := by
    apply mul_le_mul_of_nonneg_right _ h60
    norm_num at hη1 ⊢; linarith
  have hr : (1.00001 * (2 * (a + 3 * R.u))) * 0.999999 ≤ 1.00001 * (2 * (a + 3 * R.u)) * (1 - η) := by
    apply mul_le_mul_of_nonneg_left
    · norm_num at hη1 ⊢; linarith
    · positivity
  norm_num at hc hη h6 hr ⊢
  linarith

end KMethods
