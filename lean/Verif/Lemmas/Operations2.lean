import Verif.Lemmas.Operations
import Verif.Lemmas.PSD
import Verif.Spec.Operations
/-! Further facts about `operations.py`: NaN propagation, the Frobenius product, alignment, eigenvalues. -/
namespace KMethods
open F

theorem nearZero_zero : NearZero 0 := by norm_num [NearZero]
theorem not_nearZero_one : ¬ NearZero 1 := by norm_num [NearZero]
theorem pos_of_not_nearZero {x : ℝ} (h0 : 0 ≤ x) (h : ¬ NearZero x) : 0 < x :=
  lt_of_le_of_ne h0 fun e => h (e ▸ nearZero_zero)

theorem F.mul_comm (a b : F) : a * b = b * a := by
  rcases a with x | _ <;> rcases b with y | _ <;> simp [_root_.mul_comm]

/-- a matrix is a real matrix or has a NaN -/
theorem Mat.real_or_nan (A : Mat F) : (∃ R : Matrix (Fin A.nrows) (Fin A.ncols) ℝ, A = Mat.ofReal R) ∨
    ∃ i j, A.get i j = nan := by
  by_cases h : ∃ i j, A.get i j = nan
  · exact Or.inr h
  · left
    push Not at h
    refine ⟨fun i j => (A.get i j).val, ?_⟩
    rcases A with ⟨n, m, g⟩
    simp only [Mat.ofReal]
    congr 1
    funext i j
    rcases hg : g i j with x | _
    · rfl
    · exact absurd hg (h i j)

theorem frobeniusProduct_comm (A B : Mat F) : frobeniusProduct A B = frobeniusProduct B A := by
  unfold frobeniusProduct
  by_cases h : A.nrows = B.nrows ∧ A.ncols = B.ncols
  · rw [dif_pos h, dif_pos ⟨h.1.symm, h.2.symm⟩]
    rcases A with ⟨n, m, a⟩
    rcases B with ⟨n', m', b⟩
    dsimp only at h
    obtain ⟨h1, h2⟩ := h
    subst h1 h2
    simp only [Fin.cast_eq_self]
    congr 2
    funext p
    exact F.mul_comm _ _
  · rw [dif_neg h, dif_neg fun h' => h ⟨h'.1.symm, h'.2.symm⟩]

theorem frobeniusNorm_nan (A : Mat F) (h : ∃ i j, A.get i j = nan) : frobeniusNorm A = .ok nan := by
  obtain ⟨i, j, h⟩ := h
  unfold frobeniusNorm frobeniusProduct
  rw [dif_pos ⟨rfl, rfl⟩]
  simp only [Fin.cast_eq_self, Except.map]
  rw [sum_nan _ (i, j) (by simp [h])]
  rfl

theorem centerKm_nan (A : Mat F) (hsq : A.nrows = A.ncols) (h : ∃ i j, A.get i j = nan) :
    ∃ B, centerKm A = .ok B ∧ B.nrows = A.nrows ∧ B.ncols = A.ncols ∧ ∃ i j, B.get i j = nan := by
  obtain ⟨i, j, h⟩ := h
  unfold centerKm
  rw [if_pos hsq]
  refine ⟨_, rfl, rfl, rfl, i, j, ?_⟩
  refine sum_nan _ j ?_
  have : matmul (centeringMatrix A.nrows) A.get i j = nan := sum_nan _ i (by simp [h])
  rw [this]
  rfl

theorem centerKm_shape {A B : Mat F} (h : centerKm A = .ok B) : A.nrows = A.ncols ∧ B.nrows = A.nrows ∧ B.ncols = A.ncols := by
  unfold centerKm at h
  split at h
  · rename_i hsq
    injection h with h
    subst h
    exact ⟨hsq, rfl, rfl⟩
  · simp at h

/-- centered or given as is -/
noncomputable def centeredIf {n : Nat} (already : Bool) (A : Matrix (Fin n) (Fin n) ℝ) : Matrix (Fin n) (Fin n) ℝ :=
  if already then A else centered A

theorem alignment_real {n : Nat} (A B : Matrix (Fin n) (Fin n) ℝ) (zd : ZeroDiv) (already : Bool) :
    (NearZero (Real.sqrt (frobInner (centeredIf already A) (centeredIf already A))) ∨
      NearZero (Real.sqrt (frobInner (centeredIf already B) (centeredIf already B))) →
        alignmentCentered (Mat.ofReal A) (Mat.ofReal B) zd already =
          match zd with
          | .raise => .error .valueError
          | .value v => .ok v) ∧
    (¬ (NearZero (Real.sqrt (frobInner (centeredIf already A) (centeredIf already A))) ∨
      NearZero (Real.sqrt (frobInner (centeredIf already B) (centeredIf already B)))) →
        alignmentCentered (Mat.ofReal A) (Mat.ofReal B) zd already =
          .ok (.real (frobInner (centeredIf already A) (centeredIf already B) /
            (Real.sqrt (frobInner (centeredIf already A) (centeredIf already A)) *
              Real.sqrt (frobInner (centeredIf already B) (centeredIf already B)))))) := by
  have hc : ∀ A : Matrix (Fin n) (Fin n) ℝ, centerUnless already (Mat.ofReal A) =
      .ok (Mat.ofReal (centeredIf already A)) := by
    intro A
    cases already
    · exact centerKm_real A
    · rfl
  unfold alignmentCentered alignmentOf
  rw [if_neg (by simp [Mat.ofReal]), hc, hc]
  simp only [bind, Except.bind, frobeniusNorm_real, frobeniusProduct_real]
  constructor
  · intro h; rw [if_pos (h.imp (isClose_zero _).2 (isClose_zero _).2)]; cases zd <;> rfl
  · intro h
    rw [if_neg fun h' => h (h'.imp (isClose_zero _).1 (isClose_zero _).1)]
    push Not at h
    have h1 := pos_of_not_nearZero (Real.sqrt_nonneg _) h.1
    have h2 := pos_of_not_nearZero (Real.sqrt_nonneg _) h.2
    rw [real_mul, real_div _ _ (mul_pos h1 h2).ne']

theorem AlignmentIs.iff {n : Nat} {A B : Matrix (Fin n) (Fin n) ℝ} {already : Bool} {x : ℝ} :
    AlignmentIs A B already x ↔
    ¬ NearZero (Real.sqrt (frobInner (centeredIf already A) (centeredIf already A))) ∧
    ¬ NearZero (Real.sqrt (frobInner (centeredIf already B) (centeredIf already B))) ∧
    x = frobInner (centeredIf already A) (centeredIf already B) /
            (Real.sqrt (frobInner (centeredIf already A) (centeredIf already A)) *
              Real.sqrt (frobInner (centeredIf already B) (centeredIf already B))) := by
  have := alignment_real A B .raise already
  unfold AlignmentIs
  by_cases hz : NearZero (Real.sqrt (frobInner (centeredIf already A) (centeredIf already A))) ∨
        NearZero (Real.sqrt (frobInner (centeredIf already B) (centeredIf already B)))
  · rw [this.1 hz]; constructor
    · intro h; simp at h
    · rintro ⟨h1, h2, -⟩; exact (hz.elim h1 h2).elim
  · rw [this.2 hz]
    push Not at hz
    constructor
    · intro h
      injection h with h
      injection h with h
      exact ⟨hz.1, hz.2, h.symm⟩
    · rintro ⟨-, -, rfl⟩; rfl

theorem frobInner_sq_le {n m : Nat} (A B : Matrix (Fin n) (Fin m) ℝ) :
    frobInner A B ^ 2 ≤ frobInner A A * frobInner B B := by
  have := Finset.sum_mul_sq_le_sq_mul_sq (Finset.univ : Finset (Fin n × Fin m)) (fun p => A p.1 p.2) fun p => B p.1 p.2
  simp only [← Finset.univ_product_univ, Finset.sum_product] at this
  simpa only [frobInner, pow_two] using this

theorem frobInner_abs_le {n m : Nat} (A B : Matrix (Fin n) (Fin m) ℝ) :
    |frobInner A B| ≤ Real.sqrt (frobInner A A) * Real.sqrt (frobInner B B) := by
  rw [← Real.sqrt_mul (frobInner_self_nonneg A)]
  exact Real.abs_le_sqrt (frobInner_sq_le A B)

theorem frobInner_self_eq_zero {n m : Nat} (A : Matrix (Fin n) (Fin m) ℝ) : frobInner A A = 0 ↔ A = 0 := by
  constructor
  · intro h
    ext i j
    have h1 := (Finset.sum_eq_zero_iff_of_nonneg fun i _ => Finset.sum_nonneg fun j _ => mul_self_nonneg (A i j)).1 h i
      (Finset.mem_univ i)
    have h2 := (Finset.sum_eq_zero_iff_of_nonneg fun j _ => mul_self_nonneg (A i j)).1 h1 j (Finset.mem_univ j)
    exact mul_self_eq_zero.1 h2
  · rintro rfl; simp [frobInner]

theorem frobInner_comm {n m : Nat} (A B : Matrix (Fin n) (Fin m) ℝ) : frobInner A B = frobInner B A :=
  Finset.sum_congr rfl fun _ _ => Finset.sum_congr rfl fun _ _ => mul_comm _ _

theorem frobInner_smul {n m : Nat} (c : ℝ) (A B : Matrix (Fin n) (Fin m) ℝ) :
    frobInner (fun i j => c * A i j) B = c * frobInner A B := by
  simp only [frobInner, Finset.mul_sum, mul_assoc]

theorem frobInner_add {n m : Nat} (A A' B : Matrix (Fin n) (Fin m) ℝ) :
    frobInner (fun i j => A i j + A' i j) B = frobInner A B + frobInner A' B := by
  simp only [frobInner, add_mul, Finset.sum_add_distrib]

theorem centered_smul {n : Nat} (c : ℝ) (A : Matrix (Fin n) (Fin n) ℝ) :
    centered (fun i j => c * A i j) = fun i j => c * centered A i j := by
  funext i j
  simp only [centered, ← Finset.mul_sum]
  ring

theorem centered_add_const {n : Nat} (c : ℝ) (A : Matrix (Fin n) (Fin n) ℝ) :
    centered (fun i j => A i j + c) = centered A := by
  funext i j
  have hn : (n : ℝ) ≠ 0 := by
    have := i.pos
    positivity
  simp only [centered, Finset.sum_add_distrib, Finset.sum_const, Finset.card_univ, Fintype.card_fin, nsmul_eq_mul]
  field_simp
  ring

theorem centered_row_sum {n : Nat} (A : Matrix (Fin n) (Fin n) ℝ) (i : Fin n) : ∑ j, centered A i j = 0 := by
  have hn : (n : ℝ) ≠ 0 := by
    have := i.pos
    positivity
  simp only [centered, Finset.sum_add_distrib, Finset.sum_sub_distrib, Finset.sum_const, Finset.card_univ,
    Fintype.card_fin, nsmul_eq_mul, ← Finset.sum_div]
  rw [Finset.sum_comm (f := fun j l => A l j)]
  field_simp
  ring

theorem centered_col_sum {n : Nat} (A : Matrix (Fin n) (Fin n) ℝ) (j : Fin n) : ∑ i, centered A i j = 0 := by
  have hn : (n : ℝ) ≠ 0 := by
    have := j.pos
    positivity
  simp only [centered, Finset.sum_add_distrib, Finset.sum_sub_distrib, Finset.sum_const, Finset.card_univ,
    Fintype.card_fin, nsmul_eq_mul, ← Finset.sum_div]
  field_simp
  ring

theorem centered_centered {n : Nat} (A : Matrix (Fin n) (Fin n) ℝ) : centered (centered A) = centered A := by
  funext i j
  rw [centered]
  simp [centered_row_sum, centered_col_sum]

theorem centered_symm {n : Nat} {A : Matrix (Fin n) (Fin n) ℝ} (h : ∀ i j, A i j = A j i) (i j : Fin n) :
    centered A i j = centered A j i := by
  have h1 : ∑ l, A i l = ∑ l, A l i := Finset.sum_congr rfl fun l _ => h i l
  have h2 : ∑ l, A l j = ∑ l, A j l := Finset.sum_congr rfl fun l _ => h l j
  unfold centered
  rw [h i j, h1, h2]
  ring

/-! ### negative diagonal entries -/

theorem scaled_nan {n m : Nat} (d : Fin n → ℝ) (e : Fin m → ℝ) (K : Matrix (Fin n) (Fin m) ℝ)
    (h : ∀ i, d i ≠ 0) (h' : ∀ j, e j ≠ 0) (i : Fin n) (j : Fin m) :
    matmul (matmul (invSqrtDiag fun i => real (d i)) fun i j => real (K i j)) (invSqrtDiag fun j => real (e j)) i j =
      open Classical in if d i < 0 ∨ e j < 0 then nan else real (K i j / Real.sqrt (d i * e j)) := by
  have hD : ∀ {n : Nat} (d : Fin n → ℝ), (∀ i, d i ≠ 0) → ∀ i l, invSqrtDiag (fun i => real (d i)) i l =
      if d i < 0 ∧ i = l then nan else real (if i = l then 1 / Real.sqrt (d i) else 0) := by
    intro n d h i l
    unfold invSqrtDiag
    by_cases hil : i = l
    · subst hil
      by_cases hd : d i < 0
      · simp [hd, sqrt_neg, one_def]
      · rw [if_pos rfl, if_neg (by simp [hd]), if_pos rfl, sqrt_real _ (not_lt.1 hd), one_def, real_div]
        exact (Real.sqrt_pos.2 (lt_of_le_of_ne (not_lt.1 hd) (h i).symm)).ne'
    · simp [hil, zero_def]
  have hDK : ∀ l, matmul (invSqrtDiag fun i => real (d i)) (fun i j => real (K i j)) i l =
      if d i < 0 then nan else real (K i l / Real.sqrt (d i)) := by
    intro l
    unfold matmul
    by_cases hd : d i < 0
    · rw [if_pos hd]
      exact sum_nan _ i (by rw [hD d h, if_pos ⟨hd, rfl⟩]; rfl)
    · rw [if_neg hd]
      have : (fun l' => invSqrtDiag (fun i => real (d i)) i l' * real (K l' l)) =
          fun l' => real ((if i = l' then 1 / Real.sqrt (d i) else 0) * K l' l) := by
        funext l'
        rw [hD d h, if_neg (by simp [hd])]
        rfl
      rw [this, sum_real]
      simp only [ite_mul, zero_mul, Finset.sum_ite_eq, Finset.mem_univ, if_true]
      congr 1
      ring
  show F.sum _ = _
  by_cases hd : d i < 0
  · rw [if_pos (Or.inl hd)]
    exact sum_nan _ j (by rw [hDK, if_pos hd]; rfl)
  · by_cases he : e j < 0
    · rw [if_pos (Or.inr he)]
      exact sum_nan _ j (by rw [hD e h', if_pos ⟨he, rfl⟩]; simp)
    · rw [if_neg (by simp [hd, he])]
      have : (fun l => matmul (invSqrtDiag fun i => real (d i)) (fun i j => real (K i j)) i l * invSqrtDiag (fun j => real (e j)) l j) =
          fun l => real (K i l / Real.sqrt (d i) * (if l = j then 1 / Real.sqrt (e l) else 0)) := by
        funext l
        rw [hDK, if_neg hd, hD e h', if_neg ?_]
        · rfl
        · rintro ⟨h1, rfl⟩; exact he h1
      rw [this, sum_real]
      simp only [mul_ite, mul_zero, Finset.sum_ite_eq', Finset.mem_univ, if_true]
      rw [Real.sqrt_mul (not_lt.1 hd)]
      congr 1
      rw [div_mul_div_comm, mul_one]

/-! ### eigenvalues -/
open Matrix in
theorem eigen_ge_iff {n : Nat} {A : Matrix (Fin n) (Fin n) ℝ} (hA : A.IsHermitian) (t : ℝ) :
    (∀ l, t ≤ hA.eigenvalues l) ↔ ∀ x : Fin n → ℝ, t * ∑ i, x i * x i ≤ ∑ i, ∑ j, x i * A i j * x j := by
  constructor
  · intro h x
    -- A - t = U (Λ - t) U*
    have hpsd : (A - t • (1 : Matrix (Fin n) (Fin n) ℝ)).PosSemidef := by
      have hs := hA.spectral_theorem
      have e : A - t • (1 : Matrix (Fin n) (Fin n) ℝ) = (hA.eigenvectorUnitary : Matrix (Fin n) (Fin n) ℝ) *
          diagonal (fun l => hA.eigenvalues l - t) * (hA.eigenvectorUnitary : Matrix (Fin n) (Fin n) ℝ)ᴴ := by
        have h1 : diagonal (fun l => hA.eigenvalues l - t) = diagonal hA.eigenvalues - t • (1 : Matrix (Fin n) (Fin n) ℝ) := by
          rw [smul_one_eq_diagonal, diagonal_sub]
        have h2 : (hA.eigenvectorUnitary : Matrix (Fin n) (Fin n) ℝ) * (hA.eigenvectorUnitary : Matrix (Fin n) (Fin n) ℝ)ᴴ = 1 :=
          Unitary.coe_mul_star_self _
        rw [h1, mul_sub, sub_mul, mul_smul_comm, mul_one, smul_mul_assoc, h2]
        congr 1
      rw [e]
      exact PosSemidef.mul_mul_conjTranspose_same (PosSemidef.diagonal fun l => sub_nonneg.2 (h l)) _
    have := ((isPSD_iff _).2 hpsd).2 x
    have e2 : ∑ i, ∑ j, x i * (A - t • (1 : Matrix (Fin n) (Fin n) ℝ)) i j * x j =
        ∑ i, ∑ j, x i * A i j * x j - t * ∑ i, x i * x i := by
      simp only [Matrix.sub_apply, Matrix.smul_apply, Matrix.one_apply, smul_eq_mul, mul_sub, sub_mul, Finset.sum_sub_distrib, mul_ite, mul_one,
        mul_zero, ite_mul, zero_mul, Finset.sum_ite_eq, Finset.mem_univ, if_true, Finset.mul_sum]
      congr 1
      exact Finset.sum_congr rfl fun i _ => by ring
    rw [e2] at this
    linarith
  · intro h l
    have h1 := hA.eigenvalues_eq l
    set v : Fin n → ℝ := ⇑(hA.eigenvectorBasis l) with hv
    have h2 := h v
    have h3 : ∑ i, v i * v i = 1 := by
      have h4 := hA.eigenvectorBasis.orthonormal.1 l
      have h5 := EuclideanSpace.norm_sq_eq (hA.eigenvectorBasis l)
      rw [h4] at h5
      simp only [Real.norm_eq_abs, sq_abs, one_pow] at h5
      rw [h5]
      exact Finset.sum_congr rfl fun i _ => (pow_two _).symm
    rw [h3, mul_one] at h2
    rw [h1, dotProduct_mulVec_eq]
    exact h2

end KMethods
