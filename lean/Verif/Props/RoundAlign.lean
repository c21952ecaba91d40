import Verif.Lemmas.RoundRank
import Verif.Lemmas.RoundExact
import Verif.Lemmas.FloatEnv
/-!
# C75: centering, alignment and ranking in floating point arithmetic

The intended property: `center_km`, `frobenius_product`, `frobenius_norm`, `alignment_centered` and `find_optimal_kernel` compute, whatever the order of
summation, what they compute in exact arithmetic (C22, C23, C45), up to small errors. For alignments this needs centered matrices whose norms are clearly
above the threshold 10⁻⁸ below which `alignment_centered` takes them for zero (`…_partial`); that threshold is absolute, and rounding
errors of large entries exceed it (`C75_violated`).
-/
namespace KMethods
open F Rounding KMState PyM
variable {R : Rounding} {n m : Nat}

/-! ## centering -/

/-- **C75** `center_km`: whatever the orders of summation, if `|K_ij| ≤ s_i s_j`, every entry is within `γ_(2n+4) (s_i + s̄) (s_j + s̄)` of the exact one, where `s̄` is the
mean of `s`; the distance in the Frobenius norm is at most `4 γ_(2n+4) ∑ s_i²`. -/
theorem C75_center (o o' : SumOrder) {K : Matrix (Fin n) (Fin n) ℝ} {s : Fin n → ℝ} (hs : ∀ i j, |K i j| ≤ s i * s j) (hu : (2 * n + 4 : Nat) * R.u < 1) :
    ∃ C : Matrix (Fin n) (Fin n) ℝ, centerKmFl R o o' (Mat.ofReal K) = .ok (Mat.ofReal C) ∧
      (∀ i j, |C i j - centered K i j| ≤ R.gamma (2 * n + 4) * ((s i + (∑ l, s l) / n) * (s j + (∑ l, s l) / n))) ∧
      Real.sqrt (frobInner (C - centered K) (C - centered K)) ≤ R.gamma (2 * n + 4) * (4 * ∑ i, s i ^ 2) := by
  refine ⟨_, centerKmFl_real o o' K, fun i j => (centeredFl_err o o' hs i j).trans (mul_le_mul_of_nonneg_right (pow_w_le _ hu) ?_), ?_⟩
  · have := (abs_nonneg _).trans (centered_abs (c := 1) (fun i j => (hs i j).trans (one_mul _).ge) i j)
    rwa [one_mul] at this
  · have := centeredFl_dist (R := R) o o' le_rfl hs (fun i j => by rw [sub_self, abs_zero, zero_mul]) hu
    rw [vecE_sub, norm_vecE] at this
    refine this.trans (le_of_eq ?_)
    unfold Rounding.centerErr
    ring

/-- **C75** For a positive semidefinite matrix the distance is at most `4 γ_(2n+4)` times its trace. -/
theorem C75_center_psd (o o' : SumOrder) {K : Matrix (Fin n) (Fin n) ℝ} (hK : IsPSD K) (hu : (2 * n + 4 : Nat) * R.u < 1) :
    ∃ C : Matrix (Fin n) (Fin n) ℝ, centerKmFl R o o' (Mat.ofReal K) = .ok (Mat.ofReal C) ∧
      Real.sqrt (frobInner (C - centered K) (C - centered K)) ≤ R.gamma (2 * n + 4) * (4 * ∑ i, K i i) := by
  obtain ⟨C, e, -, h⟩ := C75_center (R := R) o o' (s := fun i => Real.sqrt (K i i)) (fun i j => by
    rw [← Real.sqrt_mul (hK.diag_nonneg i)]
    exact Real.abs_le_sqrt (hK.sq_le i j)) hu
  simp only [Real.sq_sqrt (hK.diag_nonneg _)] at h
  exact ⟨C, e, h⟩

/-- the all-ones matrix of size 3 in double precision -/
example : IsPSD (fun _ _ : Fin 3 => (1:ℝ)) ∧ ((2 * 3 + 4 : Nat) : ℝ) * (binary 53 (by norm_num)).u < 1 := by
  refine ⟨⟨fun _ _ => rfl, fun x => ?_⟩, by norm_num [binary]⟩
  simp only [Fin.sum_univ_three]
  nlinarith [sq_nonneg (x 0 + x 1 + x 2)]

/-- **C75** errors of `center_km`: a matrix that is not square, as in exact arithmetic (C22). -/
theorem C75_center_errors (o o' : SumOrder) (K : Mat F) (e : PyErr) : centerKmFl R o o' K = .error e ↔ centerKm K = .error e := by
  unfold centerKmFl centerKm
  split <;> simp

/-! ## Frobenius product and norm -/

/-- **C75** `frobenius_product` is within `γ_nm ‖A‖ ‖B‖` of the exact product; `frobenius_norm` has a relative error of at most `γ_(nm+1)`. -/
theorem C75_frobenius (t : FlatOrder) (A B : Matrix (Fin n) (Fin m) ℝ) (hu : (n * m + 1 : Nat) * R.u < 1) :
    (∃ p, frobeniusProductFl R t (Mat.ofReal A) (Mat.ofReal B) = .ok (.real p) ∧
      |p - frobInner A B| ≤ R.gamma (n * m) * (Real.sqrt (frobInner A A) * Real.sqrt (frobInner B B))) ∧
    ∃ v, frobeniusNormFl R t (Mat.ofReal A) = .ok (.real v) ∧ |v - Real.sqrt (frobInner A A)| ≤ R.gamma (n * m + 1) * Real.sqrt (frobInner A A) := by
  have hu' : ((n * m : Nat) : ℝ) * R.u < 1 := (mul_le_mul_of_nonneg_right (by push_cast; linarith) R.u_nonneg).trans_lt hu
  refine ⟨⟨_, frobeniusProductFl_real t A B, (frobFl_err t A B).trans (mul_le_mul_of_nonneg_right (pow_w_le _ hu') (by positivity))⟩,
    _, frobeniusNormFl_real t A, ?_⟩
  have := (normFl_rel (R := R) t A).err_gamma hu
  rwa [abs_of_nonneg (Real.sqrt_nonneg _)] at this

/-- **C75** errors of `frobenius_product`: different shapes, as in exact arithmetic (C23). -/
theorem C75_frobenius_errors (t : FlatOrder) (A B : Mat F) (e : PyErr) : frobeniusProductFl R t A B = .error e ↔ frobeniusProduct A B = .error e := by
  unfold frobeniusProductFl frobeniusProduct
  split <;> simp

/-! ## alignment -/

/-- **C75** For matrices said to be centered already: if `alignment_centered` returns a number other than the value for division by zero, it is within `γ_(3nm+4)` of the exact
alignment (the cosine of the angle between the matrices); so it is between `-1 - γ` and `1 + γ`. -/
theorem C75_align_centered (o : AlignOrders) (A B : Matrix (Fin n) (Fin m) ℝ) (hu : (3 * (n * m) + 4 : Nat) * R.u < 1) {v : F}
    (h : alignmentCenteredFl R o (Mat.ofReal A) (Mat.ofReal B) .raise true = .ok v) :
    ∃ x, v = .real x ∧ |x - frobInner A B / (Real.sqrt (frobInner A A) * Real.sqrt (frobInner B B))| ≤ R.gamma (3 * (n * m) + 4) ∧
      |x| ≤ 1 + R.gamma (3 * (n * m) + 4) := by
  have h' : alignmentOfFl R o (Mat.ofReal A) (Mat.ofReal B) .raise = .ok v := by
    unfold alignmentCenteredFl at h
    rw [if_neg (by rintro (h | h) <;> exact h rfl)] at h
    exact h
  obtain ⟨h1, h2⟩ := alignmentOfFl_real (R := R) o A B .raise
  by_cases hz : NearZero (R.normFl o.na A) ∨ NearZero (R.normFl o.nb B)
  · rw [h1 hz] at h'; cases h'
  · rw [h2 hz] at h'
    injection h' with h'
    push Not at hz
    have pos : ∀ {n m : Nat} (t : FlatOrder) (A : Matrix (Fin n) (Fin m) ℝ), ¬ NearZero (R.normFl t A) → 0 < Real.sqrt (frobInner A A) := by
      intro n m t A hz
      refine (Real.sqrt_nonneg _).lt_of_ne fun e => hz ?_
      have := (normFl_rel (R := R) t A).le
      rw [← e, abs_zero, mul_zero] at this
      exact this.trans (by norm_num)
    have hA := pos o.na A hz.1
    have hB := pos o.nb B hz.2
    have h3 := (alignFl_err (R := R) o hA hB).trans (pow_w_le _ hu)
    refine ⟨_, h'.symm, h3, ?_⟩
    have h4 : |frobInner A B / (Real.sqrt (frobInner A A) * Real.sqrt (frobInner B B))| ≤ 1 := by
      rw [abs_div, abs_of_pos (mul_pos hA hB), div_le_one (mul_pos hA hB)]
      exact frobInner_abs_le A B
    have h5 := abs_sub_abs_le_abs_sub (R.alignFl o A B) (frobInner A B / (Real.sqrt (frobInner A A) * Real.sqrt (frobInner B B)))
    linarith

/-- **C75** The same bounds without that option: the alignment of any two square matrices is between `-1 - γ` and `1 + γ`. -/
theorem C75_align_bounds (o : AlignOrders) (A B : Matrix (Fin n) (Fin n) ℝ) (already : Bool) (hu : (3 * (n * n) + 4 : Nat) * R.u < 1) {v : F}
    (h : alignmentCenteredFl R o (Mat.ofReal A) (Mat.ofReal B) .raise already = .ok v) : ∃ x, v = .real x ∧ |x| ≤ 1 + R.gamma (3 * (n * n) + 4) := by
  cases already with
  | true =>
    obtain ⟨x, hx, -, h2⟩ := C75_align_centered o A B hu h
    exact ⟨x, hx, h2⟩
  | false =>
    have h' : alignmentCenteredFl R o (Mat.ofReal (R.centeredFl o.a₁ o.a₂ A)) (Mat.ofReal (R.centeredFl o.b₁ o.b₂ B)) .raise true = .ok v := by
      rw [alignmentCenteredFl_real] at h
      unfold alignmentCenteredFl
      rw [if_neg (by rintro (h | h) <;> exact h rfl)]
      exact h
    obtain ⟨x, hx, -, h2⟩ := C75_align_centered o _ _ hu h'
    exact ⟨x, hx, h2⟩

/-- **C75** Exchanging the arguments, together with the orders of summation used for them, does not change the result, not even the last bit. -/
theorem C75_align_symmetric (o : AlignOrders) (A B : Mat F) (zd : ZeroDiv) (already : Bool) :
    alignmentCenteredFl R o A B zd already = alignmentCenteredFl R ⟨o.b₁, o.b₂, o.a₁, o.a₂, o.nb, o.na, o.p⟩ B A zd already := by
  unfold alignmentCenteredFl
  by_cases hne : A.nrows ≠ B.nrows ∨ A.ncols ≠ B.ncols
  · rw [if_pos hne, if_pos (hne.imp Ne.symm Ne.symm)]
  rw [if_neg hne, if_neg fun h => hne (h.imp Ne.symm Ne.symm)]
  obtain ⟨n, m, a⟩ := A
  obtain ⟨n', m', b⟩ := B
  push Not at hne
  obtain ⟨h1, h2⟩ := hne
  dsimp only at h1 h2
  subst h1 h2
  cases already with
  | true => exact alignmentOfFl_comm o a b zd
  | false =>
    by_cases hsq : n = m
    · simp only [centerUnlessFl, centerKmFl, if_pos hsq]
      exact alignmentOfFl_comm o _ _ zd
    · simp only [centerUnlessFl, centerKmFl, if_neg hsq]
      rfl

/-- **C75** The alignment of a matrix with itself is within γ of 1. -/
theorem C75_align_self (o : AlignOrders) (A : Matrix (Fin n) (Fin m) ℝ) (hu : (3 * (n * m) + 4 : Nat) * R.u < 1) {v : F}
    (h : alignmentCenteredFl R o (Mat.ofReal A) (Mat.ofReal A) .raise true = .ok v) : ∃ x, v = .real x ∧ |x - 1| ≤ R.gamma (3 * (n * m) + 4) := by
  obtain ⟨x, hx, h1, -⟩ := C75_align_centered o A A hu h
  refine ⟨x, hx, ?_⟩
  by_cases h0 : frobInner A A = 0
  · exfalso
    have h' : alignmentOfFl R o (Mat.ofReal A) (Mat.ofReal A) .raise = .ok v := by
      unfold alignmentCenteredFl at h
      rw [if_neg (by rintro (h | h) <;> exact h rfl)] at h
      exact h
    have hz : NearZero (R.normFl o.na A) := by
      have := (normFl_rel (R := R) o.na A).le
      rw [h0, Real.sqrt_zero, abs_zero, mul_zero] at this
      exact this.trans (by norm_num)
    rw [(alignmentOfFl_real (R := R) o A A .raise).1 (Or.inl hz)] at h'
    cases h'
  · rwa [Real.mul_self_sqrt (frobInner_self_nonneg A), div_self h0] at h1

/-- **C75** Errors of `alignment_centered` before the norms are looked at: different shapes, or (unless said to be centered already) matrices that are not square. -/
theorem C75_align_shape_errors (o : AlignOrders) (A B : Mat F) (zd : ZeroDiv) (already : Bool)
    (h : (A.nrows ≠ B.nrows ∨ A.ncols ≠ B.ncols) ∨ (already = false ∧ A.nrows ≠ A.ncols)) :
    alignmentCenteredFl R o A B zd already = .error .valueError ∧ alignmentCentered A B zd already = .error .valueError := by
  unfold alignmentCenteredFl alignmentCentered
  by_cases hne : A.nrows ≠ B.nrows ∨ A.ncols ≠ B.ncols
  · rw [if_pos hne, if_pos hne]
    exact ⟨rfl, rfl⟩
  · obtain ⟨rfl, hsq⟩ := h.resolve_left hne
    rw [if_neg hne, if_neg hne]
    simp only [centerUnlessFl, centerKmFl, centerUnless, centerKm, if_neg hsq]
    exact ⟨rfl, rfl⟩

/-- **C75** Partial: let `A'`, `B'` be approximations, with errors up to `η s_i s_j` and `θ t_i t_j`, of matrices `A`, `B` with entries bounded by `s_i s_j` and `t_i t_j`. If the
centered norms of `A` and `B` are clearly above the threshold 10⁻⁸, then the computed alignment of `A'` and `B'` exists and differs from the exact alignment of `A` and `B` by at most
`alignErr`: twice the relative errors of the centered matrices, plus `γ_(3n²+4)`. -/
theorem C75_align_partial (o : AlignOrders) {A B A' B' : Matrix (Fin n) (Fin n) ℝ} {s t : Fin n → ℝ} {η θ : ℝ} (hη : 0 ≤ η) (hθ : 0 ≤ θ)
    (hs : ∀ i j, |A i j| ≤ s i * s j) (ht : ∀ i j, |B i j| ≤ t i * t j) (hA : ∀ i j, |A' i j - A i j| ≤ η * (s i * s j))
    (hB : ∀ i j, |B' i j - B i j| ≤ θ * (t i * t j)) (hu : (3 * (n * n) + 2 * n + 4 : Nat) * R.u < 1)
    (cA : R.ClearlyNonzero n (R.centerErr n η (∑ i, s i ^ 2)) (cnorm A)) (cB : R.ClearlyNonzero n (R.centerErr n θ (∑ i, t i ^ 2)) (cnorm B))
    (zd : ZeroDiv) :
    ∃ v, alignmentCenteredFl R o (Mat.ofReal A') (Mat.ofReal B') zd false = .ok (.real v) ∧
      |v - frobInner (centered A) (centered B) / (cnorm A * cnorm B)| ≤
        R.alignErr n (R.centerErr n η (∑ i, s i ^ 2)) (cnorm A) (R.centerErr n θ (∑ i, t i ^ 2)) (cnorm B) :=
  alignmentFl_near o hη hθ hs ht hA hB hu cA cB zd

/-- **C75** Division by zero: if the centered norm of one of the matrices is clearly below the threshold, the caller's choice is made, as in exact arithmetic. -/
theorem C75_zero_division (o : AlignOrders) {A B : Matrix (Fin n) (Fin n) ℝ} {s : Fin n → ℝ} (hs : ∀ i j, |A i j| ≤ s i * s j)
    (hu : (n * n + 2 * n + 4 : Nat) * R.u < 1) (hA : (1 + R.gamma (n * n + 1)) * (cnorm A + R.centerErr n 0 (∑ i, s i ^ 2)) ≤ 1e-8) :
    (∀ v, alignmentCenteredFl R o (Mat.ofReal A) (Mat.ofReal B) (.value v) false = .ok v) ∧
    alignmentCenteredFl R o (Mat.ofReal A) (Mat.ofReal B) .raise false = .error .valueError ∧
    (∀ v, alignmentCenteredFl R o (Mat.ofReal B) (Mat.ofReal A) (.value v) false = .ok v) ∧
    alignmentCenteredFl R o (Mat.ofReal B) (Mat.ofReal A) .raise false = .error .valueError := by
  have hle : ∀ k : Nat, k ≤ n * n + 2 * n + 4 → (k : ℝ) * R.u < 1 := fun k hk =>
    (mul_le_mul_of_nonneg_right (by exact_mod_cast hk) R.u_nonneg).trans_lt hu
  have key : ∀ (o₁ o₂ : SumOrder) (t : FlatOrder), NearZero (R.normFl t (R.centeredFl o₁ o₂ A)) := fun o₁ o₂ t => by
    refine normFl_nearZero t (hle _ (by omega)) (le_trans (mul_le_mul_of_nonneg_left ?_ ?_) hA)
    · have h1 := centeredFl_dist (R := R) o₁ o₂ le_rfl hs (fun i j => by rw [sub_self, abs_zero, zero_mul]) (hle _ (by nlinarith))
      have h2 := norm_sub_norm_le (vecE (R.centeredFl o₁ o₂ A)) (vecE (centered A))
      rw [cnorm_eq]
      linarith
    · linarith [gamma_nonneg (R := R) (hle (n * n + 1) (by omega))]
  refine ⟨fun v => ?_, ?_, fun v => ?_, ?_⟩
  · rw [alignmentCenteredFl_real, (alignmentOfFl_real o _ _ _).1 (Or.inl (key _ _ _))]
  · rw [alignmentCenteredFl_real, (alignmentOfFl_real o _ _ _).1 (Or.inl (key _ _ _))]
  · rw [alignmentCenteredFl_real, (alignmentOfFl_real o _ _ _).1 (Or.inr (key _ _ _))]
  · rw [alignmentCenteredFl_real, (alignmentOfFl_real o _ _ _).1 (Or.inr (key _ _ _))]

/-- the hypotheses of `C75_align_partial`: a kernel matrix and the matrix `y yᵀ`, in double precision -/
example : (3 * (2 * 2) + 2 * 2 + 4 : Nat) * (binary 53 (by norm_num)).u < 1 ∧ (∀ i j, |outerR 2 ![1, -1] i j| ≤ |(![1, -1] : Fin 2 → ℝ) i| * |(![1, -1] : Fin 2 → ℝ) j|) ∧
    (binary 53 (by norm_num)).ClearlyNonzero 2 ((binary 53 (by norm_num)).centerErr 2 1e-10 2) (cnorm (outerR 2 ![1, -1])) := by
  have h : cnorm (outerR 2 ![1, -1]) = 2 := by
    rw [cnorm, show frobInner (centered (outerR 2 ![1, -1])) (centered (outerR 2 ![1, -1])) = 2 ^ 2 by
      simp only [frobInner, centered, outerR, Fin.sum_univ_two]
      norm_num, Real.sqrt_sq (by norm_num)]
  refine ⟨by norm_num [binary], fun i j => (abs_mul _ _).le, ?_⟩
  rw [h]
  norm_num [Rounding.ClearlyNonzero, Rounding.centerErr, Rounding.gamma, binary]

/-- the hypothesis of `C75_zero_division`: constant matrices, with entries up to 10⁵ -/
example (c : ℝ) (h0 : 0 ≤ c) (hc : c ≤ 1e5) : (∀ i j, |Matrix.of (fun _ _ : Fin 3 => c) i j| ≤ (fun _ : Fin 3 => Real.sqrt c) i * (fun _ : Fin 3 => Real.sqrt c) j) ∧
    (1 + (binary 53 (by norm_num)).gamma (3 * 3 + 1)) *
      (cnorm (Matrix.of fun _ _ : Fin 3 => c) + (binary 53 (by norm_num)).centerErr 3 0 (∑ i, (fun _ : Fin 3 => Real.sqrt c) i ^ 2)) ≤ 1e-8 := by
  refine ⟨fun i j => ?_, ?_⟩
  · dsimp only [Matrix.of_apply]
    rw [Real.mul_self_sqrt h0, abs_of_nonneg h0]
  have h1 : cnorm (Matrix.of fun _ _ : Fin 3 => c) = 0 := by
    rw [cnorm, show centered (Matrix.of fun _ _ : Fin 3 => c) = 0 by
      ext i j
      simp only [centered, Fin.sum_univ_three, Matrix.of_apply, Matrix.zero_apply]
      push_cast
      ring]
    simp [frobInner]
  rw [h1]
  simp only [Real.sq_sqrt h0, Fin.sum_univ_three]
  norm_num [Rounding.centerErr, Rounding.gamma, binary]
  linarith

/-! ## ranking -/

section
variable {K X : Type} {env : Env K X F}

/-- **C75** Partial: `find_optimal_kernel(bucket, sample, y, method='align/corr')` when the matrices `km.full` are approximations `H r` of matrices `G r`, and no centered norm is
near the threshold: a kernel is chosen whose exact alignment with `y yᵀ` is the largest up to `2 δ`, where `δ` bounds the errors of alignments. -/
theorem C75_best_partial (o : Nat → AlignOrders) {s : SetSt K X} {A : Arr2 X} (y : Fin A.nrows → ℝ) (hn : s.set.numSamples = .unset ∨ s.set.numSamples = .one A.nrows)
    (hne : s.set.members ≠ []) {H G : Nat → Matrix (Fin A.nrows) (Fin A.nrows) ℝ} (hH : ∀ r ∈ s.set.members, s.heap.MatrixOn env r A (Mat.ofReal (H r)))
    {t : Nat → Fin A.nrows → ℝ} {η : Nat → ℝ} (hη : ∀ r ∈ s.set.members, 0 ≤ η r) (ht : ∀ r ∈ s.set.members, ∀ i j, |G r i j| ≤ t r i * t r j)
    (hHG : ∀ r ∈ s.set.members, ∀ i j, |H r i j - G r i j| ≤ η r * (t r i * t r j))
    (hu : (3 * (A.nrows * A.nrows) + 2 * A.nrows + 4 : Nat) * R.u < 1)
    (hc : ∀ r ∈ s.set.members, R.ClearlyNonzero A.nrows (R.centerErr A.nrows (η r) (∑ i, t r i ^ 2)) (cnorm (G r)))
    (hy : R.ClearlyNonzero A.nrows (R.centerErr A.nrows R.u (∑ i, y i ^ 2)) (cnorm (outerR A.nrows y))) {δ : ℝ}
    (hδ : ∀ r ∈ s.set.members, R.alignErr A.nrows (R.centerErr A.nrows (η r) (∑ i, t r i ^ 2)) (cnorm (G r)) (R.centerErr A.nrows R.u (∑ i, y i ^ 2))
      (cnorm (outerR A.nrows y)) ≤ δ) :
    ∃ r s', findOptimalAlignFl env R o (sampleArg A) ((List.ofFn y).map .real) {} s = (.ok r, s') ∧ s.NowAttached env s' A ∧ r ∈ s.set.members ∧
      ∀ q ∈ s.set.members, calign (G q) (outerR A.nrows y) ≤ calign (G r) (outerR A.nrows y) + 2 * δ := by
  have hu0 := R.u_nonneg
  have hle : ∀ k : Nat, k ≤ 3 * (A.nrows * A.nrows) + 2 * A.nrows + 4 → (k : ℝ) * R.u < 1 := fun k hk =>
    (mul_le_mul_of_nonneg_right (by exact_mod_cast hk) hu0).trans_lt hu
  have ey : ∑ i, |y i| ^ 2 = ∑ i, y i ^ 2 := Finset.sum_congr rfl fun i _ => sq_abs _
  have hval : ∀ r ∈ s.set.members, ∃ v, alignmentCenteredFl R (o r) (Mat.ofReal (H r)) (idealKernelFl R ((List.ofFn y).map .real)) (.value 0) false = .ok (.real v) ∧
      |v - calign (G r) (outerR A.nrows y)| ≤ δ := by
    intro r hr
    obtain ⟨v, e, h⟩ := alignmentFl_near (R := R) (o r) (hη r hr) hu0 (ht r hr) (t := fun i => |y i|) (B := outerR A.nrows y) (fun i j => (abs_mul _ _).le) (hHG r hr)
      (B' := fun i j => R.fl (y i * y j)) (fun i j => by rw [← abs_mul]; exact R.err _) hu (hc r hr) (by rw [ey]; exact hy) (.value 0)
    refine ⟨v, by rw [idealKernelFl_real]; exact e, ?_⟩
    rw [ey] at h
    rw [calign_eq]
    · exact h.trans (hδ r hr)
    · exact clearly_not_nearZero (centerErr_nonneg (hη r hr) (Finset.sum_nonneg fun i _ => sq_nonneg _) (hle _ (by omega))) (hle _ (by nlinarith)) (hc r hr)
    · exact clearly_not_nearZero (centerErr_nonneg hu0 (Finset.sum_nonneg fun i _ => sq_nonneg _) (hle _ (by omega))) (hle _ (by nlinarith)) hy
  choose! sc hsc using hval
  obtain ⟨s1, e1, h1⟩ := attach_nowAttached (env := env) hn fun r hr => by
    obtain ⟨k, norm, h, -⟩ := hH r hr
    exact ⟨k, norm, h⟩
  obtain ⟨s2, e2, h2⟩ := alignRankingFl_run (R := R) h1 o ((List.ofFn y).map .real) hH (sc := fun r => .real (sc r)) fun r hr => (hsc r hr).1
  obtain ⟨i, e3, hi⟩ := argmaxF_real (xs := s.set.members.map sc) (by simpa using hne)
  obtain ⟨r, hr, hb⟩ := best_of_inexact (fun r hr => (hsc r hr).2) hi
  rw [List.map_map] at e3
  exact ⟨r, s2, findOptimalAlignFl_run e1 e2 e3 (by rw [h2.1]; exact hr), h2, List.mem_of_getElem? hr, hb⟩

end

/-- **C75** Partial: the same for the numeric kernels, from data to choice: kernels are evaluated, matrices normalised (or not) and centered, alignments computed and compared in floating point
arithmetic. If no self-kernel (of a normalising member) and no centered norm is near its threshold, the chosen kernel has the largest exact alignment with `y yᵀ`, up to `2 δ`. -/
theorem C75_best_kernel_partial {env : Env NumKernel (List ℝ) F} (henv : FloatEnv R env) (o : Nat → AlignOrders) {s : SetSt NumKernel (List ℝ)} {A : Arr2 (List ℝ)}
    (y : Fin A.nrows → ℝ) (hn : s.set.numSamples = .unset ∨ s.set.numSamples = .one A.nrows) (hne : s.set.members ≠ [])
    {k : Nat → NumKernel} {norm : Nat → Bool} {K : Nat → Matrix (Fin A.nrows) (Fin A.nrows) ℝ}
    (hk : ∀ r ∈ s.set.members, s.heap.IsKM env r (k r) (norm r) ∧ (k r).ValidOn A ∧ (k r).IsGram A (K r) ∧ 2 * ((k r).roundings A.ncols * R.u) < 1 ∧
      (norm r = true → ∀ i, 1e-8 < (1 - R.gamma ((k r).roundings A.ncols)) * K r i i))
    (hu : (3 * (A.nrows * A.nrows) + 2 * A.nrows + 12 : Nat) * R.u < 1)
    (hc : ∀ r ∈ s.set.members, R.ClearlyNonzero A.nrows
      (R.centerErr A.nrows (R.fullErr (norm r) ((k r).roundings A.ncols)) (∑ i, normIf (norm r) (K r) i i)) (cnorm (normIf (norm r) (K r))))
    (hy : R.ClearlyNonzero A.nrows (R.centerErr A.nrows R.u (∑ i, y i ^ 2)) (cnorm (outerR A.nrows y))) {δ : ℝ}
    (hδ : ∀ r ∈ s.set.members, R.alignErr A.nrows
      (R.centerErr A.nrows (R.fullErr (norm r) ((k r).roundings A.ncols)) (∑ i, normIf (norm r) (K r) i i)) (cnorm (normIf (norm r) (K r)))
      (R.centerErr A.nrows R.u (∑ i, y i ^ 2)) (cnorm (outerR A.nrows y)) ≤ δ) :
    ∃ r s', findOptimalAlignFl env R o (sampleArg A) ((List.ofFn y).map .real) {} s = (.ok r, s') ∧ s.NowAttached env s' A ∧ r ∈ s.set.members ∧
      ∀ q ∈ s.set.members, calign (normIf (norm q) (K q)) (outerR A.nrows y) ≤ calign (normIf (norm r) (K r)) (outerR A.nrows y) + 2 * δ := by
  have hu0 := R.u_nonneg
  have hle : ∀ k : Nat, k ≤ 3 * (A.nrows * A.nrows) + 2 * A.nrows + 12 → (k : ℝ) * R.u < 1 := fun k hk =>
    (mul_le_mul_of_nonneg_right (by exact_mod_cast hk) hu0).trans_lt hu
  have h12 : 12 * R.u < 1 := by exact_mod_cast hle 12 (by omega)
  have hH : ∀ r ∈ s.set.members, ∃ H : Matrix (Fin A.nrows) (Fin A.nrows) ℝ, s.heap.MatrixOn env r A (Mat.ofReal H) ∧ IsPSD (normIf (norm r) (K r)) ∧
      ∀ i j, |H i j - normIf (norm r) (K r) i j| ≤
        R.fullErr (norm r) ((k r).roundings A.ncols) * (Real.sqrt (normIf (norm r) (K r) i i) * Real.sqrt (normIf (norm r) (K r) j j)) := by
    intro r hr
    obtain ⟨h1, h2, h3, h4, h5⟩ := hk r hr
    exact henv.matrixOn h2 h1 h4 h12 h3 h5
  choose! H hH1 hH2 hH3 using hH
  have et : ∀ r ∈ s.set.members, ∑ i, Real.sqrt (normIf (norm r) (K r) i i) ^ 2 = ∑ i, normIf (norm r) (K r) i i := fun r hr =>
    Finset.sum_congr rfl fun i _ => Real.sq_sqrt ((hH2 r hr).diag_nonneg i)
  have hη : ∀ r ∈ s.set.members, 0 ≤ R.fullErr (norm r) ((k r).roundings A.ncols) := by
    intro r hr
    obtain ⟨-, -, -, h4, -⟩ := hk r hr
    have h5 : 0 ≤ (k r).roundings A.ncols * R.u := mul_nonneg (Nat.cast_nonneg _) hu0
    have h6 : 0 ≤ R.gamma ((k r).roundings A.ncols) := gamma_nonneg (by linarith)
    unfold Rounding.fullErr
    split
    · refine normErr_nonneg h6 ?_ (by linarith)
      rw [Rounding.gamma, div_lt_one (by linarith)]
      linarith
    · exact h6
  exact C75_best_partial o y hn hne hH1 (t := fun r i => Real.sqrt (normIf (norm r) (K r) i i)) hη
    (fun r hr i j => by
      rw [← Real.sqrt_mul ((hH2 r hr).diag_nonneg i)]
      exact Real.abs_le_sqrt ((hH2 r hr).sq_le i j))
    hH3 (hle _ (by omega)) (fun r hr => by rw [et r hr]; exact hc r hr) hy fun r hr => by rw [et r hr]; exact hδ r hr

/-- **C75** Partial: if the exact alignment of one member exceeds that of every other member by more than `2 δ`, then this member is chosen, whatever the roundings and the orders of summation. -/
theorem C75_clear_winner_partial {env : Env NumKernel (List ℝ) F} (henv : FloatEnv R env) (o : Nat → AlignOrders) {s : SetSt NumKernel (List ℝ)} {A : Arr2 (List ℝ)}
    (y : Fin A.nrows → ℝ) (hn : s.set.numSamples = .unset ∨ s.set.numSamples = .one A.nrows) {w : Nat} (hw : w ∈ s.set.members)
    {k : Nat → NumKernel} {norm : Nat → Bool} {K : Nat → Matrix (Fin A.nrows) (Fin A.nrows) ℝ}
    (hk : ∀ r ∈ s.set.members, s.heap.IsKM env r (k r) (norm r) ∧ (k r).ValidOn A ∧ (k r).IsGram A (K r) ∧ 2 * ((k r).roundings A.ncols * R.u) < 1 ∧
      (norm r = true → ∀ i, 1e-8 < (1 - R.gamma ((k r).roundings A.ncols)) * K r i i))
    (hu : (3 * (A.nrows * A.nrows) + 2 * A.nrows + 12 : Nat) * R.u < 1)
    (hc : ∀ r ∈ s.set.members, R.ClearlyNonzero A.nrows
      (R.centerErr A.nrows (R.fullErr (norm r) ((k r).roundings A.ncols)) (∑ i, normIf (norm r) (K r) i i)) (cnorm (normIf (norm r) (K r))))
    (hy : R.ClearlyNonzero A.nrows (R.centerErr A.nrows R.u (∑ i, y i ^ 2)) (cnorm (outerR A.nrows y))) {δ : ℝ}
    (hδ : ∀ r ∈ s.set.members, R.alignErr A.nrows
      (R.centerErr A.nrows (R.fullErr (norm r) ((k r).roundings A.ncols)) (∑ i, normIf (norm r) (K r) i i)) (cnorm (normIf (norm r) (K r)))
      (R.centerErr A.nrows R.u (∑ i, y i ^ 2)) (cnorm (outerR A.nrows y)) ≤ δ)
    (hwin : ∀ q ∈ s.set.members, q ≠ w → calign (normIf (norm q) (K q)) (outerR A.nrows y) + 2 * δ < calign (normIf (norm w) (K w)) (outerR A.nrows y)) :
    ∃ s', findOptimalAlignFl env R o (sampleArg A) ((List.ofFn y).map .real) {} s = (.ok w, s') ∧ s.NowAttached env s' A := by
  obtain ⟨r, s', e, h1, h2, h3⟩ := C75_best_kernel_partial henv o y hn (List.ne_nil_of_mem hw) hk hu hc hy hδ
  by_cases hr : r = w
  · subst hr
    exact ⟨s', e, h1⟩
  · linarith [h3 w hw, hwin r h2 hr]

section
/-- three samples with one feature each -/
private def rows3 : Arr2 (List ℝ) := ⟨3, 1, fun i => [if i = 0 then 3 else if i = 1 then -1 else -2]⟩
/-- their matrices for the linear kernel and for the polynomial kernel of degree 2 -/
private def mats3 (r : Nat) : Matrix (Fin 3) (Fin 3) ℝ := outerR 3 (if r = 0 then ![3, -1, -2] else ![9, 1, 4])
private def kers3 (r : Nat) : NumKernel := if r = 0 then .linear else .poly 2 1 0
/-- a set of these two kernels -/
private def set3 : SetSt NumKernel (List ℝ) :=
  ⟨⟨fun r => some (.km (KMState.init (kers3 r) false 0)), 2⟩, ⟨[0, 1], .unset, true⟩⟩

private theorem frob3 (a b c p q r : ℝ) : frobInner (centered (outerR 3 ![a, b, c])) (centered (outerR 3 ![p, q, r])) =
    (a * p + b * q + c * r - (a + b + c) * (p + q + r) / 3) ^ 2 := by
  have h : ∀ v w : Fin 3 → ℝ, frobInner (centered (outerR 3 v)) (centered (outerR 3 w)) =
      (v 0 * w 0 + v 1 * w 1 + v 2 * w 2 - (v 0 + v 1 + v 2) * (w 0 + w 1 + w 2) / 3) ^ 2 := fun v w => by
    simp only [frobInner, centered, outerR, Fin.sum_univ_three]
    push_cast
    ring
  exact h _ _

/-- the hypotheses of `C75_best_kernel_partial` and `C75_clear_winner_partial`: two kernels, not normalising, on three samples, in double precision. The targets (1, -1, 0) are better
explained by the squares of the features 3, -1, -2 than by the features. -/
example (o : Nat → AlignOrders) :
    ∃ s', findOptimalAlignFl (floatEnv (binary 53 (by norm_num))) (binary 53 (by norm_num)) o (sampleArg rows3) ((List.ofFn (n := 3) ![1, -1, 0]).map .real) {} set3 = (.ok 1, s') := by
  have hm0 : mats3 0 = outerR 3 ![3, -1, -2] := rfl
  have hm1 : mats3 1 = outerR 3 ![9, 1, 4] := rfl
  have hc0 : cnorm (mats3 0) = 14 := by
    rw [cnorm, hm0, frob3, Real.sqrt_sq (by norm_num)]; norm_num
  have hc1 : cnorm (mats3 1) = 98 / 3 := by
    rw [cnorm, hm1, frob3, Real.sqrt_sq (by norm_num)]; norm_num
  have hcy : cnorm (outerR 3 ![1, -1, 0]) = 2 := by
    rw [cnorm, frob3, Real.sqrt_sq (by norm_num)]; norm_num
  have ht0 : ∑ i, normIf false (mats3 0) i i = 14 := by
    rw [Fin.sum_univ_three]
    show (3:ℝ) * 3 + -1 * -1 + -2 * -2 = 14
    norm_num
  have ht1 : ∑ i, normIf false (mats3 1) i i = 98 := by
    rw [Fin.sum_univ_three]
    show (9:ℝ) * 9 + 1 * 1 + 4 * 4 = 98
    norm_num
  have hty : ∑ i, (![1, -1, 0] : Fin 3 → ℝ) i ^ 2 = 2 := by
    rw [Fin.sum_univ_three]
    show (1:ℝ) ^ 2 + (-1) ^ 2 + 0 ^ 2 = 2
    norm_num
  have hrow : ∀ i : Fin 3, rows3.row i = [(![3, -1, -2] : Fin 3 → ℝ) i] := fun i => by
    fin_cases i <;> simp [rows3]
  have hsq : ∀ i : Fin 3, (![9, 1, 4] : Fin 3 → ℝ) i = (![3, -1, -2] : Fin 3 → ℝ) i ^ 2 := fun i => by
    fin_cases i <;> norm_num
  have hz : ∀ x : ℝ, 1 ≤ x → ¬ NearZero x := fun x hx h => by
    rw [NearZero, abs_of_nonneg (by linarith)] at h
    norm_num at h
    linarith
  have hmem : ∀ r ∈ set3.set.members, r = 0 ∨ r = 1 := fun r hr => by simpa [set3] using hr
  obtain ⟨s', e, -⟩ := C75_clear_winner_partial (floatEnv_ok (binary 53 (by norm_num))) o (s := set3) (A := rows3) ![1, -1, 0] (Or.inl rfl) (w := 1) (by simp [set3])
    (k := kers3) (norm := fun _ => false) (K := mats3) (δ := 1e-6)
    (by
      intro r hr
      refine ⟨⟨_, rfl, .new 0⟩, ⟨fun _ _ => rfl, ?_⟩, ?_, ?_, by intro h; cases h⟩
      · rcases hmem r hr with rfl | rfl
        · trivial
        · exact ⟨by norm_num, by norm_num, by norm_num⟩
      · intro i j
        rw [call_vec (x := rows3.row i) (y := rows3.row j) (kers3 r) rfl, hrow i, hrow j]
        rcases hmem r hr with rfl | rfl
        · show Except.ok (real (List.sum [_])) = _
          rw [List.sum_singleton]
          rfl
        · show Except.ok (intPow (0 + 1 * List.sum [_]) 2) = .ok (.real ((![9, 1, 4] : Fin 3 → ℝ) i * (![9, 1, 4] : Fin 3 → ℝ) j))
          rw [List.sum_singleton, intPow, if_neg (by norm_num), hsq i, hsq j, zero_add, one_mul, mul_zpow]
          norm_cast
      · show 2 * (((kers3 r).roundings 1 : Nat) * (binary 53 (by norm_num)).u) < 1
        rcases hmem r hr with rfl | rfl
        · show 2 * ((1 : Nat) * (binary 53 (by norm_num)).u) < 1
          norm_num [binary]
        · show 2 * ((7 : Nat) * (binary 53 (by norm_num)).u) < 1
          norm_num [binary])
    (by norm_num [rows3, binary])
    (by
      intro r hr
      have e : ∀ r, cnorm (normIf false (mats3 r)) = cnorm (mats3 r) := fun _ => rfl
      show Rounding.ClearlyNonzero _ 3 (Rounding.centerErr _ 3 (Rounding.fullErr _ false ((kers3 r).roundings 1)) (∑ i : Fin 3, normIf (n := 3) false (mats3 r) i i)) (cnorm (n := 3) (normIf false (mats3 r)))
      rcases hmem r hr with rfl | rfl
      · rw [ht0, e, hc0, show (kers3 0).roundings 1 = 1 from rfl]
        norm_num [Rounding.ClearlyNonzero, Rounding.centerErr, Rounding.fullErr, Rounding.gamma, binary]
      · rw [ht1, e, hc1, show (kers3 1).roundings 1 = 7 from rfl]
        norm_num [Rounding.ClearlyNonzero, Rounding.centerErr, Rounding.fullErr, Rounding.gamma, binary])
    (by
      show Rounding.ClearlyNonzero _ 3 (Rounding.centerErr _ 3 _ (∑ i : Fin 3, (![1, -1, 0] : Fin 3 → ℝ) i ^ 2)) (cnorm (outerR 3 ![1, -1, 0]))
      rw [hcy, hty]
      norm_num [Rounding.ClearlyNonzero, Rounding.centerErr, Rounding.gamma, binary])
    (by
      intro r hr
      have e : ∀ r, cnorm (normIf false (mats3 r)) = cnorm (mats3 r) := fun _ => rfl
      show Rounding.alignErr _ 3 (Rounding.centerErr _ 3 (Rounding.fullErr _ false ((kers3 r).roundings 1)) (∑ i : Fin 3, normIf (n := 3) false (mats3 r) i i)) (cnorm (n := 3) (normIf false (mats3 r))) (Rounding.centerErr _ 3 _ (∑ i : Fin 3, (![1, -1, 0] : Fin 3 → ℝ) i ^ 2)) (cnorm (outerR 3 ![1, -1, 0])) ≤ _
      rw [hcy, hty]
      rcases hmem r hr with rfl | rfl
      · rw [ht0, e, hc0, show (kers3 0).roundings 1 = 1 from rfl]
        norm_num [Rounding.alignErr, Rounding.centerErr, Rounding.fullErr, Rounding.gamma, binary]
      · rw [ht1, e, hc1, show (kers3 1).roundings 1 = 7 from rfl]
        norm_num [Rounding.alignErr, Rounding.centerErr, Rounding.fullErr, Rounding.gamma, binary])
    (by
      intro q hq hne
      obtain rfl := (hmem q hq).resolve_right hne
      show calign (n := 3) (mats3 0) (outerR 3 ![1, -1, 0]) + _ < calign (n := 3) (mats3 1) (outerR 3 ![1, -1, 0])
      rw [calign_eq (by rw [hc0]; exact hz _ (by norm_num)) (by rw [hcy]; exact hz _ (by norm_num)),
        calign_eq (by rw [hc1]; exact hz _ (by norm_num)) (by rw [hcy]; exact hz _ (by norm_num)), hc0, hc1, hcy, hm0, hm1, frob3, frob3]
      norm_num)
  exact ⟨s', e⟩
end

/-! ## the threshold -/

private theorem rep {v : ℝ} (m e : ℤ) (hv : v = m * 2 ^ e) (hm : |m| < 2 ^ 53) : nearest 53 v = v := by rw [hv, nearest_repr m e hm]

/-- the centering matrix of size 3 in double precision -/
private theorem cen_three (i j : Fin 3) : (binary 53 (by norm_num)).cen 3 i j =
    if i = j then 6004799503160662 * 2 ^ (-53 : ℤ) else -(6004799503160661 * 2 ^ (-54 : ℤ)) := by
  have ha : nearest 53 (1 / (3 : Nat)) = 6004799503160661 * 2 ^ (-54 : ℤ) := by
    have := nearest_tie (p := 53) (y := 1 / (3 : Nat)) (e := -54) (m := 6004799503160661) (by norm_num) (by norm_num) (by norm_num) (by norm_num)
    rw [this]; norm_num
  show nearest 53 (_ - nearest 53 (1 / (3 : Nat))) = _
  rw [ha]
  split
  · have := nearest_tie (p := 53) (y := 1 - 6004799503160661 * 2 ^ (-54 : ℤ)) (e := -53) (m := 6004799503160662) (by norm_num) (by norm_num) (by norm_num) (by norm_num)
    rw [this]; norm_num
  · rw [zero_sub, nearest_neg]
    congr 1
    exact rep 6004799503160661 (-54) (by norm_num) (by norm_num)

private theorem cen_sum (i : Fin 3) (k : ℤ) {t : SumTree 3} (ht : t.Complete) :
    t.dotR (binary 53 (by norm_num)) ((binary 53 (by norm_num)).cen 3 i) (fun _ => 2 ^ k) = 2 ^ (k - 53) := by
  have e54 : (2 : ℝ) ^ k = 2 ^ 54 * 2 ^ (k - 54) := by
    rw [← zpow_natCast, ← zpow_add₀ two_ne_zero]; norm_num
  have e53 : (2 : ℝ) ^ (k - 53) = 2 * 2 ^ (k - 54) := by
    rw [show k - 53 = 1 + (k - 54) by ring, zpow_add₀ two_ne_zero, zpow_one]
  set c := (binary 53 (by norm_num)).cen 3 i with hc
  set X : ℝ := 6004799503160662 * 2 ^ (-53 : ℤ) with hX
  set Y : ℝ := -(6004799503160661 * 2 ^ (-54 : ℤ)) with hY
  have hrow : (c 0 = X ∧ c 1 = Y ∧ c 2 = Y) ∨ (c 0 = Y ∧ c 1 = X ∧ c 2 = Y) ∨ (c 0 = Y ∧ c 1 = Y ∧ c 2 = X) := by
    fin_cases i
    · exact Or.inl ⟨(cen_three _ _).trans (if_pos rfl), (cen_three _ _).trans (if_neg (by decide)), (cen_three _ _).trans (if_neg (by decide))⟩
    · exact Or.inr (Or.inl ⟨(cen_three _ _).trans (if_neg (by decide)), (cen_three _ _).trans (if_pos rfl), (cen_three _ _).trans (if_neg (by decide))⟩)
    · exact Or.inr (Or.inr ⟨(cen_three _ _).trans (if_neg (by decide)), (cen_three _ _).trans (if_neg (by decide)), (cen_three _ _).trans (if_pos rfl)⟩)
  rw [ht.dotR_exact]
  · rw [Fin.sum_univ_three, e53, e54]
    rcases hrow with ⟨h0, h1, h2⟩ | ⟨h0, h1, h2⟩ | ⟨h0, h1, h2⟩ <;> rw [h0, h1, h2, hX, hY] <;> norm_num <;> ring
  · intro S
    show nearest 53 _ = _
    have e : ∑ l ∈ S, c l * 2 ^ k = (∑ l, if l ∈ S then c l * 2 ^ 54 else 0) * 2 ^ (k - 54) := by
      rw [Finset.sum_ite_mem, Finset.univ_inter, Finset.sum_mul]
      exact Finset.sum_congr rfl fun l _ => by rw [e54, mul_assoc]
    have hX' : X * 2 ^ 54 = 12009599006321324 := by rw [hX]; norm_num
    have hY' : Y * 2 ^ 54 = -6004799503160661 := by rw [hY]; norm_num
    rw [e, Fin.sum_univ_three]
    rcases hrow with ⟨h0, h1, h2⟩ | ⟨h0, h1, h2⟩ | ⟨h0, h1, h2⟩ <;> rw [h0, h1, h2, hX', hY'] <;>
      by_cases g0 : (0 : Fin 3) ∈ S <;> by_cases g1 : (1 : Fin 3) ∈ S <;> by_cases g2 : (2 : Fin 3) ∈ S <;> simp only [g0, g1, g2, if_true, if_false] <;>
      first
      | (refine rep 0 (k - 54) ?_ (by norm_num); norm_num; done)
      | (refine rep 2 (k - 54) ?_ (by norm_num); norm_num; done)
      | (refine rep 6004799503160663 (k - 54) ?_ (by norm_num); norm_num; done)
      | (refine rep (-6004799503160661) (k - 54) ?_ (by norm_num); norm_num; done)
      | (refine rep 6004799503160662 (k - 53) ?_ (by norm_num); rw [e53, ← mul_assoc]; norm_num; done)
      | (refine rep (-6004799503160661) (k - 53) ?_ (by norm_num); rw [e53, ← mul_assoc]; norm_num; done)

/-- a constant matrix, centered in double precision: `2⁻²⁶` everywhere instead of 0 -/
private theorem centered_const (o o' : SumOrder) (i j : Fin 3) : (binary 53 (by norm_num)).centeredFl o o' (Matrix.of fun _ _ => 2 ^ 80) i j = 2⁻¹ ^ 26 := by
  have e1 : ∀ l, (o.tree 3 i l).dotR (binary 53 (by norm_num)) ((binary 53 (by norm_num)).cen 3 i) (fun _ => 2 ^ 80) = 2 ^ (27 : ℤ) := fun l => by
    have := cen_sum i 80 (o.complete 3 i l)
    norm_num at this ⊢
    exact this
  have e2 : (fun l => (binary 53 (by norm_num)).cen 3 l j) = (binary 53 (by norm_num)).cen 3 j := by
    funext l
    rw [cen_three, cen_three]
    simp only [eq_comm]
  unfold Rounding.centeredFl
  simp only [Matrix.of_apply, e1, e2]
  rw [SumTree.dotR_comm, cen_sum j 27 (o'.complete 3 i j)]
  norm_num

/-- **C75** is violated without a condition on the norms: the centered 3 × 3 matrix with all entries 2⁸⁰ is zero, so that `alignment_centered` of this matrix with itself should raise; in
double precision, whatever the orders of summation, it returns a number near 1. -/
theorem C75_violated (o : AlignOrders) :
    alignmentCentered (Mat.ofReal (Matrix.of fun _ _ : Fin 3 => (2:ℝ) ^ 80)) (Mat.ofReal (Matrix.of fun _ _ : Fin 3 => (2:ℝ) ^ 80)) .raise false = .error .valueError ∧
    ∃ x, alignmentCenteredFl (binary 53 (by norm_num)) o (Mat.ofReal (Matrix.of fun _ _ : Fin 3 => (2:ℝ) ^ 80)) (Mat.ofReal (Matrix.of fun _ _ : Fin 3 => (2:ℝ) ^ 80)) .raise false = .ok (.real x) ∧
      |x - 1| ≤ (binary 53 (by norm_num)).gamma 31 := by
  have hC : (binary 53 (by norm_num)).centeredFl o.a₁ o.a₂ (Matrix.of fun _ _ : Fin 3 => (2:ℝ) ^ 80) = Matrix.of fun _ _ => 2⁻¹ ^ 26 := by
    ext i j; exact centered_const _ _ i j
  have hD : (binary 53 (by norm_num)).centeredFl o.b₁ o.b₂ (Matrix.of fun _ _ : Fin 3 => (2:ℝ) ^ 80) = Matrix.of fun _ _ => 2⁻¹ ^ 26 := by
    ext i j; exact centered_const _ _ i j
  have hv : ‖vecE (Matrix.of fun _ _ : Fin 3 => (2:ℝ)⁻¹ ^ 26)‖ = 3 * 2⁻¹ ^ 26 := by
    rw [norm_vecE, frobInner]
    simp only [Fin.sum_univ_three, Matrix.of_apply]
    rw [show (2:ℝ)⁻¹ ^ 26 * 2⁻¹ ^ 26 + 2⁻¹ ^ 26 * 2⁻¹ ^ 26 + 2⁻¹ ^ 26 * 2⁻¹ ^ 26 + (2⁻¹ ^ 26 * 2⁻¹ ^ 26 + 2⁻¹ ^ 26 * 2⁻¹ ^ 26 + 2⁻¹ ^ 26 * 2⁻¹ ^ 26) +
      (2⁻¹ ^ 26 * 2⁻¹ ^ 26 + 2⁻¹ ^ 26 * 2⁻¹ ^ 26 + 2⁻¹ ^ 26 * 2⁻¹ ^ 26) = (3 * 2⁻¹ ^ 26) ^ 2 by ring, Real.sqrt_sq (by positivity)]
  have hnz : ∀ t : FlatOrder, ¬ NearZero ((binary 53 (by norm_num)).normFl t (Matrix.of fun _ _ : Fin 3 => (2:ℝ)⁻¹ ^ 26)) := fun t =>
    normFl_not_nearZero (C := Matrix.of fun _ _ : Fin 3 => (2:ℝ)⁻¹ ^ 26) (a := 0) t (by rw [sub_self, norm_zero]) (by norm_num [binary]) (by
      rw [hv]; norm_num [Rounding.gamma, binary])
  constructor
  · have h0 : centered (Matrix.of fun _ _ : Fin 3 => (2:ℝ) ^ 80) = 0 := by
      ext i j
      simp only [centered, Fin.sum_univ_three, Matrix.of_apply]
      norm_num
    have h1 : NearZero (Real.sqrt (frobInner (centeredIf false (Matrix.of fun _ _ : Fin 3 => (2:ℝ) ^ 80)) (centeredIf false (Matrix.of fun _ _ : Fin 3 => (2:ℝ) ^ 80)))) := by
      show NearZero (Real.sqrt (frobInner (centered _) (centered _)))
      rw [h0]
      norm_num [frobInner, NearZero]
    exact (alignment_real _ _ .raise false).1 (Or.inl h1)
  · rw [alignmentCenteredFl_real, hC, hD]
    have h1 := (alignmentOfFl_real (R := binary 53 (by norm_num)) o (Matrix.of fun _ _ : Fin 3 => (2:ℝ)⁻¹ ^ 26) (Matrix.of fun _ _ : Fin 3 => (2:ℝ)⁻¹ ^ 26) .raise).2
      (by rintro (h | h) <;> exact hnz _ h)
    obtain ⟨x, hx, h2⟩ := C75_align_self (R := binary 53 (by norm_num)) o (Matrix.of fun _ _ : Fin 3 => (2:ℝ)⁻¹ ^ 26) (by norm_num [binary]) (v := .real _) (by
      unfold alignmentCenteredFl
      rw [if_neg (by rintro (h | h) <;> exact h rfl)]
      exact h1)
    exact ⟨x, h1.trans (congrArg _ hx), h2⟩

/-- **C75** Alignments can exceed 1: in double precision, that of the 3 × 3 identity matrix with itself (said to be centered) is 1 + 2⁻⁵², whatever the orders of summation. -/
theorem C75_exceeds_one (o : AlignOrders) :
    alignmentCenteredFl (binary 53 (by norm_num)) o (Mat.ofReal (1 : Matrix (Fin 3) (Fin 3) ℝ)) (Mat.ofReal (1 : Matrix (Fin 3) (Fin 3) ℝ)) .raise true = .ok (.real (1 + 2⁻¹ ^ 52)) := by
  set B := binary 53 (by norm_num) with hB
  have hf : ∀ t : FlatOrder, B.frobFl t (1 : Matrix (Fin 3) (Fin 3) ℝ) (1 : Matrix (Fin 3) (Fin 3) ℝ) = 3 := by
    intro t
    unfold Rounding.frobFl
    rw [(t.complete (3 * 3)).dotR_exact]
    · rw [sum_flat fun i j => (1 : Matrix (Fin 3) (Fin 3) ℝ) i j * (1 : Matrix (Fin 3) (Fin 3) ℝ) i j]
      simp [Matrix.one_apply]
    · intro S
      have e : ∑ p ∈ S, (1 : Matrix (Fin 3) (Fin 3) ℝ) p.divNat p.modNat * (1 : Matrix (Fin 3) (Fin 3) ℝ) p.divNat p.modNat =
          ((S.filter fun p : Fin (3 * 3) => p.divNat = p.modNat).card : ℕ) := by
        simp [Matrix.one_apply, Finset.sum_ite, Finset.filter_filter]
      have hle : (S.filter fun p : Fin (3 * 3) => p.divNat = p.modNat).card ≤ 9 := (Finset.card_le_univ _).trans (by simp)
      rw [e]
      refine rep ((S.filter fun p : Fin (3 * 3) => p.divNat = p.modNat).card : ℕ) 0 (by simp) ?_
      rw [abs_of_nonneg (by positivity)]
      exact lt_of_le_of_lt (by exact_mod_cast hle) (by norm_num : (9:ℤ) < 2 ^ 53)
  have hs : nearest 53 (Real.sqrt 3) = 7800463371553962 * 2 ^ (-52 : ℤ) := by
    have := nearest_tie (p := 53) (y := Real.sqrt 3) (e := -52) (m := 7800463371553962)
      (by rw [Real.le_sqrt] <;> norm_num) (by rw [Real.sqrt_lt'] <;> norm_num) (by rw [Real.le_sqrt] <;> norm_num) (by rw [Real.sqrt_lt'] <;> norm_num)
    rw [this]; norm_num
  have hn : ∀ t : FlatOrder, B.normFl t (1 : Matrix (Fin 3) (Fin 3) ℝ) = 7800463371553962 * 2 ^ (-52 : ℤ) := fun t => by
    unfold Rounding.normFl
    rw [hf]
    exact hs
  have hz : ∀ t : FlatOrder, ¬ NearZero (B.normFl t (1 : Matrix (Fin 3) (Fin 3) ℝ)) := fun t => by
    rw [hn, NearZero]; norm_num
  have hp : nearest 53 (7800463371553962 * 2 ^ (-52 : ℤ) * (7800463371553962 * 2 ^ (-52 : ℤ))) = 6755399441055743 * 2 ^ (-51 : ℤ) := by
    have := nearest_tie (p := 53) (y := 7800463371553962 * 2 ^ (-52 : ℤ) * (7800463371553962 * 2 ^ (-52 : ℤ))) (e := -51) (m := 6755399441055743)
      (by norm_num) (by norm_num) (by norm_num) (by norm_num)
    rw [this]; norm_num
  have hq : nearest 53 (3 / (6755399441055743 * 2 ^ (-51 : ℤ))) = 1 + 2⁻¹ ^ 52 := by
    have := nearest_tie (p := 53) (y := 3 / (6755399441055743 * 2 ^ (-51 : ℤ))) (e := -52) (m := 4503599627370497)
      (by norm_num) (by norm_num) (by norm_num) (by norm_num)
    rw [this]; norm_num
  unfold alignmentCenteredFl
  rw [if_neg (by rintro (h | h) <;> exact h rfl)]
  refine ((alignmentOfFl_real (R := B) o (1 : Matrix (Fin 3) (Fin 3) ℝ) 1 .raise).2 (by rintro (h | h) <;> exact hz _ h)).trans ?_
  unfold Rounding.alignFl
  rw [hf, hn, hn]
  show Except.ok (real (nearest 53 (3 / nearest 53 _))) = _
  rw [hp, hq]

end KMethods
