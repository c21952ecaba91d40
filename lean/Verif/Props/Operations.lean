import Verif.Lemmas.Operations2
import Verif.Props.FullMatrix
/-!
# Properties of the functions of `operations.py` (C18–C25)
-/
namespace KMethods
open F KMState

/-! ## C18 -/

/-- **C18** `center_km` of a square matrix subtracts row and column means and adds the grand mean; all row and column sums
of the result are 0; centering again changes nothing; symmetry and positive semidefiniteness are preserved. -/
theorem C18_center {n : Nat} (K : Matrix (Fin n) (Fin n) ℝ) :
    ∃ C : Matrix (Fin n) (Fin n) ℝ, centerKmAny (.arr (Mat.ofReal K)) = .ok (Mat.ofReal C) ∧
      (∀ i j, C i j = K i j - (∑ l, K i l) / n - (∑ l, K l j) / n + (∑ a, ∑ b, K a b) / (n * n)) ∧
      (∀ i, ∑ j, C i j = 0) ∧ (∀ j, ∑ i, C i j = 0) ∧
      centerKmAny (.arr (Mat.ofReal C)) = .ok (Mat.ofReal C) ∧
      ((∀ i j, K i j = K j i) → ∀ i j, C i j = C j i) ∧ (IsPSD K → IsPSD C) := by
  refine ⟨centered K, centerKm_real K, fun i j => rfl, centered_row_sum K, centered_col_sum K, ?_, centered_symm,
    IsPSD.centered⟩
  show centerKm _ = _
  rw [centerKm_real, centered_centered]

/-- **C18** errors: exactly the square ndarrays are accepted (also those with NaN); all others raise `ValueError`. -/
theorem C18_errors (a : NdArg) :
    (centerKmAny a = .error .valueError ∧ ¬ ∃ A, a = .arr A ∧ A.nrows = A.ncols) ∨
    ((∃ C, centerKmAny a = .ok C) ∧ ∃ A, a = .arr A ∧ A.nrows = A.ncols) := by
  rcases a with A | sh
  · by_cases h : A.nrows = A.ncols
    · exact Or.inr ⟨⟨_, by rw [centerKmAny, centerKm, if_pos h]⟩, A, rfl, h⟩
    · refine Or.inl ⟨by rw [centerKmAny, centerKm, if_neg h], ?_⟩
      rintro ⟨B, hB, hsq⟩
      injection hB with hB
      exact h (hB ▸ hsq)
  · exact Or.inl ⟨rfl, by rintro ⟨B, hB, -⟩; simp at hB⟩

/-- a matrix that is not symmetric: rows (1 2), (3 8) -/
example : centerKmAny (.arr (Mat.ofReal !![1, 2; 3, 8])) = .ok (Mat.ofReal !![1, -1; -1, 1]) := by
  rw [centerKmAny, centerKm_real]
  congr 2
  ext i j
  fin_cases i <;> fin_cases j <;> simp [centered] <;> norm_num

/-! ## C19, C20 -/

/-- **C19** For a matrix with positive diagonal, not close to zero, `normalize_km` has entries `K_ij / √(K_ii K_jj)`: the
diagonal is 1, symmetry and positive semidefiniteness are preserved, for PSD matrices the entries are in [-1, 1], and
normalising again changes nothing. -/
theorem C19_normalise {n : Nat} (K : Matrix (Fin n) (Fin n) ℝ) {method : String} (hm : method.toLower = "cosine")
    (hpos : ∀ i, 1e-8 < K i i) :
    ∃ N : Matrix (Fin n) (Fin n) ℝ, normalizeKm (Mat.ofReal K) method = .ok (Mat.ofReal N) ∧
      (∀ i j, N i j = K i j / Real.sqrt (K i i * K j j)) ∧ (∀ i, N i i = 1) ∧
      ((∀ i j, K i j = K j i) → ∀ i j, N i j = N j i) ∧ (IsPSD K → IsPSD N) ∧
      (IsPSD K → ∀ i j, -1 ≤ N i j ∧ N i j ≤ 1) ∧
      normalizeKm (Mat.ofReal N) method = .ok (Mat.ofReal N) := by
  have h0 : ∀ i, 0 < K i i := fun i => lt_trans (by norm_num) (hpos i)
  have hz : ¬ ∃ i, NearZero (K i i) := by
    rintro ⟨i, hi⟩
    rw [NearZero, abs_of_pos (h0 i)] at hi
    linarith [hpos i]
  have hd : ∀ i, cosNorm K i i = 1 := fun i => by
    rw [cosNorm, Real.sqrt_mul_self (h0 i).le, div_self (h0 i).ne']
  refine ⟨cosNorm K, ?_, fun i j => rfl, hd, ?_, IsPSD.cosNorm, ?_, ?_⟩
  · rw [normalizeKm_ofReal, (normalizeSquare_real K hm fun i => (h0 i).le).2 hz]; rfl
  · intro hs i j
    rw [cosNorm, cosNorm, hs i j, _root_.mul_comm (K i i)]
  · intro hp i j
    have := hp.cosNorm.sq_le i j
    rw [hd, hd, one_mul] at this
    exact abs_le.1 ((sq_le_one_iff_abs_le_one _).1 this)
  · rw [normalizeKm_ofReal, (normalizeSquare_real (cosNorm K) hm fun i => by rw [hd]; exact zero_le_one).2 ?_]
    · refine congrArg Except.ok ?_
      show Mat.ofReal (cosNorm (cosNorm K)) = _
      congr 1
      funext i j
      rw [cosNorm, hd, hd, mul_one, Real.sqrt_one, div_one]
    · rintro ⟨i, hi⟩
      rw [hd] at hi
      exact not_nearZero_one hi

/-- a PSD matrix with diagonal 4, 9 -/
example : "COSINE".toLower = "cosine" ∧ (∀ i, (1e-8 : ℝ) < !![4, 3; 3, 9] i i) ∧ IsPSD !![(4:ℝ), 3; 3, 9] := by
  refine ⟨by rw [String.toLower, ← String.toList_inj, String.toList_map]; decide, ?_, ?_, ?_⟩
  · intro i; fin_cases i <;> norm_num
  · intro i j; fin_cases i <;> fin_cases j <;> rfl
  · intro x
    simp only [Fin.sum_univ_two, Matrix.cons_val_zero, Matrix.cons_val_one, Matrix.of_apply]
    nlinarith [sq_nonneg (x 0 + x 1), sq_nonneg (x 0), sq_nonneg (x 1)]

/-- **C20** Which arguments `normalize_km` rejects, for every matrix (also with NaN) and every method name, in order of
precedence. -/
theorem C20_errors (K : Mat F) (method : String) :
    (K.nrows ≠ K.ncols → normalizeKm K method = .error .valueError) ∧
    (K.nrows = K.ncols → method.toLower ≠ "cosine" → normalizeKm K method = .error .notImplemented) ∧
    (∀ h : K.nrows = K.ncols, method.toLower = "cosine" →
      ((∃ i x, K.get i (Fin.cast h i) = .real x ∧ |x| ≤ 1e-8) → normalizeKm K method = .error .kmNorm) ∧
      ((¬ ∃ i x, K.get i (Fin.cast h i) = .real x ∧ |x| ≤ 1e-8) →
        ∃ N, normalizeKm K method = .ok N ∧ N.nrows = K.nrows ∧ N.ncols = K.nrows)) := by
  unfold normalizeKm
  refine ⟨fun h => by rw [dif_neg h], fun h hm => by rw [dif_pos h, normalizeSquare, if_neg hm]; rfl, fun h hm => ?_⟩
  rw [dif_pos h, normalizeSquare, if_pos hm]
  have hiff : (∃ i, isClose (K.get i (Fin.cast h i)) 0) ↔ ∃ i x, K.get i (Fin.cast h i) = .real x ∧ |x| ≤ 1e-8 := by
    refine exists_congr fun i => ?_
    rcases K.get i (Fin.cast h i) with x | _
    · rw [isClose_zero, NearZero]
      exact ⟨fun h => ⟨x, rfl, h⟩, by rintro ⟨y, hy, h⟩; injection hy with hy; rwa [hy]⟩
    · exact ⟨fun h => h.elim, by rintro ⟨y, hy, -⟩; simp at hy⟩
  constructor
  · intro hz; rw [if_pos (hiff.2 hz)]; rfl
  · intro hz; rw [if_neg (mt hiff.1 hz)]; exact ⟨_, rfl, rfl, rfl⟩

/-- **C20** Negative diagonal entries: exactly the entries in a row or column with a negative diagonal entry are NaN; the
others have their usual value. -/
theorem C20_negative_diagonal {n : Nat} (K : Matrix (Fin n) (Fin n) ℝ) {method : String} (hm : method.toLower = "cosine")
    (hz : ∀ i, ¬ |K i i| ≤ 1e-8) :
    ∃ N : Fin n → Fin n → F, normalizeKm (Mat.ofReal K) method = .ok ⟨n, n, N⟩ ∧
      ∀ i j, (K i i < 0 ∨ K j j < 0 → N i j = .nan) ∧
        (¬ (K i i < 0 ∨ K j j < 0) → N i j = .real (K i j / Real.sqrt (K i i * K j j))) := by
  have hne : ∀ i, K i i ≠ 0 := fun i h => hz i (by rw [h]; norm_num)
  rw [normalizeKm_ofReal, normalizeSquare, if_pos hm, if_neg]
  · refine ⟨_, rfl, fun i j => ?_⟩
    rw [scaled_nan (fun i => K i i) (fun i => K i i) K hne hne]
    exact ⟨fun h => by rw [if_pos h], fun h => by rw [if_neg h]⟩
  · rintro ⟨i, hi⟩
    exact hz i ((isClose_zero _).1 hi)

/-- diagonal 4, -1, 9 -/
example : ∀ i, ¬ |(!![4, 2, 0; 2, -1, 1; 0, 1, 9] : Matrix (Fin 3) (Fin 3) ℝ) i i| ≤ 1e-8 := by
  intro i; fin_cases i <;> norm_num

/-! ## C21 -/

/-- **C21** `normalize_km_2sample` has entries `K_ij / √(dX_i dY_j)`. -/
theorem C21_values {n m : Nat} (K : Matrix (Fin n) (Fin m) ℝ) (dx : Fin n → ℝ) (dy : Fin m → ℝ) {method : String}
    (hm : method.toLower = "cosine") (hx : ∀ i, 1e-8 < dx i) (hy : ∀ j, 1e-8 < dy j) :
    normalizeKm2 (Mat.ofReal K) (List.ofFn fun i => .real (dx i)) (List.ofFn fun j => .real (dy j)) method =
      .ok (Mat.ofReal fun i j => K i j / Real.sqrt (dx i * dy j)) := by
  have h0 : ∀ x : ℝ, 1e-8 < x → 0 < x := fun x h => lt_trans (by norm_num) h
  refine (normalizeKm2_real K dx dy hm _ _ rfl rfl (fun i => (h0 _ (hx i)).le) fun j => (h0 _ (hy j)).le).2 ?_
  rintro (⟨i, hi⟩ | ⟨j, hj⟩)
  · rw [NearZero, abs_of_pos (h0 _ (hx i))] at hi; linarith [hx i]
  · rw [NearZero, abs_of_pos (h0 _ (hy j))] at hj; linarith [hy j]

/-- **C21** Which arguments are rejected, in order of precedence. -/
theorem C21_errors (K : Mat F) (dx dy : List F) (method : String) :
    (¬ (dx.length = K.nrows ∧ dy.length = K.ncols) → normalizeKm2 K dx dy method = .error .valueError) ∧
    (dx.length = K.nrows → dy.length = K.ncols →
      (method.toLower ≠ "cosine" → normalizeKm2 K dx dy method = .error .notImplemented) ∧
      (method.toLower = "cosine" →
        ((∃ x, (.real x ∈ dx ∨ .real x ∈ dy) ∧ |x| ≤ 1e-8) → normalizeKm2 K dx dy method = .error .kmNorm) ∧
        ((¬ ∃ x, (.real x ∈ dx ∨ .real x ∈ dy) ∧ |x| ≤ 1e-8) →
          ∃ N, normalizeKm2 K dx dy method = .ok N ∧ N.nrows = K.nrows ∧ N.ncols = K.ncols))) := by
  unfold normalizeKm2
  constructor
  · intro h
    rw [if_pos]
    by_contra h'
    push Not at h'
    exact h ⟨h'.1, h'.2.symm⟩
  intro hl1 hl2
  rw [if_neg (by simp [hl1, hl2])]
  refine ⟨fun h => by rw [if_neg h], fun h => ?_⟩
  rw [if_pos h]
  have hiff : ((∃ d ∈ dx, isClose d 0) ∨ (∃ d ∈ dy, isClose d 0)) ↔ ∃ x, (.real x ∈ dx ∨ .real x ∈ dy) ∧ |x| ≤ 1e-8 := by
    constructor
    · rintro (⟨d, hd, hc⟩ | ⟨d, hd, hc⟩) <;> rcases d with x | _
      · exact ⟨x, Or.inl hd, (isClose_zero x).1 hc⟩
      · exact hc.elim
      · exact ⟨x, Or.inr hd, (isClose_zero x).1 hc⟩
      · exact hc.elim
    · rintro ⟨x, h | h, hx⟩
      · exact Or.inl ⟨_, h, (isClose_zero x).2 hx⟩
      · exact Or.inr ⟨_, h, (isClose_zero x).2 hx⟩
  constructor
  · intro hz; rw [if_pos (hiff.2 hz)]
  · intro hz; rw [if_neg (mt hiff.1 hz)]; exact ⟨_, rfl, rfl, rfl⟩

/-- **C21** With the diagonal of `K` for both lists of self-kernels the result (value or exception) is that of
`normalize_km`, for every square matrix and method. -/
theorem C21_agrees {n : Nat} (K : Fin n → Fin n → F) (method : String) :
    normalizeKm2 ⟨n, n, K⟩ (List.ofFn fun i => K i i) (List.ofFn fun i => K i i) method = normalizeKm ⟨n, n, K⟩ method := by
  unfold normalizeKm2 normalizeKm normalizeSquare
  rw [if_neg (by simp), dif_pos rfl]
  by_cases hm : method.toLower = "cosine"
  · rw [if_pos hm, if_pos hm]
    have hiff : ((∃ d ∈ List.ofFn fun i => K i i, isClose d 0) ∨ (∃ d ∈ List.ofFn fun i => K i i, isClose d 0)) ↔
        ∃ i, isClose (K i i) 0 := by
      simp only [List.mem_ofFn', Set.mem_range, exists_exists_eq_and, or_self]
    simp only [Fin.cast_eq_self]
    by_cases hz : ∃ i, isClose (K i i) 0
    · rw [if_pos (hiff.2 hz), if_pos hz]; rfl
    · rw [if_neg (mt hiff.1 hz), if_neg hz]
      have e1 : (invSqrtDiag fun i : Fin n => (List.ofFn fun i => K i i).getD i 0) = invSqrtDiag fun i => K i i := by
        congr 1; funext i; simp
      rw [e1]
      rfl
  · rw [if_neg hm, if_neg hm]; rfl

/-- **C21** For a symmetric kernel, `full` of a normalised `KernelMatrix` attached to the two samples (X, X) gives the same
result (matrix or exception) as `full` of one attached to X, whatever was called on the two objects before. -/
theorem C21_same_samples {K X : Type} {env : Env K X F} (hops : env.ops = realOps) {k : K} {A : Arr2 X}
    {s s' : KMState K X F} (hf : NoFaultsOn env k ⟨A, none⟩)
    (hq : Quiet env k ⟨A, none⟩ ∧ QuietNormed env k ⟨A, none⟩) (hq' : Quiet env k ⟨A, some A⟩ ∧ QuietNormed env k ⟨A, some A⟩)
    (hsym : ∀ i j : Fin A.nrows, env.kval k (A.row i) (A.row j) = env.kval k (A.row j) (A.row i))
    (h : SinceAny env k true ⟨A, none⟩ s) (h' : SinceAny env k true ⟨A, some A⟩ s') :
    (exec env .full s').1 = (exec env .full s).1 := by
  have hf' : NoFaultsOn env k ⟨A, some A⟩ := by
    have key : ∀ x, Attachment.IsRow ⟨A, some A⟩ x → Attachment.IsRow ⟨A, none⟩ x := by
      rintro x (⟨i, hi, e⟩ | ⟨B, i, hB, hi, e⟩)
      · exact Or.inl ⟨i, hi, e⟩
      · injection hB with hB; subst hB; exact Or.inl ⟨i, hi, e⟩
    exact fun t x y hx hy => hf t x y (key x hx) (key y hy)
  rw [C09_full_is_normalised_gram hops hf hq.1 hq.2 h, C09_full_is_normalised_gram hops hf' hq'.1 hq'.2 h']
  congr 1
  have hg : Attachment.gram ⟨A, none⟩ (env.kval k) = ⟨A.nrows, A.nrows, fun i j => env.kval k (A.row i) (A.row j)⟩ := by
    show Mat.mk _ _ _ = _
    congr 1
    funext i j
    rcases le_total i j with hij | hij
    · show env.kval k (A.row (min (i:Nat) j)) (A.row (max (i:Nat) j)) = _
      rw [min_eq_left (by exact hij), max_eq_right (by exact hij)]
    · show env.kval k (A.row (min (i:Nat) j)) (A.row (max (i:Nat) j)) = _
      rw [min_eq_right (by exact hij), max_eq_left (by exact hij)]
      exact hsym j i
  have hs : A.selfs (env.kval k) = List.ofFn fun i : Fin A.nrows => env.kval k (A.row i) (A.row i) := by
    unfold Arr2.selfs
    rw [List.ofFn_eq_map, ← List.map_coe_finRange_eq_range, List.map_map]
    rfl
  simp only
  rw [hg, hs]
  exact C21_agrees (fun i j => env.kval k (A.row i) (A.row j)) "cosine"

/-- the kernel `x y` on samples 1, 2, 3 attached once and twice -/
example : (∀ x y : ℝ, Demo.renv.kval () x y = Demo.renv.kval () y x) ∧
    (∀ a, Quiet Demo.renv () a ∧ QuietNormed Demo.renv () a) ∧
    SinceAny Demo.renv () true ⟨Demo.rA, none⟩ (Demo.rst true) ∧
    SinceAny Demo.renv () true ⟨Demo.rA, some Demo.rA⟩
      (exec Demo.renv (.attach (.arr [3, 1] Demo.rA.row) (some (.arr [3, 1] Demo.rA.row))) (Demo.rst true)).2 := by
  refine ⟨fun x y => by simp only [Demo.renv, _root_.mul_comm], fun a => ⟨(fun h => by cases h), (fun h => by cases h)⟩, Demo.since_rst true _, ?_⟩
  exact .attached (one := .arr [3, 1] Demo.rA.row) (two := some (.arr [3, 1] Demo.rA.row)) (.call _ (.new 0))
    ⟨⟨0, rfl⟩, ⟨0, rfl⟩, rfl⟩ rfl

/-! ## C22 -/

/-- **C22** The Frobenius product is a positive definite symmetric bilinear form (values for real matrices). -/
theorem C22_inner_product {n m : Nat} (A A' B : Matrix (Fin n) (Fin m) ℝ) (c : ℝ) :
    ∃ ab a'b lb aa : ℝ,
      frobeniusProduct (Mat.ofReal A) (Mat.ofReal B) = .ok (.real ab) ∧
      frobeniusProduct (Mat.ofReal A') (Mat.ofReal B) = .ok (.real a'b) ∧
      frobeniusProduct (Mat.ofReal fun i j => c * A i j + A' i j) (Mat.ofReal B) = .ok (.real lb) ∧
      frobeniusProduct (Mat.ofReal A) (Mat.ofReal A) = .ok (.real aa) ∧
      ab = ∑ i, ∑ j, A i j * B i j ∧ lb = c * ab + a'b ∧ 0 ≤ aa ∧ (aa = 0 ↔ A = 0) := by
  refine ⟨_, _, _, _, frobeniusProduct_real A B, frobeniusProduct_real A' B, frobeniusProduct_real _ B,
    frobeniusProduct_real A A, rfl, ?_, frobInner_self_nonneg A, frobInner_self_eq_zero A⟩
  rw [frobInner_add (fun i j => c * A i j) A' B, frobInner_smul]

/-- **C22** symmetric, for all matrices (also with NaN, also the exception) -/
theorem C22_symmetric (A B : Mat F) : frobeniusProduct A B = frobeniusProduct B A := frobeniusProduct_comm A B

/-- **C22** `ValueError` exactly when the shapes differ -/
theorem C22_errors (A B : Mat F) :
    (¬ (A.nrows = B.nrows ∧ A.ncols = B.ncols) → frobeniusProduct A B = .error .valueError) ∧
    (A.nrows = B.nrows ∧ A.ncols = B.ncols → ∃ v, frobeniusProduct A B = .ok v) :=
  ⟨fun h => by rw [frobeniusProduct, dif_neg h], fun h => ⟨_, by rw [frobeniusProduct, dif_pos h]⟩⟩

/-- **C22** the norm: `‖A‖² = ⟨A, A⟩`, non-negative, zero only for the zero matrix, and Cauchy-Schwarz -/
theorem C22_norm {n m : Nat} (A B : Matrix (Fin n) (Fin m) ℝ) :
    ∃ a b p aa : ℝ,
      frobeniusNorm (Mat.ofReal A) = .ok (.real a) ∧ frobeniusNorm (Mat.ofReal B) = .ok (.real b) ∧
      frobeniusProduct (Mat.ofReal A) (Mat.ofReal B) = .ok (.real p) ∧
      frobeniusProduct (Mat.ofReal A) (Mat.ofReal A) = .ok (.real aa) ∧
      0 ≤ a ∧ a ^ 2 = aa ∧ (a = 0 ↔ A = 0) ∧ |p| ≤ a * b := by
  refine ⟨_, _, _, _, frobeniusNorm_real A, frobeniusNorm_real B, frobeniusProduct_real A B, frobeniusProduct_real A A,
    Real.sqrt_nonneg _, Real.sq_sqrt (frobInner_self_nonneg A), ?_, frobInner_abs_le A B⟩
  rw [Real.sqrt_eq_zero (frobInner_self_nonneg A), frobInner_self_eq_zero]

/-! ## C23, C24 -/

/-- **C23** Every value computed by `alignment_centered` is in [-1, 1], or NaN (for matrices containing NaN). -/
theorem C23_range {A B : Mat F} {already : Bool} (hsq : A.nrows = A.ncols) {v : F}
    (h : alignmentCentered A B .raise already = .ok v) : v = .nan ∨ ∃ x : ℝ, v = .real x ∧ -1 ≤ x ∧ x ≤ 1 := by
  by_cases hsh : A.nrows = B.nrows ∧ A.ncols = B.ncols
  swap
  · rw [alignmentCentered, if_pos (by tauto)] at h; simp at h
  -- a NaN in one of the matrices
  have hnanC : ∀ C : Mat F, C.nrows = C.ncols → (∃ i j, C.get i j = nan) →
      ∃ C', centerUnless already C = .ok C' ∧ C'.nrows = C.nrows ∧ C'.ncols = C.ncols ∧ ∃ i j, C'.get i j = nan := by
    intro C hC hn
    cases already
    · exact centerKm_nan C hC hn
    · exact ⟨C, rfl, rfl, rfl, hn⟩
  have hok : ∀ C : Mat F, C.nrows = C.ncols → ∃ C', centerUnless already C = .ok C' ∧ C'.nrows = C.nrows ∧ C'.ncols = C.ncols := by
    intro C hC
    cases already
    · exact ⟨⟨C.nrows, C.ncols, matmul (matmul (centeringMatrix C.nrows) C.get) (centeringMatrix C.ncols)⟩,
        by rw [centerUnless, if_neg (by simp), centerKm, if_pos hC], rfl, rfl⟩
    · exact ⟨C, rfl, rfl, rfl⟩
  have key : ∀ C D : Mat F, C.nrows = D.nrows → C.ncols = D.ncols →
      (∃ i j, C.get i j = nan) ∨ (∃ i j, D.get i j = nan) → alignmentOf C D .raise = .ok v → v = nan := by
    intro C D h1 h2 hn hv
    unfold alignmentOf at hv
    obtain ⟨p, hp⟩ := (C22_errors C D).2 ⟨h1, h2⟩
    obtain ⟨c, hc⟩ : ∃ c, frobeniusNorm C = .ok c := ⟨_, by
      rw [frobeniusNorm, frobeniusProduct, dif_pos ⟨rfl, rfl⟩]; rfl⟩
    obtain ⟨d, hd⟩ : ∃ d, frobeniusNorm D = .ok d := ⟨_, by
      rw [frobeniusNorm, frobeniusProduct, dif_pos ⟨rfl, rfl⟩]; rfl⟩
    rw [hc, hd, hp] at hv
    simp only [bind, Except.bind] at hv
    split at hv
    · simp at hv
    · injection hv with hv
      rcases hn with hn | hn
      · rw [frobeniusNorm_nan C hn] at hc
        injection hc with hc
        rw [← hv, ← hc]; simp
      · rw [frobeniusNorm_nan D hn] at hd
        injection hd with hd
        rw [← hv, ← hd]; simp
  have hsqB : B.nrows = B.ncols := by rw [← hsh.1, ← hsh.2, hsq]
  rcases A.real_or_nan with ⟨RA, hA⟩ | hA
  · rcases B.real_or_nan with ⟨RB, hB⟩ | hB
    · right
      rcases A with ⟨n, m, a⟩
      rcases B with ⟨n', m', b⟩
      dsimp only at hsq hsqB hsh RA RB
      obtain ⟨h1, h2⟩ := hsh
      subst hsq h1 hsqB
      rw [hA, hB] at h
      have := alignment_real RA RB .raise already
      rcases Classical.em (NearZero (Real.sqrt (frobInner (centeredIf already RA) (centeredIf already RA))) ∨
        NearZero (Real.sqrt (frobInner (centeredIf already RB) (centeredIf already RB)))) with hz | hz
      · rw [this.1 hz] at h; simp at h
      · rw [this.2 hz] at h
        injection h with h
        refine ⟨_, h.symm, ?_⟩
        push Not at hz
        have p1 := pos_of_not_nearZero (Real.sqrt_nonneg _) hz.1
        have p2 := pos_of_not_nearZero (Real.sqrt_nonneg _) hz.2
        rw [← abs_le, abs_div, abs_of_pos (mul_pos p1 p2), div_le_one (mul_pos p1 p2)]
        exact frobInner_abs_le _ _
    · left
      obtain ⟨A', hA', a1, a2⟩ := hok A hsq
      obtain ⟨B', hB', b1, b2, hn⟩ := hnanC B hsqB hB
      rw [alignmentCentered, if_neg (by tauto), hA', hB'] at h
      exact key A' B' (by rw [a1, b1, hsh.1]) (by rw [a2, b2, hsh.2]) (Or.inr hn) h
  · left
    obtain ⟨A', hA', a1, a2, hn⟩ := hnanC A hsq hA
    obtain ⟨B', hB', b1, b2⟩ := hok B hsqB
    rw [alignmentCentered, if_neg (by tauto), hA', hB'] at h
    exact key A' B' (by rw [a1, b1, hsh.1]) (by rw [a2, b2, hsh.2]) (Or.inl hn) h

/-- **C23** symmetric in its arguments: same value or same exception, for all matrices and options -/
theorem C23_symmetric (A B : Mat F) (zd : ZeroDiv) (already : Bool) :
    alignmentCentered A B zd already = alignmentCentered B A zd already := by
  have hof : ∀ C D : Mat F, alignmentOf C D zd = alignmentOf D C zd := by
    intro C D
    unfold alignmentOf
    obtain ⟨c, hc⟩ : ∃ c, frobeniusNorm C = .ok c := ⟨_, by
      rw [frobeniusNorm, frobeniusProduct, dif_pos ⟨rfl, rfl⟩]; rfl⟩
    obtain ⟨d, hd⟩ : ∃ d, frobeniusNorm D = .ok d := ⟨_, by
      rw [frobeniusNorm, frobeniusProduct, dif_pos ⟨rfl, rfl⟩]; rfl⟩
    rw [hc, hd, frobeniusProduct_comm C D]
    simp only [bind, Except.bind]
    rw [F.mul_comm c d]
    by_cases hz : c.isClose 0 ∨ d.isClose 0
    · rw [if_pos hz, if_pos hz.symm]
    · rw [if_neg hz, if_neg fun h => hz h.symm]
  unfold alignmentCentered
  by_cases hsh : A.nrows ≠ B.nrows ∨ A.ncols ≠ B.ncols
  · rw [if_pos hsh, if_pos (by rcases hsh with h | h; exacts [Or.inl (Ne.symm h), Or.inr (Ne.symm h)])]
  · rw [if_neg hsh, if_neg (by rintro (h | h); exacts [hsh (Or.inl (Ne.symm h)), hsh (Or.inr (Ne.symm h))])]
    push Not at hsh
    have herr : ∀ C : Mat F, ∀ e, centerUnless already C = .error e → e = .valueError := by
      intro C e h
      cases already
      · unfold centerUnless centerKm at h
        rw [if_neg (by simp)] at h
        split at h
        · simp at h
        · injection h with h; exact h.symm
      · simp [centerUnless] at h
    rcases hA : centerUnless already A with e | A'
    · rcases hB : centerUnless already B with e' | B'
      · rw [herr A e hA, herr B e' hB]
      · rw [herr A e hA]; rfl
    · rcases hB : centerUnless already B with e' | B'
      · rfl
      · exact hof A' B'

/-- **C23** the alignment of a matrix with itself is 1 -/
theorem C23_self {n : Nat} {A : Matrix (Fin n) (Fin n) ℝ} {already : Bool} {x : ℝ} (h : AlignmentIs A A already x) : x = 1 := by
  obtain ⟨h1, -, rfl⟩ := AlignmentIs.iff.1 h
  have := pos_of_not_nearZero (Real.sqrt_nonneg _) h1
  rw [Real.mul_self_sqrt (frobInner_self_nonneg _), div_self]
  intro h0
  rw [h0, Real.sqrt_zero] at this
  exact lt_irrefl _ this

/-- **C23** invariant under positive rescaling -/
theorem C23_scaling {n : Nat} {A B : Matrix (Fin n) (Fin n) ℝ} {already : Bool} {x y c : ℝ} (hc : 0 < c)
    (h : AlignmentIs A B already x) (h' : AlignmentIs (fun i j => c * A i j) B already y) : x = y := by
  obtain ⟨-, -, rfl⟩ := AlignmentIs.iff.1 h
  obtain ⟨-, -, rfl⟩ := AlignmentIs.iff.1 h'
  have e : centeredIf already (fun i j => c * A i j) = fun i j => c * centeredIf already A i j := by
    cases already
    · exact centered_smul c A
    · rfl
  rw [e, frobInner_smul c _ (centeredIf already B), frobInner_smul c (centeredIf already A) (fun i j => c * centeredIf already A i j), frobInner_comm (centeredIf already A) (fun i j => c * centeredIf already A i j), frobInner_smul,
    Real.sqrt_mul hc.le, Real.sqrt_mul hc.le, ← mul_assoc (Real.sqrt c), Real.mul_self_sqrt hc.le, mul_assoc,
    mul_div_mul_left _ _ hc.ne']

/-- **C23** invariant under adding a constant to a matrix (unless the matrices are declared to be centered already) -/
theorem C23_add_constant {n : Nat} (A B : Matrix (Fin n) (Fin n) ℝ) (zd : ZeroDiv) (c : ℝ) :
    alignmentCentered (Mat.ofReal fun i j => A i j + c) (Mat.ofReal B) zd false =
      alignmentCentered (Mat.ofReal A) (Mat.ofReal B) zd false := by
  have e : centeredIf false (fun i j => A i j + c) = centeredIf false A := centered_add_const c A
  have h1 := alignment_real (fun i j => A i j + c) B zd false
  have h2 := alignment_real A B zd false
  rw [e] at h1
  by_cases hz : NearZero (Real.sqrt (frobInner (centeredIf false A) (centeredIf false A))) ∨
        NearZero (Real.sqrt (frobInner (centeredIf false B) (centeredIf false B)))
  · rw [h1.1 hz, h2.1 hz]
  · rw [h1.2 hz, h2.2 hz]

/-- **C23** non-negative for PSD matrices -/
theorem C23_psd_nonneg {n : Nat} {A B : Matrix (Fin n) (Fin n) ℝ} {already : Bool} {x : ℝ} (hA : IsPSD A) (hB : IsPSD B)
    (h : AlignmentIs A B already x) : 0 ≤ x := by
  obtain ⟨-, -, rfl⟩ := AlignmentIs.iff.1 h
  refine div_nonneg ?_ (mul_nonneg (Real.sqrt_nonneg _) (Real.sqrt_nonneg _))
  cases already
  · exact hA.centered.frobInner_nonneg hB.centered
  · exact hA.frobInner_nonneg hB

/-- the identity matrix and a matrix of ones plus identity: their alignment is defined -/
example : IsPSD !![(1:ℝ), 0; 0, 1] ∧ IsPSD !![(2:ℝ), 1; 1, 2] ∧ ∃ x, AlignmentIs !![(1:ℝ), 0; 0, 1] !![(2:ℝ), 1; 1, 2] false x := by
  refine ⟨⟨?_, ?_⟩, ⟨?_, ?_⟩, _, AlignmentIs.iff.2 ⟨?_, ?_, rfl⟩⟩
  · intro i j; fin_cases i <;> fin_cases j <;> rfl
  · intro x
    simp only [Fin.sum_univ_two, Matrix.cons_val_zero, Matrix.cons_val_one, Matrix.of_apply]
    nlinarith [sq_nonneg (x 0), sq_nonneg (x 1)]
  · intro i j; fin_cases i <;> fin_cases j <;> rfl
  · intro x
    simp only [Fin.sum_univ_two, Matrix.cons_val_zero, Matrix.cons_val_one, Matrix.of_apply]
    nlinarith [sq_nonneg (x 0), sq_nonneg (x 1), sq_nonneg (x 0 + x 1)]
  · have : frobInner (centeredIf false !![(1:ℝ), 0; 0, 1]) (centeredIf false !![(1:ℝ), 0; 0, 1]) = 1 := by
      simp [frobInner, centeredIf, centered, Fin.sum_univ_two]; norm_num
    rw [this, Real.sqrt_one]; exact not_nearZero_one
  · have : frobInner (centeredIf false !![(2:ℝ), 1; 1, 2]) (centeredIf false !![(2:ℝ), 1; 1, 2]) = 1 := by
      simp [frobInner, centeredIf, centered, Fin.sum_univ_two]; norm_num
    rw [this, Real.sqrt_one]; exact not_nearZero_one

/-- **C24** Two matrices of the same shape, square unless declared to be centered already; `cA`, `cB` their centered
versions (or themselves) with norms `a`, `b`. If a norm is close to zero, `alignment_centered` raises `ValueError` when
asked to raise and otherwise returns exactly the given value; in all other cases `value_if_zero_division` has no effect. -/
theorem C24_degenerate {A B cA cB : Mat F} {already : Bool} (hr : A.nrows = B.nrows) (hc : A.ncols = B.ncols)
    (hA : if already then cA = A else centerKmAny (.arr A) = .ok cA)
    (hB : if already then cB = B else centerKmAny (.arr B) = .ok cB)
    {a b : F} (ha : frobeniusNorm cA = .ok a) (hb : frobeniusNorm cB = .ok b) :
    ((∃ x : ℝ, (a = .real x ∨ b = .real x) ∧ |x| ≤ 1e-8) →
      alignmentCentered A B .raise already = .error .valueError ∧
      ∀ v, alignmentCentered A B (.value v) already = .ok v) ∧
    ((¬ ∃ x : ℝ, (a = .real x ∨ b = .real x) ∧ |x| ≤ 1e-8) →
      ∃ p, frobeniusProduct cA cB = .ok p ∧ ∀ zd, alignmentCentered A B zd already = .ok (p / (a * b))) := by
  have hA' : centerUnless already A = .ok cA := by
    cases already
    · exact hA
    · rw [if_pos rfl] at hA; rw [hA]; rfl
  have hB' : centerUnless already B = .ok cB := by
    cases already
    · exact hB
    · rw [if_pos rfl] at hB; rw [hB]; rfl
  have hshape : ∀ C C', centerUnless already C = .ok C' → C'.nrows = C.nrows ∧ C'.ncols = C.ncols := by
    intro C C' h
    cases already
    · exact (centerKm_shape h).2
    · injection h with h; rw [h]; exact ⟨rfl, rfl⟩
  have s1 := hshape A cA hA'
  have s2 := hshape B cB hB'
  obtain ⟨p, hp⟩ := (C22_errors cA cB).2 ⟨by rw [s1.1, s2.1, hr], by rw [s1.2, s2.2, hc]⟩
  have hiff : (isClose a 0 ∨ isClose b 0) ↔ ∃ x : ℝ, (a = .real x ∨ b = .real x) ∧ |x| ≤ 1e-8 := by
    constructor
    · rintro (h | h)
      · rcases a with x | _
        · exact ⟨x, Or.inl rfl, (isClose_zero x).1 h⟩
        · exact h.elim
      · rcases b with x | _
        · exact ⟨x, Or.inr rfl, (isClose_zero x).1 h⟩
        · exact h.elim
    · rintro ⟨x, rfl | rfl, h⟩
      · exact Or.inl ((isClose_zero x).2 h)
      · exact Or.inr ((isClose_zero x).2 h)
  have hal : ∀ zd, alignmentCentered A B zd already = alignmentOf cA cB zd := by
    intro zd
    rw [alignmentCentered, if_neg (by simp [hr, hc]), hA', hB']
    rfl
  constructor
  · intro h
    have hz := hiff.2 h
    constructor
    · rw [hal, alignmentOf, ha, hb]
      simp only [bind, Except.bind]
      rw [if_pos hz]
    · intro v
      rw [hal, alignmentOf, ha, hb]
      simp only [bind, Except.bind]
      rw [if_pos hz]
  · intro h
    have hz := mt hiff.1 h
    refine ⟨p, hp, fun zd => ?_⟩
    rw [hal, alignmentOf.eq_def, ha, hb]
    simp only [bind, Except.bind]
    rw [if_neg hz, hp]

/-- a constant matrix is degenerate -/
example (c : ℝ) : centerKmAny (.arr (Mat.ofReal fun _ _ : Fin 3 => c)) = .ok (Mat.ofReal fun _ _ : Fin 3 => (0:ℝ)) ∧
    frobeniusNorm (Mat.ofReal fun _ _ : Fin 3 => (0:ℝ)) = .ok (.real 0) := by
  constructor
  · refine (centerKm_real fun _ _ => c).trans ?_
    congr 2
    funext i j
    simp [centered]
    ring
  · refine (frobeniusNorm_real fun _ _ => (0:ℝ)).trans ?_
    simp [frobInner]

/-- **C24** objects that are not ndarrays, shapes that differ, and non-square matrices are always rejected, whatever
`value_if_zero_division` is -/
theorem C24_rejects (a b : NdArg) (zd : ZeroDiv) (already : Bool)
    (h : ¬ ∃ A B, a = .arr A ∧ b = .arr B ∧ A.nrows = B.nrows ∧ A.ncols = B.ncols ∧ (already = true ∨ A.nrows = A.ncols)) :
    alignmentCenteredAny a b zd already ∈ [.error .valueError, .error .typeError, .error .attributeError] := by
  have hother : ∀ (a b : NdArg), (do
      let s ← a.shape
      let t ← b.shape
      if s ≠ t then Except.error PyErr.valueError else Except.error PyErr.typeError : Except PyErr F) ∈
      [.error .valueError, .error .typeError, .error .attributeError] := by
    intro a b
    have hs : ∀ c : NdArg, (∃ s, c.shape = .ok s) ∨ c.shape = .error .attributeError := by
      rintro (C | _ | s)
      · exact Or.inl ⟨_, rfl⟩
      · exact Or.inr rfl
      · exact Or.inl ⟨_, rfl⟩
    rcases hs a with ⟨s, h1⟩ | h1 <;> rw [h1]
    · rcases hs b with ⟨t, h2⟩ | h2 <;> rw [h2]
      · by_cases hst : s ≠ t
        · simp [bind, Except.bind, hst]
        · simp only [bind, Except.bind]; rw [if_neg hst]; simp
      · simp [bind, Except.bind]
    · simp [bind, Except.bind]
  rcases a with A | sa
  · rcases b with B | sb
    · show alignmentCentered A B zd already ∈ _
      unfold alignmentCentered
      by_cases hsh : A.nrows ≠ B.nrows ∨ A.ncols ≠ B.ncols
      · rw [if_pos hsh]; simp
      · rw [if_neg hsh]
        push Not at hsh
        have : already = false ∧ A.nrows ≠ A.ncols := by
          constructor
          · cases already
            · rfl
            · exact (h ⟨A, B, rfl, rfl, hsh.1, hsh.2, Or.inl rfl⟩).elim
          · intro hsq; exact h ⟨A, B, rfl, rfl, hsh.1, hsh.2, Or.inr hsq⟩
        rw [this.1, centerUnless, if_neg (by simp), centerKm, if_neg this.2]
        simp [bind, Except.bind]
    · exact hother (.arr A) (.other sb)
  · exact hother (.other sa) b

/-! ## C25 -/

/-- **C25** Objects other than ndarrays raise `TypeError`; a matrix that is not square or has a pair of entries `K_ij`,
`K_ji` that are not close (in particular a NaN) gives `False`. -/
theorem C25_rejects (tol : ℝ) :
    (∀ sh, isPSD (.other sh) tol = .error .typeError) ∧
    (∀ K : Mat F, K.nrows ≠ K.ncols → isPSD (.arr K) tol = .ok false) ∧
    (∀ (n : Nat) (K : Fin n → Fin n → F) i j, ¬ (K i j).isFinite ∨
      1e-8 + 1e-5 * |(K j i).val| < |(K i j).val - (K j i).val| → isPSD (.arr ⟨n, n, K⟩) tol = .ok false) := by
  refine ⟨fun _ => rfl, fun K h => by rw [isPSD, dif_neg h], fun n K i j h => ?_⟩
  rw [isPSD, dif_pos rfl]
  simp only [Fin.cast_eq_self]
  rw [if_neg]
  intro hall
  have := hall i j
  rcases hij : K i j with x | _
  · rcases hji : K j i with y | _
    · rw [hij, hji] at h this
      rcases h with h | h
      · exact h trivial
      · exact absurd (show |x - y| ≤ _ from this) (not_le.2 h)
    · rw [hij, hji] at this; exact this
  · rw [hij] at this; exact this

/-- **C25** For an exactly symmetric matrix, `is_PSD` is true exactly when `xᵀKx ≥ -tolerance·|x|²` for every `x`. -/
theorem C25_decides {n : Nat} (K : Matrix (Fin n) (Fin n) ℝ) (hs : ∀ i j, K i j = K j i) (tol : ℝ) :
    ∃ b, isPSD (.arr (Mat.ofReal K)) tol = .ok b ∧
      (b = true ↔ ∀ x : Fin n → ℝ, -tol * ∑ i, x i * x i ≤ ∑ i, ∑ j, x i * K i j * x j) := by
  refine ⟨_, by
    rw [isPSD, dif_pos (show (Mat.ofReal K).nrows = (Mat.ofReal K).ncols from rfl), if_pos]
    intro i j
    show |K i j - K j i| ≤ 1e-8 + 1e-5 * |K j i|
    rw [hs i j, sub_self, abs_zero]
    positivity, ?_⟩
  rw [decide_eq_true_iff]
  have e : lowerSym (fun i j : Fin n => ((Mat.ofReal K).get i (Fin.cast rfl j)).val) = K := by
    funext i j
    simp only [lowerSym, Mat.ofReal, Fin.cast_eq_self, val_real]
    split
    · rfl
    · exact hs j i
  have := eigen_ge_iff (lowerSym_isHermitian fun i j : Fin n => ((Mat.ofReal K).get i (Fin.cast rfl j)).val) (-tol)
  simp only [not_lt]
  refine this.trans ?_
  rw [e]

/-- **C25** With a non-negative tolerance every PSD matrix is accepted; with tolerance 0 only PSD ones among the
symmetric matrices. -/
theorem C25_accepts_psd {n : Nat} (K : Matrix (Fin n) (Fin n) ℝ) (hs : ∀ i j, K i j = K j i) :
    (∀ tol, 0 ≤ tol → IsPSD K → isPSD (.arr (Mat.ofReal K)) tol = .ok true) ∧
    (isPSD (.arr (Mat.ofReal K)) 0 = .ok true → IsPSD K) := by
  constructor
  · intro tol ht hp
    obtain ⟨b, hb, h⟩ := C25_decides K hs tol
    rw [hb, h.2]
    intro x
    refine le_trans ?_ (hp.2 x)
    rw [neg_mul]
    exact neg_nonpos.2 (mul_nonneg ht (Finset.sum_nonneg fun i _ => mul_self_nonneg _))
  · intro h
    obtain ⟨b, hb, h'⟩ := C25_decides K hs 0
    rw [hb] at h
    injection h with h
    refine ⟨hs, fun x => ?_⟩
    have := h'.1 h x
    simpa using this

/-- a symmetric matrix with a negative eigenvalue, rejected with tolerance 1/2 -/
example : isPSD (.arr (Mat.ofReal !![(0:ℝ), 1; 1, 0])) (1/2) = .ok false := by
  obtain ⟨b, hb, h⟩ := C25_decides !![(0:ℝ), 1; 1, 0] (by intro i j; fin_cases i <;> fin_cases j <;> rfl) (1/2)
  rw [hb]
  cases b
  · rfl
  · have := h.1 rfl ![1, -1]
    simp [Fin.sum_univ_two] at this
    norm_num at this

end KMethods
