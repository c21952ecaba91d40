import Verif.Lemmas.FloatEnv
import Verif.Props.Pipeline
/-!
# C71: results in floating point arithmetic

The intended property: in floating point arithmetic too, `km.full` is the positive semidefinite matrix of C53, up to rounding errors, and is
recognised as such by `is_PSD` (and `is_psd()` answers True). Error bounds hold for all valid kernels and all orders of
summation. The test of `is_PSD` has an absolute tolerance, so it fails on matrices with large entries that are not normalised
(`C71_violated`); it passes when the trace is not too large, and for normalised matrices up to a size far beyond what fits in memory.
-/
namespace KMethods
open F Rounding KMState
variable {R : Rounding} {env : Env NumKernel (List ℝ) F} {k : NumKernel} {A : Arr2 (List ℝ)}

/-! ## kernel functions -/

/-- **C71** Whatever the order of evaluation, the computed value of a valid kernel differs from the exact one by at most `γ_m √(k(x,x) k(y,y))`,
where `m` is the number of roundings. -/
theorem C71_kernel_error {d : Nat} {x y : Fin d → ℝ} (hx : k.ValidAt x) (hy : k.ValidAt y) {v : ℝ} (h : R.Computes k x y v)
    (hm : k.roundings d * R.u < 1) :
    ∃ c a b, k.on x y = .ok (.real c) ∧ k.on x x = .ok (.real a) ∧ k.on y y = .ok (.real b) ∧
      |v - c| ≤ R.gamma (k.roundings d) * Real.sqrt (a * b) := by
  obtain ⟨c, a, b, hc, ha, hb, h0, -, herr⟩ := computes_err hx hy h
  refine ⟨c, a, b, hc, ha, hb, ?_⟩
  rw [Real.sqrt_mul h0]
  exact herr.trans (mul_le_mul_of_nonneg_right (pow_w_le _ hm) (by positivity))

/-- the inner product of (1, 2) and (3, 4) with two-bit arithmetic: both are valid, some value is computed, and 2·2⁻² < 1 -/
example : NumKernel.linear.ValidAt ![(1:ℝ), 2] ∧ (∃ v, (binary 2 (by norm_num)).Computes .linear ![(1:ℝ), 2] ![3, 4] v) ∧
    (NumKernel.linear.roundings 2 : ℝ) * (binary 2 (by norm_num)).u < 1 :=
  ⟨trivial, exists_computes _ (by rintro _ _ ⟨⟩) _ _, by norm_num [NumKernel.roundings, binary]⟩

/-! ## normalisation -/

/-- **C71** `normalize_km`: every entry has a relative error of at most γ₆, in particular the diagonal is within γ₆ of 1, and the result does not depend
on the order in which the matrix products are summed. -/
theorem C71_normalise (o o' : SumOrder) {n : Nat} (K : Matrix (Fin n) (Fin n) ℝ) {method : String} (hm : method.toLower = "cosine")
    (hpos : ∀ i, 1e-8 < K i i) (hu : 6 * R.u < 1) :
    ∃ N : Matrix (Fin n) (Fin n) ℝ, normalizeKmFl R o o' (Mat.ofReal K) method = .ok (Mat.ofReal N) ∧
      (∀ i j, |N i j - K i j / Real.sqrt (K i i * K j j)| ≤ R.gamma 6 * |K i j / Real.sqrt (K i i * K j j)|) ∧
      (∀ i, |N i i - 1| ≤ R.gamma 6) ∧
      ∀ o₂ o₂', normalizeKmFl R o₂ o₂' (Mat.ofReal K) method = .ok (Mat.ofReal N) := by
  have h0 : ∀ i, 0 < K i i := fun i => lt_trans (by norm_num) (hpos i)
  have hz : ¬ ∃ i, NearZero (K i i) := by
    rintro ⟨i, hi⟩
    rw [NearZero, abs_of_pos (h0 i)] at hi
    linarith [hpos i]
  have h1 : ∀ o o', normalizeKmFl R o o' (Mat.ofReal K) method = .ok (Mat.ofReal fun i j => R.normEntry (K i i) (K j j) (K i j)) := by
    intro o o'
    rw [normalizeKmFl_ofReal, (normalizeSquareFl_real o o' K hm fun i => (h0 i).le).2 hz]
    rfl
  have h2 : ∀ i j, |R.normEntry (K i i) (K j j) (K i j) - K i j / Real.sqrt (K i i * K j j)| ≤
      R.gamma 6 * |K i j / Real.sqrt (K i i * K j j)| := fun i j =>
    (normEntry_rel (h0 i).le (K j j) (K i j)).err_gamma (by push_cast; exact hu)
  refine ⟨_, h1 o o', h2, fun i => ?_, h1⟩
  have := h2 i i
  rwa [Real.sqrt_mul_self (h0 i).le, div_self (h0 i).ne', abs_one, mul_one] at this

/-- **C71** errors of `normalize_km` are those of the exact function (C20). -/
theorem C71_normalise_errors (o o' : SumOrder) (K : Mat F) (method : String) (e : PyErr) :
    normalizeKmFl R o o' K method = .error e ↔ normalizeKm K method = .error e := by
  unfold normalizeKmFl normalizeKm normalizeSquareFl normalizeSquare
  split
  · split
    · split <;> simp [Except.map]
    · simp [Except.map]
  · simp

/-- **C71** `normalize_km_2sample`: relative error at most γ₆, independent of the order of summation. -/
theorem C71_normalise_two_samples (o o' : SumOrder) {n m : Nat} (K : Matrix (Fin n) (Fin m) ℝ) (dx : Fin n → ℝ) (dy : Fin m → ℝ)
    {method : String} (hm : method.toLower = "cosine") (hx : ∀ i, 1e-8 < dx i) (hy : ∀ j, 1e-8 < dy j) (hu : 6 * R.u < 1) :
    ∃ N : Matrix (Fin n) (Fin m) ℝ,
      normalizeKm2Fl R o o' (Mat.ofReal K) (List.ofFn fun i => .real (dx i)) (List.ofFn fun j => .real (dy j)) method = .ok (Mat.ofReal N) ∧
      (∀ i j, |N i j - K i j / Real.sqrt (dx i * dy j)| ≤ R.gamma 6 * |K i j / Real.sqrt (dx i * dy j)|) ∧
      ∀ o₂ o₂', normalizeKm2Fl R o₂ o₂' (Mat.ofReal K) (List.ofFn fun i => .real (dx i)) (List.ofFn fun j => .real (dy j)) method =
        .ok (Mat.ofReal N) := by
  have h0 : ∀ x : ℝ, 1e-8 < x → 0 < x := fun x h => lt_trans (by norm_num) h
  have hz : ¬ ((∃ i, NearZero (dx i)) ∨ ∃ j, NearZero (dy j)) := by
    rintro (⟨i, hi⟩ | ⟨j, hj⟩)
    · rw [NearZero, abs_of_pos (h0 _ (hx i))] at hi; linarith [hx i]
    · rw [NearZero, abs_of_pos (h0 _ (hy j))] at hj; linarith [hy j]
  have h1 := fun o o' => (normalizeKm2Fl_real (R := R) o o' K dx dy hm _ _ rfl rfl (fun i => (h0 _ (hx i)).le) fun j => (h0 _ (hy j)).le).2 hz
  exact ⟨_, h1 o o', fun i j => (normEntry_rel (h0 _ (hx i)).le (dy j) (K i j)).err_gamma (by push_cast; exact hu), h1⟩

/-- double precision satisfies the hypothesis on `u` -/
example : 6 * (binary 53 (by norm_num)).u < 1 := by norm_num [binary]

/-! ## `km.full` -/

/-- **C71** Not normalising: after any calls not requesting sparse storage, `km.full` is exactly symmetric and differs from the positive semidefinite
matrix of kernel values by at most `γ_m √(K_ii K_jj)`. -/
theorem C71_full (henv : FloatEnv R env) (hv : k.ValidOn A) (hm : k.roundings A.ncols * R.u < 1)
    {s : KMState NumKernel (List ℝ) F} (h : SinceDense env k false ⟨A, none⟩ s) :
    ∃ K H : Matrix (Fin A.nrows) (Fin A.nrows) ℝ, k.IsGram A K ∧ IsPSD K ∧
      (exec env .full s).1 = .ok (.mat .dense (Mat.ofReal H)) ∧ (∀ i j, H i j = H j i) ∧
      ∀ i j, |H i j - K i j| ≤ R.gamma (k.roundings A.ncols) * Real.sqrt (K i i * K j j) := by
  obtain ⟨K, H, hg, hK, e, hs, hf, herr⟩ := henv.gram hv
  refine ⟨K, H, hg, hK, ?_, hs, fun i j => ?_⟩
  · rw [C08_full_is_gram hf (fun hr => by rw [henv.fmt] at hr; cases hr) h, e]
  · rw [Real.sqrt_mul (hK.diag_nonneg i)]
    exact (herr i j).trans (mul_le_mul_of_nonneg_right (pow_w_le _ hm) (by positivity))

/-- **C71** Not normalising, partial: `is_PSD(km.full)` is True if the trace of the matrix is at most 10⁻⁶/γ_m. (Without this hypothesis it can be
False: `C71_violated`.) -/
theorem C71_full_is_psd_partial (henv : FloatEnv R env) (hv : k.ValidOn A) (hm : k.roundings A.ncols * R.u < 1)
    {s : KMState NumKernel (List ℝ) F} (h : SinceDense env k false ⟨A, none⟩ s)
    (htr : ∀ K, k.IsGram A K → R.gamma (k.roundings A.ncols) * ∑ i, K i i ≤ 1e-6) :
    isPsdOfFull (exec env .full s).1 = .ok true := by
  obtain ⟨K, H, hg, hK, e, hs, herr⟩ := C71_full henv hv hm h
  rw [e]
  refine isPSD_accepts hK (s := fun i => Real.sqrt (K i i)) (gamma_nonneg hm) (fun i j => ?_) (fun i j => ?_) ?_
  · rw [← Real.sqrt_mul (hK.diag_nonneg i)]; exact herr i j
  · rw [hs i j, sub_self, abs_zero]; positivity
  · simp only [Real.sq_sqrt (hK.diag_nonneg _)]
    exact htr K hg

/-- the hypothesis on the trace, for the Laplacian kernel on three samples in double precision -/
example (K : Matrix (Fin 3) (Fin 3) ℝ) (hK : (NumKernel.laplacian 1).IsGram ⟨3, 1, fun i => [(i:ℝ)]⟩ K) :
    (binary 53 (by norm_num)).gamma ((NumKernel.laplacian 1).roundings 1) * ∑ i, K i i ≤ 1e-6 := by
  have h1 : ∀ i, K i i = 1 := fun i => self_one (Or.inr (Or.inl ⟨1, rfl⟩)) (hK i i)
  norm_num [h1, Rounding.gamma, NumKernel.roundings, binary]

/-- **C71** Normalising: after any calls, `km.full` either raises `KMNormError`, which happens if a self-kernel is clearly below the threshold 10⁻⁸ and
does not happen if all are clearly above; or it is a matrix whose entries differ from those of the exact normalised matrix by at most `normErr γ_m`, about
(6 + 2m) u, and which is symmetric up to a relative error γ₁₂. -/
theorem C71_full_normalised (henv : FloatEnv R env) (hv : k.ValidOn A) (hm : 2 * (k.roundings A.ncols * R.u) < 1) (hu : 12 * R.u < 1)
    {s : KMState NumKernel (List ℝ) F} (h : SinceAny env k true ⟨A, none⟩ s) :
    ∃ K, k.IsGram A K ∧ IsPSD (cosNorm K) ∧
      ((exec env .full s).1 = .error .kmNorm ∨
        ∃ N : Matrix (Fin A.nrows) (Fin A.nrows) ℝ, (exec env .full s).1 = .ok (.mat .dense (Mat.ofReal N)) ∧
          (∀ i j, |N i j - cosNorm K i j| ≤ R.normErr (R.gamma (k.roundings A.ncols))) ∧
          ∀ i j, |N i j - N j i| ≤ R.gamma 12 * |N j i|) ∧
      ((∃ i, (1 + R.gamma (k.roundings A.ncols)) * K i i ≤ 1e-8) → (exec env .full s).1 = .error .kmNorm) ∧
      ((∀ i, 1e-8 < (1 - R.gamma (k.roundings A.ncols)) * K i i) → (exec env .full s).1 ≠ .error .kmNorm) := by
  obtain ⟨K, H, hg, hK, e, hs, hf, herr⟩ := henv.gram hv
  set η := R.gamma (k.roundings A.ncols) with hη
  have hm1 : k.roundings A.ncols * R.u < 1 := by
    have : 0 ≤ k.roundings A.ncols * R.u := mul_nonneg (Nat.cast_nonneg _) R.u_nonneg
    linarith
  have h0 : 0 ≤ η := gamma_nonneg hm1
  have h1 : η < 1 := by
    rw [hη, Rounding.gamma, div_lt_one (by linarith)]
    linarith
  have herr' : ∀ i j, |H i j - K i j| ≤ η * (Real.sqrt (K i i) * Real.sqrt (K j j)) := fun i j =>
    (herr i j).trans (mul_le_mul_of_nonneg_right (pow_w_le _ hm1) (by positivity))
  have hd : ∀ i, |H i i - K i i| ≤ η * K i i := fun i => by
    have := herr' i i
    rwa [Real.mul_self_sqrt (hK.diag_nonneg i)] at this
  have hH : ∀ i, 0 ≤ H i i := fun i => by
    have h2 := (abs_le.1 (hd i)).1
    have h3 := hK.diag_nonneg i
    nlinarith
  obtain ⟨o, o', hn⟩ := henv.ops.normalize
  have hfull := henv.full_normed hf h
  rw [hn, e, normalizeKmFl_ofReal] at hfull
  obtain ⟨hbad, hgood⟩ := normalizeSquareFl_real (R := R) o o' H toLower_cosine hH
  have hcase : ((∃ i, NearZero (H i i)) → (exec env .full s).1 = .error .kmNorm) ∧
      ((¬ ∃ i, NearZero (H i i)) →
        (exec env .full s).1 = .ok (.mat .dense (Mat.ofReal fun i j => R.normEntry (H i i) (H j j) (H i j)))) :=
    ⟨fun hz => by rw [hfull, hbad hz]; rfl, fun hz => by rw [hfull, hgood hz]; rfl⟩
  refine ⟨K, hg, hK.cosNorm, ?_, fun ⟨i, hi⟩ => hcase.1 ⟨i, ?_⟩, fun hi => ?_⟩
  · by_cases hz : ∃ i, NearZero (H i i)
    · exact Or.inl (hcase.1 hz)
    · refine Or.inr ⟨_, hcase.2 hz, fun i j => ?_, fun i j => ?_⟩
      · have hpos : ∀ i, 0 < K i i := fun i => by
          refine (hK.diag_nonneg i).lt_of_ne fun h3 => hz ⟨i, ?_⟩
          have := hd i
          rw [← h3, mul_zero, sub_zero] at this
          rw [NearZero]
          exact this.trans (by norm_num)
        have hk : |K i j| ≤ Real.sqrt (K i i) * Real.sqrt (K j j) := by
          rw [← Real.sqrt_mul (hpos i).le]
          exact Real.abs_le_sqrt (hK.sq_le i j)
        have := normEntry_err (R := R) (s := Real.sqrt (K i i)) (t := Real.sqrt (K j j)) (Real.sqrt_pos.2 (hpos i)) (Real.sqrt_pos.2 (hpos j))
          hk h0 h1 (by linarith [R.u_nonneg]) (by rw [Real.sq_sqrt (hpos i).le]; exact herr' i i)
          (by rw [Real.sq_sqrt (hpos j).le]; exact herr' j j) (herr' i j)
        rw [cosNorm, Real.sqrt_mul (hpos i).le]
        exact this
      · have h2 := normEntry_rel (R := R) (hH i) (H j j) (H i j)
        have h3 := normEntry_rel (R := R) (hH j) (H i i) (H j i)
        rw [_root_.mul_comm (H j j), hs j i] at h3
        have := (h2.trans h3.symm).err_gamma (by push_cast; linarith)
        rw [hs j i]
        exact this
  · have h2 := (abs_le.1 (hd i)).2
    rw [NearZero, abs_of_nonneg (hH i)]
    linarith
  · rw [hcase.2]
    · simp
    · rintro ⟨i, hz⟩
      rw [NearZero, abs_of_nonneg (hH i)] at hz
      have h2 := (abs_le.1 (hd i)).1
      have := hi i
      linarith

/-- **C71** Normalising: unless it raises `KMNormError`, `km.full` is accepted by `is_PSD` as long as `n · normErr γ_m ≤ 10⁻⁶`. -/
theorem C71_full_normalised_is_psd (henv : FloatEnv R env) (hv : k.ValidOn A) (hm : 2 * (k.roundings A.ncols * R.u) < 1) (hu : 24 * R.u ≤ 1e-5)
    (hn : A.nrows * R.normErr (R.gamma (k.roundings A.ncols)) ≤ 1e-6)
    {s : KMState NumKernel (List ℝ) F} (h : SinceAny env k true ⟨A, none⟩ s) :
    (exec env .full s).1 = .error .kmNorm ∨ isPsdOfFull (exec env .full s).1 = .ok true := by
  have hu' : 24 * R.u < 1 := hu.trans_lt (by norm_num)
  have hu0 := R.u_nonneg
  obtain ⟨K, hg, hK, hcase, -⟩ := C71_full_normalised henv hv hm (by linarith) h
  refine hcase.imp_right ?_
  rintro ⟨N, e, herr, hsym⟩
  rw [e]
  have hm1 : k.roundings A.ncols * R.u < 1 := by
    have : 0 ≤ k.roundings A.ncols * R.u := mul_nonneg (Nat.cast_nonneg _) hu0
    linarith
  have h1 : R.gamma (k.roundings A.ncols) < 1 := by
    rw [Rounding.gamma, div_lt_one (by linarith)]
    linarith
  refine isPSD_accepts hK (s := fun _ => 1) (normErr_nonneg (gamma_nonneg hm1) h1 (by linarith)) (fun i j => ?_) (fun i j => ?_) ?_
  · rw [mul_one, mul_one]; exact herr i j
  · refine (hsym i j).trans ?_
    have : R.gamma 12 ≤ 1e-5 := by
      rw [Rounding.gamma, div_le_iff₀ (by push_cast; linarith)]
      push_cast
      norm_num at hu ⊢
      linarith
    have := mul_le_mul_of_nonneg_right this (abs_nonneg (N j i))
    have h8 : (0:ℝ) ≤ 1e-8 := by norm_num
    linarith
  · simp only [one_pow, Finset.sum_const, Finset.card_univ, Fintype.card_fin, nsmul_eq_mul, mul_one]
    rw [_root_.mul_comm]
    exact hn

/-- **C71** In double precision (or better): normalised matrices of `n > 0` samples with `n (m + 3) ≤ 4·10⁹` are accepted; for the Gaussian kernel and `d`
features, that is `n (d + 10) ≤ 4·10⁹`. -/
theorem C71_double_is_psd (henv : FloatEnv R env) (hR : R.u ≤ 2⁻¹ ^ 53) (hv : k.ValidOn A) (h0 : 0 < A.nrows)
    (hn : A.nrows * (k.roundings A.ncols + 3) ≤ 4 * 10 ^ 9) {s : KMState NumKernel (List ℝ) F} (h : SinceAny env k true ⟨A, none⟩ s) :
    (exec env .full s).1 = .error .kmNorm ∨ isPsdOfFull (exec env .full s).1 = .ok true := by
  have hu0 := R.u_nonneg
  have hu : R.u ≤ 1.2e-16 := hR.trans (by norm_num)
  set m := k.roundings A.ncols with hm
  have hn' : (A.nrows : ℝ) * (m + 3) ≤ 4 * 10 ^ 9 := by exact_mod_cast hn
  have hn1 : (1 : ℝ) ≤ A.nrows := by exact_mod_cast h0
  have hm0 : (0 : ℝ) ≤ m := Nat.cast_nonneg m
  have hm1 : (m : ℝ) ≤ 4 * 10 ^ 9 := by nlinarith
  have hmu : m * R.u ≤ 5e-7 := by
    calc (m : ℝ) * R.u ≤ (4 * 10 ^ 9) * 1.2e-16 := mul_le_mul hm1 hu hu0 (by norm_num)
      _ ≤ 5e-7 := by norm_num
  have hmu0 : 0 ≤ m * R.u := mul_nonneg hm0 hu0
  refine C71_full_normalised_is_psd henv hv ?_ ?_ ?_ h
  · norm_num at hmu ⊢; linarith
  · norm_num at hu ⊢; linarith
  · have hN := normErr_double hR hm1
    have hnu : (A.nrows : ℝ) * ((m + 3) * R.u) ≤ (4 * 10 ^ 9) * 2⁻¹ ^ 53 := by
      rw [← _root_.mul_assoc]
      exact mul_le_mul hn' hR hu0 (by norm_num)
    calc (A.nrows : ℝ) * R.normErr (R.gamma m) ≤ A.nrows * (1.00001 * (2 * ((m + 3) * R.u))) := mul_le_mul_of_nonneg_left hN (by linarith)
      _ = 1.00001 * (2 * (A.nrows * ((m + 3) * R.u))) := by ring
      _ ≤ 1.00001 * (2 * ((4 * 10 ^ 9) * 2⁻¹ ^ 53)) := by gcongr
      _ ≤ 1e-6 := by norm_num

/-- a million samples with a thousand features in double precision, freshly attached -/
example : FloatEnv (binary 53 (by norm_num)) (floatEnv (binary 53 (by norm_num))) ∧ (NumKernel.laplacian 1).ValidOn ⟨10 ^ 6, 1000, fun i => List.replicate 1000 (i:ℝ)⟩ ∧
    10 ^ 6 * ((NumKernel.laplacian 1).roundings 1000 + 3) ≤ 4 * 10 ^ 9 ∧
    SinceAny (floatEnv (binary 53 (by norm_num))) (.laplacian 1) true ⟨⟨10 ^ 6, 1000, fun i => List.replicate 1000 (i:ℝ)⟩, none⟩
      (exec (floatEnv (binary 53 (by norm_num))) (.attach (.arr [10 ^ 6, 1000] fun i => List.replicate 1000 (i:ℝ)) none) (init (.laplacian 1) true 0)).2 :=
  ⟨floatEnv_ok _, ⟨fun _ _ => List.length_replicate, zero_le_one⟩, by norm_num [NumKernel.roundings],
    .attached (.new 0) (two := none) ⟨⟨0, rfl⟩, trivial⟩ rfl⟩

/-- **C71** `kernel.is_psd()`: in double precision, for every valid kernel with `m < 7·10⁷` roundings on four entries, it answers True on every sample of 50 rows, or raises `KMNormError`.
(Polynomial kernels have `m = 6·degree + 1`, the others at most 11.) -/
theorem C71_is_psd (henv : FloatEnv R env) (hR : R.u ≤ 2⁻¹ ^ 53) (hv : k.ValidOn A) (hr : A.nrows = 50) (hc : A.ncols = 4)
    (hm : k.roundings 4 < 7 * 10 ^ 7) : baseIsPsd env k A = .error .kmNorm ∨ baseIsPsd env k A = .ok true := by
  have hs : exec env (.attach (.arr [A.nrows, A.ncols] A.row) none) (init k true 0) = (.ok .none,
      (exec env (.attach (.arr [A.nrows, A.ncols] A.row) none) (init k true 0)).2) :=
    exec_attach (two := none) (a := ⟨A, none⟩) ⟨⟨0, rfl⟩, trivial⟩ _
  have h : SinceAny env k true ⟨A, none⟩
      (exec env (.attach (.arr [A.nrows, A.ncols] A.row) none) (init k true 0)).2 :=
    .attached (two := none) (.new 0) ⟨⟨0, rfl⟩, trivial⟩ hs
  have := C71_double_is_psd henv hR hv (by omega) (by rw [hr, hc]; omega) h
  rw [baseIsPsd, hs]
  dsimp only
  refine this.imp_left fun e => ?_
  rw [e]; rfl

/-! ## violation -/

/-- two samples with one feature each -/
def bigSample : Arr2 (List ℝ) := ⟨2, 1, fun i => [if i = 0 then 200000001 else 200000005]⟩

private theorem kval_single (henv : FloatEnv R env) (a b : ℝ) :
    (∀ t, env.fails t .linear [a] [b] = false) ∧ env.kval .linear [a] [b] = .real (R.fl (a * b)) := by
  have hon : NumKernel.linear.on (fun _ : Fin 1 => a) (fun _ => b) = .ok (.real (a * b)) := by
    rw [on_linear]; simp
  obtain ⟨h1, v, e, t, ht, rfl⟩ := henv.call .linear (fun _ : Fin 1 => a) (fun _ => b) _ (by rintro _ _ ⟨⟩) hon
  rw [ht.single 0 (by intro j hj; exact (hj (Subsingleton.elim _ _)).elim)] at e
  exact ⟨h1, e⟩

private theorem fl_big {m : ℤ} {y : ℝ} (h1 : (2:ℝ) ^ 55 ≤ y) (h2 : y < 2 ^ 56) (hm : |y - m * 8| < 4) :
    (binary 53 (by norm_num)).fl y = m * 8 := by
  show nearest 53 y = _
  rw [nearest_nonneg (le_trans (by positivity) h1)]
  have := roundBits_of_int (p := 53) (y := y) (e := 3) (m := m) (by norm_num at h1 ⊢; exact h1) (by norm_num at h2 ⊢; exact h2) (by norm_num; exact hm)
  rw [this]
  norm_num

/-- **C71** is violated: for the linear kernel in double precision and these two samples, the matrix of kernel values is positive semidefinite, but `km.full` is
rejected by `is_PSD`, whatever the implementation: rounding leaves an eigenvalue of about -4. -/
theorem C71_violated : NumKernel.linear.ValidOn bigSample ∧ (∃ K, NumKernel.linear.IsGram bigSample K ∧ IsPSD K) ∧
    ∀ env, FloatEnv (binary 53 (by norm_num)) env → ∀ s, SinceDense env .linear false ⟨bigSample, none⟩ s →
      isPsdOfFull (exec env .full s).1 = .ok false := by
  have hv : NumKernel.linear.ValidOn bigSample := ⟨fun _ _ => rfl, trivial⟩
  obtain ⟨K, hK, hg⟩ := psdOn_of_validOn hv
  refine ⟨hv, ⟨K, hg, hK⟩, fun env henv s h => ?_⟩
  obtain ⟨-, -, -, -, -, -, hf, -⟩ := henv.gram hv
  rw [C08_full_is_gram hf (fun hr => by rw [henv.fmt] at hr; cases hr) h]
  have e1 : (binary 53 (by norm_num)).fl (200000001 * 200000001) = 40000000400000000 := by
    rw [fl_big (m := 5000000050000000)] <;> norm_num [abs_lt]
  have e2 : (binary 53 (by norm_num)).fl (200000001 * 200000005) = 40000001200000008 := by
    rw [fl_big (m := 5000000150000001)] <;> norm_num [abs_lt]
  have e3 : (binary 53 (by norm_num)).fl (200000005 * 200000005) = 40000002000000024 := by
    rw [fl_big (m := 5000000250000003)] <;> norm_num [abs_lt]
  have e : Attachment.gram ⟨bigSample, none⟩ (env.kval .linear) =
      Mat.ofReal !![(40000000400000000 : ℝ), 40000001200000008; 40000001200000008, 40000002000000024] := by
    show Mat.mk _ _ _ = Mat.mk _ _ _
    congr 1
    funext i j
    have hkv : ∀ a b : ℝ, env.kval .linear [a] [b] = .real ((binary 53 (by norm_num)).fl (a * b)) := fun a b => (kval_single henv a b).2
    fin_cases i <;> fin_cases j
    · exact (hkv _ _).trans (congrArg F.real e1)
    · exact (hkv _ _).trans (congrArg F.real e2)
    · exact (hkv _ _).trans (congrArg F.real e2)
    · exact (hkv _ _).trans (congrArg F.real e3)
  rw [e]
  obtain ⟨b, hb, hiff⟩ := C25_decides !![(40000000400000000 : ℝ), 40000001200000008; 40000001200000008, 40000002000000024]
    (by intro i j; fin_cases i <;> fin_cases j <;> rfl) 1e-6
  unfold isPsdOfFull
  dsimp only
  rw [hb]
  cases b
  · rfl
  · have := hiff.1 rfl ![200000005, -200000001]
    norm_num [Fin.sum_univ_two] at this

/-- such objects exist -/
example : SinceDense (floatEnv (binary 53 (by norm_num))) .linear false ⟨bigSample, none⟩
    (exec (floatEnv (binary 53 (by norm_num))) (.attach (.arr [2, 1] bigSample.row) none) (init .linear false 0)).2 :=
  .attached (.new 0) (two := none) ⟨⟨0, rfl⟩, trivial⟩ rfl

end KMethods
