import Verif.Lemmas.OverflowNorm
import Verif.Props.Overflow
/-!
# C95: normalisation does not hide an overflow
-/
namespace KMethods
open Rounding KMState FloatFormat
variable {Φ : FloatFormat} {k : NumKernel} {n m : Nat}

/-! ## `normalize_km` -/

/-- **C95** If an entry of the matrix is infinite or NaN, no entry of the normalised matrix is finite. -/
theorem C95_visible {o o' : SumOrder} {K N : Fin n → Fin n → Dbl} {method : String} (h : Φ.normalizeKm o o' ⟨n, n, K⟩ method = .ok ⟨n, n, N⟩)
    (hK : ∃ i j, ¬ (K i j).Finite) (i j : Fin n) : ¬ (N i j).Finite := by
  intro hN
  obtain ⟨-, rfl⟩ := normalizeKm_ok h
  obtain ⟨r, l, hrl⟩ := hK
  generalize hv : Φ.matmul o' (Φ.matmul o (Φ.invSqrtDiag fun i => K i i) K) (Φ.invSqrtDiag fun i => K i i) i j = v at hN
  cases v with
  | fin v => exact hrl ((matmul_fin hv).1 r l)
  | inf s => exact hN
  | nan => exact hN

/-- **C95** A finite entry of the normalised matrix has the rounding errors of C71. -/
theorem C95_accurate {o o' : SumOrder} {K N : Fin n → Fin n → Dbl} {method : String} (h : Φ.normalizeKm o o' ⟨n, n, K⟩ method = .ok ⟨n, n, N⟩)
    (hr : ∀ i j, Φ.InRange (K i j)) (hu : 6 * Φ.R.u < 1) {i j : Fin n} {v : ℝ} (hv : N i j = .fin v) :
    ∃ a b c, K i i = .fin a ∧ K j j = .fin b ∧ K i j = .fin c ∧ 0 < a ∧ 0 < b ∧ |v - c / Real.sqrt (a * b)| ≤ Φ.R.gamma 6 * |c / Real.sqrt (a * b)| := by
  obtain ⟨-, rfl⟩ := normalizeKm_ok h
  obtain ⟨hf, D, c, E, h1, h2, h3, rfl⟩ := matmul_fin hv
  have hfin : ∀ i, K i i ≠ .inf false := fun i e => by
    have := hf i i
    rw [e] at this
    exact this
  rcases invSqrt_fin (hr i i) h1 with h1 | ⟨a, ha, ha0, rfl⟩
  · exact absurd h1.1 (hfin i)
  rcases invSqrt_fin (hr j j) h3 with h3 | ⟨b, hb, hb0, rfl⟩
  · exact absurd h3.1 (hfin j)
  exact ⟨a, b, c, ha, hb, h2, ha0, hb0, (normEntry_rel (R := Φ.R) ha0.le b c).err_gamma (by push_cast; exact hu)⟩

/-- **C95** Normalising a finite matrix does not overflow, if its entries are at most twice as large as they can be in a positive semidefinite one. The result does not depend on the
order in which products are summed. -/
theorem C95_finite (hu : Φ.R.u ≤ 1 / 16) (hmax : 1e5 ≤ Φ.max) {K : Matrix (Fin n) (Fin n) ℝ} (hd : ∀ i, 1e-8 < K i i ∧ K i i ≤ Φ.max)
    (hK : ∀ i j, |K i j| ≤ 2 * (Real.sqrt (K i i) * Real.sqrt (K j j))) {method : String} (hm : method.toLower = "cosine") :
    ∃ N : Matrix (Fin n) (Fin n) ℝ, ∀ o o', Φ.normalizeKm o o' ⟨n, n, fun i j => .fin (K i j)⟩ method = .ok ⟨n, n, fun i j => .fin (N i j)⟩ := by
  refine ⟨fun i j => Φ.R.normEntry (K i i) (K j j) (K i j), fun o o' => ?_⟩
  rw [(normalizeKm_square o o' _ hm).2, matmul_total (a := fun i => K i i) (b := fun i => K i i) hu hmax hd hd hK]
  rintro ⟨i, hi⟩
  have hi : |K i i| ≤ 1e-8 := hi
  have := (hd i).1
  rw [abs_of_pos (lt_trans (by norm_num) this)] at hi
  linarith

/-- a matrix with an infinite entry is normalised, without an exception -/
example (o o' : SumOrder) : ∃ N, double.normalizeKm o o' ⟨2, 2, ![![.inf false, .fin 1], ![.fin 1, .fin 1]]⟩ "cosine" = .ok ⟨2, 2, N⟩ := by
  refine ⟨_, (normalizeKm_square o o' _ toLower_cosine).2 ?_⟩
  rintro ⟨i, h⟩
  fin_cases i
  · exact h
  · have h : |(1 : ℝ)| ≤ 1e-8 := h
    norm_num at h

/-- a positive semidefinite matrix -/
example : (∀ i, (1e-8 : ℝ) < (!![4, 5; 5, 9] : Matrix (Fin 2) (Fin 2) ℝ) i i ∧ (!![4, 5; 5, 9] : Matrix (Fin 2) (Fin 2) ℝ) i i ≤ 1e5) ∧
    ∀ i j, |(!![4, 5; 5, 9] : Matrix (Fin 2) (Fin 2) ℝ) i j| ≤ 2 * (Real.sqrt ((!![4, 5; 5, 9] : Matrix (Fin 2) (Fin 2) ℝ) i i) * Real.sqrt ((!![4, 5; 5, 9] : Matrix (Fin 2) (Fin 2) ℝ) j j)) := by
  have h4 : Real.sqrt 4 = 2 := by rw [show (4 : ℝ) = 2 ^ 2 by norm_num]; exact Real.sqrt_sq (by norm_num)
  have h9 : Real.sqrt 9 = 3 := by rw [show (9 : ℝ) = 3 ^ 2 by norm_num]; exact Real.sqrt_sq (by norm_num)
  refine ⟨fun i => ?_, fun i j => ?_⟩
  · fin_cases i <;> norm_num
  · fin_cases i <;> fin_cases j <;> simp [h4, h9] <;> norm_num

/-! ## `normalize_km_2sample` -/

/-- **C95** Two samples: if an entry of the matrix is infinite or NaN, no entry of the normalised matrix is finite. -/
theorem C95_two_visible {o o' : SumOrder} {K N : Fin n → Fin m → Dbl} {dx : Fin n → Dbl} {dy : Fin m → Dbl} {method : String}
    (h : Φ.normalizeKm2 o o' ⟨n, m, K⟩ (List.ofFn dx) (List.ofFn dy) method = .ok ⟨n, m, N⟩) (hK : ∃ i j, ¬ (K i j).Finite) (i : Fin n) (j : Fin m) : ¬ (N i j).Finite := by
  intro hN
  obtain ⟨-, -, rfl⟩ := normalizeKm2_ok h
  obtain ⟨r, l, hrl⟩ := hK
  generalize hv : Φ.matmul o' (Φ.matmul o (Φ.invSqrtDiag dx) K) (Φ.invSqrtDiag dy) i j = v at hN
  cases v with
  | fin v => exact hrl ((matmul_fin hv).1 r l)
  | inf s => exact hN
  | nan => exact hN

/-- **C95** Two samples: a finite entry has the rounding errors of C71 if the self-kernels of both samples are finite. Missing: infinite self-kernels, for which the entry is 0 whatever
it should be, `C95_violated`. -/
theorem C95_two_accurate_partial {o o' : SumOrder} {K N : Fin n → Fin m → Dbl} {dx : Fin n → Dbl} {dy : Fin m → Dbl} {method : String}
    (h : Φ.normalizeKm2 o o' ⟨n, m, K⟩ (List.ofFn dx) (List.ofFn dy) method = .ok ⟨n, m, N⟩) (hx : ∀ i, Φ.InRange (dx i)) (hy : ∀ j, Φ.InRange (dy j)) (hu : 6 * Φ.R.u < 1)
    {i : Fin n} {j : Fin m} {v : ℝ} (hv : N i j = .fin v) :
    (∃ a b c, dx i = .fin a ∧ dy j = .fin b ∧ K i j = .fin c ∧ 0 < a ∧ 0 < b ∧ |v - c / Real.sqrt (a * b)| ≤ Φ.R.gamma 6 * |c / Real.sqrt (a * b)|) ∨
      (dx i = .inf false ∨ dy j = .inf false) ∧ v = 0 := by
  obtain ⟨-, -, rfl⟩ := normalizeKm2_ok h
  obtain ⟨hf, D, c, E, h1, h2, h3, rfl⟩ := matmul_fin hv
  rcases invSqrt_fin (hx i) h1 with ⟨h1', rfl⟩ | ⟨a, ha, ha0, rfl⟩
  · exact .inr ⟨.inl h1', by rw [zero_mul, Φ.R.fl_zero, zero_mul, Φ.R.fl_zero]⟩
  rcases invSqrt_fin (hy j) h3 with ⟨h3', rfl⟩ | ⟨b, hb, hb0, rfl⟩
  · exact .inr ⟨.inr h3', by rw [mul_zero, Φ.R.fl_zero]⟩
  exact .inl ⟨a, b, c, ha, hb, h2, ha0, hb0, (normEntry_rel (R := Φ.R) ha0.le b c).err_gamma (by push_cast; exact hu)⟩

/-! ## `km.full` -/

/-- **C95** (linear, polynomial, Gaussian and Laplacian kernel, see C83) After any calls, `km.full` of a normalising kernel matrix raises `KMNormError`, which happens only if a (computed) self-kernel is close to zero; or has no
finite entry at all, which happens only if a kernel value is not finite; or all its entries are finite and accurate: they differ from those of the exact normalised matrix by at most `normErr`. -/
theorem C95_full {env : Env NumKernel (List Dbl) Dbl} (he : DoubleEnv Φ env) (hk : k.Detects) {A : Arr2 (List ℝ)} (hv : k.ValidOn A) (hm : k.roundings A.ncols * Φ.R.u < 1)
    (hη : Φ.kernelErr k A.ncols ≤ 1 / 4) (hu : Φ.R.u ≤ 1 / 16) (hmax : 1e5 ≤ Φ.max) {s : KMState NumKernel (List Dbl) Dbl} (h : SinceAny env k true ⟨A.floats, none⟩ s) :
    ((exec env .full s).1 = .error .kmNorm ∧ ∃ i : Fin A.nrows, (env.kval k (A.floats.row i) (A.floats.row i)).CloseToZero) ∨
    (∃ N : Fin A.nrows → Fin A.nrows → Dbl, (exec env .full s).1 = .ok (.mat .dense ⟨A.nrows, A.nrows, N⟩) ∧ (∀ i j, ¬ (N i j).Finite) ∧
      ∃ i j : Fin A.nrows, ¬ (env.kval k (A.floats.row i) (A.floats.row j)).Finite) ∨
    ∃ K N : Matrix (Fin A.nrows) (Fin A.nrows) ℝ, k.IsGram A K ∧ (exec env .full s).1 = .ok (.mat .dense ⟨A.nrows, A.nrows, fun i j => .fin (N i j)⟩) ∧
      ∀ i j, |N i j - cosNorm K i j| ≤ Φ.R.normErr (Φ.kernelErr k A.ncols) := by
  obtain ⟨K, H, hg, hK, e, hf, hr, hrow, hdiag, herr⟩ := he.gram hk hv hm
  obtain ⟨o, o', hn⟩ := he.normalize
  have hfull := he.full_normed hf h
  have hnormed : Attachment.normed ⟨A.floats, none⟩ (env.kval k) env.ops "cosine" = Φ.normalizeKm o o' ⟨A.nrows, A.nrows, H⟩ "cosine" := by
    show env.ops.normalize (Attachment.gram ⟨A.floats, none⟩ (env.kval k)) "cosine" = _
    rw [e, hn]
  rw [hnormed] at hfull
  obtain ⟨hbad, hgood⟩ := normalizeKm_square (Φ := Φ) o o' H toLower_cosine
  by_cases hz : ∃ i, (H i i).CloseToZero
  · left
    refine ⟨by rw [hfull, hbad hz]; rfl, ?_⟩
    obtain ⟨i, hi⟩ := hz
    exact ⟨i, hdiag i ▸ hi⟩
  right
  have hok := hgood hz
  by_cases hfin : ∀ i j, ∃ v, H i j = .fin v
  · right
    choose V hV using hfin
    obtain ⟨h0, hN, herr'⟩ := normed_err hK hη (fun i j => herr i j _ (hV i j)) (fun i hi => hz ⟨i, by rw [hV]; exact hi⟩) hm hu
    refine ⟨K, fun i j => Φ.R.normEntry (V i i) (V j j) (V i j), hg, ?_, herr'⟩
    rw [hfull, hok]
    have eH : H = fun i j => .fin (V i j) := by funext i j; exact hV i j
    rw [eH, matmul_total (a := fun i => V i i) (b := fun i => V i i) hu hmax (fun i => ⟨h0 i, (le_abs_self _).trans (hr i i _ (hV i i))⟩)
      (fun i => ⟨h0 i, (le_abs_self _).trans (hr i i _ (hV i i))⟩) hN]
    rfl
  · left
    push Not at hfin
    obtain ⟨i, j, hij⟩ := hfin
    have hij' : ¬ (H i j).Finite := not_finite_of_ne hij
    refine ⟨_, by rw [hfull, hok]; rfl, fun i' j' => C95_visible hok ⟨i, j, hij'⟩ i' j', ?_⟩
    obtain ⟨p, q, hpq⟩ := hrow i j
    exact ⟨p, q, hpq ▸ hij'⟩

/-- **C95** For Gaussian and Laplacian kernel `km.full` is finite and accurate whatever the (finite) samples are. -/
theorem C95_full_bounded {env : Env NumKernel (List Dbl) Dbl} (he : DoubleEnv Φ env) (hk : (∃ σ γ, 0 < γ ∧ k = .gaussian σ γ) ∨ ∃ γ, 0 < γ ∧ k = .laplacian γ) {A : Arr2 (List ℝ)}
    (hA : A.Rectangular) (hm : k.roundings A.ncols * Φ.R.u < 1) (hη : Φ.kernelErr k A.ncols ≤ 1 / 4) (hu : Φ.R.u ≤ 1 / 16) (hmax : 1e5 ≤ Φ.max)
    {s : KMState NumKernel (List Dbl) Dbl} (h : SinceAny env k true ⟨A.floats, none⟩ s) :
    ∃ K N : Matrix (Fin A.nrows) (Fin A.nrows) ℝ, k.IsGram A K ∧ (exec env .full s).1 = .ok (.mat .dense ⟨A.nrows, A.nrows, fun i j => .fin (N i j)⟩) ∧
      ∀ i j, |N i j - cosNorm K i j| ≤ Φ.R.normErr (Φ.kernelErr k A.ncols) := by
  have hd : k.Detects := by rcases hk with ⟨σ, γ, hγ, rfl⟩ | ⟨γ, hγ, rfl⟩ <;> exact hγ
  have hv : k.ValidOn A := by rcases hk with ⟨σ, γ, hγ, rfl⟩ | ⟨γ, hγ, rfl⟩ <;> exact ⟨hA, hγ.le⟩
  obtain ⟨x, hx, hx', hval⟩ := row_ofFn hv
  have hc : ∀ {x y : Fin A.ncols → Dbl} γ, k = .chi2 γ → ∀ l, ¬ (x l).Neg ∧ ¬ (y l).Neg := by
    rintro _ _ γ rfl
    exact hd.elim
  have hfin : ∀ i j : Fin A.nrows, (env.kval k (A.floats.row i) (A.floats.row j)).Finite := fun i j => by
    have := (he.call k (fun l => .fin (x i l)) (fun l => .fin (x j l)) hc).2
    rw [hx' i, hx' j]
    exact C83_bounded_finite hk this
  rcases C95_full he hd hv hm hη hu hmax h with ⟨-, i, hi⟩ | ⟨N, -, -, i, j, hij⟩ | h
  · exfalso
    obtain ⟨K, H, hg, hK, -, -, -, -, hdiag, herr⟩ := he.gram hd hv hm
    have h1 : K i i = 1 := self_one (by rcases hk with ⟨σ, γ, -, rfl⟩ | ⟨γ, -, rfl⟩ <;> simp) (hg i i)
    have h2 := hfin i i
    rw [← hdiag i] at h2 hi
    have h3 := herr i i
    cases hH : H i i with
    | fin v =>
      rw [hH] at hi
      have h4 := abs_le.1 (h3 v hH)
      rw [h1, Real.sqrt_one, mul_one, mul_one] at h4
      have h5 := (abs_le.1 (show |v| ≤ 1e-8 from hi)).2
      norm_num at h5
      linarith [h4.1]
    | inf s => rw [hH] at h2; exact h2
    | nan => rw [hH] at h2; exact h2
  · exact absurd (hfin i j) hij
  · exact h

/-- **C95** (the kernels of `C95_full`) Two samples, after any calls: `km.full` raises `KMNormError`; or each of its entries is not finite, or accurate. Missing: entries with an infinite self-kernel,
which are 0 (`C95_violated`). If a kernel value of the matrix is not finite, no entry is finite. -/
theorem C95_full_two_partial {env : Env NumKernel (List Dbl) Dbl} (he : DoubleEnv Φ env) (hk : k.Detects) {A B : Arr2 (List ℝ)} (hA : k.ValidOn A) (hB : k.ValidOn B)
    (hAB : A.ncols = B.ncols) (hm : k.roundings A.ncols * Φ.R.u < 1) (hη : Φ.kernelErr k A.ncols ≤ 1 / 4) (hu : Φ.R.u ≤ 1 / 16)
    {s : KMState NumKernel (List Dbl) Dbl} (h : SinceAny env k true ⟨A.floats, some B.floats⟩ s) :
    (exec env .full s).1 = .error .kmNorm ∨
    ∃ N : Fin A.nrows → Fin B.nrows → Dbl, (exec env .full s).1 = .ok (.mat .dense ⟨A.nrows, B.nrows, N⟩) ∧
      ((∃ (i : Fin A.nrows) (j : Fin B.nrows), ¬ (env.kval k (A.floats.row i) (B.floats.row j)).Finite) → ∀ i j, ¬ (N i j).Finite) ∧
      ∀ i j, ¬ (N i j).Finite ∨
        (∃ v c a b, N i j = .fin v ∧ k.call false (.vec (A.row i)) (.vec (B.row j)) = .ok (.real c) ∧ k.call false (.vec (A.row i)) (.vec (A.row i)) = .ok (.real a) ∧
          k.call false (.vec (B.row j)) (.vec (B.row j)) = .ok (.real b) ∧ |v - c / Real.sqrt (a * b)| ≤ Φ.R.normErr (Φ.kernelErr k A.ncols)) ∨
        N i j = .fin 0 ∧ (env.kval k (A.floats.row i) (A.floats.row i) = .inf false ∨ env.kval k (B.floats.row j) (B.floats.row j) = .inf false) := by
  obtain ⟨H, e, hf, hH, hrA, hrB, hent⟩ := he.gram_two hk hA hB hAB hm
  obtain ⟨o, o', hn⟩ := he.normalize2
  have hfull := he.full_normed hf h
  have hselfs : ∀ C : Arr2 (List ℝ), C.floats.selfs (env.kval k) = List.ofFn fun i : Fin C.nrows => env.kval k (C.floats.row i) (C.floats.row i) := fun C => by
    apply List.ext_getElem
    · simp [Arr2.selfs, Arr2.floats]
    · intro i h1 h2
      simp [Arr2.selfs]
  have hnormed : Attachment.normed ⟨A.floats, some B.floats⟩ (env.kval k) env.ops "cosine" = Φ.normalizeKm2 o o' ⟨A.nrows, B.nrows, H⟩
      (List.ofFn fun i : Fin A.nrows => env.kval k (A.floats.row i) (A.floats.row i)) (List.ofFn fun j : Fin B.nrows => env.kval k (B.floats.row j) (B.floats.row j)) "cosine" := by
    show env.ops.normalize2 (Attachment.gram ⟨A.floats, some B.floats⟩ (env.kval k)) (A.floats.selfs (env.kval k)) (B.floats.selfs (env.kval k)) = _
    rw [e, hn, hselfs, hselfs]
  rw [hnormed] at hfull
  obtain ⟨hbad, hgood⟩ := normalizeKm2_lists (Φ := Φ) o o' H (fun i : Fin A.nrows => env.kval k (A.floats.row i) (A.floats.row i))
    (fun j : Fin B.nrows => env.kval k (B.floats.row j) (B.floats.row j)) toLower_cosine
  by_cases hz : (∃ i : Fin A.nrows, (env.kval k (A.floats.row i) (A.floats.row i)).CloseToZero) ∨ ∃ j : Fin B.nrows, (env.kval k (B.floats.row j) (B.floats.row j)).CloseToZero
  · left
    rw [hfull, hbad hz]
    rfl
  right
  have hok := hgood hz
  refine ⟨_, by rw [hfull, hok]; rfl, fun ⟨i, j, hij⟩ => C95_two_visible hok ⟨i, j, by rw [hH]; exact hij⟩, fun i j => ?_⟩
  generalize hv : Φ.matmul o' (Φ.matmul o (Φ.invSqrtDiag fun i : Fin A.nrows => env.kval k (A.floats.row i) (A.floats.row i)) H)
    (Φ.invSqrtDiag fun j : Fin B.nrows => env.kval k (B.floats.row j) (B.floats.row j)) i j = v
  cases v with
  | inf s => exact .inl id
  | nan => exact .inl id
  | fin v =>
    right
    obtain ⟨hf, D, c', E, h1, h2, h3, rfl⟩ := matmul_fin hv
    rcases invSqrt_fin (hrA i) h1 with ⟨h1', rfl⟩ | ⟨a', ha', ha0, rfl⟩
    · exact .inr ⟨by rw [zero_mul, Φ.R.fl_zero, zero_mul, Φ.R.fl_zero], .inl h1'⟩
    rcases invSqrt_fin (hrB j) h3 with ⟨h3', rfl⟩ | ⟨b', hb', hb0, rfl⟩
    · exact .inr ⟨by rw [mul_zero, Φ.R.fl_zero], .inr h3'⟩
    obtain ⟨c, a, b, ec, ea, eb, a0, b0, hcs, herr, hea, heb⟩ := hent i j
    refine .inl ⟨_, c, a, b, rfl, ec, ea, eb, ?_⟩
    exact (norm_one (Φ := Φ) a0 b0 (kernelErr_nonneg hm) hη hcs (hea _ ha') (heb _ hb') (herr _ h2) (fun hc => hz (.inl ⟨i, by rw [ha']; exact hc⟩))
      (fun hc => hz (.inr ⟨j, by rw [hb']; exact hc⟩)) hu).2.2.2

/-- **C95** (violated with two samples) Linear kernel, samples `[[max/4]]` and `[[1]]`: the normalised value is 1, but the self-kernel of the first sample overflows, and `km.full` is `[[0]]`: finite, so that
nothing is announced. -/
theorem C95_violated (hu : Φ.R.u ≤ 1 / 16) (hmax : 1e5 ≤ Φ.max) :
    ∃ A B : Arr2 (List ℝ), A = ⟨1, 1, fun _ => [Φ.max / 4]⟩ ∧ B = ⟨1, 1, fun _ => [1]⟩ ∧
      (∃ c a b, NumKernel.linear.call false (.vec (A.row 0)) (.vec (B.row 0)) = .ok (.real c) ∧ NumKernel.linear.call false (.vec (A.row 0)) (.vec (A.row 0)) = .ok (.real a) ∧
        NumKernel.linear.call false (.vec (B.row 0)) (.vec (B.row 0)) = .ok (.real b) ∧ c / Real.sqrt (a * b) = 1) ∧
      ∀ env : Env NumKernel (List Dbl) Dbl, DoubleEnv Φ env → ∀ s, SinceAny env .linear true ⟨A.floats, some B.floats⟩ s →
        (exec env .full s).1 = .ok (.mat .dense ⟨1, 1, fun _ _ => .fin 0⟩) := by
  set M := Φ.max / 4 with hM
  have hM0 : 0 < M := by rw [hM]; linarith [Φ.max_pos]
  refine ⟨_, _, rfl, rfl, ⟨M, M * M, 1, ?_, ?_, ?_, ?_⟩, fun env he s h => ?_⟩
  · have := on_linear (fun _ : Fin 1 => M) (fun _ => 1)
    simpa [NumKernel.on] using this
  · have := on_linear (fun _ : Fin 1 => M) (fun _ => M)
    simpa [NumKernel.on] using this
  · have := on_linear (fun _ : Fin 1 => (1 : ℝ)) (fun _ => 1)
    simpa [NumKernel.on] using this
  · rw [mul_one, Real.sqrt_mul_self hM0.le, div_self hM0.ne']
  have hcall : ∀ x y : ℝ, (∀ t, env.fails t .linear [.fin x] [.fin y] = false) ∧ ∃ t : SumTree 1, t.Complete ∧ env.kval .linear [.fin x] [.fin y] = Φ.dot (fun _ => .fin x) (fun _ => .fin y) t :=
    fun x y => he.call .linear (fun _ : Fin 1 => .fin x) (fun _ => .fin y) (by rintro _ ⟨⟩)
  have hsmall : ∀ {x y : ℝ}, |Φ.R.fl (x * y)| ≤ Φ.max → env.kval .linear [.fin x] [.fin y] = .fin (Φ.R.fl (x * y)) := fun {x y} hxy => by
    obtain ⟨-, t, ht, e⟩ := hcall x y
    rw [e]
    exact dot_single (i := 0) (ht.nodup_iff.2 (List.nodup_finRange 1)) (Complete.mem ht 0) (fun j hj => absurd (Subsingleton.elim j 0) hj) hxy
  have e1 : env.kval .linear [.fin M] [.fin M] = .inf false := by
    obtain ⟨-, t, ht, e⟩ := hcall M M
    rw [e]
    refine dot_overflow (fun _ => by positivity) ?_
    rw [ht.single 0 fun j hj => absurd (Subsingleton.elim j 0) hj]
    have h1 := (abs_le.1 (Φ.R.err (M * M))).1
    rw [abs_of_pos (by positivity)] at h1
    have h2 := mul_le_mul_of_nonneg_right hu (by positivity : 0 ≤ M * M)
    have h3 : Φ.max = 4 * M := by rw [hM]; ring
    nlinarith
  have fl_le : ∀ x, 0 ≤ x → 2 * x ≤ Φ.max → |Φ.R.fl x| ≤ Φ.max := fun x hx hx2 => by
    have h1 := abs_le.1 (Φ.R.err x)
    rw [abs_of_nonneg hx] at h1
    have h2 := mul_le_mul_of_nonneg_right hu hx
    exact abs_le.2 ⟨by linarith, by linarith⟩
  have e2 := hsmall (fl_le (M * 1) (by linarith) (by linarith))
  have e3 := hsmall (fl_le (1 * 1) (by norm_num) (le_trans (by norm_num) hmax))
  have hf : NoFaultsOn env .linear ⟨(⟨1, 1, fun _ => [M]⟩ : Arr2 (List ℝ)).floats, some (⟨1, 1, fun _ => [1]⟩ : Arr2 (List ℝ)).floats⟩ := by
    have hrow : ∀ {r}, Attachment.IsRow ⟨(⟨1, 1, fun _ => [M]⟩ : Arr2 (List ℝ)).floats, some (⟨1, 1, fun _ => [1]⟩ : Arr2 (List ℝ)).floats⟩ r → ∃ u : ℝ, r = [.fin u] := by
      rintro r (⟨i, hi, rfl⟩ | ⟨B', i, hB', hi, rfl⟩)
      · exact ⟨M, rfl⟩
      · obtain rfl := Option.some.inj hB'
        exact ⟨1, rfl⟩
    intro t a b ha hb
    obtain ⟨u, rfl⟩ := hrow ha
    obtain ⟨v, rfl⟩ := hrow hb
    exact (hcall u v).1 t
  obtain ⟨o, o', hn⟩ := he.normalize2
  have hnormed : Attachment.normed ⟨(⟨1, 1, fun _ => [M]⟩ : Arr2 (List ℝ)).floats, some (⟨1, 1, fun _ => [1]⟩ : Arr2 (List ℝ)).floats⟩ (env.kval .linear) env.ops "cosine" =
      Φ.normalizeKm2 o o' ⟨1, 1, fun _ _ => env.kval .linear [.fin M] [.fin 1]⟩ (List.ofFn fun _ : Fin 1 => env.kval .linear [.fin M] [.fin M])
        (List.ofFn fun _ : Fin 1 => env.kval .linear [.fin 1] [.fin 1]) "cosine" := by
    rw [← hn]
    rfl
  rw [he.full_normed hf h, hnormed, e1, e2, e3]
  have h1 : 1e-8 < Φ.R.fl (1 * 1) := by
    have h1 := (abs_le.1 (Φ.R.err (1 * 1))).1
    rw [abs_of_pos (by norm_num)] at h1
    norm_num at h1 ⊢
    linarith
  rw [(normalizeKm2_lists o o' _ _ _ toLower_cosine).2]
  · show Except.ok (KMOut.mat .dense (⟨1, 1, _⟩ : Mat Dbl)) = _
    congr 3
    funext i j
    have hA : Φ.matmul o (Φ.invSqrtDiag fun _ : Fin 1 => .inf false) (fun _ _ : Fin 1 => .fin (Φ.R.fl (M * 1))) = fun _ _ => .fin 0 := by
      funext i l
      have hD : Φ.invSqrtDiag (fun _ : Fin 1 => .inf false) i = fun _ => .fin 0 := by
        funext r
        exact (if_pos (Subsingleton.elim i r)).trans rnd_zero
      unfold FloatFormat.matmul
      rw [hD]
      exact dot_all_zero fun _ _ => zero_mul _
    rw [hA]
    have hD : (fun l => Φ.invSqrtDiag (fun _ : Fin 1 => .fin (Φ.R.fl (1 * 1))) l j) = fun _ => .fin (Φ.R.invSqrt (Φ.R.fl (1 * 1))) := by
      funext l
      exact (if_pos (Subsingleton.elim l j)).trans <| invSqrt_le hu hmax h1 ((le_abs_self _).trans (fl_le (1 * 1) (by norm_num) (le_trans (by norm_num) hmax)))
    unfold FloatFormat.matmul
    rw [hD]
    exact dot_all_zero fun _ _ => zero_mul _
  · rintro (⟨i, hi⟩ | ⟨j, hj⟩)
    · exact hi
    · have hj : |Φ.R.fl (1 * 1)| ≤ 1e-8 := hj
      exact absurd ((le_abs_self _).trans hj) (not_le.2 h1)

/-- Python floats; and an environment with a freshly attached kernel matrix (two samples as in `C95_violated`) -/
example : double.R.u ≤ 1 / 16 ∧ 1e5 ≤ double.max ∧ DoubleEnv double (doubleEnv double) ∧
    let A : Arr2 (List ℝ) := ⟨1, 1, fun _ => [double.max / 4]⟩
    let B : Arr2 (List ℝ) := ⟨1, 1, fun _ => [1]⟩
    SinceAny (doubleEnv double) .linear true ⟨A.floats, some B.floats⟩
      (exec (doubleEnv double) (.attach (.arr [1, 1] A.floats.row) (some (.arr [1, 1] B.floats.row))) (init .linear true 0)).2 :=
  ⟨by rw [double_u]; norm_num, le_trans (le_trans (by norm_num) (pow_le_pow_right₀ one_le_two (show 17 ≤ 1023 by norm_num))) double_max, doubleEnv_ok _,
    .attached (.new 0) (two := some _) ⟨⟨0, rfl⟩, ⟨0, rfl⟩, rfl⟩ rfl⟩

/-- Python floats, polynomial kernel: the error of kernel values is less than 1/4 -/
example : double.kernelErr (.poly 2 1 1) 100 ≤ 1 / 4 ∧ (NumKernel.poly 2 1 1).Detects ∧ (NumKernel.poly 2 1 1).ValidOn ⟨2, 2, fun i => [(i : ℝ), 1]⟩ := by
  refine ⟨?_, trivial, ⟨fun _ _ => rfl, by norm_num⟩⟩
  rw [FloatFormat.kernelErr, show double.lost (.poly 2 1 1) _ = 0 from rfl, Rounding.gamma, double_u, show (NumKernel.poly 2 1 1).roundings 100 = 205 from rfl]
  norm_num

end KMethods
