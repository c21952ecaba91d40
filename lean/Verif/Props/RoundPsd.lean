import Verif.Props.Rounding
import Verif.Model.RoundAlign
/-!
# C76: `is_positive_semidefinite` with inexact eigenvalues
-/
namespace KMethods
open F Rounding KMState

variable {n : Nat}

/-- **C76** What does not depend on the eigenvalues: objects that are not arrays raise; matrices that are not square or not symmetric (up to the tolerances of `np.isclose`) are not accepted;
nor is any matrix for which the solver fails. -/
theorem C76_errors (eig : EigSolver) (tol : ℝ) :
    (∀ sh, isPSDWith eig (.other sh) tol = .error .typeError) ∧
    (∀ K : Mat F, K.nrows ≠ K.ncols → isPSDWith eig (.arr K) tol = .ok false) ∧
    (∀ (n : Nat) (K : Fin n → Fin n → F) (i j : Fin n), ¬ isClose (K i j) (K j i) → isPSDWith eig (.arr ⟨n, n, K⟩) tol = .ok false) ∧
    (∀ (n : Nat) (K : Fin n → Fin n → F), eig (lowerSym fun i j => (K i j).val) = none → isPSDWith eig (.arr ⟨n, n, K⟩) tol = .ok false) := by
  refine ⟨fun _ => rfl, fun K h => by rw [isPSDWith, dif_neg h], fun n K i j h => ?_, fun n K h => ?_⟩
  · rw [isPSDWith, dif_pos rfl, if_neg]
    exact fun hc => h (hc i j)
  · rw [isPSDWith, dif_pos rfl]
    split
    · simp only [Fin.cast_eq_self, h]
    · rfl

private theorem quad_sub (A B : Matrix (Fin n) (Fin n) ℝ) (x : Fin n → ℝ) :
    ∑ i, ∑ j, x i * (B i j - A i j) * x j = ∑ i, ∑ j, x i * B i j * x j - ∑ i, ∑ j, x i * A i j * x j := by
  simp only [mul_sub, sub_mul, Finset.sum_sub_distrib]

/-- **C76** With a solver of backward error `ε`: what the exact test (C24) accepts at tolerance `tol - ε` is accepted at tolerance `tol`, and what it rejects at `tol + ε` is rejected. -/
theorem C76_band {eig : EigSolver} (K : Fin n → Fin n → F) {ε : ℝ} (he : eig.Stable (lowerSym fun i j => (K i j).val) ε) (tol : ℝ) :
    (isPSD (.arr ⟨n, n, K⟩) (tol - ε) = .ok true → isPSDWith eig (.arr ⟨n, n, K⟩) tol = .ok true) ∧
    (isPSD (.arr ⟨n, n, K⟩) (tol + ε) = .ok false → isPSDWith eig (.arr ⟨n, n, K⟩) tol = .ok false) := by
  obtain ⟨B, hB, σ, e, hq⟩ := he
  rw [isPSD, isPSD, isPSDWith, dif_pos rfl, dif_pos rfl, dif_pos rfl]
  split
  · simp only [Fin.cast_eq_self, e, Except.ok.injEq, decide_eq_true_eq, decide_eq_false_iff_not, not_lt]
    refine ⟨fun h l => ?_, fun h h' => h ?_⟩
    · refine (eigen_ge_iff hB (-tol)).2 (fun x => ?_) (σ l)
      have h1 := (eigen_ge_iff _ _).1 h x
      have h2 := (abs_le.1 (hq x)).1
      rw [quad_sub] at h2
      linarith
    · refine (eigen_ge_iff _ _).2 fun x => ?_
      have h1 := (eigen_ge_iff hB (-tol)).1 (fun l => by simpa using h' (σ.symm l)) x
      have h2 := (abs_le.1 (hq x)).2
      rw [quad_sub] at h2
      linarith
  · exact ⟨fun h => (by cases h), fun _ => rfl⟩

/-- **C76** An exact solver gives the exact test. -/
theorem C76_exact {eig : EigSolver} (K : Fin n → Fin n → F) (he : eig.Stable (lowerSym fun i j => (K i j).val) 0) (tol : ℝ) :
    isPSDWith eig (.arr ⟨n, n, K⟩) tol = isPSD (.arr ⟨n, n, K⟩) tol := by
  obtain ⟨h1, h2⟩ := C76_band K he tol
  rw [sub_zero] at h1
  rw [add_zero] at h2
  cases h : isPSD (.arr ⟨n, n, K⟩) tol with
  | error e =>
    rw [isPSD, dif_pos rfl] at h
    split at h <;> cases h
  | ok b =>
    cases b
    · exact h2 h
    · exact h1 h

/-- **C76** Positive semidefinite symmetric matrices are accepted as long as the backward error of the solver is at most `tol`; a symmetric matrix with a vector `x` such that
`xᵀ K x < -(tol + ε) xᵀ x` is rejected. -/
theorem C76_psd {eig : EigSolver} {K : Matrix (Fin n) (Fin n) ℝ} (hK : ∀ i j, K i j = K j i) {ε : ℝ} (he : eig.Stable K ε) {tol : ℝ} :
    (IsPSD K → ε ≤ tol → isPSDWith eig (.arr (Mat.ofReal K)) tol = .ok true) ∧
    ((∃ x : Fin n → ℝ, ∑ i, ∑ j, x i * K i j * x j < -(tol + ε) * ∑ i, x i * x i) → isPSDWith eig (.arr (Mat.ofReal K)) tol = .ok false) := by
  have hL : (lowerSym fun i j => ((Mat.ofReal K).get i j).val) = K := by
    funext i j
    simp only [lowerSym, Mat.ofReal, val_real]
    split
    · rfl
    · exact hK j i
  obtain ⟨h1, h2⟩ := C76_band (eig := eig) (Mat.ofReal K).get (by rw [hL]; exact he) tol
  refine ⟨fun hp hle => h1 ((C25_accepts_psd K hK).1 _ (by linarith) hp), fun ⟨x, hx⟩ => h2 ?_⟩
  obtain ⟨b, hb, h⟩ := C25_decides K hK (tol + ε)
  cases b
  · exact hb
  · exact absurd (h.1 rfl x) (not_le.2 hx)

/-! ## kernels -/

variable {R : Rounding} {env : Env NumKernel (List ℝ) F} {k : NumKernel} {A : Arr2 (List ℝ)}

/-- **C76** Normalising, with rounded kernel values, rounded normalisation and inexact eigenvalues: unless it raises `KMNormError`, `km.full` is accepted by `is_PSD` as long as
`n · normErr γ_m + ε ≤ 10⁻⁶`, where `ε` bounds the backward error of the solver for symmetric matrices with entries up to 2. -/
theorem C76_full_normalised (henv : FloatEnv R env) (hv : k.ValidOn A) (hm : 2 * (k.roundings A.ncols * R.u) < 1) (hu : 24 * R.u ≤ 1e-5) {eig : EigSolver} {ε : ℝ}
    (he : ∀ B : Matrix (Fin A.nrows) (Fin A.nrows) ℝ, B.IsHermitian → (∀ i j, |B i j| ≤ 2) → eig.Stable B ε) (hε : 0 ≤ ε)
    (hn : A.nrows * R.normErr (R.gamma (k.roundings A.ncols)) + ε ≤ 1e-6) {s : KMState NumKernel (List ℝ) F} (h : SinceAny env k true ⟨A, none⟩ s) :
    (exec env .full s).1 = .error .kmNorm ∨ isPsdOfFullWith eig (exec env .full s).1 = .ok true := by
  have hu0 := R.u_nonneg
  obtain ⟨K, hg, hK, hcase, -⟩ := C71_full_normalised henv hv hm (by norm_num at hu; linarith) h
  refine hcase.imp_right ?_
  rintro ⟨N, e, herr, hsym⟩
  rw [e]
  have hm1 : k.roundings A.ncols * R.u < 1 := by
    have : 0 ≤ k.roundings A.ncols * R.u := mul_nonneg (Nat.cast_nonneg _) hu0
    linarith
  have h1 : R.gamma (k.roundings A.ncols) < 1 := by
    rw [Rounding.gamma, div_lt_one (by linarith)]
    linarith
  have h0 := normErr_nonneg (R := R) (gamma_nonneg hm1) h1 (by norm_num at hu; linarith)
  have hb : ∀ i j, |N i j| ≤ 2 := fun i j => by
    have hd : ∀ l, |cosNorm K l l| ≤ 1 := fun l => by
      rw [cosNorm, Real.sqrt_mul_self_eq_abs, abs_div, abs_abs]
      exact div_self_le_one _
    have h2 : |cosNorm K i j| ≤ 1 := by
      have := hK.sq_le i j
      rw [← sq_abs] at this
      have h3 := hd i
      have h4 := hd j
      rw [abs_of_nonneg (hK.diag_nonneg _)] at h3 h4
      nlinarith [hK.diag_nonneg i, hK.diag_nonneg j, abs_nonneg (cosNorm K i j)]
    have h3 : R.normErr (R.gamma (k.roundings A.ncols)) ≤ 1 := by
      have : (1 : ℝ) ≤ A.nrows := by exact_mod_cast (Nat.zero_le _).trans_lt i.2
      norm_num at hn
      nlinarith
    have h4 := abs_sub_abs_le_abs_sub (N i j) (cosNorm K i j)
    linarith [herr i j]
  refine (C76_band (Mat.ofReal N).get (he _ (lowerSym_isHermitian _) fun i j => ?_) 1e-6).1 ?_
  · simp only [lowerSym, Mat.ofReal, val_real]
    split
    · exact hb i j
    · exact hb j i
  · refine isPSD_accepts hK (s := fun _ => 1) h0 (fun i j => ?_) (fun i j => ?_) ?_
    · rw [mul_one, mul_one]; exact herr i j
    · refine (hsym i j).trans ?_
      have : R.gamma 12 ≤ 1e-5 := by
        rw [Rounding.gamma, div_le_iff₀ (by push_cast; norm_num at hu; linarith)]
        push_cast
        norm_num at hu ⊢
        linarith
      have := mul_le_mul_of_nonneg_right this (abs_nonneg (N j i))
      have h8 : (0:ℝ) ≤ 1e-8 := by norm_num
      linarith
    · simp only [one_pow, Finset.sum_const, Finset.card_univ, Fintype.card_fin, nsmul_eq_mul, mul_one]
      rw [_root_.mul_comm]
      linarith

/-- **C76** `kernel.is_psd()` in double precision: for every valid kernel with fewer than 4·10⁶ roundings on four entries it answers True on every sample of 50 rows, or raises
`KMNormError`, provided that the backward error of the solver is at most 9·10⁻⁷. (Symmetric 50 × 50 matrices with entries up to 2 have norm at most 100, so that a backward error of
`10⁷` units in the last place, relative to the norm, would be good enough.) -/
theorem C76_is_psd (henv : FloatEnv R env) (hR : R.u ≤ 2⁻¹ ^ 53) (hv : k.ValidOn A) (hr : A.nrows = 50) (hc : A.ncols = 4) (hm : k.roundings 4 < 4 * 10 ^ 6)
    {eig : EigSolver} (he : ∀ B : Matrix (Fin A.nrows) (Fin A.nrows) ℝ, B.IsHermitian → (∀ i j, |B i j| ≤ 2) → eig.Stable B 9e-7) :
    baseIsPsdWith eig env k A = .error .kmNorm ∨ baseIsPsdWith eig env k A = .ok true := by
  have hs : exec env (.attach (.arr [A.nrows, A.ncols] A.row) none) (init k true 0) = (.ok .none,
      (exec env (.attach (.arr [A.nrows, A.ncols] A.row) none) (init k true 0)).2) :=
    exec_attach (two := none) (a := ⟨A, none⟩) ⟨⟨0, rfl⟩, trivial⟩ _
  have h : SinceAny env k true ⟨A, none⟩
      (exec env (.attach (.arr [A.nrows, A.ncols] A.row) none) (init k true 0)).2 :=
    .attached (two := none) (.new 0) ⟨⟨0, rfl⟩, trivial⟩ hs
  have hm' : (k.roundings 4 : ℝ) ≤ 4 * 10 ^ 6 := by exact_mod_cast hm.le
  have hu0 := R.u_nonneg
  have hu : R.u ≤ 1.2e-16 := hR.trans (by norm_num)
  have hmu : (k.roundings 4 : ℝ) * R.u ≤ 4 * 10 ^ 6 * 1.2e-16 := mul_le_mul hm' hu hu0 (by norm_num)
  have := C76_full_normalised henv hv (by rw [hc]; norm_num at hmu; linarith) (by norm_num at hu ⊢; linarith) he (by norm_num) (by
    have h1 := normErr_double hR (m := k.roundings 4) (by linarith)
    rw [hc, hr]
    norm_num at h1 hmu hu ⊢
    linarith) h
  rw [baseIsPsdWith, hs]
  dsimp only
  refine this.imp_left fun e => ?_
  rw [e]; rfl

open Classical in
/-- the solver that returns the exact eigenvalues -/
private noncomputable def exactEig : EigSolver := fun {_} A => if h : A.IsHermitian then some h.eigenvalues else none

/-- the hypotheses on the solver: the exact solver is stable, with any `ε ≥ 0` -/
example {ε : ℝ} (hε : 0 ≤ ε) (B : Matrix (Fin n) (Fin n) ℝ) (hB : B.IsHermitian) : EigSolver.Stable exactEig B ε :=
  ⟨B, hB, 1, dif_pos hB, fun x => by
    simp only [sub_self, mul_zero, zero_mul, Finset.sum_const_zero, abs_zero]
    exact mul_nonneg hε (Finset.sum_nonneg fun i _ => mul_self_nonneg _)⟩

/-- the solver that returns the exact eigenvalues, all of them too small by `ε`, is stable too, and not exact -/
example {ε : ℝ} (hε : 0 < ε) (B : Matrix (Fin n) (Fin n) ℝ) (hB : (B - ε • 1).IsHermitian) : EigSolver.Stable (fun {_} A => exactEig (A - ε • 1)) B ε := by
  refine ⟨B - ε • 1, hB, 1, dif_pos hB, fun x => ?_⟩
  have h : ∑ i, ∑ j, x i * ((B - ε • (1 : Matrix (Fin n) (Fin n) ℝ)) i j - B i j) * x j = -(ε * ∑ i, x i * x i) := by
    simp [Matrix.sub_apply, Matrix.smul_apply, Matrix.one_apply, Finset.mul_sum]
    exact Finset.sum_congr rfl fun i _ => by ring
  rw [h, abs_neg, abs_of_nonneg (mul_nonneg hε.le (Finset.sum_nonneg fun i _ => mul_self_nonneg _))]

end KMethods
