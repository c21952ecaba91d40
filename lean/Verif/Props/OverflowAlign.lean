import Verif.Lemmas.OverflowAlign
import Verif.Lemmas.RoundExact
/-!
# C96: centering and alignment do not hide an overflow

The intended property: in floating point arithmetic with overflow, a finite result of `center_km`, `frobenius_product`, `frobenius_norm` or `alignment_centered` has only rounding errors. For
alignments this is false (`C96_violated`): if the norm of one of the matrices overflows, but nothing else, the alignment is 0. All other finite alignments are accurate (`…_partial`).
-/
namespace KMethods
open Rounding FloatFormat
variable {Φ : FloatFormat} {n m : Nat}

/-! ## centering -/

/-- **C96** If an entry of the matrix is infinite or NaN, no entry of the centered matrix is finite. -/
theorem C96_center_visible (o o' : SumOrder) {K : Fin n → Fin n → Dbl} (hK : ∃ i j, ¬ (K i j).Finite) :
    ∃ C : Fin n → Fin n → Dbl, Φ.centerKm o o' ⟨n, n, K⟩ = .ok ⟨n, n, C⟩ ∧ ∀ i j, ¬ (C i j).Finite := by
  refine ⟨_, centerKm_square o o' K, fun i j hf => ?_⟩
  generalize hv : Φ.matmul o' (Φ.matmul o (Φ.centeringMatrix n) K) (Φ.centeringMatrix n) i j = v at hf
  cases v with
  | fin v =>
    obtain ⟨K', rfl, -⟩ := center_fin hv
    obtain ⟨r, l, hrl⟩ := hK
    exact hrl trivial
  | inf s => exact hf
  | nan => exact hf

/-- **C96** A finite entry of the centered matrix has the rounding errors of C75. -/
theorem C96_center_accurate {o o' : SumOrder} {K C : Fin n → Fin n → Dbl} (h : Φ.centerKm o o' ⟨n, n, K⟩ = .ok ⟨n, n, C⟩) (hu : (2 * n + 4 : Nat) * Φ.R.u < 1)
    {i j : Fin n} {v : ℝ} (hv : C i j = .fin v) :
    ∃ K' : Matrix (Fin n) (Fin n) ℝ, (K = fun i j => .fin (K' i j)) ∧ ∀ s : Fin n → ℝ, (∀ i j, |K' i j| ≤ s i * s j) →
      |v - centered K' i j| ≤ Φ.R.gamma (2 * n + 4) * ((s i + (∑ l, s l) / n) * (s j + (∑ l, s l) / n)) := by
  rw [centerKm_square] at h
  injection h with h
  injection h with _ _ h
  subst h
  obtain ⟨K', rfl, rfl⟩ := center_fin hv
  refine ⟨K', rfl, fun s hs => (centeredFl_err o o' hs i j).trans (mul_le_mul_of_nonneg_right (pow_w_le _ hu) ?_)⟩
  have := (abs_nonneg _).trans (centered_abs (c := 1) (fun i j => (hs i j).trans (one_mul _).ge) i j)
  rwa [one_mul] at this

/-- **C96** Centering does not overflow if the entries are at most an eighth of the largest number. -/
theorem C96_center_finite (o o' : SumOrder) {K : Matrix (Fin n) (Fin n) ℝ} (hK : ∀ i j, |K i j| ≤ Φ.max / 8) (hu : 2 * ((2 * n + 4 : Nat) * Φ.R.u) ≤ 1) :
    ∃ C : Matrix (Fin n) (Fin n) ℝ, Φ.centerKm o o' (Mat.floats K) = .ok (Mat.floats C) := by
  refine ⟨Φ.R.centeredFl o o' K, (centerKm_square o o' _).trans ?_⟩
  rw [center_moderate o o' hK hu (by linarith)]
  rfl

/-- an infinite entry; numbers up to 2¹⁰²⁰ -/
example : (∃ i j, ¬ ((![![.inf false, .fin 1], ![.fin 1, .fin 1]] : Fin 2 → Fin 2 → Dbl) i j).Finite) ∧
    (∀ i j, |(Matrix.of (![![2 ^ 1020, 1], ![1, 1]] : Fin 2 → Fin 2 → ℝ)) i j| ≤ double.max / 8) ∧ 2 * ((2 * 2 + 4 : Nat) * double.R.u) ≤ 1 := by
  refine ⟨⟨0, 0, id⟩, fun i j => ?_, by rw [double_u]; norm_num⟩
  have h := double_max
  have h2 : (2 : ℝ) ^ 1023 = 2 ^ 1020 * 8 := by rw [show (8 : ℝ) = 2 ^ 3 by norm_num, ← pow_add]
  have h1 : (1 : ℝ) ≤ 2 ^ 1020 := one_le_pow₀ (by norm_num)
  have h3 : |(Matrix.of (![![2 ^ 1020, 1], ![1, 1]] : Fin 2 → Fin 2 → ℝ)) i j| ≤ 2 ^ 1020 := by
    fin_cases i <;> fin_cases j <;> simp [h1]
  refine h3.trans ((le_div_iff₀ (by norm_num)).2 ?_)
  exact h2.symm.le.trans h

/-- **C96** Shapes are checked before anything is computed: matrices that are not square cannot be centered, and different shapes are rejected by Frobenius products and alignments. -/
theorem C96_shapes (o o' : SumOrder) (t : FlatOrder) (p : AlignOrders) (zd : Option Dbl) (c : Bool) (A B : Mat Dbl) :
    (A.nrows ≠ A.ncols → Φ.centerKm o o' A = .error .valueError) ∧
    (A.nrows ≠ B.nrows ∨ A.ncols ≠ B.ncols → Φ.frobeniusProduct t A B = .error .valueError ∧ Φ.alignmentCentered p A B zd c = .error .valueError) ∧
    (A.nrows ≠ A.ncols → Φ.alignmentCentered p A B zd false = .error .valueError) := by
  refine ⟨fun h => if_neg h, fun h => ⟨dif_neg fun h' => ?_, if_pos h⟩, fun h => ?_⟩
  · rcases h with h | h
    · exact h h'.1
    · exact h h'.2
  · unfold FloatFormat.alignmentCentered
    split_ifs
    · rfl
    · have e : Φ.centerUnless p.a₁ p.a₂ false A = .error .valueError := if_neg h
      rw [e]
      rfl

/-! ## Frobenius product and norm -/

/-- **C96** If the Frobenius product is finite, all entries of both matrices are, and its error is at most `γ_nm ‖A‖ ‖B‖`. -/
theorem C96_frobenius (t : FlatOrder) {A B : Fin n → Fin m → Dbl} {v : ℝ} (h : Φ.frobeniusProduct t ⟨n, m, A⟩ ⟨n, m, B⟩ = .ok (.fin v))
    (hu : (n * m : Nat) * Φ.R.u < 1) :
    ∃ A' B' : Matrix (Fin n) (Fin m) ℝ, (A = fun i j => .fin (A' i j)) ∧ (B = fun i j => .fin (B' i j)) ∧
      |v - frobInner A' B'| ≤ Φ.R.gamma (n * m) * (Real.sqrt (frobInner A' A') * Real.sqrt (frobInner B' B')) := by
  rw [frobeniusProduct_same] at h
  injection h with h
  obtain ⟨A', B', rfl, rfl, rfl⟩ := frob_fin h
  exact ⟨A', B', rfl, rfl, (frobFl_err t A' B').trans (mul_le_mul_of_nonneg_right (pow_w_le _ hu) (by positivity))⟩

/-- **C96** If the Frobenius norm is finite, all entries are, and its relative error is at most `γ_(nm+1)`. -/
theorem C96_norm (t : FlatOrder) {A : Fin n → Fin m → Dbl} {v : ℝ} (h : Φ.frobeniusNorm t ⟨n, m, A⟩ = .ok (.fin v)) (hu : (n * m + 1 : Nat) * Φ.R.u < 1) :
    ∃ A' : Matrix (Fin n) (Fin m) ℝ, (A = fun i j => .fin (A' i j)) ∧ |v - Real.sqrt (frobInner A' A')| ≤ Φ.R.gamma (n * m + 1) * Real.sqrt (frobInner A' A') := by
  unfold FloatFormat.frobeniusNorm at h
  rw [frobeniusProduct_same] at h
  injection h with h
  have hs : ∃ s, Φ.dot (fun p : Fin (n * m) => A p.divNat p.modNat) (fun p => A p.divNat p.modNat) (t.tree (n * m)) = .fin s := by
    obtain ⟨x, hx, -⟩ := rnd_fin h
    generalize Φ.dot (fun p : Fin (n * m) => A p.divNat p.modNat) (fun p => A p.divNat p.modNat) (t.tree (n * m)) = s at hx
    cases s with
    | fin s => exact ⟨s, rfl⟩
    | inf s => cases s <;> cases hx
    | nan => cases hx
  obtain ⟨s, hs⟩ := hs
  obtain ⟨A', -, rfl, -, -⟩ := frob_fin hs
  obtain rfl := norm_fin h
  have := (normFl_rel (R := Φ.R) t A').err_gamma hu
  rw [abs_of_nonneg (Real.sqrt_nonneg _)] at this
  exact ⟨A', rfl, this⟩

/-- **C96** The Frobenius product does not overflow if twice the sum of the absolute values of the products does not exceed the largest number, nor does the norm. -/
theorem C96_frobenius_finite (t : FlatOrder) {A B : Matrix (Fin n) (Fin m) ℝ} (hu : 2 * ((n * m : Nat) * Φ.R.u) ≤ 1) :
    (2 * ∑ i, ∑ j, |A i j * B i j| ≤ Φ.max → ∃ v, Φ.frobeniusProduct t (Mat.floats A) (Mat.floats B) = .ok (.fin v)) ∧
    (2 * frobInner A A ≤ Φ.max → ∃ v, Φ.frobeniusNorm t (Mat.floats A) = .ok (.fin v)) := by
  have hw := w_pow_le_two hu
  refine ⟨fun h => ⟨_, (frobeniusProduct_same t _ _).trans (congrArg Except.ok (frob_moderate t
    ((mul_le_mul_of_nonneg_right hw (Finset.sum_nonneg fun _ _ => Finset.sum_nonneg fun _ _ => abs_nonneg _)).trans h)))⟩, fun h => ⟨Φ.R.normFl t A, ?_⟩⟩
  have e := (norm_cases (Φ := Φ) t A).resolve_right (not_lt.2 ((mul_le_mul_of_nonneg_right hw (frobInner_self_nonneg A)).trans h))
  unfold FloatFormat.frobeniusNorm Mat.floats
  rw [frobeniusProduct_same]
  exact congrArg Except.ok e

/-! ## alignment -/

/-- **C96** Partial: a finite alignment of matrices said to be centered already is accurate (C75), or it is 0 and the sum of the squares of one of the matrices is too large. In particular, finite alignments
other than 0 are accurate. All entries of the matrices are finite. -/
theorem C96_align_centered_partial (o : AlignOrders) {A B : Fin n → Fin m → Dbl} {v : ℝ} (hu : (3 * (n * m) + 4 : Nat) * Φ.R.u < 1)
    (h : Φ.alignmentCentered o ⟨n, m, A⟩ ⟨n, m, B⟩ none true = .ok (.fin v)) :
    ∃ A' B' : Matrix (Fin n) (Fin m) ℝ, (A = fun i j => .fin (A' i j)) ∧ (B = fun i j => .fin (B' i j)) ∧
      (|v - cosine A' B'| ≤ Φ.R.gamma (3 * (n * m) + 4) ∨
        v = 0 ∧ (Φ.max < (1 + Φ.R.gamma (3 * (n * m) + 4)) * frobInner A' A' ∨ Φ.max < (1 + Φ.R.gamma (3 * (n * m) + 4)) * frobInner B' B')) := by
  rw [alignmentCentered_true] at h
  obtain ⟨A', B', hA, hB, h | ⟨h, h'⟩⟩ := align_cases h
  · obtain ⟨rfl, h1, h2⟩ := h
    exact ⟨A', B', hA, hB, .inl ((alignFl_err o h1 h2).trans (pow_w_le _ hu))⟩
  · refine ⟨A', B', hA, hB, .inr ⟨h, ?_⟩⟩
    have hw : Φ.R.w ^ (2 * (n * m) + 3) ≤ 1 + Φ.R.gamma (3 * (n * m) + 4) := by
      have h1 := pow_w_le (R := Φ.R) _ hu
      have h2 := pow_le_pow_right₀ Φ.R.one_le_w (show 2 * (n * m) + 3 ≤ 3 * (n * m) + 4 by omega)
      linarith
    rcases max_choice (frobInner A' A') (frobInner B' B') with e | e
    · rw [e] at h'
      exact .inl (h'.trans_le (mul_le_mul_of_nonneg_right hw (frobInner_self_nonneg _)))
    · rw [e] at h'
      exact .inr (h'.trans_le (mul_le_mul_of_nonneg_right hw (frobInner_self_nonneg _)))

/-- **C96** Partial: the same with centering, for matrices with entries bounded by `s_i s_j` and `t_i t_j` whose centered norms are larger than the errors of centering. -/
theorem C96_align_partial (o : AlignOrders) {A B : Fin n → Fin n → Dbl} {v : ℝ} (hu : (3 * (n * n) + 2 * n + 4 : Nat) * Φ.R.u < 1)
    (h : Φ.alignmentCentered o ⟨n, n, A⟩ ⟨n, n, B⟩ none false = .ok (.fin v)) :
    ∃ A' B' : Matrix (Fin n) (Fin n) ℝ, (A = fun i j => .fin (A' i j)) ∧ (B = fun i j => .fin (B' i j)) ∧
      ∀ s t : Fin n → ℝ, (∀ i j, |A' i j| ≤ s i * s j) → (∀ i j, |B' i j| ≤ t i * t j) →
        let a := Φ.R.centerErr n 0 (∑ i, s i ^ 2)
        let b := Φ.R.centerErr n 0 (∑ i, t i ^ 2)
        a < cnorm A' → b < cnorm B' →
        |v - cosine (centered A') (centered B')| ≤ Φ.R.alignErr n a (cnorm A') b (cnorm B') ∨
          v = 0 ∧ (Φ.max < (1 + Φ.R.gamma (3 * (n * n) + 4)) * (cnorm A' + a) ^ 2 ∨ Φ.max < (1 + Φ.R.gamma (3 * (n * n) + 4)) * (cnorm B' + b) ^ 2) := by
  have hle : ∀ k : Nat, k ≤ 3 * (n * n) + 2 * n + 4 → (k : ℝ) * Φ.R.u < 1 := fun k hk =>
    (mul_le_mul_of_nonneg_right (by exact_mod_cast hk) Φ.R.u_nonneg).trans_lt hu
  rw [alignmentCentered_false] at h
  obtain ⟨C, D, hC, hD, h'⟩ := align_cases h
  obtain ⟨A', rfl, rfl⟩ := center_all hC
  obtain ⟨B', rfl, rfl⟩ := center_all hD
  refine ⟨A', B', rfl, rfl, fun s t hs ht => ?_⟩
  intro a b ha hb
  have hCa : ‖vecE (Φ.R.centeredFl o.a₁ o.a₂ A') - vecE (centered A')‖ ≤ a :=
    centeredFl_dist o.a₁ o.a₂ le_rfl hs (fun i j => by rw [sub_self, abs_zero, zero_mul]) (hle _ (by omega))
  have hDb : ‖vecE (Φ.R.centeredFl o.b₁ o.b₂ B') - vecE (centered B')‖ ≤ b :=
    centeredFl_dist o.b₁ o.b₂ le_rfl ht (fun i j => by rw [sub_self, abs_zero, zero_mul]) (hle _ (by omega))
  rcases h' with ⟨rfl, -, -⟩ | ⟨rfl, h'⟩
  · left
    refine (alignFl_near o (cnorm_eq A') (cnorm_eq B') hCa hDb ha hb).trans ?_
    have := pow_w_le (R := Φ.R) _ (hle (3 * (n * n) + 4) (by omega))
    unfold Rounding.alignErr
    linarith
  · right
    refine ⟨rfl, ?_⟩
    have hw : Φ.R.w ^ (2 * (n * n) + 3) ≤ 1 + Φ.R.gamma (3 * (n * n) + 4) := by
      have h1 := pow_w_le (R := Φ.R) _ (hle (3 * (n * n) + 4) (by omega))
      have h2 := pow_le_pow_right₀ Φ.R.one_le_w (show 2 * (n * n) + 3 ≤ 3 * (n * n) + 4 by omega)
      linarith
    have hγ : 0 ≤ 1 + Φ.R.gamma (3 * (n * n) + 4) := (pow_w_pos _).le.trans hw
    have key : ∀ {C K : Matrix (Fin n) (Fin n) ℝ} {e : ℝ}, ‖vecE C - vecE (centered K)‖ ≤ e → frobInner C C ≤ (cnorm K + e) ^ 2 := fun {C K e} he => by
      have h1 := norm_sub_norm_le (vecE C) (vecE (centered K))
      have h2 : ‖vecE C‖ ≤ cnorm K + e := by rw [cnorm_eq]; linarith
      have h3 : frobInner C C = ‖vecE C‖ ^ 2 := by rw [norm_vecE, Real.sq_sqrt (frobInner_self_nonneg C)]
      rw [h3]
      exact pow_le_pow_left₀ (norm_nonneg _) h2 2
    rcases max_choice (frobInner (Φ.R.centeredFl o.a₁ o.a₂ A') (Φ.R.centeredFl o.a₁ o.a₂ A')) (frobInner (Φ.R.centeredFl o.b₁ o.b₂ B') (Φ.R.centeredFl o.b₁ o.b₂ B')) with e | e
    · rw [e] at h'
      exact .inl (h'.trans_le (mul_le_mul hw (key hCa) (frobInner_self_nonneg _) hγ))
    · rw [e] at h'
      exact .inr (h'.trans_le (mul_le_mul hw (key hDb) (frobInner_self_nonneg _) hγ))

/-- **C96** If twice the sums of squares do not exceed the largest number, alignments (of matrices said to be centered already) do not overflow: they are finite and accurate, unless a norm is close to zero, when the
caller's choice is made. -/
theorem C96_align_finite (o : AlignOrders) {A B : Matrix (Fin n) (Fin m) ℝ} (hu : 2 * ((3 * (n * m) + 4 : Nat) * Φ.R.u) ≤ 1) (hA : 2 * frobInner A A ≤ Φ.max)
    (hB : 2 * frobInner B B ≤ Φ.max) :
    (∃ v, (∀ zd, Φ.alignmentCentered o (Mat.floats A) (Mat.floats B) zd true = .ok (.fin v)) ∧ |v - cosine A B| ≤ Φ.R.gamma (3 * (n * m) + 4)) ∨
    (Real.sqrt (frobInner A A) ≤ 2e-8 ∨ Real.sqrt (frobInner B B) ≤ 2e-8) ∧ Φ.alignmentCentered o (Mat.floats A) (Mat.floats B) none true = .error .valueError ∧
      ∀ v, Φ.alignmentCentered o (Mat.floats A) (Mat.floats B) (some v) true = .ok v := by
  have hw := w_pow_le_two hu
  have e := fun zd => alignmentCentered_true (Φ := Φ) o (fun i j => .fin (A i j)) (fun i j => .fin (B i j)) zd
  have hm := fun zd => align_moderate (Φ := Φ) o hw hA hB zd
  by_cases hz : NearZero (Φ.R.normFl o.na A) ∨ NearZero (Φ.R.normFl o.nb B)
  · right
    refine ⟨?_, (e _).trans ((hm _).1 hz), fun v => (e _).trans ((hm _).1 hz)⟩
    have key : ∀ (t : FlatOrder) (A : Matrix (Fin n) (Fin m) ℝ), NearZero (Φ.R.normFl t A) → Real.sqrt (frobInner A A) ≤ 2e-8 := fun t A h => by
      obtain ⟨c, h1, -, h3⟩ := normFl_rel (R := Φ.R) t A
      have hw' : Φ.R.w ^ (n * m + 1) ≤ 2 := (pow_le_pow_right₀ Φ.R.one_le_w (by omega)).trans hw
      have h4 : 1 / 2 ≤ c := le_trans (by rw [one_div]; exact inv_anti₀ (pow_w_pos _) hw') h1
      have h5 : Real.sqrt (frobInner A A) * c ≤ 1e-8 := by rw [← h3]; exact (le_abs_self _).trans h
      have h6 := Real.sqrt_nonneg (frobInner A A)
      norm_num at h5 ⊢
      nlinarith
    exact hz.imp (key _ _) (key _ _)
  · left
    refine ⟨_, fun zd => (e zd).trans ((hm zd).2 hz), ?_⟩
    push Not at hz
    exact (alignFl_err o (norm_pos hz.1) (norm_pos hz.2)).trans (pow_w_le _ (by linarith))

/-- matrices meeting the hypotheses of `C96_align_finite`, and, by `C96_violated` below, of the partial theorems -/
example : 2 * ((3 * (2 * 2) + 4 : Nat) * double.R.u) ≤ 1 ∧ 2 * frobInner (opposite 3) (opposite 3) ≤ double.max := by
  refine ⟨by rw [double_u]; norm_num, ?_⟩
  rw [opposite_frob]
  refine le_trans ?_ double_max
  exact le_trans (by norm_num : (2 * (4 * (3 * 3)) : ℝ) ≤ 2 ^ 100) (pow_le_pow_right₀ (by norm_num) (by norm_num))

/-- **C96** (violated) If only the norm of one matrix overflows, the alignment is 0, whatever it should be: for two proportional matrices it should be 1. -/
theorem C96_violated : ∃ A B : Matrix (Fin 2) (Fin 2) ℝ, IsPSD A ∧ IsPSD B ∧ cosine (centered A) (centered B) = 1 ∧
    ∀ o zd, double.alignmentCentered o (Mat.floats A) (Mat.floats B) zd false = .ok (.fin 0) := by
  refine ⟨opposite (2 ^ 600), opposite 1, opposite_psd (by positivity), opposite_psd zero_le_one, ?_, fun o zd => opposite_align_zero o (by norm_num) (by norm_num) zd⟩
  generalize hc : (2 : ℝ) ^ 600 = c
  have hc0 : 0 < c := by rw [← hc]; positivity
  unfold cosine
  rw [opposite_centered, opposite_centered, opposite_frob, opposite_frob, opposite_frob]
  rw [show 4 * (c * c) = (2 * c) * (2 * c) by ring, show (4 : ℝ) * (1 * 1) = 2 * 2 by norm_num, Real.sqrt_mul_self (by positivity), Real.sqrt_mul_self (by norm_num)]
  field_simp
  norm_num

end KMethods
