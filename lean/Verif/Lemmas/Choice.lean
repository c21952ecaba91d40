import Verif.Spec.Choice
import Verif.Lemmas.Resample
import Verif.Lemmas.Ranking
/-!
# Lemmas on what the choice of a kernel depends on
-/
namespace KMethods
open F KMState
variable {K X : Type} {env : Env K X F}

theorem IsKM.unique {h : Heap K X} {r : Nat} {k k' : K} {norm norm' : Bool} (h1 : h.IsKM env r k norm) (h2 : h.IsKM env r k' norm') : k = k' ∧ norm = norm' := by
  obtain ⟨s, e, hs⟩ := h1
  obtain ⟨s', e', hs'⟩ := h2
  obtain rfl : s = s' := by
    rw [e] at e'
    injection e' with e'
    injection e'
  exact ⟨hs.kernel.1.symm.trans hs'.kernel.1, hs.kernel.2.symm.trans hs'.kernel.2⟩

theorem IsMatrix1.unique {k : K} {norm : Bool} {A : Arr2 X} {M N : Matrix (Fin A.nrows) (Fin A.nrows) ℝ} (hM : IsMatrix1 env k norm A M) (hN : IsMatrix1 env k norm A N) :
    M = N := by
  obtain ⟨κ, -, h1, h2⟩ := hM
  obtain ⟨κ', -, h1', h2'⟩ := hN
  have e : A.gramR κ = A.gramR κ' := by
    funext i j
    have hi : Attachment.IsRow ⟨A, none⟩ (A.row (min (i:Nat) j)) := Or.inl ⟨_, lt_of_le_of_lt (min_le_left _ _) i.2, rfl⟩
    have hj : Attachment.IsRow ⟨A, none⟩ (A.row (max (i:Nat) j)) := Or.inl ⟨_, max_lt i.2 j.2, rfl⟩
    exact F.real.inj ((h1 _ _ hi hj).symm.trans (h1' _ _ hi hj))
  cases norm with
  | false => exact (show M = _ from h2).trans (e.trans (show N = _ from h2').symm)
  | true => exact h2.2.trans ((congrArg cosNorm e).trans h2'.2.symm)

/-- the matrix on a reordered sample is the reordered matrix -/
theorem IsMatrix1.picked {k : K} {norm : Bool} {A B : Arr2 X} {f : Fin B.nrows → Fin A.nrows} (hB : B.PickedFrom A f) (hsym : SymmOn (env.kval k) A)
    {M : Matrix (Fin A.nrows) (Fin A.nrows) ℝ} (hM : IsMatrix1 env k norm A M) : IsMatrix1 env k norm B fun i j => M (f i) (f j) := by
  obtain ⟨κ, h1, h2, h3⟩ := hM
  have hs : SymmOn κ A := fun i j => by
    have hi : ∀ i : Fin A.nrows, Attachment.IsRow ⟨A, none⟩ (A.row i) := fun i => Or.inl ⟨_, i.2, rfl⟩
    have := hsym i j
    rw [h2 _ _ (hi i) (hi j), h2 _ _ (hi j) (hi i)] at this
    exact F.real.inj this
  refine ⟨κ, fun t x y hx hy => h1 t x y (isRow_picked hB hx) (isRow_picked hB hy), fun x y hx hy => h2 x y (isRow_picked hB hx) (isRow_picked hB hy), ?_⟩
  have e : B.gramR κ = fun i j => A.gramR κ (f i) (f j) := by funext i j; exact gramR_picked hs hB i j
  cases norm with
  | false =>
    show _ = _
    rw [e, show M = _ from h3]
  | true =>
    refine ⟨fun i => by rw [hB]; exact h3.1 (f i), ?_⟩
    rw [e, h3.2]
    rfl

theorem centered_outerR {n : Nat} (y : Fin n → ℝ) (i j : Fin n) :
    centered (outerR n y) i j = (y i - (∑ l, y l) / n) * (y j - (∑ l, y l) / n) := by
  have hn : (n : ℝ) ≠ 0 := by
    have := i.pos
    positivity
  unfold centered outerR
  simp only [← Finset.mul_sum, ← Finset.sum_mul]
  field_simp
  ring

theorem centered_outerR_affine {n : Nat} (a c : ℝ) (y : Fin n → ℝ) :
    centered (outerR n fun i => a * y i + c) = fun i j => a ^ 2 * centered (outerR n y) i j := by
  funext i j
  have hn : (n : ℝ) ≠ 0 := by
    have := i.pos
    positivity
  rw [centered_outerR, centered_outerR, Finset.sum_add_distrib, ← Finset.mul_sum]
  simp only [Finset.sum_const, Finset.card_univ, Fintype.card_fin, nsmul_eq_mul]
  field_simp
  ring

theorem frobInner_perm {n m : Nat} (e : Fin m → Fin n) (he : Function.Bijective e) (A B : Matrix (Fin n) (Fin n) ℝ) :
    frobInner (fun i j => A (e i) (e j)) (fun i j => B (e i) (e j)) = frobInner A B := by
  have h : ∀ a, ∑ b, A a (e b) * B a (e b) = ∑ b, A a b * B a b := fun a => he.sum_comp (fun b => A a b * B a b)
  unfold frobInner
  rw [he.sum_comp (fun a => ∑ b, A a (e b) * B a (e b))]
  simp only [h]

theorem calign_perm {n m : Nat} (e : Fin m → Fin n) (he : Function.Bijective e) (A B : Matrix (Fin n) (Fin n) ℝ) :
    calign (fun i j => A (e i) (e j)) (fun i j => B (e i) (e j)) = calign A B := by
  have h : ∀ A : Matrix (Fin n) (Fin n) ℝ, centered (fun i j => A (e i) (e j)) = fun i j => centered A (e i) (e j) := fun A => by
    funext i j; exact centered_perm e he A i j
  unfold calign
  rw [h, h, frobInner_perm e he, frobInner_perm e he, frobInner_perm e he]

theorem frobInner_smul_right {n m : Nat} (c : ℝ) (A B : Matrix (Fin n) (Fin m) ℝ) : frobInner A (fun i j => c * B i j) = c * frobInner A B := by
  rw [frobInner_comm A (fun i j => c * B i j), frobInner_smul c B A, frobInner_comm B A]

theorem calign_affine {n : Nat} {a : ℝ} (ha : a ≠ 0) (c : ℝ) (M : Matrix (Fin n) (Fin n) ℝ) {y : Fin n → ℝ} (hy : TargetsVary y) (hz : TargetsVary fun i => a * y i + c) :
    calign M (outerR n fun i => a * y i + c) = calign M (outerR n y) := by
  unfold TargetsVary at hy hz
  unfold calign
  rw [centered_outerR_affine] at hz ⊢
  by_cases h : NearZero (Real.sqrt (frobInner (centered M) (centered M)))
  · rw [if_pos (.inl h), if_pos (.inl h)]
  · rw [if_neg (not_or.2 ⟨h, hz⟩), if_neg (not_or.2 ⟨h, hy⟩), frobInner_smul_right (a ^ 2) (centered M) (centered (outerR n y)),
      frobInner_smul_right (a ^ 2) (fun i j => a ^ 2 * centered (outerR n y) i j) (centered (outerR n y)), frobInner_smul (a ^ 2) (centered (outerR n y)) (centered (outerR n y)), ← mul_assoc, Real.sqrt_mul (by positivity), Real.sqrt_mul_self (sq_nonneg a), mul_left_comm, mul_div_mul_left _ _ (pow_ne_zero 2 ha)]

/-- centred squares of shifted targets are the same even if they are nearly constant -/
theorem calign_shift {n : Nat} {a : ℝ} (ha : a ^ 2 = 1) (c : ℝ) (M : Matrix (Fin n) (Fin n) ℝ) (y : Fin n → ℝ) :
    calign M (outerR n fun i => a * y i + c) = calign M (outerR n y) := by
  have : centered (outerR n fun i => a * y i + c) = centered (outerR n y) := by
    rw [centered_outerR_affine, ha]
    funext i j
    exact one_mul _
  unfold calign
  rw [this]

end KMethods
