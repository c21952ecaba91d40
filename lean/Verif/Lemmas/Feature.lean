import Verif.Spec.Feature
import Verif.Spec.Composite
import Verif.Lemmas.PSD
import Verif.Lemmas.Pipeline
import Verif.Lemmas.Separate
import Mathlib.Analysis.InnerProductSpace.PiL2
/-! Feature vectors of positive semidefinite matrices. -/
namespace KMethods
open Matrix
open scoped MatrixOrder ComplexOrder
variable {n m : Nat} {ι : Type} [Fintype ι]

theorem features_of_psd {K : Matrix (Fin n) (Fin n) ℝ} (h : IsPSD K) : ∃ φ : Fin n → Fin n → ℝ, K = innerMat φ φ := by
  obtain ⟨B, hB⟩ := CStarAlgebra.nonneg_iff_eq_star_mul_self.mp ((isPSD_iff K).1 h).nonneg
  refine ⟨fun i c => B c i, ?_⟩
  ext i j
  rw [hB]
  simp [innerMat, innerF, Matrix.mul_apply, Matrix.star_apply]

theorem innerMat_psd (φ : Fin n → ι → ℝ) : IsPSD (innerMat φ φ) :=
  isPSD_finset_sum Finset.univ fun c _ => isPSD_rank_one fun i => φ i c

theorem innerMat_fromMean (φ : Fin n → ι → ℝ) : innerMat (fromMean φ) (fromMean φ) = centered (innerMat φ φ) := by
  funext i j
  simp only [innerMat, innerF, fromMean, centered]
  have h1 : ∀ i, ∑ l, ∑ c, φ i c * φ l c = ∑ c, φ i c * ∑ l, φ l c := fun i => by
    rw [Finset.sum_comm]; exact Finset.sum_congr rfl fun c _ => (Finset.mul_sum ..).symm
  have h2 : ∑ l, ∑ c, φ l c * φ j c = ∑ c, (∑ l, φ l c) * φ j c := by
    rw [Finset.sum_comm]; exact Finset.sum_congr rfl fun c _ => (Finset.sum_mul ..).symm
  have h3 : ∑ a, ∑ b, ∑ c, φ a c * φ b c = ∑ c, (∑ l, φ l c) * ∑ l, φ l c := by
    simp only [h1]
    rw [Finset.sum_comm]; exact Finset.sum_congr rfl fun c _ => (Finset.sum_mul ..).symm
  rw [h1, h2, h3, Finset.sum_div, Finset.sum_div, Finset.sum_div, ← Finset.sum_sub_distrib, ← Finset.sum_sub_distrib, ← Finset.sum_add_distrib]
  refine Finset.sum_congr rfl fun c _ => ?_
  generalize ∑ l, φ l c = S
  rcases eq_or_ne (n : ℝ) 0 with h | h
  · rw [h]; simp
  · field_simp; ring

theorem innerMat_toUnit {p : Nat} (φ : Fin n → ι → ℝ) (ψ : Fin p → ι → ℝ) :
    innerMat (toUnit φ) (toUnit ψ) = fun i j => innerMat φ ψ i j / Real.sqrt (innerF (φ i) (φ i) * innerF (ψ j) (ψ j)) := by
  funext i j
  have h0 : 0 ≤ innerF (φ i) (φ i) := Finset.sum_nonneg fun c _ => mul_self_nonneg _
  rw [Real.sqrt_mul h0]
  simp only [innerMat, toUnit, innerF]
  rw [Finset.sum_div]
  exact Finset.sum_congr rfl fun c _ => div_mul_div_comm ..

theorem innerMat_sideBySide {N : Nat} {w : Fin N → ℝ} (hw : ∀ k, 0 ≤ w k) (φ : Fin N → Fin n → ι → ℝ) :
    innerMat (sideBySide w φ) (sideBySide w φ) = fun i j => ∑ k, w k * innerMat (φ k) (φ k) i j := by
  funext i j
  simp only [innerMat, sideBySide, innerF]
  rw [Fintype.sum_prod_type]
  refine Finset.sum_congr rfl fun k _ => ?_
  rw [Finset.mul_sum]
  refine Finset.sum_congr rfl fun c _ => ?_
  have := Real.mul_self_sqrt (hw k)
  calc _ = Real.sqrt (w k) * Real.sqrt (w k) * (φ k i c * φ k j c) := by ring
    _ = _ := by rw [this]

theorem innerMat_tensor {N : Nat} (φ : Fin N → Fin n → ι → ℝ) : innerMat (tensor φ) (tensor φ) = fun i j => ∏ k, innerMat (φ k) (φ k) i j := by
  classical
  funext i j
  simp only [innerMat, tensor, innerF]
  rw [Finset.prod_univ_sum]
  rw [Fintype.piFinset_univ]
  exact Finset.sum_congr rfl fun c _ => Finset.prod_mul_distrib.symm

theorem wsum_ofFn {N : Nat} (w : Fin N → ℝ) (K : Fin N → Matrix (Fin n) (Fin m) ℝ) : wsum (List.ofFn w) (List.ofFn K) = fun i j => ∑ k, w k * K k i j := by
  funext i j
  unfold wsum
  have : ((List.ofFn w).zip (List.ofFn K)) = List.ofFn fun k => (w k, K k) := by
    apply List.ext_getElem <;> simp
  rw [this, List.map_ofFn, List.sum_ofFn]
  rfl

theorem eprod_ofFn {N : Nat} (K : Fin N → Matrix (Fin n) (Fin m) ℝ) : eprod (List.ofFn K) = fun i j => ∏ k, K k i j := by
  funext i j
  unfold eprod
  rw [List.map_ofFn, List.prod_ofFn]
  rfl

theorem distF_eq (φ : Fin n → ι → ℝ) (i j : Fin n) : kernelDist (innerMat φ φ) i j = distF (φ i) (φ j) := by
  unfold kernelDist distF innerMat innerF
  congr 1
  rw [Finset.mul_sum, ← Finset.sum_add_distrib, ← Finset.sum_sub_distrib]
  exact Finset.sum_congr rfl fun c _ => by ring

theorem distF_norm (x y : ι → ℝ) : distF x y = dist (WithLp.toLp 2 x) (WithLp.toLp 2 y) := by
  rw [EuclideanSpace.dist_eq]
  unfold distF innerF
  congr 1
  refine Finset.sum_congr rfl fun c _ => ?_
  rw [Real.dist_eq, sq_abs, sq]

theorem distF_triangle (x y z : ι → ℝ) : distF x z ≤ distF x y + distF y z := by
  simp only [distF_norm]
  exact dist_triangle _ _ _

theorem kernelDist_centered (K : Matrix (Fin n) (Fin n) ℝ) (hs : ∀ i j, K i j = K j i) : kernelDist (centered K) = kernelDist K := by
  funext i j
  unfold kernelDist centered
  have h : ∀ i, ∑ l, K l i = ∑ l, K i l := fun i => Finset.sum_congr rfl fun l _ => hs l i
  simp only [h]
  congr 1
  ring

/-- two samples one after the other -/
def joined {X : Type} (A B : Arr2 X) : Arr2 X := ⟨A.nrows + B.nrows, A.ncols, fun i => if i < A.nrows then A.row i else B.row (i - A.nrows)⟩

theorem joined_valid {k : NumKernel} {A B : Arr2 (List ℝ)} (hc : B.ncols = A.ncols) (hA : k.ValidOn A) (hB : k.ValidOn B) : k.ValidOn (joined A B) := by
  have key : ∀ {P : List ℝ → Prop}, (∀ i, i < A.nrows → P (A.row i)) → (∀ i, i < B.nrows → P (B.row i)) → ∀ i, i < A.nrows + B.nrows → P ((joined A B).row i) := by
    intro P h1 h2 i hi
    show P (if i < A.nrows then A.row i else B.row (i - A.nrows))
    split_ifs with h
    · exact h1 i h
    · exact h2 _ (by omega)
  refine ⟨key (P := fun r => r.length = A.ncols) hA.1 fun i hi => (hB.1 i hi).trans hc, ?_⟩
  have h1 := hA.2
  have h2 := hB.2
  cases k with
  | hadamard α =>
    rcases h1 with h1 | h1
    · exact .inl h1
    · rcases h2 with h2 | h2
      · exact .inl h2
      · exact .inr (key (P := fun r => ∀ v ∈ r, v ≠ 0) h1 h2)
  | chi2 γ => exact ⟨h1.1, key (P := fun r => ∀ v ∈ r, 0 ≤ v) h1.2 h2.2⟩
  | _ => exact h1

theorem joined_left {X : Type} (A B : Arr2 X) (i : Fin A.nrows) : (joined A B).row (Fin.castAdd B.nrows i : Fin (A.nrows + B.nrows)) = A.row i := by
  show (if (i : Nat) < A.nrows then A.row i else _) = _
  rw [if_pos i.2]

theorem joined_right {X : Type} (A B : Arr2 X) (i : Fin B.nrows) : (joined A B).row (Fin.natAdd A.nrows i : Fin (A.nrows + B.nrows)) = B.row i := by
  show (if A.nrows + (i : Nat) < A.nrows then _ else B.row (A.nrows + i - A.nrows)) = _
  rw [if_neg (by omega), Nat.add_sub_cancel_left]

/-- feature vectors for two samples at once -/
theorem joint_features {k : NumKernel} {A B : Arr2 (List ℝ)} (hc : B.ncols = A.ncols) (hA : k.ValidOn A) (hB : k.ValidOn B) :
    ∃ (m : Nat) (φ : Fin A.nrows → Fin m → ℝ) (ψ : Fin B.nrows → Fin m → ℝ), k.IsGram A (innerMat φ φ) ∧ k.IsGram B (innerMat ψ ψ) ∧
      ∀ (i : Fin A.nrows) (j : Fin B.nrows), k.call false (.vec (A.row i)) (.vec (B.row j)) = .ok (.real (innerF (φ i) (ψ j))) ∧ k.call false (.vec (B.row j)) (.vec (A.row i)) = .ok (.real (innerF (φ i) (ψ j))) := by
  obtain ⟨K, hK, hg⟩ := psdOn_of_validOn (joined_valid hc hA hB)
  obtain ⟨χ, rfl⟩ := features_of_psd hK
  refine ⟨A.nrows + B.nrows, fun i => χ (Fin.castAdd B.nrows i), fun i => χ (Fin.natAdd A.nrows i), fun i j => ?_, fun i j => ?_, fun i j => ⟨?_, ?_⟩⟩
  · have := hg (Fin.castAdd B.nrows i) (Fin.castAdd B.nrows j)
    rwa [joined_left, joined_left] at this
  · have := hg (Fin.natAdd A.nrows i) (Fin.natAdd A.nrows j)
    rwa [joined_right, joined_right] at this
  · have := hg (Fin.castAdd B.nrows i) (Fin.natAdd A.nrows j)
    rwa [joined_left, joined_right] at this
  · have := hg (Fin.natAdd A.nrows j) (Fin.castAdd B.nrows i)
    rw [joined_left, joined_right] at this
    exact this.trans (congrArg (fun r => Except.ok (F.real r)) (hK.1 _ _))

section
variable {k : NumKernel} {A B : Arr2 (List ℝ)} {φ : Fin A.nrows → Fin m → ℝ} {ψ : Fin B.nrows → Fin m → ℝ} (h1 : k.IsGram A (innerMat φ φ)) (h2 : k.IsGram B (innerMat ψ ψ))
  (h3 : ∀ (i : Fin A.nrows) (j : Fin B.nrows), k.call false (.vec (A.row i)) (.vec (B.row j)) = .ok (.real (innerF (φ i) (ψ j))) ∧
    k.call false (.vec (B.row j)) (.vec (A.row i)) = .ok (.real (innerF (φ i) (ψ j))))
include h1 h2 h3

theorem two_calls {x y : List ℝ} (hx : Attachment.IsRow ⟨A, some B⟩ x) (hy : Attachment.IsRow ⟨A, some B⟩ y) : ∃ v, k.call false (.vec x) (.vec y) = .ok (.real v) := by
  rcases hx with ⟨i, hi, rfl⟩ | ⟨B', i, hB, hi, rfl⟩ <;> rcases hy with ⟨j, hj, rfl⟩ | ⟨B'', j, hB', hj, rfl⟩
  · exact ⟨_, h1 ⟨i, hi⟩ ⟨j, hj⟩⟩
  · obtain rfl := Option.some.inj hB'
    exact ⟨_, (h3 ⟨i, hi⟩ ⟨j, hj⟩).1⟩
  · obtain rfl := Option.some.inj hB
    exact ⟨_, (h3 ⟨j, hj⟩ ⟨i, hi⟩).2⟩
  · obtain rfl := Option.some.inj hB
    obtain rfl := Option.some.inj hB'
    exact ⟨_, h2 ⟨i, hi⟩ ⟨j, hj⟩⟩

theorem two_noFaults : KMState.NoFaultsOn (numEnv realOps) k ⟨A, some B⟩ := by
  intro t x y hx hy
  obtain ⟨v, hv⟩ := two_calls h1 h2 h3 hx hy
  show (match k.call false (.vec x) (.vec y) with | .ok _ => false | .error _ => true) = false
  rw [hv]

theorem two_real : RealOn ((numEnv realOps).kval k) (fun x y => ((numEnv realOps).kval k x y).val) ⟨A, some B⟩ := by
  intro x y hx hy
  obtain ⟨v, hv⟩ := two_calls h1 h2 h3 hx hy
  have : (numEnv realOps).kval k x y = .real v := by
    show (match k.call false (.vec x) (.vec y) with | .ok v => v | .error _ => .nan) = _
    rw [hv]
  dsimp only
  rw [this]
  rfl

end

/-- two different rows of a sample -/
theorem separated {k : NumKernel} {A : Arr2 (List ℝ)} (hA : k.ValidOn A) (hk : k.Separating) {K : Matrix (Fin A.nrows) (Fin A.nrows) ℝ} (hg : k.IsGram A K) (i j : Fin A.nrows) (hne : A.row i ≠ A.row j) :
    0 < K i i + K j j - 2 * K i j := by
  let f : Nat → Fin A.nrows := fun r => if r = 0 then i else j
  let A' : Arr2 (List ℝ) := ⟨2, A.ncols, fun r => A.row (f r)⟩
  have hv : k.ValidOn A' := by
    refine ⟨fun r _ => hA.1 _ (f r).2, ?_⟩
    have h1 := hA.2
    cases k with
    | chi2 γ => exact ⟨h1.1, fun r _ => h1.2 _ (f r).2⟩
    | gaussian => exact h1
    | laplacian => exact h1
    | _ => exact hk.elim
  have hd : A'.Distinct := by
    intro a b e
    change A.row (f a) = A.row (f b) at e
    fin_cases a <;> fin_cases b
    · rfl
    · exact (hne e).elim
    · exact (hne e.symm).elim
    · rfl
  have hg' : k.IsGram A' (fun a b => K (f a) (f b)) := fun a b => hg (f a) (f b)
  obtain ⟨hs, hp⟩ := pdOn_of_separating hv hk hd hg'
  have h0 := hp (fun a => if (a : Nat) = 0 then 1 else -1) fun e => by
    have := congrFun e ⟨0, two_pos⟩
    simp at this
  have h1 : K i j = K j i := hs ⟨0, two_pos⟩ ⟨1, one_lt_two⟩
  change 0 < ∑ a : Fin 2, ∑ b : Fin 2, (if (a : Nat) = 0 then (1 : ℝ) else -1) * K (f a) (f b) * (if (b : Nat) = 0 then (1 : ℝ) else -1) at h0
  rw [Fin.sum_univ_two, Fin.sum_univ_two, Fin.sum_univ_two] at h0
  simp only [Fin.val_zero, Fin.val_one, if_true, one_ne_zero, if_false, f] at h0
  linarith

end KMethods
