import Verif.Spec.Matrix
import Verif.Spec.Kernels
/-!
# Notions for C78: kernel matrices that tell samples apart
-/
namespace KMethods

/-- positive definite: symmetric and `xᵀ K x > 0` for every vector `x ≠ 0` -/
def IsPD {n : Nat} (K : Matrix (Fin n) (Fin n) ℝ) : Prop :=
  (∀ i j, K i j = K j i) ∧ ∀ x : Fin n → ℝ, x ≠ 0 → 0 < ∑ i, ∑ j, x i * K i j * x j

/-- singular: some vector `x ≠ 0` is sent to zero -/
def IsSingular {n : Nat} (K : Matrix (Fin n) (Fin n) ℝ) : Prop :=
  ∃ x : Fin n → ℝ, x ≠ 0 ∧ ∀ i, ∑ j, K i j * x j = 0

/-- no two rows of the sample are equal -/
def Arr2.Distinct {X : Type} (A : Arr2 X) : Prop := ∀ i j : Fin A.nrows, A.row i = A.row j → i = j

/-- the features of the rows, as vectors -/
def Arr2.vec (A : Arr2 (List ℝ)) (i : Fin A.nrows) (c : Fin A.ncols) : ℝ := (A.row i).getD c 0

/-- Gaussian, Laplacian and chi² kernels with `γ > 0` -/
def NumKernel.Separating : NumKernel → Prop
  | .gaussian _ γ => 0 < γ
  | .laplacian γ => 0 < γ
  | .chi2 γ => 0 < γ
  | _ => False

end KMethods
