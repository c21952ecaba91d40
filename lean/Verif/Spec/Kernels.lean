import Verif.Model.Kernels
import Verif.Spec.Matrix
/-!
# Kernel functions on vectors
-/
namespace KMethods

/-- `kernel(x, y)` for two 1-D float arrays with `d` entries, input checks enabled -/
noncomputable def NumKernel.on {d : Nat} (k : NumKernel) (x y : Fin d → ℝ) : Except PyErr F :=
  k.call false (.vec (List.ofFn x)) (.vec (List.ofFn y))

/-- the 1-D string array with the given entries -/
def CatArray.vec {d : Nat} (x : Fin d → String) : CatArray := ⟨true, true, [d], List.ofFn x⟩

/-- the number of coordinates where two vectors agree -/
def agreement {d : Nat} (x y : Fin d → String) : Nat := (Finset.univ.filter fun k => x k = y k).card

/-- `kernel` computes, on all pairs of rows of `x`, the entries of a positive semidefinite matrix -/
def PSDOn {n : Nat} {X : Type} (kernel : X → X → Except PyErr F) (x : Fin n → X) : Prop :=
  ∃ K : Matrix (Fin n) (Fin n) ℝ, IsPSD K ∧ ∀ i j, kernel (x i) (x j) = .ok (.real (K i j))

/-- parameters and data for which the kernel is meant to be positive semidefinite: all rows have the same length; the sigmoid kernel is
never included -/
def NumKernel.ValidOn (k : NumKernel) (A : Arr2 (List ℝ)) : Prop :=
  (∀ i, i < A.nrows → (A.row i).length = A.ncols) ∧
  match k with
  | .hadamard α => 0 < α ∨ ∀ i, i < A.nrows → ∀ v ∈ A.row i, v ≠ 0
  | .poly deg γ b => 0 ≤ deg ∧ 0 ≤ γ ∧ 0 ≤ b
  | .gaussian _ γ => 0 ≤ γ
  | .laplacian γ => 0 ≤ γ
  | .chi2 γ => 0 ≤ γ ∧ ∀ i, i < A.nrows → ∀ v ∈ A.row i, 0 ≤ v
  | .sigmoid _ _ => False
  | .linear => True

/-- `K` is the matrix of values of kernel `k` on the rows of `A` -/
def NumKernel.IsGram (k : NumKernel) (A : Arr2 (List ℝ)) (K : Matrix (Fin A.nrows) (Fin A.nrows) ℝ) : Prop :=
  ∀ i j : Fin A.nrows, k.call false (.vec (A.row i)) (.vec (A.row j)) = .ok (.real (K i j))

/-- the array or list is taken as a vector of length `n`: arrays only if they are vectors, lists also if they have further axes of length one, but not
if all axes have length one -/
def CatArray.IsVec (a : CatArray) (n : Nat) : Prop :=
  match a.isNdarray with
  | true => a.shape = [n]
  | false => n ≠ 1 ∧ ∃ i j, a.shape = List.replicate i 1 ++ n :: List.replicate j 1

end KMethods
