import Verif.Model.Missing
import Verif.Spec.Kernels
/-!
# Missing values
-/
namespace KMethods

/-- the sample has no missing value -/
def Complete (x : List F) : Prop := F.nan ∉ x

/-- the coordinates at which both vectors have a value -/
def bothPresent (x y : List F) : List (ℝ × ℝ) := (x.zip y).filterMap fun p => match p with
  | (.real a, .real b) => some (a, b)
  | _ => none

/-- missing values replaced by a number -/
def imputed (c : ℝ) (x : List F) : List ℝ := x.map fun v => match v with
  | .real a => a
  | .nan => c

/-- no entry is a negative number -/
def NonNegF (x : List F) : Prop := ∀ a : ℝ, .real a ∈ x → 0 ≤ a

/-- kernels of which the value depends on all coordinates: not Hadamard and chi², nor the constant polynomial kernel -/
def NumKernel.Propagates : NumKernel → Prop
  | .hadamard _ => False
  | .chi2 _ => False
  | .poly degree _ _ => degree ≠ 0
  | _ => True

/-- all rows have as many entries as there are columns -/
def Arr2.Rectangular {α : Type} (A : Arr2 (List α)) : Prop := ∀ i, i < A.nrows → (A.row i).length = A.ncols

end KMethods
