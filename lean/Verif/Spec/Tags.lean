import Verif.Model.KernelMatrix
import Mathlib.Data.Real.Basic
/-!
# Data with a negative entry
-/
namespace KMethods

/-- the rows of a 2-D array have as many entries as it has columns -/
def Arr2.Rect (A : Arr2 (List ℝ)) : Prop := ∀ i < A.nrows, (A.row i).length = A.ncols

/-- some entry is negative -/
def Arr2.HasNegative (A : Arr2 (List ℝ)) : Prop := ∃ i < A.nrows, ∃ a ∈ A.row i, a < 0

end KMethods
