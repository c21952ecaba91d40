import Verif.Model.Operations
import Verif.Spec.Matrix
/-! # Notions used to state the properties of `operations.py` -/
namespace KMethods

/-- the value of the alignment of two real square matrices, when it is defined -/
def AlignmentIs {n : Nat} (A B : Matrix (Fin n) (Fin n) ℝ) (already : Bool) (x : ℝ) : Prop :=
  alignmentCentered (Mat.ofReal A) (Mat.ofReal B) .raise already = .ok (.real x)

end KMethods
