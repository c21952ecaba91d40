import Verif.Model.Utils
/-! # Notions used to state the properties of the array coercions -/
namespace KMethods

/-- the result of converting an array with dtype `d` where `want` is required -/
def castTo (want : WantDType) (d : DType) : DType := if want.satisfiedBy d then d else .float64

end KMethods
