import Verif.Spec.Overflow
import Verif.Model.OverflowNorm
/-! # Spec: normalisation with overflow (C95) -/
namespace KMethods

/-- a sample of finite numbers, as floating point numbers -/
def Arr2.floats (A : Arr2 (List ℝ)) : Arr2 (List Dbl) := ⟨A.nrows, A.ncols, fun i => (A.row i).map .fin⟩

/-- the error of a finite kernel value (C83), relative to the geometric mean of the self-kernels -/
noncomputable def FloatFormat.kernelErr (Φ : FloatFormat) (k : NumKernel) (d : Nat) : ℝ := Φ.R.gamma (k.roundings d) + Φ.lost k (k.roundings d)

/-- the numbers are not larger than the largest number -/
def FloatFormat.InRange (Φ : FloatFormat) (v : Dbl) : Prop := ∀ x, v = .fin x → |x| ≤ Φ.max

end KMethods
