import Verif.Spec.OverflowNorm
import Verif.Spec.RoundAlign
import Verif.Model.OverflowAlign
/-! # Spec: alignment with overflow (C96) -/
namespace KMethods

/-- a matrix of finite numbers, as floating point numbers -/
def Mat.floats {n m : Nat} (A : Matrix (Fin n) (Fin m) ℝ) : Mat Dbl := ⟨n, m, fun i j => .fin (A i j)⟩

/-- cosine of the angle between two matrices -/
noncomputable def cosine {n m : Nat} (A B : Matrix (Fin n) (Fin m) ℝ) : ℝ := frobInner A B / (Real.sqrt (frobInner A A) * Real.sqrt (frobInner B B))

end KMethods
