import Verif.Model.Derived
import Verif.Spec.Index
import Verif.Spec.Matrix
/-!
# Notions used to state the properties of `ConstantKernelMatrix` and `KernelMatrixPrecomputed`
-/
namespace KMethods

namespace ConstIdx

/-- position `i` of an axis of length `n` is selected -/
def Selects (n : Nat) : ConstIdx → Nat → Prop
  | .int k, i => (i : Int) = k
  | .slice a b c, i => IndexSpec.SliceSelects a b c n i
  | .iter l, i => .ok (i : Int) ∈ l
  | .other, _ => False

/-- an integer outside `0 … n-1` is requested -/
def OutOfRange (n : Nat) : ConstIdx → Prop
  | .int k => k < 0 ∨ (n : Int) ≤ k
  | .slice _ _ _ => False
  | .iter l => ∃ k, .ok k ∈ l ∧ (k < 0 ∨ (n : Int) ≤ k)
  | .other => False

/-- an integer, a slice with a non-zero step, or an iterable all of whose elements can be converted to integers -/
def Readable : ConstIdx → Prop
  | .int _ => True
  | .slice _ _ c => c ≠ some 0
  | .iter l => ∀ x ∈ l, ∃ k, x = .ok k
  | .other => False

end ConstIdx

/-- states of a `ConstantKernelMatrix(n, v)` after any accesses -/
inductive ConstState.Reachable {V : Type} (n : Nat) (v : V) : ConstState V → Prop
  | new : Reachable n v (.init n v)
  | full {s : ConstState V} : Reachable n v s → Reachable n v (ConstState.full s).2
  | diag {s : ConstState V} : Reachable n v s → Reachable n v (ConstState.diag s).2
  | getItem {s : ConstState V} (k : ConstKey) : Reachable n v s → Reachable n v (ConstState.getItem k s).2

/-- symmetric up to the tolerances of `np.isclose` -/
def NearSymmetric {n : Nat} (A : Matrix (Fin n) (Fin n) ℝ) : Prop :=
  ∀ i j, |A i j - A j i| ≤ 1e-8 + 1e-5 * |A j i|

end KMethods
