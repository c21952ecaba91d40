import Verif.Model.NpIndex
import Verif.Spec.History
import Verif.Spec.Derived
/-!
# Comparing what `km[S, T]` returns with what numpy returns
-/
namespace KMethods

/-- the entries of a matrix row by row (`A.ravel()`) -/
def Mat.flat {V : Type} (A : Mat V) : List V :=
  (List.finRange A.nrows).flatMap fun i => (List.finRange A.ncols).map fun j => A.get i j

namespace NpOut
variable {V : Type}

/-- lengths of the axes -/
def shape : NpOut V → List Nat
  | .scalar _ => []
  | .vec l => [l.length]
  | .mat A => [A.nrows, A.ncols]

/-- the entries in order (`ravel()`) -/
def flat : NpOut V → List V
  | .scalar v => [v]
  | .vec l => l
  | .mat A => A.flat

end NpOut

/-- the two descriptions of index objects (for `km[S, T]` and for an array) mean the same object -/
inductive SameIdx : Idx → NpIdx → Prop
  | int (i : Int) : SameIdx (.int i) (.int i)
  | slice (a b c : Option Int) : SameIdx (.slice a b c) (.slice a b c)
  | list (l : List Int) : SameIdx (.iter (l.map .int)) (.list l)

/-- likewise for the index objects of `ConstantKernelMatrix` -/
inductive SameConst : Idx → ConstIdx → Prop
  | int (i : Int) : SameConst (.int i) (.int i)
  | slice (a b c : Option Int) : SameConst (.slice a b c) (.slice a b c)
  | list (l : List Int) : SameConst (.iter (l.map .int)) (.iter (l.map .ok))

/-- an index object by which Python visits positions in strictly increasing order -/
def Idx.Ascending : Idx → Prop
  | .int _ => True
  | .slice _ _ c => 0 < c.getD 1
  | .iter l => l.Pairwise fun x y => ∃ i j, x = .int i ∧ y = .int j ∧ i < j
  | .other => False

/-- an integer -/
def Idx.IsInt : Idx → Prop
  | .int _ => True
  | _ => False

instance (S : Idx) : Decidable S.IsInt := by
  cases S <;> (unfold Idx.IsInt; infer_instance)

/-- not an integer and not a slice -/
def Idx.IsIter : Idx → Prop
  | .iter _ => True
  | _ => False

/-- acceptable on a dimension of length `n` -/
def Idx.Accepted (n : Nat) (S : Idx) : Prop := ¬ IndexSpec.ZeroStep S ∧ ¬ IndexSpec.Invalid n S

end KMethods
