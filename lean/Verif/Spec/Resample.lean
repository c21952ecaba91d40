import Verif.Spec.Matrix
/-!
# Samples made of rows of another sample
-/
namespace KMethods

/-- the rows of `B` are rows number `f 0`, `f 1`, … of `A` -/
def Arr2.PickedFrom {X : Type} (B A : Arr2 X) (f : Fin B.nrows → Fin A.nrows) : Prop := ∀ i : Fin B.nrows, B.row i = A.row (f i)

/-- the kernel gives equal values on rows of the sample in either order -/
def SymmOn {X V : Type} (kv : X → X → V) (A : Arr2 X) : Prop :=
  ∀ i j : Fin A.nrows, kv (A.row i) (A.row j) = kv (A.row j) (A.row i)

end KMethods
