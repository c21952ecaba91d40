import Verif.Model.KernelMatrix
/-!
# What a kernel matrix should contain

Stated in terms of the samples and the kernel values only.
-/
namespace KMethods

/-- What a `KernelMatrix` was last attached to: one sample, or two. -/
structure Attachment (X : Type) where
  one : Arr2 X
  two : Option (Arr2 X)

namespace Attachment
variable {K X V : Type}

/-- number of rows of the kernel matrix -/
def nrows (a : Attachment X) : Nat := a.one.nrows
/-- number of columns of the kernel matrix -/
def ncols (a : Attachment X) : Nat :=
  match a.two with
  | none => a.one.nrows
  | some t => t.nrows

/-- The true kernel matrix entry `(i, j)`: `k(x_i, y_j)` for two samples; for one sample the kernel
is evaluated on the pair ordered by index, so the matrix is symmetric whatever the kernel. -/
def entry (a : Attachment X) (kv : X → X → V) (i j : Nat) : V :=
  match a.two with
  | none => kv (a.one.row (min i j)) (a.one.row (max i j))
  | some t => kv (a.one.row i) (t.row j)

/-- The true (raw) kernel matrix. -/
def gram (a : Attachment X) (kv : X → X → V) : Mat V := Mat.ofCells a.nrows a.ncols (a.entry kv)

end Attachment
end KMethods
