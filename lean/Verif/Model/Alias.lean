import Verif.Model.KernelMatrix
/-!
# Arrays shared between a `KernelMatrix` and its caller

`attach_to` does not copy the samples: `ensure_ndarray_2D(sample, ensure_dtype=sample.dtype)` (utils.py:40-57, 74-99) returns a view of the array it is given. `full`, `full_sparse`, `normed_km`, `centered`
and `km[:, :]` return the attributes `_full_km`, `_normed_km`, `_centered` themselves (base.py:418, 420, 431, 433, 520, 560, 622), not copies. So the caller can change them in place.
-/
namespace KMethods

/-- new contents, written by the caller, of the arrays behind `_sample` and `_sample_two`, or of a matrix that it got from the object (for base.py:255) -/
inductive CallerWrite (X V : Type) where
  | samples (one two : Nat → X)
  | full (cell : Nat → Nat → V)
  | normed (cell : Nat → Nat → V)
  | centered (cell : Nat → Nat → V)

namespace KMState
variable {K X V : Type}

/-- the object after the caller has written into an array. A matrix that does not exist cannot be written to. Shapes and formats stay as they are. After `attach_to` with one sample both attributes refer to one array
(base.py:255): then the two functions of `samples` must be the same. -/
def write : CallerWrite X V → KMState K X V → KMState K X V
  | .samples r r', s => { s with
      sample := s.sample.map fun a => { a with row := r }
      sampleTwo := s.sampleTwo.map fun a => { a with row := r' } }
  | .full c, s => { s with fullKm := s.fullKm.map fun f => { f with cell := c } }
  | .normed c, s => { s with normedKm := s.normedKm.map fun A => (A.1, Mat.ofCells A.2.nrows A.2.ncols c) }
  | .centered c, s => { s with centeredKm := s.centeredKm.map fun A => (A.1, Mat.ofCells A.2.nrows A.2.ncols c) }

end KMState
end KMethods
