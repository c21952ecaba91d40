import Verif.Model.Operations
/-!
# Numeric helpers of `kernelmethods/utils.py`
-/
namespace KMethods
open F

/-- `np.minimum` of two numbers: NaN if one is NaN (for utils.py:154-162) -/
noncomputable def F.min : F → F → F := lift2 Min.min
/-- `np.maximum` of two numbers: NaN if one is NaN (for utils.py:154-162) -/
noncomputable def F.max : F → F → F := lift2 Max.max

/-- `min_max_scale` (utils.py:154-162) on the entries of an array; `array.min()` of an empty array raises `ValueError`.
`±Inf` is not distinguished from NaN, so an array with a non-finite entry becomes all non-finite (in numpy the finite entries
of an array with `Inf` and without NaN become 0 or NaN). -/
noncomputable def minMaxScale : List F → Except PyErr (List F)
  | [] => .error .valueError
  | x :: l =>
    let minVal := l.foldl F.min x
    let spread := l.foldl F.max x - minVal
    if isClose spread 0 then .ok ((x :: l).map fun _ => 0)
    else .ok ((x :: l).map fun v => (v - minVal) / spread)

/-- numpy broadcasting of two axis lengths (for utils.py:135-141) -/
def bcastDim (n m : Nat) : Except PyErr Nat :=
  if n = m then .ok n else if n = 1 then .ok m else if m = 1 then .ok n else .error .valueError

/-- the entry of an array at a position of the broadcast shape: an axis of length 1 is repeated (for utils.py:135-141) -/
def Mat.bcastGet (A : Mat F) (i j : Nat) : F :=
  let i := if A.nrows = 1 then 0 else i
  let j := if A.ncols = 1 then 0 else j
  if h : i < A.nrows ∧ j < A.ncols then A.get ⟨i, h.1⟩ ⟨j, h.2⟩ else .nan

/-- element-wise binary operation on two 2-D ndarrays, with broadcasting; `ValueError` when the shapes are not compatible (for base.py:1501) -/
def Mat.zipBcast (f : F → F → F) (A B : Mat F) : Except PyErr (Mat F) := do
  let n ← bcastDim A.nrows B.nrows
  let m ← bcastDim A.ncols B.ncols
  pure (Mat.ofCells n m fun i j => f (A.bcastGet i j) (B.bcastGet i j))

/-- `matrix.T` (for utils.py:135-141) -/
def Mat.transpose {V : Type} (A : Mat V) : Mat V := ⟨A.ncols, A.nrows, fun i j => A.get j i⟩

/-- `not_symmetric` (utils.py:135-141): `np.isclose(matrix, matrix.T)` broadcasts the two shapes -/
noncomputable def notSymmetric (A : Mat F) : Except PyErr Bool := do
  let n ← bcastDim A.nrows A.ncols
  let m ← bcastDim A.ncols A.nrows
  pure (open Classical in
    decide (¬ ∀ i j : Nat, i < n → j < m → isClose (A.bcastGet i j) (A.transpose.bcastGet i j)))

end KMethods
