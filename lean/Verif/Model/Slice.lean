import Verif.Model.Py
/-!
# Python `slice.indices` and `range`

`base.py:650-651` and `base.py:996-997` turn a slice into a list of indices with
`list(range(*slice_obj.indices(n)))`. These two CPython primitives are modelled here
(`PySlice_AdjustIndices`, `range`), on unbounded integers.
-/
namespace KMethods

/-- One bound of `slice.indices(n)`: negative values count from the end, then clip to `[lower, upper]`. (for base.py:650-651) -/
def clipBound (n lower upper : Int) (b : Int) : Int :=
  if b < 0 then (if b + n < lower then lower else b + n)
  else (if b > upper then upper else b)

/-- `slice(start, stop, step).indices(n)`; `step == 0` raises `ValueError`. (for base.py:650-651) -/
def sliceTriple (start stop step : Option Int) (n : Nat) : Except PyErr (Int × Int × Int) :=
  let st := step.getD 1
  if st = 0 then .error .valueError
  else
    let lower : Int := if st < 0 then -1 else 0
    let upper : Int := if st < 0 then (n : Int) - 1 else n
    let a := match start with
      | none => if st < 0 then upper else lower
      | some b => clipBound n lower upper b
    let z := match stop with
      | none => if st < 0 then lower else upper
      | some b => clipBound n lower upper b
    .ok (a, z, st)

/-- `len(range(a, z, st))` as CPython computes it. (for base.py:650-651) -/
def rangeLen (a z st : Int) : Nat :=
  if 0 < st ∧ a < z then (1 + (z - 1 - a) / st).toNat
  else if st < 0 ∧ z < a then (1 + (a - 1 - z) / (-st)).toNat
  else 0

/-- `list(range(a, z, st))` (for base.py:650-651) -/
def pyRange (a z st : Int) : List Int :=
  (List.range (rangeLen a z st)).map fun (k : Nat) => a + (k : Int) * st

/-- `list(range(*slice_obj.indices(n)))`, `base.py:650-651`, `base.py:996-997`. -/
def sliceIndices (start stop step : Option Int) (n : Nat) : Except PyErr (List Int) := do
  let (a, z, st) ← sliceTriple start stop step n
  pure (pyRange a z st)

end KMethods
