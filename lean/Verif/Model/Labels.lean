import Mathlib.Algebra.Order.Floor.Ring
import Mathlib.Data.Int.Init
import Verif.Model.Algorithms
/-!
# Conversion of predictions to a dtype

`Learner.cast`, `SvmLearner.cast` of `Model/Algorithms` for arrays of labels: `np.asarray(predicted_y, dtype=self._train_y.dtype)` (algorithms.py:153) and `np.asarray(predicted_y, dtype=np.intp)`
(algorithms.py:681-683).
-/
namespace KMethods

/-- an element of an array of labels. Floating point numbers are real numbers; dates and complex numbers are left out. (for algorithms.py:153, 683) -/
inductive Label where
  | int (z : ℤ)
  | real (x : ℝ)
  | bool (b : Bool)
  | text (s : String)

/-- dtype of an array of labels: integers of `w` bits with or without sign, floating point numbers, booleans, strings (of sufficient length), objects (for algorithms.py:153, 683) -/
inductive LabelType where
  | int (w : Nat)
  | uint (w : Nat)
  | float
  | bool
  | text
  | object

/-- an array of labels (for algorithms.py:153) -/
structure Labels where
  dtype : LabelType
  vals : List Label

/-- what is left open about the conversions of NumPy: reading numbers and truth values from strings, writing values as strings, floating point numbers outside of the range of the integers (for algorithms.py:153, 683) -/
structure NumpyCasts where
  parseInt : String → Except PyErr ℤ
  parseFloat : String → Except PyErr ℝ
  parseBool : String → Except PyErr Bool
  str : Label → String
  far : ℝ → ℤ

/-- conversion of a floating point number to an integer is truncation (for algorithms.py:153, 683) -/
noncomputable def truncate (x : ℝ) : ℤ := if 0 ≤ x then ⌊x⌋ else ⌈x⌉

/-- conversion of floating point numbers to integers between `lo` and `hi` (for algorithms.py:153, 683) -/
noncomputable def truncateIn (N : NumpyCasts) (lo hi : ℤ) (x : ℝ) : ℤ := if lo ≤ truncate x ∧ truncate x ≤ hi then truncate x else N.far x

/-- conversion of one element by `np.asarray(., dtype=t)` (algorithms.py:153, 683). Integers are reduced to the width of the type; conversions of integers to floating point numbers are exact here. -/
noncomputable def convert (N : NumpyCasts) : LabelType → Label → Except PyErr Label
  | .int w, .int z => .ok (.int (Int.bmod z (2 ^ w)))
  | .int w, .real x => .ok (.int (truncateIn N (-2 ^ (w - 1)) (2 ^ (w - 1) - 1) x))
  | .int _, .bool b => .ok (.int (if b then 1 else 0))
  | .int w, .text s => (N.parseInt s).map fun z => .int (Int.bmod z (2 ^ w))
  | .uint w, .int z => .ok (.int (z % 2 ^ w))
  | .uint w, .real x => .ok (.int (truncateIn N 0 (2 ^ w - 1) x))
  | .uint _, .bool b => .ok (.int (if b then 1 else 0))
  | .uint w, .text s => (N.parseInt s).map fun z => .int (z % 2 ^ w)
  | .float, .int z => .ok (.real z)
  | .float, .real x => .ok (.real x)
  | .float, .bool b => .ok (.real (if b then 1 else 0))
  | .float, .text s => (N.parseFloat s).map .real
  | .bool, .int z => .ok (.bool (decide (z ≠ 0)))
  | .bool, .real x => open Classical in .ok (.bool (decide (x ≠ 0)))
  | .bool, .bool b => .ok (.bool b)
  | .bool, .text s => (N.parseBool s).map .bool
  | .text, .text s => .ok (.text s)
  | .text, l => .ok (.text (N.str l))
  | .object, l => .ok l

/-- conversion of an array: the first element that cannot be converted raises (for algorithms.py:153, 681-683) -/
noncomputable def convertAll (N : NumpyCasts) (t : LabelType) : List Label → Except PyErr (List Label)
  | [] => .ok []
  | l :: ls =>
    match convert N t l with
    | .error e => .error e
    | .ok a => (convertAll N t ls).map (a :: ·)

/-- `np.intp`: integers of 64 bits (the width depends on the platform) (for algorithms.py:681-683) -/
def intp : LabelType := .int 64

/-- the conversion of predictions of `BaseKernelMachine.predict` (algorithms.py:153) -/
noncomputable def castMachine (N : NumpyCasts) (y : Labels) (p : List Label) : Except PyErr (List Label) := convertAll N y.dtype p

/-- the conversion of predictions of `OptimalKernelSVC.predict` (algorithms.py:681-683), none in `OptimalKernelSVR` (algorithms.py:392-396) -/
noncomputable def castOptimal (N : NumpyCasts) : Est → List Label → Except PyErr (List Label)
  | .svc, p => convertAll N intp p
  | .svr, p => .ok p

end KMethods
