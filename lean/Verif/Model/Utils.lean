import Verif.Model.Py
/-!
# `kernelmethods/utils.py`: array coercion and small helpers
-/
namespace KMethods

/-- numpy dtypes, as far as `utils.ensure_ndarray_size` distinguishes them. `str`/`object`
carry whether `astype(float64)` succeeds on the contents. (for utils.py:81) -/
inductive DType where
  | int | uint | float64 | floatOther | complex | bool
  | str (castable : Bool) | object (castable : Bool)
  deriving DecidableEq, Repr

/-- `np.issubdtype(dt, np.number)` (for utils.py:81) -/
def DType.isNumber : DType → Bool
  | .int | .uint | .float64 | .floatOther | .complex => true
  | _ => false

/-- whether `array.astype(np.float64)` succeeds (for utils.py:73-100) -/
def DType.castable : DType → Bool
  | .str c => c
  | .object c => c
  | _ => true

/-- the `ensure_dtype` argument: `None`, `np.number`, or `np.float64` (for utils.py:73-100) -/
inductive WantDType where
  | none | number | float64
  deriving DecidableEq, Repr

/-- `np.issubdtype(array.dtype, ensure_dtype)` (utils.py:81) -/
def WantDType.satisfiedBy : WantDType → DType → Bool
  | .none, _ => true
  | .number, d => d.isNumber
  | .float64, d => d == .float64

/-- An ndarray: dtype, shape and flat row-major data. The data type `α` is left open; casts do not
change the data at this level of abstraction. (for utils.py:60-70, 73-100) -/
structure NdArray (α : Type) where
  dtype : DType
  shape : List Nat
  data : List α

/-- `np.squeeze(array, axis=axes)` for `axes = tuple(ax for ax, sz in enumerate(shape) if sz==1 and ax>k)`
(utils.py:48-49 with k=1, utils.py:67-68 with k=0). -/
def squeezeAbove (k : Nat) (shape : List Nat) : List Nat :=
  (shape.zipIdx.filter fun p => !(p.1 == 1 && decide (p.2 > k))).map (·.1)

/-- the dimension check of `ensure_ndarray_size` (utils.py:76-79) -/
def ensureNdim (d : Nat) (shape : List Nat) : Except PyErr (List Nat) :=
  if shape.length ≠ d then .error .valueError else .ok shape

/-- `ensure_ndarray_size` (utils.py:73-100). Both except-branches end in a second attempt with
float64 or a `ValueError`, so the outcome is: cast to float64, or `ValueError`. -/
def ensureNdarraySize {α : Type} (a : NdArray α) (want : WantDType) (d : Nat) :
    Except PyErr (NdArray α) := do
  let _ ← ensureNdim d a.shape
  if want.satisfiedBy a.dtype then pure a
  else if a.dtype.castable then pure { a with dtype := .float64 }
  else .error .valueError

/-- `ensure_ndarray_1D` (utils.py:60-70) -/
def ensureNdarray1D {α : Type} (a : NdArray α) (want : WantDType := .number) :
    Except PyErr (NdArray α) :=
  ensureNdarraySize { a with shape := squeezeAbove 0 a.shape } want 1

/-- `ensure_ndarray_2D` (utils.py:41-57) -/
def ensureNdarray2D {α : Type} (a : NdArray α) (want : WantDType := .number)
    (numCols : Option Nat := none) : Except PyErr (NdArray α) := do
  let b ← ensureNdarraySize { a with shape := squeezeAbove 1 a.shape } want 2
  match numCols with
  | none => pure b
  | some c => if b.shape[1]? ≠ some c then .error .valueError else pure b

/-- `check_input_arrays` (utils.py:7-38); `x.size` is the number of elements. -/
def checkInputArrays {α : Type} (x y : NdArray α) (want : WantDType := .number) :
    Except PyErr (NdArray α × NdArray α) := do
  let x ← ensureNdarray1D x want
  let y ← ensureNdarray1D y want
  if x.shape.prod ≠ y.shape.prod then .error .valueError
  else pure (x, y)

/-- Shape part of `ensure_ndarray_2D(sample, ensure_dtype=sample.dtype)` as called by
`KernelMatrix.attach_to` (base.py:251,266): the dtype test is then trivially met. Returns `(rows, cols)`. -/
def ensureShape2D (shape : List Nat) : Except PyErr (Nat × Nat) := do
  let s ← ensureNdim 2 (squeezeAbove 1 shape)
  match s with
  | [n, m] => pure (n, m)
  | _ => .error .valueError

/-- What `check_callable` (utils.py:103-116) can see of its argument. -/
inductive CallableInfo where
  | notCallable
  | callable (numParams : Nat)
  deriving DecidableEq, Repr

/-- `check_callable(input_func, min_num_args)` (utils.py:103-116). Builtins without a signature are not modelled. -/
def checkCallable (f : CallableInfo) (minNumArgs : Nat := 2) : Except PyErr Unit :=
  match f with
  | .notCallable => .error .typeError
  | .callable k => if k < minNumArgs then .error .typeError else .ok ()

/-- `get_callable_name` (utils.py:119-128); `funcName = none` when the callable has no `__name__`. -/
def getCallableName (funcName name : Option String) : String :=
  match name with
  | none => match funcName with
    | some f => f
    | none => ""
  | some s => s

/-- `VALID_KERNEL_MATRIX_OPS` (config.py:38) -/
def validKernelMatrixOps : List String := ["sum", "product", "average"]

/-- `check_operation_kernel_matrix` (utils.py:143-151) -/
def checkOperationKernelMatrix (operation : String) : Except PyErr String :=
  let opr := operation.toLower
  if opr ∈ validKernelMatrixOps then .ok opr else .error .valueError

/-- An argument of `is_iterable_but_not_str` (utils.py:184): a str, another iterable with a length, or
a non-iterable. -/
inductive IterInfo where
  | str | iterable (len : Nat) | notIterable
  deriving DecidableEq, Repr

/-- `is_iterable_but_not_str` (utils.py:184-193) -/
def isIterableButNotStr (x : IterInfo) (minLength : Nat := 1) : Bool :=
  match x with
  | .str => false
  | .notIterable => false
  | .iterable n => if n < minLength then false else true

end KMethods
