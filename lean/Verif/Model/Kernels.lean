import Verif.Model.F
import Verif.Model.Utils
import Verif.Model.KernelMatrix
import Verif.Model.Operations
import Mathlib.Analysis.SpecialFunctions.Pow.Real
import Mathlib.Analysis.SpecialFunctions.Trigonometric.DerivHyp
/-!
# Kernel functions: `numeric_kernels.py`, `categorical.py`, `KernelFromCallable`

Entries of numeric arrays are finite reals (ints are treated as reals here, `Model/IntKernels` has
fixed-width integers; arrays with NaN are in `Model/Missing`; complex numbers, infinite entries,
overflow and rounding are not modelled). Results are numbers of `F`.
-/
namespace KMethods

/-- `_float_eps = np.finfo('float').eps` (utils.py:130) -/
noncomputable def floatEps : ℝ := 2⁻¹ ^ 52

/-- `_ensure_min_eps` (utils.py:132-133) -/
noncomputable def ensureMinEps (x : ℝ) : ℝ := max floatEps x

/-- An instance of one of the numeric kernel classes, with its attributes after `__init__`
(numeric_kernels.py:38-61, 109-135, 170-193, 227-247, 294-314, 363-387, 417-431). The attribute `skip_input_checks` is
passed separately to `NumKernel.call`. -/
inductive NumKernel where
  | hadamard (alpha : ℝ)
  | poly (degree : ℤ) (gamma b : ℝ)
  | gaussian (sigma gamma : ℝ)
  | laplacian (gamma : ℝ)
  | chi2 (gamma : ℝ)
  | sigmoid (gamma offset : ℝ)
  | linear

/-- `HadamardKernel(alpha)` (numeric_kernels.py:38-61) -/
noncomputable def mkHadamard (alpha : ℝ) : Except PyErr NumKernel :=
  if F.isClose (.real alpha) 0 then .error .valueError else .ok (.hadamard alpha)

/-- `GaussianKernel(sigma)` (numeric_kernels.py:170-193) -/
noncomputable def mkGaussian (sigma : ℝ) : NumKernel :=
  .gaussian (ensureMinEps sigma) (ensureMinEps (1 / (2 * ensureMinEps sigma ^ 2)))

/-- sum over coordinates of a function of the two coordinates; `x` and `y` have equal length (for numeric_kernels.py:70-76, 144, 202, 256, 323-331) -/
def sumZip (f : ℝ → ℝ → ℝ) (x y : List ℝ) : ℝ := (List.zipWith f x y).sum

/-- `np.dot(x, y)` / `x.dot(y.T)` on 1-D arrays of equal length (for numeric_kernels.py:70-76, 144, 202, 256, 323-331) -/
def dot (x y : List ℝ) : ℝ := sumZip (· * ·) x y

/-- A zero entry raised to a negative power is infinite; it stays in the sum (its denominator is `inf > 0`) and makes the
result NaN. (for numeric_kernels.py:70-76, 144, 202, 256, 323-331) -/
def hadamardInfinite (alpha : ℝ) (x y : List ℝ) : Prop := alpha < 0 ∧ ((0:ℝ) ∈ x ∨ (0:ℝ) ∈ y)

/-- one coordinate of the Hadamard kernel: terms with denominator 0 are left out of the sum
(numeric_kernels.py:70-76) -/
noncomputable def hadamardTerm (alpha x y : ℝ) : ℝ :=
  open Classical in
  if 0 < 2 * (|x| ^ alpha + |y| ^ alpha) then |x| ^ alpha * |y| ^ alpha / (2 * (|x| ^ alpha + |y| ^ alpha)) else 0

/-- one coordinate of the chi² kernel: `np.nansum` leaves out 0/0 (numeric_kernels.py:329) -/
noncomputable def chi2Term (x y : ℝ) : ℝ :=
  open Classical in if x + y = 0 then 0 else (x - y) ^ 2 / (x + y)

/-- `base ** degree`: infinite for a negative power of 0 (for numeric_kernels.py:70-76, 144, 202, 256, 323-331) -/
noncomputable def intPow (base : ℝ) (degree : ℤ) : F :=
  open Classical in if base = 0 ∧ degree < 0 then .nan else .real (base ^ degree)

/-- `__call__` after the input checks, on 1-D arrays of equal length (numeric_kernels.py:70-76, 144, 202, 256, 323-331,
396, 440) -/
noncomputable def NumKernel.eval (k : NumKernel) (x y : List ℝ) : Except PyErr F :=
  open Classical in
  match k with
  | .hadamard alpha => .ok (if hadamardInfinite alpha x y then .nan else .real (sumZip (hadamardTerm alpha) x y))
  | .poly degree gamma b => .ok (intPow (b + gamma * dot x y) degree)
  | .gaussian _ gamma => .ok (.real (Real.exp (-gamma * Real.sqrt (sumZip (fun a b => (a - b) ^ 2) x y) ^ 2)))
  | .laplacian gamma => .ok (.real (Real.exp (-gamma * sumZip (fun a b => |a - b|) x y)))
  | .chi2 gamma =>
    if (∃ a ∈ x, a < 0) ∨ (∃ a ∈ y, a < 0) then .error .chi2Negative
    else .ok (.real (Real.exp (-gamma * sumZip chi2Term x y)))
  | .sigmoid gamma offset => .ok (.real (Real.tanh (offset + gamma * dot x y)))
  | .linear => .ok (.real (dot x y))

/-- dtype required by the input checks (numeric_kernels.py:321 for chi², else `np.number`) -/
def NumKernel.wantDType : NumKernel → WantDType
  | .chi2 _ => .float64
  | _ => .number

/-- `kernel(x, y)`. With `skip_input_checks` set, only 1-D arrays of equal length are modelled. (for base.py:131-134, 145) -/
noncomputable def NumKernel.call (k : NumKernel) (skip : Bool) (x y : NdArray ℝ) : Except PyErr F :=
  if skip then k.eval x.data y.data
  else do
    let p ← checkInputArrays x y k.wantDType
    k.eval p.1.data p.2.data

/-- the 1-D float array with the given entries (for base.py:573-580) -/
def NdArray.vec (x : List ℝ) : NdArray ℝ := ⟨.float64, [x.length], x⟩

/-- `name` attributes (numeric_kernels.py:54, 128, 186, 243, 310, 382, 430) -/
def NumKernel.name : NumKernel → String
  | .hadamard _ => "Hadamard"
  | .poly .. => "polynomial"
  | .gaussian .. => "gaussian"
  | .laplacian _ => "laplacian"
  | .chi2 _ => "chi2"
  | .sigmoid .. => "sigmoid"
  | .linear => "linear"

/-- `KernelMatrix` on a numeric kernel: rows of the sample are 1-D float arrays; the kernel raises or returns
independently of the time of the call. (for base.py:573-580) -/
noncomputable def numEnv (ops : Ops F) : Env NumKernel (List ℝ) F where
  kval k x y := match k.call false (.vec x) (.vec y) with
    | .ok v => v
    | .error _ => .nan
  fails _ k x y := match k.call false (.vec x) (.vec y) with
    | .ok _ => false
    | .error _ => true
  ops := ops
  fmtRaises := fun _ => false

/-- what `is_PSD(km.full)` makes of the outcome of `km.full` (for base.py:60-68) -/
noncomputable def isPsdOfFull (r : Except PyErr (KMOut F)) : Except PyErr Bool :=
  match r with
  | .error e => .error e
  | .ok (.mat .dense M) => isPSD (.arr M) 1e-6
  | .ok _ => isPSD (.other none) 1e-6

/-- `BaseKernelFunction.is_psd` (base.py:60-68) for a kernel `k`, when `np.random.rand(50, 4)` returns `sample`:
a default (normalising) `KernelMatrix` is attached to the sample and `is_PSD` applied to its `full` matrix. -/
noncomputable def baseIsPsd {K X : Type} (env : Env K X F) (k : K) (sample : Arr2 X) : Except PyErr Bool :=
  match KMState.exec env (.attach (.arr [sample.nrows, sample.ncols] sample.row) none) (KMState.init k true 0) with
  | (.error e, _) => .error e
  | (.ok _, s) => isPsdOfFull (KMState.exec env .full s).1

/-! ### categorical -/

/-- an argument of `MatchCountKernel`: an array-like; `isStr` says whether its dtype (after `np.asarray`) is a subtype
of `np.str_` (for categorical.py:86-117, 120-131) -/
structure CatArray where
  isNdarray : Bool
  isStr : Bool
  shape : List Nat
  data : List String

/-- `_ensure_type_size` (categorical.py:120-131): only objects that are not ndarrays are squeezed (all axes) -/
def ensureTypeSize (a : CatArray) : Except PyErr (List Nat) :=
  ensureNdim 1 (if a.isNdarray then a.shape else a.shape.filter (· ≠ 1))

/-- `_check_categorical_arrays` (categorical.py:86-117) -/
def checkCategoricalArrays (x y : CatArray) : Except PyErr Unit := do
  let sx ← ensureTypeSize x
  let sy ← ensureTypeSize y
  if sx.prod ≠ sy.prod then .error .valueError else .ok ()

/-- number of coordinates where the arrays agree: `np.sum(vec_c == vec_d)` (categorical.py:72) -/
def matchCount (x y : List String) : Nat := (List.zipWith (fun a b => if a = b then 1 else 0) x y).sum

/-- `MatchCountKernel(return_perc).__call__` (categorical.py:55-77). `skip_input_checks` is ignored by the code. -/
noncomputable def matchCall (returnPerc : Bool) (x y : CatArray) : Except PyErr F := do
  checkCategoricalArrays x y
  if ¬ (x.isStr = true ∧ y.isStr = true) then .error .typeError
  else if returnPerc then .ok (.real (matchCount x.data y.data) / .real y.data.length)
  else .ok (.real (matchCount x.data y.data))

/-- `MatchCountKernel(return_perc).name` (categorical.py:46-50) -/
def matchName (returnPerc : Bool) : String := if returnPerc then "MatchPerc" else "MatchCount"

/-! ### custom kernels -/

/-- `KernelFromCallable` (base.py:88-146): an instance. `α` is the type of inputs. -/
structure CallableKernel (α P : Type) where
  func : α → α → List (String × P) → Except PyErr F
  params : List (String × P)
  name : String

/-- `KernelFromCallable(input_func, name, **func_params)` (base.py:106-128) -/
def mkCallableKernel {α P : Type} (info : CallableInfo) (func : α → α → List (String × P) → Except PyErr F)
    (funcName name : Option String) (params : List (String × P)) : Except PyErr (CallableKernel α P) := do
  checkCallable info 2
  .ok ⟨func, params, getCallableName funcName name⟩

/-- `kernel(x, y)` (base.py:131-134) -/
def CallableKernel.call {α P : Type} (k : CallableKernel α P) (x y : α) : Except PyErr F := k.func x y k.params

/-- `KernelMatrix` on custom kernels. Their `__format__` is `__str__` (base.py:145), which does not accept the format specification, so that
`'{}'.format(kernel)` raises. Simplification: the callable is a function of its arguments, in what it returns and in whether it raises. -/
noncomputable def callableEnv {α P : Type} (ops : Ops F) : Env (CallableKernel α P) α F where
  kval k x y := match k.call x y with
    | .ok v => v
    | .error _ => .nan
  fails _ k x y := match k.call x y with
    | .ok _ => false
    | .error _ => true
  ops := ops
  fmtRaises := fun _ => true

end KMethods
