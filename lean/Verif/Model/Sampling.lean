import Verif.Model.Composite
import Verif.Model.Kernels
import Verif.Model.Slice
/-!
# `kernelmethods/sampling.py` and the default values of `kernelmethods/config.py`
-/
namespace KMethods
open PyM

/-- `try: m  except: warn(...)`: exceptions are swallowed, mutations stay (for sampling.py:143-181) -/
def PyM.ignoreErrors {σ α : Type} (m : PyM σ α) : PyM σ Unit := fun s => (.ok (), (m s).2)

/-- argument `kernel_func` of `add_parametrized_kernels` (sampling.py:143, 160-164, 175-177): a kernel class, given by what
`kernel_func(**{param: val, 'skip_input_checks': skip})` returns or raises; or anything that is not a subclass of `BaseKernelFunction` -/
inductive KernelClassArg (K V : Type) where
  | cls (build : (skip : Bool) → (param : String) → V → Except PyErr K)
  | other

/-- argument `values` of `add_parametrized_kernels`: `None`; not iterable, or a string; iterable without `len()` (`TypeError`); a sequence (for sampling.py:143-181) -/
inductive ValuesArg (V : Type) where
  | none
  | notIterable
  | unsized
  | seq (l : List V)

/-- instance attributes of `KernelBucket` besides those of `KernelSet` (sampling.py:120-128) -/
structure BucketFlags where
  norm : Bool
  skip : Bool

namespace SetSt
variable {K X V : Type}

/-- `self.append(KernelMatrix(kernel, normalized=...))` (sampling.py:177-178), where constructing the kernel may raise. The call counter of the new
object starts at 0. -/
def appendNew (norm : Bool) (kernel : Except PyErr K) : PyM (SetSt K X) Unit := do
  let k ← lift kernel
  let r ← onHeap (Heap.alloc (.km (KMState.init k norm 0)))
  appendRef r

/-- `add_parametrized_kernels` (sampling.py:143-181) -/
def addParametrized (b : BucketFlags) (cls : KernelClassArg K V) (param : String) (values : ValuesArg V) : PyM (SetSt K X) Unit :=
  match cls with
  | .other => throw .kernelMethods
  | .cls build =>
    match values with
    | .none => pure ()
    | .notIterable => throw .valueError
    | .unsized => throw .typeError
    | .seq l => do
      raiseIf (decide (l.length < 1)) .valueError
      forEach l fun v => ignoreErrors (appendNew b.norm (build b.skip param v))

end SetSt

/-- the five classes used by the constructor, `LinearKernel` being constructed without arguments (for sampling.py:130-140) -/
structure KernelLib (K V : Type) where
  linear : K
  poly : Bool → String → V → Except PyErr K
  gaussian : Bool → String → V → Except PyErr K
  laplacian : Bool → String → V → Except PyErr K
  sigmoid : Bool → String → V → Except PyErr K

/-- the five arguments with parameter values of `KernelBucket(...)` (for sampling.py:130-140) -/
structure BucketValues (V : Type) where
  polyDegree : ValuesArg V
  rbfSigma : ValuesArg V
  laplaceGamma : ValuesArg V
  sigmoidGamma : ValuesArg V
  sigmoidOffset : ValuesArg V

/-- a kernel bucket: a kernel set with two flags (for sampling.py:70-140, 184-247) -/
structure Bucket where
  set : KSet
  flags : BucketFlags

/-- the five calls at the end of the constructor (sampling.py:136-140) -/
def addAll {K X V : Type} (lib : KernelLib K V) (b : BucketFlags) (vals : BucketValues V) : PyM (SetSt K X) Unit := do
  SetSt.addParametrized b (.cls lib.poly) "degree" vals.polyDegree
  SetSt.addParametrized b (.cls lib.gaussian) "sigma" vals.rbfSigma
  SetSt.addParametrized b (.cls lib.laplacian) "gamma" vals.laplaceGamma
  SetSt.addParametrized b (.cls lib.sigmoid) "gamma" vals.sigmoidGamma
  SetSt.addParametrized b (.cls lib.sigmoid) "offset" vals.sigmoidOffset

/-- the constructor after the checks of the flags (sampling.py:130-140): `super().__init__` with the linear kernel, `_num_samples = None` -/
def bucketBody {K X V : Type} (lib : KernelLib K V) (b : BucketFlags) (vals : BucketValues V) : PyM (SetSt K X) Unit := do
  SetSt.appendNew b.norm (.ok lib.linear)
  SetSt.modSet fun t => { t with numSamples := .unset }
  addAll lib b vals

/-- `KernelBucket(...)` (sampling.py:70-140); for the two flags, `none` is anything that is not a `bool` -/
def mkBucket {K X V : Type} (lib : KernelLib K V) (normalize skip : Option Bool) (vals : BucketValues V) : PyM (Heap K X) Bucket := fun h =>
  match normalize, skip with
  | none, _ => (.error .typeError, h)
  | some _, none => (.error .typeError, h)
  | some n, some s =>
    let r := bucketBody lib ⟨n, s⟩ vals ⟨h, .new .unset⟩
    (r.1.map fun _ => ⟨r.2.set, ⟨n, s⟩⟩, r.2.heap)

/-! ### default parameter values -/

/-- numeric parameter values: integers or reals (for numeric_kernels.py:109, 170, 227, config.py:47-52) -/
inductive NumVal where
  | int (n : ℤ)
  | real (x : ℝ)

/-- the number (for numeric_kernels.py:109, 170, 227) -/
def NumVal.toReal : NumVal → ℝ
  | .int n => n
  | .real x => x

/-- a kernel of `numeric_kernels.py` with its flag `skip_input_checks` (for numeric_kernels.py:109, 170, 227, sampling.py:184-247) -/
structure LibKernel where
  kernel : NumKernel
  skip : Bool

/-- The classes of `numeric_kernels.py` on numeric parameter values, with the other parameters at their defaults (numeric_kernels.py:109, 170, 227,
363, 417). `PolyKernel` checks nothing; a degree that is not an integer is not modelled and counted as an error here. Other keyword arguments are a `TypeError`. -/
noncomputable def numericLib : KernelLib LibKernel NumVal where
  linear := ⟨.linear, false⟩
  poly skip param v := match param, v with
    | "degree", .int n => .ok ⟨.poly n 1 1, skip⟩
    | _, _ => .error .typeError
  gaussian skip param v := if param = "sigma" then .ok ⟨mkGaussian v.toReal, skip⟩ else .error .typeError
  laplacian skip param v := if param = "gamma" then .ok ⟨.laplacian v.toReal, skip⟩ else .error .typeError
  sigmoid skip param v :=
    if param = "gamma" then .ok ⟨.sigmoid v.toReal 1, skip⟩
    else if param = "offset" then .ok ⟨.sigmoid 1 v.toReal, skip⟩
    else .error .typeError

/-- `KernelMatrix` on these kernels: rows of the sample are 1-D float arrays; a kernel raises or returns independently of the time of the call (for base.py:573-580) -/
noncomputable def libEnv (ops : Ops F) : Env LibKernel (List ℝ) F where
  kval k x y := match k.kernel.call k.skip (.vec x) (.vec y) with
    | .ok v => v
    | .error _ => .nan
  fails _ k x y := match k.kernel.call k.skip (.vec x) (.vec y) with
    | .ok _ => false
    | .error _ => true
  ops := ops
  fmtRaises := fun _ => false

/-- `tuple([2**exp for exp in range(a, b, 2)])` (for config.py:47-52, 54-59) -/
noncomputable def powersOfTwo (a b : ℤ) : List NumVal := (pyRange a b 2).map fun e => .real ((2:ℝ) ^ e)

/-- config.py:47-52 -/
noncomputable def exhaustiveValues : BucketValues NumVal where
  polyDegree := .seq [.int 2, .int 3, .int 4]
  rbfSigma := .seq (powersOfTwo (-5) 6)
  laplaceGamma := .seq (powersOfTwo (-5) 7)
  sigmoidGamma := .seq (powersOfTwo (-5) 7)
  sigmoidOffset := .seq [.real (-2), .real 1, .real 2]

/-- config.py:54-59 -/
noncomputable def lightValues : BucketValues NumVal where
  polyDegree := .seq [.int 2, .int 3]
  rbfSigma := .seq (powersOfTwo (-3) 3)
  laplaceGamma := .seq (powersOfTwo (-3) 3)
  sigmoidGamma := .seq (powersOfTwo (-3) 7)
  sigmoidOffset := .seq [.real 1]

/-- sampling.py:236-244 -/
def linearOnlyValues : BucketValues NumVal := ⟨.none, .none, .none, .none, .none⟩

/-- argument `strategy` of `make_kernel_bucket`: a `KernelSet` or `KernelBucket`, a string, or anything else (which has no `lower`) (for sampling.py:184-247) -/
inductive StrategyArg (B : Type) where
  | existing (b : B)
  | str (s : String)
  | other

/-- the values of a strategy, after `strategy.lower()` (sampling.py:217-247). (`lower` acts on ASCII letters here; no other character has a lower
case form that occurs in the names of the strategies.) -/
noncomputable def strategyValues (s : String) : Except PyErr (BucketValues NumVal) :=
  if s.toLower = "exhaustive" then .ok exhaustiveValues
  else if s.toLower = "light" then .ok lightValues
  else if s.toLower = "linear_only" then .ok linearOnlyValues
  else .error .valueError

/-- `make_kernel_bucket` (sampling.py:184-247) -/
noncomputable def makeKernelBucket {X : Type} (strategy : StrategyArg Bucket) (normalize skip : Option Bool) : PyM (Heap LibKernel X) Bucket :=
  match strategy with
  | .existing b => pure b
  | .other => throw .attributeError
  | .str s => do
    let vals ← lift (strategyValues s)
    mkBucket numericLib normalize skip vals

/-! ### `ideal_kernel`, `correlation_km`, `pairwise_similarity` -/

/-- `ideal_kernel` (sampling.py:250-268): `targets` with entries `y` in row-major order, reshaped to a column -/
def idealKernel (y : List F) : Mat F := Mat.ofCells y.length y.length fun i j => y.getD i .nan * y.getD j .nan

/-- the entries of a matrix in row-major order: `k.ravel()` of an ndarray (for sampling.py:271-289) -/
def Mat.ravel (A : Mat F) : List F := (List.ofFn fun i => List.ofFn fun j => A.get i j).flatten

/-- sum of the entries (for sampling.py:271-289) -/
def sumF (l : List F) : F := l.foldl (· + ·) 0

/-- deviations from the mean (for sampling.py:271-289) -/
noncomputable def deviations (l : List F) : List F := l.map (· - sumF l / .real l.length)

/-- first result of `scipy.stats.pearsonr` on 1-D arrays: `ValueError` on different lengths or fewer than two entries; NaN if an array is constant; the value is
clipped to [-1, 1]. On arrays with NaN the result is NaN here; some versions of scipy raise `ValueError` instead. (for sampling.py:271-289) -/
noncomputable def pearsonr (x y : List F) : Except PyErr F :=
  if x.length ≠ y.length ∨ x.length < 2 then .error .valueError
  else
    let dx := deviations x
    let dy := deviations y
    let r := sumF (List.zipWith (· * ·) dx dy) / (F.sqrt (sumF (dx.map fun a => a * a)) * F.sqrt (sumF (dy.map fun a => a * a)))
    .ok (F.max (F.min r 1) (.real (-1)))

/-- `correlation_km` (sampling.py:271-289). Sparse matrices have no `ravel`; the `ravel` of a `np.matrix` has one row, and `pearsonr` sees an array of length 1. -/
noncomputable def correlationKm (a b : Fmt × Mat F) : Except PyErr F :=
  if a.1 = .sparse ∨ b.1 = .sparse then .error .attributeError
  else if a.1 = .npMatrix ∨ b.1 = .npMatrix then .error .valueError
  else pearsonr a.2.ravel b.2.ravel

/-- how a stored matrix appears to `alignment_centered`: `np.matrix` is a subclass of `ndarray`, sparse matrices are not (for sampling.py:314-318) -/
def storedArg (a : Fmt × Mat F) : NdArg :=
  if a.1 = .sparse then .other (some (a.2.nrows, a.2.ncols)) else .arr a.2

/-- `metric_func[metric]` (sampling.py:314-318) -/
noncomputable def metricFunc (metric : String) : Except PyErr (Fmt × Mat F → Fmt × Mat F → Except PyErr F) :=
  if metric = "corr" then .ok correlationKm
  else if metric = "align" then .ok fun a b => alignmentCenteredAny (storedArg a) (storedArg b) (.value 0) false
  else .error .keyError

/-- the index pairs of the double loop (sampling.py:320-322) -/
def loopPairs (n : Nat) : List (Nat × Nat) := (List.range n).flatMap fun i => ((List.range n).drop i).map fun j => (i, j)

/-- `A[i, j] = v` (for sampling.py:320-324) -/
def setEntry (A : Nat → Nat → F) (i j : Nat) (v : F) : Nat → Nat → F := fun a b => if a = i ∧ b = j then v else A a b

/-- the double loop of `pairwise_similarity` (sampling.py:320-324) -/
noncomputable def pairLoop {K X : Type} (env : Env K X F) (est : Fmt × Mat F → Fmt × Mat F → Except PyErr F) (members : List Nat) :
    List (Nat × Nat) → (Nat → Nat → F) → PyM (Heap K X) (Nat → Nat → F)
  | [], acc => pure acc
  | p :: l, acc => do
    let A ← Heap.full env (members.getD p.1 0)
    let B ← Heap.full env (members.getD p.2 0)
    let v ← lift (est A B)
    pairLoop env est members l (setEntry acc p.1 p.2 v)

/-- `pairwise_similarity` (sampling.py:292-332): the lower triangle is copied from the transpose -/
noncomputable def pairwiseSimilarity {K X : Type} (env : Env K X F) (t : KSet) (metric : String) : PyM (Heap K X) (Mat F) := do
  let est ← lift (metricFunc metric)
  let acc ← pairLoop env est t.members (loopPairs t.members.length) fun _ _ => .nan
  pure ⟨t.members.length, t.members.length, fun i j => if j ≤ i then acc j i else acc i j⟩

end KMethods
