import Verif.Model.Slice
import Verif.Model.Utils
/-!
# `KernelMatrix` (`kernelmethods/base.py:149-793`) as a state machine

Generic in the kernel identifiers `K`, the row type `X` of samples and the value type `V`; the
numeric operations of `operations.py` are supplied in `Ops V` (instantiated over `F` in
`Verif/Model/Operations.lean`).
-/
namespace KMethods

/-- A matrix value: shape and entries. (for base.py:204-216, 251-283, 356-377, 504-507, 755-758) -/
structure Mat (V : Type) where
  nrows : Nat
  ncols : Nat
  get : Fin nrows → Fin ncols → V

/-- snapshot of a cell function as an `n × m` matrix (for base.py:688-695) -/
def Mat.ofCells {V : Type} (n m : Nat) (c : Nat → Nat → V) : Mat V := ⟨n, m, fun i j => c i j⟩

/-- Numeric operations used by `KernelMatrix`: fill values and the functions imported from `operations.py`. (for base.py:145) -/
structure Ops (V : Type) where
  /-- `np.nan`, the fill value of the dense matrix (base.py:716) -/
  nan : V
  /-- value of unset entries of a `lil_matrix` (base.py:713) -/
  zero : V
  /-- `normalize_km(KM, method)` (operations.py:144) -/
  normalize : Mat V → String → Except PyErr (Mat V)
  /-- `normalize_km_2sample(K_XY, diag_XX, diag_YY)` (operations.py:207) with the default method -/
  normalize2 : Mat V → List V → List V → Except PyErr (Mat V)
  /-- `center_km(KM)` (operations.py:104) on an ndarray -/
  center : Mat V → Except PyErr (Mat V)
  /-- `frobenius_norm(A)` (operations.py:295) on an ndarray -/
  frob : Mat V → Except PyErr V
  /-- `frobenius_norm(A)` when `A` is a scipy `lil_matrix` (there `*` is the matrix product) -/
  frobSparse : Mat V → Except PyErr V
  /-- `contains_nan_inf(matrix)` (utils.py:165), also for sparse matrices -/
  nonFinite : Mat V → Bool

/-- The world outside the object: what kernel functions return, and when they raise.
`fails t k x y` says whether the `t`-th kernel call overall raises; so failures may be permanent
(independent of `t`) or transient. `fmtRaises k` says whether `'{}'.format(k)` raises `TypeError`, as it does for a
`KernelFromCallable`, whose `__format__` is the one-argument `__str__` (base.py:145), and for no other kernel function of the
package (base.py:76). -/
structure Env (K X V : Type) where
  kval : K → X → X → V
  fails : Nat → K → X → X → Bool
  ops : Ops V
  fmtRaises : K → Bool

/-- A 2-D sample array: `sample[i, :]` is `row i`. (for base.py:204-216, 251-283, 356-377) -/
structure Arr2 (X : Type) where
  nrows : Nat
  ncols : Nat
  row : Nat → X

/-- An argument passed as sample: an object without `.dtype`, or an array of some shape. (for base.py:219-283) -/
inductive SampleIn (X : Type) where
  | noDtype
  | arr (shape : List Nat) (row : Nat → X)

/-- `ensure_ndarray_2D(sample, ensure_dtype=sample.dtype)` (base.py:251, 266): `AttributeError` without `.dtype`,
`ValueError` unless 2-D after squeezing. -/
def SampleIn.to2D {X : Type} : SampleIn X → Except PyErr (Arr2 X)
  | .noDtype => .error .attributeError
  | .arr shape row => do
    let (n, m) ← ensureShape2D shape
    pure ⟨n, m, row⟩

/-- value of `num_samples`: `None`, an int, or a pair (base.py:209, 258, 273) -/
inductive NumSamples where
  | unset | one (n : Nat) | two (n m : Nat)
  deriving DecidableEq, Repr

/-- storage of a matrix object: ndarray, scipy `lil_matrix`, or `np.matrix` (result of `.todense()`) (for base.py:204-216, 251-283, 356-377, 484-501) -/
inductive Fmt where
  | dense | sparse | npMatrix
  deriving DecidableEq, Repr

/-- The mutable matrix `self._full_km`. Cells outside the shape are meaningless. (for base.py:204-216, 251-283, 356-377) -/
structure Full (V : Type) where
  fmt : Fmt
  cell : Nat → Nat → V

/-- Instance attributes of `KernelMatrix` (base.py:204-216, 251-283, 356-377). `Option` fields are
attributes that may not exist. Names of samples (labels used for printing only) are dropped.
`succ` and `clock` are ghost fields: the index pairs on which the kernel has been evaluated
successfully since the last `_reset`, and the number of kernel calls so far. -/
structure KMState (K X V : Type) where
  kernel : K
  keepNormed : Bool
  sample : Option (Arr2 X)
  sampleTwo : Option (Arr2 X)
  numSamples : NumSamples
  shape : Option (Nat × Nat)
  twoSamples : Option Bool
  populated : Bool
  lowerFilled : Bool
  isCentered : Bool
  isNormed : Bool
  fullKm : Option (Full V)
  normedKm : Option (Fmt × Mat V)
  centeredKm : Option (Fmt × Mat V)
  frobNorm : Option V
  cache : List ((Nat × Nat) × V)
  attrs : List (String × String)
  numKerEval : Nat
  succ : List (Nat × Nat)
  clock : Nat

namespace KMState
variable {K X V : Type}

/-- `KernelMatrix._reset` (base.py:356-377). `_centered` is not deleted, only its flag is cleared. -/
def reset (s : KMState K X V) : KMState K X V :=
  { s with
    fullKm := none, normedKm := none, frobNorm := none
    populated := false, lowerFilled := false, isCentered := false, isNormed := false
    cache := [], attrs := [], numKerEval := 0, succ := [] }

/-- `KernelMatrix.__init__` (base.py:176-216) after its type checks (`kernel` is a `BaseKernelFunction`,
`normalized` a `bool`: enforced by the types here). -/
def init (kernel : K) (normalized : Bool) (clock : Nat := 0) : KMState K X V :=
  reset
    { kernel := kernel, keepNormed := normalized
      sample := none, sampleTwo := none, numSamples := .unset, shape := none, twoSamples := none
      populated := false, lowerFilled := false, isCentered := false, isNormed := false
      fullKm := none, normedKm := none, centeredKm := none, frobNorm := none
      cache := [], attrs := [], numKerEval := 0, succ := [], clock := clock }

open PyM

/-- `KernelMatrix.attach_to` (base.py:219-283). `self._sample` (and `self._sample_two`) are
assigned before the checks on the second sample. -/
def attach (one : SampleIn X) (two : Option (SampleIn X)) : PyM (KMState K X V) Unit := do
  let a ← lift one.to2D
  modify fun s => { s with sample := some a }
  match two with
  | none =>
    modify fun s => { s with
      sampleTwo := some a
      numSamples := .one a.nrows
      shape := some (a.nrows, a.nrows)
      twoSamples := some false }
    modify reset
  | some t =>
    let b ← lift t.to2D
    modify fun s => { s with sampleTwo := some b }
    raiseIf (a.ncols != b.ncols) .valueError
    modify fun s => { s with
      numSamples := .two a.nrows b.nrows
      shape := some (a.nrows, b.nrows)
      twoSamples := some true }
    modify reset

/-- dict assignment `d[k] = v` (for base.py:286-305) -/
def assocSet (k v : String) : List (String × String) → List (String × String)
  | [] => [(k, v)]
  | (k', v') :: r => if k' = k then (k, v) :: r else (k', v') :: assocSet k v r

/-- `set_attr` (base.py:286-305). Attribute values are opaque tokens (`String`). -/
def setAttr (name value : String) : PyM (KMState K X V) Unit :=
  modify fun s => { s with attrs := assocSet name value s.attrs }

/-- `get_attr` (base.py:308-327) -/
def getAttrVal (name : String) (default : String) : PyM (KMState K X V) String := do
  let s ← get
  pure ((s.attrs.lookup name).getD default)

/-- `size` / `__len__` (base.py:380-401) -/
def size : PyM (KMState K X V) Nat := do
  let two ← getAttr (·.twoSamples)
  let s ← get
  if !two then
    match s.numSamples with
    | .one n => pure (n ^ 2)
    | _ => throw .typeError
  else
    match s.numSamples with
    | .two n m => pure (n * m)
    | .one n => pure n
    | .unset => throw .typeError

/-- `_sample[i, :]`: `TypeError` on `None`, `IndexError` out of range (for base.py:573-580) -/
def rowAt (f : KMState K X V → Option (Arr2 X)) (missing : PyErr) (i : Nat) :
    PyM (KMState K X V) X := fun s =>
  match f s with
  | none => (.error missing, s)
  | some a => if i < a.nrows then (.ok (a.row i), s) else (.error .indexError, s)

/-- A call of the kernel function on rows `x`, `y` at positions `p`: consult the fault oracle at the
current clock, advance the clock; a completed call is recorded in the ghost log `succ`. (for base.py:573-580) -/
def callKernel (env : Env K X V) (p : Nat × Nat) (x y : X) : PyM (KMState K X V) V := fun s =>
  if env.fails s.clock s.kernel x y then (.error .kernelFault, { s with clock := s.clock + 1 })
  else (.ok (env.kval s.kernel x y), { s with clock := s.clock + 1, succ := p :: s.succ })

/-- look up or compute the entry stored under the key `p` (base.py:573-580) -/
def evalAt (env : Env K X V) (p : Nat × Nat) : PyM (KMState K X V) V := do
  let s ← get
  match s.cache.lookup p with
  | some v => pure v
  | none => do
    let x ← rowAt (·.sample) .typeError p.1
    let y ← rowAt (·.sampleTwo) .attributeError p.2
    let v ← callKernel env p x y
    modify fun s => { s with
      cache := (p, v) :: s.cache
      numKerEval := s.numKerEval + 1 }
    pure v

/-- `_eval_kernel` (base.py:563-580): indices are swapped when the first exceeds the second and the
object is attached to a single sample (base.py:568-569). -/
def evalKernel (env : Env K X V) (idxOne idxTwo : Nat) : PyM (KMState K X V) V :=
  if idxOne > idxTwo then do
    let two ← getAttr (·.twoSamples)
    if !two then evalAt env (idxTwo, idxOne) else evalAt env (idxOne, idxTwo)
  else evalAt env (idxOne, idxTwo)

/-- `self._full_km[i, j] = v` (for base.py:725-730, 744-748) -/
def setCell (i j : Nat) (v : V) : PyM (KMState K X V) Unit :=
  modify fun s => { s with
    fullKm := s.fullKm.map fun f =>
      { f with cell := fun a b => if a = i ∧ b = j then v else f.cell a b } }

/-- index pairs of the nested loop base.py:725-726: rows `i`, columns `j` from `i` on -/
def upperPairs (n m : Nat) : List (Nat × Nat) :=
  (List.range n).flatMap fun i => (List.range' i (m - i)).map fun j => (i, j)

/-- `zip(*np.tril_indices(n, m=m, k=-1))` (base.py:738, 744): strictly lower triangle, row by row -/
def lowerPairs (n m : Nat) : List (Nat × Nat) :=
  (List.range n).flatMap fun i => (List.range (min i m)).map fun j => (i, j)

/-- `self._full_km[lt] = self._full_km.T[lt]` (base.py:741): right-hand side is read before writing. -/
def symmetrize : PyM (KMState K X V) Unit :=
  modify fun s => { s with
    fullKm := s.fullKm.map fun f =>
      { f with cell := fun a b => if b < a then f.cell b a else f.cell a b } }

/-- `self._full_km[i, j] = self._eval_kernel(i, j)` for `i, j` in the given pairs, inside a
`try/except: raise RuntimeError` (base.py:725-730, 744-748) -/
def fillCells (env : Env K X V) (l : List (Nat × Nat)) : PyM (KMState K X V) Unit :=
  forEach l fun p => do
    let v ← evalKernel env p.1 p.2
    setCell p.1 p.2 v

/-- first block of `_populate_fully` (base.py:711-733): allocate and fill the upper triangle, unless
already done or a `_full_km` attribute exists -/
def populateUpper (env : Env K X V) (denseFmt : Bool) : PyM (KMState K X V) Unit := do
  let s ← get
  when (!s.populated && s.fullKm.isNone) do
    let sh ← getAttr (·.shape)
    modify fun s => { s with
      fullKm := some (if !denseFmt then ⟨.sparse, fun _ _ => env.ops.zero⟩
                      else ⟨.dense, fun _ _ => env.ops.nan⟩) }
    catchAll .runtimeError (fillCells env (upperPairs sh.1 sh.2))
    modify fun s => { s with populated := true }

/-- second block of `_populate_fully` (base.py:734-750): fill the lower triangle -/
def populateLower (env : Env K X V) (fillLowerTri : Bool) : PyM (KMState K X V) Unit := do
  let s ← get
  when (fillLowerTri && !s.lowerFilled) do
    catchAll .runtimeError do
      let sh ← getAttr (·.shape)
      let two ← getAttr (·.twoSamples)
      if !two && sh.1 == sh.2 then symmetrize
      else fillCells env (lowerPairs sh.1 sh.2)
    modify fun s => { s with lowerFilled := true }

/-- third block of `_populate_fully` (base.py:752-753) -/
def densify (denseFmt : Bool) : PyM (KMState K X V) Unit := do
  let f ← getAttr (·.fullKm)
  when (f.fmt == .sparse && denseFmt) <|
    modify fun s => { s with fullKm := s.fullKm.map fun f => { f with fmt := .npMatrix } }

/-- the current `_full_km` as a matrix value (for base.py:484-501, 698-760) -/
def fullMat : PyM (KMState K X V) (Fmt × Mat V) := do
  let f ← getAttr (·.fullKm)
  let sh ← getAttr (·.shape)
  pure (f.fmt, Mat.ofCells sh.1 sh.2 f.cell)

/-- `if contains_nan_inf(M): warn('... {}'.format(self.kernel), KernelMethodsWarning)` (base.py:504-507, 755-758). The warning
itself has no effect on the object; the order of the two side-effect-free tests is immaterial. -/
def warnNonFinite (env : Env K X V) (M : Mat V) : PyM (KMState K X V) Unit := do
  let s ← get
  raiseIf (env.fmtRaises s.kernel && env.ops.nonFinite M) .typeError

/-- `_populate_fully` (base.py:698-760). The returned value is always `self._full_km`; callers read it from the state. -/
def populateFully (env : Env K X V) (denseFmt fillLowerTri : Bool) : PyM (KMState K X V) Unit := do
  populateUpper env denseFmt
  populateLower env fillLowerTri
  densify denseFmt
  let A ← fullMat
  warnNonFinite env A.2

/-- `if not self._populated_fully: self._populate_fully(dense_fmt=True, fill_lower_tri=True)`, the
guard used by `full`, `center`, `normalize`, `frob_norm` (base.py:412, 455, 481, 527) -/
def ensurePopulated (env : Env K X V) : PyM (KMState K X V) Unit := do
  let s ← get
  when (!s.populated) (populateFully env true true)

/-- storage format of `D @ A @ D` / `Ic.dot(A).dot(Ic)`: `np.matrix` is contagious, sparse becomes ndarray (for base.py:436-459, 484-501) -/
def productFmt : Fmt → Fmt
  | .npMatrix => .npMatrix
  | _ => .dense

/-- `diagonal` (base.py:536-550) -/
def diagonal (env : Env K X V) : PyM (KMState K X V) (List V) := do
  let two ← getAttr (·.twoSamples)
  if two then throw .kmAccess
  else do
    let sh ← getAttr (·.shape)
    mapEach (List.range sh.1) fun i => evalKernel env i i

/-- the state of `KM = KernelMatrix(kernel, normalized=False); KM.attach_to(sample_one=a)` for an
already checked 2-D sample `a` (for base.py:491-501) -/
def freshOn (kernel : K) (a : Arr2 X) (clock : Nat) : KMState K X V :=
  { (init kernel false clock : KMState K X V) with
    sample := some a, sampleTwo := some a, numSamples := .one a.nrows
    shape := some (a.nrows, a.nrows), twoSamples := some false }

/-- `KM_XX = KernelMatrix(self.kernel, normalized=False); KM_XX.attach_to(sample_one=...);
KM_XX.diagonal()` (base.py:491-501): a fresh object sharing only the clock (kernel calls). -/
def freshDiagonal (env : Env K X V) (f : KMState K X V → Option (Arr2 X)) :
    PyM (KMState K X V) (List V) := do
  let a ← getAttr f
  let s ← get
  let r := diagonal env (freshOn s.kernel a s.clock)
  modify fun s => { s with clock := r.2.clock }
  lift r.1

/-- the computation of `self._normed_km` (base.py:484-501). In the two-sample case `method` is ignored. -/
def computeNormed (env : Env K X V) (method : String) : PyM (KMState K X V) (Fmt × Mat V) := do
  let two ← getAttr (·.twoSamples)
  if !two then do
    let A ← fullMat
    let N ← lift (env.ops.normalize A.2 method)
    pure (productFmt A.1, N)
  else do
    let dx ← freshDiagonal env (·.sample)
    let dy ← freshDiagonal env (·.sampleTwo)
    let A ← fullMat
    let N ← lift (env.ops.normalize2 A.2 dx dy)
    pure (productFmt A.1, N)

/-- `normalize` (base.py:462-507) -/
def normalize (env : Env K X V) (method : String) : PyM (KMState K X V) Unit := do
  ensurePopulated env
  let s ← get
  when (!s.isNormed) do
    let N ← computeNormed env method
    modify fun s => { s with normedKm := some N, isNormed := true }
    warnNonFinite env N.2

/-- `if not self._is_normed: self.normalize()`, then `self._normed_km` (base.py:415-418, 427-431, 557-560) -/
def normedKmVal (env : Env K X V) : PyM (KMState K X V) (Fmt × Mat V) := do
  let s ← get
  when (!s.isNormed) (normalize env "cosine")
  getAttr (·.normedKm)

/-- `full` (base.py:404-420) -/
def full (env : Env K X V) : PyM (KMState K X V) (Fmt × Mat V) := do
  let s ← get
  raiseIf s.sample.isNone .valueError
  ensurePopulated env
  if s.keepNormed then normedKmVal env
  else fullMat

/-- `full_sparse` (base.py:423-433) -/
def fullSparse (env : Env K X V) : PyM (KMState K X V) (Fmt × Mat V) := do
  let s ← get
  if s.keepNormed then normedKmVal env
  else do
    populateFully env false false
    fullMat

/-- `center` (base.py:436-459); `center_km` rejects anything that is not an ndarray. -/
def center (env : Env K X V) : PyM (KMState K X V) Unit := do
  let two ← getAttr (·.twoSamples)
  raiseIf two .notImplemented
  ensurePopulated env
  let A ← fullMat
  raiseIf (A.1 == .sparse) .valueError
  let C ← lift (env.ops.center A.2)
  modify fun s => { s with centeredKm := some (productFmt A.1, C), isCentered := true }

/-- `centered` (base.py:510-520) -/
def centered (env : Env K X V) : PyM (KMState K X V) (Fmt × Mat V) := do
  let two ← getAttr (·.twoSamples)
  raiseIf two .kmAccess
  let s ← get
  when (!s.isCentered) (center env)
  getAttr (·.centeredKm)

/-- `frob_norm` (base.py:523-533) -/
def frobNormVal (env : Env K X V) : PyM (KMState K X V) V := do
  ensurePopulated env
  let s ← get
  when s.frobNorm.isNone do
    let A ← fullMat
    let v ← lift (if A.1 == .sparse then env.ops.frobSparse A.2 else env.ops.frob A.2)
    modify fun s => { s with frobNorm := some v }
  getAttr (·.frobNorm)

end KMState

/-- An element of an iterable used as index: an integer (`np.integer`/int) or anything else (bool,
float, tuple, ...). (for base.py:645-659, 661-664) -/
inductive IdxItem where
  | int (i : Int) | other
  deriving DecidableEq, Repr

/-- Index object for one dimension (base.py:645-659): an `int`/`np.int64`, a slice, a non-str
iterable, or anything else (str, None, float, bool, other numpy ints). -/
inductive Idx where
  | int (i : Int)
  | slice (start stop step : Option Int)
  | iter (items : List IdxItem)
  | other
  deriving DecidableEq, Repr

/-- Index object given to `km[...]` (base.py:608-616): an int, an iterable of length 2, or anything else
(iterables of other lengths, str, None, slice, float). Iterables without `len()` and unordered ones (sets, dicts) are not modelled. -/
inductive Key where
  | linear (k : Int)
  | pair (a b : Idx)
  | other
  deriving DecidableEq, Repr

/-- `self.shape[dim]` (for base.py:645-659, 661-685) -/
def dimSize (shape : Option (Nat × Nat)) (dim : Bool) : Except PyErr Nat :=
  match shape with
  | none => .error .attributeError
  | some (n, m) => .ok (if dim then m else n)

/-- insert into a strictly increasing list unless present (for base.py:680, 1022) -/
def insertSorted (i : Nat) : List Nat → List Nat
  | [] => [i]
  | j :: l => if i < j then i :: j :: l else if i = j then j :: l else j :: insertSorted i l

/-- `sorted(list(set(indices)))` on naturals (base.py:680, 1022): the distinct elements in increasing order -/
def sortedSet (l : List Nat) : List Nat := l.foldr insertSorted []

/-- integers of an index list; `none` if some element is not an integer (base.py:661-664) -/
def idxInts : List IdxItem → Option (List Int)
  | [] => some []
  | .int i :: r => (idxInts r).map (i :: ·)
  | .other :: _ => none

/-- first part of `_get_indices_in_sample` (base.py:645-659): the list of requested indices -/
def idxItems (shape : Option (Nat × Nat)) (dim : Bool) : Idx → Except PyErr (List IdxItem)
  | .int i => .ok [IdxItem.int i]
  | .slice a b c => do
    let n ← dimSize shape dim
    let l ← sliceIndices a b c n
    pure (l.map IdxItem.int)
  | .iter l => .ok l
  | .other => do
    let _ ← dimSize shape dim
    .error .kmAccess

/-- second part of `_get_indices_in_sample` (base.py:661-685): type and range checks, deduplication.
The empty list passes the range check vacuously and is then rejected. -/
def checkIndices (shape : Option (Nat × Nat)) (dim : Bool) (items : List IdxItem) :
    Except PyErr (List Nat × Bool) :=
  match idxInts items with
  | none => .error .kmAccess
  | some [] => .error .kmAccess
  | some (i :: is) => do
    let n ← dimSize shape dim
    if (i :: is).any fun i => decide (i ≥ (n : Int)) || decide (i < 0) then
      .error .kmAccess
    else
      let l := sortedSet ((i :: is).map Int.toNat)
      pure (l, l.length == n)

/-- `_get_indices_in_sample` (base.py:632-685); `dim = false` for rows, `true` for columns. -/
def getIndicesInSample (shape : Option (Nat × Nat)) (idx : Idx) (dim : Bool) :
    Except PyErr (List Nat × Bool) := do
  let items ← idxItems shape dim idx
  checkIndices shape dim items

namespace KMState
variable {K X V : Type}
open PyM

/-- `np.unravel_index(k, shape)`: `ValueError` when out of bounds (integers of more than 64 bits raise `TypeError` instead, which is not modelled) (for base.py:608-616) -/
def unravel (k : Int) (n m : Nat) : Except PyErr (Nat × Nat) :=
  if k < 0 ∨ k ≥ ((n * m : Nat) : Int) then .error .valueError
  else .ok (k.toNat / m, k.toNat % m)

/-- `_compute_for_index_combinations` (base.py:688-695) -/
def computeForIndexCombinations (env : Env K X V) (one two : List Nat) :
    PyM (KMState K X V) (Fmt × Mat V) := do
  let vs ← mapEach (one.flatMap fun i => two.map fun j => (i, j)) fun p => evalKernel env p.1 p.2
  pure (.dense, Mat.ofCells one.length two.length fun a b =>
    vs.getD (a * two.length + b) env.ops.nan)

/-- interpretation of the object between the brackets (base.py:608-616) -/
def keyPair : Key → PyM (KMState K X V) (Idx × Idx)
  | .linear k => do
    let sh ← getAttr (·.shape)
    let q ← lift (unravel k sh.1 sh.2)
    pure (Idx.int q.1, Idx.int q.2)
  | .pair a b => pure (a, b)
  | .other => throw .kmAccess

/-- `__getitem__` (base.py:597-629) -/
def getItem (env : Env K X V) (key : Key) : PyM (KMState K X V) (Fmt × Mat V) := do
  let q ← keyPair key
  let s ← get
  let one ← lift (getIndicesInSample s.shape q.1 false)
  let two ← lift (getIndicesInSample s.shape q.2 true)
  if one.2 && two.2 then do
    populateFully env false true
    fullMat
  else
    computeForIndexCombinations env one.1 two.1

end KMState

/-- Public operations on a `KernelMatrix`. (for base.py:219-760) -/
inductive KMOp (X : Type) where
  | attach (one : SampleIn X) (two : Option (SampleIn X))
  | setAttr (name value : String)
  | getAttr (name default : String)
  | attributes
  | numSamples
  | shape
  | size
  | full
  | fullSparse
  | center
  | centered
  | normalize (method : String)
  | normedKm
  | frobNorm
  | diagonal
  | getItem (key : Key)

/-- Returned values of the operations. (for base.py:219-760) -/
inductive KMOut (V : Type) where
  | none
  | str (v : String)
  | attrs (l : List (String × String))
  | num (n : NumSamples)
  | shape (n m : Nat)
  | nat (n : Nat)
  | mat (fmt : Fmt) (A : Mat V)
  | vec (l : List V)
  | val (v : V)

namespace KMState
variable {K X V : Type}
open PyM

/-- One public call. (for base.py:219-760) -/
def exec (env : Env K X V) : KMOp X → PyM (KMState K X V) (KMOut V)
  | .attach one two => do attach one two; pure .none
  | .setAttr n v => do setAttr n v; pure .none
  | .getAttr n d => do let v ← getAttrVal n d; pure (.str v)
  | .attributes => do let s ← get; pure (.attrs s.attrs)
  | .numSamples => do let s ← get; pure (.num s.numSamples)
  | .shape => do let sh ← PyM.getAttr (fun s => s.shape); pure (.shape sh.1 sh.2)
  | .size => do let n ← size; pure (.nat n)
  | .full => do let A ← full env; pure (.mat A.1 A.2)
  | .fullSparse => do let A ← fullSparse env; pure (.mat A.1 A.2)
  | .center => do center env; pure .none
  | .centered => do let A ← centered env; pure (.mat A.1 A.2)
  | .normalize m => do normalize env m; pure .none
  | .normedKm => do let A ← normedKmVal env; pure (.mat A.1 A.2)
  | .frobNorm => do let v ← frobNormVal env; pure (.val v)
  | .diagonal => do let l ← diagonal env; pure (.vec l)
  | .getItem k => do let A ← getItem env k; pure (.mat A.1 A.2)

/-- A history of public calls; exceptions are caught by the caller, who continues. (for base.py:219-760) -/
def run (env : Env K X V) (ops : List (KMOp X)) (s : KMState K X V) : KMState K X V :=
  ops.foldl (fun s op => (exec env op s).2) s

end KMState
end KMethods
