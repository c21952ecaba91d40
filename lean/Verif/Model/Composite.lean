import Verif.Model.KernelSet
/-!
# Composite kernels (`kernelmethods/base.py:1367-1575`) and `linear_combination` (`kernelmethods/operations.py:389-432`)
-/
namespace KMethods
open PyM

/-- `np.full((n, m), v)` (for base.py:1460-1471, 1571-1573) -/
def Mat.const (n m : Nat) (v : F) : Mat F := ⟨n, m, fun _ _ => v⟩

/-- `f(A)` element by element (for base.py:1382-1397, 1451-1454, 1460-1471, 1490-1493, 1519-1522, 1552-1565) -/
def Mat.map (f : F → F) (A : Mat F) : Mat F := ⟨A.nrows, A.ncols, fun i j => f (A.get i j)⟩

/-- matrix product; `ValueError` on a mismatch of dimensions. (Sparse products skip structural zeros; the difference from the dense product, seen only
with non-finite entries, is not modelled.) (for base.py:1460-1471) -/
noncomputable def Mat.dot (A B : Mat F) : Except PyErr (Mat F) :=
  if h : A.ncols = B.nrows then .ok ⟨A.nrows, B.ncols, matmul A.get fun (k : Fin A.ncols) j => B.get (Fin.cast h k) j⟩
  else .error .valueError

/-- `acc + M` for `acc` an ndarray or `np.matrix` and `M` of any storage: element-wise with broadcasting. A sparse `M` does not broadcast: its
`__radd__` broadcasts the other operand to the shape of `M`, and the sum is a `np.matrix`. (for base.py:1460-1471, 1571-1573) -/
def addStored (acc M : Fmt × Mat F) : Except PyErr (Fmt × Mat F) :=
  if M.1 = .sparse then
    (Mat.zipBcast (· + ·) acc.2 M.2).bind fun S =>
      if S.nrows = M.2.nrows ∧ S.ncols = M.2.ncols then .ok (.npMatrix, S) else .error .valueError
  else (Mat.zipBcast (· + ·) acc.2 M.2).map fun S => (if acc.1 = .dense ∧ M.1 = .dense then .dense else .npMatrix, S)

/-- `acc * M` for `acc` an ndarray or `np.matrix`: element-wise with broadcasting for two ndarrays, the matrix product when one of them is a
`np.matrix` or sparse (for base.py:1460-1471) -/
noncomputable def mulStored (acc M : Fmt × Mat F) : Except PyErr (Fmt × Mat F) :=
  if acc.1 = .dense ∧ M.1 = .dense then (Mat.zipBcast (· * ·) acc.2 M.2).map fun S => (.dense, S)
  else (Mat.dot acc.2 M.2).map fun S => (if acc.1 = .npMatrix ∨ M.1 = .npMatrix then .npMatrix else .dense, S)

/-- `weight * M`: keeps the storage (for base.py:1469-1471, 1571-1573, operations.py:429-430) -/
def scaleStored (w : F) (M : Fmt × Mat F) : Fmt × Mat F := (M.1, M.2.map (w * ·))

/-- weights given by the caller: something without a length (a number, a generator), or a sequence or array, as converted by `np.asarray` (for base.py:1460-1467, 1560-1565) -/
inductive WeightsIn where
  | noLen
  | arr (a : NdArray F)

/-- `ensure_ndarray_1D(weights)`: the entries. Something without a length becomes a 0-d array: `ValueError`. (for base.py:1460-1467, 1560-1565) -/
def WeightsIn.to1D : WeightsIn → Except PyErr (List F)
  | .noLen => .error .valueError
  | .arr a => (ensureNdarray1D a).map (·.data)

/-- `len(weights)` (for base.py:1560-1565) -/
def WeightsIn.len : WeightsIn → Except PyErr Nat
  | .noLen => .error .typeError
  | .arr a => match a.shape with
    | [] => .error .typeError
    | n :: _ => .ok n

/-- `WeightedAverageKernel.__init__` (base.py:1560-1565), `linear_combination` (operations.py:412-417): check the number of weights -/
def WeightsIn.checked (w : WeightsIn) (size : Nat) : Except PyErr (List F) := do
  let n ← w.len
  if size = n then w.to1D else .error .valueError

/-- the four subclasses of `CompositeKernel` (for base.py:1394-1397) -/
inductive CompKind where
  | sum | product | average
  | weighted (weights : List F)

/-- instance attributes of a composite kernel (base.py:1394-1397), without the label `name`; `km` is the attribute `KM`. The set is referred to, not copied: it is part of
`CompSt`. -/
structure Comp where
  kind : CompKind
  numSamples : NumSamples
  isFitted : Bool
  km : Option (Fmt × Mat F)

/-- which class is constructed, with the `weights` argument of `WeightedAverageKernel` (for base.py:1382-1397, 1451-1454, 1490-1493, 1519-1522, 1552-1565) -/
inductive CompClass where
  | sum | product | average
  | weighted (weights : WeightsIn)

/-- the constructors (base.py:1382-1397, 1451-1454, 1490-1493, 1519-1522, 1552-1565); `none` is any object that is not a `KernelSet` -/
def mkComposite (cls : CompClass) : Option KSet → Except PyErr Comp
  | none => .error .typeError
  | some t =>
    if t.members.length < 2 then .error .valueError
    else if t.numSamples = .unset then .error .valueError
    else match cls with
      | .sum => .ok ⟨.sum, t.numSamples, false, none⟩
      | .product => .ok ⟨.product, t.numSamples, false, none⟩
      | .average => .ok ⟨.average, t.numSamples, false, none⟩
      | .weighted w => (w.checked t.members.length).map fun l => ⟨.weighted l, t.numSamples, false, none⟩

/-- a composite kernel, its set, and the heap (for base.py:1460-1471, 1571-1573) -/
structure CompSt (K X : Type) where
  heap : Heap K X
  set : KSet
  comp : Comp

/-- `np.zeros((num_samples, num_samples))`, `np.ones(...)`: `TypeError` when `num_samples` is a tuple or `None` (for base.py:1460-1471, 1571-1573) -/
def squareOf (v : F) : NumSamples → Except PyErr (Mat F)
  | .one n => .ok (.const n n v)
  | _ => .error .typeError

namespace CompSt
variable {K X α : Type}

/-- something is done with the set or its members (for base.py:1460-1471, 1571-1573) -/
def onSet (m : PyM (SetSt K X) α) : PyM (CompSt K X) α := fun s =>
  ((m ⟨s.heap, s.set⟩).1, ⟨(m ⟨s.heap, s.set⟩).2.heap, (m ⟨s.heap, s.set⟩).2.set, s.comp⟩)

/-- `self.KM = ...` (for base.py:1460-1471, 1571-1573) -/
def setKM (M : Fmt × Mat F) : PyM (CompSt K X) Unit := modify fun s => { s with comp := { s.comp with km := some M } }

/-- one step of the loops: `self.KM = f(self.KM, km.full)` (for base.py:1460-1471, 1571-1573) -/
noncomputable def step (env : Env K X F) (f : Fmt × Mat F → Fmt × Mat F → Except PyErr (Fmt × Mat F)) (r : Nat) : PyM (CompSt K X) Unit := do
  let acc ← getAttr (·.comp.km)
  let M ← onSet (SetSt.onHeap (Heap.full env r))
  let acc' ← lift (f acc M)
  setKM acc'

/-- start value and weighted sum (base.py:1469-1471, 1571-1573) -/
noncomputable def weightedSum (env : Env K X F) (weights : List F) : PyM (CompSt K X) Unit := do
  let s ← get
  let Z ← lift (squareOf 0 s.comp.numSamples)
  setKM (.dense, Z)
  forEach (weights.zip s.set.members) fun p => step env (fun acc M => addStored acc (scaleStored p.1 M)) p.2

/-- weights of `SumKernel.fit` (base.py:1460-1467): ones by default -/
def sumWeights (size : Nat) : Option WeightsIn → Except PyErr (List F)
  | none => .ok (List.replicate size 1)
  | some w => do
    let l ← w.to1D
    if l.length ≠ size then .error .valueError else .ok l

/-- the four `fit` methods up to the last line: `SumKernel` (base.py:1460-1471), `ProductKernel` (1499-1501), `AverageKernel` (1528-1533), `WeightedAverageKernel` (1571-1573). Only that
of `SumKernel` takes weights; for the others the argument is a `TypeError`. -/
noncomputable def fitBody (env : Env K X F) (w : Option WeightsIn) (s : CompSt K X) : PyM (CompSt K X) Unit :=
  match s.comp.kind with
  | .sum => do
    let l ← lift (sumWeights s.set.members.length w)
    weightedSum env l
  | .product => do
    raiseIf w.isSome .typeError
    let Z ← lift (squareOf 1 s.comp.numSamples)
    setKM (.dense, Z)
    forEach s.set.members (step env mulStored)
  | .average => do
    raiseIf w.isSome .typeError
    let Z ← lift (squareOf 0 s.comp.numSamples)
    setKM (.dense, Z)
    forEach s.set.members (step env addStored)
    let acc ← getAttr (·.comp.km)
    setKM (acc.1, acc.2.map (· / .real s.set.members.length))
  | .weighted l => do
    raiseIf w.isSome .typeError
    weightedSum env l

/-- `fit` (base.py:1457-1473, 1496-1503, 1525-1535, 1568-1575) -/
noncomputable def fit (env : Env K X F) (w : Option WeightsIn) : PyM (CompSt K X) Unit := do
  let s ← get
  fitBody env w s
  modify fun s => { s with comp := { s.comp with isFitted := true } }

/-- `composite_KM`, `full` (base.py:1406-1424) -/
def compositeKM : PyM (CompSt K X) (Fmt × Mat F) := do
  let s ← get
  raiseIf (!s.comp.isFitted) .valueError
  getAttr (·.comp.km)

end CompSt

/-- `np.zeros(num_samples)`: a 1-D array, here a single row (it only takes part in broadcasting), or for two samples a 2-D array. `np.zeros(None)` depends on the
version of numpy (a 0-d array, deprecated, then `TypeError`); here `TypeError`. (for operations.py:389-432) -/
def zerosOf : NumSamples → Except PyErr (Mat F)
  | .one n => .ok (.const 1 n 0)
  | .two n m => .ok (.const n m 0)
  | .unset => .error .typeError

open Classical in
/-- the weights used by `linear_combination` (operations.py:412-423) -/
noncomputable def combWeights (size : Nat) (w : WeightsIn) (norm : Bool) : Except PyErr (List F) := do
  let l ← w.checked size
  if norm then
    let denom := l.foldl (· + ·) 0
    if F.isClose denom 0 then .error .runtimeError else pure (l.map (· / denom))
  else pure l

/-- the loop of `linear_combination` (operations.py:429-430) -/
noncomputable def combLoop {K X : Type} (env : Env K X F) : List (F × Nat) → Fmt × Mat F → PyM (Heap K X) (Fmt × Mat F)
  | [], acc => pure acc
  | p :: l, acc => do
    let M ← Heap.full env p.2
    let acc' ← lift (addStored acc (scaleStored p.1 M))
    combLoop env l acc'

/-- `linear_combination` (operations.py:389-432) -/
noncomputable def linearCombination {K X : Type} (env : Env K X F) (t : KSet) (w : WeightsIn) (norm : Bool) : PyM (Heap K X) (Fmt × Mat F) := do
  let l ← lift (combWeights t.members.length w norm)
  let Z ← lift (zerosOf t.numSamples)
  combLoop env (l.zip t.members) (.dense, Z)

end KMethods
