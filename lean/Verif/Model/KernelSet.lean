import Verif.Model.Derived
/-!
# `KernelSet` (`kernelmethods/base.py:1042-1364`)

A set holds references to kernel matrix objects, which may be shared between sets and which live on a heap.
-/
namespace KMethods
open PyM

/-- objects that can be members of a set: `KernelMatrix` and `KernelMatrixPrecomputed` (for base.py:1123-1149, 1200-1222) -/
inductive Obj (K X : Type) where
  | km (s : KMState K X F)
  | pre (p : Precomputed)

/-- objects by reference; `next` is the next unused reference (for base.py:1123-1149, 1200-1222) -/
structure Heap (K X : Type) where
  objs : Nat → Option (Obj K X)
  next : Nat

namespace Heap
variable {K X α : Type}

/-- allocation of a new object (for base.py:1123-1149) -/
def alloc (o : Obj K X) : PyM (Heap K X) Nat := fun h =>
  (.ok h.next, { objs := Function.update h.objs h.next (some o), next := h.next + 1 })

/-- calling a method of `KernelMatrix` on the object `r`; other objects do not have it: `AttributeError`. (References are never dangling
in Python; here they behave like an object without attributes.) (for base.py:1200-1222, 1261-1292) -/
def call (r : Nat) (m : PyM (KMState K X F) α) : PyM (Heap K X) α := fun h =>
  match h.objs r with
  | some (.km s) => ((m s).1, { h with objs := Function.update h.objs r (some (.km (m s).2)) })
  | _ => (.error .attributeError, h)

/-- `obj.num_samples` (for base.py:1074-1088, 1136-1149) -/
def numSamples (h : Heap K X) (r : Nat) : Except PyErr NumSamples :=
  match h.objs r with
  | some (.km s) => .ok s.numSamples
  | some (.pre p) => .ok (.one p.numSamples)
  | none => .error .attributeError

/-- `obj.full` (for base.py:404-420, 835-840, 939-948) -/
def full (env : Env K X F) (r : Nat) : PyM (Heap K X) (Fmt × Mat F) := fun h =>
  match h.objs r with
  | some (.pre p) => (.ok (.dense, p.full), h)
  | _ => call r (KMState.full env) h

end Heap

/-- instance attributes of `KernelSet` (base.py:1074-1088). The attributes `name` (a label) and `sample` (assigned by `attach_to` and never
read) are dropped. -/
structure KSet where
  members : List Nat
  numSamples : NumSamples
  isInit : Bool
  deriving DecidableEq

/-- a set together with the heap (for base.py:1136-1149, 1332) -/
structure SetSt (K X : Type) where
  heap : Heap K X
  set : KSet

/-- argument of `append` (base.py:1123): an existing `KernelMatrix` or `KernelMatrixPrecomputed`; a `BaseKernelFunction`; or anything else, which is
passed to `KernelMatrixPrecomputed` -/
inductive AppendArg where
  | ref (r : Nat)
  | kernelFunc
  | other (x : PreIn)

/-- index given to `ks[...]` (base.py:1152): an integer, a non-empty list of integers (`TypeError` in the comparison with 0), or anything else -/
inductive SetIdx where
  | int (i : Int)
  | intList
  | other
  deriving DecidableEq

/-- indices given to `take`, `get_kernel_funcs` (base.py:1225-1238), after conversion to an int64 array: a list of integers, or the exception
raised by the conversion -/
inductive IndicesArg where
  | ints (l : List Int)
  | bad (e : PyErr)

/-- the argument of `KernelSet.attach_to`: an object without `.dtype` and `.shape` (such as a list), which may or may not be convertible to a 2-D
numeric array; or an array, with numeric (or convertible) dtype or not (for base.py:1261-1292) -/
inductive SetSample (X : Type) where
  | noDtype (convertible : Bool)
  | arr (numeric : Bool) (shape : List Nat) (row : Nat → X)

/-- the same object passed to `KernelMatrix.attach_to` (for base.py:1261-1292) -/
def SetSample.toSampleIn {X : Type} : SetSample X → SampleIn X
  | .noDtype _ => .noDtype
  | .arr _ shape row => .arr shape row

/-- `ensure_ndarray_2D(sample)` (which requires a numeric dtype), then `sample.shape[0]` of the original object (base.py:1281-1283) -/
def SetSample.check {X : Type} : SetSample X → Except PyErr Nat
  | .noDtype convertible => if convertible then .error .attributeError else .error .valueError
  | .arr numeric shape _ => do
    let sh ← ensureShape2D shape
    if numeric then pure sh.1 else .error .valueError

/-- argument `values` of `set_attr` (base.py:1332): a non-iterable or a string; a sequence; an iterable without length (`TypeError`) -/
inductive AttrVals where
  | scalar (v : String)
  | seq (l : List String)
  | unsized

namespace SetSt
variable {K X α : Type}

/-- a step on the heap (for base.py:1123-1149, 1200-1222) -/
def onHeap (m : PyM (Heap K X) α) : PyM (SetSt K X) α := fun s =>
  ((m s.heap).1, { s with heap := (m s.heap).2 })

/-- `self.x = ...` (for base.py:1136-1149, 1261-1292) -/
def modSet (f : KSet → KSet) : PyM (SetSt K X) Unit := modify fun s => { s with set := f s.set }

/-- `append` (base.py:1136-1149) for an object that is on the heap -/
def appendRef (r : Nat) : PyM (SetSt K X) Unit := do
  let s ← get
  let n ← lift (s.heap.numSamples r)
  when (!s.set.isInit && s.set.numSamples == .unset) (modSet fun t => { t with numSamples := n, isInit := true })
  let s ← get
  raiseIf (s.set.numSamples != n) .kmSetAddition
  modSet fun t => { t with members := t.members ++ [r] }

/-- `append` (base.py:1123-1149). A kernel function has no attribute `num_samples`. -/
noncomputable def append : AppendArg → PyM (SetSt K X) Unit
  | .ref r => appendRef r
  | .kernelFunc => throw .attributeError
  | .other x => do
    let p ← lift (mkPrecomputed x)
    let r ← onHeap (Heap.alloc (.pre p))
    appendRef r

/-- `len(ks)`, `ks.size` (base.py:1103-1120) -/
def size : PyM (SetSt K X) Nat := do
  let s ← get
  pure s.set.members.length

/-- `list(ks)` (base.py:1254-1258) -/
def iter : PyM (SetSt K X) (List Nat) := do
  let s ← get
  pure s.set.members

/-- `ks[index]` (base.py:1152-1166): a reference -/
def getItem : SetIdx → PyM (SetSt K X) Nat
  | .other => throw .valueError
  | .intList => throw .typeError
  | .int i => do
    let s ← get
    raiseIf (decide (i < 0) || decide (i ≥ (s.set.members.length : Int))) .indexError
    pure (s.set.members.getD i.toNat 0)

/-- `_check_indices` (base.py:1225-1238) on a set of `size` members -/
def checkIdx (size : Nat) : IndicesArg → Except PyErr (List Nat)
  | .bad e => .error e
  | .ints l =>
    if l.any fun i => decide (i < 0) || decide (i ≥ (size : Int)) then .error .indexError
    else .ok (l.map Int.toNat)

/-- a new empty set (base.py:1077-1088) -/
def _root_.KMethods.KSet.new (num : NumSamples) : KSet := ⟨[], num, num != .unset⟩

/-- `take` (base.py:1169-1197): the new set refers to the same objects -/
def take (idx : IndicesArg) : PyM (SetSt K X) KSet := do
  let s ← get
  let l ← lift (checkIdx s.set.members.length idx)
  let r := forEach (l.map fun i => s.set.members.getD i 0) appendRef ⟨s.heap, .new .unset⟩
  lift (r.1.map fun _ => r.2.set)

/-- `get_kernel_funcs` (base.py:1200-1222); the returned generator is consumed at once -/
def kernelFuncs (idx : IndicesArg) : PyM (SetSt K X) (List K) := do
  let s ← get
  let l ← lift (checkIdx s.set.members.length idx)
  mapEach (l.map fun i => s.set.members.getD i 0) fun r => onHeap (Heap.call r (do let t ← get; pure t.kernel))

/-- `attach_to` (base.py:1261-1292). The size check uses the original sample object. -/
def attach (sample : SetSample X) (attr : Option (String × String)) : PyM (SetSt K X) Unit := do
  let n ← lift sample.check
  let s ← get
  raiseIf (s.set.numSamples != .unset && s.set.numSamples != .one n) .valueError
  modSet fun t => { t with numSamples := .one n }
  forEach s.set.members fun r => onHeap (Heap.call r (KMState.attach sample.toSampleIn none))
  match attr with
  | none => pure ()
  | some a => forEach s.set.members fun r => onHeap (Heap.call r (KMState.setAttr a.1 a.2))

/-- `extend` (base.py:1295-1307) by an object that is not a `KernelSet` (`none`), or by a set with the given members and number of samples. The iteration over the other set takes its size at the
start, so a set may be extended by itself. -/
def extend : Option KSet → PyM (SetSt K X) Unit
  | none => throw .kmSetAddition
  | some other => do
    let s ← get
    raiseIf (other.numSamples != s.set.numSamples) .kmSetAddition
    forEach other.members appendRef

/-- `set_attr` (base.py:1310-1341) -/
def setAttr (name : String) (values : AttrVals) : PyM (SetSt K X) Unit := do
  let s ← get
  match values with
  | .unsized => throw .typeError
  | .scalar v => forEach s.set.members fun r => onHeap (Heap.call r (KMState.setAttr name v))
  | .seq l => do
    raiseIf (l.length != s.set.members.length) .valueError
    forEach (s.set.members.zip l) fun p => onHeap (Heap.call p.1 (KMState.setAttr name p.2))

/-- `get_attr` (base.py:1344-1364) -/
def getAttr (name default : String) : PyM (SetSt K X) (List String) := do
  let s ← get
  mapEach s.set.members fun r => onHeap (Heap.call r (KMState.getAttrVal name default))

end SetSt

/-- argument `km_list` of `KernelSet(...)` (base.py:1090-1100): `None`, one kernel matrix object, a (non-str) iterable, or anything else. An
ndarray is iterated over, row by row. -/
inductive InitArg where
  | none
  | one (a : AppendArg)
  | list (l : List AppendArg)
  | other

/-- `KernelSet(km_list, num_samples=...)` (base.py:1053-1100) -/
noncomputable def mkSet {K X : Type} (arg : InitArg) (num : NumSamples) : PyM (Heap K X) KSet := fun h =>
  let finish (r : Except PyErr Unit × SetSt K X) : Except PyErr KSet × Heap K X := (r.1.map fun _ => r.2.set, r.2.heap)
  match arg with
  | .none => (.ok (.new num), h)
  | .one a => finish (SetSt.append a ⟨h, .new num⟩)
  | .list l => finish (forEach l SetSt.append ⟨h, .new num⟩)
  | .other => (.error .typeError, h)

/-- all objects and all sets of a program (for base.py:149-1364) -/
structure World (K X : Type) where
  heap : Heap K X
  sets : List KSet

/-- steps of a program working with kernel matrices and kernel sets; sets are referred to by their number (for base.py:149-1364) -/
inductive WOp (K X : Type) where
  | newKM (k : K) (normalized : Bool) (clock : Nat)
  | newPre (x : PreIn)
  | kmOp (r : Nat) (op : KMOp X)
  | newSet (arg : InitArg) (num : NumSamples)
  | append (i : Nat) (a : AppendArg)
  | take (i : Nat) (idx : IndicesArg)
  | extend (i j : Nat)
  | attach (i : Nat) (sample : SetSample X) (attr : Option (String × String))
  | setAttr (i : Nat) (name : String) (values : AttrVals)

namespace World
variable {K X α : Type}

/-- a method call on the set number `i` (for base.py:149-1364) -/
def onSet (i : Nat) (m : PyM (SetSt K X) α) : PyM (World K X) α := fun w =>
  match w.sets[i]? with
  | none => (.error .nameError, w)
  | some t => ((m ⟨w.heap, t⟩).1, ⟨(m ⟨w.heap, t⟩).2.heap, w.sets.set i (m ⟨w.heap, t⟩).2.set⟩)

/-- a step on the heap (for base.py:149-1364) -/
def onHeap (m : PyM (Heap K X) α) : PyM (World K X) α := fun w =>
  ((m w.heap).1, { w with heap := (m w.heap).2 })

/-- a new set variable (for base.py:149-1364) -/
def addSet (t : KSet) : PyM (World K X) Unit := modify fun w => { w with sets := w.sets ++ [t] }

/-- one step (for base.py:149-1364) -/
noncomputable def exec (env : Env K X F) : WOp K X → PyM (World K X) Unit
  | .newKM k norm t => PyM.discard (onHeap (Heap.alloc (.km (KMState.init k norm t))))
  | .newPre x => do
    let p ← lift (mkPrecomputed x)
    PyM.discard (onHeap (Heap.alloc (.pre p)))
  | .kmOp r op => PyM.discard (onHeap (Heap.call r (KMState.exec env op)))
  | .newSet arg num => do
    let t ← onHeap (mkSet arg num)
    addSet t
  | .append i a => onSet i (SetSt.append a)
  | .take i idx => do
    let t ← onSet i (SetSt.take idx)
    addSet t
  | .extend i j => do
    let w ← get
    match w.sets[j]? with
    | none => throw .nameError
    | some t => onSet i (SetSt.extend (some t))
  | .attach i sample attr => onSet i (SetSt.attach sample attr)
  | .setAttr i name values => onSet i (SetSt.setAttr name values)

/-- a program: exceptions are caught by the caller, who continues (for base.py:149-1364) -/
noncomputable def run (env : Env K X F) (ops : List (WOp K X)) (w : World K X) : World K X :=
  ops.foldl (fun w op => (exec env op w).2) w

end World
end KMethods
