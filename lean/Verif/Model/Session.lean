import Verif.Model.Composite
import Verif.Model.Ranking
import Verif.Model.Sampling
/-!
# Programs using the whole of `kernelmethods/base.py`: kernel matrices, sets of them, composite kernels, and the functions working on sets

A program refers to its objects by variables, numbered in the order in which they were bound. Kernel matrices are on a heap, so that sets (and several variables) can share them; a composite kernel refers to its
set, which may be changed later.
-/
namespace KMethods
open PyM

/-- steps of a program. `v` is a variable of a kernel matrix, `i`, `j` of sets, `c` of a composite kernel; in `InitArg` and `AppendArg`, `ref v` is the variable `v`. `isBucket`: the set `i` is a `KernelBucket`; `flags`: its flags. (for base.py:37-1575) -/
inductive POp (K X : Type) where
  | newKM (k : K) (normalized : Bool) (clock : Nat)
  | newPre (x : PreIn)
  | km (v : Nat) (op : KMOp X)
  | full (v : Nat)
  | newSet (arg : InitArg) (num : NumSamples)
  | append (i : Nat) (a : AppendArg)
  | item (i : Nat) (idx : SetIdx)
  | size (i : Nat)
  | take (i : Nat) (idx : IndicesArg)
  | extend (i j : Nat)
  | attach (i : Nat) (sample : SetSample X) (attr : Option (String × String))
  | setAttr (i : Nat) (name : String) (values : AttrVals)
  | getAttr (i : Nat) (name default : String)
  | newComposite (cls : CompClass) (i : Nat)
  | fit (c : Nat) (w : Option WeightsIn)
  | composite (c : Nat)
  | combine (i : Nat) (w : WeightsIn) (norm : Bool)
  | rank (i : Nat) (cv : CVScore) (targets : List F) (method : String) (p : MethodParams)
  | find (i : Nat) (isBucket : Bool) (cv : CVScore) (sample : SetSample X) (targets : List F) (method : String) (p : MethodParams)
  | similarity (i : Nat) (metric : String)
  | newBucket (lib : KernelLib K NumVal) (normalize skip : Option Bool) (vals : BucketValues NumVal)
  | addKernels (i : Nat) (flags : BucketFlags) (cls : KernelClassArg K NumVal) (param : String) (values : ValuesArg NumVal)

/-- what a program sees of the result of a step, if it does not raise (for base.py:37-1575) -/
inductive POut where
  | none
  | km (o : KMOut F)
  | mat (M : Fmt × Mat F)
  | nat (n : Nat)
  | strs (l : List String)
  | vals (l : List F)

/-- variables of a program: kernel matrices (references), sets, and composite kernels with the variable of their set (for base.py:37-1575) -/
structure Locals where
  vars : List Nat
  sets : List KSet
  comps : List (Nat × Comp)

/-- a program and the heap (for base.py:37-1575) -/
structure ProgSt (K X : Type) where
  heap : Heap K X
  loc : Locals

/-- the object that an argument refers to; a variable that was never bound is a `NameError` (for base.py:37-1575) -/
def AppendArg.resolve (vars : List Nat) : AppendArg → Except PyErr AppendArg
  | .ref v => match vars[v]? with
    | some r => .ok (.ref r)
    | none => .error .nameError
  | .kernelFunc => .ok .kernelFunc
  | .other x => .ok (.other x)

/-- the same for the argument of `KernelSet(...)` (for base.py:37-1575) -/
def InitArg.resolve (vars : List Nat) : InitArg → Except PyErr InitArg
  | .none => .ok .none
  | .one a => (a.resolve vars).map .one
  | .list l => (l.mapM (AppendArg.resolve vars)).map .list
  | .other => .ok .other

namespace ProgSt
variable {K X α : Type}

/-- a step on the heap (for base.py:37-1575) -/
def onHeap (m : PyM (Heap K X) α) : PyM (ProgSt K X) α := fun s => ((m s.heap).1, { s with heap := (m s.heap).2 })

/-- `x = ...`, a new variable for the kernel matrix object `r` (for base.py:37-1575) -/
def bindVar (r : Nat) : PyM (ProgSt K X) Unit := modify fun s => { s with loc := { s.loc with vars := s.loc.vars ++ [r] } }
/-- a new variable for a set (for base.py:37-1575) -/
def bindSet (t : KSet) : PyM (ProgSt K X) Unit := modify fun s => { s with loc := { s.loc with sets := s.loc.sets ++ [t] } }
/-- a new variable for a composite kernel (for base.py:37-1575) -/
def bindComp (i : Nat) (c : Comp) : PyM (ProgSt K X) Unit := modify fun s => { s with loc := { s.loc with comps := s.loc.comps ++ [(i, c)] } }

/-- the value of a variable: `NameError` if it was never bound (for base.py:37-1575) -/
def var (l : Locals → List α) (v : Nat) : PyM (ProgSt K X) α := fun s =>
  match (l s.loc)[v]? with
  | some x => (.ok x, s)
  | none => (.error .nameError, s)

/-- a method call on the set `i` (for base.py:37-1575) -/
def onSet (i : Nat) (m : PyM (SetSt K X) α) : PyM (ProgSt K X) α := do
  let t ← var (·.sets) i
  fun s => ((m ⟨s.heap, t⟩).1, ⟨(m ⟨s.heap, t⟩).2.heap, { s.loc with sets := s.loc.sets.set i (m ⟨s.heap, t⟩).2.set }⟩)

/-- a method call on the composite kernel `c` (for base.py:37-1575) -/
def onComp (c : Nat) (m : PyM (CompSt K X) α) : PyM (ProgSt K X) α := do
  let x ← var (·.comps) c
  let t ← var (·.sets) x.1
  fun s =>
    let r := m ⟨s.heap, t, x.2⟩
    (r.1, ⟨r.2.heap, { s.loc with sets := s.loc.sets.set x.1 r.2.set, comps := s.loc.comps.set c (x.1, r.2.comp) }⟩)

/-- one step: the methods of `Model/KernelMatrix`, `Model/Derived`, `Model/KernelSet`, `Model/Composite`, `Model/Ranking` and `Model/Sampling` (base.py:37-1575, operations.py:389-432, ranking.py:17-150, sampling.py:70-181, 292-332) called on the
objects that the variables stand for -/
noncomputable def exec (env : Env K X F) : POp K X → PyM (ProgSt K X) POut
  | .newKM k norm t => do
    let r ← onHeap (Heap.alloc (.km (KMState.init k norm t)))
    bindVar r
    pure .none
  | .newPre x => do
    let p ← lift (mkPrecomputed x)
    let r ← onHeap (Heap.alloc (.pre p))
    bindVar r
    pure .none
  | .km v op => do
    let r ← var (·.vars) v
    let o ← onHeap (Heap.call r (KMState.exec env op))
    pure (.km o)
  | .full v => do
    let r ← var (·.vars) v
    let M ← onHeap (Heap.full env r)
    pure (.mat M)
  | .newSet arg num => do
    let s ← get
    let arg ← lift (arg.resolve s.loc.vars)
    let t ← onHeap (mkSet arg num)
    bindSet t
    pure .none
  | .append i a => do
    let s ← get
    let a ← lift (a.resolve s.loc.vars)
    onSet i (SetSt.append a)
    pure .none
  | .item i idx => do
    let r ← onSet i (SetSt.getItem idx)
    bindVar r
    pure .none
  | .size i => do
    let n ← onSet i SetSt.size
    pure (.nat n)
  | .take i idx => do
    let t ← onSet i (SetSt.take idx)
    bindSet t
    pure .none
  | .extend i j => do
    let t ← var (·.sets) j
    onSet i (SetSt.extend (some t))
    pure .none
  | .attach i sample attr => do
    onSet i (SetSt.attach sample attr)
    pure .none
  | .setAttr i name values => do
    onSet i (SetSt.setAttr name values)
    pure .none
  | .getAttr i name default => do
    let l ← onSet i (SetSt.getAttr name default)
    pure (.strs l)
  | .newComposite cls i => do
    let t ← var (·.sets) i
    let c ← lift (mkComposite cls (some t))
    bindComp i c
    pure .none
  | .fit c w => do
    onComp c (CompSt.fit env w)
    pure .none
  | .composite c => do
    let M ← onComp c CompSt.compositeKM
    pure (.mat M)
  | .combine i w norm => do
    let t ← var (·.sets) i
    let M ← onHeap (linearCombination env t w norm)
    pure (.mat M)
  | .rank i cv targets method p => do
    let l ← onSet i (rankKernels env cv targets method p)
    pure (.vals l)
  | .find i isBucket cv sample targets method p => do
    let r ← onSet i (findOptimalKernel env cv isBucket sample targets method p)
    bindVar r
    pure .none
  | .similarity i metric => do
    let t ← var (·.sets) i
    let M ← onHeap (pairwiseSimilarity env t metric)
    pure (.mat (.dense, M))
  | .newBucket lib normalize skip vals => do
    let b ← onHeap (mkBucket lib normalize skip vals)
    bindSet b.set
    pure .none
  | .addKernels i flags cls param values => do
    onSet i (SetSt.addParametrized flags cls param values)
    pure .none

end ProgSt

/-- several programs running in one interpreter, numbered; they share the heap (for base.py:37-1575) -/
structure Session (K X : Type) where
  heap : Heap K X
  progs : Nat → Locals

namespace Session
variable {K X : Type}

/-- nothing has been done (for base.py:37-1575) -/
def empty : Session K X := ⟨⟨fun _ => none, 0⟩, fun _ => ⟨[], [], []⟩⟩

/-- one step of the program number `i` (for base.py:37-1575) -/
noncomputable def step (env : Env K X F) (i : Nat) (op : POp K X) (w : Session K X) : Except PyErr POut × Session K X :=
  let r := ProgSt.exec env op ⟨w.heap, w.progs i⟩
  (r.1, ⟨r.2.heap, Function.update w.progs i r.2.loc⟩)

/-- the steps are executed in the given order; exceptions are caught by the program, which continues. The list contains what each step returned or raised. (for base.py:37-1575) -/
noncomputable def run (env : Env K X F) : List (Nat × POp K X) → Session K X → List (Nat × Except PyErr POut) × Session K X
  | [], w => ([], w)
  | (i, op) :: l, w =>
    let r := step env i op w
    let q := run env l r.2
    ((i, r.1) :: q.1, q.2)

end Session
end KMethods
