import Verif.Model.KernelMatrix
/-!
# Threads sharing one `KernelMatrix`

`docs/kernel_matrix.rst` advertises "parallel computation of different part of the KM". The methods of `KernelMatrix` are
written here once more as sequences of atomic steps on the attributes of one shared object, so that the steps of several
threads can be interleaved in every possible order. The code contains no locks.

Granularity: one read or one write of an attribute, of the dict `_KM` or of a matrix is one step (this is what the global
interpreter lock guarantees); numpy and scipy expressions that read a matrix read it at one instant; a kernel function is
called at one instant. `self._full_km` is a reference: arrays live in a heap, and the array that a thread writes
into is the one it looked up before.
-/
namespace KMethods

/-- A thread: finished with a value or an exception, or about to make an atomic step that updates the shared state and whose
continuation depends on what it read. (for base.py:573-580) -/
inductive Prog (σ α : Type) where
  | done (r : Except PyErr α)
  | step (upd : σ → σ) (next : σ → Prog σ α)

namespace Prog
variable {σ α β ι : Type}

/-- sequential composition; an exception ends the program (for base.py:149-760) -/
def bind (f : α → Prog σ β) : Prog σ α → Prog σ β
  | .done (.ok a) => f a
  | .done (.error e) => .done (.error e)
  | .step u n => .step u fun s => bind f (n s)

instance : Monad (Prog σ) where
  pure a := .done (.ok a)
  bind p f := bind f p

/-- one atomic step (for base.py:573-580) -/
def atomic (m : PyM σ α) : Prog σ α := .step (fun s => (m s).2) fun s => .done (m s).1
/-- read something (for base.py:725-728, 741, 744-746) -/
def read (f : σ → α) : Prog σ α := atomic fun s => (.ok (f s), s)
/-- write something (for base.py:725-728, 741, 744-746) -/
def write (f : σ → σ) : Prog σ Unit := atomic fun s => (.ok (), f s)
/-- `raise e` (for base.py:536-550) -/
def throw (e : PyErr) : Prog σ α := .done (.error e)
/-- a function without access to the shared state, which may raise (for base.py:436-459, 484-501) -/
def lift (r : Except PyErr α) : Prog σ α := .done r
/-- `try: p  except: raise e` (for base.py:711-733, 734-750) -/
def catchAll (e : PyErr) : Prog σ α → Prog σ α
  | .done (.ok a) => .done (.ok a)
  | .done (.error _) => .done (.error e)
  | .step u n => .step u fun s => catchAll e (n s)
/-- run `p` and hand its outcome, value or exception, to the caller (for base.py:149-760) -/
def attempt : Prog σ α → Prog σ (Except PyErr α)
  | .done r => .done (.ok r)
  | .step u n => .step u fun s => attempt (n s)
/-- `if c: p` (for base.py:711-733, 734-750) -/
def when (c : Bool) (p : Prog σ Unit) : Prog σ Unit := if c then p else pure ()
/-- `if c: raise e` (for base.py:404-420, 504-507, 755-758) -/
def raiseIf (c : Bool) (e : PyErr) : Prog σ Unit := if c then throw e else pure ()

/-- `for x in l: f(x)` (for base.py:725-728, 744-746) -/
def forEach : List ι → (ι → Prog σ Unit) → Prog σ Unit
  | [], _ => pure ()
  | x :: xs, f => do f x; forEach xs f

/-- `[f(x) for x in l]` (for base.py:536-550, 688-695) -/
def mapEach : List ι → (ι → Prog σ β) → Prog σ (List β)
  | [], _ => pure []
  | x :: xs, f => do
    let y ← f x
    let ys ← mapEach xs f
    pure (y :: ys)

/-- running a program to its end without interference (for base.py:149-760) -/
def alone : Prog σ α → PyM σ α
  | .done r => fun s => (r, s)
  | .step u n => fun s => alone (n s) (u s)

end Prog

/-- Several threads and the state they share. (for base.py:149-760) -/
structure Threads (σ α : Type) where
  state : σ
  progs : List (Prog σ α)

/-- One step of thread number `i`; nothing happens if there is no such thread or it has finished. (for base.py:149-760) -/
def Threads.turn {σ α : Type} (i : Nat) (c : Threads σ α) : Threads σ α :=
  match c.progs[i]? with
  | some (.step u n) => ⟨u c.state, c.progs.set i (n c.state)⟩
  | _ => c

/-- An execution: the scheduler gives the threads their turns in the given order. (for base.py:149-760) -/
def Threads.schedule {σ α : Type} (l : List Nat) (c : Threads σ α) : Threads σ α :=
  l.foldl (fun c i => c.turn i) c

/-- A shared `KernelMatrix`: `km` holds all attributes other than `_full_km` (its field `fullKm` is not used), `ref` is the
attribute `_full_km` (`none`: it does not exist), a reference to an array of the heap. Arrays are never freed. (for base.py:573-580) -/
structure Shared (K X V : Type) where
  km : KMState K X V
  ref : Option Nat
  heap : Nat → Full V
  next : Nat

namespace Shared
variable {K X V α : Type}
open Prog

/-- the object as a thread that runs alone sees it (for base.py:149-760) -/
def flat (t : Shared K X V) : KMState K X V := { t.km with fullKm := t.ref.map t.heap }

/-- the shared object in state `s`; `d` is the content of unused arrays (for base.py:149-760) -/
def share (d : Full V) (s : KMState K X V) : Shared K X V :=
  { km := s, ref := s.fullKm.map fun _ => 0, heap := fun _ => s.fullKm.getD d, next := 1 }

/-- a step that concerns the attributes other than `_full_km` (for base.py:573-580) -/
def onKM (m : PyM (KMState K X V) α) : PyM (Shared K X V) α := fun t =>
  ((m t.km).1, { t with km := (m t.km).2 })

/-- read of an attribute that may not exist, one step (for base.py:563-580, 711-733) -/
def attr (f : KMState K X V → Option α) : Prog (Shared K X V) α := atomic (onKM (PyM.getAttr f))
/-- read of an attribute that exists, one step (for base.py:573-580, 711-733) -/
def rd (f : KMState K X V → α) : Prog (Shared K X V) α := read fun t => f t.km
/-- write of attributes other than `_full_km`, one step (for base.py:573-580, 711-733) -/
def wr (f : KMState K X V → KMState K X V) : Prog (Shared K X V) Unit := write fun t => { t with km := f t.km }

/-- a new array assigned to `self._full_km` (for base.py:711-733, 752-753) -/
def alloc (f : Full V) (t : Shared K X V) : Shared K X V :=
  { t with ref := some t.next, heap := fun r => if r = t.next then f else t.heap r, next := t.next + 1 }
/-- in-place change of array number `r` (for base.py:725-728, 741, 744-746) -/
def poke (r : Option Nat) (g : Full V → Full V) (t : Shared K X V) : Shared K X V :=
  { t with heap := fun r' => if r = some r' then g (t.heap r') else t.heap r' }

/-- `self._full_km` as a reference: `AttributeError` if it does not exist (for base.py:436-459, 752-753) -/
def load : Prog (Shared K X V) Nat := atomic fun t =>
  match t.ref with
  | some r => (.ok r, t)
  | none => (.error .attributeError, t)

/-- `self._KM[p]` (base.py:580): `KeyError` if absent -/
def memo (p : Nat × Nat) : Prog (Shared K X V) V := atomic <| onKM fun s =>
  match s.cache.lookup p with
  | some v => (.ok v, s)
  | none => (.error .keyError, s)

/-- base.py:573-580: the test, the two rows, the call of the kernel, the write to the dict, the counter (`+=` is a read and a
write), and the final look-up are separate steps. -/
def evalAtP (env : Env K X V) (p : Nat × Nat) : Prog (Shared K X V) V := do
  let hit ← rd fun s => (s.cache.lookup p).isSome
  if hit then memo p
  else do
    let x ← atomic (onKM (KMState.rowAt (·.sample) .typeError p.1))
    let y ← atomic (onKM (KMState.rowAt (·.sampleTwo) .attributeError p.2))
    let v ← atomic (onKM (KMState.callKernel env p x y))
    wr fun s => { s with cache := (p, v) :: s.cache }
    let n ← rd (·.numKerEval)
    wr fun s => { s with numKerEval := n + 1 }
    memo p

/-- `_eval_kernel` (base.py:563-580) -/
def evalKernelP (env : Env K X V) (i j : Nat) : Prog (Shared K X V) V :=
  if i > j then do
    let two ← attr (·.twoSamples)
    if !two then evalAtP env (j, i) else evalAtP env (i, j)
  else evalAtP env (i, j)

/-- `self._full_km[i, j] = self._eval_kernel(i, j)` for each of the pairs (base.py:725-728, 744-746): the value, then
the array to write to, then the write -/
def fillCellsP (env : Env K X V) (l : List (Nat × Nat)) : Prog (Shared K X V) Unit :=
  forEach l fun p => do
    let v ← evalKernelP env p.1 p.2
    let r ← read (·.ref)
    write (poke r fun f => { f with cell := fun a b => if a = p.1 ∧ b = p.2 then v else f.cell a b })

/-- `self._full_km[lt] = self._full_km.T[lt]` (base.py:741): the values of the right-hand side are copied, then the array to
write to is looked up, then written -/
def symmetrizeP : Prog (Shared K X V) Unit := do
  let r ← read (·.ref)
  let old ← read fun t => r.map t.heap
  let r' ← read (·.ref)
  write (poke r' fun f => { f with cell := fun a b => if b < a then ((old.getD f).cell b a) else f.cell a b })

/-- first block of `_populate_fully` (base.py:711-733) -/
def populateUpperP (env : Env K X V) (denseFmt : Bool) : Prog (Shared K X V) Unit := do
  let pop ← rd (·.populated)
  if pop then pure ()
  else do
    let missing ← read (·.ref.isNone)
    when missing do
      let sh ← attr (·.shape)
      write (alloc (if !denseFmt then ⟨.sparse, fun _ _ => env.ops.zero⟩ else ⟨.dense, fun _ _ => env.ops.nan⟩))
      catchAll .runtimeError (fillCellsP env (KMState.upperPairs sh.1 sh.2))
      wr fun s => { s with populated := true }

/-- second block of `_populate_fully` (base.py:734-750) -/
def populateLowerP (env : Env K X V) (fillLowerTri : Bool) : Prog (Shared K X V) Unit :=
  when fillLowerTri do
    let low ← rd (·.lowerFilled)
    when (!low) do
      catchAll .runtimeError do
        let sh ← attr (·.shape)
        let two ← attr (·.twoSamples)
        if !two && sh.1 == sh.2 then symmetrizeP
        else fillCellsP env (KMState.lowerPairs sh.1 sh.2)
      wr fun s => { s with lowerFilled := true }

/-- third block of `_populate_fully` (base.py:752-753) -/
def densifyP (denseFmt : Bool) : Prog (Shared K X V) Unit := do
  let r ← load
  let sparse ← read fun t => (t.heap r).fmt == .sparse
  when (sparse && denseFmt) do
    let r ← load
    let f ← read fun t => t.heap r
    write (alloc { f with fmt := .npMatrix })

/-- the content of `self._full_km` when it is read (for base.py:484-501, 698-760) -/
def fullMatP : Prog (Shared K X V) (Fmt × Mat V) := do
  let r ← load
  let sh ← attr (·.shape)
  read fun t => ((t.heap r).fmt, Mat.ofCells sh.1 sh.2 (t.heap r).cell)

/-- base.py:504-507, 755-758 -/
def warnNonFiniteP (env : Env K X V) (M : Mat V) : Prog (Shared K X V) Unit := do
  let k ← rd (·.kernel)
  raiseIf (env.fmtRaises k && env.ops.nonFinite M) .typeError

/-- `_populate_fully` (base.py:698-760); the returned `self._full_km` is read by the callers as their next step -/
def populateFullyP (env : Env K X V) (denseFmt fillLowerTri : Bool) : Prog (Shared K X V) Unit := do
  populateUpperP env denseFmt
  populateLowerP env fillLowerTri
  densifyP denseFmt
  let A ← fullMatP
  warnNonFiniteP env A.2

/-- the guard used by `full`, `center`, `normalize`, `frob_norm` (base.py:412, 455, 481, 527) -/
def ensurePopulatedP (env : Env K X V) : Prog (Shared K X V) Unit := do
  let pop ← rd (·.populated)
  when (!pop) (populateFullyP env true true)

/-- `diagonal` (base.py:536-550) -/
def diagonalP (env : Env K X V) : Prog (Shared K X V) (List V) := do
  let two ← attr (·.twoSamples)
  if two then throw .kmAccess
  else do
    let sh ← attr (·.shape)
    mapEach (List.range sh.1) fun i => evalKernelP env i i

/-- `KM_XX._eval_kernel(i, i)` on an object `q` that only this thread knows (base.py:491-501): the shared state is touched by
the call of the kernel only -/
def privateEval (env : Env K X V) (i : Nat) (q : KMState K X V) : PyM (Shared K X V) (V × KMState K X V) := fun t =>
  let r := KMState.evalKernel env i i { q with clock := t.km.clock }
  (r.1.map fun v => (v, r.2), { t with km := { t.km with clock := r.2.clock } })

/-- `[KM_XX._eval_kernel(i, i) for i in l]` on such an object (for base.py:491-501) -/
def privateDiagP (env : Env K X V) : List Nat → KMState K X V → Prog (Shared K X V) (List V)
  | [], _ => pure []
  | i :: l, q => do
    let r ← atomic (privateEval env i q)
    let vs ← privateDiagP env l r.2
    pure (r.1 :: vs)

/-- `KM_XX = KernelMatrix(self.kernel, normalized=False); KM_XX.attach_to(...); KM_XX.diagonal()` (base.py:491-501) -/
def freshDiagonalP (env : Env K X V) (f : KMState K X V → Option (Arr2 X)) : Prog (Shared K X V) (List V) := do
  let a ← attr f
  let k ← rd (·.kernel)
  privateDiagP env (List.range a.nrows) (KMState.freshOn k a 0)

/-- the computation of `self._normed_km` (base.py:484-501) -/
def computeNormedP (env : Env K X V) (method : String) : Prog (Shared K X V) (Fmt × Mat V) := do
  let two ← attr (·.twoSamples)
  if !two then do
    let A ← fullMatP
    let N ← lift (env.ops.normalize A.2 method)
    pure (KMState.productFmt A.1, N)
  else do
    let dx ← freshDiagonalP env (·.sample)
    let dy ← freshDiagonalP env (·.sampleTwo)
    let A ← fullMatP
    let N ← lift (env.ops.normalize2 A.2 dx dy)
    pure (KMState.productFmt A.1, N)

/-- `normalize` (base.py:462-507): `_normed_km` is assigned, then the flag, then `_normed_km` is read again -/
def normalizeP (env : Env K X V) (method : String) : Prog (Shared K X V) Unit := do
  ensurePopulatedP env
  let b ← rd (·.isNormed)
  when (!b) do
    let N ← computeNormedP env method
    wr fun s => { s with normedKm := some N }
    wr fun s => { s with isNormed := true }
    let N ← attr (·.normedKm)
    warnNonFiniteP env N.2

/-- base.py:415-418, 427-431, 557-560 -/
def normedKmValP (env : Env K X V) : Prog (Shared K X V) (Fmt × Mat V) := do
  let b ← rd (·.isNormed)
  when (!b) (normalizeP env "cosine")
  attr (·.normedKm)

/-- `full` (base.py:404-420). `_keep_normed`, which no method changes, is read together with `_sample`. -/
def fullP (env : Env K X V) : Prog (Shared K X V) (Fmt × Mat V) := do
  let s ← rd fun s => (s.sample.isNone, s.keepNormed)
  raiseIf s.1 .valueError
  ensurePopulatedP env
  if s.2 then normedKmValP env
  else fullMatP

/-- `full_sparse` (base.py:423-433) -/
def fullSparseP (env : Env K X V) : Prog (Shared K X V) (Fmt × Mat V) := do
  let keep ← rd (·.keepNormed)
  if keep then normedKmValP env
  else do
    populateFullyP env false false
    fullMatP

/-- `center` (base.py:436-459). Unlike the other methods it assigns the array returned by `_populate_fully` to
`self._full_km` again (base.py:456). -/
def centerP (env : Env K X V) : Prog (Shared K X V) Unit := do
  let two ← attr (·.twoSamples)
  raiseIf two .notImplemented
  let pop ← rd (·.populated)
  when (!pop) do
    populateFullyP env true true
    let r ← load
    write fun t => { t with ref := some r }
  let A ← fullMatP
  raiseIf (A.1 == .sparse) .valueError
  let C ← lift (env.ops.center A.2)
  wr fun s => { s with centeredKm := some (KMState.productFmt A.1, C) }
  wr fun s => { s with isCentered := true }

/-- `centered` (base.py:510-520) -/
def centeredP (env : Env K X V) : Prog (Shared K X V) (Fmt × Mat V) := do
  let two ← attr (·.twoSamples)
  raiseIf two .kmAccess
  let b ← rd (·.isCentered)
  when (!b) (centerP env)
  attr (·.centeredKm)

/-- `frob_norm` (base.py:523-533) -/
def frobNormP (env : Env K X V) : Prog (Shared K X V) V := do
  ensurePopulatedP env
  let missing ← rd (·.frobNorm.isNone)
  when missing do
    let A ← fullMatP
    let v ← lift (if A.1 == .sparse then env.ops.frobSparse A.2 else env.ops.frob A.2)
    wr fun s => { s with frobNorm := some v }
  attr (·.frobNorm)

/-- `_compute_for_index_combinations` (base.py:688-695) -/
def computeP (env : Env K X V) (one two : List Nat) : Prog (Shared K X V) (Fmt × Mat V) := do
  let vs ← mapEach (one.flatMap fun i => two.map fun j => (i, j)) fun p => evalKernelP env p.1 p.2
  pure (.dense, Mat.ofCells one.length two.length fun a b => vs.getD (a * two.length + b) env.ops.nan)

/-- `__getitem__` (base.py:597-629) -/
def getItemP (env : Env K X V) (key : Key) : Prog (Shared K X V) (Fmt × Mat V) := do
  let q ← atomic (onKM (KMState.keyPair key))
  let sh ← rd (·.shape)
  let one ← lift (getIndicesInSample sh q.1 false)
  let two ← lift (getIndicesInSample sh q.2 true)
  if one.2 && two.2 then do
    populateFullyP env false true
    fullMatP
  else
    computeP env one.1 two.1

/-- `size` (base.py:380-393) -/
def sizeP : Prog (Shared K X V) Nat := atomic (onKM KMState.size)

/-- One public call made by a thread. `attach_to` and the operations that only read or write attributes fixed by it are
not split. (for base.py:149-760) -/
def execP (env : Env K X V) : KMOp X → Prog (Shared K X V) (KMOut V)
  | .attach one two => atomic fun t =>
      let r := KMState.exec env (.attach one two) t.flat
      (r.1, { t with km := r.2, ref := r.2.fullKm.bind fun _ => t.ref })
  | .setAttr n v => do atomic (onKM (KMState.setAttr n v)); pure .none
  | .getAttr n d => do let v ← atomic (onKM (KMState.getAttrVal n d)); pure (.str v)
  | .attributes => do let l ← rd (·.attrs); pure (.attrs l)
  | .numSamples => do let n ← rd (·.numSamples); pure (.num n)
  | .shape => do let sh ← attr (·.shape); pure (.shape sh.1 sh.2)
  | .size => do let n ← sizeP; pure (.nat n)
  | .full => do let A ← fullP env; pure (.mat A.1 A.2)
  | .fullSparse => do let A ← fullSparseP env; pure (.mat A.1 A.2)
  | .center => do centerP env; pure .none
  | .centered => do let A ← centeredP env; pure (.mat A.1 A.2)
  | .normalize m => do normalizeP env m; pure .none
  | .normedKm => do let A ← normedKmValP env; pure (.mat A.1 A.2)
  | .frobNorm => do let v ← frobNormP env; pure (.val v)
  | .diagonal => do let l ← diagonalP env; pure (.vec l)
  | .getItem k => do let A ← getItemP env k; pure (.mat A.1 A.2)

/-- A thread that makes the given public calls one after the other, going on after exceptions, and collects the outcomes. (for base.py:149-760) -/
def callsP (env : Env K X V) : List (KMOp X) → Prog (Shared K X V) (List (Except PyErr (KMOut V)))
  | [] => pure []
  | op :: ops => do
    let r ← attempt (execP env op)
    let rs ← callsP env ops
    pure (r :: rs)

/-- Threads making calls on one shared object. (for base.py:149-760) -/
def start (env : Env K X V) (t : Shared K X V) (calls : List (List (KMOp X))) :
    Threads (Shared K X V) (List (Except PyErr (KMOut V))) :=
  ⟨t, calls.map (callsP env)⟩

end Shared
end KMethods
