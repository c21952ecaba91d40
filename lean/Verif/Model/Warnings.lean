import Verif.Model.KernelMatrix
import Verif.Model.Sampling
/-!
# Warnings

The warnings issued by `KernelMatrix` about NaN or infinite values (base.py:504-507, 755-758) and by `KernelBucket` about skipped parameter values
(sampling.py:179-181). Each function of the model that can reach such a place is repeated with a log of the warnings issued so far, first to last; whether
Python's filters then show them is not modelled, nor are the warnings of `operations.py` and those of numpy.
-/
namespace KMethods

namespace PyM
variable {σ W α : Type}

/-- a computation that issues no warning (for base.py:504-507, 698-760) -/
def quietly (m : PyM σ α) : PyM (σ × List W) α := fun s => ((m s.1).1, ((m s.1).2, s.2))

/-- `warn(...)` (for base.py:504-507, 755-758) -/
def warn (w : W) : PyM (σ × List W) Unit := fun s => (.ok (), (s.1, s.2 ++ [w]))

/-- `try: m  except: warn(...)` (sampling.py:174-181) -/
def orWarn (m : PyM σ α) (w : W) : PyM (σ × List W) Unit := fun s =>
  match m s.1 with
  | (.ok _, s') => (.ok (), (s', s.2))
  | (.error _, s') => (.ok (), (s', s.2 ++ [w]))

end PyM

/-- a warning about NaN or infinite values: the matrix that contains them, and whether it is the normalised one (for base.py:504-507, 698-760) -/
structure Announced (V : Type) where
  normed : Bool
  mat : Mat V

namespace KMState
variable {K X V : Type}
open PyM

/-- the state of a `KernelMatrix` with the warnings issued (for base.py:504-507, 698-760) -/
abbrev LogSt (K X V : Type) := KMState K X V × List (Announced V)

/-- `if contains_nan_inf(M): warn(...)` (base.py:504-507, 755-758): when composing the message raises, there is no warning -/
def warnNonFiniteW (env : Env K X V) (normed : Bool) (M : Mat V) : PyM (LogSt K X V) Unit := do
  quietly (warnNonFinite env M)
  when (env.ops.nonFinite M) (warn ⟨normed, M⟩)

/-- `_populate_fully` (base.py:698-760) -/
def populateFullyW (env : Env K X V) (denseFmt fillLowerTri : Bool) : PyM (LogSt K X V) Unit := do
  quietly (populateUpper env denseFmt)
  quietly (populateLower env fillLowerTri)
  quietly (densify denseFmt)
  let A ← quietly fullMat
  warnNonFiniteW env false A.2

/-- the guard of `full`, `center`, `normalize`, `frob_norm` (base.py:412, 455, 481, 527) -/
def ensurePopulatedW (env : Env K X V) : PyM (LogSt K X V) Unit := do
  let s ← get
  when (!s.1.populated) (populateFullyW env true true)

/-- `normalize` (base.py:462-507) -/
def normalizeW (env : Env K X V) (method : String) : PyM (LogSt K X V) Unit := do
  ensurePopulatedW env
  let s ← get
  when (!s.1.isNormed) do
    let N ← quietly (computeNormed env method)
    quietly (modify fun s => { s with normedKm := some N, isNormed := true })
    warnNonFiniteW env true N.2

/-- the normalised matrix (base.py:415-418, 427-431, 557-560) -/
def normedKmValW (env : Env K X V) : PyM (LogSt K X V) (Fmt × Mat V) := do
  let s ← get
  when (!s.1.isNormed) (normalizeW env "cosine")
  quietly (getAttr (·.normedKm))

/-- `full` (base.py:404-420) -/
def fullW (env : Env K X V) : PyM (LogSt K X V) (Fmt × Mat V) := do
  let s ← get
  quietly (raiseIf s.1.sample.isNone .valueError)
  ensurePopulatedW env
  if s.1.keepNormed then normedKmValW env
  else quietly fullMat

/-- `full_sparse` (base.py:423-433) -/
def fullSparseW (env : Env K X V) : PyM (LogSt K X V) (Fmt × Mat V) := do
  let s ← get
  if s.1.keepNormed then normedKmValW env
  else do
    populateFullyW env false false
    quietly fullMat

/-- `center` (base.py:436-459) -/
def centerW (env : Env K X V) : PyM (LogSt K X V) Unit := do
  let two ← quietly (getAttr (·.twoSamples))
  quietly (raiseIf two .notImplemented)
  ensurePopulatedW env
  let A ← quietly fullMat
  quietly (raiseIf (A.1 == .sparse) .valueError)
  let C ← quietly (lift (env.ops.center A.2))
  quietly (modify fun s => { s with centeredKm := some (productFmt A.1, C), isCentered := true })

/-- `centered` (base.py:510-520) -/
def centeredW (env : Env K X V) : PyM (LogSt K X V) (Fmt × Mat V) := do
  let two ← quietly (getAttr (·.twoSamples))
  quietly (raiseIf two .kmAccess)
  let s ← get
  when (!s.1.isCentered) (centerW env)
  quietly (getAttr (·.centeredKm))

/-- the part of `frob_norm` after the guard (base.py:529-533) -/
def frobNormTail (env : Env K X V) : PyM (KMState K X V) V := do
  let s ← get
  when s.frobNorm.isNone do
    let A ← fullMat
    let v ← lift (if A.1 == .sparse then env.ops.frobSparse A.2 else env.ops.frob A.2)
    modify fun s => { s with frobNorm := some v }
  getAttr (·.frobNorm)

/-- `frob_norm` (base.py:523-533) -/
def frobNormValW (env : Env K X V) : PyM (LogSt K X V) V := do
  ensurePopulatedW env
  quietly (frobNormTail env)

/-- `__getitem__` (base.py:597-629) -/
def getItemW (env : Env K X V) (key : Key) : PyM (LogSt K X V) (Fmt × Mat V) := do
  let q ← quietly (keyPair key)
  let s ← get
  let one ← quietly (lift (getIndicesInSample s.1.shape q.1 false))
  let two ← quietly (lift (getIndicesInSample s.1.shape q.2 true))
  if one.2 && two.2 then do
    populateFullyW env false true
    quietly fullMat
  else
    quietly (computeForIndexCombinations env one.1 two.1)

/-- One public call (as `exec`), with the warnings it issues. (for base.py:219-760) -/
def execW (env : Env K X V) : KMOp X → PyM (LogSt K X V) (KMOut V)
  | .full => do let A ← fullW env; pure (.mat A.1 A.2)
  | .fullSparse => do let A ← fullSparseW env; pure (.mat A.1 A.2)
  | .center => do centerW env; pure .none
  | .centered => do let A ← centeredW env; pure (.mat A.1 A.2)
  | .normalize m => do normalizeW env m; pure .none
  | .normedKm => do let A ← normedKmValW env; pure (.mat A.1 A.2)
  | .frobNorm => do let v ← frobNormValW env; pure (.val v)
  | .getItem k => do let A ← getItemW env k; pure (.mat A.1 A.2)
  | op => quietly (exec env op)

/-- the warnings issued by a call (for base.py:219-760) -/
def warnings (env : Env K X V) (op : KMOp X) (s : KMState K X V) : List (Announced V) := (execW env op (s, [])).2.2

end KMState

namespace SetSt
variable {K X V : Type}
open PyM

/-- `add_parametrized_kernels` (sampling.py:143-181), with the values for which the warning about skipping it is issued (sampling.py:179-181) -/
def addParametrizedW (b : BucketFlags) (cls : KernelClassArg K V) (param : String) (values : ValuesArg V) : PyM (SetSt K X × List V) Unit :=
  match cls with
  | .other => throw .kernelMethods
  | .cls build =>
    match values with
    | .none => pure ()
    | .notIterable => throw .valueError
    | .unsized => throw .typeError
    | .seq l => do
      quietly (raiseIf (decide (l.length < 1)) .valueError)
      forEach l fun v => orWarn (appendNew b.norm (build b.skip param v)) v

end SetSt
end KMethods
