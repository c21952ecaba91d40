/-!
# Python effects

Exceptions as values and mutation of `self` as state passing.
-/
namespace KMethods

/-- Exception classes that the modelled code raises: the built-in ones, the classes of
`kernelmethods/config.py:4-35`, and `kernelFault` for whatever a user-supplied kernel function raises. -/
inductive PyErr where
  | valueError | typeError | attributeError | indexError | keyError | nameError
  | runtimeError | notImplemented | overflowError
  | kmAccess | kmNorm | kmSetAddition | kernelMethods | chi2Negative
  | notFitted
  | kernelFault
  deriving DecidableEq, Repr

/-- A Python method on an object with state `σ`: it may mutate the state and then either return
or raise; a raise keeps the mutations made so far. (for base.py:149-1575) -/
def PyM (σ α : Type) : Type := σ → Except PyErr α × σ

namespace PyM
variable {σ α β ι : Type}

/-- Result (value or exception) of running `m` on object state `s`. (for base.py:149-1575) -/
def res (m : PyM σ α) (s : σ) : Except PyErr α := (m s).1
/-- Object state after running `m` on `s` (also after a raise). (for base.py:149-1575) -/
def post (m : PyM σ α) (s : σ) : σ := (m s).2

instance : Monad (PyM σ) where
  pure a := fun s => (.ok a, s)
  bind m f := fun s =>
    match m s with
    | (.ok a, s') => f a s'
    | (.error e, s') => (.error e, s')

/-- read `self` (for base.py:149-1575) -/
def get : PyM σ σ := fun s => (.ok s, s)
/-- update `self` (for base.py:149-1575) -/
def modify (f : σ → σ) : PyM σ Unit := fun s => (.ok (), f s)
/-- `raise e` (for base.py:149-1575) -/
def throw (e : PyErr) : PyM σ α := fun s => (.error e, s)
/-- `try: m  except: raise e` (bare `except:` catches every exception). (for base.py:149-1575) -/
def catchAll (e : PyErr) (m : PyM σ α) : PyM σ α := fun s =>
  match m s with
  | (.ok a, s') => (.ok a, s')
  | (.error _, s') => (.error e, s')
/-- a pure function that may raise, called from a method (for base.py:149-1575) -/
def lift (r : Except PyErr α) : PyM σ α := fun s => (r, s)
/-- reading an attribute that may not exist: `AttributeError` (for base.py:149-1575) -/
def getAttr (f : σ → Option α) : PyM σ α := fun s =>
  match f s with
  | some a => (.ok a, s)
  | none => (.error .attributeError, s)

/-- `if c: m` (for base.py:149-1575) -/
def when (c : Bool) (m : PyM σ Unit) : PyM σ Unit := if c then m else pure ()
/-- `if c: raise e` (for base.py:149-1575) -/
def raiseIf (c : Bool) (e : PyErr) : PyM σ Unit := if c then throw e else pure ()
/-- drop the returned value (for base.py:149-1575) -/
def discard (m : PyM σ α) : PyM σ Unit := m >>= fun _ => pure ()

/-- `for x in l: f(x)` (for base.py:149-1575) -/
def forEach : List ι → (ι → PyM σ Unit) → PyM σ Unit
  | [], _ => pure ()
  | x :: xs, f => do f x; forEach xs f

/-- `[f(x) for x in l]` (for base.py:149-1575) -/
def mapEach : List ι → (ι → PyM σ β) → PyM σ (List β)
  | [], _ => pure []
  | x :: xs, f => do
    let y ← f x
    let ys ← mapEach xs f
    pure (y :: ys)

end PyM
end KMethods
