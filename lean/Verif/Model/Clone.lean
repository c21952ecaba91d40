import Verif.Model.Params
/-!
# `sklearn.base.clone` of the estimators

`clone` is scikit-learn's; cross-validation and grid search use it. It reads the parameters with `get_params`, copies them with `copy.deepcopy`, calls the constructor with the copies, reads the parameters
of the new object and raises `RuntimeError` if one of them is not the object passed to the constructor.
-/
namespace KMethods
open PyM

/-- a Python object: its identity (`id(x)`) and its value (for algorithms.py:45-69, 156-161, 211-235) -/
structure PyObj (V : Type) where
  id : Nat
  val : V

/-- a new object; the state is the next unused identity (for algorithms.py:67, 233) -/
def newObj {V : Type} (v : V) : PyM Nat (PyObj V) := fun n => (.ok ⟨n, v⟩, n + 1)

/-- `copy.deepcopy(x)`: `None`, strings and other immutable objects (`atomic`) are not copied (for algorithms.py:156-161) -/
def deepcopy {V : Type} (atomic : V → Bool) (x : PyObj V) : PyM Nat (PyObj V) := if atomic x.val then pure x else newObj x.val

/-- value of the attribute `k_func` (for algorithms.py:67, 233) -/
inductive KFuncVal (K : Type) where
  | none | kernel (k : K) | other

/-- the parameters of a `KernelMachine` or `KernelMachineRegressor` as objects (algorithms.py:67-69, 233-235). As in `Machine`, the value `none` of `learner_id`, `normalized` is anything that is not a string or `bool`. -/
structure MachineParams (K : Type) where
  kFunc : PyObj (KFuncVal K)
  learnerId : PyObj (Option String)
  normalized : PyObj (Option Bool)

/-- which values are immutable: `None` is; the others are left open (for algorithms.py:156-161) -/
structure Atomic (K : Type) where
  kFunc : KFuncVal K → Bool
  learnerId : Option String → Bool
  normalized : Option Bool → Bool
  none : kFunc .none = true

namespace MachineParams
variable {K X M Y : Type}

/-- `__init__` (algorithms.py:45-69, 211-235); `dflt` is `GaussianKernel()` -/
def init (dflt : K) (kFunc : PyObj (KFuncVal K)) (learnerId : PyObj (Option String)) (normalized : PyObj (Option Bool)) : PyM Nat (MachineParams K) := do
  let k ← match kFunc.val with
    | .none => newObj (.kernel dflt)
    | _ => pure kFunc
  pure ⟨k, learnerId, normalized⟩

/-- one keyword argument of `set_params` with its value (for algorithms.py:164-171) -/
inductive Update (K : Type) where
  | kFunc (v : PyObj (KFuncVal K))
  | learnerId (v : PyObj (Option String))
  | normalized (v : PyObj (Option Bool))
  | other

/-- `setattr` in `set_params` (algorithms.py:167-169) -/
def set : Update K → MachineParams K → MachineParams K
  | .kFunc v, p => { p with kFunc := v }
  | .learnerId v, p => { p with learnerId := v }
  | .normalized v, p => { p with normalized := v }
  | .other, p => p

/-- `clone(est)`, with `get_params` (algorithms.py:156-161) and the constructor -/
def clone (a : Atomic K) (dflt : K) (p : MachineParams K) : PyM Nat (MachineParams K) := do
  let k ← deepcopy a.kFunc p.kFunc
  let n ← deepcopy a.normalized p.normalized
  let l ← deepcopy a.learnerId p.learnerId
  let q ← init dflt k l n
  raiseIf (decide (q.kFunc.id ≠ k.id ∨ q.normalized.id ≠ n.id ∨ q.learnerId.id ≠ l.id)) .runtimeError
  pure q

/-- the estimator with these parameters that has not been fitted (algorithms.py:67-69, 233-235) -/
def machine (classifier : Bool) (p : MachineParams K) : Machine K X M Y :=
  { classifier := classifier
    kFunc := match p.kFunc.val with
      | .kernel k => some k
      | _ => none
    learnerId := p.learnerId.val, normalized := p.normalized.val, trainX := none, trainY := none, km := none, estimator := none }

end MachineParams

namespace OptMachine
variable {K X M N : Type}

/-- `clone(est)` of an `OptimalKernelSVC` or `OptimalKernelSVR`, with `get_params` (algorithms.py:541-549, 686-693) and the constructor (algorithms.py:490-527, 612-651), which keeps the objects it is given.
A kernel bucket is copied with its kernel matrices. Original and clone refer to objects of one heap, which is the heap of both after the call. -/
def clone (eps0 : N) : PyM (OptMachine K X (SvmParams N) M) (OptMachine K X (SvmParams N) M) := do
  let s ← get
  match s.kBucket with
  | .bucket t => do
    let t' ← onHeap (copyBucket t)
    let s ← get
    pure (new s.est (.bucket t') s.method s.hyper eps0 s.heap)
  | v => pure (new s.est v s.method s.hyper eps0 s.heap)

end OptMachine
end KMethods
