import Verif.Model.Algorithms
/-!
# Constructor, `get_params` and `set_params` of `OptimalKernelSVC`, `OptimalKernelSVR` with named parameters
-/
namespace KMethods
open PyM

/-- attributes `C`, `epsilon`, `shrinking`, `tol` of the support vector machine; `N` are arbitrary objects. (`SVC` objects have an `epsilon` too, set by scikit-learn.) (for algorithms.py:490-527, 555-558, 612-651, 699-702) -/
structure SvmParams (N : Type) where
  c : N
  epsilon : N
  shrinking : N
  tol : N

/-- a keyword argument with its value; `other` is any other name (the value is dropped, as the code does) (for algorithms.py:552-560, 696-704) -/
inductive NamedParam (N : Type) where
  | kBucket (v : BucketParam)
  | method (v : String)
  | c (v : N)
  | epsilon (v : N)
  | shrinking (v : N)
  | tol (v : N)
  | other (name : String)

namespace OptMachine
variable {K X M N : Type}

/-- `__init__` (algorithms.py:490-527, 612-651). `eps0` is the `epsilon` that scikit-learn gives an `SVC`. The object refers to objects in `heap` through `k_bucket` only. -/
def new (est : Est) (kBucket : BucketParam) (method : String) (p : SvmParams N) (eps0 : N) (heap : Heap K X) : OptMachine K X (SvmParams N) M :=
  { est := est, kBucket := kBucket, method := method, heap := heap, bucket := none, trainX := none, trainY := none, optKernel := none, model := none
    hyper := match est with
      | .svr => p
      | .svc => { p with epsilon := eps0 } }

/-- `if parameter in (...)`, `setattr` (algorithms.py:555-558, 699-702): the list of `OptimalKernelSVC` does not contain `epsilon` -/
def toUpdate (est : Est) : NamedParam N → Update (SvmParams N)
  | .kBucket v => .kBucket v
  | .method v => .method v
  | .c v => .hyper fun h => { h with c := v }
  | .epsilon v => match est with
    | .svr => .hyper fun h => { h with epsilon := v }
    | .svc => .other
  | .shrinking v => .hyper fun h => { h with shrinking := v }
  | .tol v => .hyper fun h => { h with tol := v }
  | .other _ => .other

/-- `set_params(**parameters)` (algorithms.py:552-560, 696-704) -/
def setNamed (ps : List (NamedParam N)) : PyM (OptMachine K X (SvmParams N) M) Unit := do
  let s ← get
  setParams (ps.map (toUpdate s.est))

/-- `get_params` (algorithms.py:541-549, 686-693), in the order of the dictionary. `deep` is not used. -/
def getNamed : PyM (OptMachine K X (SvmParams N) M) (List (NamedParam N)) := do
  let s ← get
  match s.est with
  | .svr => pure [.kBucket s.kBucket, .method s.method, .c s.hyper.c, .epsilon s.hyper.epsilon, .shrinking s.hyper.shrinking, .tol s.hyper.tol]
  | .svc => pure [.kBucket s.kBucket, .method s.method, .c s.hyper.c, .shrinking s.hyper.shrinking, .tol s.hyper.tol]

end OptMachine
end KMethods
