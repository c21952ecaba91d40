import Verif.Model.Ranking
/-!
# `kernelmethods/algorithms.py`

The learners of scikit-learn are arbitrary functions of the data they are given (kernel matrix, targets, weights), which may raise. The results of the input checks `check_X_y` and
`check_array` of scikit-learn are arguments here: an exception, or a two-dimensional array of numbers (and targets).
-/
namespace KMethods
open PyM

/-- the learner built by `get_estimator`, with `kernel='precomputed'`: `M` are fitted models, `Y` targets, `W` sample weights, `P` predictions. `cast` is `np.asarray(., dtype=y.dtype)`, which may raise (see `Model/Labels`). (for algorithms.py:72-120) -/
structure Learner (M Y W P : Type) where
  fit : Est → Fmt × Mat F → Y → W → Except PyErr M
  predict : M → Fmt × Mat F → Except PyErr P
  cast : Y → P → Except PyErr P

/-- instance attributes of `BaseKernelMachine` (algorithms.py:67-69, 103-118). `kFunc = none` is anything that is not a kernel function, `normalized = none` anything that is not a `bool`,
`learnerId = none` anything without `lower`. The other `Option` fields are attributes that may not exist. `_estimator` may be there without having been fitted. `param_grid`, `classes_` are dropped.
`classifier` is `is_classifier(self)`: true for `KernelMachine`, false for `KernelMachineRegressor`. -/
structure Machine (K X M Y : Type) where
  classifier : Bool
  kFunc : Option K
  learnerId : Option String
  normalized : Option Bool
  trainX : Option (Arr2 X)
  trainY : Option Y
  km : Option (KMState K X F)
  estimator : Option (Est × Option M)

/-- keyword arguments of `set_params`; `other` is any name that is not a parameter (for algorithms.py:156-161, 164-171) -/
inductive ParamUpdate (K : Type) where
  | kFunc (v : Option K)
  | learnerId (v : Option String)
  | normalized (v : Option Bool)
  | other

namespace Machine
variable {K X M Y W P : Type}

/-- `__init__` (algorithms.py:45-69, 211-235): the outer `none` is the default `None`, replaced by a Gaussian kernel `dflt` -/
def new (classifier : Bool) (dflt : K) (kFunc : Option (Option K)) (learnerId : Option String) (normalized : Option Bool) : Machine K X M Y :=
  ⟨classifier, kFunc.getD (some dflt), learnerId, normalized, none, none, none, none⟩

/-- a 2-D array as argument of `attach_to` (for algorithms.py:72-120, 123-153) -/
def arg (A : Arr2 X) : SampleIn X := .arr [A.nrows, A.ncols] A.row

/-- `self._km = KernelMatrix(self.k_func, normalized=self.normalized)` (algorithms.py:109-110, 145-146); the type checks of the constructor (base.py:197-202) are here -/
def freshKM : PyM (Machine K X M Y) Unit := fun s =>
  match s.kFunc, s.normalized with
  | none, _ => (.error .typeError, s)
  | some _, none => (.error .typeError, s)
  | some k, some norm => (.ok (), { s with km := some (KMState.init k norm ((s.km.map (·.clock)).getD 0)) })

/-- a method call on `self._km` (for algorithms.py:72-120, 123-153) -/
def onKM {α : Type} (m : PyM (KMState K X F) α) : PyM (Machine K X M Y) α := fun s =>
  match s.km with
  | none => (.error .attributeError, s)
  | some t => ((m t).1, { s with km := some (m t).2 })

/-- `self._estimator.fit(...)`: a failing fit leaves the estimator unfitted (algorithms.py:113-115). A regressor has no `classes_`, which a classifier reads (algorithms.py:117-118). -/
def fitEstimator (L : Learner M Y W P) (e : Est) (A : Fmt × Mat F) (y : Y) (w : W) : PyM (Machine K X M Y) Unit := do
  let m ← lift (L.fit e A y w)
  modify fun s => { s with estimator := some (e, some m) }
  let s ← get
  raiseIf (s.classifier && decide (e = .svr)) .attributeError

/-- `fit` (algorithms.py:72-120); `checked` is the result of `check_X_y` (and of the conversion of the targets to floats, for regressors) -/
noncomputable def fit (env : Env K X F) (L : Learner M Y W P) (checked : Except PyErr (Arr2 X × Y)) (w : W) : PyM (Machine K X M Y) Unit := do
  let d ← lift checked
  modify fun s => { s with trainX := some d.1, trainY := some d.2 }
  freshKM
  onKM (KMState.attach (arg d.1) none)
  let s ← get
  let e ← lift (getEstimator s.learnerId)
  modify fun s => { s with estimator := some (e, none) }
  let A ← onKM (KMState.full env)
  fitEstimator L e A d.2 w

/-- `self._estimator.predict(...)`: `NotFittedError` if it has not been fitted (for algorithms.py:123-153) -/
def applyModel (L : Learner M Y W P) (m : Option M) (A : Fmt × Mat F) : Except PyErr P :=
  match m with
  | none => .error .notFitted
  | some m => L.predict m A

/-- `predict` (algorithms.py:123-153); `checked` is the result of `check_array` -/
noncomputable def predict (env : Env K X F) (L : Learner M Y W P) (checked : Except PyErr (Arr2 X)) : PyM (Machine K X M Y) P := do
  let s ← get
  raiseIf s.km.isNone .notFitted
  let B ← lift checked
  freshKM
  let A ← getAttr (·.trainX)
  onKM (KMState.attach (arg B) (some (arg A)))
  let e ← getAttr (·.estimator)
  let T ← onKM (KMState.full env)
  let p ← lift (applyModel L e.2 T)
  let y ← getAttr (·.trainY)
  lift (L.cast y p)

/-- one keyword argument of `set_params` (for algorithms.py:164-171, 552-560, 696-704) -/
def setParam : ParamUpdate K → Machine K X M Y → Machine K X M Y
  | .kFunc v, s => { s with kFunc := v }
  | .learnerId v, s => { s with learnerId := v }
  | .normalized v, s => { s with normalized := v }
  | .other, s => s

/-- `set_params` (algorithms.py:164-171) -/
def setParams (ps : List (ParamUpdate K)) : PyM (Machine K X M Y) Unit := forEach ps fun p => modify (setParam p)

/-- `get_params` (algorithms.py:156-161), in the order k_func, normalized, learner_id -/
def getParams : PyM (Machine K X M Y) (List (ParamUpdate K)) := do
  let s ← get
  pure [.kFunc s.kFunc, .normalized s.normalized, .learnerId s.learnerId]

end Machine

/-! ### Machines that choose a kernel -/

/-- `kernel` of the support vector machine: how it turns the rows it is given into a Gram matrix (for algorithms.py:518-520, 643-645, 681-683) -/
inductive SvmKernel where
  | precomputed | rbf
  deriving DecidableEq

/-- the support vector machine of which `OptimalKernelSVC`, `OptimalKernelSVR` are subclasses. `H` are its other parameters. `cast` is the conversion of predictions (algorithms.py:681-683; see `Model/Labels`). -/
structure SvmLearner (H M W P : Type) where
  fit : Est → SvmKernel → H → Fmt × Mat F → List F → W → Except PyErr M
  predict : M → Fmt × Mat F → Except PyErr P
  cast : Est → P → Except PyErr P

/-- parameter `k_bucket`: a string, a `KernelBucket` with the given members, or anything else. (A bucket is an object that may be changed through other references: its contents here are those at the time
of the call that uses it.) (for algorithms.py:518-527, 337-363) -/
inductive BucketParam where
  | str (s : String)
  | bucket (t : KSet)
  | other

/-- instance attributes of `BaseOptimalKernelMachine` and its subclasses (algorithms.py:518-527, 337-363). The kernel matrices referred to by `k_bucket`, `_k_bucket` and `opt_kernel_` are in `heap`.
`model` are the attributes by which scikit-learn represents a fitted model. -/
structure OptMachine (K X H M : Type) where
  est : Est
  kBucket : BucketParam
  method : String
  hyper : H
  heap : Heap K X
  bucket : Option KSet
  trainX : Option (Arr2 X)
  trainY : Option (List F)
  optKernel : Option Nat
  model : Option M

/-- `copy.deepcopy` of a list of objects: each object is copied once (for algorithms.py:348) -/
def copyMembers {K X : Type} : List Nat → List (Nat × Nat) → PyM (Heap K X) (List Nat)
  | [], _ => pure []
  | r :: l, memo =>
    match memo.lookup r with
    | some r' => do
      let rs ← copyMembers l memo
      pure (r' :: rs)
    | none => do
      let o ← getAttr (·.objs r)
      let r' ← Heap.alloc o
      let rs ← copyMembers l ((r, r') :: memo)
      pure (r' :: rs)

/-- `deepcopy(self.k_bucket)` (algorithms.py:348) -/
def copyBucket {K X : Type} (t : KSet) : PyM (Heap K X) KSet := do
  let rs ← copyMembers t.members []
  pure { t with members := rs }

/-- the name passed as `estimator_name` (algorithms.py:533, 657) -/
def Est.name : Est → String
  | .svc => "SVC"
  | .svr => "SVR"

namespace OptMachine
variable {K X H M W P : Type}

/-- a computation on objects (for algorithms.py:306-365) -/
def onHeap {α : Type} (m : PyM (Heap K X) α) : PyM (OptMachine K X H M) α := fun s =>
  ((m s.heap).1, { s with heap := (m s.heap).2 })

/-- a computation on `self._k_bucket` (for algorithms.py:530-538, 654-662) -/
def onBucket {α : Type} (m : PyM (SetSt K X) α) : PyM (OptMachine K X H M) α := fun s =>
  match s.bucket with
  | none => (.error .attributeError, s)
  | some t => ((m ⟨s.heap, t⟩).1, { s with heap := (m ⟨s.heap, t⟩).2.heap, bucket := some (m ⟨s.heap, t⟩).2.set })

/-- the choice of `self._k_bucket` (algorithms.py:337-352). `mkB` is `make_kernel_bucket` with default flags. -/
def chooseBucket (mkB : String → PyM (Heap K X) Bucket) : PyM (OptMachine K X H M) Unit := fun s =>
  match s.kBucket with
  | .other => (.error .valueError, s)
  | .str n =>
    (do let b ← catchAll .valueError (onHeap (mkB n))
        modify fun s => { s with bucket := some b.set } : PyM (OptMachine K X H M) Unit) s
  | .bucket t =>
    (do let t' ← onHeap (copyBucket t)
        modify fun s => { s with bucket := some t' } : PyM (OptMachine K X H M) Unit) s

/-- `_find_optimal_kernel` (algorithms.py:530-538, 654-662); `cv` is the cross-validation score for given targets -/
noncomputable def searchKernel (env : Env K X F) (cv : List F → CVScore) (A : Arr2 X) (y : List F) : PyM (OptMachine K X H M) Nat := do
  let s ← get
  onBucket (findOptimalKernel env (cv y) true (.arr true [A.nrows, A.ncols] A.row) y s.method { estimatorName := some s.est.name })

/-- the SVM is initialised without `kernel='precomputed'` (algorithms.py:518-520, 643-645), so scikit-learn's default applies -/
def svmKernel : SvmKernel := .rbf

/-- `fit` (algorithms.py:306-365); `checked` is the result of `check_X_y(X, y, y_numeric=True)`. If the fit of the SVM fails, what is left of an earlier fit is kept. -/
noncomputable def fit (env : Env K X F) (mkB : String → PyM (Heap K X) Bucket) (cv : List F → CVScore) (L : SvmLearner H M W P) (checked : Except PyErr (Arr2 X × List F)) (w : W) :
    PyM (OptMachine K X H M) Unit := do
  chooseBucket mkB
  let d ← lift checked
  modify fun s => { s with trainX := some d.1, trainY := some d.2 }
  let r ← searchKernel env cv d.1 d.2
  modify fun s => { s with optKernel := some r }
  let A ← onHeap (Heap.full env r)
  let s ← get
  let m ← lift (L.fit s.est svmKernel s.hyper A d.2 w)
  modify fun s => { s with model := some m }

/-- `predict` (algorithms.py:368-396, 665-683). A missing model is an `AttributeError`: scikit-learn's check for fitted attributes finds `opt_kernel_` (this depends on its version). -/
noncomputable def predict (env : Env K X F) (L : SvmLearner H M W P) (checked : Except PyErr (Arr2 X)) : PyM (OptMachine K X H M) P := do
  let s ← get
  raiseIf s.optKernel.isNone .notFitted
  let r ← getAttr (·.optKernel)
  let B ← lift checked
  let A ← getAttr (·.trainX)
  onHeap (Heap.call r (KMState.attach (Machine.arg B) (some (Machine.arg A))))
  let T ← onHeap (Heap.full env r)
  let m ← getAttr (·.model)
  let p ← lift (L.predict m T)
  lift (L.cast s.est p)

/-- keyword arguments of `set_params`. `hyper` stands for `C`, `epsilon`, `shrinking`, `tol`; `other` is any name that is not a parameter. (for algorithms.py:552-560, 696-704) -/
inductive Update (H : Type) where
  | kBucket (v : BucketParam)
  | method (v : String)
  | hyper (f : H → H)
  | other

/-- one keyword argument of `set_params` (for algorithms.py:552-560, 696-704) -/
def setParam : Update H → OptMachine K X H M → OptMachine K X H M
  | .kBucket v, s => { s with kBucket := v }
  | .method v, s => { s with method := v }
  | .hyper f, s => { s with hyper := f s.hyper }
  | .other, s => s

/-- `set_params` (algorithms.py:552-560, 696-704) -/
def setParams (ps : List (Update H)) : PyM (OptMachine K X H M) Unit := forEach ps fun p => modify (setParam p)

end OptMachine
end KMethods
