import Verif.Model.Sampling
/-!
# `kernelmethods/ranking.py`
-/
namespace KMethods
open PyM

/-- the two scikit-learn estimators, with `kernel='precomputed'` (for ranking.py:124-128, 153-194) -/
inductive Est where
  | svc | svr
  deriving DecidableEq

/-- `get_estimator` (ranking.py:153-194); `none` is anything without `lower`. Hyper-parameters are not modelled. -/
def getEstimator : Option String → Except PyErr Est
  | none => .error .attributeError
  | some s =>
    if s.toLower ∈ ["svm", "svc"] then .ok .svc
    else if s.toLower ∈ ["svr"] then .ok .svr
    else .error .notImplemented

/-- `method_params` (ranking.py:19, 58): the keyword arguments that are given; `other` says that there is one that no ranking function knows -/
structure MethodParams where
  numFolds : Option Nat := none
  estimatorName : Option String := none
  zeroDiv : Option ZeroDiv := none
  centeredAlready : Option Bool := none
  other : Bool := false

/-- `gs.fit(km, targets)`, `gs.best_score_` with `GridSearchCV(estimator, param_grid, cv=num_folds)` (ranking.py:124-128), for fixed targets: any function of the estimator, the number
of folds and the kernel matrix -/
abbrev CVScore := Est → Nat → Fmt × Mat F → Except PyErr F

/-- `v in VALID_RANKING_METHODS` (ranking.py:47-48, 84-85, config.py:63) after `lower`; as to non-ASCII characters, only the Kelvin sign lowers to a letter occurring in the names (`k`), which is not
modelled. -/
def validMethod (m : String) : Bool := m.toLower == "align/corr" || m.toLower == "cv_risk"

/-- the score of one kernel matrix in `CV_ranking` (ranking.py:122-128) -/
noncomputable def cvScoreOne {K X : Type} (env : Env K X F) (cv : CVScore) (p : MethodParams) (r : Nat) : PyM (SetSt K X) F := do
  let e ← lift (getEstimator (some (p.estimatorName.getD "SVM")))
  let M ← SetSt.onHeap (Heap.full env r)
  lift (cv e (p.numFolds.getD 3) M)

/-- `CV_ranking` (ranking.py:95-131). Keyword arguments that it does not have are a `TypeError`. -/
noncomputable def cvRanking {K X : Type} (env : Env K X F) (cv : CVScore) (p : MethodParams) : PyM (SetSt K X) (List F) := do
  raiseIf (p.zeroDiv.isSome || p.centeredAlready.isSome || p.other) .typeError
  let s ← get
  let scores ← mapEach s.set.members (cvScoreOne env cv p)
  let scaled ← lift (minMaxScale scores)
  pure (scaled.map (.real 100 * ·))

/-- the score of one kernel matrix in `alignment_ranking` (ranking.py:147-150) -/
noncomputable def alignScoreOne {K X : Type} (env : Env K X F) (targets : List F) (p : MethodParams) (r : Nat) : PyM (SetSt K X) F := do
  let M ← SetSt.onHeap (Heap.full env r)
  raiseIf (p.numFolds.isSome || p.estimatorName.isSome || p.other) .typeError
  lift (alignmentCenteredAny (storedArg M) (.arr (idealKernel targets)) (p.zeroDiv.getD (.value 0)) (p.centeredAlready.getD false))

/-- `alignment_ranking` (ranking.py:134-150). `np.outer(targets, targets)` is the same matrix as `ideal_kernel(targets)`. -/
noncomputable def alignRanking {K X : Type} (env : Env K X F) (targets : List F) (p : MethodParams) : PyM (SetSt K X) (List F) := do
  let s ← get
  mapEach s.set.members (alignScoreOne env targets p)

/-- `rank_kernels` (ranking.py:58-92) -/
noncomputable def rankKernels {K X : Type} (env : Env K X F) (cv : CVScore) (targets : List F) (method : String) (p : MethodParams) : PyM (SetSt K X) (List F) := do
  raiseIf (!validMethod method) .notImplemented
  if method.toLower = "align/corr" then alignRanking env targets p else cvRanking env cv p

/-- `np.argmax` of a 1-D array: `ValueError` if it is empty; the position of the first NaN if there is one, else of the first maximum. (`Inf` counts as NaN.) (for ranking.py:47-55) -/
noncomputable def argmaxF (l : List F) : Except PyErr Nat :=
  open Classical in
  if l = [] then .error .valueError
  else match l.findIdx? fun x => decide (¬ x.isFinite) with
    | some i => .ok i
    | none => match l.findIdx? fun x => decide (∀ y ∈ l, ¬ F.lt x y) with
      | some i => .ok i
      | none => .error .valueError

/-- `find_optimal_kernel` (ranking.py:47-55) on a `KernelBucket`; the result is a reference to a member -/
noncomputable def findOptimal {K X : Type} (env : Env K X F) (cv : CVScore) (sample : SetSample X) (targets : List F) (method : String) (p : MethodParams) :
    PyM (SetSt K X) Nat := do
  raiseIf (!validMethod method) .notImplemented
  SetSt.attach sample none
  let metric ← rankKernels env cv targets method p
  let i ← lift (argmaxF metric)
  SetSt.getItem (.int i)

/-- argument `kernel_bucket`: a `KernelBucket`, or anything else, including a `KernelSet` (`TypeError`, ranking.py:44) -/
noncomputable def findOptimalKernel {K X : Type} (env : Env K X F) (cv : CVScore) (isBucket : Bool) (sample : SetSample X) (targets : List F) (method : String) (p : MethodParams) :
    PyM (SetSt K X) Nat := do
  raiseIf (!isBucket) .typeError
  findOptimal env cv sample targets method p

end KMethods
