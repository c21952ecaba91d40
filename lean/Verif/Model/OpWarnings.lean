import Verif.Model.Warnings
import Verif.Model.Ranking
/-!
# Warnings of `operations.py`, `ranking.py` and `make_kernel_bucket`

The functions that can issue a warning, repeated with a log of the warnings issued so far, first to last. Whether Python's filters then show them (or turn them into
exceptions) is not modelled, nor are numpy's own warnings (`RuntimeWarning` for the square root of a negative number).
-/
namespace KMethods
open PyM

/-- the places where a warning is issued. A matrix with a non-finite entry gets the second one from `is_PSD` if it contains NaN (operations.py:71), and if it only
contains infinities, possibly the one about an unknown exception during the computation of eigenvalues (operations.py:86); the two are not distinguished. -/
inductive OpWarning where
  /-- operations.py:67 -/
  | notSquare
  /-- operations.py:71, 86 -/
  | notSymmetric
  /-- operations.py:197 -/
  | cannotNormalize
  /-- operations.py:201-202 -/
  | normedNonFinite
  /-- operations.py:375-377 -/
  | zeroNorm
  /-- sampling.py:214 -/
  | alreadyBucket
  deriving DecidableEq

/-- a computation without state that can issue warnings (for operations.py:28-97, 174-202) -/
abbrev Logged (α : Type) := PyM (List OpWarning) α

/-- `warn(...)` (for operations.py:28-97, 174-202) -/
def say (w : OpWarning) : Logged Unit := PyM.modify fun l => l ++ [w]

/-- a computation without state, among computations with one (for ranking.py:147-150, sampling.py:184-247) -/
def aloud {σ α : Type} (m : Logged α) : PyM (σ × List OpWarning) α := fun s => ((m s.2).1, (s.1, (m s.2).2))

/-- `is_positive_semidefinite` (operations.py:28-97); the same simplifications as for `isPSD` -/
noncomputable def isPSDW (a : NdArg) (tol : ℝ) : Logged Bool :=
  match a with
  | .other _ => throw .typeError
  | .arr K =>
    open Classical in
    if h : K.nrows = K.ncols then
      if ∀ i j, F.isClose (K.get i (Fin.cast h j)) (K.get j (Fin.cast h i)) then
        pure (decide (∀ l, ¬ (lowerSym_isHermitian fun i j => (K.get i (Fin.cast h j)).val).eigenvalues l < -tol))
      else do
        say .notSymmetric
        pure false
    else do
      say .notSquare
      pure false

/-- the `try` statement of `normalize_km` (operations.py:174-202) around its body: `KMNormError` passes, any other exception is announced and passes, and a result with NaN
or infinite values is announced -/
noncomputable def announceNormed (r : Except PyErr (Mat F)) : Logged (Mat F) :=
  match r with
  | .error .kmNorm => throw .kmNorm
  | .error e => do
    say .cannotNormalize
    throw e
  | .ok N => do
    when (containsNanInf N) (say .normedNonFinite)
    pure N

/-- `normalize_km` (operations.py:144-204) -/
noncomputable def normalizeKmW (K : Mat F) (method : String) : Logged (Mat F) :=
  if h : K.nrows = K.ncols then
    announceNormed ((normalizeSquare (fun i j => K.get i (Fin.cast h j)) method).map fun N => ⟨K.nrows, K.nrows, N⟩)
  else throw .valueError

/-- `normalize_km_2sample` (operations.py:207-263): it issues no warning -/
noncomputable def normalizeKm2W (K : Mat F) (dx dy : List F) (method : String) : Logged (Mat F) := lift (normalizeKm2 K dx dy method)

/-- end of `alignment_centered` (operations.py:367-380), on the two centered matrices -/
noncomputable def alignmentOfW (cA cB : Mat F) (zd : ZeroDiv) : Logged F := do
  let nA ← lift (frobeniusNorm cA)
  let nB ← lift (frobeniusNorm cB)
  if F.isClose nA 0 ∨ F.isClose nB 0 then
    match zd with
    | .raise => throw .valueError
    | .value v => do
      say .zeroNorm
      pure v
  else do
    let p ← lift (frobeniusProduct cA cB)
    pure (p / (nA * nB))

/-- `alignment_centered` (operations.py:314-380) on ndarrays -/
noncomputable def alignmentCenteredW (A B : Mat F) (zd : ZeroDiv) (centeredAlready : Bool) : Logged F :=
  if A.nrows ≠ B.nrows ∨ A.ncols ≠ B.ncols then throw .valueError
  else do
    let cA ← lift (centerUnless centeredAlready A)
    let cB ← lift (centerUnless centeredAlready B)
    alignmentOfW cA cB zd

/-- `alignment_centered` (operations.py:314-380) on arbitrary objects; other objects than ndarrays are rejected without a warning -/
noncomputable def alignmentCenteredAnyW (a b : NdArg) (zd : ZeroDiv) (centeredAlready : Bool) : Logged F :=
  match a, b with
  | .arr A, .arr B => alignmentCenteredW A B zd centeredAlready
  | a, b => lift (alignmentCenteredAny a b zd centeredAlready)

section
variable {K X : Type}

/-- the score of one kernel matrix in `alignment_ranking` (ranking.py:147-150). Warnings issued by the kernel matrix itself (those of C90, and the one of `normalize_km`) are not in
this log. -/
noncomputable def alignScoreOneW (env : Env K X F) (targets : List F) (p : MethodParams) (r : Nat) : PyM (SetSt K X × List OpWarning) F := do
  let M ← quietly (SetSt.onHeap (Heap.full env r))
  quietly (raiseIf (p.numFolds.isSome || p.estimatorName.isSome || p.other) .typeError)
  aloud (alignmentCenteredAnyW (storedArg M) (.arr (idealKernel targets)) (p.zeroDiv.getD (.value 0)) (p.centeredAlready.getD false))

/-- `alignment_ranking` (ranking.py:134-150) -/
noncomputable def alignRankingW (env : Env K X F) (targets : List F) (p : MethodParams) : PyM (SetSt K X × List OpWarning) (List F) := do
  let s ← get
  mapEach s.1.set.members (alignScoreOneW env targets p)

/-- `rank_kernels` (ranking.py:58-92); `CV_ranking` issues no warning of its own -/
noncomputable def rankKernelsW (env : Env K X F) (cv : CVScore) (targets : List F) (method : String) (p : MethodParams) :
    PyM (SetSt K X × List OpWarning) (List F) := do
  quietly (raiseIf (!validMethod method) .notImplemented)
  if method.toLower = "align/corr" then alignRankingW env targets p else quietly (cvRanking env cv p)

/-- `find_optimal_kernel` (ranking.py:18-55) -/
noncomputable def findOptimalKernelW (env : Env K X F) (cv : CVScore) (isBucket : Bool) (sample : SetSample X) (targets : List F) (method : String) (p : MethodParams) :
    PyM (SetSt K X × List OpWarning) Nat := do
  quietly (raiseIf (!isBucket) .typeError)
  quietly (raiseIf (!validMethod method) .notImplemented)
  quietly (SetSt.attach sample none)
  let metric ← rankKernelsW env cv targets method p
  let i ← quietly (lift (argmaxF metric))
  quietly (SetSt.getItem (.int i))

end

/-- `make_kernel_bucket` (sampling.py:184-247); the warnings about skipped parameter values (C90) are not in this log -/
noncomputable def makeKernelBucketW {X : Type} (strategy : StrategyArg Bucket) (normalize skip : Option Bool) : PyM (Heap LibKernel X × List OpWarning) Bucket :=
  match strategy with
  | .existing b => do
    aloud (say .alreadyBucket)
    pure b
  | strategy => quietly (makeKernelBucket strategy normalize skip)

end KMethods
