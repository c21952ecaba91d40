import Verif.Model.Rounding
import Verif.Model.Ranking
/-!
# Centering, Frobenius products, alignment and `is_PSD` in floating point arithmetic (`operations.py`)

As in `Model/Rounding`: results of operations are rounded, orders of summation are left open.
-/
namespace KMethods
open F PyM

/-- an order of summation for every number of terms (for operations.py:266-292, 295-311) -/
structure FlatOrder where
  tree : (n : Nat) → SumTree n
  complete : ∀ n, (tree n).Complete

/-- `np.eye(n) - (np.ones((n, n)) / n)` (operations.py:138-139), rounded -/
noncomputable def centeringMatrixFl (R : Rounding) (n : Nat) : Fin n → Fin n → F :=
  fun i j => R.round ((if i = j then 1 else 0) - R.round ((1 : F) / real n))

/-- `center_km` (operations.py:104-141) on an ndarray, rounded; `o` and `o'` are the orders of evaluation of the two products -/
noncomputable def centerKmFl (R : Rounding) (o o' : SumOrder) (K : Mat F) : Except PyErr (Mat F) :=
  if K.nrows = K.ncols then
    .ok ⟨K.nrows, K.ncols, matmulFl R o' (matmulFl R o (centeringMatrixFl R K.nrows) K.get) (centeringMatrixFl R K.ncols)⟩
  else .error .valueError

/-- `frobenius_product` (operations.py:266-292), rounded: products are rounded, then summed in some order -/
noncomputable def frobeniusProductFl (R : Rounding) (t : FlatOrder) (A B : Mat F) : Except PyErr F :=
  if h : A.nrows = B.nrows ∧ A.ncols = B.ncols then
    .ok ((t.tree (A.nrows * A.ncols)).dot R (fun p => A.get p.divNat p.modNat)
      fun p => B.get (Fin.cast h.1 p.divNat) (Fin.cast h.2 p.modNat))
  else .error .valueError

/-- `frobenius_norm` (operations.py:295-311), rounded -/
noncomputable def frobeniusNormFl (R : Rounding) (t : FlatOrder) (A : Mat F) : Except PyErr F :=
  (frobeniusProductFl R t A A).map fun x => R.round (F.sqrt x)

/-- the orders of summation in one call of `alignment_centered` (for operations.py:314-380) -/
structure AlignOrders where
  a₁ : SumOrder
  a₂ : SumOrder
  b₁ : SumOrder
  b₂ : SumOrder
  na : FlatOrder
  nb : FlatOrder
  p : FlatOrder

/-- operations.py:360-365, rounded -/
noncomputable def centerUnlessFl (R : Rounding) (o o' : SumOrder) (centeredAlready : Bool) (A : Mat F) : Except PyErr (Mat F) :=
  if centeredAlready then .ok A else centerKmFl R o o' A

/-- end of `alignment_centered` (operations.py:367-380), rounded -/
noncomputable def alignmentOfFl (R : Rounding) (o : AlignOrders) (cA cB : Mat F) (zd : ZeroDiv) : Except PyErr F := do
  let nA ← frobeniusNormFl R o.na cA
  let nB ← frobeniusNormFl R o.nb cB
  if isClose nA 0 ∨ isClose nB 0 then
    match zd with
    | .raise => .error .valueError
    | .value v => .ok v
  else
    let p ← frobeniusProductFl R o.p cA cB
    .ok (R.round (p / R.round (nA * nB)))

/-- `alignment_centered` (operations.py:314-380) on ndarrays, rounded -/
noncomputable def alignmentCenteredFl (R : Rounding) (o : AlignOrders) (A B : Mat F) (zd : ZeroDiv) (centeredAlready : Bool) :
    Except PyErr F :=
  if A.nrows ≠ B.nrows ∨ A.ncols ≠ B.ncols then .error .valueError
  else do
    let cA ← centerUnlessFl R o.a₁ o.a₂ centeredAlready A
    let cB ← centerUnlessFl R o.b₁ o.b₂ centeredAlready B
    alignmentOfFl R o cA cB zd

/-- `ideal_kernel` (sampling.py:250-268), or `np.outer(targets, targets)` (ranking.py:145), rounded -/
def idealKernelFl (R : Rounding) (y : List F) : Mat F :=
  Mat.ofCells y.length y.length fun i j => R.round (y.getD i .nan * y.getD j .nan)

/-- `alignment_centered` (operations.py:314-380) on arbitrary objects, rounded -/
noncomputable def alignmentCenteredAnyFl (R : Rounding) (o : AlignOrders) (a b : NdArg) (zd : ZeroDiv) (centeredAlready : Bool) : Except PyErr F :=
  match a, b with
  | .arr A, .arr B => alignmentCenteredFl R o A B zd centeredAlready
  | a, b => do
    let s ← a.shape
    let t ← b.shape
    if s ≠ t then .error .valueError else .error .typeError

/-- the score of one kernel matrix in `alignment_ranking` (ranking.py:147-150), rounded; orders of summation may differ between matrices -/
noncomputable def alignScoreOneFl {K X : Type} (env : Env K X F) (R : Rounding) (o : Nat → AlignOrders) (targets : List F) (p : MethodParams) (r : Nat) :
    PyM (SetSt K X) F := do
  let M ← SetSt.onHeap (Heap.full env r)
  raiseIf (p.numFolds.isSome || p.estimatorName.isSome || p.other) .typeError
  lift (alignmentCenteredAnyFl R (o r) (storedArg M) (.arr (idealKernelFl R targets)) (p.zeroDiv.getD (.value 0)) (p.centeredAlready.getD false))

/-- `alignment_ranking` (ranking.py:134-150), rounded -/
noncomputable def alignRankingFl {K X : Type} (env : Env K X F) (R : Rounding) (o : Nat → AlignOrders) (targets : List F) (p : MethodParams) :
    PyM (SetSt K X) (List F) := do
  let s ← get
  mapEach s.set.members (alignScoreOneFl env R o targets p)

/-- `find_optimal_kernel` (ranking.py:47-55) on a `KernelBucket` with `method='align/corr'`, rounded -/
noncomputable def findOptimalAlignFl {K X : Type} (env : Env K X F) (R : Rounding) (o : Nat → AlignOrders) (sample : SetSample X) (targets : List F)
    (p : MethodParams) : PyM (SetSt K X) Nat := do
  SetSt.attach sample none
  let metric ← alignRankingFl env R o targets p
  let i ← lift (argmaxF metric)
  SetSt.getItem (.int i)

/-- An eigenvalue solver for real symmetric matrices: what `eigh(A, eigvals_only=True)` returns, or that it raises (`LinAlgError`
or anything else). (for operations.py:28-97, base.py:60-68) -/
abbrev EigSolver := {n : Nat} → Matrix (Fin n) (Fin n) ℝ → Option (Fin n → ℝ)

/-- The solver is backward stable with error `ε`: it returns the exact eigenvalues, in some order, of a symmetric matrix whose difference from
the given one has norm at most `ε` (LAPACK guarantees this with `ε` a small multiple of the precision times the norm of `A`). (for operations.py:28-97) -/
def EigSolver.Stable (eig : EigSolver) {n : Nat} (A : Matrix (Fin n) (Fin n) ℝ) (ε : ℝ) : Prop :=
  ∃ (B : Matrix (Fin n) (Fin n) ℝ) (hB : B.IsHermitian) (σ : Equiv.Perm (Fin n)),
    eig A = some (fun l => hB.eigenvalues (σ l)) ∧
    ∀ x : Fin n → ℝ, |∑ i, ∑ j, x i * (B i j - A i j) * x j| ≤ ε * ∑ i, x i * x i

/-- `is_positive_semidefinite` (operations.py:28-97) with a given solver. A matrix with a non-finite entry fails the symmetry test. -/
noncomputable def isPSDWith (eig : EigSolver) (a : NdArg) (tol : ℝ) : Except PyErr Bool :=
  match a with
  | .other _ => .error .typeError
  | .arr K =>
    open Classical in
    if h : K.nrows = K.ncols then
      if ∀ i j, isClose (K.get i (Fin.cast h j)) (K.get j (Fin.cast h i)) then
        match eig (lowerSym fun i j => (K.get i (Fin.cast h j)).val) with
        | none => .ok false
        | some l => .ok (decide (∀ i, ¬ l i < -tol))
      else .ok false
    else .ok false

/-- `is_PSD` of what `full` returned, with a given solver (cf. `isPsdOfFull`) (for base.py:60-68) -/
noncomputable def isPsdOfFullWith (eig : EigSolver) (r : Except PyErr (KMOut F)) : Except PyErr Bool :=
  match r with
  | .error e => .error e
  | .ok (.mat .dense M) => isPSDWith eig (.arr M) 1e-6
  | .ok _ => isPSDWith eig (.other none) 1e-6

/-- `BaseKernelFunction.is_psd` (base.py:60-68) with a given solver (cf. `baseIsPsd`) -/
noncomputable def baseIsPsdWith {K X : Type} (eig : EigSolver) (env : Env K X F) (k : K) (sample : Arr2 X) : Except PyErr Bool :=
  match KMState.exec env (.attach (.arr [sample.nrows, sample.ncols] sample.row) none) (KMState.init k true 0) with
  | (.error e, _) => .error e
  | (.ok _, s) => isPsdOfFullWith eig (KMState.exec env .full s).1

end KMethods
