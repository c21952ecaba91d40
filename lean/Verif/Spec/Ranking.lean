import Verif.Model.Ranking
import Verif.Spec.Sampling
/-!
# Notions used to state the properties of kernel rankings
-/
namespace KMethods
variable {K X : Type}

/-- position `i` has the largest score, and positions before it have smaller ones -/
def FirstBest (scores : List ℝ) (i : Nat) : Prop :=
  ∃ x, scores[i]? = some x ∧ (∀ y ∈ scores, y ≤ x) ∧ ∀ y ∈ scores.take i, y < x

/-- the kernel function `k` does not raise on the sample `A` and has the finite matrix `M` there, normalised to self-kernels 1 if `norm` -/
def IsMatrix1 (env : Env K X F) (k : K) (norm : Bool) (A : Arr2 X) (M : Matrix (Fin A.nrows) (Fin A.nrows) ℝ) : Prop :=
  ∃ κ, KMState.NoFaultsOn env k ⟨A, none⟩ ∧ RealOn (env.kval k) κ ⟨A, none⟩ ∧
    if norm then (∀ i : Fin A.nrows, 0 ≤ κ (A.row i) (A.row i) ∧ ¬ NearZero (κ (A.row i) (A.row i))) ∧ M = cosNorm (A.gramR κ)
    else M = A.gramR κ

/-- the same for the matrix between the samples `B` (rows) and `A` (columns) -/
def IsMatrix2 (env : Env K X F) (k : K) (norm : Bool) (B A : Arr2 X) (M : Matrix (Fin B.nrows) (Fin A.nrows) ℝ) : Prop :=
  ∃ κ, KMState.NoFaultsOn env k ⟨B, some A⟩ ∧ RealOn (env.kval k) κ ⟨B, some A⟩ ∧
    if norm then (∀ i : Fin B.nrows, 0 ≤ κ (B.row i) (B.row i) ∧ ¬ NearZero (κ (B.row i) (B.row i))) ∧
      (∀ j : Fin A.nrows, 0 ≤ κ (A.row j) (A.row j) ∧ ¬ NearZero (κ (A.row j) (A.row j))) ∧
      M = cosNorm2 (B.crossR A κ) (fun i => κ (B.row i) (B.row i)) fun j => κ (A.row j) (A.row j)
    else M = B.crossR A κ

/-- object `r` is a kernel matrix object (with any history) whose kernel function, on the sample `A`, has the (finite) matrix `M`, normalised if the object normalises -/
def Heap.KernelOn (env : Env K X F) (h : Heap K X) (r : Nat) (A : Arr2 X) (M : Matrix (Fin A.nrows) (Fin A.nrows) ℝ) : Prop :=
  ∃ k norm, h.IsKM env r k norm ∧ IsMatrix1 env k norm A M

/-- object `r` is a kernel matrix object attached to the sample `A`, of which only `full` has been asked since -/
def Heap.AttachedTo (env : Env K X F) (h : Heap K X) (r : Nat) (k : K) (norm : Bool) (A : Arr2 X) : Prop :=
  ∃ t, h.objs r = some (.km t) ∧ KMState.Since env k norm ⟨A, none⟩ (fun op => op = .full) t

/-- from `s` to `s'`: the set has been attached to the sample `A`, together with all its members; nothing else has changed -/
def SetSt.NowAttached (env : Env K X F) (s s' : SetSt K X) (A : Arr2 X) : Prop :=
  s'.set = { s.set with numSamples := .one A.nrows } ∧ (∀ r, r ∉ s.set.members → s'.heap.objs r = s.heap.objs r) ∧
    ∀ r k norm, r ∈ s.set.members → s.heap.IsKM env r k norm → s'.heap.AttachedTo env r k norm A

/-- a 2-D array as an argument -/
def sampleArg (A : Arr2 X) : SetSample X := .arr true [A.nrows, A.ncols] A.row

/-- `y yᵀ` -/
def outerR (n : Nat) (y : Fin n → ℝ) : Matrix (Fin n) (Fin n) ℝ := fun i j => y i * y j

/-- object `r` is a kernel matrix object (with any history); attached to the sample `A` its full matrix is `M`, which may contain NaN -/
def Heap.MatrixOn (env : Env K X F) (h : Heap K X) (r : Nat) (A : Arr2 X) (M : Mat F) : Prop :=
  ∃ k norm, h.IsKM env r k norm ∧ ∀ t, KMState.Since env k norm ⟨A, none⟩ (fun op => op = .full) t → (KMState.exec env .full t).1 = .ok (.mat .dense M)

/-- the kernels of `numeric_kernels.py` as functions -/
noncomputable def NumKernel.formula (k : NumKernel) (x y : List ℝ) : ℝ :=
  match k with
  | .linear => (List.zipWith (· * ·) x y).sum
  | .poly d γ b => (b + γ * (List.zipWith (· * ·) x y).sum) ^ d
  | .gaussian _ γ => Real.exp (-γ * (List.zipWith (fun a b => (a - b) ^ 2) x y).sum)
  | .laplacian γ => Real.exp (-γ * (List.zipWith (fun a b => |a - b|) x y).sum)
  | .sigmoid γ o => Real.tanh (o + γ * (List.zipWith (· * ·) x y).sum)
  | .chi2 γ => Real.exp (-γ * (List.zipWith (fun a b => (a - b) ^ 2 / (a + b)) x y).sum)
  | .hadamard α => (List.zipWith (fun a b => |a| ^ α * |b| ^ α / (2 * (|a| ^ α + |b| ^ α))) x y).sum

/-- the matrix of kernel values on the rows of `A` -/
noncomputable def NumKernel.matrixOn (k : NumKernel) (A : Arr2 (List ℝ)) : Matrix (Fin A.nrows) (Fin A.nrows) ℝ := fun i j => k.formula (A.row i) (A.row j)

/-- the same, normalised if `norm` -/
noncomputable def NumKernel.matrixOf (norm : Bool) (k : NumKernel) (A : Arr2 (List ℝ)) : Matrix (Fin A.nrows) (Fin A.nrows) ℝ :=
  if norm then cosNorm (k.matrixOn A) else k.matrixOn A

/-- the squared length of row `i` -/
def Arr2.sqNorm (A : Arr2 (List ℝ)) (i : Nat) : ℝ := ((A.row i).map fun a => a ^ 2).sum

end KMethods
