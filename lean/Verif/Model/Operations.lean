import Verif.Model.F
import Verif.Model.KernelMatrix
import Mathlib.Analysis.Matrix.Spectrum
/-!
# `kernelmethods/operations.py` over the idealised numbers `F`

Warnings are not modelled. Matrices are ndarrays (2-D) unless stated otherwise.
-/
namespace KMethods
open F

/-- an argument where an ndarray is expected: a 2-D ndarray, or some other object, which may have an attribute `shape`
(a pair; e.g. a sparse matrix) or not (e.g. a list) (for operations.py:104-141, 314-380) -/
inductive NdArg where
  | arr (A : Mat F)
  | other (shape : Option (Nat × Nat))

/-- matrix product `A @ B` / `A.dot(B)` (for operations.py:104-141, 175-204) -/
noncomputable def matmul {n m k : Nat} (A : Fin n → Fin m → F) (B : Fin m → Fin k → F) : Fin n → Fin k → F :=
  fun i j => F.sum fun l => A i l * B l j

/-- `np.eye(n) - (np.ones((n, n)) / n)` (operations.py:138-139) -/
noncomputable def centeringMatrix (n : Nat) : Fin n → Fin n → F :=
  fun i j => (if i = j then 1 else 0) - (1 : F) / real n

/-- `center_km` (operations.py:104-141) on an ndarray; for other arguments see `centerKmAny`. Since the matrix is square, `Ic` on the right may be built from the
number of columns. -/
noncomputable def centerKm (K : Mat F) : Except PyErr (Mat F) :=
  if K.nrows = K.ncols then
    .ok ⟨K.nrows, K.ncols, matmul (matmul (centeringMatrix K.nrows) K.get) (centeringMatrix K.ncols)⟩
  else .error .valueError

/-- `center_km` (operations.py:104-141) on an arbitrary object -/
noncomputable def centerKmAny : NdArg → Except PyErr (Mat F)
  | .arr K => centerKm K
  | .other _ => .error .valueError

/-- `np.diagflat(1 / np.sqrt(d))` (operations.py:186, 255-256) -/
noncomputable def invSqrtDiag {n : Nat} (d : Fin n → F) : Fin n → Fin n → F :=
  fun i j => if i = j then 1 / F.sqrt (d i) else 0

/-- body of `normalize_km` (operations.py:175-204) for a square matrix. `method.lower()` of a non-string is
not modelled. -/
noncomputable def normalizeSquare {n : Nat} (K : Fin n → Fin n → F) (method : String) :
    Except PyErr (Fin n → Fin n → F) :=
  open Classical in
  if method.toLower = "cosine" then
    if ∃ i, isClose (K i i) 0 then .error .kmNorm
    else .ok (matmul (matmul (invSqrtDiag fun i => K i i) K) (invSqrtDiag fun i => K i i))
  else .error .notImplemented

/-- `normalize_km` (operations.py:144-204) -/
noncomputable def normalizeKm (K : Mat F) (method : String) : Except PyErr (Mat F) :=
  if h : K.nrows = K.ncols then
    (normalizeSquare (fun i j => K.get i (Fin.cast h j)) method).map fun N => ⟨K.nrows, K.nrows, N⟩
  else .error .valueError

/-- `normalize_km_2sample` (operations.py:207-263) -/
noncomputable def normalizeKm2 (K : Mat F) (dx dy : List F) (method : String) : Except PyErr (Mat F) :=
  open Classical in
  if dx.length ≠ K.nrows ∨ K.ncols ≠ dy.length then .error .valueError
  else if method.toLower = "cosine" then
    if (∃ d ∈ dx, isClose d 0) ∨ (∃ d ∈ dy, isClose d 0) then .error .kmNorm
    else .ok ⟨K.nrows, K.ncols, matmul (matmul (invSqrtDiag fun i => dx.getD i 0) K.get)
                (invSqrtDiag fun j => dy.getD j 0)⟩
  else .error .notImplemented

/-- `frobenius_product` (operations.py:266-292) -/
noncomputable def frobeniusProduct (A B : Mat F) : Except PyErr F :=
  if h : A.nrows = B.nrows ∧ A.ncols = B.ncols then
    .ok (F.sum fun p : Fin A.nrows × Fin A.ncols =>
      A.get p.1 p.2 * B.get (Fin.cast h.1 p.1) (Fin.cast h.2 p.2))
  else .error .valueError

/-- `frobenius_norm` (operations.py:295-311) -/
noncomputable def frobeniusNorm (A : Mat F) : Except PyErr F :=
  (frobeniusProduct A A).map F.sqrt

/-- `frobenius_norm` of a scipy `lil_matrix`: `np.multiply(A, A)` falls back to `A * A`, the matrix
product of `scipy.sparse` matrices, which raises `ValueError` unless `A` is square. (for base.py:499-501) -/
noncomputable def frobeniusNormSparse (A : Mat F) : Except PyErr F :=
  if h : A.nrows = A.ncols then
    .ok (F.sqrt (F.sum fun p : Fin A.nrows × Fin A.ncols =>
      matmul A.get (fun (i : Fin A.ncols) j => A.get (Fin.cast h.symm i) j) p.1 p.2))
  else .error .valueError

/-- the argument `value_if_zero_division`: `'raise'`/`Exception`, or anything else, which is returned as is (for operations.py:314-380) -/
inductive ZeroDiv where
  | raise
  | value (v : F)

/-- operations.py:360-365 -/
noncomputable def centerUnless (centeredAlready : Bool) (A : Mat F) : Except PyErr (Mat F) :=
  if centeredAlready then .ok A else centerKm A

/-- end of `alignment_centered` (operations.py:367-380), on the two centered matrices -/
noncomputable def alignmentOf (cA cB : Mat F) (zd : ZeroDiv) : Except PyErr F := do
  let nA ← frobeniusNorm cA
  let nB ← frobeniusNorm cB
  if isClose nA 0 ∨ isClose nB 0 then
    match zd with
    | .raise => .error .valueError
    | .value v => .ok v
  else
    let p ← frobeniusProduct cA cB
    .ok (p / (nA * nB))

/-- `alignment_centered` (operations.py:314-380) on ndarrays; for other arguments see `alignmentCenteredAny` -/
noncomputable def alignmentCentered (A B : Mat F) (zd : ZeroDiv) (centeredAlready : Bool) :
    Except PyErr F :=
  if A.nrows ≠ B.nrows ∨ A.ncols ≠ B.ncols then .error .valueError
  else do
    let cA ← centerUnless centeredAlready A
    let cB ← centerUnless centeredAlready B
    alignmentOf cA cB zd

/-- `A.shape` (for operations.py:314-380) -/
def NdArg.shape : NdArg → Except PyErr (Nat × Nat)
  | .arr A => .ok (A.nrows, A.ncols)
  | .other (some s) => .ok s
  | .other none => .error .attributeError

/-- `alignment_centered` (operations.py:314-380) on arbitrary objects: the shapes are compared first, then the types are
checked -/
noncomputable def alignmentCenteredAny (a b : NdArg) (zd : ZeroDiv) (centeredAlready : Bool) : Except PyErr F :=
  match a, b with
  | .arr A, .arr B => alignmentCentered A B zd centeredAlready
  | a, b => do
    let s ← a.shape
    let t ← b.shape
    if s ≠ t then .error .valueError else .error .typeError

/-- the symmetric real matrix that `scipy.linalg.eigh` (default `lower=True`) reads off a matrix: its lower triangle (for operations.py:28-97) -/
def lowerSym {n : Nat} (A : Fin n → Fin n → ℝ) : Matrix (Fin n) (Fin n) ℝ :=
  fun i j => if j ≤ i then A i j else A j i

theorem lowerSym_isHermitian {n : Nat} (A : Fin n → Fin n → ℝ) : (lowerSym A).IsHermitian := by
  ext i j
  simp only [lowerSym, Matrix.conjTranspose_apply, star_trivial]
  rcases lt_trichotomy i j with h | rfl | h
  · rw [if_pos h.le, if_neg (not_le.2 h)]
  · rfl
  · rw [if_neg (not_le.2 h), if_pos h.le]

/-- `is_positive_semidefinite` (operations.py:28-97). `eigh` is idealised as the exact eigenvalues of the
symmetric matrix given by the lower triangle. A matrix with a non-finite entry fails the symmetry test
(`isclose` is false on NaN). For the 0×0 matrix the answer of `eigh` depends on the scipy version (no eigenvalues, or
an exception, which counts as not PSD); the model takes the former. -/
noncomputable def isPSD (a : NdArg) (tol : ℝ) : Except PyErr Bool :=
  match a with
  | .other _ => .error .typeError
  | .arr K =>
    open Classical in
    if h : K.nrows = K.ncols then
      if ∀ i j, isClose (K.get i (Fin.cast h j)) (K.get j (Fin.cast h i)) then
        .ok (decide (∀ l, ¬ (lowerSym_isHermitian fun i j => (K.get i (Fin.cast h j)).val).eigenvalues l < -tol))
      else .ok false
    else .ok false

/-- `contains_nan_inf` (utils.py:165-181), also for sparse matrices, which are densified first -/
noncomputable def containsNanInf (A : Mat F) : Bool :=
  open Classical in decide (¬ (∀ i j, (A.get i j).isFinite) ∨ ∃ i j, ¬ (A.get i j).isFinite)

/-- The numeric operations of `operations.py` as used by `KernelMatrix`; `normalize_km_2sample` is called with its
default method (base.py:499-501). -/
noncomputable def realOps : Ops F where
  nan := .nan
  zero := 0
  normalize := normalizeKm
  normalize2 K dx dy := normalizeKm2 K dx dy "cosine"
  center := centerKm
  frob := frobeniusNorm
  frobSparse := frobeniusNormSparse
  nonFinite := containsNanInf

end KMethods
