import Verif.Model.Operations
import Verif.Model.Kernels
/-!
# The numeric code in floating point arithmetic

Everywhere else numbers are exact reals. Here results of arithmetic operations are rounded. `Rounding` is the usual
model of floating point arithmetic: every operation returns the exact result with a relative error of at most `u`
(`u = 2⁻⁵³` for Python floats with round to nearest). Not modelled: overflow, and underflow other than in `np.exp`.
The order in which a sum is evaluated is left open (numpy and BLAS choose it, depending on the machine), and so is the
use of fused multiply-add instructions.
-/
namespace KMethods

/-- An arithmetic with rounding: `fl x` is the number returned for an operation with exact result `x`. Rounded numbers
are not changed by rounding, and rounding is symmetric in the sign. `exp` is `np.exp`; it is only constrained on
numbers ≤ 0, where its absolute error is at most `u` (underflow to 0 is included). (for operations.py:175-204, 255-256) -/
structure Rounding where
  fl : ℝ → ℝ
  u : ℝ
  u_nonneg : 0 ≤ u
  u_lt : u < 1
  err : ∀ x, |fl x - x| ≤ u * |x|
  idem : ∀ x, fl (fl x) = fl x
  odd : ∀ x, fl (-x) = -fl x
  exp : ℝ → ℝ
  exp_zero : exp 0 = 1
  exp_err : ∀ x ≤ 0, |exp x - Real.exp x| ≤ u

/-- rounding of a result that may be non-finite (for operations.py:186, 255-256) -/
def Rounding.round (R : Rounding) : F → F
  | .real x => .real (R.fl x)
  | .nan => .nan

/-- An order of evaluation of a sum of `n` products: accumulators start at 0 or at a (rounded) product; two partial sums
can be added, and a product can be added to a partial sum with a single rounding (fused multiply-add). (for numeric_kernels.py:70-76, 144, 202, 256, 323-331, 440) -/
inductive SumTree (n : Nat) where
  | zero
  | leaf (i : Fin n)
  | node (l r : SumTree n)
  | fma (i : Fin n) (t : SumTree n)

namespace SumTree
variable {n : Nat}

/-- the terms that are added up (for numeric_kernels.py:70-76, 144, 202, 256, 323-331, 440) -/
def leaves : SumTree n → List (Fin n)
  | zero => []
  | leaf i => [i]
  | node l r => l.leaves ++ r.leaves
  | fma i t => i :: t.leaves

/-- every term is added exactly once (for numeric_kernels.py:70-76, 144, 202, 256, 323-331, 440) -/
def Complete (t : SumTree n) : Prop := t.leaves.Perm (List.finRange n)

/-- value of `Σ a_i b_i` in this order of evaluation (for operations.py:175-204, 207-263) -/
def dot (R : Rounding) (a b : Fin n → F) : SumTree n → F
  | zero => 0
  | leaf i => R.round (a i * b i)
  | node l r => R.round (l.dot R a b + r.dot R a b)
  | fma i t => R.round (a i * b i + t.dot R a b)

/-- value of `Σ a_i`, for numbers `a_i`, in this order of evaluation (here `fma` is just an addition) (for numeric_kernels.py:70-76, 144, 202, 256, 323-331, 440) -/
def sum (R : Rounding) (a : Fin n → ℝ) : SumTree n → ℝ
  | zero => 0
  | leaf i => a i
  | node l r => R.fl (l.sum R a + r.sum R a)
  | fma i t => R.fl (a i + t.sum R a)

/-- value of `Σ a_i b_i`, for finite numbers (for numeric_kernels.py:70-76, 144, 202, 256, 323-331, 440) -/
def dotR (R : Rounding) (a b : Fin n → ℝ) : SumTree n → ℝ
  | zero => 0
  | leaf i => R.fl (a i * b i)
  | node l r => R.fl (l.dotR R a b + r.dotR R a b)
  | fma i t => R.fl (a i * b i + t.dotR R a b)

end SumTree

/-- the orders in which the entries of a matrix product are summed: one for every inner dimension and every entry (for operations.py:144-204) -/
structure SumOrder where
  tree : (n : Nat) → Nat → Nat → SumTree n
  complete : ∀ n i j, (tree n i j).Complete

/-- matrix product `A @ B` / `A.dot(B)`, rounded (for operations.py:175-204, 207-263) -/
def matmulFl (R : Rounding) (o : SumOrder) {n m k : Nat} (A : Fin n → Fin m → F) (B : Fin m → Fin k → F) :
    Fin n → Fin k → F :=
  fun i j => (o.tree m i j).dot R (A i) fun l => B l j

/-- `np.diagflat(1 / np.sqrt(d))` (operations.py:186, 255-256), rounded -/
noncomputable def invSqrtDiagFl (R : Rounding) {n : Nat} (d : Fin n → F) : Fin n → Fin n → F :=
  fun i j => if i = j then R.round (1 / R.round (F.sqrt (d i))) else 0

/-- body of `normalize_km` (operations.py:175-204) for a square matrix, rounded; `o` and `o'` are the orders of
evaluation of the two products. -/
noncomputable def normalizeSquareFl (R : Rounding) (o o' : SumOrder) {n : Nat} (K : Fin n → Fin n → F) (method : String) :
    Except PyErr (Fin n → Fin n → F) :=
  open Classical in
  if method.toLower = "cosine" then
    if ∃ i, F.isClose (K i i) 0 then .error .kmNorm
    else .ok (matmulFl R o' (matmulFl R o (invSqrtDiagFl R fun i => K i i) K) (invSqrtDiagFl R fun i => K i i))
  else .error .notImplemented

/-- `normalize_km` (operations.py:144-204), rounded -/
noncomputable def normalizeKmFl (R : Rounding) (o o' : SumOrder) (K : Mat F) (method : String) : Except PyErr (Mat F) :=
  if h : K.nrows = K.ncols then
    (normalizeSquareFl R o o' (fun i j => K.get i (Fin.cast h j)) method).map fun N => ⟨K.nrows, K.nrows, N⟩
  else .error .valueError

/-- `normalize_km_2sample` (operations.py:207-263), rounded -/
noncomputable def normalizeKm2Fl (R : Rounding) (o o' : SumOrder) (K : Mat F) (dx dy : List F) (method : String) :
    Except PyErr (Mat F) :=
  open Classical in
  if dx.length ≠ K.nrows ∨ K.ncols ≠ dy.length then .error .valueError
  else if method.toLower = "cosine" then
    if (∃ d ∈ dx, F.isClose d 0) ∨ (∃ d ∈ dy, F.isClose d 0) then .error .kmNorm
    else .ok ⟨K.nrows, K.ncols, matmulFl R o' (matmulFl R o (invSqrtDiagFl R fun i => dx.getD i 0) K.get)
                (invSqrtDiagFl R fun j => dy.getD j 0)⟩
  else .error .notImplemented

/-- the operations of a `KernelMatrix` normalise and look for NaN as the code does, in floating point arithmetic (for base.py:462-507) -/
structure FloatOps (R : Rounding) (ops : Ops F) : Prop where
  normalize : ∃ o o', ops.normalize = normalizeKmFl R o o'
  normalize2 : ∃ o o', ∀ K dx dy, ops.normalize2 K dx dy = normalizeKm2Fl R o o' K dx dy "cosine"
  nonFinite : ops.nonFinite = containsNanInf

/-- `r` is the result of a library function whose exact value is `x` (for numeric_kernels.py:70-76, 144, 202, 256, 323-331, 440) -/
def Rounding.Near (R : Rounding) (r x : ℝ) : Prop := |r - x| ≤ R.u * |x|

/-- `Computes R k x y v`: calling kernel `k` on 1-D arrays `x`, `y` of equal length can return `v`, in some order of evaluation of
the sums (numeric_kernels.py:70-76, 144, 202, 256, 323-331, 440). `np.power` and `**` (`pow`) may have a relative error `u`, as the
arithmetic operations. `np.linalg.norm(z)` is `sqrt(dot(z, z))`. The parameters of the kernel are exact. Simplification: a sum over a
selection of the coordinates (`valid_terms`; non-NaN terms) is a sum in which the others contribute 0. The sigmoid kernel is not
modelled, and chi² only on non-negative entries. -/
def Rounding.Computes (R : Rounding) {d : Nat} (k : NumKernel) (x y : Fin d → ℝ) (v : ℝ) : Prop :=
  open Classical in
  let z : Fin d → ℝ := fun i => R.fl (x i - y i)
  match k with
  | .hadamard alpha => ∃ a b : Fin d → ℝ, ∃ t : SumTree d, t.Complete ∧ (∀ i, R.Near (a i) (|x i| ^ alpha)) ∧
      (∀ i, R.Near (b i) (|y i| ^ alpha)) ∧
      v = t.sum R fun i => if 0 < R.fl (2 * R.fl (a i + b i)) then R.fl (R.fl (a i * b i) / R.fl (2 * R.fl (a i + b i))) else 0
  | .poly degree gamma b => ∃ t : SumTree d, t.Complete ∧ R.Near v (R.fl (b + R.fl (gamma * t.dotR R x y)) ^ degree)
  | .gaussian _ gamma => ∃ t : SumTree d, ∃ q, t.Complete ∧ R.Near q (R.fl (Real.sqrt (t.dotR R z z)) ^ 2) ∧
      v = R.exp (R.fl (-gamma * q))
  | .laplacian gamma => ∃ t : SumTree d, t.Complete ∧ v = R.exp (R.fl (-gamma * t.sum R fun i => |z i|))
  | .chi2 gamma => ∃ t : SumTree d, ∃ q : Fin d → ℝ, t.Complete ∧ (∀ i, R.Near (q i) (z i ^ 2)) ∧
      v = R.exp (R.fl (-gamma * t.sum R fun i => if R.fl (x i + y i) = 0 then 0 else R.fl (q i / R.fl (x i + y i))))
  | .sigmoid .. => False
  | .linear => ∃ t : SumTree d, t.Complete ∧ v = t.dotR R x y

/-- `KernelMatrix` on numeric kernels, in floating point arithmetic: where the exact kernel (`NumKernel.call`) returns a number, the call
returns one of the values that can be computed; kernels can be formatted. Nothing is assumed where the exact kernel raises or is not finite, and about
the sigmoid kernel. (for base.py:573-580) -/
structure FloatEnv (R : Rounding) (env : Env NumKernel (List ℝ) F) : Prop where
  ops : FloatOps R env.ops
  fmt : ∀ k, env.fmtRaises k = false
  call : ∀ {d : Nat} (k : NumKernel) (x y : Fin d → ℝ) (c : ℝ), (∀ γ o, k ≠ .sigmoid γ o) →
    k.call false (.vec (List.ofFn x)) (.vec (List.ofFn y)) = .ok (.real c) →
    (∀ t, env.fails t k (List.ofFn x) (List.ofFn y) = false) ∧
      ∃ v, env.kval k (List.ofFn x) (List.ofFn y) = .real v ∧ R.Computes k x y v

end KMethods
