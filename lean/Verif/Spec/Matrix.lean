import Verif.Model.F
import Verif.Spec.History
import Mathlib.LinearAlgebra.Matrix.PosDef
/-!
# Mathematical notions used to state the numeric properties
-/
namespace KMethods

/-- an ndarray with the finite entries given by a real matrix -/
def Mat.ofReal {n m : Nat} (A : Matrix (Fin n) (Fin m) ℝ) : Mat F := ⟨n, m, fun i j => .real (A i j)⟩

/-- within the absolute tolerance of `np.isclose(x, 0.0)` -/
def NearZero (x : ℝ) : Prop := |x| ≤ 1e-8

/-- centering: subtract row means and column means, add the grand mean -/
noncomputable def centered {n : Nat} (K : Matrix (Fin n) (Fin n) ℝ) : Matrix (Fin n) (Fin n) ℝ :=
  fun i j => K i j - (∑ l, K i l) / n - (∑ l, K l j) / n + (∑ a, ∑ b, K a b) / (n * n)

/-- cosine normalisation -/
noncomputable def cosNorm {n : Nat} (K : Matrix (Fin n) (Fin n) ℝ) : Matrix (Fin n) (Fin n) ℝ :=
  fun i j => K i j / Real.sqrt (K i i * K j j)

/-- cosine normalisation of a rectangular matrix, with given self-kernels of rows and of columns -/
noncomputable def cosNorm2 {n m : Nat} (K : Matrix (Fin n) (Fin m) ℝ) (d : Fin n → ℝ) (e : Fin m → ℝ) :
    Matrix (Fin n) (Fin m) ℝ :=
  fun i j => K i j / Real.sqrt (d i * e j)

/-- the Gram matrix of a real kernel on one sample; pairs are ordered by index, so it is symmetric for every `κ` -/
def Arr2.gramR {X : Type} (A : Arr2 X) (κ : X → X → ℝ) : Matrix (Fin A.nrows) (Fin A.nrows) ℝ :=
  fun i j => κ (A.row (min i j : Nat)) (A.row (max i j : Nat))

/-- the kernel matrix of a real kernel between two samples -/
def Arr2.crossR {X : Type} (A B : Arr2 X) (κ : X → X → ℝ) : Matrix (Fin A.nrows) (Fin B.nrows) ℝ :=
  fun i j => κ (A.row i) (B.row j)

/-- the kernel has the finite real values `κ` on rows of the attached samples -/
def RealOn {X : Type} (kv : X → X → F) (κ : X → X → ℝ) (a : Attachment X) : Prop :=
  ∀ x y, a.IsRow x → a.IsRow y → kv x y = .real (κ x y)

/-- Frobenius inner product of real matrices -/
def frobInner {n m : Nat} (A B : Matrix (Fin n) (Fin m) ℝ) : ℝ := ∑ i, ∑ j, A i j * B i j

/-- positive semidefinite: symmetric and `xᵀ K x ≥ 0` for every vector `x` -/
def IsPSD {n : Nat} (K : Matrix (Fin n) (Fin n) ℝ) : Prop :=
  (∀ i j, K i j = K j i) ∧ ∀ x : Fin n → ℝ, 0 ≤ ∑ i, ∑ j, x i * K i j * x j

end KMethods
