import Verif.Model.Kernels
/-!
# How much a kernel may change when its arguments change
-/
namespace KMethods
variable {d : Nat}

/-- Euclidean length -/
noncomputable def length2 (x : Fin d → ℝ) : ℝ := Real.sqrt (∑ k, x k ^ 2)
/-- Euclidean distance -/
noncomputable def dist2 (x y : Fin d → ℝ) : ℝ := Real.sqrt (∑ k, (x k - y k) ^ 2)
/-- sum of the absolute differences -/
def dist1 (x y : Fin d → ℝ) : ℝ := ∑ k, |x k - y k|

/-- how much the scalar product may change between `x, y` and `x', y'` -/
noncomputable def dotChange (x y x' y' : Fin d → ℝ) : ℝ := dist2 x x' * length2 y + length2 x' * dist2 y y'

/-- the values of all parameters and entries for which the kernel is meant; the sigmoid and linear kernels have no restrictions -/
def NumKernel.MeantFor (k : NumKernel) (x : Fin d → ℝ) : Prop :=
  match k with
  | .hadamard α => 0 < α
  | .poly deg _ _ => 0 ≤ deg
  | .gaussian _ γ => 0 ≤ γ
  | .laplacian γ => 0 ≤ γ
  | .chi2 γ => 0 ≤ γ ∧ ∀ k, 0 ≤ x k
  | .sigmoid _ _ => True
  | .linear => True

/-- how much the value of the kernel may change between `x, y` and `x', y'` -/
noncomputable def NumKernel.change (k : NumKernel) (x y x' y' : Fin d → ℝ) : ℝ :=
  match k with
  | .hadamard α => 1 / 2 * ∑ i, (|(|x i| ^ α - |x' i| ^ α)| + |(|y i| ^ α - |y' i| ^ α)|)
  | .poly deg γ b => deg.toNat * max |b + γ * ∑ i, x i * y i| |b + γ * ∑ i, x' i * y' i| ^ (deg.toNat - 1) * (|γ| * dotChange x y x' y')
  | .gaussian _ γ => Real.sqrt γ * (dist2 x x' + dist2 y y')
  | .laplacian γ => γ * (dist1 x x' + dist1 y y')
  | .chi2 γ => 3 * γ * (dist1 x x' + dist1 y y')
  | .sigmoid γ _ => |γ| * dotChange x y x' y'
  | .linear => dotChange x y x' y'

/-- no coordinate of the vectors differs by more than `δ` -/
def Within (δ : ℝ) (x x' : Fin d → ℝ) : Prop := ∀ k, |x k - x' k| ≤ δ

end KMethods
