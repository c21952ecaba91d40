import Verif.Spec.Rounding
import Verif.Model.Overflow
/-! # Data for which kernels do not overflow -/
namespace KMethods

/-- no number on the way to the value of the kernel is larger than `M` (in exact arithmetic, with signs removed) -/
def NumKernel.Moderate {d : Nat} (k : NumKernel) (M : ℝ) (x y : Fin d → ℝ) : Prop :=
  match k with
  | .hadamard α => (∀ i, 2 * (|x i| ^ α + |y i| ^ α) ≤ M ∧ |x i| ^ α * |y i| ^ α ≤ M) ∧ ∑ i, |x i| ^ α ≤ M
  | .poly deg γ b => ∑ i, |x i * y i| ≤ M ∧ |b| + |γ| * ∑ i, |x i * y i| ≤ M ∧ (|b| + |γ| * ∑ i, |x i * y i|) ^ deg.toNat ≤ M
  | .gaussian _ γ => ∑ i, (x i - y i) ^ 2 ≤ M ∧ γ * ∑ i, (x i - y i) ^ 2 ≤ M
  | .laplacian γ => ∑ i, |x i - y i| ≤ M ∧ γ * ∑ i, |x i - y i| ≤ M
  | .chi2 γ => (∀ i, (x i - y i) ^ 2 ≤ M) ∧ ∑ i, (x i + y i) ≤ M ∧ γ * ∑ i, (x i + y i) ≤ M
  | .sigmoid .. => False
  | .linear => ∑ i, |x i * y i| ≤ M

/-- kernels for which overflow shows in the value, or does not matter -/
def NumKernel.Detects : NumKernel → Prop
  | .poly .. => True
  | .linear => True
  | .gaussian _ γ => 0 < γ
  | .laplacian γ => 0 < γ
  | _ => False

/-- the error that overflow can cause: the values of Gaussian and Laplacian kernel at distances that cannot be represented, after `m` roundings -/
noncomputable def FloatFormat.lost (Φ : FloatFormat) (k : NumKernel) (m : Nat) : ℝ :=
  match k with
  | .gaussian _ γ => Real.exp (-(min γ 1 * Φ.max / (1 + Φ.R.gamma m)))
  | .laplacian γ => Real.exp (-(min γ 1 * Φ.max / (1 + Φ.R.gamma m)))
  | _ => 0

/-- finite -/
def Dbl.Finite : Dbl → Prop
  | .fin _ => True
  | _ => False

/-- infinite -/
def Dbl.Infinite : Dbl → Prop
  | .inf _ => True
  | _ => False

/-- kernels whose value on two samples of which one contains an infinite number is not finite -/
def NumKernel.Propagating : NumKernel → Prop
  | .poly deg _ _ => 1 ≤ deg
  | .linear => True
  | .hadamard α => 0 < α
  | _ => False

/-- kernels that are not finite on a sample with an infinite number and itself -/
def NumKernel.Shows : NumKernel → Prop
  | .gaussian .. => True
  | .laplacian .. => True
  | k => k.Propagating

end KMethods
