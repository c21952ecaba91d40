import Verif.Model.Rounding
import Verif.Spec.Kernels
/-!
# Error bounds
-/
namespace KMethods

/-- the textbook bound `m u / (1 - m u)` for the relative error of a chain of `m` roundings -/
noncomputable def Rounding.gamma (R : Rounding) (m : Nat) : ℝ := m * R.u / (1 - m * R.u)

/-- number of roundings in a kernel value on arrays with `d` entries -/
def NumKernel.roundings (k : NumKernel) (d : Nat) : Nat :=
  match k with
  | .poly degree _ _ => degree.toNat * (d + 2) + 1
  | .linear => d
  | .laplacian _ => d + 3
  | _ => d + 7

/-- parameters and data for which the kernel is meant to be positive semidefinite (cf. `NumKernel.ValidOn`, for whole samples) -/
def NumKernel.ValidAt {d : Nat} (k : NumKernel) (x : Fin d → ℝ) : Prop :=
  match k with
  | .hadamard α => 0 < α ∨ ∀ i, x i ≠ 0
  | .poly deg γ b => 0 ≤ deg ∧ 0 ≤ γ ∧ 0 ≤ b
  | .gaussian _ γ => 0 ≤ γ
  | .laplacian γ => 0 ≤ γ
  | .chi2 γ => 0 ≤ γ ∧ ∀ i, 0 ≤ x i
  | .sigmoid _ _ => False
  | .linear => True

/-- bound for the error of the entries of a normalised matrix when the entries of the kernel matrix have error at most `η`,
relative to `√(K_ii K_jj)` -/
noncomputable def Rounding.normErr (R : Rounding) (η : ℝ) : ℝ := ((1 + η) * R.gamma 6 + 2 * η) / (1 - η)

end KMethods
