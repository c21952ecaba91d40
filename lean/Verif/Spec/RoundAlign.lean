import Verif.Spec.Rounding
import Verif.Spec.Ranking
/-!
# Error bounds for centering and alignment
-/
namespace KMethods

/-- Frobenius norm of the centered matrix -/
noncomputable def cnorm {n : Nat} (K : Matrix (Fin n) (Fin n) ℝ) : ℝ := Real.sqrt (frobInner (centered K) (centered K))

/-- bound for the distance (in the Frobenius norm) between the computed centered matrix and the exact one, for `n × n` matrices whose entries are bounded by `s_i s_j`, with
`∑ s_i² = t`, and have errors up to `η s_i s_j`: about `4 (2n + 4 + η/u) u t` -/
noncomputable def Rounding.centerErr (R : Rounding) (n : Nat) (η t : ℝ) : ℝ := ((1 + R.gamma (2 * n + 4)) * (1 + η) - 1) * (4 * t)

/-- bound for the error of the alignment of two `n × n` matrices whose centered matrices have errors `a`, `b` and norms `x`, `y` -/
noncomputable def Rounding.alignErr (R : Rounding) (n : Nat) (a x b y : ℝ) : ℝ := 2 * (a / x) + 2 * (b / y) + R.gamma (3 * (n * n) + 4)

/-- the centered norm `x`, computed with error `a`, is clearly not "close to 0" -/
def Rounding.ClearlyNonzero (R : Rounding) (n : Nat) (a x : ℝ) : Prop := (1 + R.gamma (n * n + 1)) * 1e-8 + a < x

/-- the kernel matrix or the normalised kernel matrix -/
noncomputable def normIf {n : Nat} (norm : Bool) (K : Matrix (Fin n) (Fin n) ℝ) : Matrix (Fin n) (Fin n) ℝ := if norm then cosNorm K else K

/-- error of the entries of `km.full` (C71), relative to `√(G_ii G_jj)` -/
noncomputable def Rounding.fullErr (R : Rounding) (norm : Bool) (m : Nat) : ℝ := if norm then R.normErr (R.gamma m) else R.gamma m

end KMethods
