import Verif.Spec.OverflowAlign
import Verif.Spec.Ranking
import Verif.Model.OverflowRanking
/-! # Spec: ranking of kernels with overflow (C98) -/
namespace KMethods
namespace FloatFormat
variable (Φ : FloatFormat) {n : Nat}

/-- error of the centered matrix of an exact matrix with entries bounded by `s_i s_j` -/
noncomputable def errOf (s : Fin n → ℝ) : ℝ := Φ.R.centerErr n 0 (∑ i, s i ^ 2)

/-- error of the centered matrix of `y yᵀ`, whose entries are rounded -/
noncomputable def targetErr (y : Fin n → ℝ) : ℝ := Φ.R.centerErr n Φ.R.u (∑ i, y i ^ 2)

/-- the sum of the squares of the centered matrix, computed with error `a`, is below the largest number -/
def Fits (K : Matrix (Fin n) (Fin n) ℝ) (a : ℝ) : Prop := (1 + Φ.R.gamma (3 * (n * n) + 4)) * (cnorm K + a) ^ 2 ≤ Φ.max

end FloatFormat
end KMethods
