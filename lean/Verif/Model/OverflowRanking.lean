import Verif.Model.OverflowAlign
import Verif.Model.Ranking
/-!
# Ranking of kernels (`ranking.py`, `min_max_scale` of `utils.py`) in floating point arithmetic with overflow

As in `Model/Overflow`. The kernels of the bucket are given by their matrices (`km.full`), as ndarrays of one shape; the scores of the cross-validation (`gs.best_score_`) are arbitrary floating point
numbers. `Model/Ranking` models the bucket, the methods and their parameters.
-/
namespace KMethods
namespace Dbl

/-- `x < y` (for utils.py:154-162) -/
def Less : Dbl → Dbl → Prop
  | fin a, fin b => a < b
  | fin _, inf s => s = false
  | inf s, fin _ => s = true
  | inf s, inf t => s = true ∧ t = false
  | _, _ => False

open Classical in
/-- `np.minimum` of two numbers: NaN if one is NaN (for utils.py:154-162) -/
noncomputable def minX (x y : Dbl) : Dbl := if x = nan ∨ y = nan then nan else if y.Less x then y else x

open Classical in
/-- `np.maximum` of two numbers: NaN if one is NaN (for utils.py:154-162) -/
noncomputable def maxX (x y : Dbl) : Dbl := if x = nan ∨ y = nan then nan else if x.Less y then y else x

open Classical in
/-- `np.argmax` of a 1-D array: `ValueError` if it is empty; the position of the first NaN if there is one, else of the first maximum (for ranking.py:53-55) -/
noncomputable def argmax (l : List Dbl) : Except PyErr Nat :=
  if l = [] then .error .valueError
  else match l.findIdx? fun x => decide (x = nan) with
    | some i => .ok i
    | none => match l.findIdx? fun x => decide (∀ y ∈ l, ¬ x.Less y) with
      | some i => .ok i
      | none => .error .valueError

end Dbl

namespace FloatFormat
variable (Φ : FloatFormat) {n : Nat}

/-- `np.outer(targets, targets)` (ranking.py:144) -/
noncomputable def targetKernel (y : Fin n → Dbl) : Fin n → Fin n → Dbl := fun i j => Φ.rnd (.mulX (y i) (y j))

/-- the score of one kernel matrix in `alignment_ranking` (ranking.py:147-150); `zd` is `value_if_zero_division`, 0.0 by default -/
noncomputable def alignmentScore (o : AlignOrders) (y : Fin n → Dbl) (zd : Option Dbl) (K : Fin n → Fin n → Dbl) : Except PyErr Dbl :=
  Φ.alignmentCentered o ⟨n, n, K⟩ ⟨n, n, Φ.targetKernel y⟩ zd false

/-- `alignment_ranking` (ranking.py:134-150); orders of summation may differ between matrices -/
noncomputable def alignmentRanking (o : (Fin n → Fin n → Dbl) → AlignOrders) (y : Fin n → Dbl) (zd : Option Dbl) (Ks : List (Fin n → Fin n → Dbl)) : Except PyErr (List Dbl) :=
  Ks.mapM fun K => Φ.alignmentScore (o K) y zd K

/-- the position of the kernel chosen by `find_optimal_kernel(method='align/corr')` (ranking.py:53-55) -/
noncomputable def chooseByAlignment (o : (Fin n → Fin n → Dbl) → AlignOrders) (y : Fin n → Dbl) (zd : Option Dbl) (Ks : List (Fin n → Fin n → Dbl)) : Except PyErr Nat := do
  let metric ← Φ.alignmentRanking o y zd Ks
  Dbl.argmax metric

open Classical in
/-- `min_max_scale` (utils.py:154-162) -/
noncomputable def minMaxScale : List Dbl → Except PyErr (List Dbl)
  | [] => .error .valueError
  | x :: l =>
    let minVal := l.foldl .minX x
    let spread := Φ.rnd (.addX (l.foldl .maxX x) minVal.neg)
    if spread.CloseToZero then .ok ((x :: l).map fun _ => .fin 0)
    else .ok ((x :: l).map fun v => Φ.rnd (.divX (Φ.rnd (.addX v minVal.neg)) spread))

/-- `CV_ranking` (ranking.py:130-131) with the given scores -/
noncomputable def cvRanking (scores : List Dbl) : Except PyErr (List Dbl) :=
  (Φ.minMaxScale scores).map fun l => l.map fun x => Φ.rnd (.mulX (.fin 100) x)

/-- the position of the kernel chosen by `find_optimal_kernel(method='cv_risk')` (ranking.py:53-55) -/
noncomputable def chooseByCV (scores : List Dbl) : Except PyErr Nat := do
  let metric ← Φ.cvRanking scores
  Dbl.argmax metric

end FloatFormat
end KMethods
