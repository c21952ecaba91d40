import Verif.Model.OverflowNorm
import Verif.Model.RoundAlign
/-!
# Composite kernels (`base.py:1367-1575`) and `linear_combination` (`operations.py:389-432`) in floating point arithmetic with overflow

As in `Model/Overflow`. The members are given by their matrices (`km.full`), as ndarrays of one shape; `Model/Composite` models the objects, the storage of the members and the check of shapes. The start
value of `linear_combination` on one sample is a row of zeros, which numpy adds to each row of the first matrix: as a matrix of zeros would be.
-/
namespace KMethods

/-- the four classes of composite kernels, with the weights passed to `SumKernel.fit` or to the constructor of `WeightedAverageKernel` (for base.py:1457-1473) -/
inductive Combine where
  | sum (weights : Option (List Dbl))
  | product
  | average
  | weighted (weights : List Dbl)

namespace FloatFormat
variable (Φ : FloatFormat) {n m : Nat}

/-- `KM = zeros; for weight, km in zip(weights, km_set): KM = KM + weight * km.full` (base.py:1469-1471, 1571-1573; operations.py:428-430) -/
noncomputable def weightedSum (w : List Dbl) (Ks : List (Fin n → Fin m → Dbl)) : Fin n → Fin m → Dbl :=
  (w.zip Ks).foldl (fun acc p => fun i j => Φ.rnd (.addX (acc i j) (Φ.rnd (.mulX p.1 (p.2 i j))))) fun _ _ => .fin 0

/-- the four `fit` methods: `SumKernel` (base.py:1457-1473), `ProductKernel` (1496-1503), `AverageKernel` (1525-1535), `WeightedAverageKernel` (1571-1575, and the check of the weights in the constructor, 1560-1565) -/
noncomputable def fit (c : Combine) (Ks : List (Fin n → Fin n → Dbl)) : Except PyErr (Fin n → Fin n → Dbl) :=
  match c with
  | .sum none => .ok (Φ.weightedSum (List.replicate Ks.length (.fin 1)) Ks)
  | .sum (some w) => if w.length ≠ Ks.length then .error .valueError else .ok (Φ.weightedSum w Ks)
  | .product => .ok (Ks.foldl (fun acc M => fun i j => Φ.rnd (.mulX (acc i j) (M i j))) fun _ _ => .fin 1)
  | .average =>
    let S := Ks.foldl (fun acc M => fun i j => Φ.rnd (.addX (acc i j) (M i j))) fun _ _ => .fin 0
    .ok fun i j => Φ.rnd (.divX (S i j) (.fin Ks.length))
  | .weighted w => if Ks.length = w.length then .ok (Φ.weightedSum w Ks) else .error .valueError

open Classical in
/-- the weights used by `linear_combination` (operations.py:412-423); `t` is the order of summation of `weights.sum()`. (As a sum of products with 1: these are exact for floating point weights.) -/
noncomputable def combWeights (t : FlatOrder) (size : Nat) (w : List Dbl) (norm : Bool) : Except PyErr (List Dbl) :=
  if size = w.length then
    if norm then
      let denom := Φ.dot (fun i => w.get i) (fun _ => .fin 1) (t.tree w.length)
      if denom.CloseToZero then .error .runtimeError else .ok (w.map fun x => Φ.rnd (.divX x denom))
    else .ok w
  else .error .valueError

/-- `linear_combination` (operations.py:389-432) -/
noncomputable def linearCombination (t : FlatOrder) (Ks : List (Fin n → Fin m → Dbl)) (w : List Dbl) (norm : Bool) : Except PyErr (Fin n → Fin m → Dbl) :=
  (Φ.combWeights t Ks.length w norm).map fun l => Φ.weightedSum l Ks

end FloatFormat
end KMethods
