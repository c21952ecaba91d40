import Verif.Model.RoundAlign
import Verif.Model.Composite
/-!
# Composite kernels (`base.py:1367-1575`) and `linear_combination` (`operations.py:389-432`) in floating point arithmetic

As in `Model/Rounding`: results of operations are rounded, orders of summation are left open. The loops add up matrices one after the
other, so only the inner products of the matrix products (members in sparse storage) and `weights.sum()` have an open order. Only the
arithmetic differs from `Model/Composite`; the other lines are the same definitions.
-/
namespace KMethods
open PyM

/-- `acc + M` (base.py:1471, 1530, 1573; operations.py:430), rounded; otherwise as `addStored` -/
def addStoredFl (R : Rounding) (acc M : Fmt × Mat F) : Except PyErr (Fmt × Mat F) :=
  (addStored acc M).map fun S => (S.1, S.2.map R.round)

/-- `weight * M` (base.py:1471, 1573; operations.py:430), rounded -/
def scaleStoredFl (R : Rounding) (w : F) (M : Fmt × Mat F) : Fmt × Mat F := (M.1, M.2.map fun x => R.round (w * x))

/-- matrix product, rounded (for base.py:1501) -/
def Mat.dotFl (R : Rounding) (o : SumOrder) (A B : Mat F) : Except PyErr (Mat F) :=
  if h : A.ncols = B.nrows then .ok ⟨A.nrows, B.ncols, matmulFl R o A.get fun (k : Fin A.ncols) j => B.get (Fin.cast h k) j⟩
  else .error .valueError

/-- `acc * M` (base.py:1501), rounded: element-wise for two ndarrays, the matrix product when one of them is a `np.matrix` or sparse -/
def mulStoredFl (R : Rounding) (o : SumOrder) (acc M : Fmt × Mat F) : Except PyErr (Fmt × Mat F) :=
  if acc.1 = .dense ∧ M.1 = .dense then (Mat.zipBcast (fun a b => R.round (a * b)) acc.2 M.2).map fun S => (.dense, S)
  else (Mat.dotFl R o acc.2 M.2).map fun S => (if acc.1 = .npMatrix ∨ M.1 = .npMatrix then .npMatrix else .dense, S)

namespace CompSt
variable {K X : Type}

/-- start value and weighted sum (base.py:1469-1471, 1571-1573), rounded -/
noncomputable def weightedSumFl (env : Env K X F) (R : Rounding) (weights : List F) : PyM (CompSt K X) Unit := do
  let s ← get
  let Z ← lift (squareOf 0 s.comp.numSamples)
  setKM (.dense, Z)
  forEach (weights.zip s.set.members) fun p => step env (fun acc M => addStoredFl R acc (scaleStoredFl R p.1 M)) p.2

/-- the four `fit` methods up to the last line: `SumKernel` (base.py:1460-1471), `ProductKernel` (1499-1501), `AverageKernel` (1528-1533), `WeightedAverageKernel` (1571-1573), rounded.
`o` are the orders of summation of the matrix products (of members in sparse storage). -/
noncomputable def fitBodyFl (env : Env K X F) (R : Rounding) (o : SumOrder) (w : Option WeightsIn) (s : CompSt K X) : PyM (CompSt K X) Unit :=
  match s.comp.kind with
  | .sum => do
    let l ← lift (sumWeights s.set.members.length w)
    weightedSumFl env R l
  | .product => do
    raiseIf w.isSome .typeError
    let Z ← lift (squareOf 1 s.comp.numSamples)
    setKM (.dense, Z)
    forEach s.set.members (step env (mulStoredFl R o))
  | .average => do
    raiseIf w.isSome .typeError
    let Z ← lift (squareOf 0 s.comp.numSamples)
    setKM (.dense, Z)
    forEach s.set.members (step env (addStoredFl R))
    let acc ← getAttr (·.comp.km)
    setKM (acc.1, acc.2.map fun x => R.round (x / .real s.set.members.length))
  | .weighted l => do
    raiseIf w.isSome .typeError
    weightedSumFl env R l

/-- `fit` (base.py:1457-1473, 1496-1503, 1525-1535, 1568-1575), rounded -/
noncomputable def fitFl (env : Env K X F) (R : Rounding) (o : SumOrder) (w : Option WeightsIn) : PyM (CompSt K X) Unit := do
  let s ← get
  fitBodyFl env R o w s
  modify fun s => { s with comp := { s.comp with isFitted := true } }

end CompSt

/-- `weights.sum()` (operations.py:420), rounded. (As a sum of products with 1: these are exact for floating point weights.) -/
def sumFl (R : Rounding) (t : FlatOrder) (l : List F) : F := (t.tree l.length).dot R (fun i => l.get i) fun _ => 1

open Classical in
/-- the weights used by `linear_combination` (operations.py:412-423), rounded -/
noncomputable def combWeightsFl (R : Rounding) (t : FlatOrder) (size : Nat) (w : WeightsIn) (norm : Bool) : Except PyErr (List F) := do
  let l ← w.checked size
  if norm then
    let denom := sumFl R t l
    if F.isClose denom 0 then .error .runtimeError else pure (l.map fun x => R.round (x / denom))
  else pure l

/-- the loop of `linear_combination` (operations.py:429-430), rounded -/
noncomputable def combLoopFl {K X : Type} (env : Env K X F) (R : Rounding) : List (F × Nat) → Fmt × Mat F → PyM (Heap K X) (Fmt × Mat F)
  | [], acc => pure acc
  | p :: l, acc => do
    let M ← Heap.full env p.2
    let acc' ← lift (addStoredFl R acc (scaleStoredFl R p.1 M))
    combLoopFl env R l acc'

/-- `linear_combination` (operations.py:389-432), rounded -/
noncomputable def linearCombinationFl {K X : Type} (env : Env K X F) (R : Rounding) (o : FlatOrder) (t : KSet) (w : WeightsIn) (norm : Bool) :
    PyM (Heap K X) (Fmt × Mat F) := do
  let l ← lift (combWeightsFl R o t.members.length w norm)
  let Z ← lift (zerosOf t.numSamples)
  combLoopFl env R (l.zip t.members) (.dense, Z)

end KMethods
