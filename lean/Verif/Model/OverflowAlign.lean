import Verif.Model.OverflowNorm
import Verif.Model.RoundAlign
/-!
# Centering, Frobenius products and alignment in floating point arithmetic with overflow (`operations.py`)

As in `Model/Operations` and `Model/RoundAlign`, with infinite numbers and NaN as in `Model/Overflow`. Warnings are not modelled here.
-/
namespace KMethods
namespace FloatFormat
variable (Φ : FloatFormat)

/-- `np.eye(n) - (np.ones((n, n)) / n)` (operations.py:138-139) -/
noncomputable def centeringMatrix (n : Nat) : Fin n → Fin n → Dbl :=
  fun i j => Φ.rnd (.addX (.fin (if i = j then 1 else 0)) (.neg (Φ.rnd (.divX (.fin 1) (.fin n)))))

/-- `center_km` (operations.py:104-141) on an ndarray; `o` and `o'` are the orders of evaluation of the two products -/
noncomputable def centerKm (o o' : SumOrder) (K : Mat Dbl) : Except PyErr (Mat Dbl) :=
  if K.nrows = K.ncols then
    .ok ⟨K.nrows, K.ncols, Φ.matmul o' (Φ.matmul o (Φ.centeringMatrix K.nrows) K.get) (Φ.centeringMatrix K.ncols)⟩
  else .error .valueError

/-- `frobenius_product` (operations.py:266-292) -/
noncomputable def frobeniusProduct (t : FlatOrder) (A B : Mat Dbl) : Except PyErr Dbl :=
  if h : A.nrows = B.nrows ∧ A.ncols = B.ncols then
    .ok (Φ.dot (fun p => A.get p.divNat p.modNat) (fun p => B.get (Fin.cast h.1 p.divNat) (Fin.cast h.2 p.modNat)) (t.tree (A.nrows * A.ncols)))
  else .error .valueError

/-- `frobenius_norm` (operations.py:295-311) -/
noncomputable def frobeniusNorm (t : FlatOrder) (A : Mat Dbl) : Except PyErr Dbl :=
  (Φ.frobeniusProduct t A A).map fun x => Φ.rnd (.sqrtX x)

/-- operations.py:360-365 -/
noncomputable def centerUnless (o o' : SumOrder) (centeredAlready : Bool) (A : Mat Dbl) : Except PyErr (Mat Dbl) :=
  if centeredAlready then .ok A else Φ.centerKm o o' A

open Classical in
/-- end of `alignment_centered` (operations.py:367-380); `zd` is `none` for `value_if_zero_division='raise'` -/
noncomputable def alignmentOf (o : AlignOrders) (cA cB : Mat Dbl) (zd : Option Dbl) : Except PyErr Dbl := do
  let nA ← Φ.frobeniusNorm o.na cA
  let nB ← Φ.frobeniusNorm o.nb cB
  if nA.CloseToZero ∨ nB.CloseToZero then
    match zd with
    | none => .error .valueError
    | some v => .ok v
  else
    let p ← Φ.frobeniusProduct o.p cA cB
    .ok (Φ.rnd (.divX p (Φ.rnd (.mulX nA nB))))

/-- `alignment_centered` (operations.py:314-380) on ndarrays -/
noncomputable def alignmentCentered (o : AlignOrders) (A B : Mat Dbl) (zd : Option Dbl) (centeredAlready : Bool) : Except PyErr Dbl :=
  if A.nrows ≠ B.nrows ∨ A.ncols ≠ B.ncols then .error .valueError
  else do
    let cA ← Φ.centerUnless o.a₁ o.a₂ centeredAlready A
    let cB ← Φ.centerUnless o.b₁ o.b₂ centeredAlready B
    Φ.alignmentOf o cA cB zd

end FloatFormat
end KMethods
