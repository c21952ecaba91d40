import Verif.Spec.OverflowNorm
import Verif.Model.OverflowComposite
/-! # Spec: composite kernels with overflow (C97) -/
namespace KMethods
variable {n m : Nat}

/-- the value of a finite number -/
def Dbl.val : Dbl → ℝ
  | .fin x => x
  | _ => 0

/-- `sum_k w_k K_k[i, j]`, exact -/
def entrySum (w : List Dbl) (Ks : List (Fin n → Fin m → Dbl)) (i : Fin n) (j : Fin m) : ℝ := ((w.zip Ks).map fun p => p.1.val * (p.2 i j).val).sum

/-- `sum_k |w_k K_k[i, j]|` -/
def entrySumAbs (w : List Dbl) (Ks : List (Fin n → Fin m → Dbl)) (i : Fin n) (j : Fin m) : ℝ := ((w.zip Ks).map fun p => |p.1.val * (p.2 i j).val|).sum

/-- `prod_k K_k[i, j]`, exact -/
def entryProd (Ks : List (Fin n → Fin m → Dbl)) (i : Fin n) (j : Fin m) : ℝ := (Ks.map fun A => (A i j).val).prod

/-- the composite is the sum of `N` members with these weights -/
inductive Combine.Weights : Combine → Nat → List Dbl → Prop
  | plain (N : Nat) : Weights (.sum none) N (List.replicate N (.fin 1))
  | given (w : List Dbl) : Weights (.sum (some w)) w.length w
  | weighted (w : List Dbl) : Weights (.weighted w) w.length w

/-- exactly normalised weights -/
noncomputable def normalisedWeights (w : List Dbl) : List Dbl := w.map fun x => .fin (x.val / (w.map Dbl.val).sum)

end KMethods
