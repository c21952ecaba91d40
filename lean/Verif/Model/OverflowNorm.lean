import Verif.Model.Overflow
/-!
# Normalisation in floating point arithmetic with overflow (`operations.py`)

As `normalize_km` and `normalize_km_2sample` in `Model/Operations` and `Model/Rounding`, with infinite numbers and NaN as in `Model/Overflow`.
-/
namespace KMethods

/-- `np.isclose(d, 0.0)` (for operations.py:144-204, 207-263) -/
def Dbl.CloseToZero : Dbl → Prop
  | fin a => |a| ≤ 1e-8
  | _ => False

namespace FloatFormat
variable (Φ : FloatFormat)

/-- matrix product `A @ B` (for operations.py:144-204, 207-263) -/
noncomputable def matmul (o : SumOrder) {n m k : Nat} (A : Fin n → Fin m → Dbl) (B : Fin m → Fin k → Dbl) : Fin n → Fin k → Dbl :=
  fun i j => Φ.dot (A i) (fun l => B l j) (o.tree m i j)

/-- `1 / np.sqrt(d)` (for operations.py:186, 255-256) -/
noncomputable def invSqrt (d : Dbl) : Dbl := Φ.rnd (.divX (.fin 1) (Φ.rnd (.sqrtX d)))

/-- `np.diagflat(1 / np.sqrt(d))` (operations.py:186, 255-256) -/
noncomputable def invSqrtDiag {n : Nat} (d : Fin n → Dbl) : Fin n → Fin n → Dbl :=
  fun i j => if i = j then Φ.invSqrt (d i) else .fin 0

/-- `normalize_km` (operations.py:144-204); `o` and `o'` are the orders of evaluation of the two products. Warnings are not modelled here. -/
noncomputable def normalizeKm (o o' : SumOrder) (K : Mat Dbl) (method : String) : Except PyErr (Mat Dbl) :=
  open Classical in
  if h : K.nrows = K.ncols then
    if method.toLower = "cosine" then
      if ∃ i, (K.get i (Fin.cast h i)).CloseToZero then .error .kmNorm
      else .ok ⟨K.nrows, K.nrows, Φ.matmul o' (Φ.matmul o (Φ.invSqrtDiag fun i => K.get i (Fin.cast h i)) fun i j => K.get i (Fin.cast h j))
        (Φ.invSqrtDiag fun i => K.get i (Fin.cast h i))⟩
    else .error .notImplemented
  else .error .valueError

/-- `normalize_km_2sample` (operations.py:207-263) -/
noncomputable def normalizeKm2 (o o' : SumOrder) (K : Mat Dbl) (dx dy : List Dbl) (method : String) : Except PyErr (Mat Dbl) :=
  open Classical in
  if dx.length ≠ K.nrows ∨ K.ncols ≠ dy.length then .error .valueError
  else if method.toLower = "cosine" then
    if (∃ d ∈ dx, d.CloseToZero) ∨ (∃ d ∈ dy, d.CloseToZero) then .error .kmNorm
    else .ok ⟨K.nrows, K.ncols, Φ.matmul o' (Φ.matmul o (Φ.invSqrtDiag fun i => dx.getD i (.fin 0)) K.get) (Φ.invSqrtDiag fun j => dy.getD j (.fin 0))⟩
  else .error .notImplemented

end FloatFormat

/-- `KernelMatrix` on numeric kernels in floating point arithmetic with overflow, as `OverflowEnv`, with infinite numbers and NaN in the matrices and the normalisation of the code. (for base.py:573-580) -/
structure DoubleEnv (Φ : FloatFormat) (env : Env NumKernel (List Dbl) Dbl) : Prop where
  normalize : ∃ o o', env.ops.normalize = Φ.normalizeKm o o'
  normalize2 : ∃ o o', ∀ K dx dy, env.ops.normalize2 K dx dy = Φ.normalizeKm2 o o' K dx dy "cosine"
  fmt : ∀ k, env.fmtRaises k = false
  call : ∀ {d : Nat} (k : NumKernel) (x y : Fin d → Dbl), (∀ γ, k = .chi2 γ → ∀ i, ¬ (x i).Neg ∧ ¬ (y i).Neg) →
    (∀ t, env.fails t k (List.ofFn x) (List.ofFn y) = false) ∧ Φ.Computes k x y (env.kval k (List.ofFn x) (List.ofFn y))

end KMethods
