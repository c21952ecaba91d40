import Verif.Model.Rounding
/-!
# The numeric kernels in floating point arithmetic with overflow and infinite numbers (`numeric_kernels.py`)

`Model/Rounding` has numbers of unlimited size. Here a result that is too large, after rounding, becomes infinite, as in IEEE 754, and infinite numbers
and NaN are operands like others. Not modelled: underflow other than in `np.exp`, the sign of zero, floating point warnings (numpy prints them, at most).
-/
namespace KMethods

/-- a floating point number: finite, infinite (`inf true` is `-inf`), or NaN (for numeric_kernels.py:70-76, 144, 202, 256, 323-331, 396, 440) -/
inductive Dbl where
  | fin (x : ℝ)
  | inf (neg : Bool)
  | nan

namespace Dbl
open Classical

/-- exact sum (for numeric_kernels.py:70-76, 144, 202, 256, 323-331, 396, 440) -/
def addX : Dbl → Dbl → Dbl
  | fin a, fin b => fin (a + b)
  | inf s, inf t => if s = t then inf s else nan
  | inf s, fin _ => inf s
  | fin _, inf s => inf s
  | _, _ => nan

/-- `-x` (for numeric_kernels.py:70-76, 144, 202, 256, 323-331, 396, 440) -/
def neg : Dbl → Dbl
  | fin a => fin (-a)
  | inf s => inf !s
  | nan => nan

/-- exact product (for numeric_kernels.py:70-76, 144, 202, 256, 323-331, 396, 440) -/
noncomputable def mulX : Dbl → Dbl → Dbl
  | fin a, fin b => fin (a * b)
  | inf s, inf t => inf (s ^^ t)
  | inf s, fin b => if b = 0 then nan else inf (s ^^ decide (b < 0))
  | fin a, inf s => if a = 0 then nan else inf (s ^^ decide (a < 0))
  | _, _ => nan

/-- exact quotient; zeros are positive (for numeric_kernels.py:70-76, 144, 202, 256, 323-331, 396, 440) -/
noncomputable def divX : Dbl → Dbl → Dbl
  | fin a, fin b => if b = 0 then (if a = 0 then nan else inf (decide (a < 0))) else fin (a / b)
  | inf s, fin b => inf (s ^^ decide (b < 0))
  | fin _, inf _ => fin 0
  | _, _ => nan

/-- exact square root (for numeric_kernels.py:70-76, 144, 202, 256, 323-331, 396, 440) -/
noncomputable def sqrtX : Dbl → Dbl
  | fin a => if a < 0 then nan else fin (Real.sqrt a)
  | inf s => if s then nan else inf false
  | nan => nan

/-- `np.abs` (for numeric_kernels.py:70-76, 144, 202, 256, 323-331, 396, 440) -/
noncomputable def abs : Dbl → Dbl
  | fin a => fin |a|
  | inf _ => inf false
  | nan => nan

/-- `x > 0` (for numeric_kernels.py:70-76, 144, 202, 256, 323-331, 396, 440) -/
def Pos : Dbl → Prop
  | fin a => 0 < a
  | inf s => s = false
  | nan => False

/-- `x < 0` (for numeric_kernels.py:70-76, 144, 202, 256, 323-331, 396, 440) -/
def Neg : Dbl → Prop
  | fin a => a < 0
  | inf s => s = true
  | nan => False

/-- what `np.nansum` takes of a summand (for numeric_kernels.py:70-76, 144, 202, 256, 323-331, 396, 440) -/
def nanToZero : Dbl → Dbl
  | nan => fin 0
  | x => x

/-- the number as an entry of a kernel matrix, where infinities and NaN are not distinguished (for base.py:573-580) -/
def toF : Dbl → F
  | fin a => .real a
  | inf _ => .nan
  | nan => .nan

end Dbl

/-- A floating point format: an arithmetic with rounding, and the largest finite number (`(2 - 2⁻⁵²) 2¹⁰²³` for Python floats). (for numeric_kernels.py:70-76, 144, 202, 256, 323-331, 396, 440) -/
structure FloatFormat where
  R : Rounding
  max : ℝ
  four_le : 4 ≤ max

namespace FloatFormat
open Classical
variable (Φ : FloatFormat)

/-- a result, rounded as if there was no limit: infinite if it is larger than the largest number (for numeric_kernels.py:70-76, 144, 202, 256, 323-331, 396, 440) -/
noncomputable def clip (r : ℝ) : Dbl := if |r| ≤ Φ.max then .fin r else .inf (decide (r < 0))

/-- rounding of an exact result (for numeric_kernels.py:70-76, 144, 202, 256, 323-331, 396, 440) -/
noncomputable def rnd : Dbl → Dbl
  | .fin x => Φ.clip (Φ.R.fl x)
  | x => x

/-- `v` is the result of a library function whose exact value is `x` (for numeric_kernels.py:70-76, 144, 202, 256, 323-331, 396, 440) -/
def Lib (v : Dbl) (x : ℝ) : Prop := ∃ r, Φ.R.Near r x ∧ v = Φ.clip r

/-- `np.power(x, alpha)` for `x` that is not negative (for numeric_kernels.py:70-76, 144, 202, 256, 323-331, 396, 440) -/
def PowAbs (alpha : ℝ) (x v : Dbl) : Prop :=
  match x with
  | .fin a => if alpha < 0 ∧ a = 0 then v = .inf false else Φ.Lib v (a ^ alpha)
  | .inf _ => v = if alpha = 0 then .fin 1 else if 0 < alpha then .inf false else .fin 0
  | .nan => v = if alpha = 0 then .fin 1 else .nan

/-- `x ** degree`, `np.power(x, 2)` (for numeric_kernels.py:70-76, 144, 202, 256, 323-331, 396, 440) -/
def PowInt (degree : ℤ) (x v : Dbl) : Prop :=
  match x with
  | .fin a => if degree < 0 ∧ a = 0 then v = .inf false else Φ.Lib v (a ^ degree)
  | .inf s => v = if degree = 0 then .fin 1 else if degree < 0 then .fin 0 else .inf (s && decide (degree % 2 = 1))
  | .nan => v = if degree = 0 then .fin 1 else .nan

/-- `np.exp` (for numeric_kernels.py:70-76, 144, 202, 256, 323-331, 396, 440) -/
noncomputable def exp : Dbl → Dbl
  | .fin a => Φ.clip (Φ.R.exp a)
  | .inf s => if s then .fin 0 else .inf false
  | .nan => .nan

/-- `np.tanh` (for numeric_kernels.py:70-76, 144, 202, 256, 323-331, 396, 440) -/
def Tanh (x v : Dbl) : Prop :=
  match x with
  | .fin a => Φ.Lib v (Real.tanh a)
  | .inf s => v = .fin (if s then -1 else 1)
  | .nan => v = .nan

/-- `Σ a_i b_i` in some order of evaluation (for numeric_kernels.py:70-76, 144, 202, 256, 323-331, 396, 440) -/
noncomputable def dot {n : Nat} (a b : Fin n → Dbl) : SumTree n → Dbl
  | .zero => .fin 0
  | .leaf i => Φ.rnd (.mulX (a i) (b i))
  | .node l r => Φ.rnd (.addX (dot a b l) (dot a b r))
  | .fma i t => Φ.rnd (.addX (.mulX (a i) (b i)) (dot a b t))

/-- `Σ a_i` in some order of evaluation (for numeric_kernels.py:70-76, 144, 202, 256, 323-331, 396, 440) -/
noncomputable def sum {n : Nat} (a : Fin n → Dbl) : SumTree n → Dbl
  | .zero => .fin 0
  | .leaf i => a i
  | .node l r => Φ.rnd (.addX (sum a l) (sum a r))
  | .fma i t => Φ.rnd (.addX (a i) (sum a t))

/-- `Computes Φ k x y v`: calling kernel `k` on 1-D arrays `x`, `y` of equal length can return `v`, in some order of evaluation of the sums
(numeric_kernels.py:70-76, 144, 202, 256, 323-331, 396, 440); the chi² kernel raises if an entry is negative. Simplifications as in `Rounding.Computes`, which this
agrees with as long as nothing overflows: parameters of kernels are exact and finite; `np.linalg.norm(z)` is `sqrt(dot(z, z))`; a sum over a selection of the
coordinates is a sum in which the others contribute 0. -/
def Computes {d : Nat} (k : NumKernel) (x y : Fin d → Dbl) (v : Dbl) : Prop :=
  let z : Fin d → Dbl := fun i => Φ.rnd (.addX (x i) (.neg (y i)))
  match k with
  | .hadamard alpha => ∃ a b : Fin d → Dbl, ∃ t : SumTree d, t.Complete ∧ (∀ i, Φ.PowAbs alpha (.abs (x i)) (a i)) ∧ (∀ i, Φ.PowAbs alpha (.abs (y i)) (b i)) ∧
      v = Φ.sum (fun i =>
        let den := Φ.rnd (.mulX (.fin 2) (Φ.rnd (.addX (a i) (b i))))
        if den.Pos then Φ.rnd (.divX (Φ.rnd (.mulX (a i) (b i))) den) else .fin 0) t
  | .poly degree gamma b => ∃ t : SumTree d, t.Complete ∧ Φ.PowInt degree (Φ.rnd (.addX (.fin b) (Φ.rnd (.mulX (.fin gamma) (Φ.dot x y t))))) v
  | .gaussian _ gamma => ∃ t : SumTree d, ∃ q, t.Complete ∧ Φ.PowInt 2 (Φ.rnd (.sqrtX (Φ.dot z z t))) q ∧ v = Φ.exp (Φ.rnd (.mulX (.fin (-gamma)) q))
  | .laplacian gamma => ∃ t : SumTree d, t.Complete ∧ v = Φ.exp (Φ.rnd (.mulX (.fin (-gamma)) (Φ.sum (fun i => .abs (z i)) t)))
  | .chi2 gamma => (∀ i, ¬ (x i).Neg ∧ ¬ (y i).Neg) ∧ ∃ t : SumTree d, ∃ q : Fin d → Dbl, t.Complete ∧ (∀ i, Φ.PowInt 2 (z i) (q i)) ∧
      v = Φ.exp (Φ.rnd (.mulX (.fin (-gamma)) (Φ.sum (fun i => .nanToZero (Φ.rnd (.divX (q i) (Φ.rnd (.addX (x i) (y i)))))) t)))
  | .sigmoid gamma offset => ∃ t : SumTree d, t.Complete ∧ Φ.Tanh (Φ.rnd (.addX (.fin offset) (Φ.rnd (.mulX (.fin gamma) (Φ.dot x y t))))) v
  | .linear => ∃ t : SumTree d, t.Complete ∧ v = Φ.dot x y t

end FloatFormat

/-- `KernelMatrix` on numeric kernels, in floating point arithmetic with overflow: calls return one of the values that can be computed (chi²: unless an entry is
negative); kernels can be formatted. (for base.py:573-580) -/
structure OverflowEnv (Φ : FloatFormat) (env : Env NumKernel (List Dbl) F) : Prop where
  fmt : ∀ k, env.fmtRaises k = false
  call : ∀ {d : Nat} (k : NumKernel) (x y : Fin d → Dbl), (∀ γ, k = .chi2 γ → ∀ i, ¬ (x i).Neg ∧ ¬ (y i).Neg) →
    (∀ t, env.fails t k (List.ofFn x) (List.ofFn y) = false) ∧ ∃ v : Dbl, env.kval k (List.ofFn x) (List.ofFn y) = v.toF ∧ Φ.Computes k x y v

end KMethods
