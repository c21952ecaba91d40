import Mathlib.Analysis.Real.Sqrt
import Mathlib.Algebra.BigOperators.Fin
/-!
# Idealised floating point numbers

`F` is the type of numbers of the model: exact reals, plus one value for everything that is not finite
(NaN, ±Inf). Arithmetic is strict in the non-finite value. Rounding, overflow and the distinction between
NaN and ±Inf are not modelled.
-/
namespace KMethods

/-- a number: a real, or not finite (for utils.py:165-181) -/
inductive F where
  | real (x : ℝ)
  | nan

namespace F

instance : Coe ℝ F := ⟨real⟩
instance : Zero F := ⟨real 0⟩
instance : One F := ⟨real 1⟩
instance : Inhabited F := ⟨nan⟩

/-- value of a finite number (0 for `nan`; only used under the assumption of finiteness) (for operations.py:28-380) -/
def val : F → ℝ
  | real x => x
  | nan => 0

/-- `np.isfinite` (for utils.py:165-181) -/
def isFinite : F → Prop
  | real _ => True
  | nan => False

/-- strict binary operation (for operations.py:28-380) -/
def lift2 (f : ℝ → ℝ → ℝ) : F → F → F
  | real x, real y => real (f x y)
  | _, _ => nan

instance : Add F := ⟨lift2 (· + ·)⟩
instance : Sub F := ⟨lift2 (· - ·)⟩
instance : Mul F := ⟨lift2 (· * ·)⟩
/-- `-x` -/
instance : Neg F := ⟨fun a => match a with
  | real x => real (-x)
  | nan => nan⟩
/-- `x / y`: not finite for `y = 0` -/
noncomputable instance : Div F := ⟨fun a b => match a, b with
  | real x, real y => open Classical in if y = 0 then nan else real (x / y)
  | _, _ => nan⟩

/-- `np.sqrt`: NaN on negative numbers (for operations.py:186, 255-256, 311) -/
noncomputable def sqrt : F → F
  | real x => open Classical in if x < 0 then nan else real (Real.sqrt x)
  | nan => nan

/-- `np.isclose(a, b)` with default tolerances `rtol=1e-5, atol=1e-8`, `equal_nan=False` (for operations.py:412-423, numeric_kernels.py:38-61) -/
def isClose : F → F → Prop
  | real a, real b => |a - b| ≤ 1e-8 + 1e-5 * |b|
  | _, _ => False

noncomputable instance (a b : F) : Decidable (isClose a b) := Classical.dec _

/-- `a < b`; false when an operand is NaN (for operations.py:28-380) -/
def lt : F → F → Prop
  | real a, real b => a < b
  | _, _ => False
noncomputable instance (a b : F) : Decidable (lt a b) := Classical.dec _

/-- `np.sum` over a finite index set (for operations.py:28-380) -/
noncomputable def sum {ι : Type} [Fintype ι] (f : ι → F) : F :=
  open Classical in if ∀ i, (f i).isFinite then real (∑ i, (f i).val) else nan

end F
end KMethods
