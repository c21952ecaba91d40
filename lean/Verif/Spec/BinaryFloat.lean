import Verif.Model.Rounding
import Mathlib.Data.Int.Log
import Mathlib.Algebra.Order.Round
/-!
# Binary floating point numbers

Rounding to the nearest number with a significand of `p` bits (`p = 53` for Python floats), of unbounded exponent.
-/
namespace KMethods

/-- the exponent of the last bit of the significand -/
noncomputable def lastExp (p : Nat) (y : ℝ) : ℤ := Int.log 2 y + 1 - p

/-- a non-negative number rounded to a significand of `p` bits -/
noncomputable def roundBits (p : Nat) (y : ℝ) : ℝ := (round (y / 2 ^ lastExp p y) : ℤ) * 2 ^ lastExp p y

/-- round to nearest, ties away from zero -/
noncomputable def nearest (p : Nat) (x : ℝ) : ℝ := if 0 ≤ x then roundBits p x else -roundBits p (-x)

end KMethods
