import Verif.Model.Kernels
/-!
# Numeric kernels on integer arrays

`attach_to` keeps the dtype of the sample (`ensure_dtype=sample_one.dtype`, base.py:251), and `check_input_arrays` with `np.number` accepts integer arrays as they are
(utils.py:81). numpy then computes differences, absolute values, powers and inner products in the integer type of the arrays, modulo a power of two. Both arguments have
the same integer dtype (rows of one sample do); parameters of the kernels are floats except `alpha` of the Hadamard kernel, whose default is the int 3.
-/
namespace KMethods

/-- a numpy integer dtype: number of bits and whether there is a sign (for numeric_kernels.py:70-76, 144, 396, 440) -/
structure IntType where
  bits : Nat
  signed : Bool

/-- `np.uint8` (for numeric_kernels.py:64-443) -/
def uint8 : IntType := ⟨8, false⟩
/-- `np.int64` (for numeric_kernels.py:64-443) -/
def int64 : IntType := ⟨64, true⟩

/-- the integer stored when the exact result is `v` (for numeric_kernels.py:70-76, 144, 396, 440) -/
def IntType.wrap (t : IntType) (v : ℤ) : ℤ :=
  if t.signed then (v + 2 ^ (t.bits - 1)) % 2 ^ t.bits - 2 ^ (t.bits - 1) else v % 2 ^ t.bits

/-- `np.dot(x, y)` / `x.dot(y.T)` on integer arrays of equal length (numeric_kernels.py:144, 396, 440) -/
def intDot (t : IntType) (x y : List ℤ) : ℤ := t.wrap (List.zipWith (· * ·) x y).sum

/-- `np.abs` (for numeric_kernels.py:70-76, 144, 202, 256, 321-331, 396, 440) -/
def intAbs (t : IntType) (v : ℤ) : ℤ := t.wrap |v|

/-- `x - y` (for numeric_kernels.py:70-76, 144, 202, 256, 321-331, 396, 440) -/
def intSub (t : IntType) (x y : List ℤ) : List ℤ := List.zipWith (fun a b => t.wrap (a - b)) x y

/-- `np.sum` of an integer array accumulates in 64 bits (for numeric_kernels.py:70-76, 144, 202, 256, 321-331, 396, 440) -/
def intSum (t : IntType) (x : List ℤ) : ℤ := (⟨64, t.signed⟩ : IntType).wrap x.sum

/-- one coordinate of the Hadamard kernel with an int `alpha ≥ 0` (numeric_kernels.py:70-76): powers, denominator and numerator are integers, the quotient is a float -/
noncomputable def hadamardIntTerm (t : IntType) (alpha : Nat) (x y : ℤ) : ℝ :=
  let a := t.wrap (intAbs t x ^ alpha)
  let b := t.wrap (intAbs t y ^ alpha)
  let den := t.wrap (2 * t.wrap (a + b))
  if 0 < den then (t.wrap (a * b) : ℝ) / den else 0

/-- a kernel applied to integer arrays: a numeric kernel with float parameters, or the Hadamard kernel with an int `alpha` (for numeric_kernels.py:70-76, 144, 202, 256, 321-331, 396, 440) -/
inductive IntKernel where
  | num (k : NumKernel)
  | hadamard (alpha : ℤ)

/-- `__call__` on 1-D integer arrays of equal length, with input checks (numeric_kernels.py:70-76, 144, 202, 256, 321-331, 396, 440): the chi² kernel converts its
arguments to float64; `np.linalg.norm` converts the difference to float; an integer array to a negative integer power is a `ValueError`.
For a float `alpha` the smallest signed integer, which is its own absolute value, is not modelled. -/
noncomputable def IntKernel.eval (t : IntType) (k : IntKernel) (x y : List ℤ) : Except PyErr F :=
  match k with
  | .num (.hadamard alpha) => NumKernel.eval (.hadamard alpha) (x.map fun a => (intAbs t a : ℝ)) (y.map fun a => (intAbs t a : ℝ))
  | .num (.poly degree gamma b) => .ok (intPow (b + gamma * intDot t x y) degree)
  | .num (.gaussian _ gamma) => .ok (.real (Real.exp (-gamma * Real.sqrt ((intSub t x y).map fun d : ℤ => (d : ℝ) ^ 2).sum ^ 2)))
  | .num (.laplacian gamma) => .ok (.real (Real.exp (-gamma * intSum t ((intSub t x y).map (intAbs t)))))
  | .num (.chi2 gamma) => NumKernel.eval (.chi2 gamma) (x.map (↑)) (y.map (↑))
  | .num (.sigmoid gamma offset) => .ok (.real (Real.tanh (offset + gamma * intDot t x y)))
  | .num .linear => .ok (.real (intDot t x y))
  | .hadamard alpha =>
    if alpha < 0 ∧ (x ≠ [] ∨ y ≠ []) then .error .valueError
    else .ok (.real (List.zipWith (hadamardIntTerm t alpha.toNat) x y).sum)

/-- `KernelMatrix` on an integer sample (for base.py:573-580) -/
noncomputable def intEnv (t : IntType) (ops : Ops F) : Env IntKernel (List ℤ) F where
  kval k x y := match k.eval t x y with
    | .ok v => v
    | .error _ => .nan
  fails _ k x y := match k.eval t x y with
    | .ok _ => false
    | .error _ => true
  ops := ops
  fmtRaises := fun _ => false

end KMethods
