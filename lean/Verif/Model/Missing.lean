import Verif.Model.Kernels
/-!
# Numeric kernels on arrays with missing values (`numeric_kernels.py`)

Entries of arrays are numbers of `F`; the number that is not finite stands for NaN here (arrays with infinite entries are not modelled). The input checks
(utils.py:7-102) do not look at the entries. Arithmetic is that of the model `F` (NaN in, NaN out); comparisons with NaN are false.
-/
namespace KMethods

/-- a function applied to an element of an array (for numeric_kernels.py:70-76, 144, 202, 256, 323-331) -/
def F.map (f : ℝ → ℝ) : F → F
  | .real a => .real (f a)
  | .nan => .nan

/-- `np.sum` of a function of the elements of two 1-D arrays of equal length (for numeric_kernels.py:70-76, 144, 202, 256, 323-331) -/
def sumZipF (f : F → F → F) (x y : List F) : F := (List.zipWith f x y).foldr (· + ·) 0

/-- `np.dot(x, y)` (for numeric_kernels.py:70-76, 144, 202, 256, 323-331) -/
def dotF (x y : List F) : F := sumZipF (· * ·) x y

/-- `base ** degree`: `nan ** 0` is 1 (for numeric_kernels.py:70-76, 144, 202, 256, 323-331) -/
noncomputable def powF (base : F) (degree : ℤ) : F :=
  match base with
  | .real a => intPow a degree
  | .nan => if degree = 0 then 1 else .nan

/-- one coordinate of the Hadamard kernel (numeric_kernels.py:70-76), 0 if it is left out of the sum: `denominator > 0` is false when an operand is NaN (also
when the other one is infinite, as a zero raised to a negative power). `alpha` is not 0 (`mkHadamard`), so that powers of NaN are NaN. -/
noncomputable def hadamardTermF (alpha : ℝ) : F → F → F
  | .real a, .real b => open Classical in if alpha < 0 ∧ (a = 0 ∨ b = 0) then .nan else .real (hadamardTerm alpha a b)
  | _, _ => 0

/-- what `np.nansum` takes of a summand (for numeric_kernels.py:70-76, 144, 202, 256, 323-331) -/
def nanToZero : F → F
  | .real a => .real a
  | .nan => 0

/-- one coordinate of the chi² kernel: `np.power(x - y, 2) / (x + y)` (numeric_kernels.py:329). Entries are not negative, so that a denominator 0 means
`0/0`, which is NaN. -/
noncomputable def chi2TermF (a b : F) : F := (a - b) * (a - b) / (a + b)

/-- `__call__` after the input checks, on 1-D arrays of equal length (numeric_kernels.py:70-76, 144, 202, 256, 323-331,
396, 440) -/
noncomputable def NumKernel.evalF (k : NumKernel) (x y : List F) : Except PyErr F :=
  open Classical in
  match k with
  | .hadamard alpha => .ok (sumZipF (hadamardTermF alpha) x y)
  | .poly degree gamma b => .ok (powF (.real b + .real gamma * dotF x y) degree)
  | .gaussian _ gamma =>
    let norm := F.sqrt (sumZipF (fun a b => (a - b) * (a - b)) x y)
    .ok (F.map Real.exp (.real (-gamma) * (norm * norm)))
  | .laplacian gamma => .ok (F.map Real.exp (.real (-gamma) * sumZipF (fun a b => F.map abs (a - b)) x y))
  | .chi2 gamma =>
    if (∃ a ∈ x, F.lt a 0) ∨ (∃ a ∈ y, F.lt a 0) then .error .chi2Negative
    else .ok (F.map Real.exp (.real (-gamma) * sumZipF (fun a b => nanToZero (chi2TermF a b)) x y))
  | .sigmoid gamma offset => .ok (F.map Real.tanh (.real offset + .real gamma * dotF x y))
  | .linear => .ok (dotF x y)

/-- `kernel(x, y)`. With `skip_input_checks` set, only 1-D arrays of equal length are modelled. (for numeric_kernels.py:64-443) -/
noncomputable def NumKernel.callF (k : NumKernel) (skip : Bool) (x y : NdArray F) : Except PyErr F :=
  if skip then k.evalF x.data y.data
  else do
    let p ← checkInputArrays x y k.wantDType
    k.evalF p.1.data p.2.data

/-- the 1-D float array with the given entries (for base.py:573-580) -/
def NdArray.vecF (x : List F) : NdArray F := ⟨.float64, [x.length], x⟩

/-- `KernelMatrix` on a numeric kernel, when entries of the samples may be missing (for base.py:573-580) -/
noncomputable def missingEnv (ops : Ops F) : Env NumKernel (List F) F where
  kval k x y := match k.callF false (.vecF x) (.vecF y) with
    | .ok v => v
    | .error _ => .nan
  fails _ k x y := match k.callF false (.vecF x) (.vecF y) with
    | .ok _ => false
    | .error _ => true
  ops := ops
  fmtRaises := fun _ => false

end KMethods
