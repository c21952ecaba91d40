import Verif.Model.Kernels
/-!
# Printing: `__str__`, `__repr__`, `__format__`
-/
namespace KMethods
open PyM

/-! ### kernel functions -/

/-- `__str__` of the numeric kernels (numeric_kernels.py:79-82, 147-151, 205-208, 259-262, 334-337, 399-402, 443-446), where `rep` gives the text of a number.
The `name` attributes are those set by the constructors. -/
def NumKernel.str (rep : ℝ → String) (repInt : ℤ → String) : NumKernel → String
  | .hadamard alpha => "Hadamard" ++ "(alpha=" ++ rep alpha ++ ")"
  | .poly degree gamma b => "polynomial" ++ "(degree=" ++ repInt degree ++ ",gamma=" ++ rep gamma ++ ",b=" ++ rep b ++ ")"
  | .gaussian sigma _ => "gaussian" ++ "(sigma=" ++ rep sigma ++ ")"
  | .laplacian gamma => "laplacian" ++ "(gamma=" ++ rep gamma ++ ")"
  | .chi2 gamma => "chi2" ++ "(gamma=" ++ rep gamma ++ ")"
  | .sigmoid gamma offset => "sigmoid" ++ "(gamma=" ++ rep gamma ++ ",offset=" ++ rep offset ++ ")"
  | .linear => "linear"

/-- how a class treats `'{}'.format(x)`: `BaseKernelFunction.__format__(self, _)` returns the text (base.py:76-79); where `__format__ = __str__` (base.py:145, 776, 865, 1035,
1250, 1434), the call with a format specification has one argument too many -/
inductive FormatKind where
  | takesSpec
  | aliasOfStr

/-- `'{}'.format(x)`, which calls `type(x).__format__(x, '')` (for base.py:219-223) -/
def FormatKind.format {σ : Type} (f : FormatKind) (str : PyM σ String) : PyM σ String :=
  match f with
  | .takesSpec => str
  | .aliasOfStr => throw .typeError

/-! ### `KernelMatrix` -/

/-- a `KernelMatrix` with its labels: `name` (base.py:206) and the attribute `_sample_descr` (base.py:262, 278), which does not exist before the first successful `attach_to` -/
structure Labelled (K X V : Type) where
  km : KMState K X V
  name : String
  descr : Option String

/-- text of a tuple of two integers (for base.py:219-283) -/
def tupleStr (n m : Nat) : String := "(" ++ toString n ++ ", " ++ toString m ++ ")"

namespace Labelled
variable {K X V : Type}

/-- `KernelMatrix(kernel, normalized, name)` (base.py:176-216) -/
def init (kernel : K) (normalized : Bool) (name : String) (clock : Nat := 0) : Labelled K X V := ⟨.init kernel normalized clock, name, none⟩

/-- a call of a method modelled in `Model/KernelMatrix` (for base.py:219-283) -/
def onKm {α : Type} (m : PyM (KMState K X V) α) : PyM (Labelled K X V) α := fun s => ((m s.km).1, { s with km := (m s.km).2 })

/-- `attach_to(one, name_one, two, name_two)` (base.py:219-283): `_sample_descr` is written after the checks and before `_reset`, from the arrays just stored.
`name_two` may be `None`. -/
def attach (one : SampleIn X) (nameOne : String) (two : Option (SampleIn X)) (nameTwo : Option String) : PyM (Labelled K X V) Unit := do
  onKm (KMState.attach one two)
  let a ← getAttr fun s : Labelled K X V => s.km.sample
  let b ← getAttr fun s : Labelled K X V => s.km.sampleTwo
  match two with
  | none => modify fun s => { s with descr := some (nameOne ++ " " ++ tupleStr a.nrows a.ncols) }
  | some _ => modify fun s => { s with
      descr := some (nameOne ++ " " ++ tupleStr a.nrows a.ncols ++ " x " ++ (nameTwo.getD "None") ++ " " ++ tupleStr b.nrows b.ncols) }

/-- `__str__` (base.py:763-772), the same as `__repr__`; `kstr` gives the text of a kernel function -/
def str (kstr : K → String) : PyM (Labelled K X V) String := do
  let s ← get
  match s.km.sample with
  | none => pure (s.name ++ ": " ++ kstr s.km.kernel)
  | some _ => do
    let d ← getAttr fun s : Labelled K X V => s.descr
    pure (s.name ++ ": " ++ kstr s.km.kernel ++ (" (normed=" ++ (if s.km.keepNormed then "True" else "False") ++ ") on " ++ d))

end Labelled

/-- calls on a labelled `KernelMatrix`: `attach_to` with names, the other methods, `str` and `format` (for base.py:219-283, 763-779) -/
inductive LOp (X : Type) where
  | attach (one : SampleIn X) (nameOne : String) (two : Option (SampleIn X)) (nameTwo : Option String)
  | call (op : KMOp X)
  | str
  | format

namespace Labelled
variable {K X V : Type}

/-- one call. `.call (.attach one two)` is `attach_to` with the default names (base.py:219-223). -/
def exec (env : Env K X V) (kstr : K → String) : LOp X → PyM (Labelled K X V) (KMOut V)
  | .attach one n1 two n2 => do attach one n1 two n2; pure .none
  | .call (.attach one two) => do attach one "sample" two none; pure .none
  | .call op => onKm (KMState.exec env op)
  | .str => do let t ← str kstr; pure (.str t)
  | .format => do let t ← FormatKind.aliasOfStr.format (str kstr); pure (.str t)

end Labelled

/-! ### the other classes -/

/-- `KernelMatrixPrecomputed.__str__` (base.py:858-861) -/
def precomputedStr (name : String) (n : Nat) : String := name ++ "(num_samples=" ++ toString n ++ ")"

/-- `ConstantKernelMatrix.__str__` (base.py:1027-1031); `value` is the text of the constant -/
def constantStr (name value : String) (n : Nat) : String := name ++ "(value=" ++ value ++ ",size=" ++ toString n ++ ")"

/-- text of `num_samples` (`None`, a number or a pair) (for base.py:1241-1246) -/
def NumSamples.str : NumSamples → String
  | .unset => "None"
  | .one n => toString n
  | .two n m => tupleStr n m

/-- `KernelSet.__str__` (base.py:1241-1246), given the outcomes of `str` on the members -/
def setStr (name : String) (num : NumSamples) (members : List (Except PyErr String)) : Except PyErr String := do
  let l ← members.mapM id
  pure (name ++ "(" ++ toString members.length ++ " kernels, " ++ num.str ++ " samples):\n\t" ++ "\n\t".intercalate l ++ " ")

/-- `CompositeKernel.__str__` (base.py:1427-1430) -/
def compositeStr (name : String) (set : Except PyErr String) : Except PyErr String := set.map fun t => name ++ "-->" ++ t

end KMethods
