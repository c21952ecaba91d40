import Verif.Model.Scale
import Verif.Model.NpIndex
/-!
# `KernelMatrixPrecomputed` and `ConstantKernelMatrix` (`kernelmethods/base.py:796-1036`)
-/
namespace KMethods
open PyM

/-! ### precomputed -/

/-- the argument of `KernelMatrixPrecomputed` after `np.array(...)`: not 2-D; 2-D of the given shape with some entry that has an imaginary part;
or 2-D with real entries. Infinite entries and non-numeric arrays (for which `np.isclose` raises `TypeError`) are not modelled. (for base.py:801-819) -/
inductive PreIn where
  | notTwoD
  | nonReal (n m : Nat)
  | real (A : Mat F)

/-- an instance of `KernelMatrixPrecomputed` (base.py:813-819); the name is dropped, `num_samples` is the number of rows -/
structure Precomputed where
  mat : Mat F
  numSamples : Nat

/-- `KernelMatrixPrecomputed(matrix)` (base.py:801-819). For arrays with imaginary parts either test fails with the same exception. -/
noncomputable def mkPrecomputed : PreIn → Except PyErr Precomputed
  | .notTwoD => .error .valueError
  | .nonReal _ _ => .error .valueError
  | .real A => do
    let ns ← notSymmetric A
    if ns then .error .valueError else .ok ⟨A, A.nrows⟩

/-- `size` / `__len__` (base.py:822-832) -/
def Precomputed.size (p : Precomputed) : Nat := p.mat.nrows

/-- `full` (base.py:835-839) -/
def Precomputed.full (p : Precomputed) : Mat F := p.mat

/-- `diag` (base.py:842-846): `ndarray.diagonal()` -/
def Precomputed.diag (p : Precomputed) : List F :=
  (List.range (min p.mat.nrows p.mat.ncols)).map fun i => p.mat.bcastGet i i

/-- `__getitem__` (base.py:849-855): any exception of the array access becomes `KMAccessError` -/
def Precomputed.getItem (p : Precomputed) (key : NpKey) : Except PyErr (NpOut F) :=
  match p.mat.npIndex key with
  | .ok v => .ok v
  | .error _ => .error .kmAccess

/-! ### constant -/

/-- instance attributes of `ConstantKernelMatrix` (base.py:888-918): `km` is the attribute `_KM`, which exists once `full` has been
read. The conversion of the value to `dtype` is not modelled. -/
structure ConstState (V : Type) where
  numSamples : Nat
  value : V
  km : Option (Mat V)

/-- `ConstantKernelMatrix(num_samples, value)` (base.py:888-918) -/
def ConstState.init {V : Type} (n : Nat) (v : V) : ConstState V := ⟨n, v, none⟩

/-- index object for one dimension: as `Idx`, but the elements of an iterable are passed through `int()` (base.py:1001), which gives an
integer or raises -/
inductive ConstIdx where
  | int (i : Int)
  | slice (start stop step : Option Int)
  | iter (items : List (Except PyErr Int))
  | other

/-- object between the brackets (base.py:962-965): an iterable of length 2, an iterable without length (`TypeError`), or anything else -/
inductive ConstKey where
  | pair (a b : ConstIdx)
  | unsized
  | other

/-- `list(map(int, l))` (for base.py:990-1007) -/
def mapInt : List (Except PyErr Int) → Except PyErr (List Int)
  | [] => .ok []
  | x :: l => do
    let i ← x
    let r ← mapInt l
    pure (i :: r)

/-- requested indices (base.py:990-1007) -/
def ConstIdx.indices (n : Nat) : ConstIdx → Except PyErr (List Int)
  | .int i => .ok [i]
  | .slice a b c => sliceIndices a b c n
  | .iter l => mapInt l
  | .other => .error .kmAccess

/-- `_get_indices_in_sample` (base.py:979-1024). For an empty selection the code formats an undefined name `dim` into the message:
`NameError`. -/
def ConstIdx.inSample (n : Nat) (idx : ConstIdx) : Except PyErr (List Nat) := do
  let l ← idx.indices n
  if l.any fun i => decide (i ≥ (n : Int)) || decide (i < 0) then .error .kmAccess
  else if l.length = 0 then .error .nameError
  else pure (sortedSet (l.map Int.toNat))

namespace ConstState
variable {V : Type}

/-- `np.full((n, m), value)` (for base.py:939-948, 959-976) -/
def filled (n m : Nat) (v : V) : Mat V := ⟨n, m, fun _ _ => v⟩

/-- `full` (base.py:939-948): cached -/
def full : PyM (ConstState V) (Mat V) := do
  let s ← get
  when s.km.isNone (modify fun s => { s with km := some (filled s.numSamples s.numSamples s.value) })
  getAttr (·.km)

/-- `diag` (base.py:951-956) -/
def diag : PyM (ConstState V) (List V) := do
  let s ← get
  pure (List.replicate s.numSamples s.value)

/-- `shape` (base.py:933-936) -/
def shape : PyM (ConstState V) (Nat × Nat) := do
  let s ← get
  pure (s.numSamples, s.numSamples)

/-- `__len__` / `size` (base.py:921-930) -/
def size : PyM (ConstState V) Nat := do
  let s ← get
  pure s.numSamples

/-- `__getitem__` (base.py:959-976) -/
def getItem : ConstKey → PyM (ConstState V) (Mat V)
  | .other => throw .kmAccess
  | .unsized => throw .typeError
  | .pair a b => do
    let s ← get
    let rows ← lift (a.inSample s.numSamples)
    let cols ← lift (b.inSample s.numSamples)
    pure (filled rows.length cols.length s.value)

end ConstState
end KMethods
