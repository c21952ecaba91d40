import Verif.Spec.KernelMatrix
import Verif.Spec.Index
/-!
# Histories of public calls on a `KernelMatrix`
-/
namespace KMethods

/-- `op` is a call of `attach_to` -/
def KMOp.isAttach {X : Type} : KMOp X → Bool
  | .attach _ _ => true
  | _ => false

/-- `op` is a call of `set_attr` -/
def KMOp.isSetAttr {X : Type} : KMOp X → Bool
  | .setAttr _ _ => true
  | _ => false

/-- the argument is an array with `A.nrows` rows and `A.ncols` columns (and possibly trailing axes of length 1) -/
def SampleIn.IsArray {X : Type} (s : SampleIn X) (A : Arr2 X) : Prop :=
  ∃ k, s = .arr (A.nrows :: A.ncols :: List.replicate k 1) A.row

/-- `attach_to(one, two)` has valid arguments, meaning the sample(s) `a` -/
def Attaches {X : Type} (one : SampleIn X) (two : Option (SampleIn X)) (a : Attachment X) : Prop :=
  one.IsArray a.one ∧
  match two, a.two with
  | none, none => True
  | some t, some b => t.IsArray b ∧ a.one.ncols = b.ncols
  | _, _ => False

namespace KMState
variable {K X V : Type}

/-- states of a `KernelMatrix(k, normalized=norm)` after any calls, some of which may have raised -/
inductive Reachable (env : Env K X V) (k : K) (norm : Bool) : KMState K X V → Prop
  | new (t : Nat) : Reachable env k norm (init k norm t)
  | call {s : KMState K X V} (op : KMOp X) : Reachable env k norm s → Reachable env k norm (exec env op s).2

/-- states of a `KernelMatrix(k, normalized=norm)` which, after any earlier calls, was successfully attached
to `a`, and on which then any calls satisfying `P` were made (successfully or not), none of them `attach_to` -/
inductive Since (env : Env K X V) (k : K) (norm : Bool) (a : Attachment X) (P : KMOp X → Prop) :
    KMState K X V → Prop
  | attached {s s' : KMState K X V} {one : SampleIn X} {two : Option (SampleIn X)} :
      Reachable env k norm s → Attaches one two a → exec env (.attach one two) s = (.ok .none, s') →
      Since env k norm a P s'
  | call {s : KMState K X V} (op : KMOp X) : Since env k norm a P s → op.isAttach = false → P op →
      Since env k norm a P (exec env op s).2

/-- any call is allowed -/
abbrev SinceAny (env : Env K X V) (k : K) (norm : Bool) (a : Attachment X) : KMState K X V → Prop :=
  Since env k norm a fun _ => True

/-- no call that leaves the matrix in sparse storage -/
abbrev SinceDense (env : Env K X V) (k : K) (norm : Bool) (a : Attachment X) : KMState K X V → Prop :=
  Since env k norm a fun op => ¬ op.MayGoSparse norm a.nrows a.ncols

/-- the outcome of a call interrupted by a kernel failure: the kernel's own exception, or the `RuntimeError` by which
`_populate_fully` replaces it -/
def Failed {α : Type} (r : Except PyErr α) : Prop := r = .error .kernelFault ∨ r = .error .runtimeError

/-- as `Since`, but none of the calls since the attachment was interrupted by a kernel failure -/
inductive SinceClean (env : Env K X V) (k : K) (norm : Bool) (a : Attachment X) (P : KMOp X → Prop) :
    KMState K X V → Prop
  | attached {s s' : KMState K X V} {one : SampleIn X} {two : Option (SampleIn X)} :
      Reachable env k norm s → Attaches one two a → exec env (.attach one two) s = (.ok .none, s') →
      SinceClean env k norm a P s'
  | call {s : KMState K X V} (op : KMOp X) : SinceClean env k norm a P s → op.isAttach = false → P op →
      ¬ Failed (exec env op s).1 → SinceClean env k norm a P (exec env op s).2

/-- the results (values or exceptions) of a sequence of calls -/
def trace (env : Env K X V) : List (KMOp X) → KMState K X V → List (Except PyErr (KMOut V))
  | [], _ => []
  | op :: ops, s => (exec env op s).1 :: trace env ops (exec env op s).2

/-- kernel functions never raise -/
def NoFaults (env : Env K X V) : Prop := ∀ t k x y, env.fails t k x y = false

/-- `x` is a row of one of the attached samples -/
def _root_.KMethods.Attachment.IsRow (a : Attachment X) (x : X) : Prop :=
  (∃ i, i < a.one.nrows ∧ x = a.one.row i) ∨ ∃ B i, a.two = some B ∧ i < B.nrows ∧ x = B.row i

/-- the kernel function `k` never raises on rows of the attached samples -/
def NoFaultsOn (env : Env K X V) (k : K) (a : Attachment X) : Prop :=
  ∀ t x y, a.IsRow x → a.IsRow y → env.fails t k x y = false

/-- whether a kernel function raises depends on its arguments only -/
def Steady (env : Env K X V) : Prop := ∀ t t' k x y, env.fails t k x y = env.fails t' k x y

end KMState

/-- the check for non-finite values finds a NaN in a matrix -/
def Ops.FindsNan {V : Type} (ops : Ops V) : Prop :=
  ∀ n m (c : Nat → Nat → V) i j, i < n → j < m → c i j = ops.nan → ops.nonFinite (Mat.ofCells n m c) = true

/-- self-kernels of a sample -/
def Arr2.selfs {X V : Type} (a : Arr2 X) (kv : X → X → V) : List V :=
  (List.range a.nrows).map fun i => kv (a.row i) (a.row i)

/-- the normalisation of a matrix between the attached samples (`method` is ignored for two samples) -/
def Attachment.normedOf {X V : Type} (a : Attachment X) (kv : X → X → V) (ops : Ops V) (method : String) (M : Mat V) :
    Except PyErr (Mat V) :=
  match a.two with
  | none => ops.normalize M method
  | some b => ops.normalize2 M (a.one.selfs kv) (b.selfs kv)

/-- the true kernel matrix with the strictly lower triangle left at the given value -/
def Attachment.upper {X V : Type} (a : Attachment X) (kv : X → X → V) (zero : V) : Mat V :=
  Mat.ofCells a.nrows a.ncols fun i j => if i ≤ j then a.entry kv i j else zero

namespace KMState
variable {K X V : Type}

/-- the warning about non-finite values in the true kernel matrix (or its upper triangle) does not raise: either there are none,
or the kernel function can be formatted -/
def Quiet (env : Env K X V) (k : K) (a : Attachment X) : Prop :=
  env.fmtRaises k = true →
    env.ops.nonFinite (a.gram (env.kval k)) = false ∧ env.ops.nonFinite (a.upper (env.kval k) env.ops.zero) = false

/-- the same for the normalised kernel matrix -/
def QuietNormed (env : Env K X V) (k : K) (a : Attachment X) : Prop :=
  env.fmtRaises k = true → ∀ method N, a.normedOf (env.kval k) env.ops method (a.gram (env.kval k)) = .ok N → env.ops.nonFinite N = false

end KMState

/-- the distinct selected positions in increasing order -/
def IndexSpec.IsSelection (n : Nat) (S : Idx) (rows : List Nat) : Prop :=
  rows.Pairwise (· < ·) ∧ ∀ i, i ∈ rows ↔ i < n ∧ Selects n S i

/-- the submatrix of the true kernel matrix on the given rows and columns -/
def Attachment.sub {X V : Type} (a : Attachment X) (kv : X → X → V) (rows cols : List Nat) : Mat V :=
  Mat.ofCells rows.length cols.length fun p q => a.entry kv (rows.getD p 0) (cols.getD q 0)

end KMethods

namespace KMethods
variable {K X V : Type}

open Classical in
/-- The value last given to an attribute: look back through the history (latest call first) for a `set_attr` of that name; a valid
`attach_to` clears all attributes, an invalid one (which raises) does not. -/
noncomputable def lastValue {X : Type} (name : String) : List (KMOp X) → Option String
  | [] => none
  | .setAttr n v :: h => if n = name then some v else lastValue name h
  | .attach one two :: h => if ∃ a, Attaches one two a then none else lastValue name h
  | _ :: h => lastValue name h

/-- states of an object on which `attach_to` never succeeded -/
inductive KMState.NeverAttached (env : Env K X V) (k : K) (norm : Bool) : KMState K X V → Prop
  | new (t : Nat) : NeverAttached env k norm (init k norm t)
  | call {s : KMState K X V} (op : KMOp X) : NeverAttached env k norm s →
      (∀ one two, op = .attach one two → ¬ ∃ a, Attaches one two a) → NeverAttached env k norm (exec env op s).2

/-- calls that look at the contents of the matrix -/
def KMOp.isContent {X : Type} : KMOp X → Bool
  | .full | .fullSparse | .center | .centered | .normalize _ | .normedKm | .frobNorm | .diagonal | .getItem _ => true
  | _ => false

end KMethods
