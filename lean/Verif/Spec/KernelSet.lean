import Verif.Model.KernelSet
import Verif.Spec.History
/-!
# Notions used to state the properties of `KernelSet`
-/
namespace KMethods
variable {K X : Type}

/-- a kernel matrix with `num_samples = n` is compatible with the set: same number of samples, or the set is new and takes the number of
samples of its first member -/
def KSet.Accepts (t : KSet) (n : NumSamples) : Prop :=
  t.numSamples = n ∨ (t.isInit = false ∧ t.numSamples = .unset)

/-- all members of the set have the number of samples of the set -/
def KSet.Uniform (h : Heap K X) (t : KSet) : Prop := ∀ r ∈ t.members, h.numSamples r = .ok t.numSamples

/-- the program has no objects and no sets yet -/
def World.empty : World K X := ⟨⟨fun _ => none, 0⟩, []⟩

/-- the states of programs -/
inductive World.Reachable (env : Env K X F) : World K X → Prop
  | empty : Reachable env .empty
  | step {w : World K X} (op : WOp K X) : Reachable env w → Reachable env (World.exec env op w).2

/-- in the situation `w`, the step does not attach members of one set behind the back of another set: a `KernelMatrix` in some set is not attached on
its own, and a set is attached only if its number of samples is already fixed or its members belong to no other set -/
def WOp.NotBehindBack (w : World K X) : WOp K X → Prop
  | .kmOp r op => op.isAttach = false ∨ ∀ t ∈ w.sets, r ∉ t.members
  | .attach i _ _ => ∀ t, w.sets[i]? = some t →
      t.numSamples ≠ .unset ∨ ∀ j u, j ≠ i → w.sets[j]? = some u → ∀ r ∈ t.members, r ∉ u.members
  | _ => True

/-- the states of programs that do not attach members of one set behind the back of another set -/
inductive World.Orderly (env : Env K X F) : World K X → Prop
  | empty : Orderly env .empty
  | step {w : World K X} (op : WOp K X) : Orderly env w → op.NotBehindBack w → Orderly env (World.exec env op w).2

/-- the objects on the heap are kernel matrices after arbitrary calls -/
def Heap.Ok (env : Env K X F) (h : Heap K X) : Prop :=
  (∀ r, h.next ≤ r → h.objs r = none) ∧
  ∀ r s, h.objs r = some (.km s) → ∃ k norm, KMState.Reachable env k norm s

/-- the object `r` is a `KernelMatrix` with kernel `k`, after arbitrary calls -/
def Heap.IsKM (env : Env K X F) (h : Heap K X) (r : Nat) (k : K) (norm : Bool) : Prop :=
  ∃ s, h.objs r = some (.km s) ∧ KMState.Reachable env k norm s

/-- attribute of the object `r` -/
def Heap.attr (h : Heap K X) (r : Nat) (name : String) : Option String :=
  match h.objs r with
  | some (.km t) => t.attrs.lookup name
  | _ => none

end KMethods
