import Verif.Model.Session
import Verif.Spec.Composite
import Verif.Spec.Ranking
/-!
# A program running alone
-/
namespace KMethods
variable {K X : Type}

/-- calls that may be made on any kernel matrix by sets, composite kernels and functions working on sets -/
def KMOp.Basic : KMOp X → Prop
  | .full | .setAttr .. | .getAttr .. => True
  | _ => False

/-- the other calls that a step of a program may make: the one written there, and `attach_to`, made by `ks.attach_to` and `find_optimal_kernel` -/
def POp.MayCall : POp K X → KMOp X → Prop
  | .km _ op, o => o = op
  | .attach .., o => o.isAttach = true
  | .find .., o => o.isAttach = true
  | _, _ => False

namespace ProgSt

/-- nothing has been done -/
def empty : ProgSt K X := ⟨⟨fun _ => none, 0⟩, ⟨[], [], []⟩⟩

/-- the steps are executed one after the other; exceptions are caught. The list contains what each step returned or raised. -/
noncomputable def run (env : Env K X F) : List (POp K X) → ProgSt K X → List (Except PyErr POut) × ProgSt K X
  | [], s => ([], s)
  | op :: l, s => (((exec env op s).1) :: (run env l (exec env op s).2).1, (run env l (exec env op s).2).2)

/-- the kernel matrix object that the variable `v` stands for -/
def obj (s : ProgSt K X) (v : Nat) : Option (Obj K X) := s.loc.vars[v]?.bind s.heap.objs

/-- `c.fit(w)` succeeds, and from then on `c.composite_KM` is the finite matrix `A`, whatever is done with other objects, until `c.fit` is called again; if `P` only allows ndarrays, as an ndarray -/
def FitGives {n : Nat} (env : Env K X F) (P : Fmt → Prop) (c : Nat) (w : Option WeightsIn) (s : ProgSt K X) (A : Matrix (Fin n) (Fin n) ℝ) : Prop :=
  (exec env (.fit c w) s).1 = .ok .none ∧ ∃ f, ((∀ g, P g → g = .dense) → f = .dense) ∧
    ∀ l : List (POp K X), (∀ op ∈ l, ∀ w, op ≠ .fit c w) → (exec env (.composite c) (run env l (exec env (.fit c w) s).2).2).1 = .ok (.mat (f, Mat.ofReal A))

end ProgSt

namespace Session

/-- the steps of the program number `i` -/
def stepsOf (i : Nat) (l : List (Nat × POp K X)) : List (POp K X) := (l.filter (·.1 = i)).map (·.2)

/-- what the program number `i` has seen -/
def seenBy (i : Nat) (l : List (Nat × Except PyErr POut)) : List (Except PyErr POut) := (l.filter (·.1 = i)).map (·.2)

/-- the state of the program number `i` -/
def prog (w : Session K X) (i : Nat) : ProgSt K X := ⟨w.heap, w.progs i⟩

end Session
/-- the object `r` is a kernel matrix attached to the sample `A` with only calls satisfying `Q` since then, whose kernel has the finite matrix `G` there, normalised if the object normalises; or it is a precomputed kernel matrix with the entries `G` -/
def Heap.AttachedGram (env : Env K X F) (Q : KMOp X → Prop) (h : Heap K X) (A : Arr2 X) (r : Nat) (G : Matrix (Fin A.nrows) (Fin A.nrows) ℝ) : Prop :=
  (∃ t k norm, h.objs r = some (.km t) ∧ KMState.Since env k norm ⟨A, none⟩ Q t ∧ IsMatrix1 env k norm A G) ∨ ∃ p, h.objs r = some (.pre p) ∧ p.full = Mat.ofReal G

/-- the set that a step may change -/
def POp.target : POp K X → Option Nat
  | .append i _ | .extend i _ | .attach i .. | .find i .. | .addKernels i .. => some i
  | _ => none

/-- members have been added at the end only, and the number of samples has not changed once there was one -/
def KSet.Grown (t t' : KSet) : Prop := t.members <+: t'.members ∧ (t.numSamples ≠ .unset → t'.numSamples = t.numSamples)

end KMethods
