import Verif.Model.Describe
import Verif.Spec.History
/-!
# What printing should show
-/
namespace KMethods

/-- the text that should describe the attached sample(s) -/
def Attachment.describe {X : Type} (a : Attachment X) (nameOne : String) (nameTwo : Option String) : String :=
  match a.two with
  | none => s!"{nameOne} ({a.one.nrows}, {a.one.ncols})"
  | some b => s!"{nameOne} ({a.one.nrows}, {a.one.ncols}) x {nameTwo.getD "None"} ({b.nrows}, {b.ncols})"

/-- the call is one of `attach_to` -/
def LOp.isAttach {X : Type} : LOp X → Bool
  | .attach .. => true
  | .call op => op.isAttach
  | _ => false

/-- the calls of a history that are not printing, without the names -/
def LOp.calls {X : Type} : List (LOp X) → List (KMOp X)
  | [] => []
  | .attach one _ two _ :: l => .attach one two :: calls l
  | .call op :: l => op :: calls l
  | _ :: l => calls l

/-- the call is one of `str` or `format` -/
def LOp.isPrint {X : Type} : LOp X → Bool
  | .str | .format => true
  | _ => false

namespace Labelled
variable {K X V : Type}

/-- results of all calls -/
def trace (env : Env K X V) (kstr : K → String) : List (LOp X) → Labelled K X V → List (Except PyErr (KMOut V))
  | [], _ => []
  | op :: l, s => (exec env kstr op s).1 :: trace env kstr l (exec env kstr op s).2

/-- the state after a sequence of calls -/
def run (env : Env K X V) (kstr : K → String) (l : List (LOp X)) (s : Labelled K X V) : Labelled K X V := l.foldl (fun s op => (exec env kstr op s).2) s

/-- results of the calls that are not printing -/
def traceCalls (env : Env K X V) (kstr : K → String) : List (LOp X) → Labelled K X V → List (Except PyErr (KMOut V))
  | [], _ => []
  | op :: l, s => (if op.isPrint then [] else [(exec env kstr op s).1]) ++ traceCalls env kstr l (exec env kstr op s).2

/-- states of `KernelMatrix(k, norm, name)` after any calls -/
inductive Reachable (env : Env K X V) (kstr : K → String) (k : K) (norm : Bool) (name : String) : Labelled K X V → Prop
  | new (t : Nat) : Reachable env kstr k norm name (init k norm name t)
  | call {s : Labelled K X V} (op : LOp X) : Reachable env kstr k norm name s → Reachable env kstr k norm name (exec env kstr op s).2

/-- ... which was last successfully attached to `a` under the given names, with any other calls since -/
inductive Since (env : Env K X V) (kstr : K → String) (k : K) (norm : Bool) (name : String) (a : Attachment X) : String → Option String → Labelled K X V → Prop
  | attached {s s' : Labelled K X V} {one : SampleIn X} {two : Option (SampleIn X)} (n1 : String) (n2 : Option String) :
      Reachable env kstr k norm name s → Attaches one two a → exec env kstr (.attach one n1 two n2) s = (.ok .none, s') → Since env kstr k norm name a n1 n2 s'
  | attachedDefault {s s' : Labelled K X V} {one : SampleIn X} {two : Option (SampleIn X)} :
      Reachable env kstr k norm name s → Attaches one two a → exec env kstr (.call (.attach one two)) s = (.ok .none, s') →
      Since env kstr k norm name a "sample" none s'
  | call {s : Labelled K X V} {n1 : String} {n2 : Option String} (op : LOp X) : Since env kstr k norm name a n1 n2 s → op.isAttach = false →
      Since env kstr k norm name a n1 n2 (exec env kstr op s).2

end Labelled

/-- the kernel is one that a constructor can make: `GaussianKernel` computes `gamma` from `sigma` -/
def NumKernel.FromConstructor : NumKernel → Prop
  | .gaussian sigma gamma => ∃ s, NumKernel.gaussian sigma gamma = mkGaussian s
  | _ => True

/-- the numbers that are shown for the kernel are in `S` (say, the floating-point numbers) -/
def NumKernel.ParamsIn (S : Set ℝ) : NumKernel → Prop
  | .hadamard alpha => alpha ∈ S
  | .poly _ gamma b => gamma ∈ S ∧ b ∈ S
  | .gaussian sigma _ => sigma ∈ S
  | .laplacian gamma => gamma ∈ S
  | .chi2 gamma => gamma ∈ S
  | .sigmoid gamma offset => gamma ∈ S ∧ offset ∈ S
  | .linear => True

end KMethods
