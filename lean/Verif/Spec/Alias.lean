import Verif.Model.Alias
import Verif.Spec.History
/-!
# Histories in which the caller also writes into shared arrays
-/
namespace KMethods

/-- the arrays of the samples are not touched -/
def CallerWrite.Matrices {X V : Type} : CallerWrite X V → Prop
  | .samples _ _ => False
  | _ => True

/-- possible for an object attached to `a`: with one sample, both attributes refer to the same array -/
def CallerWrite.Possible {X V : Type} (a : Attachment X) : CallerWrite X V → Prop
  | .samples r r' => a.two = none → r = r'
  | _ => True

namespace KMState
variable {K X V : Type}

/-- as `Reachable`, with writes by the caller in between -/
inductive ReachableW (env : Env K X V) (k : K) (norm : Bool) : KMState K X V → Prop
  | new (t : Nat) : ReachableW env k norm (init k norm t)
  | call {s : KMState K X V} (op : KMOp X) : ReachableW env k norm s → ReachableW env k norm (exec env op s).2
  | write {s : KMState K X V} (w : CallerWrite X V) : ReachableW env k norm s → ReachableW env k norm (s.write w)

/-- as `SinceAny`, with writes satisfying `W` by the caller in between -/
inductive SinceW (env : Env K X V) (k : K) (norm : Bool) (a : Attachment X) (W : CallerWrite X V → Prop) : KMState K X V → Prop
  | attached {s s' : KMState K X V} {one : SampleIn X} {two : Option (SampleIn X)} :
      ReachableW env k norm s → Attaches one two a → exec env (.attach one two) s = (.ok .none, s') → SinceW env k norm a W s'
  | call {s : KMState K X V} (op : KMOp X) : SinceW env k norm a W s → op.isAttach = false → SinceW env k norm a W (exec env op s).2
  | write {s : KMState K X V} (w : CallerWrite X V) : SinceW env k norm a W s → W w → SinceW env k norm a W (s.write w)

/-- `s'` is reached from `s` by any calls other than `attach_to`, and any writes by the caller -/
inductive LaterW (env : Env K X V) (s : KMState K X V) : KMState K X V → Prop
  | refl : LaterW env s s
  | call {s' : KMState K X V} (op : KMOp X) : LaterW env s s' → op.isAttach = false → LaterW env s (exec env op s').2
  | write {s' : KMState K X V} (w : CallerWrite X V) : LaterW env s s' → LaterW env s (s'.write w)

/-- what happens to an object: calls, and writes by the caller into arrays it shares with the object -/
inductive Step (X V : Type) where
  | call (op : KMOp X)
  | write (w : CallerWrite X V)

/-- the calls alone -/
def Step.calls {X V : Type} : List (Step X V) → List (KMOp X)
  | [] => []
  | .call op :: l => op :: calls l
  | .write _ :: l => calls l

/-- the results of the calls -/
def traceW (env : Env K X V) : List (Step X V) → KMState K X V → List (Except PyErr (KMOut V))
  | [], _ => []
  | .call op :: l, s => (exec env op s).1 :: traceW env l (exec env op s).2
  | .write w :: l, s => traceW env l (s.write w)

/-- no call of `attach_to`, and writes only into arrays of samples -/
def Step.SamplesOnly {X V : Type} : Step X V → Prop
  | .call op => op.isAttach = false
  | .write (.samples _ _) => True
  | .write _ => False

end KMState
end KMethods
