import Verif.Model.Warnings
import Verif.Spec.History
/-!
# Histories without warnings
-/
namespace KMethods
namespace KMState
variable {K X V : Type}

/-- states of a `KernelMatrix(k, normalized=norm)` which, after any earlier calls, was successfully attached to `a`, and on which then any calls were made
that issued no warning; with two samples, none of these ended in the `RuntimeError` by which the computation of the matrix reports a failure -/
inductive Silent (env : Env K X V) (k : K) (norm : Bool) (a : Attachment X) : KMState K X V → Prop
  | attached {s s' : KMState K X V} {one : SampleIn X} {two : Option (SampleIn X)} :
      Reachable env k norm s → Attaches one two a → exec env (.attach one two) s = (.ok .none, s') → Silent env k norm a s'
  | call {s : KMState K X V} (op : KMOp X) : Silent env k norm a s → op.isAttach = false → warnings env op s = [] →
      (a.two.isSome = true → (exec env op s).1 ≠ .error .runtimeError) → Silent env k norm a (exec env op s).2

end KMState

/-- calls that return a whole kernel matrix, normalised or not -/
def KMOp.ReturnsWhole {X : Type} (n m : Nat) : KMOp X → Prop
  | .full => True
  | .fullSparse => True
  | .normedKm => True
  | .getItem k => WholeKey n m k
  | _ => False

end KMethods
