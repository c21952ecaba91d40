import Verif.Spec.History
/-!
# What iterating over a kernel matrix should give
-/
namespace KMethods

/-- the 1×1 matrix containing the element of the kernel matrix at position `t`, counted row by row -/
def Attachment.IsElement {X V : Type} (a : Attachment X) (kv : X → X → V) (t : Nat) (out : KMOut V) : Prop :=
  ∃ fmt, out = .mat fmt ⟨1, 1, fun _ _ => a.entry kv (t / a.ncols) (t % a.ncols)⟩

/-- the elements of the kernel matrix, row by row -/
def Attachment.AreElements {X V : Type} (a : Attachment X) (kv : X → X → V) (l : List (KMOut V)) : Prop :=
  l.length = a.nrows * a.ncols ∧ ∀ (t : Nat) (h : t < l.length), a.IsElement kv t l[t]

end KMethods
