import Verif.Spec.Choice
/-!
# A bucket with some of the kernels of another one
-/
namespace KMethods
variable {K X : Type}

/-- the kernels of the bucket `t` are some of those of the bucket `s`, in the same order: the kernel at position `n` of `t` is the one at position `φ n` of `s`. The objects may be different ones and may have been used in
different ways. -/
def SetSt.PartOf (env : Env K X F) (t s : SetSt K X) (φ : Nat → Nat) : Prop :=
  (∀ m n, m < n → n < t.set.members.length → φ m < φ n) ∧
  ∀ n < t.set.members.length, ∃ q r k norm, t.set.members[n]? = some q ∧ s.set.members[φ n]? = some r ∧ t.heap.IsKM env q k norm ∧ s.heap.IsKM env r k norm

end KMethods
