import Verif.Spec.Ranking
import Verif.Spec.Resample
/-!
# Notions used to state what the choice of a kernel depends on
-/
namespace KMethods
variable {K X : Type}

/-- two buckets with the same kernels and flags in the same order; the objects may be different ones and may have been used in different ways -/
def SetSt.SameKernels (env : Env K X F) (s t : SetSt K X) : Prop :=
  List.Forall₂ (fun r q => ∃ k norm, s.heap.IsKM env r k norm ∧ t.heap.IsKM env q k norm) s.set.members t.set.members

/-- all members have finite matrices on the sample -/
def SetSt.FiniteOn (env : Env K X F) (s : SetSt K X) (A : Arr2 X) : Prop := ∀ r ∈ s.set.members, ∃ M, s.heap.KernelOn env r A M

/-- the targets are far enough from constant for the alignment with them to be computed -/
def TargetsVary {n : Nat} (y : Fin n → ℝ) : Prop := ¬ NearZero (Real.sqrt (frobInner (centered (outerR n y)) (centered (outerR n y))))

/-- the two calls of `find_optimal_kernel` return the members at the same position -/
def SamePosition (s t : SetSt K X) (a b : Except PyErr Nat × SetSt K X) : Prop :=
  ∃ i r q : Nat, a.1 = .ok r ∧ b.1 = .ok q ∧ s.set.members[i]? = some r ∧ t.set.members[i]? = some q

end KMethods
