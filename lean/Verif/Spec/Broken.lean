import Verif.Model.KernelSet
/-!
# Kernels that cannot be evaluated on a sample
-/
namespace KMethods
variable {K X : Type}

/-- the kernel function `k` raises an exception, whenever it is called, on some pair of rows of `A` (an earlier and a later one, or twice the same) -/
def Env.BreaksOn (env : Env K X F) (k : K) (A : Arr2 X) : Prop :=
  ∃ i j, i ≤ j ∧ j < A.nrows ∧ ∀ c, env.fails c k (A.row i) (A.row j) = true

/-- some member of the set is a kernel matrix object (in any state) with such a kernel function -/
def SetSt.HasBroken (env : Env K X F) (s : SetSt K X) (A : Arr2 X) : Prop :=
  ∃ r ∈ s.set.members, ∃ t, s.heap.objs r = some (.km t) ∧ env.BreaksOn t.kernel A

end KMethods
