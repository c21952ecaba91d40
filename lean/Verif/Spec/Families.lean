import Verif.Spec.Composite
import Verif.Spec.Kernels
/-!
# Notions used to state how composite kernels made of kernels of one family behave
-/
namespace KMethods

/-- the members of the set are kernel matrices (not normalising) with the kernels `ks`, in this order, after arbitrary calls -/
def SetSt.HasKernels {K X : Type} (env : Env K X F) (s : SetSt K X) (ks : List K) : Prop :=
  List.Forall₂ (fun r k => s.heap.IsKM env r k false) s.set.members ks

/-- attaching the set to the sample, making a composite kernel of the class `cls` of it and fitting it (with the weights `w`) succeeds, and
`composite_KM` is the ndarray of the values of the single kernel `k` on the sample -/
def SetSt.BehavesLike (cls : CompClass) (w : Option WeightsIn) (s : SetSt NumKernel (List ℝ)) (A : Arr2 (List ℝ)) (k : NumKernel) : Prop :=
  ∃ s' c G, SetSt.attach (.arr true [A.nrows, A.ncols] A.row) none s = (.ok (), s') ∧ mkComposite cls (some s'.set) = .ok c ∧ k.IsGram A G ∧
    CompSt.Fits (numEnv realOps) IsDense w ⟨s'.heap, s'.set, c⟩ G

/-- the rows of the array have the length it says -/
def Arr2.HasWidth (A : Arr2 (List ℝ)) : Prop := ∀ i, i < A.nrows → (A.row i).length = A.ncols

end KMethods
