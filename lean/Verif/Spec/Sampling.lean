import Verif.Model.Sampling
import Verif.Spec.Composite
/-!
# Notions used to state the properties of kernel buckets
-/
namespace KMethods
variable {K X V : Type}

/-- from `s` to `s'`: one new member, unattached and with the given flag, has been added for each of the kernels `ks`, in order; the members are distinct new
objects; nothing else has changed -/
def SetSt.Grown (s s' : SetSt K X) (norm : Bool) (ks : List K) : Prop :=
  ∃ rs : List Nat, s'.set.members = s.set.members ++ rs ∧ rs.Nodup ∧
    List.Forall₂ (fun r k => s.heap.next ≤ r ∧ r < s'.heap.next ∧ s'.heap.objs r = some (.km (KMState.init k norm 0))) rs ks ∧
    (∀ r < s.heap.next, s'.heap.objs r = s.heap.objs r) ∧ s.heap.next ≤ s'.heap.next ∧
    s'.set.numSamples = s.set.numSamples

/-- the values for which construction succeeds give these kernels -/
def built (build : V → Except PyErr K) (l : List V) : List K :=
  l.filterMap fun v => match build v with
    | .ok k => some k
    | .error _ => none

/-- an acceptable argument: `None`, or a non-empty sequence -/
def ValuesArg.Lists (a : ValuesArg V) (l : List V) : Prop := (a = .none ∧ l = []) ∨ (a = .seq l ∧ l ≠ [])

/-- an argument that is rejected as not being a non-empty iterable -/
def ValuesArg.Bad (a : ValuesArg V) : Prop := a = .notIterable ∨ a = .seq []

/-- centered alignment of two matrices; 0 when one of the centered matrices is (nearly) zero -/
noncomputable def calign {n : Nat} (A B : Matrix (Fin n) (Fin n) ℝ) : ℝ :=
  open Classical in
  if NearZero (Real.sqrt (frobInner (centered A) (centered A))) ∨ NearZero (Real.sqrt (frobInner (centered B) (centered B))) then 0
  else frobInner (centered A) (centered B) / (Real.sqrt (frobInner (centered A) (centered A)) * Real.sqrt (frobInner (centered B) (centered B)))

/-- entries minus their mean -/
noncomputable def devMat {n m : Nat} (A : Matrix (Fin n) (Fin m) ℝ) : Matrix (Fin n) (Fin m) ℝ :=
  fun i j => A i j - (∑ a, ∑ b, A a b) / (n * m)

/-- Pearson correlation of the entries of two matrices -/
noncomputable def entryCorr {n m : Nat} (A B : Matrix (Fin n) (Fin m) ℝ) : ℝ :=
  frobInner (devMat A) (devMat B) / (Real.sqrt (frobInner (devMat A) (devMat A)) * Real.sqrt (frobInner (devMat B) (devMat B)))

/-- some two entries differ -/
def NonConstant {n m : Nat} (A : Matrix (Fin n) (Fin m) ℝ) : Prop := ∃ i j k l, A i j ≠ A k l

/-- the kernels of the three strategies -/
noncomputable def strategyKernels (degrees : List ℤ) (sigma laplace sigmoid : List ℤ) (offsets : List ℝ) : List NumKernel :=
  .linear :: (degrees.map (fun d => .poly d 1 1) ++ sigma.map (fun e => mkGaussian (2 ^ e)) ++ laplace.map (fun e => .laplacian (2 ^ e)) ++
    sigmoid.map (fun e => .sigmoid (2 ^ e) 1) ++ offsets.map fun o => .sigmoid 1 o)

end KMethods
