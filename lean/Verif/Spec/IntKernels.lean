import Verif.Model.IntKernels
import Verif.Spec.Matrix
/-!
# Notions used to state the properties of kernels on integer arrays
-/
namespace KMethods

/-- the integers that the dtype can represent -/
def IntType.InRange (t : IntType) (v : ℤ) : Prop :=
  if t.signed then -2 ^ (t.bits - 1) ≤ v ∧ v < 2 ^ (t.bits - 1) else 0 ≤ v ∧ v < 2 ^ t.bits

/-- the value of the kernel on the same numbers as float arrays -/
noncomputable def IntKernel.onFloats (k : IntKernel) (x y : List ℤ) : Except PyErr F :=
  match k with
  | .num k => k.eval (x.map (↑)) (y.map (↑))
  | .hadamard alpha => NumKernel.eval (.hadamard alpha) (x.map (↑)) (y.map (↑))

/-- the integers computed on the way to the value of the kernel are in the range of the dtype -/
def IntKernel.Fits (t : IntType) (k : IntKernel) (x y : List ℤ) : Prop :=
  match k with
  | .num .linear | .num (.poly ..) | .num (.sigmoid ..) => t.InRange (List.zipWith (· * ·) x y).sum
  | .num (.gaussian ..) => ∀ p ∈ x.zip y, t.InRange (p.1 - p.2)
  | .num (.laplacian _) => (∀ p ∈ x.zip y, t.InRange (p.1 - p.2) ∧ t.InRange |p.1 - p.2|) ∧
      (⟨64, t.signed⟩ : IntType).InRange (List.zipWith (fun a b => |a - b|) x y).sum
  | .num (.chi2 _) => True
  | .num (.hadamard _) => ∀ a ∈ x ++ y, t.InRange |a|
  | .hadamard alpha => 0 < alpha ∧ (∀ p ∈ x.zip y, t.InRange |p.1| ∧ t.InRange |p.2| ∧ t.InRange (|p.1| ^ alpha.toNat) ∧ t.InRange (|p.2| ^ alpha.toNat) ∧
      t.InRange (|p.1| ^ alpha.toNat + |p.2| ^ alpha.toNat) ∧
      t.InRange (2 * (|p.1| ^ alpha.toNat + |p.2| ^ alpha.toNat)) ∧ t.InRange (|p.1| ^ alpha.toNat * |p.2| ^ alpha.toNat))

end KMethods
