import Verif.Spec.Demo
import Verif.Spec.Matrix
import Verif.Model.Operations
/-!
# A small concrete instance with real numbers
-/
namespace KMethods
open KMState
namespace Demo
/-- the kernel `x * y` on real rows, with the numeric operations of the library -/
noncomputable def renv : Env Unit ℝ F := ⟨fun _ x y => .real (x * y), fun _ _ _ _ => false, realOps, fun _ => false⟩
noncomputable def rA : Arr2 ℝ := ⟨3, 1, fun i => (i : ℝ) + 1⟩
noncomputable def rst (norm : Bool) : KMState Unit ℝ F := (exec renv (.attach (.arr [3, 1] rA.row) none) (init () norm 0)).2
theorem since_rst (norm : Bool) (P : KMOp ℝ → Prop) : Since renv () norm ⟨rA, none⟩ P (rst norm) :=
  .attached (two := none) (one := .arr [3, 1] rA.row) (.new 0) ⟨⟨0, rfl⟩, trivial⟩ rfl
end Demo
end KMethods
