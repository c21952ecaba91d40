import Verif.Spec.DemoReal
import Verif.Spec.Composite
/-!
# Small concrete sets
-/
namespace KMethods
namespace Demo
/-- three new kernel matrices, numbered 0, 1, 2 -/
noncomputable def heap3 : Heap Unit ℝ := ⟨fun r => if r < 3 then some (.km (KMState.init () false 0)) else none, 3⟩
/-- the same, attached to a sample with 3 rows, and a fourth one that is not attached -/
noncomputable def heapA : Heap Unit ℝ :=
  ⟨fun r => if r < 3 then some (.km (rst false)) else if r = 3 then some (.km (KMState.init () false 0)) else none, 4⟩
/-- a sample with 3 rows -/
noncomputable def sample3 : SetSample ℝ := .arr true [3, 1] rA.row
/-- a set of two of three kernel matrices -/
noncomputable def setSt : SetSt Unit ℝ := ⟨heap3, ⟨[2, 0], .unset, true⟩⟩
noncomputable def setStA : SetSt Unit ℝ := ⟨heapA, ⟨[2, 0], .one 3, true⟩⟩

theorem isKM_heap3 {r : Nat} (hr : r < 3) : heap3.IsKM renv r () false := ⟨_, if_pos hr, .new 0⟩

/-- a kernel matrix attached to the sample 1, 2, after `km[:, :]`, which leaves it in sparse storage -/
noncomputable def rB : Arr2 ℝ := ⟨2, 1, fun i => (i : ℝ) + 1⟩
noncomputable def st2r : KMState Unit ℝ F := (KMState.exec renv (.attach (.arr [2, 1] rB.row) none) (KMState.init () false 0)).2
noncomputable def spr : KMState Unit ℝ F := (KMState.exec renv (.getItem (.pair (.slice none none none) (.slice none none none))) st2r).2
theorem since_spr : KMState.Since renv () false ⟨rB, none⟩ (fun op => op ≠ .fullSparse) spr :=
  .call _ (.attached (two := none) (one := .arr [2, 1] rB.row) (.new 0) ⟨⟨0, rfl⟩, trivial⟩ rfl) rfl (by simp)
/-- two such kernel matrices -/
noncomputable def heapS : Heap Unit ℝ := ⟨fun r => if r < 2 then some (.km spr) else none, 2⟩

/-- two kernels with the values `x * y`, the second of which raises on the row 100 -/
noncomputable def fenv : Env Bool Nat F := ⟨fun _ x y => .real ((x * y : Nat) : ℝ), fun _ k x y => k && (x == 100 || y == 100), realOps, fun _ => false⟩
noncomputable def fst (k : Bool) : KMState Bool Nat F := (KMState.exec fenv (.attach (.arr [2, 1] fun i => i + 1) none) (KMState.init k false 0)).2
noncomputable def fheap : Heap Bool Nat :=
  ⟨fun r => if r = 0 then some (.km (fst false)) else if r = 1 then some (.km (fst true)) else none, 2⟩
/-- their `SumKernel` on the sample 1, 2 -/
noncomputable def fsum : CompSt Bool Nat := ⟨fheap, ⟨[0, 1], .one 2, true⟩, ⟨.sum, .one 2, false, none⟩⟩
/-- the first entry of a returned matrix -/
def cell00 : Except PyErr (Fmt × Mat F) → F
  | .ok (_, A) => if h : 0 < A.nrows ∧ 0 < A.ncols then A.get ⟨0, h.1⟩ ⟨0, h.2⟩ else .nan
  | .error _ => .nan
end Demo
end KMethods
