import Verif.Spec.Kernels
/-!
# Notions used to state which changes of the data leave kernel matrices unchanged
-/
namespace KMethods

/-- two kernels on two samples (or pairs of samples) of the same sizes take the same values on corresponding rows, and on corresponding rows paired with themselves -/
def SameValues {X X' V : Type} (kv : X → X → V) (a : Attachment X) (kv' : X' → X' → V) (b : Attachment X') : Prop :=
  a.one.nrows = b.one.nrows ∧
  (∀ i, i < a.one.nrows → kv (a.one.row i) (a.one.row i) = kv' (b.one.row i) (b.one.row i)) ∧
  match a.two, b.two with
  | none, none => ∀ i j, i ≤ j → j < a.one.nrows → kv (a.one.row i) (a.one.row j) = kv' (b.one.row i) (b.one.row j)
  | some c, some d => c.nrows = d.nrows ∧ (∀ j, j < c.nrows → kv (c.row j) (c.row j) = kv' (d.row j) (d.row j)) ∧
      ∀ i j, i < a.one.nrows → j < c.nrows → kv (a.one.row i) (c.row j) = kv' (b.one.row i) (d.row j)
  | _, _ => False

/-- the sample with the given entries, as an `n × d` array of floats -/
noncomputable def rowsOf (n : Nat) {d : Nat} (x : Nat → Fin d → ℝ) : Arr2 (List ℝ) := ⟨n, d, fun i => List.ofFn (x i)⟩

end KMethods
