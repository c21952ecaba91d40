import Verif.Model.Labels
import Verif.Spec.Algorithms
/-!
# Labels and classifiers
-/
namespace KMethods
variable {K X M W H Y P : Type}

/-- the number that Python compares, `none` for strings -/
def Label.value : Label → Option ℝ
  | .int z => some z
  | .real x => some x
  | .bool b => some (if b then 1 else 0)
  | .text _ => none

/-- equality of Python: of numbers as numbers, of strings as strings -/
def Label.PyEq : Label → Label → Prop
  | .text s, .text s' => s = s'
  | .text _, _ => False
  | _, .text _ => False
  | a, b => a.value = b.value

/-- arrays of the dtype can have the element -/
def LabelType.Holds : LabelType → Label → Prop
  | .int w, .int z => 0 < w ∧ -2 ^ (w - 1) ≤ z ∧ z < 2 ^ (w - 1)
  | .uint w, .int z => 0 ≤ z ∧ z < 2 ^ w
  | .float, .real _ => True
  | .bool, .bool _ => True
  | .text, .text _ => True
  | .object, _ => True
  | _, _ => False

/-- an array has elements of its dtype -/
def Labels.WellTyped (y : Labels) : Prop := ∀ l ∈ y.vals, y.dtype.Holds l

/-- what is assumed of scikit-learn: a fitted `SVC` predicts labels it was fitted with -/
def Learner.Classifies (L : Learner M Labels W (List Label)) : Prop :=
  ∀ A y w m, L.fit .svc A y w = .ok m → ∀ T p, L.predict m T = .ok p → ∀ l ∈ p, l ∈ y.vals

/-- the same where targets are numbers -/
def SvmLearner.Classifies (L : SvmLearner H M W (List Label)) : Prop :=
  ∀ k h A y w m, L.fit .svc k h A y w = .ok m → ∀ T p, L.predict m T = .ok p → ∀ l ∈ p, ∃ x, l.value = some x ∧ F.real x ∈ y

/-- `s'` is reached from `s` by calls of `predict` and `set_params` with any arguments -/
inductive Machine.AfterCalls (env : Env K X F) (L : Learner M Y W P) (s : Machine K X M Y) : Machine K X M Y → Prop
  | refl : AfterCalls env L s s
  | predict {s' : Machine K X M Y} (checked : Except PyErr (Arr2 X)) : AfterCalls env L s s' → AfterCalls env L s (Machine.predict env L checked s').2
  | setParams {s' : Machine K X M Y} (ps : List (ParamUpdate K)) : AfterCalls env L s s' → AfterCalls env L s (Machine.setParams ps s').2

end KMethods
