import Verif.Spec.History
/-!
# A small concrete instance

Used to show that the hypotheses of the property theorems are met by non-trivial cases: rows are integers,
the kernel is `k(x, y) = 10 x + y` (not symmetric, so that argument order matters), the sample is `1, 2, 3`.
-/
namespace KMethods
namespace Demo

/-- placeholders for the numeric operations: this instance is about access, not about numerics -/
def ops : Ops Int :=
  { nan := -1, zero := 0, normalize := fun A _ => .ok A, normalize2 := fun A _ _ => .ok A
    center := fun A => .ok A, frob := fun _ => .ok 7, frobSparse := fun _ => .ok 8
    nonFinite := fun A => (List.finRange A.nrows).any fun i => (List.finRange A.ncols).any fun j => A.get i j == -1 }

def kval (_ : Unit) (x y : Int) : Int := 10 * x + y

def env : Env Unit Int Int := ⟨kval, fun _ _ _ _ => false, ops, fun _ => false⟩

/-- the kernel raises on its `n`-th call, once -/
def faulty (n : Nat) : Env Unit Int Int := ⟨kval, fun t _ _ _ => t == n, ops, fun _ => false⟩

def rows (i : Nat) : Int := i + 1
def A3 : Arr2 Int := ⟨3, 1, rows⟩
def B2 : Arr2 Int := ⟨2, 1, fun i => i + 7⟩
def one : Attachment Int := ⟨A3, none⟩
def two : Attachment Int := ⟨A3, some B2⟩
def argA : SampleIn Int := .arr [3, 1] rows
def argB : SampleIn Int := .arr [2, 1] (fun i => i + 7)

open KMState
def st1 (norm : Bool) : KMState Unit Int Int := (exec env (.attach argA none) (init () norm 0)).2
def st2 (norm : Bool) : KMState Unit Int Int := (exec env (.attach argA (some argB)) (init () norm 0)).2
/-- freshly attached in the environment in which the kernel call number `n` raises -/
def stF (n : Nat) : KMState Unit Int Int := (exec (faulty n) (.attach argA none) (init () false 0)).2

theorem attaches_one : Attaches argA none one := ⟨⟨0, rfl⟩, trivial⟩
theorem attaches_two : Attaches argA (some argB) two := ⟨⟨0, rfl⟩, ⟨0, rfl⟩, rfl⟩
theorem since_one (norm : Bool) (P : KMOp Int → Prop) : Since env () norm one P (st1 norm) :=
  .attached (.new 0) attaches_one rfl
theorem since_two (norm : Bool) (P : KMOp Int → Prop) : Since env () norm two P (st2 norm) :=
  .attached (.new 0) attaches_two rfl
theorem since_faulty (n : Nat) (P : KMOp Int → Prop) : Since (faulty n) () false one P (stF n) :=
  .attached (.new 0) attaches_one rfl
theorem noFaults : NoFaults env := fun _ _ _ _ => rfl

/-- the entries of a returned matrix, row by row -/
def entries : Except PyErr (KMOut Int) → Option (Fmt × List (List Int))
  | .ok (.mat f A) => some (f, List.ofFn fun i => List.ofFn fun j => A.get i j)
  | _ => none

/-- equality of such lists can be decided -/
instance : DecidableEq (Option (Fmt × List (List Int))) := inferInstance

/-- the entries of a returned vector -/
def vector : Except PyErr (KMOut Int) → Option (List Int)
  | .ok (.vec l) => some l
  | _ => none

end Demo
end KMethods
