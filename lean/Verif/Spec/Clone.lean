import Verif.Model.Clone
/-! # Vocabulary: clones (C99) -/
namespace KMethods
variable {K X M Y W P H : Type}

/-- the results of consecutive calls of `predict` -/
noncomputable def Machine.predictions (env : Env K X F) (L : Learner M Y W P) : List (Except PyErr (Arr2 X)) → Machine K X M Y → List (Except PyErr P)
  | [], _ => []
  | x :: xs, s => (Machine.predict env L x s).1 :: predictions env L xs (Machine.predict env L x s).2

/-- the results of consecutive calls of `predict` -/
noncomputable def OptMachine.predictions (env : Env K X F) (L : SvmLearner H M W P) : List (Except PyErr (Arr2 X)) → OptMachine K X H M → List (Except PyErr P)
  | [], _ => []
  | x :: xs, s => (OptMachine.predict env L x s).1 :: predictions env L xs (OptMachine.predict env L x s).2

/-- the estimator `s`, fitted or not, has the parameters `p` -/
def Machine.HasParams (p : MachineParams K) (s : Machine K X M Y) : Prop :=
  (∀ k, s.kFunc = some k ↔ p.kFunc.val = .kernel k) ∧ s.learnerId = p.learnerId.val ∧ s.normalized = p.normalized.val

/-- the argument `k_func` of the constructor (the outer `none` is `None`) -/
def KFuncVal.arg : KFuncVal K → Option (Option K)
  | .none => Option.none
  | .kernel k => some (some k)
  | .other => some Option.none

/-- the keyword argument without its identity -/
def MachineParams.Update.plain : MachineParams.Update K → ParamUpdate K
  | .kFunc v => .kFunc (v.val.arg.getD none)
  | .learnerId v => .learnerId v.val
  | .normalized v => .normalized v.val
  | .other => .other

/-- the objects are stored below `next`, and those in the kernel bucket exist -/
structure OptMachine.Stored (s : OptMachine K X H M) : Prop where
  tidy : ∀ r, s.heap.next ≤ r → s.heap.objs r = none
  members : ∀ t, s.kBucket = .bucket t → ∀ r ∈ t.members, r < s.heap.next ∧ (s.heap.objs r).isSome

end KMethods
