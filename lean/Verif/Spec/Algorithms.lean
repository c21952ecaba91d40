import Verif.Model.Algorithms
import Verif.Spec.Ranking
/-!
# Notions used to state the properties of kernel machines
-/
namespace KMethods
variable {K X M Y W P H : Type}

/-- `s'` is reached from `s` by calls of `predict` with any arguments (some of which may have raised) -/
inductive Machine.AfterPredicts (env : Env K X F) (L : Learner M Y W P) (s : Machine K X M Y) : Machine K X M Y → Prop
  | refl : AfterPredicts env L s s
  | predict {s' : Machine K X M Y} (checked : Except PyErr (Arr2 X)) : AfterPredicts env L s s' →
      AfterPredicts env L s (Machine.predict env L checked s').2

/-- machines on which `fit` has never been called with valid data -/
inductive Machine.NeverFitted (env : Env K X F) (L : Learner M Y W P) : Machine K X M Y → Prop
  | new (c : Bool) (dflt : K) (k : Option (Option K)) (learner : Option String) (norm : Option Bool) : NeverFitted env L (Machine.new c dflt k learner norm)
  | setParams {s : Machine K X M Y} (ps : List (ParamUpdate K)) : NeverFitted env L s → NeverFitted env L (Machine.setParams ps s).2
  | predict {s : Machine K X M Y} (checked : Except PyErr (Arr2 X)) : NeverFitted env L s → NeverFitted env L (Machine.predict env L checked s).2
  | badFit {s : Machine K X M Y} (e : PyErr) (w : W) : NeverFitted env L s → NeverFitted env L (Machine.fit env L (.error e) w s).2

/-- the machine has been fitted, with the training data `A`, `y` and the resulting model `m`, and its parameters are the kernel function `k` and the flag `norm` -/
structure Machine.Fitted (s : Machine K X M Y) (k : K) (norm : Bool) (A : Arr2 X) (y : Y) (m : M) : Prop where
  kFunc : s.kFunc = some k
  normalized : s.normalized = some norm
  trainX : s.trainX = some A
  trainY : s.trainY = some y
  km : s.km.isSome
  model : ∃ e, s.estimator = some (e, some m)

/-- the update does not concern `k_func` or `normalized` -/
def ParamUpdate.Neutral : ParamUpdate K → Prop
  | .learnerId _ => True
  | .other => True
  | _ => False

/-- `s'` is reached from `s` by calls of `predict` and `set_params` with any arguments -/
inductive OptMachine.AfterPredicts (env : Env K X F) (L : SvmLearner H M W P) (s : OptMachine K X H M) : OptMachine K X H M → Prop
  | refl : AfterPredicts env L s s
  | predict {s' : OptMachine K X H M} (checked : Except PyErr (Arr2 X)) : AfterPredicts env L s s' →
      AfterPredicts env L s (OptMachine.predict env L checked s').2
  | setParams {s' : OptMachine K X H M} (ps : List (OptMachine.Update H)) : AfterPredicts env L s s' →
      AfterPredicts env L s (OptMachine.setParams ps s').2

/-- machines made on a heap of kernel matrices (with any histories), after any calls of `fit`, `predict` and `set_params`, with any arguments (some of which may have raised) -/
inductive OptMachine.Lived (env : Env K X F) (mkB : String → PyM (Heap K X) Bucket) (L : SvmLearner H M W P) : OptMachine K X H M → Prop
  | new {h : Heap K X} (hh : h.Ok env) (est : Est) (kb : BucketParam) (method : String) (hy : H) : Lived env mkB L ⟨est, kb, method, hy, h, none, none, none, none, none⟩
  | fit {s : OptMachine K X H M} (cv : List F → CVScore) (checked : Except PyErr (Arr2 X × List F)) (w : W) : Lived env mkB L s →
      Lived env mkB L (OptMachine.fit env mkB cv L checked w s).2
  | predict {s : OptMachine K X H M} (checked : Except PyErr (Arr2 X)) : Lived env mkB L s → Lived env mkB L (OptMachine.predict env L checked s).2
  | setParams {s : OptMachine K X H M} (ps : List (OptMachine.Update H)) : Lived env mkB L s → Lived env mkB L (OptMachine.setParams ps s).2

/-- `U` are objects that exist and of which `opt_kernel_` is not one -/
def OptMachine.Private (U : Set Nat) (s : OptMachine K X H M) : Prop := (∀ r ∈ U, r < s.heap.next) ∧ ∀ r, s.optKernel = some r → r ∉ U

/-- the function that makes buckets creates new objects only, and leaves the existing ones as they are -/
def MakesFresh (mkB : String → PyM (Heap K X) Bucket) : Prop :=
  ∀ n h, (∀ r < h.next, (mkB n h).2.objs r = h.objs r) ∧ h.next ≤ (mkB n h).2.next ∧ ∀ b, (mkB n h).1 = .ok b → ∀ r ∈ b.set.members, h.next ≤ r

/-- the function that makes buckets makes kernel matrices with a history -/
def MakesOk (env : Env K X F) (mkB : String → PyM (Heap K X) Bucket) : Prop := ∀ n h, h.Ok env → (mkB n h).2.Ok env

end KMethods
