import Verif.Lemmas.Clone
import Verif.Props.Params
import Verif.Props.OptMachine
/-!
# C99: estimators can be cloned
-/
namespace KMethods
open PyM
variable {K X M Y N W P : Type} {env : Env K X F}

/-! ### machines with a given kernel -/

/-- **C99** Constructor and `set_params` keep the parameters that `clone` reads and those that `fit` uses the same; and an estimator made from parameters has these parameters. -/
theorem C99_machine_params (classifier : Bool) (dflt : K) :
    (∀ (k : PyObj (KFuncVal K)) (l : PyObj (Option String)) (n : PyObj (Option Bool)) (c : Nat), ∃ p c', MachineParams.init dflt k l n c = (.ok p, c') ∧
      (Machine.new classifier dflt k.val.arg l.val n.val : Machine K X M Y).HasParams p) ∧
    (∀ (p : MachineParams K) (s : Machine K X M Y) (us : List (MachineParams.Update K)), s.HasParams p →
      (Machine.setParams (us.map (·.plain)) s).2.HasParams (us.foldl (fun p u => MachineParams.set u p) p)) ∧
    ∀ p : MachineParams K, (p.machine classifier : Machine K X M Y).HasParams p := by
  refine ⟨fun k l n c => ?_, fun p s us hs => ?_, fun p => ⟨fun k => ?_, rfl, rfl⟩⟩
  · obtain ⟨i, v⟩ := k
    cases v with
    | none => exact ⟨_, _, rfl, fun k => ⟨fun h => (by cases h; rfl), fun h => (by cases h; rfl)⟩, rfl, rfl⟩
    | kernel k => exact ⟨_, _, rfl, fun k => ⟨fun h => (by cases h; rfl), fun h => (by cases h; rfl)⟩, rfl, rfl⟩
    | other => exact ⟨_, _, rfl, fun k => ⟨fun h => (by cases h), fun h => (by cases h)⟩, rfl, rfl⟩
  · rw [Machine.setParams_run]
    induction us generalizing p s with
    | nil => exact hs
    | cons u us ih =>
      refine ih (MachineParams.set u p) (Machine.setParam u.plain s) ?_
      cases u with
      | kFunc v =>
        obtain ⟨i, v⟩ := v
        refine ⟨fun k => ?_, hs.2⟩
        cases v with
        | none => exact ⟨fun h => (by cases h), fun h => (by cases h)⟩
        | kernel k => exact ⟨fun h => (by cases h; rfl), fun h => (by cases h; rfl)⟩
        | other => exact ⟨fun h => (by cases h), fun h => (by cases h)⟩
      | learnerId v => exact ⟨hs.1, rfl, hs.2.2⟩
      | normalized v => exact ⟨hs.1, hs.2.1, rfl⟩
      | other => exact hs
  · unfold MachineParams.machine
    rcases p.kFunc.val with _ | k' | _
    · exact ⟨fun h => (by cases h), fun h => (by cases h)⟩
    · exact ⟨fun h => (by cases h; rfl), fun h => (by cases h; rfl)⟩
    · exact ⟨fun h => (by cases h), fun h => (by cases h)⟩

/-- **C99 (partial)** Full statement: the same without `hus`. This is false, see `C99_machine_violated`.
A machine that was constructed with any arguments and given any parameters with `set_params`, but not `k_func=None`, can be cloned. The clone has the same parameters; those that are not immutable are new objects. -/
theorem C99_machine_partial (a : Atomic K) (dflt : K) {k : PyObj (KFuncVal K)} {l : PyObj (Option String)} {n : PyObj (Option Bool)} {c₀ c₁ : Nat} {p₀ : MachineParams K}
    (h₀ : MachineParams.init dflt k l n c₀ = (.ok p₀, c₁)) (us : List (MachineParams.Update K)) (hus : ∀ v, MachineParams.Update.kFunc v ∈ us → v.val ≠ .none) (c : Nat) :
    let p := us.foldl (fun p u => MachineParams.set u p) p₀
    ∃ q c', MachineParams.clone a dflt p c = (.ok q, c') ∧ q.kFunc.val = p.kFunc.val ∧ q.learnerId.val = p.learnerId.val ∧ q.normalized.val = p.normalized.val ∧
      (if a.kFunc p.kFunc.val then q.kFunc = p.kFunc else c ≤ q.kFunc.id ∧ q.kFunc.id < c') ∧
      (if a.learnerId p.learnerId.val then q.learnerId = p.learnerId else c ≤ q.learnerId.id ∧ q.learnerId.id < c') ∧
      (if a.normalized p.normalized.val then q.normalized = p.normalized else c ≤ q.normalized.id ∧ q.normalized.id < c') := by
  have hp₀ : p₀.kFunc.val ≠ .none := by
    obtain ⟨i, v⟩ := k
    cases v <;> cases h₀ <;> exact fun h => by cases h
  have hp : (us.foldl (fun p u => MachineParams.set u p) p₀).kFunc.val ≠ .none := by
    clear h₀
    induction us generalizing p₀ with
    | nil => exact hp₀
    | cons u us ih =>
      refine ih (fun v hv => hus v (.tail _ hv)) ?_
      cases u with
      | kFunc v => exact hus v (.head _)
      | learnerId v => exact hp₀
      | normalized v => exact hp₀
      | other => exact hp₀
  intro p
  exact MachineParams.clone_ok a dflt p hp c

/-- **C99** Exactly the machines whose `k_func` is not `None` can be cloned; for the others `clone` raises `RuntimeError`. (The identity of `None` has been given away before.) -/
theorem C99_machine_iff (a : Atomic K) (dflt : K) (p : MachineParams K) {c : Nat} (hid : p.kFunc.id < c) :
    ((∃ q, (MachineParams.clone a dflt p c).1 = .ok q) ↔ p.kFunc.val ≠ .none) ∧ (p.kFunc.val = .none → (MachineParams.clone a dflt p c).1 = .error .runtimeError) := by
  have h1 : p.kFunc.val = .none → (MachineParams.clone a dflt p c).1 = .error .runtimeError := MachineParams.clone_none a dflt p hid
  refine ⟨⟨fun ⟨q, hq⟩ h => ?_, fun h => ?_⟩, h1⟩
  · rw [h1 h] at hq
    cases hq
  · obtain ⟨q, c', e, -⟩ := MachineParams.clone_ok a dflt p h c
    exact ⟨q, by rw [e]⟩

/-- **C99 is violated**: for every kernel `dflt` that replaces `None`, `KernelMachine()` after `set_params(k_func=None)` cannot be cloned (`None` is the object 0). -/
theorem C99_machine_violated (a : Atomic K) (dflt : K) (l : PyObj (Option String)) (n : PyObj (Option Bool)) {c : Nat} (hc : 0 < c) :
    ∃ p c', MachineParams.init dflt ⟨0, .none⟩ l n c = (.ok p, c') ∧ (MachineParams.clone a dflt p c').1 ≠ .error .runtimeError ∧
      (MachineParams.clone a dflt (MachineParams.set (.kFunc ⟨0, .none⟩) p) c').1 = .error .runtimeError := by
  refine ⟨⟨⟨c, .kernel dflt⟩, l, n⟩, c + 1, rfl, ?_, (C99_machine_iff a dflt _ (Nat.lt_succ_of_lt hc)).2 rfl⟩
  obtain ⟨q, c', e, -⟩ := MachineParams.clone_ok a dflt ⟨⟨c, .kernel dflt⟩, l, n⟩ (fun h => by cases h) (c + 1)
  rw [e]
  exact fun h => by cases h

/-- **C99** The clone, which is not fitted, does the same as the original, whatever happened to that: with the same arguments `fit` raises for both or for neither, the same exception, and after success all calls of
`predict` have the same results: if whether the kernel function raises depends on its arguments only. -/
theorem C99_machine_fits (hst : KMState.Steady env) (L : Learner M Y W P) (a : Atomic K) (dflt : K) {p q : MachineParams K} {c c' : Nat} (h : MachineParams.clone a dflt p c = (.ok q, c'))
    (hc : p.kFunc.id < c) (s : Machine K X M Y) (hs : s.HasParams p) (checked : Except PyErr (Arr2 X × Y)) (w : W) :
    let new := Machine.fit env L checked w (q.machine s.classifier)
    let old := Machine.fit env L checked w s
    new.1 = old.1 ∧ (old.1 = .ok () → ∀ xs, Machine.predictions env L xs new.2 = Machine.predictions env L xs old.2) := by
  have hp : p.kFunc.val ≠ .none := (C99_machine_iff a dflt p hc).1.1 ⟨q, by rw [h]⟩
  obtain ⟨q', c'', e, v1, v2, v3, -⟩ := MachineParams.clone_ok a dflt p hp c
  obtain rfl : q' = q := by
    rw [e] at h
    cases h
    rfl
  obtain ⟨k1, k2, k3⟩ := hs
  have hk : (q'.machine s.classifier : Machine K X M Y).kFunc = s.kFunc := by
    unfold MachineParams.machine
    rw [v1]
    rcases hv : p.kFunc.val with _ | k | _
    · exact absurd hv hp
    · exact ((k1 k).2 hv).symm
    · rcases hs : s.kFunc with _ | k
      · rfl
      · rw [(k1 k).1 hs] at hv
        cases hv
  obtain ⟨f1, f2⟩ := Machine.fit_same hst L checked w (s := s) (c := q'.machine s.classifier) rfl hk (v2.trans k2.symm) (v3.trans k3.symm)
  refine ⟨f1, fun ho xs => ?_⟩
  obtain ⟨t, ht, e⟩ := f2 ho
  rw [e]
  exact Machine.predictions_km hst L xs _ ht t

/-! ### machines that choose a kernel -/

/-- **C99** An `OptimalKernelSVC` or `OptimalKernelSVR` can always be cloned. The clone is not fitted, has the same parameters, and its kernel bucket has copies of the kernel matrices, each of which is copied once.
The objects from before are left as they are. (`eps0` is scikit-learn's `epsilon` of an `SVC`.) -/
theorem C99_optimal_clone {s : OptMachine K X (SvmParams N) M} (hs : s.Stored) {eps0 : N} (he : s.est = .svc → s.hyper.epsilon = eps0) :
    ∃ c, OptMachine.clone eps0 s = (.ok c, { s with heap := c.heap }) ∧ c.Stored ∧ s.heap.next ≤ c.heap.next ∧ (∀ r < s.heap.next, c.heap.objs r = s.heap.objs r) ∧
      c.bucket = none ∧ c.trainX = none ∧ c.trainY = none ∧ c.optKernel = none ∧ c.model = none ∧ c.est = s.est ∧ c.method = s.method ∧ c.hyper = s.hyper ∧
      match s.kBucket with
      | .bucket t => ∃ φ : Nat → Nat, c.kBucket = .bucket { t with members := t.members.map φ } ∧ Set.InjOn φ {r | r ∈ t.members} ∧
          ∀ r ∈ t.members, s.heap.next ≤ φ r ∧ φ r < c.heap.next ∧ c.heap.objs (φ r) = s.heap.objs r
      | v => c.kBucket = v := by
  have hy : ∀ v h, (OptMachine.new s.est v s.method s.hyper eps0 h : OptMachine K X (SvmParams N) M).hyper = s.hyper := fun v h => by
    rcases s with ⟨_ | _, b, m, ⟨x1, x2, x3, x4⟩, hp, bk, tx, ty, ok, md⟩
    · obtain rfl := he rfl
      rfl
    · rfl
  have hrest : ∀ v, (∀ t, v ≠ BucketParam.bucket t) → s.kBucket = v → OptMachine.clone eps0 s = (.ok (OptMachine.new s.est v s.method s.hyper eps0 s.heap), s) := fun v hv e => by
    unfold OptMachine.clone
    rw [get_bind_run, e]
    cases v with
    | bucket t => exact absurd rfl (hv t)
    | str n => rfl
    | other => rfl
  rcases hb : s.kBucket with n | t | _
  · refine ⟨OptMachine.new s.est (.str n) s.method s.hyper eps0 s.heap, (hrest (.str n) (fun t h => by cases h) hb).trans (by rw [← hb]; rfl), ⟨hs.tidy, fun t h => BucketParam.noConfusion h⟩, le_rfl, fun _ _ => rfl, rfl, rfl, rfl, rfl, rfl, rfl, rfl, hy _ _, rfl⟩
  · obtain ⟨φ, h', e, -, f2, f3, f4, f5, f6⟩ := copyMembers_map t.members [] s.heap id (hs.members t hb) le_rfl hs.tidy (fun _ => .inl rfl) (fun r hr => absurd rfl hr)
    have ec : copyBucket t s.heap = (.ok { t with members := t.members.map φ }, h') := by
      show (copyMembers t.members [] >>= _ : PyM (Heap K X) KSet) s.heap = _
      rw [bind_ok e]
      rfl
    have eh : OptMachine.onHeap (copyBucket t) s = (.ok { t with members := t.members.map φ }, { s with heap := h' }) := by
      unfold OptMachine.onHeap
      rw [ec]
    refine ⟨OptMachine.new s.est (.bucket { t with members := t.members.map φ }) s.method s.hyper eps0 h', ?_, ⟨f6, fun u hu r hr => ?_⟩, f5, f4, rfl, rfl, rfl, rfl, rfl, rfl, rfl, hy _ _, φ, rfl,
      fun r hr q hq e => f2 (.inl hr) (.inl hq) e, f3⟩
    · unfold OptMachine.clone
      rw [get_bind_run, hb]
      show (OptMachine.onHeap (copyBucket t) >>= _ : PyM (OptMachine K X (SvmParams N) M) _) s = _
      rw [bind_ok eh, ← hb]
      rfl
    · obtain rfl : { t with members := t.members.map φ } = u := BucketParam.bucket.inj hu
      obtain ⟨q, hq, rfl⟩ := List.mem_map.1 hr
      obtain ⟨-, g2, g3⟩ := f3 q hq
      exact ⟨g2, by rw [show (OptMachine.new s.est _ s.method s.hyper eps0 h' : OptMachine K X (SvmParams N) M).heap = h' from rfl, g3]; exact (hs.members t hb q hq).2⟩
  · refine ⟨OptMachine.new s.est .other s.method s.hyper eps0 s.heap, (hrest .other (fun t h => by cases h) hb).trans (by rw [← hb]; rfl), ⟨hs.tidy, fun t h => BucketParam.noConfusion h⟩, le_rfl, fun _ _ => rfl, rfl, rfl, rfl, rfl, rfl, rfl, rfl, hy _ _, rfl⟩

/-- **C99** The clone does the same as the original would have done: with the same arguments `fit` raises for both or for neither, the same exception, and after success all calls of `predict` have the same results.
For this nothing is assumed about the kernel function, the learner or the calls before. -/
theorem C99_optimal_fits {s c s' : OptMachine K X (SvmParams N) M} (hs : s.Stored) {eps0 : N} (he : s.est = .svc → s.hyper.epsilon = eps0) (h : OptMachine.clone eps0 s = (.ok c, s'))
    (mkB : String → PyM (Heap K X) Bucket) (cv : List F → CVScore) (L : SvmLearner (SvmParams N) M W P) (checked : Except PyErr (Arr2 X × List F)) (w : W) :
    let new := OptMachine.fit env mkB cv L checked w c
    let old := OptMachine.fit env mkB cv L checked w s
    new.1 = old.1 ∧ (old.1 = .ok () → ∀ xs, OptMachine.predictions env L xs new.2 = OptMachine.predictions env L xs old.2) := by
  obtain ⟨c', e, st, -, -, -, -, -, -, -, e1, e2, e3, e4⟩ := C99_optimal_clone hs he
  rw [h] at e
  cases e
  rcases hb : s.kBucket with n | t | _
  · rw [hb] at e4
    unfold OptMachine.clone at h
    rw [get_bind_run, hb] at h
    obtain rfl : OptMachine.new s.est s.kBucket s.method s.hyper eps0 s.heap = c := by
      rw [hb]
      exact Except.ok.inj (congrArg Prod.fst h)
    obtain ⟨g1, -, g3⟩ := C68_refit (env := env) mkB cv L checked w s he
    exact ⟨g1, fun ho xs => by rw [g3 ho]⟩
  · rw [hb] at e4
    obtain ⟨φ, b1, b2, b3⟩ := e4
    obtain ⟨g1, g2⟩ := OptMachine.fit_twins_any (env := env) e1 e2 e3 hb b1 b2 hs.tidy st.tidy
      (fun r hr => ⟨(hs.members t hb r hr).1, (b3 r hr).2.1, (hs.members t hb r hr).2, (b3 r hr).2.2⟩) mkB cv L checked w
    exact ⟨g1, fun ho xs => (g2 ho).predictions L xs⟩
  · rw [hb] at e4
    unfold OptMachine.clone at h
    rw [get_bind_run, hb] at h
    obtain rfl : OptMachine.new s.est s.kBucket s.method s.hyper eps0 s.heap = c := by
      rw [hb]
      exact Except.ok.inj (congrArg Prod.fst h)
    obtain ⟨g1, -, g3⟩ := C68_refit (env := env) mkB cv L checked w s he
    exact ⟨g1, fun ho xs => by rw [g3 ho]⟩

/-- **C99** Whatever is done with the clone, the objects from before the cloning, among them the kernel matrices of the original's bucket and its chosen kernel, are not changed by `fit` of the clone and the calls of
`predict` after it. -/
theorem C99_optimal_apart {s c s' : OptMachine K X (SvmParams N) M} (hs : s.Stored) {eps0 : N} (he : s.est = .svc → s.hyper.epsilon = eps0) (h : OptMachine.clone eps0 s = (.ok c, s'))
    {mkB : String → PyM (Heap K X) Bucket} (hB : MakesFresh mkB) (cv : List F → CVScore) (L : SvmLearner (SvmParams N) M W P) (checked : Except PyErr (Arr2 X × List F)) (w : W) :
    let new := (OptMachine.fit env mkB cv L checked w c).2
    (∀ r < s.heap.next, new.heap.objs r = s.heap.objs r) ∧ ∀ x, ∀ r < s.heap.next, (OptMachine.predict env L x new).2.heap.objs r = s.heap.objs r := by
  obtain ⟨c', e, -, l, ob, -, -, -, ok, -⟩ := C99_optimal_clone hs he
  rw [h] at e
  cases e
  have hp : c.Private {r | r < s.heap.next} := ⟨fun r hr => lt_of_lt_of_le hr l, fun r hr => by rw [ok] at hr; cases hr⟩
  obtain ⟨f1, f2⟩ := C57_fit (env := env) hB cv L checked w c hp
  exact ⟨fun r hr => (f1 r hr).trans (ob r hr), fun x r hr => (((C57_predict (env := env) L _ f2).1 x).1 r hr).trans ((f1 r hr).trans (ob r hr))⟩

/-- **C99** Cloning does not change what the original predicts. -/
theorem C99_optimal_original {s c s' : OptMachine K X (SvmParams N) M} (hs : s.Stored) {eps0 : N} (he : s.est = .svc → s.hyper.epsilon = eps0) (h : OptMachine.clone eps0 s = (.ok c, s'))
    (hk : ∀ r, s.optKernel = some r → r < s.heap.next) (hb : ∀ t, s.bucket = some t → ∀ r ∈ t.members, r < s.heap.next) (L : SvmLearner (SvmParams N) M W P) (xs : List (Except PyErr (Arr2 X))) :
    OptMachine.predictions env L xs s' = OptMachine.predictions env L xs s := by
  obtain ⟨c', e, st, l, ob, -⟩ := C99_optimal_clone hs he
  rw [h] at e
  cases e
  exact (OptSim.extend hs.tidy st.tidy l ob hk hb).predictions L xs

namespace Demo
/-- the values of these parameters, as in Python: strings and flags are immutable, kernel functions are not -/
def atomic : Atomic Bool := ⟨fun v => match v with
  | .kernel _ => false
  | _ => true, fun _ => true, fun _ => true, rfl⟩
def svcParams : MachineParams Bool := ⟨⟨7, .kernel true⟩, ⟨1, some "SVC"⟩, ⟨2, some true⟩⟩
noncomputable def cloneMachine : OptMachine Bool ℝ (SvmParams ℝ) Unit := ⟨.svr, .bucket bucket2.set, "cv_risk", ⟨1, 1, 1, 1⟩, bucket2.heap, none, none, none, none, none⟩
end Demo

/-- a clone with a new kernel function (object 8) and the same string and flag -/
example : MachineParams.clone Demo.atomic false Demo.svcParams 8 = (.ok ⟨⟨8, .kernel true⟩, ⟨1, some "SVC"⟩, ⟨2, some true⟩⟩, 9) := rfl
/-- a machine with these parameters -/
example : (Demo.svcParams.machine true : Machine Bool ℝ Unit ℝ).HasParams Demo.svcParams ∧ Demo.svcParams.kFunc.id < 8 := by
  refine ⟨⟨fun k => ⟨fun h => ?_, fun h => ?_⟩, rfl, rfl⟩, by decide⟩ <;> cases h <;> rfl
/-- a machine with a bucket of two kernel matrices -/
example : Demo.cloneMachine.Stored ∧ (Demo.cloneMachine.est = .svc → Demo.cloneMachine.hyper.epsilon = 0) ∧ Demo.bucket2.set.members = [0, 1] := by
  refine ⟨⟨fun r hr => ?_, fun t ht r hr => ?_⟩, fun h => (by cases h), rfl⟩
  · have hr : 2 ≤ r := hr
    show (if r = 0 then _ else if r = 1 then _ else none) = none
    rw [if_neg (by omega), if_neg (by omega)]
  · obtain rfl : Demo.bucket2.set = t := BucketParam.bucket.inj ht
    have : r = 0 ∨ r = 1 := by simpa [Demo.bucket2] using hr
    refine ⟨Demo.alloc2 r hr, ?_⟩
    rcases this with rfl | rfl <;> rfl

end KMethods
