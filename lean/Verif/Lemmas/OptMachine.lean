import Verif.Lemmas.Algorithms
import Verif.Props.Ranking
/-!
# Lemmas on machines that choose a kernel
-/
namespace KMethods
open PyM KMState
variable {K X M W P H : Type} {env : Env K X F}

/-! ### which objects are changed -/

/-- existing objects in `U` are left as they are -/
def KeepsObjs {α : Type} (U : Set Nat) (m : PyM (Heap K X) α) : Prop :=
  ∀ h : Heap K X, (∀ r ∈ U, r < h.next) → (∀ r ∈ U, (m h).2.objs r = h.objs r) ∧ h.next ≤ (m h).2.next

theorem KeepsObjs.bind {α β : Type} {U : Set Nat} {m : PyM (Heap K X) α} {f : α → PyM (Heap K X) β} (h1 : KeepsObjs U m) (h2 : ∀ a, KeepsObjs U (f a)) : KeepsObjs U (m >>= f) := by
  intro h hU
  have := h1 h hU
  rcases e : m h with ⟨_ | a, h'⟩
  · rw [bind_error e]; rw [e] at this; exact this
  · rw [bind_ok e]; rw [e] at this
    obtain ⟨k1, k2⟩ := h2 a h' fun r hr => (hU r hr).trans_le this.2
    exact ⟨fun r hr => (k1 r hr).trans (this.1 r hr), this.2.trans k2⟩

theorem KeepsObjs.of_eq {α : Type} {U : Set Nat} {m : PyM (Heap K X) α} (h : ∀ s, (m s).2 = s) : KeepsObjs U m := fun s _ => by
  rw [h s]; exact ⟨fun _ _ => rfl, le_rfl⟩

theorem keepsObjs_alloc (U : Set Nat) (o : Obj K X) : KeepsObjs U (Heap.alloc o) := fun _ hU =>
  ⟨fun r hr => Function.update_of_ne (ne_of_lt (hU r hr)) _ _, Nat.le_succ _⟩

theorem keepsObjs_call {α : Type} {U : Set Nat} {r : Nat} (hr : r ∉ U) (m : PyM (KMState K X F) α) : KeepsObjs U (Heap.call r m) := by
  intro h hU
  unfold Heap.call
  split
  · exact ⟨fun q hq => Function.update_of_ne (by rintro rfl; exact hr hq) _ _, le_rfl⟩
  · exact ⟨fun _ _ => rfl, le_rfl⟩

theorem keepsObjs_full {U : Set Nat} {r : Nat} (hr : r ∉ U) : KeepsObjs U (Heap.full env r) := by
  intro h hU
  unfold Heap.full
  split
  · exact ⟨fun _ _ => rfl, le_rfl⟩
  · exact keepsObjs_call hr _ h hU

theorem keepsObjs_copyMembers (U : Set Nat) (l : List Nat) (memo : List (Nat × Nat)) : KeepsObjs U (copyMembers l memo : PyM (Heap K X) (List Nat)) := by
  induction l generalizing memo with
  | nil => exact .of_eq fun _ => rfl
  | cons r l ih =>
    unfold copyMembers
    split
    · exact (ih memo).bind fun _ => .of_eq fun _ => rfl
    · exact KeepsObjs.bind (.of_eq fun s => by rw [getAttr_run]; rcases s.objs r <;> rfl) fun o =>
        (keepsObjs_alloc U o).bind fun r' => (ih _).bind fun _ => .of_eq fun _ => rfl

/-- a computation on a set whose members are outside `U` leaves the objects in `U` as they are, and does not change which members the set has -/
def KeepsSet {α : Type} (U : Set Nat) (m : PyM (SetSt K X) α) : Prop :=
  ∀ s : SetSt K X, (∀ r ∈ U, r < s.heap.next) → (∀ r ∈ s.set.members, r ∉ U) →
    (∀ r ∈ U, (m s).2.heap.objs r = s.heap.objs r) ∧ s.heap.next ≤ (m s).2.heap.next ∧ (m s).2.set.members = s.set.members

theorem KeepsSet.bind {α β : Type} {U : Set Nat} {m : PyM (SetSt K X) α} {f : α → PyM (SetSt K X) β} (h1 : KeepsSet U m) (h2 : ∀ a, KeepsSet U (f a)) : KeepsSet U (m >>= f) := by
  intro s hU hm
  have := h1 s hU hm
  rcases e : m s with ⟨_ | a, s'⟩
  · rw [bind_error e]; rw [e] at this; exact this
  · rw [bind_ok e]; rw [e] at this
    obtain ⟨k1, k2, k3⟩ := h2 a s' (fun r hr => (hU r hr).trans_le this.2.1) (by rw [this.2.2]; exact hm)
    exact ⟨fun r hr => (k1 r hr).trans (this.1 r hr), this.2.1.trans k2, k3.trans this.2.2⟩

theorem KeepsSet.of_eq {α : Type} {U : Set Nat} {m : PyM (SetSt K X) α} (h : ∀ s, (m s).2 = s) : KeepsSet U m := fun s _ _ => by
  rw [h s]; exact ⟨fun _ _ => rfl, le_rfl, rfl⟩

theorem keepsSet_lift {α : Type} {U : Set Nat} (x : Except PyErr α) : KeepsSet U (lift x : PyM (SetSt K X) α) := .of_eq fun _ => rfl
theorem keepsSet_raiseIf {U : Set Nat} (b : Bool) (e : PyErr) : KeepsSet U (raiseIf b e : PyM (SetSt K X) Unit) := .of_eq fun _ => by cases b <;> rfl

theorem keepsSet_onHeap {α : Type} {U : Set Nat} {m : PyM (Heap K X) α} (h : KeepsObjs U m) : KeepsSet U (SetSt.onHeap m) := fun s hU _ =>
  ⟨(h s.heap hU).1, (h s.heap hU).2, rfl⟩

/-- with the members at hand -/
theorem keepsSet_members {α : Type} {U : Set Nat} {f : SetSt K X → PyM (SetSt K X) α} (h : ∀ s : SetSt K X, (∀ r ∈ s.set.members, r ∉ U) → KeepsSet U (f s)) :
    KeepsSet U (get >>= f) := fun s hU hm => h s hm s hU hm

theorem KeepsSet.forEach {ι : Type} {U : Set Nat} {l : List ι} {f : ι → PyM (SetSt K X) Unit} (h : ∀ x ∈ l, KeepsSet U (f x)) : KeepsSet U (PyM.forEach l f) := by
  induction l with
  | nil => exact .of_eq fun _ => rfl
  | cons x l ih => exact (h x (.head _)).bind fun _ => ih fun y hy => h y (.tail _ hy)

theorem KeepsSet.mapEach {ι β : Type} {U : Set Nat} {l : List ι} {f : ι → PyM (SetSt K X) β} (h : ∀ x ∈ l, KeepsSet U (f x)) : KeepsSet U (PyM.mapEach l f) := by
  induction l with
  | nil => exact .of_eq fun _ => rfl
  | cons x l ih => exact (h x (.head _)).bind fun _ => (ih fun y hy => h y (.tail _ hy)).bind fun _ => .of_eq fun _ => rfl

theorem keepsSet_attach {U : Set Nat} (sample : SetSample X) : KeepsSet U (SetSt.attach sample none : PyM (SetSt K X) Unit) := by
  refine (keepsSet_lift _).bind fun n => keepsSet_members fun s hm => ?_
  exact (keepsSet_raiseIf _ _).bind fun _ => KeepsSet.bind (m := SetSt.modSet _) (fun _ _ _ => ⟨fun _ _ => rfl, le_rfl, rfl⟩) fun _ =>
    KeepsSet.bind (.forEach fun r hr => keepsSet_onHeap (keepsObjs_call (hm r hr) _)) fun _ => .of_eq fun _ => rfl

theorem keepsSet_rank {U : Set Nat} (cv : CVScore) (targets : List F) (method : String) (p : MethodParams) :
    KeepsSet U (rankKernels env cv targets method p) := by
  refine (keepsSet_raiseIf _ _).bind fun _ => ?_
  by_cases h : method.toLower = "align/corr"
  · rw [if_pos h]
    exact keepsSet_members fun s hm => KeepsSet.mapEach fun r hr => (keepsSet_onHeap (keepsObjs_full (hm r hr))).bind fun _ => (keepsSet_raiseIf _ _).bind fun _ => keepsSet_lift _
  · rw [if_neg h]
    exact (keepsSet_raiseIf _ _).bind fun _ => keepsSet_members fun s hm => KeepsSet.bind
      (KeepsSet.mapEach fun r hr => (keepsSet_lift _).bind fun _ => (keepsSet_onHeap (keepsObjs_full (hm r hr))).bind fun _ => keepsSet_lift _)
      fun _ => (keepsSet_lift _).bind fun _ => .of_eq fun _ => rfl

theorem keepsSet_findOptimalKernel {U : Set Nat} (cv : CVScore) (b : Bool) (sample : SetSample X) (targets : List F) (method : String) (p : MethodParams) :
    KeepsSet U (findOptimalKernel env cv b sample targets method p) := by
  refine (keepsSet_raiseIf _ _).bind fun _ => (keepsSet_raiseIf _ _).bind fun _ => (keepsSet_attach sample).bind fun _ => (keepsSet_rank cv targets method p).bind fun _ =>
    (keepsSet_lift _).bind fun i => .of_eq fun s => ?_
  show ((raiseIf (decide ((i : Int) < 0) || decide ((i : Int) ≥ (s.set.members.length : Int))) .indexError >>= fun _ => _ : PyM (SetSt K X) Nat) s).2 = s
  rcases (decide ((i : Int) < 0) || decide ((i : Int) ≥ (s.set.members.length : Int))) <;> rfl

/-! ### `deepcopy` -/

theorem mem_of_lookup {l : List (Nat × Nat)} {a b : Nat} (h : l.lookup a = some b) : (a, b) ∈ l := by
  induction l with
  | nil => cases h
  | cons p l ih =>
    rw [List.lookup_cons] at h
    by_cases hp : a = p.1
    · rw [hp, beq_self_eq_true] at h
      obtain rfl := Option.some.inj h
      rw [hp]
      exact .head _
    · rw [show (a == p.1) = false by simpa using hp] at h
      exact .tail _ (ih h)

theorem copyMembers_run {h0 : Heap K X} (l : List Nat) (memo : List (Nat × Nat)) (h : Heap K X) (hl : ∀ r ∈ l, r < h0.next ∧ (h0.objs r).isSome)
    (h1 : ∀ r < h0.next, h.objs r = h0.objs r) (h2 : h0.next ≤ h.next)
    (hm : ∀ p ∈ memo, h0.next ≤ p.2 ∧ p.2 < h.next ∧ h.objs p.2 = h0.objs p.1) (f : Nat → Nat) (hf : ∀ p ∈ memo, f p.2 = p.1) :
    ∃ rs h' f', copyMembers l memo h = (.ok rs, h') ∧ (∀ r < h0.next, h'.objs r = h0.objs r) ∧ h.next ≤ h'.next ∧ (∀ r < h.next, f' r = f r ∧ h'.objs r = h.objs r) ∧
      rs.map f' = l ∧ ∀ r ∈ rs, h0.next ≤ r ∧ r < h'.next ∧ h'.objs r = h0.objs (f' r) := by
  induction l generalizing memo h f with
  | nil => exact ⟨[], h, f, rfl, h1, le_rfl, fun _ _ => ⟨rfl, rfl⟩, rfl, by simp⟩
  | cons r l ih =>
    have hl' : ∀ q ∈ l, q < h0.next ∧ (h0.objs q).isSome := fun q hq => hl q (.tail _ hq)
    rcases hlook : memo.lookup r with _ | r'
    · obtain ⟨hrlt, hrs⟩ := hl r (.head _)
      obtain ⟨o, ho⟩ := Option.isSome_iff_exists.1 hrs
      have ho' : h.objs r = some o := (h1 r hrlt).trans ho
      obtain ⟨rs, h', f', e, a1, a2, a3, a4, a5⟩ := ih ((r, h.next) :: memo) { objs := Function.update h.objs h.next (some o), next := h.next + 1 } hl'
        (fun q hq => (Function.update_of_ne (by omega) _ _).trans (h1 q hq)) (h2.trans (Nat.le_succ _))
        (by
          rintro p hp
          rcases List.mem_cons.1 hp with rfl | hp
          · exact ⟨h2, Nat.lt_succ_self _, (Function.update_self ..).trans ho.symm⟩
          · obtain ⟨b1, b2, b3⟩ := hm p hp
            exact ⟨b1, Nat.lt_succ_of_lt b2, (Function.update_of_ne (by omega) _ _).trans b3⟩)
        (Function.update f h.next r)
        (by
          rintro p hp
          rcases List.mem_cons.1 hp with rfl | hp
          · exact Function.update_self ..
          · exact (Function.update_of_ne (by have := (hm p hp).2.1; omega) _ _).trans (hf p hp))
      have a2' : h.next + 1 ≤ h'.next := a2
      have hn : f' h.next = r ∧ h'.objs h.next = some o := by
        obtain ⟨c1, c2⟩ := a3 h.next (Nat.lt_succ_self _)
        exact ⟨c1.trans (Function.update_self ..), c2.trans (Function.update_self ..)⟩
      refine ⟨h.next :: rs, h', f', ?_, a1, by omega, ?_, by rw [List.map_cons, hn.1, a4], ?_⟩
      · unfold copyMembers
        rw [hlook]
        show (getAttr (·.objs r) >>= _ : PyM (Heap K X) (List Nat)) h = _
        rw [bind_ok (getAttr_run_some (fun x : Heap K X => x.objs r) h _ ho')]
        show (copyMembers l ((r, h.next) :: memo) >>= _ : PyM (Heap K X) (List Nat)) _ = _
        rw [bind_ok e]
        rfl
      · intro q hq
        obtain ⟨c1, c2⟩ := a3 q (Nat.lt_succ_of_lt hq)
        exact ⟨c1.trans (Function.update_of_ne (ne_of_lt hq) _ _), c2.trans (Function.update_of_ne (ne_of_lt hq) _ _)⟩
      · intro q hq
        rcases List.mem_cons.1 hq with rfl | hq
        · exact ⟨h2, by omega, by rw [hn.1, hn.2, ho]⟩
        · exact a5 q hq
    · obtain ⟨rs, h', f', e, a1, a2, a3, a4, a5⟩ := ih memo h hl' h1 h2 hm f hf
      have hmem : (r, r') ∈ memo := mem_of_lookup hlook
      obtain ⟨b1, b2, b3⟩ := hm _ hmem
      obtain ⟨c1, c2⟩ := a3 r' b2
      have hfr : f' r' = r := c1.trans (hf _ hmem)
      refine ⟨r' :: rs, h', f', ?_, a1, a2, a3, by rw [List.map_cons, hfr, a4], ?_⟩
      · unfold copyMembers
        rw [hlook]
        show (copyMembers l memo >>= _ : PyM (Heap K X) (List Nat)) _ = _
        rw [bind_ok e]
        rfl
      · intro q hq
        rcases List.mem_cons.1 hq with rfl | hq
        · exact ⟨b1, b2.trans_le a2, by rw [hfr, c2, b3]⟩
        · exact a5 q hq

/-- a deep copy: new objects with the same contents -/
theorem copyBucket_run (h : Heap K X) (t : KSet) (ht : ∀ r ∈ t.members, r < h.next ∧ (h.objs r).isSome) :
    ∃ rs h' f, copyBucket t h = (.ok { t with members := rs }, h') ∧ (∀ r < h.next, h'.objs r = h.objs r) ∧ h.next ≤ h'.next ∧ rs.map f = t.members ∧
      ∀ r ∈ rs, h.next ≤ r ∧ r < h'.next ∧ h'.objs r = h.objs (f r) := by
  obtain ⟨rs, h', f, e, a1, a2, -, a4, a5⟩ := copyMembers_run (h0 := h) t.members [] h ht (fun _ _ => rfl) le_rfl (by simp) id (by simp)
  refine ⟨rs, h', f, ?_, a1, a2, a4, a5⟩
  show (copyMembers t.members [] >>= _ : PyM (Heap K X) KSet) h = _
  rw [bind_ok e]
  rfl

theorem copyMembers_fresh (n0 : Nat) (l : List Nat) (memo : List (Nat × Nat)) (h : Heap K X) (h2 : n0 ≤ h.next) (hm : ∀ p ∈ memo, n0 ≤ p.2) :
    ∀ rs, (copyMembers l memo h).1 = .ok rs → ∀ r ∈ rs, n0 ≤ r := by
  induction l generalizing memo h with
  | nil => rintro rs hrs; obtain rfl : [] = rs := Except.ok.inj hrs; simp
  | cons r l ih =>
    intro rs hrs
    unfold copyMembers at hrs
    rcases hlook : memo.lookup r with _ | r'
    · rw [hlook] at hrs
      change ((getAttr (·.objs r) >>= _ : PyM (Heap K X) (List Nat)) h).1 = _ at hrs
      rcases ho : h.objs r with _ | o
      · rw [bind_error (getAttr_run_none (fun x : Heap K X => x.objs r) h ho)] at hrs; cases hrs
      rw [bind_ok (getAttr_run_some (fun x : Heap K X => x.objs r) h _ ho)] at hrs
      change ((copyMembers l ((r, h.next) :: memo) >>= _ : PyM (Heap K X) (List Nat)) { objs := Function.update h.objs h.next (some o), next := h.next + 1 }).1 = _ at hrs
      rw [bind_run] at hrs
      have := ih ((r, h.next) :: memo) { objs := Function.update h.objs h.next (some o), next := h.next + 1 } (h2.trans (Nat.le_succ _))
        (by rintro p hp; rcases List.mem_cons.1 hp with rfl | hp; exacts [h2, hm p hp])
      rcases hc : copyMembers l ((r, h.next) :: memo) { objs := Function.update h.objs h.next (some o), next := h.next + 1 } with ⟨_ | qs, h'⟩
      · rw [hc] at hrs; cases hrs
      rw [hc] at hrs this
      obtain rfl : _ = rs := Except.ok.inj hrs
      rintro q hq
      rcases List.mem_cons.1 hq with rfl | hq
      · exact h2
      · exact this qs rfl q hq
    · rw [hlook] at hrs
      change ((copyMembers l memo >>= _ : PyM (Heap K X) (List Nat)) h).1 = _ at hrs
      rw [bind_run] at hrs
      have := ih memo h h2 hm
      rcases hc : copyMembers l memo h with ⟨_ | qs, h'⟩
      · rw [hc] at hrs; cases hrs
      rw [hc] at hrs this
      obtain rfl : _ = rs := Except.ok.inj hrs
      rintro q hq
      rcases List.mem_cons.1 hq with rfl | hq
      · exact hm _ (mem_of_lookup hlook)
      · exact this qs rfl q hq

/-! ### `predict` -/
namespace OptMachine

/-- result of `predict`, from the state of the kernel matrix object -/
noncomputable def core (env : Env K X F) (L : SvmLearner H M W P) (est : Est) (model : Option M) (A B : Arr2 X) (t : KMState K X F) : Except PyErr P :=
  match (KMState.attach (Machine.arg B) (some (Machine.arg A)) t).1 with
  | .error e => .error e
  | .ok _ => match (KMState.full env (KMState.attach (Machine.arg B) (some (Machine.arg A)) t).2).1 with
    | .error e => .error e
    | .ok T => match model with
      | none => .error .attributeError
      | some m => (L.predict m T).bind (L.cast est)

theorem predict_run (L : SvmLearner H M W P) {s : OptMachine K X H M} {r : Nat} {A : Arr2 X} (B : Arr2 X) {k : K} {norm : Bool} {t : KMState K X F} (h1 : s.optKernel = some r)
    (h2 : s.trainX = some A) (h3 : s.heap.objs r = some (.km t)) (h4 : Reachable env k norm t) :
    ∃ t', Reachable env k norm t' ∧ predict env L (.ok B) s =
      (core env L s.est s.model A B t, { s with heap := { s.heap with objs := Function.update s.heap.objs r (some (.km t')) } }) := by
  obtain ⟨est, kb, me, hy, hp, bu, tx, ty, ok, mo⟩ := s
  obtain rfl : ok = some r := h1
  obtain rfl : tx = some A := h2
  change hp.objs r = _ at h3
  have hr1 : Reachable env k norm (KMState.attach (Machine.arg B) (some (Machine.arg A)) t).2 := by
    have := h4.call (.attach (Machine.arg B) (some (Machine.arg A)))
    rw [exec_attach_run] at this
    exact this
  show ∃ t', _ ∧ (onHeap (Heap.call r (KMState.attach (Machine.arg B) (some (Machine.arg A)))) >>= _ : PyM (OptMachine K X H M) P)
    (⟨est, kb, me, hy, hp, bu, some A, ty, some r, mo⟩ : OptMachine K X H M) = _
  unfold core
  have e1 : onHeap (Heap.call r (KMState.attach (Machine.arg B) (some (Machine.arg A)))) (⟨est, kb, me, hy, hp, bu, some A, ty, some r, mo⟩ : OptMachine K X H M) =
      ((KMState.attach (Machine.arg B) (some (Machine.arg A)) t).1, ⟨est, kb, me, hy,
        { hp with objs := Function.update hp.objs r (some (.km (KMState.attach (Machine.arg B) (some (Machine.arg A)) t).2)) }, bu, some A, ty, some r, mo⟩) := by
    unfold onHeap
    rw [Heap.call_km _ h3]
  rcases ha : (KMState.attach (Machine.arg B) (some (Machine.arg A)) t) with ⟨e | _, t1⟩
  · rw [ha] at e1 hr1
    exact ⟨t1, hr1, by rw [bind_error e1]⟩
  rw [ha] at e1 hr1
  rw [bind_ok e1]
  show ∃ t', _ ∧ (onHeap (Heap.full env r) >>= _ : PyM (OptMachine K X H M) P) _ = _
  have hr2 : Reachable env k norm (KMState.full env t1).2 := by
    have := hr1.call .full
    rw [exec_full_run] at this
    exact this
  have e2 : onHeap (Heap.full env r) (⟨est, kb, me, hy, { hp with objs := Function.update hp.objs r (some (.km t1)) }, bu, some A, ty, some r, mo⟩ : OptMachine K X H M) =
      ((KMState.full env t1).1, ⟨est, kb, me, hy, { hp with objs := Function.update hp.objs r (some (.km (KMState.full env t1).2)) }, bu, some A, ty, some r, mo⟩) := by
    have h5 : ({ hp with objs := Function.update hp.objs r (some (.km t1)) } : Heap K X).objs r = some (.km t1) := Function.update_self ..
    have h6 : Heap.full env r { hp with objs := Function.update hp.objs r (some (.km t1)) } = Heap.call r (KMState.full env) { hp with objs := Function.update hp.objs r (some (.km t1)) } := by
      unfold Heap.full; rw [h5]
    unfold onHeap
    rw [h6, Heap.call_km _ h5]
    simp only [Function.update_idem]
  refine ⟨(KMState.full env t1).2, hr2, ?_⟩
  rcases hf : (KMState.full env t1).1 with e | T
  · rw [hf] at e2
    rw [bind_error e2]
  rw [hf] at e2
  rw [bind_ok e2]
  rcases mo with _ | m
  · rfl
  show (lift (L.predict m T) >>= _ : PyM (OptMachine K X H M) P) _ = _
  dsimp only
  rcases L.predict m T with _ | p <;> rfl

/-- the result depends on the kernel and the flag only -/
theorem core_eq (hs : Steady env) (L : SvmLearner H M W P) (est : Est) (model : Option M) (A B : Arr2 X) {t t' : KMState K X F} (h1 : t'.kernel = t.kernel)
    (h2 : t'.keepNormed = t.keepNormed) : core env L est model A B t' = core env L est model A B t := by
  unfold core
  rcases ho : Attachment.ofArgs (Machine.arg B) (some (Machine.arg A)) with e | a
  · rw [attach_error _ _ t e ho, attach_error _ _ t' e ho]
  · rw [attach_ok _ _ t a ho, attach_ok _ _ t' a ho, h1, h2]
    obtain ⟨c, e⟩ := cf_full (C := true) hs (attachedState t.kernel t.keepNormed a t.clock t.centeredKm) t'.clock t'.centeredKm
    rw [show frame true t'.clock t'.centeredKm (attachedState t.kernel t.keepNormed a t.clock t.centeredKm) =
      attachedState t.kernel t.keepNormed a t'.clock t'.centeredKm from rfl] at e
    dsimp only
    rw [e]

theorem core_matrix (hops : env.ops = realOps) (L : SvmLearner H M W P) (est : Est) (m : M) {A B : Arr2 X} {k : K} {norm : Bool} {t : KMState K X F} (ht : Reachable env k norm t)
    (hc : B.ncols = A.ncols) {G : Matrix (Fin B.nrows) (Fin A.nrows) ℝ} (hG : IsMatrix2 env k norm B A G) :
    core env L est (some m) A B t = (L.predict m (.dense, Mat.ofReal G)).bind (L.cast est) := by
  obtain ⟨t', e, hs, _⟩ := since_attach2 (env := env) hc ht (fun op => op = .full)
  unfold core
  rw [e]
  dsimp only
  rw [hG.full hops hs]

theorem predict_unfitted (L : SvmLearner H M W P) (checked : Except PyErr (Arr2 X)) (s : OptMachine K X H M) (h : s.optKernel = none) :
    predict env L checked s = (.error .notFitted, s) := by
  show (get >>= _ : PyM (OptMachine K X H M) P) s = _
  rw [get_bind_run, h]
  rfl

/-- what `predict` does in the other cases -/
theorem predict_other (L : SvmLearner H M W P) (checked : Except PyErr (Arr2 X)) (s : OptMachine K X H M)
    (h : (∃ e, checked = .error e) ∨ s.optKernel = none ∨ s.trainX = none ∨ ∃ r, s.optKernel = some r ∧ ∀ t, s.heap.objs r ≠ some (.km t)) :
    ∃ e, predict env L checked s = (.error e, s) := by
  obtain ⟨est, kb, me, hy, hp, bu, tx, ty, ok, mo⟩ := s
  rcases ok with _ | r
  · exact ⟨_, rfl⟩
  rcases checked with e | B
  · exact ⟨e, rfl⟩
  rcases tx with _ | A
  · exact ⟨_, rfl⟩
  rcases h with ⟨e, h⟩ | h | h | ⟨r', h, h'⟩
  · cases h
  · cases h
  · cases h
  · obtain rfl : r = r' := Option.some.inj h
    have e1 : onHeap (Heap.call r (KMState.attach (Machine.arg B) (some (Machine.arg A)))) (⟨est, kb, me, hy, hp, bu, some A, ty, some r, mo⟩ : OptMachine K X H M) =
        (.error .attributeError, ⟨est, kb, me, hy, hp, bu, some A, ty, some r, mo⟩) := by
      unfold onHeap
      rw [Heap.call_not_km _ h']
    refine ⟨.attributeError, ?_⟩
    show (onHeap (Heap.call r (KMState.attach (Machine.arg B) (some (Machine.arg A)))) >>= _ : PyM (OptMachine K X H M) P)
      (⟨est, kb, me, hy, hp, bu, some A, ty, some r, mo⟩ : OptMachine K X H M) = _
    rw [bind_error e1]

theorem setParams_run (ps : List (Update H)) (s : OptMachine K X H M) : setParams ps s = (.ok (), ps.foldl (fun s p => setParam p s) s) := by
  induction ps generalizing s with
  | nil => rfl
  | cons p ps ih => exact ih (setParam p s)

/-- `set_params` changes parameters only -/
theorem setParams_state (ps : List (Update H)) (s : OptMachine K X H M) :
    ∃ kb me hy, (setParams ps s).2 = { s with kBucket := kb, method := me, hyper := hy } := by
  rw [setParams_run]
  induction ps generalizing s with
  | nil => exact ⟨_, _, _, rfl⟩
  | cons p ps ih =>
    obtain ⟨kb, me, hy, h⟩ := ih (setParam p s)
    cases p <;> exact ⟨kb, me, hy, h⟩

/-- parameters do not matter for `predict` -/
theorem predict_params (L : SvmLearner H M W P) (checked : Except PyErr (Arr2 X)) (s : OptMachine K X H M) (kb : BucketParam) (me : String) (hy : H)
    (hok : s.heap.Ok env) : (predict env L checked { s with kBucket := kb, method := me, hyper := hy }).1 = (predict env L checked s).1 := by
  obtain ⟨est, kb0, me0, hy0, hp, bu, tx, ty, ok, mo⟩ := s
  rcases ok with _ | r
  · rfl
  rcases checked with e | B
  · rfl
  rcases tx with _ | A
  · rfl
  by_cases hr : ∃ t, hp.objs r = some (.km t)
  · obtain ⟨t, ht⟩ := hr
    obtain ⟨k, norm, hre⟩ := hok.2 r t ht
    obtain ⟨t1, -, e1⟩ := predict_run L (s := ⟨est, kb, me, hy, hp, bu, some A, ty, some r, mo⟩) B rfl rfl ht hre
    obtain ⟨t2, -, e2⟩ := predict_run L (s := ⟨est, kb0, me0, hy0, hp, bu, some A, ty, some r, mo⟩) B rfl rfl ht hre
    show (predict env L (.ok B) (⟨est, kb, me, hy, hp, bu, some A, ty, some r, mo⟩ : OptMachine K X H M)).1 = _
    rw [e1, e2]
  · have e1 : ∀ kb me hy, onHeap (Heap.call r (KMState.attach (Machine.arg B) (some (Machine.arg A)))) (⟨est, kb, me, hy, hp, bu, some A, ty, some r, mo⟩ : OptMachine K X H M) =
        (.error .attributeError, ⟨est, kb, me, hy, hp, bu, some A, ty, some r, mo⟩) := by
      intro kb me hy
      unfold onHeap
      rw [Heap.call_not_km _ fun t ht => hr ⟨t, ht⟩]
    show ((onHeap (Heap.call r (KMState.attach (Machine.arg B) (some (Machine.arg A)))) >>= _ : PyM (OptMachine K X H M) P)
      (⟨est, kb, me, hy, hp, bu, some A, ty, some r, mo⟩ : OptMachine K X H M)).1 = ((onHeap (Heap.call r (KMState.attach (Machine.arg B) (some (Machine.arg A)))) >>= _ : PyM (OptMachine K X H M) P)
      (⟨est, kb0, me0, hy0, hp, bu, some A, ty, some r, mo⟩ : OptMachine K X H M)).1
    rw [bind_error (e1 _ _ _), bind_error (e1 _ _ _)]

/-! ### `fit` -/

theorem onBucket_run {α : Type} (m : PyM (SetSt K X) α) {s : OptMachine K X H M} {t : KSet} (h : s.bucket = some t) :
    onBucket m s = ((m ⟨s.heap, t⟩).1, { s with heap := (m ⟨s.heap, t⟩).2.heap, bucket := some (m ⟨s.heap, t⟩).2.set }) := by
  unfold onBucket; rw [h]

theorem est_name (e : Est) : getEstimator (some e.name) = .ok e := by
  cases e with
  | svc => exact if_pos (by decide +kernel)
  | svr => exact (if_neg (by decide +kernel)).trans (if_pos (by decide +kernel))

/-- what is left to do once there is a bucket -/
noncomputable def fitOn (env : Env K X F) (cv : List F → CVScore) (L : SvmLearner H M W P) (A : Arr2 X) (y : List F) (w : W) : PyM (OptMachine K X H M) Unit := do
  let r ← searchKernel env cv A y
  modify fun s => { s with optKernel := some r }
  let T ← onHeap (Heap.full env r)
  let s ← get
  let m ← lift (L.fit s.est svmKernel s.hyper T y w)
  modify fun s => { s with model := some m }

theorem fit_eq (mkB : String → PyM (Heap K X) Bucket) (cv : List F → CVScore) (L : SvmLearner H M W P) (checked : Except PyErr (Arr2 X × List F)) (w : W) (s : OptMachine K X H M) :
    fit env mkB cv L checked w s = match chooseBucket mkB s with
      | (.error e, s1) => (.error e, s1)
      | (.ok _, s1) => match checked with
        | .error e => (.error e, s1)
        | .ok d => fitOn env cv L d.1 d.2 w { s1 with trainX := some d.1, trainY := some d.2 } := by
  show (chooseBucket mkB >>= _ : PyM (OptMachine K X H M) Unit) s = _
  rw [bind_run]
  rcases chooseBucket mkB s with ⟨e | _, s1⟩
  · rfl
  rcases checked with e | d <;> rfl

theorem choose_bucket (mkB : String → PyM (Heap K X) Bucket) (s : OptMachine K X H M) {t : KSet} (h : s.kBucket = .bucket t) :
    chooseBucket mkB s = match copyBucket t s.heap with
      | (.error e, h') => (.error e, { s with heap := h' })
      | (.ok t', h') => (.ok (), { s with heap := h', bucket := some t' }) := by
  have e : chooseBucket mkB s = (onHeap (copyBucket t) >>= fun t' => modify fun s => { s with bucket := some t' } : PyM (OptMachine K X H M) Unit) s := by
    unfold chooseBucket
    rw [h]
  rw [e, bind_run]
  unfold onHeap
  rcases copyBucket t s.heap with ⟨e | t', h'⟩ <;> rfl

theorem choose_str (mkB : String → PyM (Heap K X) Bucket) (s : OptMachine K X H M) {n : String} (h : s.kBucket = .str n) :
    chooseBucket mkB s = match mkB n s.heap with
      | (.error _, h') => (.error .valueError, { s with heap := h' })
      | (.ok b, h') => (.ok (), { s with heap := h', bucket := some b.set }) := by
  have e : chooseBucket mkB s = (catchAll .valueError (onHeap (mkB n)) >>= fun b => modify fun s => { s with bucket := some b.set } : PyM (OptMachine K X H M) Unit) s := by
    unfold chooseBucket
    rw [h]
  rw [e, bind_run, catchAll_run]
  unfold onHeap
  rcases mkB n s.heap with ⟨e | t', h'⟩ <;> rfl

theorem choose_other (mkB : String → PyM (Heap K X) Bucket) (s : OptMachine K X H M) (h : s.kBucket = .other) : chooseBucket mkB s = (.error .valueError, s) := by
  unfold chooseBucket
  rw [h]

/-- once the search has found `r` -/
theorem fitOn_run (hops : env.ops = realOps) (cv : List F → CVScore) (L : SvmLearner H M W P) {A : Arr2 X} (y : List F) (w : W) {s : OptMachine K X H M} {t : KSet} {r : Nat} {u : SetSt K X}
    (hb : s.bucket = some t)
    (hsearch : findOptimalKernel env (cv y) true (sampleArg A) y s.method { estimatorName := some s.est.name } ⟨s.heap, t⟩ = (.ok r, u)) {k : K} {norm : Bool}
    (hr : u.heap.AttachedTo env r k norm A) {G : Matrix (Fin A.nrows) (Fin A.nrows) ℝ} (hG : IsMatrix1 env k norm A G) :
    ∃ h', h'.AttachedTo env r k norm A ∧ (∀ q, q ≠ r → h'.objs q = u.heap.objs q) ∧ h'.next = u.heap.next ∧ fitOn env cv L A y w s =
      match L.fit s.est .rbf s.hyper (.dense, Mat.ofReal G) y w with
      | .error e => (.error e, { s with heap := h', bucket := some u.set, optKernel := some r })
      | .ok m => (.ok (), { s with heap := h', bucket := some u.set, optKernel := some r, model := some m }) := by
  obtain ⟨v, hv, hsince⟩ := id hr
  refine ⟨(Heap.full env r u.heap).2, hr.full hv, ?_, ?_, ?_⟩
  · intro q hq
    unfold Heap.full
    rw [hv]
    dsimp only
    rw [Heap.call_km _ hv]
    exact Function.update_of_ne hq _ _
  · unfold Heap.full
    rw [hv]
    dsimp only
    rw [Heap.call_km _ hv]
  have e1 : searchKernel env cv A y s = (.ok r, { s with heap := u.heap, bucket := some u.set }) := by
    show onBucket _ s = _
    rw [onBucket_run _ hb]
    change (((findOptimalKernel env (cv y) true (sampleArg A) y s.method { estimatorName := some s.est.name }) ⟨s.heap, t⟩).1, _) = _
    rw [show (SetSample.arr true [A.nrows, A.ncols] A.row : SetSample X) = sampleArg A from rfl, hsearch]
  show (searchKernel env cv A y >>= _ : PyM (OptMachine K X H M) Unit) s = _
  rw [bind_ok e1]
  show (onHeap (Heap.full env r) >>= _ : PyM (OptMachine K X H M) Unit) { s with heap := u.heap, bucket := some u.set, optKernel := some r } = _
  have hfull : (Heap.full env r u.heap).1 = .ok (.dense, Mat.ofReal G) := by
    unfold Heap.full
    rw [hv]
    dsimp only
    rw [Heap.call_km _ hv]
    exact hG.full hops hsince
  have e2 : onHeap (Heap.full env r) { s with heap := u.heap, bucket := some u.set, optKernel := some r } =
      (.ok (.dense, Mat.ofReal G), { s with heap := (Heap.full env r u.heap).2, bucket := some u.set, optKernel := some r }) := by
    unfold onHeap
    dsimp only
    rw [hfull]
  rw [bind_ok e2]
  show (lift (L.fit s.est .rbf s.hyper (.dense, Mat.ofReal G) y w) >>= _ : PyM (OptMachine K X H M) Unit) _ = _
  rcases L.fit s.est .rbf s.hyper (.dense, Mat.ofReal G) y w with e | m <;> rfl

/-- `align/corr` cannot be used together with `estimator_name` -/
theorem align_fails (cv : CVScore) (sample : SetSample X) (targets : List F) {method : String} (hm : method.toLower = "align/corr") (n : String) (s : SetSt K X) :
    ∃ e, (findOptimalKernel env cv true sample targets method { estimatorName := some n } s).1 = .error e := by
  show ∃ e, ((raiseIf (!validMethod method) .notImplemented >>= fun _ => _ : PyM (SetSt K X) Nat) s).1 = _
  rw [show validMethod method = true by simp [validMethod, hm]]
  show ∃ e, ((SetSt.attach sample none >>= _ : PyM (SetSt K X) Nat) s).1 = _
  rcases ha : SetSt.attach sample none s with ⟨e | _, s1⟩
  · exact ⟨e, by rw [bind_error ha]⟩
  rw [bind_ok ha]
  show ∃ e, ((rankKernels env cv targets method { estimatorName := some n } >>= _ : PyM (SetSt K X) Nat) s1).1 = _
  have ea : alignRanking env targets { estimatorName := some n } s1 = mapEach s1.set.members (alignScoreOne env targets { estimatorName := some n }) s1 := rfl
  rw [bind_run, rank_align hm, ea]
  rcases s1.set.members with _ | ⟨r, l⟩
  · refine ⟨.valueError, ?_⟩
    show ((lift (argmaxF []) >>= _ : PyM (SetSt K X) Nat) s1).1 = _
    rw [show argmaxF [] = .error .valueError from if_pos rfl]
    rfl
  · rcases hf : SetSt.onHeap (Heap.full env r) s1 with ⟨e | T, s2⟩
    · have : mapEach (r :: l) (alignScoreOne env targets { estimatorName := some n }) s1 = (.error e, s2) := by
        show (alignScoreOne env targets { estimatorName := some n } r >>= _ : PyM (SetSt K X) (List F)) s1 = _
        rw [bind_error (s' := s2) (e := e)]
        show (SetSt.onHeap (Heap.full env r) >>= _ : PyM (SetSt K X) F) s1 = _
        rw [bind_error hf]
      rw [this]
      exact ⟨e, rfl⟩
    · have : mapEach (r :: l) (alignScoreOne env targets { estimatorName := some n }) s1 = (.error .typeError, s2) := by
        show (alignScoreOne env targets { estimatorName := some n } r >>= _ : PyM (SetSt K X) (List F)) s1 = _
        rw [bind_error (s' := s2) (e := .typeError)]
        show (SetSt.onHeap (Heap.full env r) >>= _ : PyM (SetSt K X) F) s1 = _
        rw [bind_ok hf]
        rfl
      rw [this]
      exact ⟨_, rfl⟩

theorem fitOn_align_fails (cv : List F → CVScore) (L : SvmLearner H M W P) (A : Arr2 X) (y : List F) (w : W) (s : OptMachine K X H M) (hm : s.method.toLower = "align/corr") :
    ∃ e, (fitOn env cv L A y w s).1 = .error e := by
  show ∃ e, ((searchKernel env cv A y >>= _ : PyM (OptMachine K X H M) Unit) s).1 = _
  rcases hb : s.bucket with _ | t
  · refine ⟨.attributeError, ?_⟩
    rw [bind_error (s' := s) (e := .attributeError)]
    show onBucket _ s = _
    unfold onBucket
    rw [hb]
  · obtain ⟨e, he⟩ := align_fails (env := env) (cv y) (.arr true [A.nrows, A.ncols] A.row) y hm s.est.name ⟨s.heap, t⟩
    refine ⟨e, ?_⟩
    rw [bind_run]
    have : (searchKernel env cv A y s).1 = .error e := by
      show (onBucket _ s).1 = _
      rw [onBucket_run _ hb]
      exact he
    rcases hs : searchKernel env cv A y s with ⟨e' | r, s'⟩
    · rw [hs] at this
      cases this
      rfl
    · rw [hs] at this
      cases this

theorem chooseBucket_method (mkB : String → PyM (Heap K X) Bucket) (s : OptMachine K X H M) :
    ∃ h' b, (chooseBucket mkB s).2 = { s with heap := h', bucket := b } := by
  rcases hk : s.kBucket with n | t | _
  · rw [choose_str mkB s hk]
    rcases mkB n s.heap with ⟨e | b, h'⟩
    · exact ⟨h', s.bucket, by rw [← hk]⟩
    · exact ⟨h', some b.set, by rw [← hk]⟩
  · rw [choose_bucket mkB s hk]
    rcases copyBucket t s.heap with ⟨e | b, h'⟩
    · exact ⟨h', s.bucket, by rw [← hk]⟩
    · exact ⟨h', some b, by rw [← hk]⟩
  · rw [choose_other mkB s hk]
    exact ⟨s.heap, s.bucket, by rw [← hk]⟩

/-- existing objects are left as they are, and the members of the bucket are new -/
theorem chooseBucket_keeps {mkB : String → PyM (Heap K X) Bucket} (hB : MakesFresh mkB) {U : Set Nat} (s : OptMachine K X H M) (hU : ∀ r ∈ U, r < s.heap.next) :
    (∀ r ∈ U, (chooseBucket mkB s).2.heap.objs r = s.heap.objs r) ∧ s.heap.next ≤ (chooseBucket mkB s).2.heap.next ∧
      ((chooseBucket mkB s).1 = .ok () → ∃ t, (chooseBucket mkB s).2.bucket = some t ∧ ∀ r ∈ t.members, r ∉ U) := by
  rcases hk : s.kBucket with n | t | _
  · rw [choose_str mkB s hk]
    obtain ⟨h1, h2, h3⟩ := hB n s.heap
    rcases he : mkB n s.heap with ⟨e | b, h'⟩
    · rw [he] at h1 h2
      exact ⟨fun r hr => h1 r (hU r hr), h2, fun h => by cases h⟩
    · rw [he] at h1 h2 h3
      exact ⟨fun r hr => h1 r (hU r hr), h2, fun _ => ⟨b.set, rfl, fun r hr hrU => absurd (hU r hrU) (not_lt.2 (h3 b rfl r hr))⟩⟩
  · rw [choose_bucket mkB s hk]
    have hkeep : KeepsObjs U (copyBucket t : PyM (Heap K X) KSet) := (keepsObjs_copyMembers U t.members []).bind fun _ => .of_eq fun _ => rfl
    obtain ⟨h1, h2⟩ := hkeep s.heap hU
    have h3 := copyMembers_fresh (K := K) (X := X) s.heap.next t.members [] s.heap le_rfl (by simp)
    have hrun : copyBucket t s.heap = ((copyMembers t.members [] s.heap).1.map fun rs => { t with members := rs }, (copyMembers t.members [] s.heap).2) := by
      show (copyMembers t.members [] >>= _ : PyM (Heap K X) KSet) s.heap = _
      rw [bind_run]
      rcases copyMembers t.members [] s.heap with ⟨_ | _, _⟩ <;> rfl
    rw [hrun] at h1 h2 ⊢
    rcases he : copyMembers t.members [] s.heap with ⟨e | rs, h'⟩
    · rw [he] at h1 h2
      exact ⟨h1, h2, fun h => by cases h⟩
    · rw [he] at h1 h2 h3
      exact ⟨h1, h2, fun _ => ⟨{ t with members := rs }, rfl, fun r hr hrU => absurd (hU r hrU) (not_lt.2 (h3 rs rfl r hr))⟩⟩
  · rw [choose_other mkB s hk]
    exact ⟨fun _ _ => rfl, le_rfl, fun h => by cases h⟩

/-- `fitOn` leaves objects outside the bucket as they are -/
theorem fitOn_keeps (cv : List F → CVScore) (L : SvmLearner H M W P) (A : Arr2 X) (y : List F) (w : W) {U : Set Nat} (s : OptMachine K X H M) (hs : s.Private U) {t : KSet}
    (hb : s.bucket = some t) (ht : ∀ r ∈ t.members, r ∉ U) :
    (∀ r ∈ U, (fitOn env cv L A y w s).2.heap.objs r = s.heap.objs r) ∧ (fitOn env cv L A y w s).2.Private U := by
  obtain ⟨hU, hopt⟩ := hs
  obtain ⟨k1, k2, k3⟩ := keepsSet_findOptimalKernel (env := env) (U := U) (cv y) true (.arr true [A.nrows, A.ncols] A.row) y s.method { estimatorName := some s.est.name } ⟨s.heap, t⟩ hU ht
  have hmem := fun r u h => C45_member (env := env) (cv := cv y) (isBucket := true) (sample := .arr true [A.nrows, A.ncols] A.row) (targets := y) (method := s.method)
    (p := { estimatorName := some s.est.name }) (s := ⟨s.heap, t⟩) (s' := u) (r := r) h
  have e1 : searchKernel env cv A y s = onBucket (findOptimalKernel env (cv y) true (.arr true [A.nrows, A.ncols] A.row) y s.method { estimatorName := some s.est.name }) s := rfl
  rw [onBucket_run _ hb] at e1
  show (∀ r ∈ U, ((searchKernel env cv A y >>= _ : PyM (OptMachine K X H M) Unit) s).2.heap.objs r = s.heap.objs r) ∧ ((searchKernel env cv A y >>= _ : PyM (OptMachine K X H M) Unit) s).2.Private U
  rcases hf : findOptimalKernel env (cv y) true (.arr true [A.nrows, A.ncols] A.row) y s.method { estimatorName := some s.est.name } ⟨s.heap, t⟩ with ⟨e | r, u⟩
  · rw [hf] at e1 k1 k2
    rw [bind_error e1]
    exact ⟨k1, fun q hq => (hU q hq).trans_le k2, hopt⟩
  rw [hf] at e1 k1 k2
  have hrU : r ∉ U := ht r (hmem r u hf).1
  rw [bind_ok e1]
  show (∀ q ∈ U, ((onHeap (Heap.full env r) >>= _ : PyM (OptMachine K X H M) Unit) { s with heap := u.heap, bucket := some u.set, optKernel := some r }).2.heap.objs q = s.heap.objs q) ∧
    ((onHeap (Heap.full env r) >>= _ : PyM (OptMachine K X H M) Unit) { s with heap := u.heap, bucket := some u.set, optKernel := some r }).2.Private U
  obtain ⟨j1, j2⟩ := keepsObjs_full (env := env) hrU u.heap fun q hq => (hU q hq).trans_le k2
  have key : ∀ mo : Option M, (∀ q ∈ U, (Heap.full env r u.heap).2.objs q = s.heap.objs q) ∧
      OptMachine.Private U { s with heap := (Heap.full env r u.heap).2, bucket := some u.set, optKernel := some r, model := mo } :=
    fun mo => ⟨fun q hq => (j1 q hq).trans (k1 q hq), fun q hq => ((hU q hq).trans_le k2).trans_le j2, fun q hq => by
      obtain rfl : r = q := Option.some.inj hq
      exact hrU⟩
  rcases hT : Heap.full env r u.heap with ⟨e | T, h'⟩
  · rw [hT] at key
    rw [bind_error (s' := { s with heap := h', bucket := some u.set, optKernel := some r }) (e := e) (by unfold onHeap; dsimp only; rw [hT])]
    exact key s.model
  · rw [hT] at key
    rw [bind_ok (s' := { s with heap := h', bucket := some u.set, optKernel := some r }) (a := T) (by unfold onHeap; dsimp only; rw [hT])]
    show (∀ q ∈ U, ((lift (L.fit s.est svmKernel s.hyper T y w) >>= _ : PyM (OptMachine K X H M) Unit) { s with heap := h', bucket := some u.set, optKernel := some r }).2.heap.objs q = _) ∧
      ((lift (L.fit s.est svmKernel s.hyper T y w) >>= _ : PyM (OptMachine K X H M) Unit) { s with heap := h', bucket := some u.set, optKernel := some r }).2.Private U
    rcases L.fit s.est svmKernel s.hyper T y w with e | m
    · exact key s.model
    · exact key (some m)

/-! ### what `predict` leaves as it is, in any state -/

/-- objects in `U` are left as they are, and so is `opt_kernel_` -/
def KeepsOpt {α : Type} (U : Set Nat) (m : PyM (OptMachine K X H M) α) : Prop :=
  ∀ s : OptMachine K X H M, (∀ r ∈ U, r < s.heap.next) →
    (∀ r ∈ U, (m s).2.heap.objs r = s.heap.objs r) ∧ s.heap.next ≤ (m s).2.heap.next ∧ (m s).2.optKernel = s.optKernel

theorem KeepsOpt.bind {α β : Type} {U : Set Nat} {m : PyM (OptMachine K X H M) α} {f : α → PyM (OptMachine K X H M) β} (h1 : KeepsOpt U m) (h2 : ∀ a, KeepsOpt U (f a)) : KeepsOpt U (m >>= f) := by
  intro s hU
  obtain ⟨a1, a2, a3⟩ := h1 s hU
  rcases e : m s with ⟨_ | a, s'⟩
  · rw [e] at a1 a2 a3
    rw [bind_error e]
    exact ⟨a1, a2, a3⟩
  · rw [e] at a1 a2 a3
    rw [bind_ok e]
    obtain ⟨b1, b2, b3⟩ := h2 a s' fun r hr => (hU r hr).trans_le a2
    exact ⟨fun r hr => (b1 r hr).trans (a1 r hr), a2.trans b2, b3.trans a3⟩

theorem KeepsOpt.of_eq {α : Type} {U : Set Nat} {m : PyM (OptMachine K X H M) α} (h : ∀ s, (m s).2 = s) : KeepsOpt U m := fun s _ => by
  rw [h s]
  exact ⟨fun _ _ => rfl, le_rfl, rfl⟩

theorem keepsOpt_getAttr {α : Type} {U : Set Nat} (f : OptMachine K X H M → Option α) : KeepsOpt U (getAttr f) := .of_eq fun s => by
  unfold PyM.getAttr
  rcases f s with _ | _ <;> rfl

theorem keepsOpt_onHeap {α : Type} {U : Set Nat} {m : PyM (Heap K X) α} (h : KeepsObjs U m) : KeepsOpt U (onHeap m : PyM (OptMachine K X H M) α) := fun s hU =>
  ⟨(h s.heap hU).1, (h s.heap hU).2, rfl⟩

theorem keepsOpt_predict (L : SvmLearner H M W P) (checked : Except PyErr (Arr2 X)) {U : Set Nat} (s : OptMachine K X H M) (hs : s.Private U) :
    (∀ r ∈ U, (predict env L checked s).2.heap.objs r = s.heap.objs r) ∧ s.heap.next ≤ (predict env L checked s).2.heap.next ∧ (predict env L checked s).2.optKernel = s.optKernel := by
  rcases hr : s.optKernel with _ | r
  · rw [predict_unfitted L checked s hr]
    exact ⟨fun _ _ => rfl, le_rfl, hr⟩
  have hrU := hs.2 r hr
  have key : predict env L checked s = (do
      let B ← lift checked
      let A ← getAttr (·.trainX)
      onHeap (Heap.call r (KMState.attach (Machine.arg B) (some (Machine.arg A))))
      let T ← onHeap (Heap.full env r)
      let m ← getAttr (·.model)
      let p ← lift (L.predict m T)
      lift (L.cast s.est p) : PyM (OptMachine K X H M) P) s := by
    show (get >>= _ : PyM (OptMachine K X H M) P) s = _
    rw [get_bind_run, hr]
    show (getAttr (·.optKernel) >>= _ : PyM (OptMachine K X H M) P) s = _
    rw [bind_ok (getAttr_run_some (fun x : OptMachine K X H M => x.optKernel) s _ hr)]
  rw [key, ← hr]
  exact ((KeepsOpt.of_eq fun _ => rfl).bind fun B => (keepsOpt_getAttr _).bind fun A => (keepsOpt_onHeap (keepsObjs_call hrU _)).bind fun _ =>
    (keepsOpt_onHeap (keepsObjs_full hrU)).bind fun T => (keepsOpt_getAttr _).bind fun m => (KeepsOpt.of_eq fun _ => rfl).bind fun p => .of_eq fun _ => rfl) s hs.1

end OptMachine
end KMethods
