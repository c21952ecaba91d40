import Verif.Lemmas.KernelSet
/-! Invariants of programs with several sets. -/
namespace KMethods
open PyM
variable {K X α : Type} {env : Env K X F}

/-- members agree with the set, and a set without number of samples that is still new is empty -/
def SetOk (h : Heap K X) (t : KSet) : Prop :=
  t.Uniform h ∧ (t.isInit = false → t.numSamples = .unset → t.members = [])

theorem SetOk.keeps {h h' : Heap K X} {t : KSet} (ht : SetOk h t) (hk : h.Keeps h') : SetOk h' t :=
  ⟨fun r hr => hk r _ (ht.1 r hr), ht.2⟩

theorem setOk_new (h : Heap K X) (num : NumSamples) : SetOk h (KSet.new num) :=
  ⟨fun r hr => by simp [KSet.new] at hr, fun _ _ => rfl⟩

/-- the step on one set is harmless for everything else -/
def Harmless (env : Env K X F) (m : PyM (SetSt K X) α) : Prop :=
  ∀ s, Heap.Ok env s.heap → SetOk s.heap s.set →
    Heap.Ok env (m s).2.heap ∧ s.heap.Keeps (m s).2.heap ∧ SetOk (m s).2.heap (m s).2.set

theorem Harmless.forEach {ι : Type} {l : List ι} {f : ι → PyM (SetSt K X) Unit} (h : ∀ x ∈ l, Harmless env (f x)) :
    Harmless env (PyM.forEach l f) := by
  induction l with
  | nil => exact fun s h1 h2 => ⟨h1, .refl _, h2⟩
  | cons x l ih =>
    intro s h1 h2
    have hx := h x (by simp) s h1 h2
    have hr : PyM.forEach (x :: l) f s = (f x >>= fun _ => PyM.forEach l f) s := rfl
    rw [hr]
    rcases he : f x s with ⟨e | u, s'⟩
    · rw [bind_error he]
      rw [he] at hx; exact hx
    · rw [bind_ok he]
      rw [he] at hx
      obtain ⟨a, b, c⟩ := ih (fun y hy => h y (by simp [hy])) s' hx.1 hx.2.2
      exact ⟨a, hx.2.1.trans b, c⟩

theorem harmless_appendRef (r : Nat) : Harmless env (SetSt.appendRef r : PyM (SetSt K X) Unit) := by
  intro s h1 h2
  have hh : (SetSt.appendRef r s).2.heap = s.heap := by
    rcases SetSt.appendRef_cases s r with ⟨n, -, -, h⟩ | ⟨e, h⟩ <;> rw [h]
  rw [hh]
  exact ⟨h1, .refl _, SetSt.uniform_appendRef r h2.1 h2.2⟩

theorem append_other_run (x : PreIn) (s : SetSt K X) :
    SetSt.append (.other x) s = match mkPrecomputed x with
      | .error e => (.error e, s)
      | .ok p => SetSt.appendRef s.heap.next ⟨(Heap.alloc (.pre p) s.heap).2, s.set⟩ := by
  show (lift (mkPrecomputed x) >>= _ : PyM (SetSt K X) Unit) s = _
  rcases mkPrecomputed x with e | p <;> rfl

theorem harmless_append (a : AppendArg) : Harmless env (SetSt.append a : PyM (SetSt K X) Unit) := by
  cases a with
  | ref r => exact harmless_appendRef r
  | kernelFunc => exact fun s h1 h2 => ⟨h1, .refl _, h2⟩
  | other x =>
    intro s h1 h2
    rw [append_other_run]
    rcases mkPrecomputed x with e | p
    · exact ⟨h1, .refl _, h2⟩
    · obtain ⟨a, b⟩ := h1.alloc (.pre p) (by intro s h; cases h)
      obtain ⟨a', b', c'⟩ := harmless_appendRef (env := env) s.heap.next
        (⟨(Heap.alloc (.pre p) s.heap).2, s.set⟩ : SetSt K X) a (h2.keeps b)
      exact ⟨a', b.trans b', c'⟩

theorem harmless_call (r : Nat) (m : PyM (KMState K X F) Unit)
    (h1 : ∀ k norm s, KMState.Reachable env k norm s → KMState.Reachable env k norm (m s).2)
    (h2 : ∀ k norm s, KMState.Reachable env k norm s → (m s).2.numSamples = s.numSamples) :
    Harmless env (SetSt.onHeap (Heap.call r m)) := by
  intro s hs ht
  have hk : s.heap.Keeps (Heap.call r m s.heap).2 := by
    refine Heap.keeps_call _ _ _ fun t hr => ?_
    obtain ⟨k, norm, hre⟩ := hs.2 r t hr
    exact h2 _ _ _ hre
  exact ⟨hs.call r m h1, hk, ht.keeps hk⟩

open KMState in
theorem reachable_attach (one : SampleIn X) (two : Option (SampleIn X)) (k : K) (norm : Bool) (s : KMState K X F)
    (h : Reachable env k norm s) : Reachable env k norm (KMState.attach one two s).2 := by
  have := Reachable.call (env := env) (.attach one two) h
  rw [exec_attach_run] at this
  exact this

open KMState in
theorem reachable_setAttr (n v : String) (k : K) (norm : Bool) (s : KMState K X F)
    (h : Reachable env k norm s) : Reachable env k norm (KMState.setAttr n v s).2 :=
  Reachable.call (env := env) (.setAttr n v) h

theorem harmless_setAttrs {ι : Type} (l : List ι) (f : ι → Nat) (name : String) (g : ι → String) :
    Harmless env (forEach l fun r => (SetSt.onHeap (Heap.call (f r) (KMState.setAttr name (g r))) : PyM (SetSt K X) Unit)) :=
  .forEach fun _ _ => harmless_call _ _ (reachable_setAttr _ _) fun _ _ _ _ => rfl

theorem setAttr_run (name : String) (v : AttrVals) (s : SetSt K X) :
    SetSt.setAttr name v s = match v with
      | .unsized => (.error .typeError, s)
      | .scalar v => forEach s.set.members (fun r => SetSt.onHeap (Heap.call r (KMState.setAttr name v))) s
      | .seq l => if l.length = s.set.members.length then
          forEach (s.set.members.zip l) (fun p => SetSt.onHeap (Heap.call p.1 (KMState.setAttr name p.2))) s
        else (.error .valueError, s) := by
  cases v with
  | unsized => rfl
  | scalar v => rfl
  | seq l =>
    show (raiseIf (l.length != s.set.members.length) .valueError >>= fun _ => _ : PyM (SetSt K X) Unit) s = _
    by_cases h : l.length = s.set.members.length
    · rw [show (l.length != s.set.members.length) = false by simp [h]]
      show _ = if _ then _ else _
      rw [if_pos h]; rfl
    · rw [show (l.length != s.set.members.length) = true by simp [h]]
      show _ = if _ then _ else _
      rw [if_neg h]; rfl

theorem harmless_setAttr (name : String) (v : AttrVals) : Harmless env (SetSt.setAttr name v : PyM (SetSt K X) Unit) := by
  intro s hs ht
  rw [setAttr_run]
  cases v with
  | unsized => exact ⟨hs, .refl _, ht⟩
  | scalar v => exact harmless_setAttrs s.set.members id name (fun _ => v) s hs ht
  | seq l =>
    simp only
    split
    · exact harmless_setAttrs (s.set.members.zip l) Prod.fst name Prod.snd s hs ht
    · exact ⟨hs, .refl _, ht⟩

theorem harmless_extend (o : Option KSet) : Harmless env (SetSt.extend o : PyM (SetSt K X) Unit) := by
  cases o with
  | none => exact fun s h1 h2 => ⟨h1, .refl _, h2⟩
  | some t =>
    intro s h1 h2
    have hr : SetSt.extend (some t) s = (raiseIf (t.numSamples != s.set.numSamples) .kmSetAddition >>= fun _ =>
      forEach t.members SetSt.appendRef) s := rfl
    rw [hr]
    rcases hb : (t.numSamples != s.set.numSamples) with _ | _
    · exact Harmless.forEach (fun x _ => harmless_appendRef (env := env) x) s h1 h2
    · exact ⟨h1, .refl _, h2⟩

theorem take_run (idx : IndicesArg) (s : SetSt K X) :
    SetSt.take idx s = ((SetSt.checkIdx s.set.members.length idx).bind fun l =>
      (forEach (l.map fun i => s.set.members.getD i 0) SetSt.appendRef ⟨s.heap, .new .unset⟩).1.map fun _ =>
        (forEach (l.map fun i => s.set.members.getD i 0) SetSt.appendRef ⟨s.heap, .new .unset⟩).2.set, s) := by
  show (lift (SetSt.checkIdx s.set.members.length idx) >>= _ : PyM (SetSt K X) KSet) s = _
  rcases SetSt.checkIdx s.set.members.length idx with e | l <;> rfl

theorem setOk_take {idx : IndicesArg} {s : SetSt K X} {t : KSet} (hs : Heap.Ok env s.heap) (h : (SetSt.take idx s).1 = .ok t) :
    SetOk s.heap t := by
  rw [take_run] at h
  simp only at h
  rcases hc : SetSt.checkIdx s.set.members.length idx with e | l
  · rw [hc] at h; cases h
  · rw [hc] at h
    simp only [Except.bind] at h
    have hf := Harmless.forEach (l := l.map fun i => s.set.members.getD i 0)
      (fun x _ => harmless_appendRef (env := env) x) ⟨s.heap, .new .unset⟩ hs (setOk_new _ _)
    have hh := (SetSt.forEach_appendRef_prefix (l.map fun i => s.set.members.getD i 0) ⟨s.heap, .new .unset⟩).1
    rw [hh] at hf
    rcases hr : (forEach (l.map fun i => s.set.members.getD i 0) SetSt.appendRef ⟨s.heap, .new .unset⟩ : _ × SetSt K X) with ⟨e | u, s'⟩
    · rw [hr] at h; cases h
    · rw [hr] at h hf
      obtain rfl : s'.set = t := by injection h
      exact hf.2.2

theorem mkSet_inv (arg : InitArg) (num : NumSamples) (h : Heap K X) (hok : Heap.Ok env h) :
    Heap.Ok env (mkSet arg num h).2 ∧ h.Keeps (mkSet arg num h).2 ∧
      ∀ t, (mkSet arg num h).1 = .ok t → SetOk (mkSet arg num h).2 t := by
  have fin : ∀ r : Except PyErr Unit × SetSt K X,
      (Heap.Ok env r.2.heap ∧ h.Keeps r.2.heap ∧ SetOk r.2.heap r.2.set) →
      Heap.Ok env r.2.heap ∧ h.Keeps r.2.heap ∧ ∀ t, (r.1.map fun _ => r.2.set) = .ok t → SetOk r.2.heap t := by
    rintro ⟨_ | _, s⟩ ⟨a, b, c⟩
    · exact ⟨a, b, fun t h => by cases h⟩
    · exact ⟨a, b, fun t h => by injection h with h; subst h; exact c⟩
  cases arg with
  | none => exact ⟨hok, .refl _, fun t h => by injection h with h; subst h; exact setOk_new _ _⟩
  | one a => exact fin _ (harmless_append a ⟨h, .new num⟩ hok (setOk_new _ _))
  | list l => exact fin _ (Harmless.forEach (fun a _ => harmless_append a) ⟨h, .new num⟩ hok (setOk_new _ _))
  | other => exact ⟨hok, .refl _, fun t h => by cases h⟩

/-- a call on each member, the run of `attach_to` -/
theorem attach_run (sample : SetSample X) (attr : Option (String × String)) (s : SetSt K X) :
    SetSt.attach sample attr s = match sample.check with
      | .error e => (.error e, s)
      | .ok n => if s.set.numSamples = .unset ∨ s.set.numSamples = .one n then
          (forEach s.set.members (fun r => SetSt.onHeap (Heap.call r (KMState.attach sample.toSampleIn none))) >>= fun _ =>
            match attr with
            | none => pure ()
            | some a => forEach s.set.members fun r => SetSt.onHeap (Heap.call r (KMState.setAttr a.1 a.2)))
              ⟨s.heap, { s.set with numSamples := .one n }⟩
        else (.error .valueError, s) := by
  show (lift sample.check >>= _ : PyM (SetSt K X) Unit) s = _
  rcases sample.check with e | n
  · rfl
  · show (raiseIf (s.set.numSamples != .unset && s.set.numSamples != .one n) .valueError >>= fun _ => _ : PyM (SetSt K X) Unit) s = _
    by_cases h : s.set.numSamples = .unset ∨ s.set.numSamples = .one n
    · rw [show (s.set.numSamples != .unset && s.set.numSamples != .one n) = false by
        rcases h with h | h <;> simp [h]]
      show _ = if _ then _ else _
      rw [if_pos h]
      rfl
    · rw [show (s.set.numSamples != .unset && s.set.numSamples != .one n) = true by
        simp only [not_or] at h; simp [h.1, h.2]]
      show _ = if _ then _ else _
      rw [if_neg h]
      rfl

open KMState in
theorem attach_idem (sample : SetSample X) {n : Nat} (hc : sample.check = .ok n) (s : KMState K X F) :
    (KMState.attach sample.toSampleIn none s).1 = .ok () ∧ (KMState.attach sample.toSampleIn none s).2.numSamples = .one n ∧
    (KMState.attach sample.toSampleIn none (KMState.attach sample.toSampleIn none s).2).2 = (KMState.attach sample.toSampleIn none s).2 := by
  obtain ⟨A, hA, hof⟩ := SetSample.check_ok hc
  rw [attach_ok _ _ s _ hof]
  refine ⟨rfl, ?_, ?_⟩
  · show NumSamples.one A.nrows = _
    rw [hA]
  · show (KMState.attach sample.toSampleIn none _).2 = _
    rw [attach_ok _ _ _ _ hof]
    rfl

open KMState in
/-- state of the set after a successful `attach_to` -/
theorem attach_ok_run {sample : SetSample X} {n : Nat} (hc : sample.check = .ok n) (attr : Option (String × String)) (s : SetSt K X)
    (hn : s.set.numSamples = .unset ∨ s.set.numSamples = .one n) (hkm : ∀ r ∈ s.set.members, ∃ t, s.heap.objs r = some (.km t)) :
    ∃ h', SetSt.attach sample attr s = (.ok (), ⟨h', { s.set with numSamples := .one n }⟩) ∧ h'.next = s.heap.next ∧
      (∀ r, r ∉ s.set.members → h'.objs r = s.heap.objs r) ∧
      ∀ r t, r ∈ s.set.members → s.heap.objs r = some (.km t) →
        h'.objs r = some (.km (match attr with
          | none => (KMState.attach sample.toSampleIn none t).2
          | some a => (KMState.setAttr a.1 a.2 (KMState.attach sample.toSampleIn none t).2).2)) := by
  obtain ⟨h1, e1, n1, o1, m1⟩ := Heap.forEach_call (m := KMState.attach sample.toSampleIn none) hkm
    (fun t => (attach_idem sample hc t).1) (fun t => (attach_idem sample hc t).2.2)
  rw [attach_run, hc]
  simp only
  rw [if_pos hn]
  have e1' : forEach s.set.members (fun r => SetSt.onHeap (Heap.call r (KMState.attach sample.toSampleIn none)))
      (⟨s.heap, { s.set with numSamples := .one n }⟩ : SetSt K X) = (.ok (), ⟨h1, { s.set with numSamples := .one n }⟩) := by
    rw [SetSt.forEach_onHeap, e1]
  rw [bind_ok e1']
  cases attr with
  | none => exact ⟨h1, rfl, n1, o1, m1⟩
  | some a =>
    have hidem : ∀ t : KMState K X F, (KMState.setAttr a.1 a.2 (KMState.setAttr a.1 a.2 t).2).2 = (KMState.setAttr a.1 a.2 t).2 := by
      intro t
      have : ∀ l, assocSet a.1 a.2 (assocSet a.1 a.2 l) = assocSet a.1 a.2 l := by
        intro l
        induction l with
        | nil => simp [assocSet]
        | cons e l ih =>
          obtain ⟨x, y⟩ := e
          by_cases hx : x = a.1
          · simp [assocSet, hx]
          · rw [assocSet, if_neg hx, assocSet, if_neg hx, ih]
      show ({ t with attrs := assocSet a.1 a.2 (assocSet a.1 a.2 t.attrs) } : KMState K X F) = { t with attrs := assocSet a.1 a.2 t.attrs }
      rw [this]
    obtain ⟨h2, e2, n2, o2, m2⟩ := Heap.forEach_call (l := s.set.members) (h := h1) (m := KMState.setAttr a.1 a.2)
      (fun r hr => by
        obtain ⟨t, ht⟩ := hkm r hr
        exact ⟨_, m1 r t hr ht⟩) (fun _ => rfl) hidem
    refine ⟨h2, ?_, n2.trans n1, fun r hr => (o2 r hr).trans (o1 r hr), fun r t hr ht => ?_⟩
    · show forEach s.set.members _ _ = _
      rw [SetSt.forEach_onHeap, e2]
    · exact m2 r _ hr (m1 r t hr ht)

/-- everything the invariant needs to know about `attach_to` of a set -/
theorem attach_inv (sample : SetSample X) (attr : Option (String × String)) (s : SetSt K X)
    (hs : Heap.Ok env s.heap) (ht : SetOk s.heap s.set) :
    Heap.Ok env (SetSt.attach sample attr s).2.heap ∧ SetOk (SetSt.attach sample attr s).2.heap (SetSt.attach sample attr s).2.set ∧
    (s.set.numSamples ≠ .unset → s.heap.Keeps (SetSt.attach sample attr s).2.heap) ∧
    (∀ r, r ∉ s.set.members → (SetSt.attach sample attr s).2.heap.objs r = s.heap.objs r) ∧
    (SetSt.attach sample attr s).2.set.members = s.set.members := by
  have hok : Heap.Ok env (SetSt.attach sample attr s).2.heap := by
    rw [attach_run]
    rcases sample.check with e | n
    · exact hs
    simp only
    split
    · have key : ∀ (m : PyM (KMState K X F) Unit), (∀ k norm s, KMState.Reachable env k norm s → KMState.Reachable env k norm (m s).2) →
          ∀ (l : List Nat) (h : Heap K X), Heap.Ok env h → Heap.Ok env (forEach l (fun r => Heap.call r m) h).2 := by
        intro m hm l
        induction l with
        | nil => exact fun h hh => hh
        | cons x l ih =>
          intro h hh
          have hx := hh.call x m hm
          have hr : forEach (x :: l) (fun r => Heap.call r m) h = (Heap.call x m >>= fun _ => forEach l (fun r => Heap.call r m)) h := rfl
          rw [hr, bind_run]
          rcases he : Heap.call x m h with ⟨e | u, h'⟩
          · rw [he] at hx; exact hx
          · rw [he] at hx; exact ih h' hx
      rw [bind_run, SetSt.forEach_onHeap]
      have k1 := key _ (reachable_attach (env := env) sample.toSampleIn none) s.set.members s.heap hs
      rcases he : forEach s.set.members (fun r => Heap.call r (KMState.attach sample.toSampleIn none)) s.heap with ⟨e | u, h'⟩
      · rw [he] at k1; exact k1
      · rw [he] at k1
        cases attr with
        | none => exact k1
        | some a =>
          show Heap.Ok env (forEach s.set.members _ _ : _ × SetSt K X).2.heap
          rw [SetSt.forEach_onHeap]
          exact key _ (reachable_setAttr a.1 a.2) s.set.members h' k1
    · exact hs
  refine ⟨hok, ?_⟩
  rcases hc : sample.check with e | n
  · rw [attach_run, hc]
    exact ⟨ht, fun _ => .refl _, fun _ _ => rfl, rfl⟩
  by_cases hn : s.set.numSamples = .unset ∨ s.set.numSamples = .one n
  · rcases hn with hn | hn
    · have hkm : ∀ r ∈ s.set.members, ∃ t, s.heap.objs r = some (.km t) := by
        intro r hr
        have := ht.1 r hr
        rw [hn] at this
        unfold Heap.numSamples at this
        split at this
        · rename_i t h; exact ⟨t, h⟩
        · cases this
        · cases this
      obtain ⟨h', e1, n1, o1, m1⟩ := attach_ok_run hc attr s (.inl hn) hkm
      rw [e1]
      refine ⟨⟨?_, ?_⟩, fun h => absurd hn h, o1, rfl⟩
      · intro r hr
        obtain ⟨t, h⟩ := hkm r hr
        unfold Heap.numSamples
        rw [m1 r t hr h]
        have := (attach_idem sample hc t).2.1
        cases attr with
        | none => exact congrArg Except.ok this
        | some a => exact congrArg Except.ok this
      · intro _ h; cases h
    · have hset : ({ s.set with numSamples := .one n } : KSet) = s.set := by rw [← hn]
      rw [attach_run, hc]
      simp only
      rw [if_pos (.inr hn), hset]
      have key : ∀ (f : PyM (KMState K X F) Unit) (l : List Nat) (h : Heap K X),
          (∀ t, t.numSamples = .one n → (f t).2.numSamples = .one n) → l ⊆ s.set.members → s.set.Uniform h →
          h.Keeps (forEach l (fun r => Heap.call r f) h).2 ∧
          ∀ r, r ∉ s.set.members → (forEach l (fun r => Heap.call r f) h).2.objs r = h.objs r := by
        intro f l h hf hl hu
        induction l generalizing h with
        | nil => exact ⟨.refl _, fun _ _ => rfl⟩
        | cons x l ih =>
          have hx : x ∈ s.set.members := hl (by simp)
          have hkx : h.Keeps (Heap.call x f h).2 := by
            refine Heap.keeps_call _ _ _ fun t hr => ?_
            have := hu x hx
            unfold Heap.numSamples at this
            rw [hr, hn] at this
            have h1 : t.numSamples = .one n := by injection this
            rw [hf t h1, h1]
          have hox : ∀ r, r ∉ s.set.members → (Heap.call x f h).2.objs r = h.objs r := by
            intro r hr
            rcases Heap.call_cases h x f with ⟨t, -, hc⟩ | ⟨-, hc⟩
            · rw [hc]
              exact Function.update_of_ne (by rintro rfl; exact hr hx) _ _
            · rw [hc]
          have hr : forEach (x :: l) (fun r => Heap.call r f) h = (Heap.call x f >>= fun _ => forEach l (fun r => Heap.call r f)) h := rfl
          rw [hr]
          rcases he : Heap.call x f h with ⟨e | u, h'⟩
          · rw [bind_error he]
            rw [he] at hkx hox; exact ⟨hkx, hox⟩
          · rw [bind_ok he]
            rw [he] at hkx hox
            obtain ⟨a, b⟩ := ih h' (fun y hy => hl (by simp [hy])) (fun r hr => hkx r _ (hu r hr))
            exact ⟨hkx.trans a, fun r hr => (b r hr).trans (hox r hr)⟩
      have k1 := key (KMState.attach sample.toSampleIn none) s.set.members s.heap (fun t _ => (attach_idem sample hc t).2.1)
        (fun _ h => h) ht.1
      rw [bind_run, SetSt.forEach_onHeap]
      rcases he : forEach s.set.members (fun r => Heap.call r (KMState.attach sample.toSampleIn none)) s.heap with ⟨e | u, h'⟩
      · rw [he] at k1
        exact ⟨ht.keeps k1.1, fun _ => k1.1, k1.2, rfl⟩
      · rw [he] at k1
        cases attr with
        | none => exact ⟨ht.keeps k1.1, fun _ => k1.1, k1.2, rfl⟩
        | some a =>
          have k2 := key (KMState.setAttr a.1 a.2) s.set.members h' (fun t h => h) (fun _ h => h) (ht.keeps k1.1).1
          simp only
          rw [SetSt.forEach_onHeap]
          exact ⟨(ht.keeps k1.1).keeps k2.1, fun _ => k1.1.trans k2.1, fun r hr => (k2.2 r hr).trans (k1.2 r hr), rfl⟩
  · rw [attach_run, hc]
    simp only
    rw [if_neg hn]
    exact ⟨ht, fun _ => .refl _, fun _ _ => rfl, rfl⟩

open KMState in
/-- the result of assigning one attribute to some objects, one after the other -/
theorem setAttrs_run (name : String) (l : List (Nat × String)) (h : Heap K X) (hkm : ∀ p ∈ l, ∃ t, h.objs p.1 = some (.km t)) :
    ∃ h', forEach l (fun p => Heap.call p.1 (KMState.setAttr name p.2)) h = (.ok (), h') ∧
      (∀ r, (∀ p ∈ l, p.1 ≠ r) → h'.objs r = h.objs r) ∧
      (∀ r t, h.objs r = some (.km t) → ∃ as, h'.objs r = some (.km { t with attrs := as }) ∧ ∀ x, x ≠ name → as.lookup x = t.attrs.lookup x) ∧
      ∀ (i : Nat) (p : Nat × String), l[i]? = some p → (∀ (j : Nat) (q : Nat × String), i < j → l[j]? = some q → q.1 ≠ p.1) → h'.attr p.1 name = some p.2 := by
  induction l generalizing h with
  | nil => exact ⟨h, rfl, fun _ _ => rfl, fun r t ht => ⟨t.attrs, ht, fun _ _ => rfl⟩, fun i p hp => by simp at hp⟩
  | cons p l ih =>
    obtain ⟨t, ht⟩ := hkm p (by simp)
    have hc := Heap.call_km (KMState.setAttr name p.2) ht
    have hupd : ∀ r t', h.objs r = some (.km t') → ∃ as,
        Function.update h.objs p.1 (some (.km { t with attrs := assocSet name p.2 t.attrs })) r = some (.km { t' with attrs := as }) ∧
        ∀ x, x ≠ name → as.lookup x = t'.attrs.lookup x := by
      intro r t' ht'
      by_cases hrp : r = p.1
      · subst hrp
        obtain rfl : t = t' := by rw [ht] at ht'; injection ht' with ht'; injection ht'
        exact ⟨_, Function.update_self .., fun x hx => by rw [assocSet_lookup, if_neg hx]⟩
      · exact ⟨t'.attrs, by rw [Function.update_of_ne hrp]; exact ht', fun _ _ => rfl⟩
    obtain ⟨h', e1, o1, k1, a1⟩ := ih (h := { h with objs := Function.update h.objs p.1 (some (.km { t with attrs := assocSet name p.2 t.attrs })) })
      (fun q hq => by
        obtain ⟨t', ht'⟩ := hkm q (by simp [hq])
        obtain ⟨as, has, -⟩ := hupd q.1 t' ht'
        exact ⟨_, has⟩)
    refine ⟨h', ?_, ?_, ?_, ?_⟩
    · show (Heap.call p.1 (KMState.setAttr name p.2) >>= fun _ => forEach l _) h = _
      rw [bind_ok hc]; exact e1
    · intro r hr
      rw [o1 r fun q hq => hr q (by simp [hq])]
      exact Function.update_of_ne (Ne.symm (hr p (by simp))) _ _
    · intro r t' ht'
      obtain ⟨as, has, hx⟩ := hupd r t' ht'
      obtain ⟨as', has', hx'⟩ := k1 r _ has
      exact ⟨as', has', fun x hne => (hx' x hne).trans (hx x hne)⟩
    · intro i q hq hlast
      cases i with
      | zero =>
        obtain rfl : p = q := by simpa using hq
        have hnone : ∀ q ∈ l, q.1 ≠ p.1 := by
          intro q hq'
          obtain ⟨j, hj⟩ := List.mem_iff_getElem?.1 hq'
          exact hlast (j + 1) q (by omega) (by simpa using hj)
        unfold Heap.attr
        rw [o1 p.1 hnone]
        show (match Function.update h.objs p.1 (some (Obj.km { t with attrs := assocSet name p.2 t.attrs })) p.1 with
          | some (.km t) => t.attrs.lookup name | _ => none) = _
        rw [Function.update_self]
        show (assocSet name p.2 t.attrs).lookup name = _
        rw [assocSet_lookup, if_pos rfl]
      | succ i =>
        exact a1 i q (by simpa using hq) fun j x hj hx => hlast (j + 1) x (by omega) (by simpa using hx)

namespace World

/-- the invariant -/
def Inv (env : Env K X F) (w : World K X) : Prop := Heap.Ok env w.heap ∧ ∀ t ∈ w.sets, SetOk w.heap t

theorem inv_onSet {i : Nat} {m : PyM (SetSt K X) α} (hm : Harmless env m) {w : World K X} (hw : Inv env w) :
    Inv env (onSet i m w).2 := by
  unfold onSet
  rcases hi : w.sets[i]? with _ | t
  · exact hw
  · have ht : t ∈ w.sets := List.mem_of_getElem? hi
    obtain ⟨a, b, c⟩ := hm ⟨w.heap, t⟩ hw.1 (hw.2 t ht)
    refine ⟨a, fun u hu => ?_⟩
    rcases List.mem_or_eq_of_mem_set hu with hu | rfl
    · exact (hw.2 u hu).keeps b
    · exact c

theorem inv_exec {w : World K X} (hw : Inv env w) (op : WOp K X) (hop : op.NotBehindBack w) : Inv env (exec env op w).2 := by
  cases op with
  | newKM k norm t =>
    obtain ⟨a, b⟩ := hw.1.alloc (.km (KMState.init k norm t)) (by
      intro s h; injection h with h; subst h; exact ⟨k, norm, .new t⟩)
    exact ⟨a, fun t ht => (hw.2 t ht).keeps b⟩
  | newPre x =>
    have hr : exec env (.newPre x) w = (lift (mkPrecomputed x) >>= fun p => PyM.discard (onHeap (Heap.alloc (.pre p)))) w := rfl
    rw [hr]
    rcases mkPrecomputed x with e | p
    · exact hw
    · obtain ⟨a, b⟩ := hw.1.alloc (.pre p) (by intro s h; cases h)
      exact ⟨a, fun t ht => (hw.2 t ht).keeps b⟩
  | kmOp r op =>
    have hr : (exec env (.kmOp r op) w).2 = { w with heap := (Heap.call r (KMState.exec env op) w.heap).2 } := by
      show (PyM.discard (onHeap _) w).2 = _
      unfold PyM.discard
      rw [bind_run]
      unfold onHeap
      rcases Heap.call r (KMState.exec env op) w.heap with ⟨_ | _, _⟩ <;> rfl
    rw [hr]
    refine ⟨hw.1.call r _ fun k norm s h => .call op h, fun t ht => ?_⟩
    rcases hop with hop | hop
    · refine (hw.2 t ht).keeps (Heap.keeps_call _ _ _ fun s hs => ?_)
      obtain ⟨k, norm, hre⟩ := hw.1.2 r s hs
      exact exec_numSamples hre hop
    · refine ⟨fun x hx => ?_, (hw.2 t ht).2⟩
      rw [← (hw.2 t ht).1 x hx]
      have : (Heap.call r (KMState.exec env op) w.heap).2.objs x = w.heap.objs x := by
        rcases Heap.call_cases w.heap r (KMState.exec env op) with ⟨s, -, hc⟩ | ⟨-, hc⟩
        · rw [hc]
          exact Function.update_of_ne (by rintro rfl; exact hop t ht hx) _ _
        · rw [hc]
      unfold Heap.numSamples
      rw [this]
  | newSet arg num =>
    obtain ⟨a, b, c⟩ := mkSet_inv arg num w.heap hw.1
    have hr : exec env (.newSet arg num) w = (onHeap (mkSet arg num) >>= fun t => addSet t) w := rfl
    rw [hr, bind_run]
    unfold onHeap
    rcases hm : mkSet arg num w.heap with ⟨e | t, h'⟩
    · rw [hm] at a b
      exact ⟨a, fun t ht => (hw.2 t ht).keeps b⟩
    · rw [hm] at a b c
      refine ⟨a, fun u hu => ?_⟩
      have hu' : u ∈ w.sets ++ [t] := hu
      rcases List.mem_append.1 hu' with hu | hu
      · exact (hw.2 u hu).keeps b
      · obtain rfl : u = t := by simpa using hu
        exact c u rfl
  | append i a => exact inv_onSet (harmless_append a) hw
  | take i idx =>
    have hr : exec env (.take i idx) w = (onSet i (SetSt.take idx) >>= fun t => addSet t) w := rfl
    rw [hr, bind_run]
    unfold onSet
    rcases hi : w.sets[i]? with _ | t
    · exact hw
    · have hset : w.sets.set i t = w.sets := by
        obtain ⟨hlt, rfl⟩ := List.getElem?_eq_some_iff.1 hi
        simp
      have hs := take_run idx (⟨w.heap, t⟩ : SetSt K X)
      rcases hm : (SetSt.take idx ⟨w.heap, t⟩ : Except PyErr KSet × SetSt K X) with ⟨e | u, s'⟩
      · have : s' = ⟨w.heap, t⟩ := by rw [hm] at hs; exact congrArg Prod.snd hs
        subst this
        simp only [hm]
        show Inv env ⟨w.heap, w.sets.set i t⟩
        rw [hset]; exact hw
      · have : s' = ⟨w.heap, t⟩ := by rw [hm] at hs; exact congrArg Prod.snd hs
        subst this
        simp only [hm]
        show Inv env ⟨w.heap, w.sets.set i t ++ [u]⟩
        rw [hset]
        refine ⟨hw.1, fun v hv => ?_⟩
        rcases List.mem_append.1 hv with hv | hv
        · exact hw.2 v hv
        · obtain rfl : v = u := by simpa using hv
          exact setOk_take (s := ⟨w.heap, t⟩) hw.1 (by rw [hm])
  | extend i j =>
    show Inv env ((match w.sets[j]? with
      | none => throw .nameError
      | some t => onSet i (SetSt.extend (some t)) : PyM (World K X) Unit) w).2
    rcases w.sets[j]? with _ | t
    · exact hw
    · exact inv_onSet (harmless_extend _) hw
  | attach i sample attr =>
    show Inv env (onSet i _ w).2
    unfold onSet
    rcases hi : w.sets[i]? with _ | t
    · exact hw
    · have ht : t ∈ w.sets := List.mem_of_getElem? hi
      obtain ⟨a, b, c, d, -⟩ := attach_inv (env := env) sample attr ⟨w.heap, t⟩ hw.1 (hw.2 t ht)
      refine ⟨a, fun u hu => ?_⟩
      obtain ⟨j, hj⟩ := List.mem_iff_getElem?.1 hu
      have hj' : (w.sets.set i (SetSt.attach sample attr ⟨w.heap, t⟩).2.set)[j]? = some u := hj
      rw [List.getElem?_set] at hj'
      by_cases hij : i = j
      · subst hij
        rw [if_pos rfl] at hj'
        split at hj'
        · injection hj' with hj'
          rw [← hj']; exact b
        · cases hj'
      · rw [if_neg hij] at hj'
        have hu' : u ∈ w.sets := List.mem_of_getElem? hj'
        rcases hop t hi with hop | hop
        · exact (hw.2 u hu').keeps (c hop)
        · refine ⟨fun x hx => ?_, (hw.2 u hu').2⟩
          rw [← (hw.2 u hu').1 x hx]
          unfold Heap.numSamples
          rw [d x fun h => hop j u (Ne.symm hij) hj' x h hx]
  | setAttr i name v => exact inv_onSet (harmless_setAttr name v) hw

theorem Orderly.inv {w : World K X} (h : Orderly env w) : Inv env w := by
  induction h with
  | empty => exact ⟨⟨fun _ _ => rfl, fun _ _ h => by cases h⟩, fun t ht => by cases ht⟩
  | step op _ hop ih => exact inv_exec ih op hop

end World
end KMethods
