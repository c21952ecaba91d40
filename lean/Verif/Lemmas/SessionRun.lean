import Verif.Lemmas.Session
import Verif.Spec.Session
/-! Programs without common objects, running in one session. -/
namespace KMethods
open PyM
variable {α β : Type} {K X : Type} {env : Env K X F} {ρ : Nat → Nat} {b : Heap K X} {N : Nat}

/-- the variables, with other references -/
def Locals.rename (ρ : Nat → Nat) (l : Locals) : Locals := ⟨l.vars.map ρ, l.sets.map (KSet.rename ρ), l.comps⟩
/-- all references are among the first `N` objects -/
def Locals.Below (N : Nat) (l : Locals) : Prop := (∀ r ∈ l.vars, r < N) ∧ ∀ t ∈ l.sets, t.Below N

theorem Locals.Below.mono {l : Locals} {N' : Nat} (h : l.Below N) (hN : N ≤ N') : l.Below N' :=
  ⟨fun r hr => (h.1 r hr).trans_le hN, fun t ht => (h.2 t ht).mono hN⟩

structure ProgSim (ρ : Nat → Nat) (b : Heap K X) (N : Nat) (s s' : ProgSt K X) : Prop where
  heap : HSim ρ b N s.heap s'.heap
  loc : s'.loc = s.loc.rename ρ
  below : s.loc.Below N

theorem ProgSim.onHeap {Q : α → β → Prop} {m : PyM (Heap K X) α} {m' : PyM (Heap K X) β} (h : Resp (HSim ρ b N) Q m m') :
    Resp (ProgSim ρ b N) Q (ProgSt.onHeap m) (ProgSt.onHeap m') := fun _ _ hs =>
  ⟨⟨(h _ _ hs.heap).1, hs.loc, hs.below⟩, (h _ _ hs.heap).2⟩

theorem ProgSt.var_some {l : Locals → List α} {v : Nat} {s : ProgSt K X} {x : α} (h : (l s.loc)[v]? = some x) : ProgSt.var l v s = (.ok x, s) := by
  unfold ProgSt.var; rw [h]
theorem ProgSt.var_none {l : Locals → List α} {v : Nat} {s : ProgSt K X} (h : (l s.loc)[v]? = none) : ProgSt.var l v s = (.error .nameError, s) := by
  unfold ProgSt.var; rw [h]

theorem ProgSim.var {l : Locals → List α} {g : α → α} (hl : ∀ L, l (L.rename ρ) = (l L).map g) {Q : α → α → Prop} (hQ : ∀ L, Locals.Below N L → ∀ x ∈ l L, Q x (g x)) (v : Nat) :
    Resp (ProgSim ρ b N) Q (ProgSt.var l v : PyM (ProgSt K X) α) (ProgSt.var l v) := by
  intro s s' hs
  have h' : (l s'.loc)[v]? = ((l s.loc)[v]?).map g := by rw [hs.loc, hl, List.getElem?_map]
  rcases h : (l s.loc)[v]? with _ | x <;> rw [h] at h'
  · rw [ProgSt.var_none h, ProgSt.var_none h']; exact ⟨hs, rfl⟩
  · rw [ProgSt.var_some h, ProgSt.var_some h']; exact ⟨hs, hQ _ hs.below x (List.mem_of_getElem? h)⟩

theorem ProgSim.varVar (v : Nat) : Resp (ProgSim ρ b N) (fun r r' => r' = ρ r ∧ r < N) (ProgSt.var (·.vars) v : PyM (ProgSt K X) Nat) (ProgSt.var (·.vars) v) :=
  ProgSim.var (g := ρ) (fun _ => rfl) (fun _ h x hx => ⟨rfl, h.1 x hx⟩) v
theorem ProgSim.varSet (i : Nat) : Resp (ProgSim ρ b N) (fun t t' => t' = t.rename ρ ∧ t.Below N) (ProgSt.var (·.sets) i : PyM (ProgSt K X) KSet) (ProgSt.var (·.sets) i) :=
  ProgSim.var (g := KSet.rename ρ) (fun _ => rfl) (fun _ h x hx => ⟨rfl, h.2 x hx⟩) i
theorem ProgSim.varComp (c : Nat) : Resp (ProgSim ρ b N) (fun x x' => x' = x) (ProgSt.var (·.comps) c : PyM (ProgSt K X) (Nat × Comp)) (ProgSt.var (·.comps) c) :=
  ProgSim.var (g := id) (Q := fun x x' => x' = x) (fun _ => (List.map_id _).symm) (fun _ _ _ _ => rfl) c

theorem ProgSt.onSet_some {i : Nat} {s : ProgSt K X} {t : KSet} (h : s.loc.sets[i]? = some t) (m : PyM (SetSt K X) α) :
    ProgSt.onSet i m s = ((m ⟨s.heap, t⟩).1, ⟨(m ⟨s.heap, t⟩).2.heap, { s.loc with sets := s.loc.sets.set i (m ⟨s.heap, t⟩).2.set }⟩) :=
  bind_ok (ProgSt.var_some (l := (·.sets)) h)
theorem ProgSt.onSet_none {i : Nat} {s : ProgSt K X} (h : s.loc.sets[i]? = none) (m : PyM (SetSt K X) α) : ProgSt.onSet i m s = (.error .nameError, s) :=
  bind_error (ProgSt.var_none (l := (·.sets)) h)

theorem map_set_rename (l : List KSet) (i : Nat) (t : KSet) : (l.map (KSet.rename ρ)).set i (t.rename ρ) = (l.set i t).map (KSet.rename ρ) := by
  rw [List.map_set]

theorem below_set {l : List KSet} (h : ∀ t ∈ l, t.Below N) {t : KSet} (ht : t.Below N) (i : Nat) : ∀ u ∈ l.set i t, u.Below N := fun u hu =>
  (List.mem_or_eq_of_mem_set hu).elim (h u) fun e => e ▸ ht

/-- a method of a set, which may create objects -/
theorem ProgSim.onSet' {Q : Nat → α → β → Prop} (i : Nat) {m : PyM (SetSt K X) α} {m' : PyM (SetSt K X) β}
    (h : ∀ s s', SetSim ρ b N s s' → ∃ N', N ≤ N' ∧ SetSim ρ b N' (m s).2 (m' s').2 ∧ ExRel (Q N') (m s).1 (m' s').1) {s s' : ProgSt K X} (hs : ProgSim ρ b N s s') :
    ∃ N', N ≤ N' ∧ ProgSim ρ b N' (ProgSt.onSet i m s).2 (ProgSt.onSet i m' s').2 ∧ ExRel (Q N') (ProgSt.onSet i m s).1 (ProgSt.onSet i m' s').1 := by
  have h' : s'.loc.sets[i]? = (s.loc.sets[i]?).map (KSet.rename ρ) := by rw [hs.loc]; exact List.getElem?_map ..
  rcases ht : s.loc.sets[i]? with _ | t <;> rw [ht] at h'
  · rw [ProgSt.onSet_none ht, ProgSt.onSet_none h']
    exact ⟨N, le_rfl, hs, rfl⟩
  · rw [ProgSt.onSet_some ht, ProgSt.onSet_some h']
    obtain ⟨N', hN, h3, h4⟩ := h ⟨s.heap, t⟩ ⟨s'.heap, t.rename ρ⟩ ⟨hs.heap, rfl, hs.below.2 t (List.mem_of_getElem? ht)⟩
    refine ⟨N', hN, ⟨h3.heap, ?_, ?_⟩, h4⟩
    · show Locals.mk s'.loc.vars (s'.loc.sets.set i (m' ⟨s'.heap, t.rename ρ⟩).2.set) s'.loc.comps = _
      rw [h3.set, hs.loc]
      show Locals.mk _ ((s.loc.sets.map (KSet.rename ρ)).set i _) _ = Locals.mk _ (List.map _ (s.loc.sets.set i _)) _
      rw [map_set_rename]
      rfl
    · exact ⟨fun r hr => (hs.below.1 r hr).trans_le hN, below_set (fun v hv => (hs.below.2 v hv).mono hN) h3.below i⟩

theorem ProgSim.onSet {Q : α → β → Prop} (i : Nat) {m : PyM (SetSt K X) α} {m' : PyM (SetSt K X) β} (h : Resp (SetSim ρ b N) Q m m') :
    Resp (ProgSim ρ b N) Q (ProgSt.onSet i m) (ProgSt.onSet i m') := by
  refine (ProgSim.varSet i).bind fun t t' ht => ?_
  obtain ⟨rfl, ht⟩ := ht
  intro s s' hs
  obtain ⟨h3, h4⟩ := h ⟨s.heap, t⟩ ⟨s'.heap, t.rename ρ⟩ ⟨hs.heap, rfl, ht⟩
  refine ⟨⟨h3.heap, ?_, hs.below.1, below_set hs.below.2 h3.below i⟩, h4⟩
  show Locals.mk s'.loc.vars (s'.loc.sets.set i (m' ⟨s'.heap, t.rename ρ⟩).2.set) s'.loc.comps = _
  rw [h3.set, hs.loc]
  show Locals.mk _ ((s.loc.sets.map (KSet.rename ρ)).set i _) _ = Locals.mk _ (List.map _ (s.loc.sets.set i _)) _
  rw [map_set_rename]
  rfl

theorem ProgSim.onComp {Q : α → β → Prop} (c : Nat) {m : PyM (CompSt K X) α} {m' : PyM (CompSt K X) β} (h : Resp (CompSim ρ b N) Q m m') :
    Resp (ProgSim ρ b N) Q (ProgSt.onComp c m) (ProgSt.onComp c m') := by
  refine (ProgSim.varComp c).bind fun x x' hx => ?_
  subst hx
  refine (ProgSim.varSet x'.1).bind fun t t' ht => ?_
  obtain ⟨rfl, ht⟩ := ht
  intro s s' hs
  obtain ⟨h3, h4⟩ := h ⟨s.heap, t, x'.2⟩ ⟨s'.heap, t.rename ρ, x'.2⟩ ⟨hs.heap, rfl, ht, rfl⟩
  refine ⟨⟨h3.heap, ?_, hs.below.1, below_set hs.below.2 h3.below _⟩, h4⟩
  show Locals.mk s'.loc.vars (s'.loc.sets.set x'.1 (m' ⟨s'.heap, t.rename ρ, x'.2⟩).2.set) (s'.loc.comps.set c (x'.1, (m' ⟨s'.heap, t.rename ρ, x'.2⟩).2.comp)) = _
  rw [h3.set, h3.comp, hs.loc]
  show Locals.mk _ ((s.loc.sets.map (KSet.rename ρ)).set x'.1 _) _ = Locals.mk _ (List.map _ (s.loc.sets.set x'.1 _)) _
  rw [map_set_rename]
  rfl

theorem ProgSim.bindVar {r : Nat} (hr : r < N) : Resp (ProgSim ρ b N) (fun _ _ => True) (ProgSt.bindVar r : PyM (ProgSt K X) Unit) (ProgSt.bindVar (ρ r)) := by
  refine Resp.modify fun s s' hs => ⟨hs.heap, ?_, fun q hq => ?_, hs.below.2⟩
  · show Locals.mk (s'.loc.vars ++ [ρ r]) s'.loc.sets s'.loc.comps = _
    rw [hs.loc]
    simp [Locals.rename]
  · rcases List.mem_append.1 hq with h | h
    · exact hs.below.1 q h
    · rw [List.mem_singleton.1 h]; exact hr

theorem ProgSim.bindSet {t : KSet} (ht : t.Below N) : Resp (ProgSim ρ b N) (fun _ _ => True) (ProgSt.bindSet t : PyM (ProgSt K X) Unit) (ProgSt.bindSet (t.rename ρ)) := by
  refine Resp.modify fun s s' hs => ⟨hs.heap, ?_, hs.below.1, fun q hq => ?_⟩
  · show Locals.mk s'.loc.vars (s'.loc.sets ++ [t.rename ρ]) s'.loc.comps = _
    rw [hs.loc]
    simp [Locals.rename]
  · rcases List.mem_append.1 hq with h | h
    · exact hs.below.2 q h
    · rw [List.mem_singleton.1 h]; exact ht

theorem ProgSim.bindComp (i : Nat) (c : Comp) : Resp (ProgSim ρ b N) (fun _ _ => True) (ProgSt.bindComp i c : PyM (ProgSt K X) Unit) (ProgSt.bindComp i c) := by
  refine Resp.modify fun s s' hs => ⟨hs.heap, ?_, hs.below⟩
  show Locals.mk s'.loc.vars s'.loc.sets (s'.loc.comps ++ [(i, c)]) = _
  rw [hs.loc]
  rfl

theorem ProgSim.allocBind {s s' : ProgSt K X} (hs : ProgSim ρ b N s s') (o : Obj K X) :
    let m : PyM (ProgSt K X) POut := do
      let r ← ProgSt.onHeap (Heap.alloc o)
      ProgSt.bindVar r
      pure .none
    ∃ N', N ≤ N' ∧ ProgSim ρ b N' (m s).2 (m s').2 ∧ (m s').1 = (m s).1 := by
  intro m
  obtain ⟨h1, h2, h3⟩ := hs.heap.alloc o
  have e1 : s.heap.next = N := hs.heap.num
  have e2 : s'.heap.next = ρ N := (hs.heap.next 0).symm
  have := (ProgSim.bindVar (ρ := ρ) (b := b) (r := N) (Nat.lt_succ_self N)) ⟨(Heap.alloc o s.heap).2, s.loc⟩ ⟨(Heap.alloc o s'.heap).2, s'.loc⟩ ⟨h1, hs.loc, hs.below.mono (Nat.le_succ N)⟩
  refine ⟨N + 1, Nat.le_succ N, ?_, rfl⟩
  show ProgSim ρ b (N + 1) (ProgSt.bindVar s.heap.next ⟨(Heap.alloc o s.heap).2, s.loc⟩).2 (ProgSt.bindVar s'.heap.next ⟨(Heap.alloc o s'.heap).2, s'.loc⟩).2
  rw [e1, e2]
  exact this.1

/-- a step of a program, in related heaps -/
theorem ProgSim.exec (op : POp K X) {s s' : ProgSt K X} (hs : ProgSim ρ b N s s') :
    ∃ N', N ≤ N' ∧ ProgSim ρ b N' (ProgSt.exec env op s).2 (ProgSt.exec env op s').2 ∧ (ProgSt.exec env op s').1 = (ProgSt.exec env op s).1 := by
  have fin : ∀ {m m' : PyM (ProgSt K X) POut}, Resp (ProgSim ρ b N) (fun a b => b = a) m m' →
      ∃ N', N ≤ N' ∧ ProgSim ρ b N' (m s).2 (m' s').2 ∧ (m' s').1 = (m s).1 := fun h => ⟨N, le_rfl, (h s s' hs).1, (h s s' hs).2.eq⟩
  cases op with
  | newKM k norm t => exact hs.allocBind _
  | newPre x =>
    rcases hx : mkPrecomputed x with e | p
    · refine ⟨N, le_rfl, ?_⟩
      show ProgSim ρ b N ((lift (mkPrecomputed x) >>= _ : PyM (ProgSt K X) POut) s).2 ((lift (mkPrecomputed x) >>= _ : PyM (ProgSt K X) POut) s').2 ∧
        ((lift (mkPrecomputed x) >>= _ : PyM (ProgSt K X) POut) s').1 = ((lift (mkPrecomputed x) >>= _ : PyM (ProgSt K X) POut) s).1
      rw [hx]
      exact ⟨hs, rfl⟩
    · obtain ⟨N', h⟩ := hs.allocBind (.pre p)
      refine ⟨N', ?_⟩
      show _ ∧ ProgSim ρ b N' ((lift (mkPrecomputed x) >>= _ : PyM (ProgSt K X) POut) s).2 ((lift (mkPrecomputed x) >>= _ : PyM (ProgSt K X) POut) s').2 ∧
        ((lift (mkPrecomputed x) >>= _ : PyM (ProgSt K X) POut) s').1 = ((lift (mkPrecomputed x) >>= _ : PyM (ProgSt K X) POut) s).1
      rw [hx]
      exact h
  | km v op =>
    refine fin ((ProgSim.varVar v).bind fun r r' hr => ?_)
    obtain ⟨rfl, -⟩ := hr
    refine (ProgSim.onHeap (HSim.call r _)).bind fun o o' ho => ?_
    subst ho
    exact Resp.pure rfl
  | full v =>
    refine fin ((ProgSim.varVar v).bind fun r r' hr => ?_)
    obtain ⟨rfl, -⟩ := hr
    refine (ProgSim.onHeap (HSim.full r)).bind fun o o' ho => ?_
    subst ho
    exact Resp.pure rfl
  | newSet arg num =>
    have h1 := initResolve_sim (ρ := ρ) hs.below.1 arg
    have e1 : ∀ u : ProgSt K X, ProgSt.exec env (.newSet arg num) u = (lift (arg.resolve u.loc.vars) >>= fun arg => ProgSt.onHeap (mkSet arg num) >>= fun t => ProgSt.bindSet t >>= fun _ => pure .none) u := fun _ => rfl
    rw [e1, e1, hs.loc]
    show ∃ N', N ≤ N' ∧ ProgSim ρ b N' _ ((lift (arg.resolve (s.loc.vars.map ρ)) >>= _ : PyM (ProgSt K X) POut) s').2 ∧ ((lift (arg.resolve (s.loc.vars.map ρ)) >>= _ : PyM (ProgSt K X) POut) s').1 = _
    rcases ha : arg.resolve s.loc.vars with e | a <;> rcases ha' : arg.resolve (s.loc.vars.map ρ) with e' | a' <;> rw [ha, ha'] at h1
    · exact ⟨N, le_rfl, hs, congrArg (Except.error (ε := PyErr)) h1⟩
    · exact h1.elim
    · exact h1.elim
    · obtain ⟨rfl, hb⟩ : a' = a.rename ρ ∧ a.Below N := h1
      obtain ⟨N', hN, h2, h3⟩ := hs.heap.mkSet hb num
      have e2 : ∀ (a : InitArg) (u : ProgSt K X), (lift (.ok a) >>= fun arg => ProgSt.onHeap (mkSet arg num) >>= fun t => ProgSt.bindSet t >>= fun _ => pure POut.none) u =
          match (mkSet a num u.heap).1 with
            | .ok t => (.ok .none, (ProgSt.bindSet t ⟨(mkSet a num u.heap).2, u.loc⟩).2)
            | .error e => (.error e, ⟨(mkSet a num u.heap).2, u.loc⟩) := fun a u => by
        show (ProgSt.onHeap (mkSet a num) >>= _ : PyM (ProgSt K X) POut) u = _
        rcases hm : mkSet a num u.heap with ⟨e | t, h⟩
        · rw [bind_error (s' := ⟨h, u.loc⟩) (e := e) (by unfold ProgSt.onHeap; rw [hm])]
        · rw [bind_ok (s' := ⟨h, u.loc⟩) (a := t) (by unfold ProgSt.onHeap; rw [hm])]
          rfl
      rw [e2, e2]
      refine ⟨N', hN, ?_⟩
      rcases hm : (mkSet a num s.heap).1 with e | t <;> rcases hm' : (mkSet (a.rename ρ) num s'.heap).1 with e' | t' <;> rw [hm, hm'] at h3
      · exact ⟨⟨h2, hs.loc, hs.below.mono hN⟩, congrArg (Except.error (ε := PyErr)) h3⟩
      · exact h3.elim
      · exact h3.elim
      · obtain ⟨rfl, ht⟩ : t' = t.rename ρ ∧ t.Below N' := h3
        exact ⟨(ProgSim.bindSet ht ⟨_, s.loc⟩ ⟨_, s'.loc⟩ ⟨h2, hs.loc, hs.below.mono hN⟩).1, rfl⟩
  | append i a =>
    have h1 := resolve_sim (ρ := ρ) hs.below.1 a
    have e1 : ∀ u : ProgSt K X, ProgSt.exec env (.append i a) u = (lift (a.resolve u.loc.vars) >>= fun a => ProgSt.onSet i (SetSt.append a) >>= fun _ => pure .none) u := fun _ => rfl
    rw [e1, e1, hs.loc]
    show ∃ N', N ≤ N' ∧ ProgSim ρ b N' _ ((lift (a.resolve (s.loc.vars.map ρ)) >>= _ : PyM (ProgSt K X) POut) s').2 ∧ ((lift (a.resolve (s.loc.vars.map ρ)) >>= _ : PyM (ProgSt K X) POut) s').1 = _
    rcases ha : a.resolve s.loc.vars with e | x <;> rcases ha' : a.resolve (s.loc.vars.map ρ) with e' | x' <;> rw [ha, ha'] at h1
    · exact ⟨N, le_rfl, hs, congrArg (Except.error (ε := PyErr)) h1⟩
    · exact h1.elim
    · exact h1.elim
    · obtain ⟨rfl, hb⟩ : x' = x.rename ρ ∧ x.Below N := h1
      obtain ⟨N', hN, h2, h3⟩ := ProgSim.onSet' (Q := fun _ _ _ => True) i (m := SetSt.append x) (m' := SetSt.append (x.rename ρ)) (fun s s' hs => by
        obtain ⟨⟨N', hN, h2⟩, h3⟩ := SetSim.append (ρ := ρ) (b := b) hb s s' ⟨N, le_rfl, hs⟩
        exact ⟨N', hN, h2, h3⟩) hs
      refine ⟨N', hN, ?_⟩
      show ProgSim ρ b N' ((ProgSt.onSet i (SetSt.append x) >>= _ : PyM (ProgSt K X) POut) s).2 ((ProgSt.onSet i (SetSt.append (x.rename ρ)) >>= _ : PyM (ProgSt K X) POut) s').2 ∧
        ((ProgSt.onSet i (SetSt.append (x.rename ρ)) >>= _ : PyM (ProgSt K X) POut) s').1 = ((ProgSt.onSet i (SetSt.append x) >>= _ : PyM (ProgSt K X) POut) s).1
      rw [bind_run, bind_run]
      rcases hm : ProgSt.onSet i (SetSt.append x) s with ⟨e | t, u⟩ <;> rcases hm' : ProgSt.onSet i (SetSt.append (x.rename ρ)) s' with ⟨e' | t', u'⟩ <;> rw [hm, hm'] at h3 h2
      · exact ⟨h2, congrArg (Except.error (ε := PyErr)) h3⟩
      · exact h3.elim
      · exact h3.elim
      · exact ⟨h2, rfl⟩
  | item i idx =>
    refine fin ((ProgSim.onSet i (SetSim.getItem idx)).bind fun r r' hr => ?_)
    obtain ⟨rfl, hr⟩ := hr
    exact (ProgSim.bindVar hr).bind fun _ _ _ => Resp.pure rfl
  | size i =>
    refine fin ((ProgSim.onSet i SetSim.size).bind fun r r' hr => ?_)
    subst hr
    exact Resp.pure rfl
  | take i idx =>
    refine fin ((ProgSim.onSet i (SetSim.take idx)).bind fun r r' hr => ?_)
    obtain ⟨rfl, hr⟩ := hr
    exact (ProgSim.bindSet hr).bind fun _ _ _ => Resp.pure rfl
  | extend i j =>
    refine fin ((ProgSim.varSet j).bind fun r r' hr => ?_)
    obtain ⟨rfl, hr⟩ := hr
    exact (ProgSim.onSet i (SetSim.extend hr)).bind fun _ _ _ => Resp.pure rfl
  | attach i sample attr => exact fin ((ProgSim.onSet i (SetSim.attach sample attr)).bind fun _ _ _ => Resp.pure rfl)
  | setAttr i name values => exact fin ((ProgSim.onSet i (SetSim.setAttr name values)).bind fun _ _ _ => Resp.pure rfl)
  | getAttr i name default =>
    refine fin ((ProgSim.onSet i (SetSim.getAttr name default)).bind fun r r' hr => ?_)
    subst hr
    exact Resp.pure rfl
  | newComposite cls i =>
    refine fin ((ProgSim.varSet i).bind fun t t' ht => ?_)
    obtain ⟨rfl, -⟩ := ht
    have e : mkComposite cls (some (t.rename ρ)) = mkComposite cls (some t) := by
      unfold mkComposite
      dsimp only
      rw [show (t.rename ρ).members.length = t.members.length from List.length_map ..]
      rfl
    rw [e]
    refine (Resp.lift_eq _).bind fun c c' hc => ?_
    subst hc
    exact (ProgSim.bindComp i c').bind fun _ _ _ => Resp.pure rfl
  | fit c w => exact fin ((ProgSim.onComp c (CompSim.fit w)).bind fun _ _ _ => Resp.pure rfl)
  | composite c =>
    refine fin ((ProgSim.onComp c CompSim.compositeKM).bind fun r r' hr => ?_)
    subst hr
    exact Resp.pure rfl
  | combine i w norm =>
    refine fin ((ProgSim.varSet i).bind fun t t' ht => ?_)
    obtain ⟨rfl, -⟩ := ht
    refine (ProgSim.onHeap (HSim.linearCombination t w norm)).bind fun r r' hr => ?_
    subst hr
    exact Resp.pure rfl
  | rank i cv targets method p =>
    refine fin ((ProgSim.onSet i (SetSim.rank cv targets method p)).bind fun r r' hr => ?_)
    subst hr
    exact Resp.pure rfl
  | find i isBucket cv sample targets method p =>
    refine fin ((ProgSim.onSet i (SetSim.findOptimal cv isBucket sample targets method p)).bind fun r r' hr => ?_)
    obtain ⟨rfl, hr⟩ := hr
    exact (ProgSim.bindVar hr).bind fun _ _ _ => Resp.pure rfl
  | similarity i metric =>
    refine fin ((ProgSim.varSet i).bind fun t t' ht => ?_)
    obtain ⟨rfl, -⟩ := ht
    refine (ProgSim.onHeap (HSim.pairwiseSimilarity t metric)).bind fun r r' hr => ?_
    subst hr
    exact Resp.pure rfl
  | newBucket lib normalize skip vals =>
    obtain ⟨N', hN, h2, h3⟩ := hs.heap.mkBucket lib normalize skip vals
    have e2 : ∀ u : ProgSt K X, ProgSt.exec env (.newBucket lib normalize skip vals) u =
        match (mkBucket lib normalize skip vals u.heap).1 with
          | .ok t => (.ok .none, (ProgSt.bindSet t.set ⟨(mkBucket lib normalize skip vals u.heap).2, u.loc⟩).2)
          | .error e => (.error e, ⟨(mkBucket lib normalize skip vals u.heap).2, u.loc⟩) := fun u => by
      show (ProgSt.onHeap (mkBucket lib normalize skip vals) >>= _ : PyM (ProgSt K X) POut) u = _
      rcases hm : mkBucket lib normalize skip vals u.heap with ⟨e | t, h⟩
      · rw [bind_error (s' := ⟨h, u.loc⟩) (e := e) (by unfold ProgSt.onHeap; rw [hm])]
      · rw [bind_ok (s' := ⟨h, u.loc⟩) (a := t) (by unfold ProgSt.onHeap; rw [hm])]
        rfl
    rw [e2, e2]
    refine ⟨N', hN, ?_⟩
    rcases hm : (mkBucket lib normalize skip vals s.heap).1 with e | t <;> rcases hm' : (mkBucket lib normalize skip vals s'.heap).1 with e' | t' <;> rw [hm, hm'] at h3
    · exact ⟨⟨h2, hs.loc, hs.below.mono hN⟩, congrArg (Except.error (ε := PyErr)) h3⟩
    · exact h3.elim
    · exact h3.elim
    · obtain ⟨e, ht⟩ : t'.set = t.set.rename ρ ∧ t.set.Below N' := h3
      dsimp only
      rw [e]
      exact ⟨(ProgSim.bindSet ht ⟨_, s.loc⟩ ⟨_, s'.loc⟩ ⟨h2, hs.loc, hs.below.mono hN⟩).1, rfl⟩
  | addKernels i flags cls param values =>
    obtain ⟨N', hN, h2, h3⟩ := ProgSim.onSet' (Q := fun _ _ _ => True) i (m := SetSt.addParametrized flags cls param values) (m' := SetSt.addParametrized flags cls param values) (fun s s' hs => by
      obtain ⟨⟨N', hN, h2⟩, h3⟩ := SetSim.addParametrized (ρ := ρ) (b := b) flags cls param values s s' ⟨N, le_rfl, hs⟩
      exact ⟨N', hN, h2, h3⟩) hs
    refine ⟨N', hN, ?_⟩
    show ProgSim ρ b N' ((ProgSt.onSet i (SetSt.addParametrized flags cls param values) >>= _ : PyM (ProgSt K X) POut) s).2 ((ProgSt.onSet i (SetSt.addParametrized flags cls param values) >>= _ : PyM (ProgSt K X) POut) s').2 ∧
      ((ProgSt.onSet i (SetSt.addParametrized flags cls param values) >>= _ : PyM (ProgSt K X) POut) s').1 = ((ProgSt.onSet i (SetSt.addParametrized flags cls param values) >>= _ : PyM (ProgSt K X) POut) s).1
    rw [bind_run, bind_run]
    rcases hm : ProgSt.onSet i (SetSt.addParametrized flags cls param values) s with ⟨e | t, u⟩ <;> rcases hm' : ProgSt.onSet i (SetSt.addParametrized flags cls param values) s' with ⟨e' | t', u'⟩ <;>
      rw [hm, hm'] at h3 h2
    · exact ⟨h2, congrArg (Except.error (ε := PyErr)) h3⟩
    · exact h3.elim
    · exact h3.elim
    · exact ⟨h2, rfl⟩

/-! ## sessions -/

/-- The program `a`, run alone, is embedded into the heap `h` with the variables `l`, by `ρ`. -/
structure Embeds (ρ : Nat → Nat) (a : ProgSt K X) (h : Heap K X) (l : Locals) : Prop where
  inj : ∀ r q, r < a.heap.next → q < a.heap.next → ρ r = ρ q → r = q
  objs : ∀ r, r < a.heap.next → h.objs (ρ r) = a.heap.objs r
  lt : ∀ r, r < a.heap.next → ρ r < h.next
  fresh : ∀ r, a.heap.next ≤ r → a.heap.objs r = none
  loc : l = a.loc.rename ρ
  below : a.loc.Below a.heap.next

/-- all programs are embedded, with different objects -/
def SessionInv (w : Session K X) (a : Nat → ProgSt K X) : Prop :=
  (∀ r, w.heap.next ≤ r → w.heap.objs r = none) ∧
  ∃ ρ : Nat → Nat → Nat, (∀ i, Embeds (ρ i) (a i) w.heap (w.progs i)) ∧
    ∀ i j, i ≠ j → ∀ r q, r < (a i).heap.next → q < (a j).heap.next → ρ i r ≠ ρ j q

theorem rename_congr {ρ ρ' : Nat → Nat} {l : Locals} (hl : l.Below N) (h : ∀ r, r < N → ρ' r = ρ r) : l.rename ρ' = l.rename ρ := by
  have h1 : l.vars.map ρ' = l.vars.map ρ := List.map_congr_left fun r hr => h r (hl.1 r hr)
  have h2 : l.sets.map (KSet.rename ρ') = l.sets.map (KSet.rename ρ) := List.map_congr_left fun t ht => by
    unfold KSet.rename
    rw [List.map_congr_left fun r hr => h r (hl.2 t ht r hr)]
  unfold Locals.rename
  rw [h1, h2]

theorem SessionInv.step {w : Session K X} {a : Nat → ProgSt K X} (hI : SessionInv w a) (i : Nat) (op : POp K X) :
    (Session.step env i op w).1 = (ProgSt.exec env op (a i)).1 ∧
    SessionInv (Session.step env i op w).2 (Function.update a i (ProgSt.exec env op (a i)).2) := by
  obtain ⟨hf, ρ, he, hd⟩ := hI
  set N := (a i).heap.next with hN
  set σ : Nat → Nat := fun r => if r < N then ρ i r else w.heap.next + (r - N) with hσ
  have σ1 : ∀ r, r < N → σ r = ρ i r := fun r hr => if_pos hr
  have σ2 : ∀ r, N ≤ r → σ r = w.heap.next + (r - N) := fun r hr => if_neg (by omega)
  have hs : ProgSim σ w.heap N (a i) ⟨w.heap, w.progs i⟩ := by
    refine ⟨⟨fun r q h => ?_, fun r => ?_, rfl, fun k => ?_, (he i).fresh, hf, fun _ _ => rfl⟩, ?_, (he i).below⟩
    · rcases lt_or_ge r N with h1 | h1 <;> rcases lt_or_ge q N with h2 | h2
      · rw [σ1 r h1, σ1 q h2] at h; exact (he i).inj r q h1 h2 h
      · rw [σ1 r h1, σ2 q h2] at h; have := (he i).lt r h1; omega
      · rw [σ2 r h1, σ1 q h2] at h; have := (he i).lt q h2; omega
      · rw [σ2 r h1, σ2 q h2] at h; omega
    · rcases lt_or_ge r N with h1 | h1
      · rw [σ1 r h1]; exact (he i).objs r h1
      · rw [σ2 r h1, (he i).fresh r h1]
        exact hf _ (Nat.le_add_right ..)
    · rw [σ2 _ (Nat.le_add_right ..)]
      show _ = w.heap.next + k
      omega
    · rw [rename_congr (he i).below σ1]
      exact (he i).loc
  obtain ⟨N', hN', h1, h2⟩ := hs.exec (env := env) op
  refine ⟨h2, h1.heap.fresh', fun j => if j = i then σ else ρ j, fun j => ?_, ?_⟩
  · have hnx : (ProgSt.exec env op ⟨w.heap, w.progs i⟩).2.heap.next = w.heap.next + (N' - N) := by
      have := h1.heap.next 0
      rw [Nat.add_zero, σ2 N' hN'] at this
      omega
    by_cases hj : j = i
    · subst hj
      dsimp only
      rw [if_pos rfl, Function.update_self]
      show Embeds σ _ _ (Function.update w.progs j _ j)
      rw [Function.update_self]
      refine ⟨fun r q _ _ h => h1.heap.inj h, fun r _ => h1.heap.objs r, fun r hr => ?_, ?_, h1.loc, ?_⟩
      · rw [h1.heap.num] at hr
        show σ r < (ProgSt.exec env op ⟨w.heap, w.progs j⟩).2.heap.next
        rw [hnx]
        rcases lt_or_ge r N with h3 | h3
        · rw [σ1 r h3]; have := (he j).lt r h3; omega
        · rw [σ2 r h3]; omega
      · rw [h1.heap.num]; exact h1.heap.fresh
      · rw [h1.heap.num]; exact h1.below
    · dsimp only
      rw [if_neg hj, Function.update_of_ne hj]
      show Embeds (ρ j) _ _ (Function.update w.progs i _ j)
      rw [Function.update_of_ne hj]
      refine ⟨(he j).inj, fun r hr => ?_, fun r hr => ?_, (he j).fresh, (he j).loc, (he j).below⟩
      · rw [← (he j).objs r hr]
        refine h1.heap.frame _ fun q hq => ?_
        rcases lt_or_ge q N with h3 | h3
        · rw [σ1 q h3] at hq
          exact hd i j (Ne.symm hj) q r h3 hr hq
        · rw [σ2 q h3] at hq
          have := (he j).lt r hr
          omega
      · have := (he j).lt r hr
        show _ < (ProgSt.exec env op ⟨w.heap, w.progs i⟩).2.heap.next
        rw [hnx]
        omega
  · have key : ∀ j, j ≠ i → ∀ r q, r < N' → q < (a j).heap.next → σ r ≠ ρ j q := fun j hj r q hr hq h => by
      rcases lt_or_ge r N with h3 | h3
      · rw [σ1 r h3] at h
        exact hd i j (Ne.symm hj) r q h3 hq h
      · rw [σ2 r h3] at h
        have := (he j).lt q hq
        omega
    intro j k hjk r q hr hq
    by_cases hj : j = i
    · subst hj
      have hk : k ≠ j := Ne.symm hjk
      rw [Function.update_self, h1.heap.num] at hr
      rw [Function.update_of_ne hk] at hq
      simp only [if_neg hk, if_true]
      exact key k hk r q hr hq
    · by_cases hk : k = i
      · subst hk
        rw [Function.update_of_ne hj] at hr
        rw [Function.update_self, h1.heap.num] at hq
        simp only [if_neg hj, if_true]
        exact (key j hj q r hq hr).symm
      · rw [Function.update_of_ne hj] at hr
        rw [Function.update_of_ne hk] at hq
        simp only [if_neg hj, if_neg hk]
        exact hd j k hjk r q hr hq

theorem SessionInv.run {w : Session K X} {a : Nat → ProgSt K X} (hI : SessionInv w a) (l : List (Nat × POp K X)) :
    (∀ i, Session.seenBy i (Session.run env l w).1 = (ProgSt.run env (Session.stepsOf i l) (a i)).1) ∧
    SessionInv (Session.run env l w).2 fun i => (ProgSt.run env (Session.stepsOf i l) (a i)).2 := by
  induction l generalizing w a with
  | nil => exact ⟨fun _ => rfl, hI⟩
  | cons x l ih =>
    obtain ⟨j, op⟩ := x
    obtain ⟨h1, h2⟩ := hI.step (env := env) j op
    obtain ⟨h3, h4⟩ := ih h2
    have e : ∀ i, (Session.stepsOf i ((j, op) :: l)) = if j = i then op :: Session.stepsOf i l else Session.stepsOf i l := fun i => by
      unfold Session.stepsOf
      by_cases h : j = i <;> simp [h]
    have e' : ∀ i, (ProgSt.run env (Session.stepsOf i ((j, op) :: l)) (a i)).2 = (ProgSt.run env (Session.stepsOf i l) (Function.update a j (ProgSt.exec env op (a j)).2 i)).2 := fun i => by
      rw [e]
      by_cases h : j = i
      · subst h; rw [if_pos rfl, Function.update_self]; rfl
      · rw [if_neg h, Function.update_of_ne (Ne.symm h)]
    refine ⟨fun i => ?_, ?_⟩
    · have e1 : (Session.run env ((j, op) :: l) w).1 = (j, (Session.step env j op w).1) :: (Session.run env l (Session.step env j op w).2).1 := rfl
      rw [e1, e]
      by_cases h : j = i
      · subst h
        rw [if_pos rfl]
        have := h3 j
        rw [Function.update_self] at this
        show List.map _ (List.filter _ _) = _ :: _
        rw [List.filter_cons_of_pos (by simp), List.map_cons, h1]
        exact congrArg _ this
      · rw [if_neg h]
        have := h3 i
        rw [Function.update_of_ne (Ne.symm h)] at this
        show List.map _ (List.filter _ _) = _
        rw [List.filter_cons_of_neg (by simpa using h)]
        exact this
    · rw [show (fun i => (ProgSt.run env (Session.stepsOf i ((j, op) :: l)) (a i)).2) = fun i => (ProgSt.run env (Session.stepsOf i l) (Function.update a j (ProgSt.exec env op (a j)).2 i)).2 from
        funext e']
      exact h4

theorem sessionInv_empty : SessionInv (Session.empty : Session K X) fun _ => ProgSt.empty := by
  refine ⟨fun _ _ => rfl, fun _ => id, fun _ => ⟨fun _ _ h => ?_, fun _ h => ?_, fun _ h => ?_, fun _ _ => rfl, rfl, ⟨fun _ h => ?_, fun _ h => ?_⟩⟩, fun _ _ _ _ _ h => ?_⟩
  · exact absurd h (Nat.not_lt_zero _)
  · exact absurd h (Nat.not_lt_zero _)
  · exact absurd h (Nat.not_lt_zero _)
  · exact absurd h List.not_mem_nil
  · exact absurd h List.not_mem_nil
  · exact absurd h (Nat.not_lt_zero _)

end KMethods
