import Verif.Spec.Clone
import Verif.Lemmas.Params
import Verif.Lemmas.Session
/-! # Lemmas: clones (C99) -/
namespace KMethods
open PyM
variable {K X : Type}

/-! ### copying twice -/

theorem lookup_map {φ f : Nat → Nat} {S : Set Nat} (hφ : Set.InjOn φ S) {r : Nat} (hr : r ∈ S) (memo : List (Nat × Nat)) (hm : ∀ p ∈ memo, p.1 ∈ S) :
    (memo.map fun p => (φ p.1, f p.2)).lookup (φ r) = (memo.lookup r).map f := by
  induction memo with
  | nil => rfl
  | cons p memo ih =>
    have ih := ih fun q hq => hm q (.tail _ hq)
    obtain ⟨a, b⟩ := p
    rw [List.map_cons, List.lookup_cons, List.lookup_cons, ih]
    by_cases h : r = a
    · subst h
      simp
    · have h' : φ r ≠ φ a := fun e => h (hφ hr (hm _ (.head _)) e)
      rw [beq_eq_false_iff_ne.2 h, beq_eq_false_iff_ne.2 h']

/-- one step of the copying -/
theorem copyMembers_new {r : Nat} {l : List Nat} {memo : List (Nat × Nat)} {h : Heap K X} {o : Obj K X} (hl : memo.lookup r = none) (ho : h.objs r = some o) {rs : List Nat} {h' : Heap K X}
    (e : copyMembers l ((r, h.next) :: memo) { objs := Function.update h.objs h.next (some o), next := h.next + 1 } = (.ok rs, h')) : copyMembers (r :: l) memo h = (.ok (h.next :: rs), h') := by
  unfold copyMembers
  rw [hl]
  show (getAttr (·.objs r) >>= _ : PyM (Heap K X) (List Nat)) h = _
  rw [bind_ok (getAttr_run_some (fun x : Heap K X => x.objs r) h _ ho)]
  show (copyMembers l ((r, h.next) :: memo) >>= _ : PyM (Heap K X) (List Nat)) { objs := Function.update h.objs h.next (some o), next := h.next + 1 } = _
  rw [bind_ok e]
  rfl

theorem copyMembers_old {r r' : Nat} {l : List Nat} {memo : List (Nat × Nat)} {h : Heap K X} (hl : memo.lookup r = some r') {rs : List Nat} {h' : Heap K X}
    (e : copyMembers l memo h = (.ok rs, h')) : copyMembers (r :: l) memo h = (.ok (r' :: rs), h') := by
  unfold copyMembers
  rw [hl]
  show (copyMembers l memo >>= _ : PyM (Heap K X) (List Nat)) h = _
  rw [bind_ok e]
  rfl

/-- nothing is stored beyond the end -/
def Heap.Tidy (h : Heap K X) : Prop := ∀ r, h.next ≤ r → h.objs r = none

theorem Heap.Tidy.alloc {h : Heap K X} (hh : h.Tidy) (o : Obj K X) : Heap.Tidy (⟨Function.update h.objs h.next (some o), h.next + 1⟩ : Heap K X) := fun r hr => by
  have hr : h.next + 1 ≤ r := hr
  show Function.update h.objs h.next (some o) r = none
  rw [Function.update_of_ne (by omega), hh r (by omega)]

/-- two heaps agree from `b₁` and `b₂` on -/
structure SameTail (b₁ b₂ k : Nat) (h₁ h₂ : Heap K X) : Prop where
  next₁ : h₁.next = b₁ + k
  next₂ : h₂.next = b₂ + k
  objs : ∀ i, h₂.objs (b₂ + i) = h₁.objs (b₁ + i)
  tidy₁ : h₁.Tidy
  tidy₂ : h₂.Tidy

theorem SameTail.alloc {b₁ b₂ k : Nat} {h₁ h₂ : Heap K X} (h : SameTail b₁ b₂ k h₁ h₂) (o : Obj K X) :
    SameTail b₁ b₂ (k + 1) ⟨Function.update h₁.objs h₁.next (some o), h₁.next + 1⟩ ⟨Function.update h₂.objs h₂.next (some o), h₂.next + 1⟩ := by
  refine ⟨by show h₁.next + 1 = _; rw [h.next₁]; rfl, by show h₂.next + 1 = _; rw [h.next₂]; rfl, fun i => ?_, h.tidy₁.alloc o, h.tidy₂.alloc o⟩
  show Function.update h₂.objs h₂.next (some o) (b₂ + i) = Function.update h₁.objs h₁.next (some o) (b₁ + i)
  rw [h.next₁, h.next₂]
  by_cases e : i = k
  · subst e
    rw [Function.update_self, Function.update_self]
  · rw [Function.update_of_ne (by omega), Function.update_of_ne (by omega), h.objs]

/-- equal objects are copied in the same way -/
theorem copyMembers_pair {φ : Nat → Nat} {S : Set Nat} (hφ : Set.InjOn φ S) {b₁ b₂ : Nat} (l : List Nat) (memo : List (Nat × Nat)) (h₁ h₂ : Heap K X) {k : Nat}
    (hl : ∀ r ∈ l, r ∈ S ∧ r < b₁ ∧ φ r < b₂ ∧ (h₁.objs r).isSome ∧ h₂.objs (φ r) = h₁.objs r) (hm : ∀ p ∈ memo, p.1 ∈ S ∧ p.2 < k) (ht : SameTail b₁ b₂ k h₁ h₂) :
    ∃ (rs : List Nat) (k' : Nat) (h₁' h₂' : Heap K X), copyMembers l (memo.map fun p => (p.1, b₁ + p.2)) h₁ = (.ok (rs.map (b₁ + ·)), h₁') ∧
      copyMembers (l.map φ) (memo.map fun p => (φ p.1, b₂ + p.2)) h₂ = (.ok (rs.map (b₂ + ·)), h₂') ∧ k ≤ k' ∧ SameTail b₁ b₂ k' h₁' h₂' ∧ ∀ r ∈ rs, r < k' := by
  induction l generalizing memo h₁ h₂ k with
  | nil => exact ⟨[], k, h₁, h₂, rfl, rfl, le_rfl, ht, by simp⟩
  | cons r l ih =>
    obtain ⟨hrS, hr1, hr2, hrs, hre⟩ := hl r (.head _)
    have e1 : (memo.map fun p => (p.1, b₁ + p.2)).lookup r = (memo.lookup r).map (b₁ + ·) := lookup_map (φ := id) (f := (b₁ + ·)) (Set.injOn_id S) hrS memo fun p hp => (hm p hp).1
    have e2 : (memo.map fun p => (φ p.1, b₂ + p.2)).lookup (φ r) = (memo.lookup r).map (b₂ + ·) := lookup_map (f := (b₂ + ·)) hφ hrS memo fun p hp => (hm p hp).1
    rcases hlook : memo.lookup r with _ | r'
    · rw [hlook] at e1 e2
      obtain ⟨o, ho⟩ := Option.isSome_iff_exists.1 hrs
      obtain ⟨rs, k', h₁', h₂', c1, c2, hk, ht', hrs'⟩ := ih ((r, k) :: memo) ⟨Function.update h₁.objs h₁.next (some o), h₁.next + 1⟩ ⟨Function.update h₂.objs h₂.next (some o), h₂.next + 1⟩
        (k := k + 1) (fun q hq => by
          obtain ⟨a1, a2, a3, a4, a5⟩ := hl q (.tail _ hq)
          have n1 := ht.next₁
          have n2 := ht.next₂
          refine ⟨a1, a2, a3, ?_, ?_⟩
          · show (Function.update h₁.objs h₁.next (some o) q).isSome
            rw [Function.update_of_ne (by omega)]
            exact a4
          · show Function.update h₂.objs h₂.next (some o) (φ q) = Function.update h₁.objs h₁.next (some o) q
            rw [Function.update_of_ne (by omega), Function.update_of_ne (by omega), a5])
        (fun p hp => by
          rcases List.mem_cons.1 hp with rfl | hp
          · exact ⟨hrS, Nat.lt_succ_self k⟩
          · exact ⟨(hm p hp).1, Nat.lt_succ_of_lt (hm p hp).2⟩) (ht.alloc o)
      refine ⟨k :: rs, k', h₁', h₂', ?_, ?_, (Nat.le_succ k).trans hk, ht', fun q hq => ?_⟩
      · rw [List.map_cons, ← ht.next₁]
        exact copyMembers_new e1 ho (by rw [← c1, ht.next₁]; rfl)
      · rw [List.map_cons, List.map_cons, ← ht.next₂]
        exact copyMembers_new e2 (hre.trans ho) (by rw [← c2, ht.next₂]; rfl)
      · rcases List.mem_cons.1 hq with rfl | hq
        · exact hk
        · exact hrs' q hq
    · rw [hlook] at e1 e2
      obtain ⟨rs, k', h₁', h₂', c1, c2, hk, ht', hrs'⟩ := ih memo h₁ h₂ (fun q hq => hl q (.tail _ hq)) hm ht
      refine ⟨r' :: rs, k', h₁', h₂', copyMembers_old e1 c1, ?_, hk, ht', fun q hq => ?_⟩
      · rw [List.map_cons]
        exact copyMembers_old e2 c2
      · rcases List.mem_cons.1 hq with rfl | hq
        · exact (hm _ (mem_of_lookup hlook)).2.trans_le hk
        · exact hrs' q hq

/-- each object is copied once -/
theorem copyMembers_map {b : Nat} (l : List Nat) (memo : List (Nat × Nat)) (h : Heap K X) (φ₀ : Nat → Nat) (hl : ∀ r ∈ l, r < b ∧ (h.objs r).isSome) (hb : b ≤ h.next) (hh : h.Tidy)
    (hm : ∀ r, memo.lookup r = none ∨ memo.lookup r = some (φ₀ r) ∧ r < b ∧ b ≤ φ₀ r ∧ φ₀ r < h.next ∧ h.objs (φ₀ r) = h.objs r)
    (hi : Set.InjOn φ₀ {r | memo.lookup r ≠ none}) :
    ∃ (φ : Nat → Nat) (h' : Heap K X), copyMembers l memo h = (.ok (l.map φ), h') ∧ (∀ r, memo.lookup r ≠ none → φ r = φ₀ r) ∧ Set.InjOn φ {r | r ∈ l ∨ memo.lookup r ≠ none} ∧
      (∀ r ∈ l, b ≤ φ r ∧ φ r < h'.next ∧ h'.objs (φ r) = h.objs r) ∧ (∀ r < h.next, h'.objs r = h.objs r) ∧ h.next ≤ h'.next ∧ h'.Tidy := by
  induction l generalizing memo h φ₀ with
  | nil => exact ⟨φ₀, h, rfl, fun _ _ => rfl, fun r hr q hq e => hi (hr.resolve_left (by simp)) (hq.resolve_left (by simp)) e, by simp, fun _ _ => rfl, le_rfl, hh⟩
  | cons r l ih =>
    obtain ⟨hr1, hrs⟩ := hl r (.head _)
    obtain ⟨o, ho⟩ := Option.isSome_iff_exists.1 hrs
    rcases hlook : memo.lookup r with _ | r'
    · have hcons : ∀ q, ((r, h.next) :: memo).lookup q = if q = r then some h.next else memo.lookup q := fun q => by
        rw [List.lookup_cons]
        by_cases e : q = r
        · subst e; simp
        · rw [beq_eq_false_iff_ne.2 e, if_neg e]
      have hupd : ∀ q, q < h.next → Function.update h.objs h.next (some o) q = h.objs q := fun q hq => Function.update_of_ne (by omega) _ _
      obtain ⟨φ, h', e, f1, f2, f3, f4, f5, f6⟩ := ih ((r, h.next) :: memo) ⟨Function.update h.objs h.next (some o), h.next + 1⟩ (Function.update φ₀ r h.next)
        (fun q hq => ⟨(hl q (.tail _ hq)).1, by
          show (Function.update h.objs h.next (some o) q).isSome
          rw [hupd q ((hl q (.tail _ hq)).1.trans_le hb)]
          exact (hl q (.tail _ hq)).2⟩) (hb.trans (Nat.le_succ _)) (hh.alloc o)
        (fun q => by
          rw [hcons]
          by_cases hq : q = r
          · subst hq
            right
            rw [if_pos rfl, Function.update_self]
            refine ⟨rfl, hr1, hb, Nat.lt_succ_self _, ?_⟩
            show Function.update h.objs h.next (some o) h.next = Function.update h.objs h.next (some o) q
            rw [Function.update_self, hupd q (hr1.trans_le hb), ho]
          · rw [if_neg hq, Function.update_of_ne hq]
            rcases hm q with e | ⟨e, a0, a1, a2, a3⟩
            · exact .inl e
            · refine .inr ⟨e, a0, a1, Nat.lt_succ_of_lt a2, ?_⟩
              show Function.update h.objs h.next (some o) (φ₀ q) = Function.update h.objs h.next (some o) q
              rw [hupd _ a2, a3, hupd _ (a0.trans_le hb)])
        (fun q hq p hp e => by
          simp only [Set.mem_ofPred_eq, hcons] at hq hp
          by_cases hqr : q = r <;> by_cases hpr : p = r
          · rw [hqr, hpr]
          · rw [if_neg hpr] at hp
            have := ((hm p).resolve_left hp).2.2.2.1
            rw [hqr, Function.update_self, Function.update_of_ne hpr] at e
            omega
          · rw [if_neg hqr] at hq
            have := ((hm q).resolve_left hq).2.2.2.1
            rw [hpr, Function.update_self, Function.update_of_ne hqr] at e
            omega
          · rw [if_neg hqr] at hq
            rw [if_neg hpr] at hp
            rw [Function.update_of_ne hqr, Function.update_of_ne hpr] at e
            exact hi hq hp e)
      have hφr : φ r = h.next := by
        rw [f1 r (by rw [hcons, if_pos rfl]; exact Option.some_ne_none _), Function.update_self]
      have hφm : ∀ q, memo.lookup q ≠ none → φ q = φ₀ q := fun q hq => by
        have hqr : q ≠ r := fun e => hq (e ▸ hlook)
        rw [f1 q (by rw [hcons, if_neg hqr]; exact hq), Function.update_of_ne hqr]
      refine ⟨φ, h', ?_, hφm, fun q hq p hp e => f2 ?_ ?_ e, fun q hq => ?_, fun q hq => ?_, (Nat.le_succ _).trans f5, f6⟩
      · rw [List.map_cons, hφr]
        exact copyMembers_new hlook ho e
      · rcases hq with hq | hq
        · rcases List.mem_cons.1 hq with rfl | hq
          · exact .inr (by rw [hcons, if_pos rfl]; exact Option.some_ne_none _)
          · exact .inl hq
        · exact .inr (by rw [hcons, if_neg (fun e : q = r => hq (e ▸ hlook))]; exact hq)
      · rcases hp with hp | hp
        · rcases List.mem_cons.1 hp with rfl | hp
          · exact .inr (by rw [hcons, if_pos rfl]; exact Option.some_ne_none _)
          · exact .inl hp
        · exact .inr (by rw [hcons, if_neg (fun e : p = r => hp (e ▸ hlook))]; exact hp)
      · rcases List.mem_cons.1 hq with rfl | hq
        · rw [hφr]
          refine ⟨hb, f5, (f4 h.next (Nat.lt_succ_self _)).trans ?_⟩
          show Function.update h.objs h.next (some o) h.next = _
          rw [Function.update_self, ho]
        · obtain ⟨a1, a2, a3⟩ := f3 q hq
          exact ⟨a1, a2, a3.trans (hupd q ((hl q (.tail _ hq)).1.trans_le hb))⟩
      · exact (f4 q (Nat.lt_succ_of_lt hq)).trans (hupd q hq)
    · obtain ⟨φ, h', e, f1, f2, f3, f4, f5, f6⟩ := ih memo h φ₀ (fun q hq => hl q (.tail _ hq)) hb hh hm hi
      obtain ⟨e0, a0, a1, a2, a3⟩ := (hm r).resolve_left (by rw [hlook]; exact Option.some_ne_none _)
      have hφr : φ r = φ₀ r := f1 r (by rw [hlook]; exact Option.some_ne_none _)
      refine ⟨φ, h', ?_, f1, fun q hq p hp e => f2 ?_ ?_ e, fun q hq => ?_, f4, f5, f6⟩
      · rw [List.map_cons, hφr]
        exact copyMembers_old e0 e
      · rcases hq with hq | hq
        · rcases List.mem_cons.1 hq with rfl | hq
          · exact .inr (by rw [hlook]; exact Option.some_ne_none _)
          · exact .inl hq
        · exact .inr hq
      · rcases hp with hp | hp
        · rcases List.mem_cons.1 hp with rfl | hp
          · exact .inr (by rw [hlook]; exact Option.some_ne_none _)
          · exact .inl hp
        · exact .inr hp
      · rcases List.mem_cons.1 hq with rfl | hq
        · rw [hφr]
          exact ⟨a1, a2.trans_le f5, (f4 _ a2).trans a3⟩
        · exact f3 q hq

/-! ### machines that differ in the places of the objects -/

theorem hsim_tail {h : Heap K X} (hh : h.Tidy) {b k : Nat} (hb : h.next = b + k) : HSim (b + ·) h k ⟨fun i => h.objs (b + i), k⟩ h where
  inj := fun _ _ e => Nat.add_left_cancel e
  objs := fun _ => rfl
  num := rfl
  next := fun i => by show b + (k + i) = h.next + i; omega
  fresh := fun r hr => hh _ (by omega)
  fresh' := hh
  frame := fun _ _ => rfl

variable {M W P H : Type} {env : Env K X F}

/-- the same machine up to the places of the objects -/
structure OptSim (ρ : Nat → Nat) (b : Heap K X) (N : Nat) (s s' : OptMachine K X H M) : Prop where
  heap : HSim ρ b N s.heap s'.heap
  est : s'.est = s.est
  method : s'.method = s.method
  hyper : s'.hyper = s.hyper
  trainX : s'.trainX = s.trainX
  model : s'.model = s.model
  bucket : s'.bucket = s.bucket.map (KSet.rename ρ)
  below : ∀ t, s.bucket = some t → t.Below N
  opt : s'.optKernel = s.optKernel.map ρ

variable {ρ : Nat → Nat} {b : Heap K X} {N : Nat}

theorem OptSim.onHeap {α β : Type} {Q : α → β → Prop} {m : PyM (Heap K X) α} {m' : PyM (Heap K X) β} (h : Resp (HSim ρ b N) Q m m') :
    Resp (OptSim (H := H) (M := M) ρ b N) Q (OptMachine.onHeap m) (OptMachine.onHeap m') := fun _ _ hs =>
  ⟨⟨(h _ _ hs.heap).1, hs.est, hs.method, hs.hyper, hs.trainX, hs.model, hs.bucket, hs.below, hs.opt⟩, (h _ _ hs.heap).2⟩

theorem OptSim.onBucket {α β : Type} {Q : α → β → Prop} {m : PyM (SetSt K X) α} {m' : PyM (SetSt K X) β} (h : Resp (SetSim ρ b N) Q m m') :
    Resp (OptSim (H := H) (M := M) ρ b N) Q (OptMachine.onBucket m) (OptMachine.onBucket m') := by
  intro s s' hs
  unfold OptMachine.onBucket
  rw [hs.bucket]
  rcases e : s.bucket with _ | t
  · exact ⟨hs, rfl⟩
  · obtain ⟨h1, h2⟩ := h ⟨s.heap, t⟩ ⟨s'.heap, t.rename ρ⟩ ⟨hs.heap, rfl, hs.below t e⟩
    refine ⟨⟨h1.heap, hs.est, hs.method, hs.hyper, hs.trainX, hs.model, congrArg some h1.set, fun u hu => ?_, hs.opt⟩, h2⟩
    cases hu
    exact h1.below

theorem OptSim.fitOn (cv : List F → CVScore) (L : SvmLearner H M W P) (A : Arr2 X) (y : List F) (w : W) :
    Resp (OptSim ρ b N) (fun _ _ => True) (OptMachine.fitOn env cv L A y w : PyM (OptMachine K X H M) Unit) (OptMachine.fitOn env cv L A y w) := by
  refine Resp.bind (Q := fun r r' => r' = ρ r ∧ r < N) ?_ fun r r' hr => ?_
  · refine Resp.get.bind fun s s' hs => ?_
    rw [hs.method, hs.est]
    exact OptSim.onBucket (SetSim.findOptimal _ _ _ _ _ _)
  · obtain ⟨rfl, hr⟩ := hr
    refine Resp.bind (Q := fun _ _ => True) (Resp.modify fun s s' hs => ⟨hs.heap, hs.est, hs.method, hs.hyper, hs.trainX, hs.model, hs.bucket, hs.below, rfl⟩) fun _ _ _ => ?_
    refine (OptSim.onHeap (HSim.full r)).bind fun T T' hT => ?_
    subst hT
    refine Resp.get.bind fun s s' hs => ?_
    rw [hs.est, hs.hyper]
    refine (Resp.lift_eq _).bind fun m m' hm => ?_
    subst hm
    exact Resp.modify fun s s' hs => ⟨hs.heap, hs.est, hs.method, hs.hyper, hs.trainX, rfl, hs.bucket, hs.below, hs.opt⟩

theorem OptSim.predict (L : SvmLearner H M W P) (checked : Except PyErr (Arr2 X)) :
    Resp (OptSim ρ b N) (fun p p' => p' = p) (OptMachine.predict env L checked : PyM (OptMachine K X H M) P) (OptMachine.predict env L checked) := by
  refine Resp.get.bind fun s s' hs => ?_
  rw [show s'.optKernel.isNone = s.optKernel.isNone by rw [hs.opt]; exact Option.isNone_map ..]
  refine (Resp.raiseIf _ _).bind fun _ _ _ => ?_
  refine Resp.bind (Q := fun r r' => r' = ρ r) (fun u u' hu => ?_) fun r r' hr => ?_
  · rw [getAttr_run, getAttr_run, hu.opt]
    rcases u.optKernel with _ | r
    · exact ⟨hu, rfl⟩
    · exact ⟨hu, rfl⟩
  subst hr
  refine (Resp.lift_eq _).bind fun B B' hB => ?_
  subst hB
  refine (Resp.getAttr fun _ _ hu => hu.trainX).bind fun A A' hA => ?_
  subst hA
  refine (OptSim.onHeap (HSim.call r _)).bind fun _ _ _ => ?_
  refine (OptSim.onHeap (HSim.full r)).bind fun T T' hT => ?_
  subst hT
  refine (Resp.getAttr fun _ _ hu => hu.model).bind fun m m' hm => ?_
  subst hm
  refine (Resp.lift_eq _).bind fun p p' hp => ?_
  subst hp
  rw [hs.est]
  exact Resp.lift_eq _

theorem ExRel.unique {α β γ : Type} {Q : α → β → Prop} {Q' : α → γ → Prop} {R : β → γ → Prop} {x : Except PyErr α} {y : Except PyErr β} {z : Except PyErr γ} (h : ExRel Q x y) (h' : ExRel Q' x z)
    (hR : ∀ a b c, Q a b → Q' a c → R b c) : ExRel R y z := by
  rcases x with e | a <;> rcases y with e' | b <;> rcases z with e'' | c
  · exact Eq.trans (show e'' = e from h') (show e' = e from h).symm
  all_goals first | exact h.elim | exact h'.elim | exact hR a b c h h'

/-- both are the same up to the places of the objects -/
def Twins (s s' : OptMachine K X H M) : Prop := ∃ ρ ρ' b b' N s₀, OptSim ρ b N s₀ s ∧ OptSim ρ' b' N s₀ s'

theorem Twins.predict {s s' : OptMachine K X H M} (h : Twins s s') (L : SvmLearner H M W P) (checked : Except PyErr (Arr2 X)) :
    (OptMachine.predict env L checked s').1 = (OptMachine.predict env L checked s).1 ∧ Twins (OptMachine.predict env L checked s).2 (OptMachine.predict env L checked s').2 := by
  obtain ⟨ρ, ρ', b, b', N, s₀, h1, h2⟩ := h
  obtain ⟨a1, a2⟩ := OptSim.predict (env := env) L checked s₀ s h1
  obtain ⟨c1, c2⟩ := OptSim.predict (env := env) L checked s₀ s' h2
  refine ⟨?_, ρ, ρ', b, b', N, _, a1, c1⟩
  have := a2.unique c2 (R := fun p p' => p' = p) fun _ _ _ e e' => e'.trans e.symm
  revert this
  rcases (OptMachine.predict env L checked s).1 with e | p <;> rcases (OptMachine.predict env L checked s').1 with e' | p' <;> intro h
  · exact congrArg _ (show e' = e from h)
  · exact h.elim
  · exact h.elim
  · exact congrArg _ h

theorem Twins.predictions {s s' : OptMachine K X H M} (h : Twins s s') (L : SvmLearner H M W P) (xs : List (Except PyErr (Arr2 X))) :
    OptMachine.predictions env L xs s' = OptMachine.predictions env L xs s := by
  induction xs generalizing s s' with
  | nil => rfl
  | cons x xs ih =>
    obtain ⟨h1, h2⟩ := h.predict (env := env) L x
    show _ :: _ = _ :: _
    rw [h1, ih h2]

theorem Twins.fitOn {s s' : OptMachine K X H M} (h : Twins s s') (cv : List F → CVScore) (L : SvmLearner H M W P) (A : Arr2 X) (y : List F) (w : W) :
    (OptMachine.fitOn env cv L A y w s').1 = (OptMachine.fitOn env cv L A y w s).1 ∧ Twins (OptMachine.fitOn env cv L A y w s).2 (OptMachine.fitOn env cv L A y w s').2 := by
  obtain ⟨ρ, ρ', b, b', N, s₀, h1, h2⟩ := h
  obtain ⟨a1, a2⟩ := OptSim.fitOn (env := env) cv L A y w s₀ s h1
  obtain ⟨c1, c2⟩ := OptSim.fitOn (env := env) cv L A y w s₀ s' h2
  refine ⟨?_, ρ, ρ', b, b', N, _, a1, c1⟩
  have := a2.unique c2 (R := fun p p' => p' = p) fun _ _ _ _ _ => rfl
  revert this
  rcases (OptMachine.fitOn env cv L A y w s).1 with e | p <;> rcases (OptMachine.fitOn env cv L A y w s').1 with e' | p' <;> intro h
  · exact congrArg _ (show e' = e from h)
  · exact h.elim
  · exact h.elim
  · rfl

/-- more objects, in the same places -/
theorem OptSim.extend {s : OptMachine K X H M} {h' : Heap K X} (h1 : s.heap.Tidy) (h2 : h'.Tidy) (hl : s.heap.next ≤ h'.next) (ho : ∀ r < s.heap.next, h'.objs r = s.heap.objs r)
    (hk : ∀ r, s.optKernel = some r → r < s.heap.next) (hb : ∀ t, s.bucket = some t → ∀ r ∈ t.members, r < s.heap.next) : Twins s { s with heap := h' } := by
  have key : ∀ (h' : Heap K X), h'.Tidy → s.heap.next ≤ h'.next → (∀ r < s.heap.next, h'.objs r = s.heap.objs r) →
      OptSim (fun r => if r < s.heap.next then r else h'.next + (r - s.heap.next)) h' s.heap.next s { s with heap := h' } := by
    intro h' h2 hl ho
    refine ⟨⟨fun r q e => ?_, fun r => ?_, rfl, fun k => ?_, h1, h2, fun _ _ => rfl⟩, rfl, rfl, rfl, rfl, rfl, ?_, hb, ?_⟩
    · have e : (if r < s.heap.next then r else h'.next + (r - s.heap.next)) = if q < s.heap.next then q else h'.next + (q - s.heap.next) := e
      split_ifs at e <;> omega
    · show h'.objs (if r < s.heap.next then r else h'.next + (r - s.heap.next)) = _
      split_ifs with hr
      · exact ho r hr
      · rw [h2 _ (Nat.le_add_right _ _), h1 _ (not_lt.1 hr)]
    · dsimp only
      rw [if_neg (by omega)]
      omega
    · rcases e : s.bucket with _ | t
      · rfl
      · show some t = some _
        congr 1
        have : t.members.map (fun r => if r < s.heap.next then r else h'.next + (r - s.heap.next)) = t.members :=
          (List.map_congr_left (g := id) fun r hr => if_pos (hb t e r hr)).trans (List.map_id _)
        unfold KSet.rename
        rw [this]
    · rcases e : s.optKernel with _ | r
      · rfl
      · show some r = some (if r < s.heap.next then r else h'.next + (r - s.heap.next))
        rw [if_pos (hk r e)]
  exact ⟨_, _, _, _, _, s, key s.heap h1 le_rfl fun _ _ => rfl, key h' h2 hl ho⟩

namespace OptMachine

/-- the machine before its first fit -/
def reset (s : OptMachine K X H M) : OptMachine K X H M := { s with bucket := none, trainX := none, trainY := none, optKernel := none, model := none }

theorem fit_twins {s c : OptMachine K X H M} (he : c.est = s.est) (hm : c.method = s.method) (hh : c.hyper = s.hyper) {t : KSet} {φ : Nat → Nat} (hs : s.kBucket = .bucket t)
    (hc : c.kBucket = .bucket (t.rename φ)) (hφ : Set.InjOn φ {r | r ∈ t.members}) (h1 : s.heap.Tidy) (h2 : c.heap.Tidy)
    (hr : ∀ r ∈ t.members, r < s.heap.next ∧ φ r < c.heap.next ∧ (s.heap.objs r).isSome ∧ c.heap.objs (φ r) = s.heap.objs r)
    (mkB : String → PyM (Heap K X) Bucket) (cv : List F → CVScore) (L : SvmLearner H M W P) (checked : Except PyErr (Arr2 X × List F)) (w : W) :
    (fit env mkB cv L checked w c.reset).1 = (fit env mkB cv L checked w s.reset).1 ∧
      ((fit env mkB cv L checked w s.reset).1 = .ok () → Twins (fit env mkB cv L checked w s.reset).2 (fit env mkB cv L checked w c.reset).2) := by
  obtain ⟨rs, k, h₁, h₂, e1, e2, -, ht, hk⟩ := copyMembers_pair hφ t.members [] s.heap c.heap (k := 0) (fun r hm => ⟨hm, hr r hm⟩) (by simp)
    ⟨rfl, rfl, fun i => by rw [h1 _ (Nat.le_add_right _ _), h2 _ (Nat.le_add_right _ _)], h1, h2⟩
  rw [List.map_nil] at e1 e2
  have c1 : copyBucket t s.heap = (.ok { t with members := rs.map (s.heap.next + ·) }, h₁) := by
    show (copyMembers t.members [] >>= _ : PyM (Heap K X) KSet) s.heap = _
    rw [bind_ok e1]
    rfl
  have c2 : copyBucket (t.rename φ) c.heap = (.ok { t with members := rs.map (c.heap.next + ·) }, h₂) := by
    show (copyMembers (t.members.map φ) [] >>= _ : PyM (Heap K X) KSet) c.heap = _
    rw [bind_ok e2]
    rfl
  rw [fit_eq, fit_eq, choose_bucket mkB s.reset (t := t) hs, choose_bucket mkB c.reset (t := t.rename φ) hc, show s.reset.heap = s.heap from rfl, show c.reset.heap = c.heap from rfl, c1, c2]
  rcases checked with e | ⟨A, y⟩
  · exact ⟨rfl, fun h => by cases h⟩
  have tw : Twins { s.reset with heap := h₁, bucket := some { t with members := rs.map (s.heap.next + ·) }, trainX := some A, trainY := some y }
      { c.reset with heap := h₂, bucket := some { t with members := rs.map (c.heap.next + ·) }, trainX := some A, trainY := some y } := by
    have hq : (⟨fun i => h₂.objs (c.heap.next + i), k⟩ : Heap K X) = ⟨fun i => h₁.objs (s.heap.next + i), k⟩ := by
      congr 1
      exact funext ht.objs
    refine ⟨(s.heap.next + ·), (c.heap.next + ·), h₁, h₂, k, { s.reset with heap := ⟨fun i => h₁.objs (s.heap.next + i), k⟩, bucket := some { t with members := rs }, trainX := some A, trainY := some y },
      ⟨hsim_tail ht.tidy₁ ht.next₁, rfl, rfl, rfl, rfl, rfl, rfl, fun u hu => ?_, rfl⟩, ⟨?_, he, hm, hh, rfl, rfl, rfl, fun u hu => ?_, rfl⟩⟩
    · cases hu
      exact hk
    · show HSim _ h₂ k ⟨fun i => h₁.objs (s.heap.next + i), k⟩ h₂
      rw [← hq]
      exact hsim_tail ht.tidy₂ ht.next₂
    · cases hu
      exact hk
  obtain ⟨f1, f2⟩ := tw.fitOn (env := env) cv L A y w
  exact ⟨f1, fun _ => f2⟩

theorem fit_twins_any {s c : OptMachine K X H M} (he : c.est = s.est) (hm : c.method = s.method) (hh : c.hyper = s.hyper) {t : KSet} {φ : Nat → Nat} (hs : s.kBucket = .bucket t)
    (hc : c.kBucket = .bucket (t.rename φ)) (hφ : Set.InjOn φ {r | r ∈ t.members}) (h1 : s.heap.Tidy) (h2 : c.heap.Tidy)
    (hr : ∀ r ∈ t.members, r < s.heap.next ∧ φ r < c.heap.next ∧ (s.heap.objs r).isSome ∧ c.heap.objs (φ r) = s.heap.objs r)
    (mkB : String → PyM (Heap K X) Bucket) (cv : List F → CVScore) (L : SvmLearner H M W P) (checked : Except PyErr (Arr2 X × List F)) (w : W) :
    (fit env mkB cv L checked w c).1 = (fit env mkB cv L checked w s).1 ∧
      ((fit env mkB cv L checked w s).1 = .ok () → Twins (fit env mkB cv L checked w s).2 (fit env mkB cv L checked w c).2) := by
  obtain ⟨a1, a2⟩ := fit_twins (env := env) he hm hh hs hc hφ h1 h2 hr mkB cv L checked w
  obtain ⟨b1, -, b3⟩ := fit_same (env := env) mkB cv L checked w s none none none none none
  obtain ⟨c1, -, c3⟩ := fit_same (env := env) mkB cv L checked w c none none none none none
  have e : (fit env mkB cv L checked w c).1 = (fit env mkB cv L checked w s).1 := c1.trans (a1.trans b1.symm)
  refine ⟨e, fun h => ?_⟩
  rw [b3 h, c3 (e.trans h)]
  exact a2 (b1.symm.trans h)

end OptMachine

/-! ### machines with a given kernel -/
namespace MachineParams

theorem deepcopy_run {V : Type} (at_ : V → Bool) (x : PyObj V) (c : Nat) : ∃ y c', deepcopy at_ x c = (.ok y, c') ∧ c ≤ c' ∧ y.val = x.val ∧ if at_ x.val then y = x else c ≤ y.id ∧ y.id < c' := by
  unfold deepcopy
  split_ifs with h
  · exact ⟨x, c, rfl, le_rfl, rfl, rfl⟩
  · exact ⟨⟨c, x.val⟩, c + 1, rfl, Nat.le_succ c, rfl, le_rfl, Nat.lt_succ_self c⟩

theorem copied_mono {V : Type} {b : Bool} {x y : PyObj V} {c c' d d' : Nat} (h : if b then y = x else c ≤ y.id ∧ y.id < c') (h1 : d ≤ c) (h2 : c' ≤ d') : if b then y = x else d ≤ y.id ∧ y.id < d' := by
  cases b
  · exact ⟨h1.trans h.1, lt_of_lt_of_le h.2 h2⟩
  · exact h

theorem clone_ok (a : Atomic K) (dflt : K) (p : MachineParams K) (hp : p.kFunc.val ≠ .none) (c : Nat) :
    ∃ q c', MachineParams.clone a dflt p c = (.ok q, c') ∧ q.kFunc.val = p.kFunc.val ∧ q.learnerId.val = p.learnerId.val ∧ q.normalized.val = p.normalized.val ∧
      (if a.kFunc p.kFunc.val then q.kFunc = p.kFunc else c ≤ q.kFunc.id ∧ q.kFunc.id < c') ∧
      (if a.learnerId p.learnerId.val then q.learnerId = p.learnerId else c ≤ q.learnerId.id ∧ q.learnerId.id < c') ∧
      (if a.normalized p.normalized.val then q.normalized = p.normalized else c ≤ q.normalized.id ∧ q.normalized.id < c') := by
  obtain ⟨k, c1, e1, l1, v1, i1⟩ := deepcopy_run a.kFunc p.kFunc c
  obtain ⟨n, c2, e2, l2, v2, i2⟩ := deepcopy_run a.normalized p.normalized c1
  obtain ⟨l, c3, e3, l3, v3, i3⟩ := deepcopy_run a.learnerId p.learnerId c2
  have e4 : init dflt k l n c3 = (.ok ⟨k, l, n⟩, c3) := by
    obtain ⟨i, v⟩ := k
    cases v with
    | none => exact absurd v1.symm hp
    | kernel k => rfl
    | other => rfl
  refine ⟨⟨k, l, n⟩, c3, ?_, v1, v3, v2, copied_mono i1 le_rfl (l2.trans l3), copied_mono i3 (l1.trans l2) le_rfl, copied_mono i2 l1 l3⟩
  unfold MachineParams.clone
  rw [bind_ok e1, bind_ok e2, bind_ok e3, bind_ok e4]
  dsimp only
  rw [decide_eq_false (by simp)]
  rfl

theorem clone_none (a : Atomic K) (dflt : K) (p : MachineParams K) {c : Nat} (hid : p.kFunc.id < c) (hp : p.kFunc.val = .none) : (MachineParams.clone a dflt p c).1 = .error .runtimeError := by
  have e1 : deepcopy a.kFunc p.kFunc c = (.ok p.kFunc, c) := by
    unfold deepcopy
    rw [hp, if_pos a.none]
    rfl
  obtain ⟨n, c2, e2, l2, v2, i2⟩ := deepcopy_run a.normalized p.normalized c
  obtain ⟨l, c3, e3, l3, v3, i3⟩ := deepcopy_run a.learnerId p.learnerId c2
  have e4 : init dflt p.kFunc l n c3 = (.ok ⟨⟨c3, .kernel dflt⟩, l, n⟩, c3 + 1) := by
    unfold init
    rw [hp]
    rfl
  unfold MachineParams.clone
  rw [bind_ok e1, bind_ok e2, bind_ok e3, bind_ok e4]
  dsimp only
  rw [decide_eq_true (.inl (by omega))]
  rfl

end MachineParams

namespace Machine
variable {Y : Type}

theorem fit_same (hst : KMState.Steady env) (L : Learner M Y W P) (checked : Except PyErr (Arr2 X × Y)) (w : W) {s c : Machine K X M Y} (h1 : c.classifier = s.classifier) (h2 : c.kFunc = s.kFunc)
    (h3 : c.learnerId = s.learnerId) (h4 : c.normalized = s.normalized) :
    (fit env L checked w c).1 = (fit env L checked w s).1 ∧
      ((fit env L checked w s).1 = .ok () → ∃ t, (fit env L checked w s).2.km.isSome ∧ (fit env L checked w c).2 = { (fit env L checked w s).2 with km := some t }) := by
  rcases checked with e | ⟨A, y⟩
  · exact ⟨rfl, fun h => by cases h⟩
  rcases hk : s.kFunc with _ | k
  · rw [fit_no_kernel L s A y w (.inl hk), fit_no_kernel L c A y w (.inl (h2.trans hk))]
    exact ⟨rfl, fun h => by cases h⟩
  rcases hn : s.normalized with _ | norm
  · rw [fit_no_kernel L s A y w (.inr hn), fit_no_kernel L c A y w (.inr (h4.trans hn))]
    exact ⟨rfl, fun h => by cases h⟩
  rcases he : getEstimator s.learnerId with e | e
  · obtain ⟨t, ht⟩ := fit_learner_run (env := env) L s (A := A) y w hk hn he
    obtain ⟨t', ht'⟩ := fit_learner_run (env := env) L c (A := A) y w (h2.trans hk) (h4.trans hn) (by rw [h3]; exact he)
    rw [ht, ht']
    exact ⟨rfl, fun h => by cases h⟩
  obtain ⟨t, ⟨-, rfl⟩, ht⟩ := fit_run_from (env := env) L s (A := A) y w hk hn he
  obtain ⟨t', ⟨-, rfl⟩, ht'⟩ := fit_run_from (env := env) L c (A := A) y w (h2.trans hk) (h4.trans hn) (by rw [h3]; exact he)
  obtain ⟨c1, e1⟩ := KMState.cf_full (C := false) hst (KMState.attachedState k norm ⟨A, none⟩ ((s.km.map (·.clock)).getD 0) none) ((c.km.map (·.clock)).getD 0) none
  have e2 : (KMState.full env (KMState.attachedState k norm ⟨A, none⟩ ((c.km.map (·.clock)).getD 0) none)).1 =
      (KMState.full env (KMState.attachedState k norm ⟨A, none⟩ ((s.km.map (·.clock)).getD 0) none)).1 := by
    show (KMState.full env (KMState.frame false ((c.km.map (·.clock)).getD 0) none (KMState.attachedState k norm ⟨A, none⟩ ((s.km.map (·.clock)).getD 0) none))).1 = _
    rw [e1]
  rcases hT : (KMState.full env (KMState.attachedState k norm ⟨A, none⟩ ((s.km.map (·.clock)).getD 0) none)).1 with err | T
  · rw [hT] at ht e2
    rw [e2] at ht'
    rw [ht, ht']
    exact ⟨rfl, fun h => by cases h⟩
  rw [hT] at ht e2
  rw [e2] at ht'
  dsimp only at ht ht'
  rcases hm : L.fit e T y w with err | m
  · rw [hm] at ht ht'
    rw [ht, ht']
    exact ⟨rfl, fun h => by cases h⟩
  rw [hm] at ht ht'
  rw [ht, ht', h1]
  exact ⟨rfl, fun _ => ⟨_, rfl, by rw [h2, h3, h4]⟩⟩

theorem predictions_km (hst : KMState.Steady env) (L : Learner M Y W P) (xs : List (Except PyErr (Arr2 X))) (s : Machine K X M Y) (h : s.km.isSome) (t : KMState K X F) :
    predictions env L xs { s with km := some t } = predictions env L xs s := by
  induction xs generalizing s t with
  | nil => rfl
  | cons x xs ih =>
    show _ :: _ = _ :: _
    rw [predict_km hst L x s h t]
    congr 1
    obtain ⟨u, hu, hu'⟩ := predict_state (env := env) L x s
    obtain ⟨v, hv, hv'⟩ := predict_state (env := env) L x { s with km := some t }
    obtain ⟨v, rfl⟩ := Option.isSome_iff_exists.1 (hv' rfl)
    have hus := hu' h
    rw [hu, hv]
    exact ih { s with km := u } hus v

end Machine

end KMethods
