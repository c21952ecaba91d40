import Verif.Model.Session
import Verif.Lemmas.PyM
import Mathlib.Logic.Function.Basic
import Mathlib.Data.List.Forall2
/-! What a program does is the same in a larger heap, in which its objects have other references. -/
namespace KMethods
open PyM
variable {σ τ α β γ δ ι : Type} {K X : Type} {env : Env K X F}

/-- the same exception, or results related by `Q` -/
def ExRel (Q : α → β → Prop) : Except PyErr α → Except PyErr β → Prop
  | .ok a, .ok b => Q a b
  | .error e, .error e' => e' = e
  | _, _ => False

theorem ExRel.eq {x y : Except PyErr α} (h : ExRel (fun a b => b = a) x y) : y = x := by
  rcases x with e | a <;> rcases y with e' | b <;> first | exact h.elim | (congr 1)

theorem ExRel.refl {Q : α → α → Prop} (hQ : ∀ a, Q a a) (x : Except PyErr α) : ExRel Q x x := by
  rcases x with e | a
  · rfl
  · exact hQ a

theorem ExRel.mono {Q Q' : α → β → Prop} (h : ∀ a b, Q a b → Q' a b) {x : Except PyErr α} {y : Except PyErr β} (hx : ExRel Q x y) : ExRel Q' x y := by
  rcases x with e | a <;> rcases y with e' | b <;> first | exact hx.elim | exact hx | exact h _ _ hx

theorem ExRel.map {Q : α → β → Prop} {Q' : γ → δ → Prop} {f : α → γ} {g : β → δ} (h : ∀ a b, Q a b → Q' (f a) (g b)) {x : Except PyErr α} {y : Except PyErr β}
    (hx : ExRel Q x y) : ExRel Q' (x.map f) (y.map g) := by
  rcases x with e | a <;> rcases y with e' | b <;> first | exact hx.elim | exact hx | exact h _ _ hx

namespace PyM

/-- from related states `m` and `m'` go to related states, with related results -/
def Resp (R : σ → τ → Prop) (Q : α → β → Prop) (m : PyM σ α) (m' : PyM τ β) : Prop :=
  ∀ s s', R s s' → R (m s).2 (m' s').2 ∧ ExRel Q (m s).1 (m' s').1

variable {R : σ → τ → Prop} {Q : α → β → Prop}

theorem Resp.bind {Q' : γ → δ → Prop} {m : PyM σ α} {m' : PyM τ β} {f : α → PyM σ γ} {f' : β → PyM τ δ} (h : Resp R Q m m')
    (hf : ∀ a b, Q a b → Resp R Q' (f a) (f' b)) : Resp R Q' (m >>= f) (m' >>= f') := by
  intro s s' hs
  obtain ⟨h1, h2⟩ := h s s' hs
  rw [bind_run, bind_run]
  rcases hm : m s with ⟨e | a, t⟩ <;> rcases hm' : m' s' with ⟨e' | b, t'⟩ <;> rw [hm, hm'] at h2 <;> rw [hm, hm'] at h1
  · exact ⟨h1, h2⟩
  · exact h2.elim
  · exact h2.elim
  · exact hf a b h2 t t' h1

theorem Resp.pure {a : α} {b : β} (h : Q a b) : Resp R Q (Pure.pure a : PyM σ α) (Pure.pure b : PyM τ β) := fun _ _ hs => ⟨hs, h⟩
theorem Resp.throw (e : PyErr) : Resp R Q (PyM.throw e : PyM σ α) (PyM.throw e : PyM τ β) := fun _ _ hs => ⟨hs, rfl⟩
theorem Resp.lift {x : Except PyErr α} {y : Except PyErr β} (h : ExRel Q x y) : Resp R Q (PyM.lift x : PyM σ α) (PyM.lift y : PyM τ β) := fun _ _ hs => ⟨hs, h⟩
theorem Resp.lift_eq (x : Except PyErr α) : Resp R (fun a b => b = a) (PyM.lift x : PyM σ α) (PyM.lift x : PyM τ α) := Resp.lift (ExRel.refl (Q := fun a b => b = a) (fun _ => rfl) x)
theorem Resp.raiseIf (c : Bool) (e : PyErr) : Resp R (fun _ _ => True) (PyM.raiseIf c e : PyM σ Unit) (PyM.raiseIf c e : PyM τ Unit) := by
  cases c
  · exact Resp.pure trivial
  · exact Resp.throw e
theorem Resp.get : Resp R R (PyM.get : PyM σ σ) (PyM.get : PyM τ τ) := fun _ _ hs => ⟨hs, hs⟩
theorem Resp.modify {f : σ → σ} {g : τ → τ} (h : ∀ s s', R s s' → R (f s) (g s')) : Resp R (fun _ _ => True) (PyM.modify f) (PyM.modify g) := fun s s' hs => ⟨h s s' hs, trivial⟩
theorem Resp.getAttr {f : σ → Option α} {g : τ → Option α} (h : ∀ s s', R s s' → g s' = f s) : Resp R (fun a b => b = a) (PyM.getAttr f) (PyM.getAttr g) := by
  intro s s' hs
  rw [getAttr_run, getAttr_run, h s s' hs]
  rcases f s with _ | a
  · exact ⟨hs, rfl⟩
  · exact ⟨hs, rfl⟩
theorem Resp.when (c : Bool) {m : PyM σ Unit} {m' : PyM τ Unit} (h : Resp R (fun _ _ => True) m m') : Resp R (fun _ _ => True) (PyM.when c m) (PyM.when c m') := by
  cases c
  · exact Resp.pure trivial
  · exact h
theorem Resp.mono {Q' : α → β → Prop} {m : PyM σ α} {m' : PyM τ β} (h : Resp R Q m m') (hQ : ∀ a b, Q a b → Q' a b) : Resp R Q' m m' :=
  fun s s' hs => ⟨(h s s' hs).1, (h s s' hs).2.mono hQ⟩

theorem Resp.forEach {ι' : Type} {l : List ι} {g : ι → ι'} {f : ι → PyM σ Unit} {f' : ι' → PyM τ Unit} (h : ∀ x ∈ l, Resp R (fun _ _ => True) (f x) (f' (g x))) :
    Resp R (fun _ _ => True) (PyM.forEach l f) (PyM.forEach (l.map g) f') := by
  induction l with
  | nil => exact Resp.pure trivial
  | cons x l ih => exact (h x (by simp)).bind fun _ _ _ => ih fun y hy => h y (by simp [hy])

theorem Resp.mapEach {ι' : Type} {l : List ι} {g : ι → ι'} {f : ι → PyM σ α} {f' : ι' → PyM τ α} (h : ∀ x ∈ l, Resp R (fun a b => b = a) (f x) (f' (g x))) :
    Resp R (fun a b => b = a) (PyM.mapEach l f) (PyM.mapEach (l.map g) f') := by
  induction l with
  | nil => exact Resp.pure rfl
  | cons x l ih =>
    refine (h x (by simp)).bind fun a b hab => ?_
    refine (ih fun y hy => h y (by simp [hy])).bind fun as bs habs => ?_
    subst hab habs
    exact Resp.pure rfl

end PyM

/-! ## heaps -/

/-- The heap `h'` contains the objects of `h`, under the references given by `ρ`, and besides them those of `b`; `N` is the number of objects of `h`. New objects get corresponding references. -/
structure HSim (ρ : Nat → Nat) (b : Heap K X) (N : Nat) (h h' : Heap K X) : Prop where
  inj : Function.Injective ρ
  objs : ∀ r, h'.objs (ρ r) = h.objs r
  num : h.next = N
  next : ∀ k, ρ (N + k) = h'.next + k
  fresh : ∀ r, N ≤ r → h.objs r = none
  fresh' : ∀ r, h'.next ≤ r → h'.objs r = none
  frame : ∀ r, (∀ q, ρ q ≠ r) → h'.objs r = b.objs r

variable {ρ : Nat → Nat} {b : Heap K X} {N : Nat}

theorem update_comp_inj (hρ : Function.Injective ρ) {f' f : Nat → Option α} (h : ∀ r, f' (ρ r) = f r) (r : Nat) (o : Option α) (q : Nat) :
    Function.update f' (ρ r) o (ρ q) = Function.update f r o q := by
  by_cases hq : q = r
  · subst hq; rw [Function.update_self, Function.update_self]
  · rw [Function.update_of_ne hq, Function.update_of_ne fun e => hq (hρ e), h]

theorem HSim.call (r : Nat) (m : PyM (KMState K X F) α) : Resp (HSim ρ b N) (fun a b => b = a) (Heap.call r m) (Heap.call (ρ r) m) := by
  intro h h' hs
  unfold Heap.call
  rw [hs.objs]
  rcases ho : h.objs r with _ | (s | p)
  · exact ⟨hs, rfl⟩
  · refine ⟨⟨hs.inj, fun q => update_comp_inj hs.inj hs.objs r _ q, hs.num, hs.next, fun q hq => ?_, fun q hq => ?_, fun q hq => ?_⟩, ExRel.refl (Q := fun a b => b = a) (fun _ => rfl) (m s).1⟩
    · show Function.update h.objs r _ q = none
      rw [Function.update_of_ne ?_, hs.fresh q hq]
      rintro rfl
      rw [hs.fresh _ hq] at ho
      cases ho
    · show Function.update h'.objs (ρ r) _ q = none
      rw [Function.update_of_ne ?_, hs.fresh' q hq]
      rintro rfl
      rw [← hs.objs, hs.fresh' _ hq] at ho
      cases ho
    · show Function.update h'.objs (ρ r) _ q = _
      rw [Function.update_of_ne fun e => hq r e.symm, hs.frame q hq]
  · exact ⟨hs, rfl⟩

theorem HSim.full (r : Nat) : Resp (HSim ρ b N) (fun a b => b = a) (Heap.full env r) (Heap.full env (ρ r)) := by
  intro h h' hs
  have := HSim.call (b := b) (ρ := ρ) (N := N) r (KMState.full env) h h' hs
  unfold Heap.full
  rw [hs.objs]
  rcases ho : h.objs r with _ | (s | p)
  · exact this
  · exact this
  · exact ⟨hs, rfl⟩

theorem HSim.numSamples {h h' : Heap K X} (hs : HSim ρ b N h h') (r : Nat) : h'.numSamples (ρ r) = h.numSamples r := by
  unfold Heap.numSamples
  rw [hs.objs]

theorem HSim.alloc {h h' : Heap K X} (hs : HSim ρ b N h h') (o : Obj K X) :
    HSim ρ b (N + 1) (Heap.alloc o h).2 (Heap.alloc o h').2 ∧ (Heap.alloc o h).1 = .ok N ∧ (Heap.alloc o h').1 = .ok (ρ N) := by
  have hn : h'.next = ρ N := (hs.next 0).symm
  refine ⟨⟨hs.inj, fun q => ?_, ?_, fun k => ?_, fun q hq => ?_, fun q hq => ?_, fun q hq => ?_⟩, ?_, ?_⟩
  · show Function.update h'.objs h'.next _ _ = Function.update h.objs h.next _ _
    rw [hn, hs.num]
    exact update_comp_inj hs.inj hs.objs N _ q
  · show h.next + 1 = _; rw [hs.num]
  · show ρ (N + 1 + k) = h'.next + 1 + k
    rw [show N + 1 + k = N + (1 + k) by omega, hs.next]; omega
  · show Function.update h.objs h.next _ q = none
    rw [hs.num, Function.update_of_ne (by omega), hs.fresh q (by omega)]
  · show Function.update h'.objs h'.next _ q = none
    change h'.next + 1 ≤ q at hq
    rw [Function.update_of_ne (by omega), hs.fresh' q (by omega)]
  · show Function.update h'.objs h'.next _ q = _
    rw [hn, Function.update_of_ne fun e => hq N e.symm, hs.frame q hq]
  · show Except.ok h.next = _; rw [hs.num]
  · show Except.ok h'.next = _; rw [hn]

/-! ## sets -/

/-- the set with other references -/
def KSet.rename (ρ : Nat → Nat) (t : KSet) : KSet := { t with members := t.members.map ρ }
/-- all members are among the first `N` objects -/
def KSet.Below (N : Nat) (t : KSet) : Prop := ∀ r ∈ t.members, r < N

theorem KSet.Below.mono {t : KSet} {N' : Nat} (h : t.Below N) (hN : N ≤ N') : t.Below N' := fun r hr => (h r hr).trans_le hN

structure SetSim (ρ : Nat → Nat) (b : Heap K X) (N : Nat) (s s' : SetSt K X) : Prop where
  heap : HSim ρ b N s.heap s'.heap
  set : s'.set = s.set.rename ρ
  below : s.set.Below N

theorem SetSim.onHeap {Q : α → β → Prop} {m : PyM (Heap K X) α} {m' : PyM (Heap K X) β} (h : Resp (HSim ρ b N) Q m m') :
    Resp (SetSim ρ b N) Q (SetSt.onHeap m) (SetSt.onHeap m') := fun _ _ hs =>
  ⟨⟨(h _ _ hs.heap).1, hs.set, hs.below⟩, (h _ _ hs.heap).2⟩

theorem SetSim.modSet {f g : KSet → KSet} (h : ∀ t, g (t.rename ρ) = (f t).rename ρ) (hb : ∀ t, t.Below N → (f t).Below N) :
    Resp (SetSim ρ b N) (fun _ _ => True) (SetSt.modSet f : PyM (SetSt K X) Unit) (SetSt.modSet g) :=
  Resp.modify fun _ s' hs => ⟨hs.heap, by show g s'.set = _; rw [hs.set, h], hb _ hs.below⟩

theorem SetSim.appendRef {r : Nat} (hr : r < N) : Resp (SetSim ρ b N) (fun _ _ => True) (SetSt.appendRef r : PyM (SetSt K X) Unit) (SetSt.appendRef (ρ r)) := by
  refine Resp.get.bind fun s s' hs => ?_
  rw [hs.heap.numSamples, hs.set]
  refine (Resp.lift_eq _).bind fun n n' hn => ?_
  subst hn
  refine (Resp.when _ (SetSim.modSet (f := fun t => { t with numSamples := n', isInit := true }) (fun _ => rfl) fun _ ht => ht)).bind fun _ _ _ => ?_
  refine Resp.get.bind fun s s' hs => ?_
  rw [hs.set]
  refine (Resp.raiseIf _ _).bind fun _ _ _ => ?_
  refine SetSim.modSet (f := fun t => { t with members := t.members ++ [r] }) (fun t => by simp [KSet.rename]) fun t ht q hq => ?_
  rcases List.mem_append.1 hq with h | h
  · exact ht q h
  · rw [List.mem_singleton.1 h]; exact hr

theorem checkIdx_ok {size : Nat} {idx : IndicesArg} {l : List Nat} (h : SetSt.checkIdx size idx = .ok l) : ∀ i ∈ l, i < size := by
  cases idx with
  | bad e => cases h
  | ints z =>
    change (if _ then _ else _) = _ at h
    split at h
    · cases h
    · rename_i hz
      injection h with h
      subst h
      intro i hi
      obtain ⟨x, hx, rfl⟩ := List.mem_map.1 hi
      have hz' : ∀ x ∈ z, 0 ≤ x ∧ x < (size : Int) := by simpa using hz
      have := hz' x hx
      omega

theorem getD_mem {l : List Nat} {i : Nat} (h : i < l.length) : l.getD i 0 ∈ l := by
  rw [List.getD_eq_getElem?_getD, List.getElem?_eq_getElem h]
  exact List.getElem_mem h

theorem map_getD {l : List Nat} {i : Nat} (h : i < l.length) : (l.map ρ).getD i 0 = ρ (l.getD i 0) := by
  rw [List.getD_eq_getElem?_getD, List.getD_eq_getElem?_getD, List.getElem?_eq_getElem h, List.getElem?_eq_getElem (by simpa using h)]
  simp

theorem SetSim.getItem (idx : SetIdx) : Resp (SetSim ρ b N) (fun r r' => r' = ρ r ∧ r < N) (SetSt.getItem idx : PyM (SetSt K X) Nat) (SetSt.getItem idx) := by
  cases idx with
  | other => exact Resp.throw _
  | intList => exact Resp.throw _
  | int i =>
    refine Resp.get.bind fun s s' hs => ?_
    rw [hs.set, show (s.set.rename ρ).members.length = s.set.members.length from List.length_map ..]
    by_cases hi : i < 0 ∨ (s.set.members.length : Int) ≤ i
    · rw [show (decide (i < 0) || decide (i ≥ (s.set.members.length : Int))) = true by
        simp only [Bool.or_eq_true, decide_eq_true_eq]; omega]
      exact Resp.throw _
    · rw [show (decide (i < 0) || decide (i ≥ (s.set.members.length : Int))) = false by
        simp only [Bool.or_eq_false_iff, decide_eq_false_iff_not]; omega]
      have hlt : i.toNat < s.set.members.length := by omega
      exact Resp.pure ⟨map_getD hlt, hs.below _ (getD_mem hlt)⟩

theorem setSim_new {h h' : Heap K X} (hs : HSim ρ b N h h') (num : NumSamples) : SetSim ρ b N ⟨h, .new num⟩ ⟨h', .new num⟩ := ⟨hs, rfl, fun r hr => by cases hr⟩

theorem SetSim.take (idx : IndicesArg) :
    Resp (SetSim ρ b N) (fun t t' => t' = t.rename ρ ∧ t.Below N) (SetSt.take idx : PyM (SetSt K X) KSet) (SetSt.take idx) := by
  refine Resp.get.bind fun s s' hs => ?_
  rw [hs.set, show (s.set.rename ρ).members.length = s.set.members.length from List.length_map ..]
  rcases hc : SetSt.checkIdx s.set.members.length idx with e | l
  · exact Resp.throw e
  · have hl := checkIdx_ok hc
    have e : (l.map fun i => (s.set.rename ρ).members.getD i 0) = (l.map fun i => s.set.members.getD i 0).map ρ := by
      rw [List.map_map]
      exact List.map_congr_left fun i hi => map_getD (hl i hi)
    refine Resp.bind (Q := fun a b => b = a ∧ a = l) (Resp.lift ⟨rfl, rfl⟩) fun a a' ha => ?_
    obtain ⟨rfl, rfl⟩ := ha
    refine Resp.lift ?_
    rw [e]
    obtain ⟨h1, h2⟩ := Resp.forEach (g := ρ) (f := SetSt.appendRef) (f' := SetSt.appendRef) (l := a'.map fun i => s.set.members.getD i 0) (R := SetSim ρ b N) (fun r hr => by
      obtain ⟨i, hi, rfl⟩ := List.mem_map.1 hr
      exact SetSim.appendRef (hs.below _ (getD_mem (hl i hi)))) _ _ (setSim_new hs.heap .unset)
    exact ExRel.map (fun _ _ _ => ⟨h1.set, h1.below⟩) h2

theorem SetSim.size : Resp (SetSim ρ b N) (fun a b => b = a) (SetSt.size : PyM (SetSt K X) Nat) SetSt.size := by
  refine Resp.get.bind fun s s' hs => Resp.pure ?_
  rw [hs.set]
  exact List.length_map ..

theorem SetSim.attach (sample : SetSample X) (attr : Option (String × String)) :
    Resp (SetSim ρ b N) (fun _ _ => True) (SetSt.attach sample attr : PyM (SetSt K X) Unit) (SetSt.attach sample attr) := by
  refine (Resp.lift_eq _).bind fun n n' hn => ?_
  subst hn
  refine Resp.get.bind fun s s' hs => ?_
  rw [hs.set]
  refine (Resp.raiseIf _ _).bind fun _ _ _ => ?_
  refine (SetSim.modSet (f := fun t => { t with numSamples := .one n' }) (fun _ => rfl) fun _ ht => ht).bind fun _ _ _ => ?_
  refine (Resp.forEach (g := ρ) (f' := fun r => SetSt.onHeap (Heap.call r (KMState.attach sample.toSampleIn none))) fun r _ =>
    (SetSim.onHeap (HSim.call r (KMState.attach sample.toSampleIn none))).mono fun _ _ _ => trivial).bind fun _ _ _ => ?_
  cases attr with
  | none => exact Resp.pure trivial
  | some a => exact Resp.forEach fun r _ => (SetSim.onHeap (HSim.call r _)).mono fun _ _ _ => trivial

theorem SetSim.extend {t : KSet} (ht : t.Below N) : Resp (SetSim ρ b N) (fun _ _ => True) (SetSt.extend (some t) : PyM (SetSt K X) Unit) (SetSt.extend (some (t.rename ρ))) := by
  refine Resp.get.bind fun s s' hs => ?_
  rw [hs.set]
  refine (Resp.raiseIf _ _).bind fun _ _ _ => ?_
  exact Resp.forEach fun r hr => SetSim.appendRef (ht r hr)

theorem SetSim.setAttr (name : String) (values : AttrVals) : Resp (SetSim ρ b N) (fun _ _ => True) (SetSt.setAttr name values : PyM (SetSt K X) Unit) (SetSt.setAttr name values) := by
  refine Resp.get.bind fun s s' hs => ?_
  rw [hs.set]
  cases values with
  | unsized => exact Resp.throw _
  | scalar v => exact Resp.forEach fun r _ => (SetSim.onHeap (HSim.call r _)).mono fun _ _ _ => trivial
  | seq l =>
    rw [show (s.set.rename ρ).members.length = s.set.members.length from List.length_map ..]
    refine (Resp.raiseIf _ _).bind fun _ _ _ => ?_
    rw [show (s.set.rename ρ).members.zip l = (s.set.members.zip l).map (Prod.map ρ id) from by
      show (s.set.members.map ρ).zip l = _
      rw [List.zip_map_left]]
    exact Resp.forEach fun p _ => (SetSim.onHeap (HSim.call p.1 _)).mono fun _ _ _ => trivial

theorem SetSim.getAttr (name default : String) : Resp (SetSim ρ b N) (fun a b => b = a) (SetSt.getAttr name default : PyM (SetSt K X) (List String)) (SetSt.getAttr name default) := by
  refine Resp.get.bind fun s s' hs => ?_
  rw [hs.set]
  exact Resp.mapEach fun r _ => SetSim.onHeap (HSim.call r _)

theorem SetSim.rank (cv : CVScore) (targets : List F) (method : String) (p : MethodParams) :
    Resp (SetSim ρ b N) (fun a b => b = a) (rankKernels env cv targets method p : PyM (SetSt K X) (List F)) (rankKernels env cv targets method p) := by
  refine (Resp.raiseIf _ _).bind fun _ _ _ => ?_
  split_ifs
  · refine Resp.get.bind fun s s' hs => ?_
    rw [hs.set]
    refine Resp.mapEach fun r _ => ?_
    refine (SetSim.onHeap (HSim.full r)).bind fun M M' hM => ?_
    subst hM
    exact (Resp.raiseIf _ _).bind fun _ _ _ => Resp.lift_eq _
  · refine (Resp.raiseIf _ _).bind fun _ _ _ => ?_
    refine Resp.get.bind fun s s' hs => ?_
    rw [hs.set]
    refine (Resp.mapEach (g := ρ) fun r _ => ?_).bind fun l l' hl => ?_
    · refine (Resp.lift_eq _).bind fun e e' he => ?_
      subst he
      refine (SetSim.onHeap (HSim.full r)).bind fun M M' hM => ?_
      subst hM
      exact Resp.lift_eq _
    · subst hl
      refine (Resp.lift_eq _).bind fun e e' he => ?_
      subst he
      exact Resp.pure rfl

/-! ## appending, which may create objects -/

/-- the argument with other references -/
def AppendArg.rename (ρ : Nat → Nat) : AppendArg → AppendArg
  | .ref r => .ref (ρ r)
  | .kernelFunc => .kernelFunc
  | .other x => .other x
def AppendArg.Below (N : Nat) : AppendArg → Prop
  | .ref r => r < N
  | _ => True

/-- some objects may have been created -/
def SetSim' (ρ : Nat → Nat) (b : Heap K X) (N : Nat) (s s' : SetSt K X) : Prop := ∃ N', N ≤ N' ∧ SetSim ρ b N' s s'

theorem SetSim.append {a : AppendArg} (ha : a.Below N) : Resp (SetSim' ρ b N) (fun _ _ => True) (SetSt.append a : PyM (SetSt K X) Unit) (SetSt.append (a.rename ρ)) := by
  rintro s s' ⟨N', hN, hs⟩
  cases a with
  | ref r =>
    obtain ⟨h1, h2⟩ := SetSim.appendRef (r := r) (lt_of_lt_of_le ha hN) s s' hs
    exact ⟨⟨N', hN, h1⟩, h2⟩
  | kernelFunc => exact ⟨⟨N', hN, hs⟩, rfl⟩
  | other x =>
    show SetSim' ρ b N ((lift (mkPrecomputed x) >>= _ : PyM (SetSt K X) Unit) s).2 ((lift (mkPrecomputed x) >>= _ : PyM (SetSt K X) Unit) s').2 ∧ _
    show _ ∧ ExRel _ ((lift (mkPrecomputed x) >>= _ : PyM (SetSt K X) Unit) s).1 ((lift (mkPrecomputed x) >>= _ : PyM (SetSt K X) Unit) s').1
    rcases mkPrecomputed x with e | p
    · exact ⟨⟨N', hN, hs⟩, rfl⟩
    · obtain ⟨h1, h2, h3⟩ := hs.heap.alloc (.pre p)
      obtain ⟨h4, h5⟩ := SetSim.appendRef (r := N') (Nat.lt_succ_self _) ⟨(Heap.alloc (.pre p) s.heap).2, s.set⟩ ⟨(Heap.alloc (.pre p) s'.heap).2, s'.set⟩ ⟨h1, hs.set, hs.below.mono (Nat.le_succ _)⟩
      have e1 : N' = s.heap.next := hs.heap.num.symm
      have e2 : ρ N' = s'.heap.next := hs.heap.next 0
      rw [e2] at h4 h5
      rw [e1] at h4 h5
      exact ⟨⟨_, by omega, h4⟩, h5⟩

theorem Resp.ignoreErrors {R : σ → τ → Prop} {Q : α → β → Prop} {m : PyM σ α} {m' : PyM τ β} (h : Resp R Q m m') : Resp R (fun _ _ => True) (PyM.ignoreErrors m) (PyM.ignoreErrors m') :=
  fun s s' hs => ⟨(h s s' hs).1, trivial⟩

theorem SetSim.appendNew (norm : Bool) (k : Except PyErr K) : Resp (SetSim' ρ b N) (fun _ _ => True) (SetSt.appendNew norm k : PyM (SetSt K X) Unit) (SetSt.appendNew norm k) := by
  rintro s s' ⟨N', hN, hs⟩
  rcases k with e | k
  · exact ⟨⟨N', hN, hs⟩, rfl⟩
  · obtain ⟨h1, h2, h3⟩ := hs.heap.alloc (.km (KMState.init k norm 0))
    obtain ⟨h4, h5⟩ := SetSim.appendRef (r := N') (Nat.lt_succ_self _) ⟨(Heap.alloc (.km (KMState.init k norm 0)) s.heap).2, s.set⟩ ⟨(Heap.alloc (.km (KMState.init k norm 0)) s'.heap).2, s'.set⟩
      ⟨h1, hs.set, hs.below.mono (Nat.le_succ _)⟩
    have e1 : N' = s.heap.next := hs.heap.num.symm
    have e2 : ρ N' = s'.heap.next := hs.heap.next 0
    rw [e2] at h4 h5
    rw [e1] at h4 h5
    exact ⟨⟨_, by omega, h4⟩, h5⟩

theorem SetSim.addParametrized {V : Type} (f : BucketFlags) (cls : KernelClassArg K V) (param : String) (values : ValuesArg V) :
    Resp (SetSim' ρ b N) (fun _ _ => True) (SetSt.addParametrized f cls param values : PyM (SetSt K X) Unit) (SetSt.addParametrized f cls param values) := by
  cases cls with
  | other => exact Resp.throw _
  | cls build =>
    cases values with
    | none => exact Resp.pure trivial
    | notIterable => exact Resp.throw _
    | unsized => exact Resp.throw _
    | seq l =>
      refine (Resp.raiseIf _ _).bind fun _ _ _ => ?_
      have := Resp.forEach (R := SetSim' (K := K) (X := X) ρ b N) (l := l) (g := id) (f := fun v => PyM.ignoreErrors (SetSt.appendNew f.norm (build f.skip param v)))
        (f' := fun v => PyM.ignoreErrors (SetSt.appendNew f.norm (build f.skip param v))) fun v _ => Resp.ignoreErrors (SetSim.appendNew f.norm (build f.skip param v))
      rwa [List.map_id] at this

theorem HSim.mkBucket {V : Type} (lib : KernelLib K V) (normalize skip : Option Bool) (vals : BucketValues V) {h h' : Heap K X} (hs : HSim ρ b N h h') :
    ∃ N', N ≤ N' ∧ HSim ρ b N' (mkBucket lib normalize skip vals h).2 (mkBucket lib normalize skip vals h').2 ∧
      ExRel (fun t t' => t'.set = t.set.rename ρ ∧ t.set.Below N') (mkBucket lib normalize skip vals h).1 (mkBucket lib normalize skip vals h').1 := by
  rcases normalize with _ | n
  · exact ⟨N, le_rfl, hs, rfl⟩
  rcases skip with _ | k
  · exact ⟨N, le_rfl, hs, rfl⟩
  have h0 := setSim_new hs .unset
  have : Resp (SetSim' ρ b N) (fun _ _ => True) (bucketBody lib ⟨n, k⟩ vals : PyM (SetSt K X) Unit) (bucketBody lib ⟨n, k⟩ vals) := by
    refine (SetSim.appendNew n (.ok lib.linear)).bind fun _ _ _ => ?_
    refine Resp.bind (Q := fun _ _ => True) (fun s s' ⟨N', hN, hs⟩ => ⟨⟨N', hN, ((SetSim.modSet (f := fun t => { t with numSamples := .unset }) (g := fun t => { t with numSamples := .unset }) (fun t => rfl) fun t ht => ht) s s' hs).1⟩, trivial⟩) fun _ _ _ => ?_
    exact (SetSim.addParametrized _ _ _ _).bind fun _ _ _ => (SetSim.addParametrized _ _ _ _).bind fun _ _ _ => (SetSim.addParametrized _ _ _ _).bind fun _ _ _ =>
      (SetSim.addParametrized _ _ _ _).bind fun _ _ _ => SetSim.addParametrized _ _ _ _
  obtain ⟨⟨N', h1, h2⟩, h3⟩ := this _ _ ⟨N, le_rfl, h0⟩
  exact ⟨N', h1, h2.heap, h3.map fun _ _ _ => ⟨h2.set, h2.below⟩⟩

def InitArg.rename (ρ : Nat → Nat) : InitArg → InitArg
  | .none => .none
  | .one a => .one (a.rename ρ)
  | .list l => .list (l.map (AppendArg.rename ρ))
  | .other => .other
def InitArg.Below (N : Nat) : InitArg → Prop
  | .one a => a.Below N
  | .list l => ∀ a ∈ l, a.Below N
  | _ => True

theorem HSim.mkSet {arg : InitArg} (ha : arg.Below N) (num : NumSamples) {h h' : Heap K X} (hs : HSim ρ b N h h') :
    ∃ N', N ≤ N' ∧ HSim ρ b N' (mkSet arg num h).2 (mkSet (arg.rename ρ) num h').2 ∧
      ExRel (fun t t' => t' = t.rename ρ ∧ t.Below N') (mkSet arg num h).1 (mkSet (arg.rename ρ) num h').1 := by
  have h0 := setSim_new hs num
  cases arg with
  | none => exact ⟨N, le_rfl, hs, ⟨rfl, h0.below⟩⟩
  | one a =>
    obtain ⟨⟨N', h1, h2⟩, h3⟩ := SetSim.append (ρ := ρ) (b := b) ha _ _ ⟨N, le_rfl, h0⟩
    exact ⟨N', h1, h2.heap, h3.map fun _ _ _ => ⟨h2.set, h2.below⟩⟩
  | list l =>
    obtain ⟨⟨N', h1, h2⟩, h3⟩ := Resp.forEach (fun a hl => SetSim.append (ρ := ρ) (b := b) (ha a hl)) _ _ ⟨N, le_rfl, h0⟩
    exact ⟨N', h1, h2.heap, h3.map fun _ _ _ => ⟨h2.set, h2.below⟩⟩
  | other => exact ⟨N, le_rfl, hs, rfl⟩

theorem resolve_sim {vars : List Nat} (hv : ∀ r ∈ vars, r < N) (a : AppendArg) :
    ExRel (fun x x' => x' = x.rename ρ ∧ x.Below N) (a.resolve vars) (a.resolve (vars.map ρ)) := by
  cases a with
  | ref v =>
    show ExRel _ (match vars[v]? with | some r => _ | none => _) (match (vars.map ρ)[v]? with | some r => _ | none => _)
    rw [List.getElem?_map]
    rcases h : vars[v]? with _ | r
    · exact rfl
    · exact ⟨rfl, hv r (List.mem_of_getElem? h)⟩
  | kernelFunc => exact ⟨rfl, trivial⟩
  | other x => exact ⟨rfl, trivial⟩

theorem initResolve_sim {vars : List Nat} (hv : ∀ r ∈ vars, r < N) (a : InitArg) :
    ExRel (fun x x' => x' = x.rename ρ ∧ x.Below N) (a.resolve vars) (a.resolve (vars.map ρ)) := by
  cases a with
  | none => exact ⟨rfl, trivial⟩
  | other => exact ⟨rfl, trivial⟩
  | one a => exact (resolve_sim hv a).map fun x x' h => ⟨by rw [h.1]; rfl, h.2⟩
  | list l =>
    have : ExRel (fun x x' => x' = x.map (AppendArg.rename ρ) ∧ ∀ a ∈ x, a.Below N) (l.mapM (AppendArg.resolve vars)) (l.mapM (AppendArg.resolve (vars.map ρ))) := by
      induction l with
      | nil => exact ⟨rfl, fun a ha => by cases ha⟩
      | cons a l ih =>
        rw [List.mapM_cons, List.mapM_cons]
        have h1 := resolve_sim (ρ := ρ) hv a
        rcases ha : a.resolve vars with e | x <;> rcases ha' : a.resolve (vars.map ρ) with e' | x' <;> rw [ha, ha'] at h1
        · exact h1
        · exact h1.elim
        · exact h1.elim
        · rcases hl : l.mapM (AppendArg.resolve vars) with e | y <;> rcases hl' : l.mapM (AppendArg.resolve (vars.map ρ)) with e' | y' <;> rw [hl, hl'] at ih
          · exact ih
          · exact ih.elim
          · exact ih.elim
          · refine ⟨by rw [h1.1, ih.1]; rfl, fun q hq => ?_⟩
            rcases List.mem_cons.1 hq with rfl | hq
            · exact h1.2
            · exact ih.2 q hq
    exact this.map fun x x' h => ⟨by rw [h.1]; rfl, h.2⟩

/-! ## composite kernels -/

structure CompSim (ρ : Nat → Nat) (b : Heap K X) (N : Nat) (s s' : CompSt K X) : Prop where
  heap : HSim ρ b N s.heap s'.heap
  set : s'.set = s.set.rename ρ
  below : s.set.Below N
  comp : s'.comp = s.comp

theorem CompSim.onSet {Q : α → β → Prop} {m : PyM (SetSt K X) α} {m' : PyM (SetSt K X) β} (h : Resp (SetSim ρ b N) Q m m') :
    Resp (CompSim ρ b N) Q (CompSt.onSet m) (CompSt.onSet m') := fun s s' hs =>
  have := h ⟨s.heap, s.set⟩ ⟨s'.heap, s'.set⟩ ⟨hs.heap, hs.set, hs.below⟩
  ⟨⟨this.1.heap, this.1.set, this.1.below, hs.comp⟩, this.2⟩

theorem CompSim.modComp (f : Comp → Comp) : Resp (CompSim ρ b N) (fun _ _ => True) (modify fun s : CompSt K X => { s with comp := f s.comp }) (modify fun s => { s with comp := f s.comp }) :=
  Resp.modify fun _ _ hs => ⟨hs.heap, hs.set, hs.below, congrArg f hs.comp⟩

theorem CompSim.step (f : Fmt × Mat F → Fmt × Mat F → Except PyErr (Fmt × Mat F)) (r : Nat) :
    Resp (CompSim ρ b N) (fun _ _ => True) (CompSt.step env f r : PyM (CompSt K X) Unit) (CompSt.step env f (ρ r)) := by
  refine (Resp.getAttr fun s s' hs => by rw [hs.comp]).bind fun a a' ha => ?_
  subst ha
  refine (CompSim.onSet (SetSim.onHeap (HSim.full r))).bind fun M M' hM => ?_
  subst hM
  refine (Resp.lift_eq _).bind fun x x' hx => ?_
  subst hx
  exact CompSim.modComp fun c => { c with km := some x' }

theorem CompSim.setKM (M : Fmt × Mat F) : Resp (CompSim ρ b N) (fun _ _ => True) (CompSt.setKM M : PyM (CompSt K X) Unit) (CompSt.setKM M) :=
  CompSim.modComp fun c => { c with km := some M }

theorem CompSim.weightedSum (l : List F) : Resp (CompSim ρ b N) (fun _ _ => True) (CompSt.weightedSum env l : PyM (CompSt K X) Unit) (CompSt.weightedSum env l) := by
  refine Resp.get.bind fun s s' hs => ?_
  rw [hs.comp, hs.set]
  refine (Resp.lift_eq _).bind fun Z Z' hZ => ?_
  subst hZ
  refine (CompSim.setKM _).bind fun _ _ _ => ?_
  rw [show l.zip (s.set.rename ρ).members = (l.zip s.set.members).map (Prod.map id ρ) from by
    show l.zip (s.set.members.map ρ) = _
    rw [List.zip_map_right]]
  exact Resp.forEach fun p _ => CompSim.step (fun acc M => addStored acc (scaleStored p.1 M)) p.2

theorem CompSim.fit (w : Option WeightsIn) : Resp (CompSim ρ b N) (fun _ _ => True) (CompSt.fit env w : PyM (CompSt K X) Unit) (CompSt.fit env w) := by
  refine Resp.get.bind fun s s' hs => ?_
  refine Resp.bind (Q := fun _ _ => True) ?_ fun _ _ _ => CompSim.modComp fun c => { c with isFitted := true }
  unfold CompSt.fitBody
  rw [hs.comp, hs.set, show (s.set.rename ρ).members.length = s.set.members.length from List.length_map ..]
  rcases s.comp.kind with _ | _ | _ | l
  · refine (Resp.lift_eq _).bind fun l l' hl => ?_
    subst hl
    exact CompSim.weightedSum _
  · refine (Resp.raiseIf _ _).bind fun _ _ _ => ?_
    refine (Resp.lift_eq _).bind fun Z Z' hZ => ?_
    subst hZ
    refine (CompSim.setKM _).bind fun _ _ _ => ?_
    exact Resp.forEach fun r _ => CompSim.step _ r
  · refine (Resp.raiseIf _ _).bind fun _ _ _ => ?_
    refine (Resp.lift_eq _).bind fun Z Z' hZ => ?_
    subst hZ
    refine (CompSim.setKM _).bind fun _ _ _ => ?_
    refine (Resp.forEach fun r _ => CompSim.step _ r).bind fun _ _ _ => ?_
    refine (Resp.getAttr fun s s' hs => by rw [hs.comp]).bind fun a a' ha => ?_
    subst ha
    exact CompSim.setKM _
  · exact (Resp.raiseIf _ _).bind fun _ _ _ => CompSim.weightedSum _

theorem CompSim.compositeKM : Resp (CompSim ρ b N) (fun a b => b = a) (CompSt.compositeKM : PyM (CompSt K X) (Fmt × Mat F)) CompSt.compositeKM := by
  refine Resp.get.bind fun s s' hs => ?_
  rw [hs.comp]
  refine (Resp.raiseIf _ _).bind fun _ _ _ => ?_
  exact Resp.getAttr fun _ _ hs => by rw [hs.comp]

theorem HSim.combLoop (l : List (F × Nat)) (acc : Fmt × Mat F) :
    Resp (HSim ρ b N) (fun a b => b = a) (combLoop env l acc : PyM (Heap K X) (Fmt × Mat F)) (combLoop env (l.map (Prod.map id ρ)) acc) := by
  induction l generalizing acc with
  | nil => exact Resp.pure rfl
  | cons p l ih =>
    refine (HSim.full p.2).bind fun M M' hM => ?_
    subst hM
    refine (Resp.lift_eq _).bind fun x x' hx => ?_
    subst hx
    exact ih _

theorem HSim.linearCombination (t : KSet) (w : WeightsIn) (norm : Bool) :
    Resp (HSim ρ b N) (fun a b => b = a) (linearCombination env t w norm : PyM (Heap K X) (Fmt × Mat F)) (linearCombination env (t.rename ρ) w norm) := by
  unfold KMethods.linearCombination
  rw [show (t.rename ρ).members.length = t.members.length from List.length_map ..]
  refine (Resp.lift_eq _).bind fun l l' hl => ?_
  subst hl
  refine (Resp.lift_eq _).bind fun Z Z' hZ => ?_
  subst hZ
  rw [show l'.zip (t.rename ρ).members = (l'.zip t.members).map (Prod.map id ρ) from by
    show l'.zip (t.members.map ρ) = _
    rw [List.zip_map_right]]
  exact HSim.combLoop _ _

theorem SetSim.findOptimal (cv : CVScore) (c : Bool) (sample : SetSample X) (targets : List F) (method : String) (p : MethodParams) :
    Resp (SetSim ρ b N) (fun r r' => r' = ρ r ∧ r < N) (findOptimalKernel env cv c sample targets method p : PyM (SetSt K X) Nat) (findOptimalKernel env cv c sample targets method p) := by
  refine (Resp.raiseIf _ _).bind fun _ _ _ => (Resp.raiseIf _ _).bind fun _ _ _ => (SetSim.attach sample none).bind fun _ _ _ => (SetSim.rank cv targets method p).bind fun l l' hl => ?_
  subst hl
  refine (Resp.lift_eq _).bind fun i i' hi => ?_
  subst hi
  exact SetSim.getItem _

theorem HSim.pairLoop (est : Fmt × Mat F → Fmt × Mat F → Except PyErr F) (m : List Nat) (l : List (Nat × Nat)) (hl : ∀ p ∈ l, p.1 < m.length ∧ p.2 < m.length) (acc : Nat → Nat → F) :
    Resp (HSim ρ b N) (fun a b => b = a) (pairLoop env est m l acc : PyM (Heap K X) (Nat → Nat → F)) (pairLoop env est (m.map ρ) l acc) := by
  induction l generalizing acc with
  | nil => exact Resp.pure rfl
  | cons p l ih =>
    have h : ∀ i, i < m.length → (m.map ρ).getD i 0 = ρ (m.getD i 0) := fun i hi => by
      rw [List.getD_eq_getElem?_getD, List.getD_eq_getElem?_getD, List.getElem?_map, List.getElem?_eq_getElem hi]; rfl
    have hp := hl p List.mem_cons_self
    unfold KMethods.pairLoop
    rw [h _ hp.1, h _ hp.2]
    refine (HSim.full _).bind fun A A' hA => ?_
    subst hA
    refine (HSim.full _).bind fun B B' hB => ?_
    subst hB
    refine (Resp.lift_eq _).bind fun v v' hv => ?_
    subst hv
    exact ih (fun q hq => hl q (List.mem_cons_of_mem _ hq)) _

theorem HSim.pairwiseSimilarity (t : KSet) (metric : String) :
    Resp (HSim ρ b N) (fun a b => b = a) (pairwiseSimilarity env t metric : PyM (Heap K X) (Mat F)) (pairwiseSimilarity env (t.rename ρ) metric) := by
  unfold KMethods.pairwiseSimilarity
  rw [show (t.rename ρ).members.length = t.members.length from List.length_map ..]
  refine (Resp.lift_eq _).bind fun l l' hl => ?_
  subst hl
  refine (HSim.pairLoop _ t.members _ (fun p hp => ?_) _).bind fun A A' hA => ?_
  · obtain ⟨i, hi, hp⟩ := List.mem_flatMap.1 hp
    obtain ⟨j, hj, rfl⟩ := List.mem_map.1 hp
    exact ⟨List.mem_range.1 hi, List.mem_range.1 (List.mem_of_mem_drop hj)⟩
  · subst hA
    exact Resp.pure rfl

end KMethods
