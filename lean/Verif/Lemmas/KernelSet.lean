import Verif.Spec.KernelSet
import Verif.Lemmas.Attrs
/-! Lemmas on `KernelSet`. -/
namespace KMethods
open PyM
variable {K X α : Type}

namespace SetSt

theorem appendRef_ok {s : SetSt K X} {r : Nat} {n : NumSamples} (h : s.heap.numSamples r = .ok n) (ha : s.set.Accepts n) :
    appendRef r s = (.ok (), ⟨s.heap, ⟨s.set.members ++ [r], n, s.set.isInit || s.set.numSamples == .unset⟩⟩) := by
  obtain ⟨hp, ⟨mem, num, ini⟩⟩ := s
  have key : appendRef r (⟨hp, ⟨mem, num, ini⟩⟩ : SetSt K X) =
      (when (!ini && num == .unset) (modSet fun t => { t with numSamples := n, isInit := true }) >>= fun _ => do
        let s ← get
        raiseIf (s.set.numSamples != n) .kmSetAddition
        modSet fun t => { t with members := t.members ++ [r] }) (⟨hp, ⟨mem, num, ini⟩⟩ : SetSt K X) := by
    show (lift (hp.numSamples r) >>= _ : PyM (SetSt K X) Unit) _ = _
    rw [show hp.numSamples r = .ok n from h]
    rfl
  rw [key]
  by_cases hc : num = .unset ∧ ini = false
  · obtain ⟨rfl, rfl⟩ := hc
    show ((raiseIf (n != n) .kmSetAddition >>= fun _ => _ : PyM (SetSt K X) Unit) _) = _
    rw [bne_self_eq_false]
    rfl
  · have hn : num = n := by
      rcases ha with ha | ha
      · exact ha
      · exact absurd ⟨ha.2, ha.1⟩ hc
    subst hn
    have hb : (!ini && num == NumSamples.unset) = false := by
      rw [Bool.eq_false_iff]
      intro hb
      simp at hb
      exact hc ⟨hb.2, hb.1⟩
    rw [hb]
    show ((raiseIf (num != num) .kmSetAddition >>= fun _ => _ : PyM (SetSt K X) Unit) _) = _
    rw [bne_self_eq_false]
    show (_, _) = _
    congr 3
    rcases ini with _ | _
    · simpa using hb.symm
    · rfl

theorem appendRef_reject {s : SetSt K X} {r : Nat} {n : NumSamples} (h : s.heap.numSamples r = .ok n) (ha : ¬ s.set.Accepts n) :
    appendRef r s = (.error .kmSetAddition, s) := by
  obtain ⟨hp, ⟨mem, num, ini⟩⟩ := s
  show (lift (hp.numSamples r) >>= _ : PyM (SetSt K X) Unit) _ = _
  rw [show hp.numSamples r = .ok n from h]
  have h1 : num ≠ n := fun h => ha (.inl h)
  have hb : (!ini && num == NumSamples.unset) = false := by
    rw [Bool.eq_false_iff]
    intro hb
    simp at hb
    exact ha (.inr hb)
  show (when (!ini && num == .unset) _ >>= fun _ => _ : PyM (SetSt K X) Unit) _ = _
  rw [hb]
  show ((raiseIf (num != n) .kmSetAddition >>= fun _ => _ : PyM (SetSt K X) Unit) _) = _
  rw [show (num != n) = true from by simpa using h1]
  rfl

theorem appendRef_dangling {s : SetSt K X} {r : Nat} {e : PyErr} (h : s.heap.numSamples r = .error e) :
    appendRef r s = (.error e, s) := by
  show (lift (s.heap.numSamples r) >>= _ : PyM (SetSt K X) Unit) _ = _
  rw [h]
  rfl

/-- all outcomes of appending a reference -/
theorem appendRef_cases (s : SetSt K X) (r : Nat) :
    (∃ n, s.heap.numSamples r = .ok n ∧ s.set.Accepts n ∧
      appendRef r s = (.ok (), ⟨s.heap, ⟨s.set.members ++ [r], n, s.set.isInit || s.set.numSamples == .unset⟩⟩)) ∨
    ∃ e, appendRef r s = (.error e, s) := by
  rcases h : s.heap.numSamples r with e | n
  · exact .inr ⟨e, appendRef_dangling h⟩
  · by_cases ha : s.set.Accepts n
    · exact .inl ⟨n, rfl, ha, appendRef_ok h ha⟩
    · exact .inr ⟨_, appendRef_reject h ha⟩

/-- appending references to a set of known size -/
theorem forEach_appendRef {l : List Nat} {s : SetSt K X} {n : NumSamples} (hs : s.set.numSamples = n)
    (hi : s.set.isInit = true ∨ n ≠ .unset)
    (hl : ∀ r ∈ l, s.heap.numSamples r = .ok n) :
    forEach l appendRef s = (.ok (), ⟨s.heap, ⟨s.set.members ++ l, n, s.set.isInit⟩⟩) := by
  induction l generalizing s with
  | nil => obtain ⟨hp, ⟨mem, num, ini⟩⟩ := s; obtain rfl : num = n := hs; simp [forEach]
  | cons r l ih =>
    show (appendRef r >>= fun _ => forEach l appendRef) s = _
    have hini : (s.set.isInit || s.set.numSamples == .unset) = s.set.isInit := by
      rw [hs]
      rcases hi with hi | hi
      · simp [hi]
      · simp [hi]
    rw [bind_ok (appendRef_ok (hl r (by simp)) (.inl hs)), hini,
      ih (s := ⟨s.heap, ⟨s.set.members ++ [r], n, s.set.isInit⟩⟩) rfl hi fun x hx => hl x (by simp [hx])]
    simp

/-- appending references to a new set: the first one determines the size -/
theorem forEach_appendRef_new {l : List Nat} {h : Heap K X} {n : NumSamples} (hne : l ≠ [])
    (hl : ∀ r ∈ l, h.numSamples r = .ok n) :
    forEach l appendRef ⟨h, .new .unset⟩ = (.ok (), ⟨h, ⟨l, n, true⟩⟩) := by
  cases l with
  | nil => exact (hne rfl).elim
  | cons r l =>
    show (appendRef r >>= fun _ => forEach l appendRef) _ = _
    rw [bind_ok (appendRef_ok (n := n) (hl r (by simp)) (.inr ⟨rfl, rfl⟩))]
    show forEach l appendRef ⟨h, ⟨[r], n, true⟩⟩ = _
    rw [forEach_appendRef (n := n) rfl (.inl rfl) fun x hx => hl x (by simp [hx])]
    rfl

/-- in every case appending several references only adds some of them at the end, and leaves the heap alone -/
theorem forEach_appendRef_prefix (l : List Nat) (s : SetSt K X) :
    (forEach l appendRef s).2.heap = s.heap ∧
    ∃ p, p <+: l ∧ (forEach l appendRef s).2.set.members = s.set.members ++ p ∧
      ((forEach l appendRef s).1 = .ok () → p = l) := by
  induction l generalizing s with
  | nil => exact ⟨rfl, [], by simp, by simp [forEach], by simp⟩
  | cons r l ih =>
    have hrun : forEach (r :: l) appendRef s = (appendRef r >>= fun _ => forEach l appendRef) s := rfl
    rw [hrun]
    rcases appendRef_cases s r with ⟨n, -, -, h⟩ | ⟨e, h⟩
    · rw [bind_ok h]
      obtain ⟨h1, p, h2, h3, h4⟩ := ih ⟨s.heap, ⟨s.set.members ++ [r], n, s.set.isInit || s.set.numSamples == .unset⟩⟩
      refine ⟨h1, r :: p, ?_, ?_, ?_⟩
      · exact List.cons_prefix_cons.2 ⟨rfl, h2⟩
      · rw [h3]; simp
      · intro hok; rw [h4 hok]
    · rw [bind_error h]
      exact ⟨rfl, [], by simp, by simp, by simp⟩

theorem uniform_appendRef {s : SetSt K X} (r : Nat) (hu : s.set.Uniform s.heap) (hf : s.set.isInit = false → s.set.numSamples = .unset → s.set.members = []) :
    (appendRef r s).2.set.Uniform s.heap ∧
      ((appendRef r s).2.set.isInit = false → (appendRef r s).2.set.numSamples = .unset → (appendRef r s).2.set.members = []) := by
  rcases appendRef_cases s r with ⟨n, h1, h2, h⟩ | ⟨e, h⟩
  · rw [h]
    constructor
    · intro x hx
      simp only [List.mem_append, List.mem_singleton] at hx
      rcases hx with hx | rfl
      · rcases h2 with h2 | h2
        · rw [hu x hx, h2]
        · rw [hf h2.1 h2.2] at hx
          simp at hx
      · exact h1
    · intro hi hn
      exfalso
      simp only [Bool.or_eq_false_iff, beq_eq_false_iff_ne, ne_eq] at hi
      obtain rfl : n = .unset := hn
      rcases h2 with h2 | h2
      · exact hi.2 h2
      · exact hi.2 h2.2
  · rw [h]
    exact ⟨hu, hf⟩

end SetSt

namespace Heap

/-- numbers of samples of existing objects are the same -/
def Keeps (h h' : Heap K X) : Prop := ∀ r n, h.numSamples r = .ok n → h'.numSamples r = .ok n

theorem Keeps.refl (h : Heap K X) : Keeps h h := fun _ _ x => x
theorem Keeps.trans {h h' h'' : Heap K X} (a : Keeps h h') (b : Keeps h' h'') : Keeps h h'' := fun r n x => b r n (a r n x)

variable {env : Env K X F}

theorem Ok.alloc {h : Heap K X} (hok : Ok env h) (o : Obj K X)
    (ho : ∀ s, o = .km s → ∃ k norm, KMState.Reachable env k norm s) : Ok env (Heap.alloc o h).2 ∧ Keeps h (Heap.alloc o h).2 := by
  refine ⟨⟨?_, ?_⟩, ?_⟩
  · intro r hr
    show Function.update h.objs h.next (some o) r = none
    have hr' : h.next + 1 ≤ r := hr
    rw [Function.update_of_ne (by omega)]
    exact hok.1 r (by omega)
  · intro r s hr
    have hr' : Function.update h.objs h.next (some o) r = some (.km s) := hr
    by_cases h1 : r = h.next
    · subst h1
      rw [Function.update_self] at hr'
      exact ho s (by injection hr')
    · rw [Function.update_of_ne h1] at hr'
      exact hok.2 r s hr'
  · intro r n hr
    have h1 : r ≠ h.next := by
      rintro rfl
      unfold numSamples at hr
      rw [hok.1 _ (Nat.le_refl _)] at hr
      cases hr
    unfold numSamples at hr ⊢
    show (match Function.update h.objs h.next (some o) r with | some (.km s) => _ | some (.pre p) => _ | none => _) = _
    rw [Function.update_of_ne h1]
    exact hr

theorem call_km {h : Heap K X} {r : Nat} {s : KMState K X F} (m : PyM (KMState K X F) α) (hr : h.objs r = some (.km s)) :
    call r m h = ((m s).1, { h with objs := Function.update h.objs r (some (.km (m s).2)) }) := by
  unfold call; rw [hr]

theorem call_not_km {h : Heap K X} {r : Nat} (m : PyM (KMState K X F) α) (hr : ∀ s, h.objs r ≠ some (.km s)) :
    call r m h = (.error .attributeError, h) := by
  unfold call
  split
  · rename_i s h'
    exact absurd h' (hr s)
  · rfl

theorem call_cases (h : Heap K X) (r : Nat) (m : PyM (KMState K X F) α) :
    (∃ s, h.objs r = some (.km s) ∧
      call r m h = ((m s).1, { h with objs := Function.update h.objs r (some (.km (m s).2)) })) ∨
    ((∀ s, h.objs r ≠ some (.km s)) ∧ call r m h = (.error .attributeError, h)) := by
  by_cases hr : ∃ s, h.objs r = some (.km s)
  · obtain ⟨s, hr⟩ := hr
    exact .inl ⟨s, hr, call_km m hr⟩
  · simp only [not_exists] at hr
    exact .inr ⟨hr, call_not_km m hr⟩

theorem Ok.call {h : Heap K X} (hok : Ok env h) (r : Nat) (m : PyM (KMState K X F) α)
    (hm : ∀ k norm s, KMState.Reachable env k norm s → KMState.Reachable env k norm (m s).2) : Ok env (Heap.call r m h).2 := by
  rcases call_cases h r m with ⟨s, hr, hc⟩ | ⟨-, hc⟩
  · rw [hc]
    refine ⟨?_, ?_⟩
    · intro x hx
      show Function.update h.objs r _ x = none
      have : x ≠ r := by
        rintro rfl
        rw [hok.1 _ hx] at hr; cases hr
      rw [Function.update_of_ne this]
      exact hok.1 x hx
    · intro x s' hx
      have hx' : Function.update h.objs r (some (.km (m s).2)) x = some (.km s') := hx
      by_cases hxr : x = r
      · subst hxr
        rw [Function.update_self] at hx'
        obtain ⟨k, norm, hre⟩ := hok.2 x s hr
        obtain rfl : (m s).2 = s' := by injection hx' with hx'; injection hx'
        exact ⟨k, norm, hm _ _ _ hre⟩
      · rw [Function.update_of_ne hxr] at hx'
        exact hok.2 x s' hx'
  · rw [hc]; exact hok

theorem keeps_call (h : Heap K X) (r : Nat) (m : PyM (KMState K X F) α)
    (hm : ∀ s, h.objs r = some (.km s) → (m s).2.numSamples = s.numSamples) : Keeps h (Heap.call r m h).2 := by
  rcases call_cases h r m with ⟨s, hr, hc⟩ | ⟨-, hc⟩
  · rw [hc]
    intro x n hx
    unfold numSamples at hx ⊢
    show (match Function.update h.objs r (some (Obj.km (m s).2)) x with | some (.km s) => _ | some (.pre p) => _ | none => _) = _
    by_cases hxr : x = r
    · subst hxr
      rw [Function.update_self]
      rw [hr] at hx
      show Except.ok (m s).2.numSamples = _
      rw [hm s hr]; exact hx
    · rw [Function.update_of_ne hxr]; exact hx
  · rw [hc]; exact Keeps.refl _

/-- an idempotent successful method called on each of a list of kernel matrices -/
theorem forEach_call {l : List Nat} {h : Heap K X} {m : PyM (KMState K X F) Unit}
    (hl : ∀ r ∈ l, ∃ s, h.objs r = some (.km s)) (hm : ∀ s, (m s).1 = .ok ()) (hi : ∀ s, (m (m s).2).2 = (m s).2) :
    ∃ h', forEach l (fun r => Heap.call r m) h = (.ok (), h') ∧ h'.next = h.next ∧
      (∀ r, r ∉ l → h'.objs r = h.objs r) ∧
      ∀ r s, r ∈ l → h.objs r = some (.km s) → h'.objs r = some (.km (m s).2) := by
  induction l generalizing h with
  | nil => exact ⟨h, rfl, rfl, fun _ _ => rfl, fun _ _ h => by simp at h⟩
  | cons x l ih =>
    obtain ⟨s, hs⟩ := hl x (by simp)
    have hc := call_km m hs
    rw [hm s] at hc
    obtain ⟨h', h1, h2, h3, h4⟩ := ih (h := { h with objs := Function.update h.objs x (some (.km (m s).2)) }) (by
      intro r hr
      by_cases hrx : r = x
      · subst hrx; exact ⟨_, Function.update_self ..⟩
      · obtain ⟨s', hs'⟩ := hl r (by simp [hr])
        exact ⟨s', by rw [← hs']; exact Function.update_of_ne hrx _ _⟩)
    refine ⟨h', ?_, h2, ?_, ?_⟩
    · show (Heap.call x m >>= fun _ => forEach l _) h = _
      rw [bind_ok hc]; exact h1
    · intro r hr
      simp only [List.mem_cons, not_or] at hr
      rw [h3 r hr.2]; exact Function.update_of_ne hr.1 _ _
    · intro r t hr ht
      by_cases hrx : r = x
      · subst hrx
        obtain rfl : s = t := by rw [hs] at ht; injection ht with ht; injection ht
        by_cases hrl : r ∈ l
        · rw [h4 r (m s).2 hrl (Function.update_self ..), hi]
        · rw [h3 r hrl]; exact Function.update_self ..
      · have hrl : r ∈ l := by simpa [hrx] using hr
        exact h4 r t hrl (by rw [← ht]; exact Function.update_of_ne hrx _ _)

end Heap

namespace SetSt
theorem forEach_onHeap {ι : Type} (l : List ι) (f : ι → PyM (Heap K X) Unit) (s : SetSt K X) :
    forEach l (fun x => onHeap (f x)) s = ((forEach l f s.heap).1, { s with heap := (forEach l f s.heap).2 }) := by
  induction l generalizing s with
  | nil => rfl
  | cons x l ih =>
    show (onHeap (f x) >>= fun _ => forEach l _) s = _
    have hr : forEach (x :: l) f s.heap = (f x >>= fun _ => forEach l f) s.heap := rfl
    rw [hr]
    rcases hx : f x s.heap with ⟨e | u, h'⟩
    · rw [bind_error (m := onHeap (f x)) (s' := { s with heap := h' }) (e := e) (by unfold onHeap; rw [hx]), bind_error hx]
    · rw [bind_ok (m := onHeap (f x)) (s' := { s with heap := h' }) (a := u) (by unfold onHeap; rw [hx]), bind_ok hx, ih]
end SetSt

theorem SetSample.check_ok {sample : SetSample X} {n : Nat} (h : sample.check = .ok n) :
    ∃ A : Arr2 X, A.nrows = n ∧ Attachment.ofArgs sample.toSampleIn none = .ok ⟨A, none⟩ := by
  cases sample with
  | noDtype c => cases c <;> cases h
  | arr numeric shape row =>
    have h' : (ensureShape2D shape >>= fun sh => if numeric then pure sh.1 else .error .valueError) = .ok n := h
    rcases hs : ensureShape2D shape with e | ⟨a, b⟩
    · rw [hs] at h'; cases h'
    · rw [hs] at h'
      cases numeric with
      | false => cases h'
      | true =>
        obtain rfl : a = n := by injection h'
        refine ⟨⟨a, b, row⟩, rfl, (ofArgs_iff _ _ _).2 ⟨?_, trivial⟩⟩
        obtain ⟨k, hk⟩ := (ensureShape2D_iff _ _ _).1 hs
        exact ⟨k, by simp [toSampleIn, hk]⟩

open KMState in
theorem exec_numSamples {env : Env K X F} {k : K} {norm : Bool} {s : KMState K X F} (h : Reachable env k norm s) {op : KMOp X}
    (hop : op.isAttach = false) : (exec env op s).2.numSamples = s.numSamples := by
  by_cases hs : op.isSetAttr = true
  · cases op <;> simp [KMOp.isSetAttr] at hs
    rfl
  · exact (exec_ext env op s h.wf.square hop (by simpa using hs)).numSamples

end KMethods
