import Verif.Lemmas.Broken
import Verif.Lemmas.Composite
/-!
# Composite kernels with a member whose matrix cannot be computed
-/
namespace KMethods
open PyM
variable {K X : Type} {env : Env K X F} {r : Nat}

theorem PyM.forEach_raises {σ ι : Type} {I : σ → Prop} {f : ι → PyM σ Unit} {p : ι → Prop} (hr : ∀ x, p x → ∀ s, I s → ∃ e, (f x s).1 = .error e) (hq : ∀ x, ¬ p x → ∀ s, I s → I (f x s).2) {l : List ι}
    (hl : ∃ x ∈ l, p x) {s : σ} (hs : I s) : ∃ e, (forEach l f s).1 = .error e := by
  classical
  induction l generalizing s with
  | nil =>
    obtain ⟨x, hx, -⟩ := hl
    cases hx
  | cons q l ih =>
    show ∃ e, ((f q >>= fun _ => forEach l f) s).1 = .error e
    by_cases h : p q
    · exact raises_bind_left (hr q h s hs)
    · refine raises_bind fun x s1 e => ih ?_ ?_
      · obtain ⟨x, hx, hp⟩ := hl
        rcases List.mem_cons.1 hx with rfl | hx
        · exact absurd hp h
        · exact ⟨x, hx, hp⟩
      · have := hq q h s hs
        rwa [e] at this

namespace CompSt

/-- the matrix of object `r` cannot be computed -/
def Stuck (env : Env K X F) (r : Nat) (s : CompSt K X) : Prop := SetSt.Stuck env r ⟨s.heap, s.set⟩

theorem Stuck.congr {s s' : CompSt K X} (h : s.Stuck env r) (e : s'.heap.objs r = s.heap.objs r) : s'.Stuck env r := SetSt.Stuck.congr (s := ⟨s.heap, s.set⟩) (s' := ⟨s'.heap, s'.set⟩) h e

theorem Stuck.step_raises {s : CompSt K X} (h : s.Stuck env r) (f : Fmt × Mat F → Fmt × Mat F → Except PyErr (Fmt × Mat F)) : ∃ e, (step env f r s).1 = .error e := by
  unfold step
  refine raises_bind fun acc s1 e => raises_bind_left ?_
  have : s1 = s := by
    unfold getAttr at e
    dsimp only at e
    split at e
    · cases e; rfl
    · cases e
  subst this
  exact SetSt.Stuck.full h

theorem Stuck.step_other {s : CompSt K X} (h : s.Stuck env r) {q : Nat} (hq : q ≠ r) (f : Fmt × Mat F → Fmt × Mat F → Except PyErr (Fmt × Mat F)) : (step env f q s).2.Stuck env r := by
  show ((getAttr (·.comp.km) >>= _ : PyM (CompSt K X) Unit) s).2.Stuck env r
  rw [bind_run]
  unfold getAttr
  dsimp only
  rcases s.comp.km with _ | acc
  · exact h
  show ((onSet (SetSt.onHeap (Heap.full env q)) >>= _ : PyM (CompSt K X) Unit) s).2.Stuck env r
  have h2 : (onSet (SetSt.onHeap (Heap.full env q)) s).2.Stuck env r := SetSt.Stuck.other (s := ⟨s.heap, s.set⟩) h hq
  rcases e : onSet (SetSt.onHeap (Heap.full env q)) s with ⟨err | M, s1⟩
  · rw [bind_error e]; rwa [e] at h2
  · rw [bind_ok e]; rw [e] at h2
    show ((lift (f acc M) >>= _ : PyM (CompSt K X) Unit) s1).2.Stuck env r
    rcases f acc M with err | acc'
    · exact h2
    · exact h2

theorem weightedSum_raises {s : CompSt K X} (h : s.Stuck env r) (hr : r ∈ s.set.members) {l : List F} (hl : l.length = s.set.members.length) : ∃ e, (weightedSum env l s).1 = .error e := by
  unfold weightedSum
  rw [get_bind_run]
  refine raises_bind fun Z s1 e => ?_
  obtain rfl : s = s1 := congrArg Prod.snd e
  show ∃ e, (forEach (l.zip s.set.members) (fun p => step env (fun acc M => addStored acc (scaleStored p.1 M)) p.2) { s with comp := { s.comp with km := some (.dense, Z) } }).1 = .error e
  refine forEach_raises (I := Stuck env r) (p := fun p : F × Nat => p.2 = r) (fun x hx s hs => ?_) (fun x hx s hs => hs.step_other hx _) ?_ (h.congr rfl)
  · obtain rfl : x.2 = r := hx
    exact hs.step_raises _
  · obtain ⟨i, hi, rfl⟩ := List.getElem_of_mem hr
    exact ⟨(l[i]'(hl ▸ hi), s.set.members[i]), List.mem_iff_getElem.2 ⟨i, by simpa [hl] using hi, by simp⟩, rfl⟩

theorem members_raise {s : CompSt K X} (h : s.Stuck env r) (hr : r ∈ s.set.members) (Z : Mat F) (f : Fmt × Mat F → Fmt × Mat F → Except PyErr (Fmt × Mat F)) :
    ∃ e, (forEach s.set.members (step env f) { s with comp := { s.comp with km := some (.dense, Z) } }).1 = .error e :=
  forEach_raises (I := Stuck env r) (p := fun q => q = r) (fun x hx s hs => by
    subst hx
    exact hs.step_raises _) (fun x hx s hs => hs.step_other hx _) ⟨r, hr, rfl⟩ (h.congr rfl)

theorem fit_stuck {s : CompSt K X} (h : s.Stuck env r) (hr : r ∈ s.set.members) (hw : ∀ l, s.comp.kind = .weighted l → l.length = s.set.members.length) (w : Option WeightsIn) :
    ∃ e, (fit env w s).1 = .error e := by
  unfold fit
  rw [get_bind_run]
  refine raises_bind_left ?_
  unfold fitBody
  rcases hk : s.comp.kind with _ | _ | _ | l
  · refine raises_bind fun l s1 e => ?_
    obtain rfl : s = s1 := congrArg Prod.snd e
    refine weightedSum_raises h hr ?_
    have e := congrArg Prod.fst e
    change sumWeights s.set.members.length w = .ok l at e
    rcases w with _ | w
    · cases e
      exact List.length_replicate ..
    · unfold sumWeights at e
      dsimp only [Bind.bind, Except.bind] at e
      rcases hw1 : w.to1D with err | l'
      · rw [hw1] at e
        cases e
      · rw [hw1] at e
        dsimp only at e
        split_ifs at e with hlen
        cases e
        exact not_not.1 hlen
  · refine raises_bind fun _ s1 e => ?_
    have hs1 : s1 = s := by
      unfold raiseIf at e
      split at e
      · cases e
      · cases e; rfl
    subst hs1
    refine raises_bind fun Z s2 e => ?_
    obtain rfl : s1 = s2 := congrArg Prod.snd e
    exact members_raise h hr Z mulStored
  · refine raises_bind fun _ s1 e => ?_
    have hs1 : s1 = s := by
      unfold raiseIf at e
      split at e
      · cases e
      · cases e; rfl
    subst hs1
    refine raises_bind fun Z s2 e => ?_
    obtain rfl : s1 = s2 := congrArg Prod.snd e
    refine raises_bind fun _ s3 e => raises_bind_left ?_
    obtain rfl : { s1 with comp := { s1.comp with km := some (.dense, Z) } } = s3 := congrArg Prod.snd e
    exact members_raise h hr Z addStored
  · refine raises_bind fun _ s1 e => ?_
    have hs1 : s1 = s := by
      unfold raiseIf at e
      split at e
      · cases e
      · cases e; rfl
    subst hs1
    exact weightedSum_raises h hr (hw l hk)

end CompSt

theorem combLoop_raises {H : Heap K X} {t : KMState K X F} (ht : H.objs r = some (.km t)) {e : PyErr} (he : (KMState.full env t).1 = .error e) {l : List (F × Nat)} (hl : ∃ p ∈ l, p.2 = r) (acc : Fmt × Mat F) :
    ∃ e, (combLoop env l acc H).1 = .error e := by
  induction l generalizing H acc with
  | nil =>
    obtain ⟨x, hx, -⟩ := hl
    cases hx
  | cons q l ih =>
    show ∃ e, ((Heap.full env q.2 >>= fun M => lift (addStored acc (scaleStored q.1 M)) >>= fun acc' => combLoop env l acc' : PyM (Heap K X) (Fmt × Mat F)) H).1 = .error e
    by_cases h : q.2 = r
    · subst h
      exact raises_bind_left ⟨e, Heap.full_raises ht he⟩
    · refine raises_bind fun M H1 e1 => raises_bind fun acc' H2 e2 => ?_
      obtain rfl : H1 = H2 := congrArg Prod.snd e2
      refine ih ?_ ?_ acc'
      · have := Heap.full_objs_ne (env := env) h H
        rw [e1] at this
        exact this.trans ht
      · obtain ⟨x, hx, hp⟩ := hl
        rcases List.mem_cons.1 hx with rfl | hx
        · exact absurd hp h
        · exact ⟨x, hx, hp⟩

theorem linearCombination_raises {H : Heap K X} {t : KMState K X F} (ht : H.objs r = some (.km t)) {e : PyErr} (he : (KMState.full env t).1 = .error e) {u : KSet} (hr : r ∈ u.members) {w : WeightsIn} {l : List ℝ} (hw : w.IsVec l)
    (norm : Bool) :
    ∃ e, (linearCombination env u w norm H).1 = .error e := by
  unfold linearCombination
  refine raises_bind fun l' H1 e1 => raises_bind fun Z H2 e2 => ?_
  obtain rfl : H = H1 := congrArg Prod.snd e1
  obtain rfl : H = H2 := congrArg Prod.snd e2
  have e1 := congrArg Prod.fst e1
  change combWeights u.members.length w norm = .ok l' at e1
  have hlen : l'.length = u.members.length := by
    unfold combWeights at e1
    rw [hw.checked] at e1
    split_ifs at e1 with h1 h2
    · dsimp only [Bind.bind, Except.bind] at e1
      split_ifs at e1
      cases e1
      simp [h1]
    · cases e1
      simp [h1]
    all_goals cases e1
  refine combLoop_raises ht he ?_ _
  obtain ⟨i, hi, rfl⟩ := List.getElem_of_mem hr
  exact ⟨(l'[i]'(hlen ▸ hi), u.members[i]), List.mem_iff_getElem.2 ⟨i, by simpa [hlen] using hi, by simp⟩, rfl⟩

end KMethods
