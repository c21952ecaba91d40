import Verif.Lemmas.Tags
import Verif.Lemmas.OptMachine
import Verif.Props.RankingErrors
import Verif.Spec.Broken
/-!
# Computations that reach a kernel matrix whose computation fails
-/
namespace KMethods
open PyM

namespace PyM
variable {σ α β ι : Type}

theorem raises_bind {m : PyM σ α} {f : α → PyM σ β} {s : σ} (h : ∀ x s1, m s = (.ok x, s1) → ∃ e, (f x s1).1 = .error e) : ∃ e, ((m >>= f) s).1 = .error e := by
  rcases e : m s with ⟨err | x, s1⟩
  · exact ⟨err, by rw [bind_error e]⟩
  · rw [bind_ok e]
    exact h x s1 e

theorem raises_bind_left {m : PyM σ α} {f : α → PyM σ β} {s : σ} (h : ∃ e, (m s).1 = .error e) : ∃ e, ((m >>= f) s).1 = .error e :=
  raises_bind fun x s1 e => by
    obtain ⟨err, h⟩ := h
    rw [e] at h
    cases h

theorem mapEach_raises {I : σ → Prop} {f : ι → PyM σ β} {r : ι} (hr : ∀ s, I s → ∃ e, (f r s).1 = .error e) (hq : ∀ q, q ≠ r → ∀ s, I s → I (f q s).2) {l : List ι} (hl : r ∈ l) {s : σ} (hs : I s) :
    ∃ e, (mapEach l f s).1 = .error e := by
  classical
  induction l generalizing s with
  | nil => cases hl
  | cons q l ih =>
    show ∃ e, ((f q >>= fun y => mapEach l f >>= fun ys => pure (y :: ys)) s).1 = .error e
    by_cases h : q = r
    · subst h
      exact raises_bind_left (hr s hs)
    · refine raises_bind fun x s1 e => raises_bind_left (ih ?_ ?_)
      · rcases List.mem_cons.1 hl with rfl | hl
        · exact absurd rfl h
        · exact hl
      · have := hq q h s hs
        rwa [e] at this

end PyM

variable {K X : Type} {env : Env K X F} {r : Nat}

theorem Heap.full_objs_ne {q : Nat} (h : q ≠ r) (H : Heap K X) : (Heap.full env q H).2.objs r = H.objs r := by
  unfold Heap.full Heap.call
  split
  · rfl
  · split
    · exact Function.update_of_ne h.symm _ _
    · rfl

theorem Heap.full_raises {H : Heap K X} {t : KMState K X F} (ht : H.objs r = some (.km t)) {e : PyErr} (he : (KMState.full env t).1 = .error e) : (Heap.full env r H).1 = .error e := by
  unfold Heap.full
  rw [ht]
  show (Heap.call r (KMState.full env) H).1 = _
  rw [Heap.call_km _ ht]
  exact he

/-- object `r` is a kernel matrix object whose matrix cannot be computed -/
def SetSt.Stuck (env : Env K X F) (r : Nat) (s : SetSt K X) : Prop := ∃ t e, s.heap.objs r = some (.km t) ∧ (KMState.full env t).1 = .error e

theorem SetSt.Stuck.full {s : SetSt K X} (h : s.Stuck env r) : ∃ e, (SetSt.onHeap (Heap.full env r) s).1 = .error e := by
  obtain ⟨t, e, ht, he⟩ := h
  exact ⟨e, Heap.full_raises ht he⟩

theorem SetSt.Stuck.congr {s s' : SetSt K X} (h : s.Stuck env r) (e : s'.heap.objs r = s.heap.objs r) : s'.Stuck env r := by
  unfold SetSt.Stuck
  rw [e]
  exact h

theorem SetSt.Stuck.other {s : SetSt K X} (h : s.Stuck env r) {q : Nat} (hq : q ≠ r) : (SetSt.onHeap (Heap.full env q) s).2.Stuck env r := h.congr (Heap.full_objs_ne hq _)

/-- a ranking that reaches a kernel matrix that cannot be computed raises an exception -/
theorem rank_stuck {s : SetSt K X} (hr : r ∈ s.set.members) (h : s.Stuck env r) (cv : CVScore) (targets : List F) (method : String) (p : MethodParams) :
    ∃ e, (rankKernels env cv targets method p s).1 = .error e := by
  unfold rankKernels
  refine raises_bind fun _ s1 e => ?_
  have hs1 : s1 = s := by
    unfold raiseIf at e
    split at e
    · cases e
    · cases e
      rfl
  subst hs1
  have ha : ∀ q, q ≠ r → ∀ s : SetSt K X, s.Stuck env r → (alignScoreOne env targets p q s).2.Stuck env r := by
    intro q hq s hs
    show ((SetSt.onHeap (Heap.full env q) >>= _ : PyM (SetSt K X) F) s).2.Stuck env r
    have h2 := hs.other hq
    rcases e : SetSt.onHeap (Heap.full env q) s with ⟨err | M, s'⟩
    · rw [bind_error e]; rwa [e] at h2
    · rw [bind_ok e]; rw [e] at h2
      by_cases hp : (p.numFolds.isSome || p.estimatorName.isSome || p.other) = true
      · rw [hp]; exact h2
      · rw [Bool.eq_false_iff.2 hp]; exact h2
  have hc : ∀ q, q ≠ r → ∀ s : SetSt K X, s.Stuck env r → (cvScoreOne env cv p q s).2.Stuck env r := by
    intro q hq s hs
    show ((lift (getEstimator (some (p.estimatorName.getD "SVM"))) >>= _ : PyM (SetSt K X) F) s).2.Stuck env r
    rcases getEstimator (some (p.estimatorName.getD "SVM")) with err | est
    · exact hs
    show ((SetSt.onHeap (Heap.full env q) >>= _ : PyM (SetSt K X) F) s).2.Stuck env r
    have h2 := hs.other hq
    rcases e : SetSt.onHeap (Heap.full env q) s with ⟨err | M, s'⟩
    · rw [bind_error e]; rwa [e] at h2
    · rw [bind_ok e]; rw [e] at h2
      exact h2
  split
  · show ∃ e, (mapEach s1.set.members (alignScoreOne env targets p) s1).1 = .error e
    exact mapEach_raises (I := SetSt.Stuck env r) (f := alignScoreOne env targets p) (fun s hs => raises_bind_left hs.full) ha hr h
  · unfold cvRanking
    refine raises_bind fun _ s2 e => ?_
    have hs2 : s2 = s1 := by
      unfold raiseIf at e
      split at e
      · cases e
      · cases e
        rfl
    subst hs2
    show ∃ e, ((mapEach s2.set.members (cvScoreOne env cv p) >>= _ : PyM (SetSt K X) (List F)) s2).1 = .error e
    exact raises_bind_left (mapEach_raises (I := SetSt.Stuck env r) (f := cvScoreOne env cv p) (fun s hs => by
      unfold cvScoreOne
      refine raises_bind fun est s' e => raises_bind_left ?_
      have : s' = s := (congrArg Prod.snd e).symm
      subst this
      exact hs.full) hc hr h)

theorem forEach_attach {A : Arr2 X} {k : K} (l : List Nat) (H H' : Heap K X) {t : KMState K X F} (ht : H.objs r = some (.km t)) (hk : t.kernel = k)
    (e : forEach l (fun r => Heap.call r (KMState.attach (sampleArg A).toSampleIn none)) H = (.ok (), H')) :
    ∃ t', H'.objs r = some (.km t') ∧ t'.kernel = k ∧ (((∃ norm c o, t = KMState.attachedState k norm ⟨A, none⟩ c o) ∨ r ∈ l) → ∃ norm c o, t' = KMState.attachedState k norm ⟨A, none⟩ c o) := by
  induction l generalizing H t with
  | nil =>
    cases e
    exact ⟨t, ht, hk, fun h => h.resolve_right (by simp)⟩
  | cons q l ih =>
    have e' : (Heap.call q (KMState.attach (sampleArg A).toSampleIn none) >>= fun _ => forEach l _ : PyM (Heap K X) Unit) H = (.ok (), H') := e
    obtain ⟨_, H1, e1, e2⟩ := bind_ok_iff.1 e'
    by_cases h : q = r
    · subst h
      rw [Heap.call_km _ ht] at e1
      have hat : KMState.attach (sampleArg A).toSampleIn none t = (.ok (), KMState.attachedState t.kernel t.keepNormed ⟨A, none⟩ t.clock t.centeredKm) :=
        KMState.attach_ok _ _ t _ ((ofArgs_iff _ _ _).2 ⟨⟨0, rfl⟩, trivial⟩)
      rw [hat] at e1
      cases e1
      obtain ⟨t', h1, h2, h3⟩ := ih _ (t := KMState.attachedState t.kernel t.keepNormed ⟨A, none⟩ t.clock t.centeredKm) (Function.update_self _ _ _) hk e2
      exact ⟨t', h1, h2, fun _ => h3 (Or.inl ⟨_, _, _, by rw [hk]⟩)⟩
    · have hH1 : H1.objs r = H.objs r := by
        have : H1 = (Heap.call q (KMState.attach (sampleArg A).toSampleIn none) H).2 := by rw [e1]
        rw [this]
        unfold Heap.call
        split
        · exact Function.update_of_ne (fun h' => h h'.symm) _ _
        · rfl
      obtain ⟨t', h1, h2, h3⟩ := ih H1 (t := t) (hH1.trans ht) hk e2
      refine ⟨t', h1, h2, fun h4 => h3 (h4.imp_right fun h5 => ?_)⟩
      rcases List.mem_cons.1 h5 with rfl | h5
      · exact absurd rfl h
      · exact h5

/-- after `attach_to`, a kernel matrix that cannot be computed raises -/
theorem attach_stuck {A : Arr2 X} {s s' : SetSt K X} {t : KMState K X F} (hr : r ∈ s.set.members) (ht : s.heap.objs r = some (.km t)) (hb : env.BreaksOn t.kernel A)
    (e : SetSt.attach (sampleArg A) none s = (.ok (), s')) : s'.set.members = s.set.members ∧ ∃ t', s'.heap.objs r = some (.km t') ∧ (KMState.full env t').1 = .error .runtimeError := by
  unfold SetSt.attach at e
  replace e := bind_ok_iff.1 e
  obtain ⟨n, s1, e1, e⟩ := e
  obtain rfl : s1 = s := (congrArg Prod.snd e1).symm
  rw [get_bind_run] at e
  replace e := bind_ok_iff.1 e
  obtain ⟨_, s2, e2, e⟩ := e
  have h2 : s2 = s1 := by
    unfold raiseIf at e2
    split at e2
    · cases e2
    · cases e2
      rfl
  subst h2
  replace e := bind_ok_iff.1 e
  obtain ⟨_, s3, e3, e⟩ := e
  have h3 : s3 = { s2 with set := { s2.set with numSamples := .one n } } := (congrArg Prod.snd e3).symm
  replace e := bind_ok_iff.1 e
  obtain ⟨_, s4, e4, e⟩ := e
  obtain rfl : s4 = s' := congrArg Prod.snd e
  rw [SetSt.forEach_onHeap] at e4
  obtain ⟨e5, e6⟩ := Prod.mk.inj e4
  subst e6
  rw [h3] at e5 ⊢
  obtain ⟨t', h1, -, h4⟩ := forEach_attach (A := A) s2.set.members s2.heap _ ht rfl (Prod.ext e5 rfl)
  obtain ⟨norm, c, o, rfl⟩ := h4 (Or.inr hr)
  obtain ⟨i, j, hij, hj, hf⟩ := hb
  exact ⟨rfl, _, h1, KMState.full_pending (a := ⟨A, none⟩) (i := i) (j := j) hf (fun _ => hij) (lt_of_le_of_lt hij hj) hj norm c o⟩

end KMethods
