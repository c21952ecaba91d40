import Verif.Model.Iterate
import Verif.Spec.Iterate
import Verif.Lemmas.NpIndex
import Verif.Props.Access
import Verif.Props.Attach
/-!
# Lemmas on iteration
-/
namespace KMethods
open PyM KMState IndexSpec
variable {K X V σ α : Type}

/-- the outcome of a loop is unique -/
theorem Loop.unique {stops : PyErr → Bool} {get : Nat → PyM σ α} {i : Nat} {s : σ} {l l' : List α} {r r' : Except PyErr Unit} {t t' : σ} (h : Loop stops get i s l r t)
    (h' : Loop stops get i s l' r' t') : l = l' ∧ r = r' ∧ t = t' := by
  induction h generalizing l' with
  | next h1 _ ih =>
    cases h' with
    | next h2 h3 =>
      rw [h1] at h2; injection h2 with h2 h4; injection h2 with h2; subst h2; subst h4
      obtain ⟨rfl, rfl, rfl⟩ := ih h3
      exact ⟨rfl, rfl, rfl⟩
    | stop h2 => rw [h1] at h2; injection h2 with h2; cases h2
    | fail h2 => rw [h1] at h2; injection h2 with h2; cases h2
  | stop h1 h0 =>
    cases h' with
    | next h2 => rw [h1] at h2; injection h2 with h2; cases h2
    | stop h2 => rw [h1] at h2; injection h2 with _ h2; exact ⟨rfl, rfl, h2⟩
    | fail h2 h3 => rw [h1] at h2; injection h2 with h2; injection h2 with h2; subst h2; rw [h0] at h3; cases h3
  | fail h1 h0 =>
    cases h' with
    | next h2 => rw [h1] at h2; injection h2 with h2; cases h2
    | stop h2 h3 => rw [h1] at h2; injection h2 with h2; injection h2 with h2; subst h2; rw [h0] at h3; cases h3
    | fail h2 => rw [h1] at h2; injection h2 with h2 h4; injection h2 with h2; exact ⟨rfl, congrArg _ h2, h4⟩

theorem Finds.unique {stops : PyErr → Bool} {get : Nat → PyM σ α} {eq : α → Bool} {i : Nat} {s : σ} {r r' : Except PyErr Bool} {t t' : σ} (h : Finds stops get eq i s r t)
    (h' : Finds stops get eq i s r' t') : r = r' ∧ t = t' := by
  induction h with
  | found h1 h0 =>
    cases h' with
    | found h2 => rw [h1] at h2; injection h2 with _ h2; exact ⟨rfl, h2⟩
    | next h2 h3 => rw [h1] at h2; injection h2 with h2; injection h2 with h2; subst h2; rw [h0] at h3; cases h3
    | absent h2 => rw [h1] at h2; injection h2 with h2; cases h2
    | fail h2 => rw [h1] at h2; injection h2 with h2; cases h2
  | next h1 h0 _ ih =>
    cases h' with
    | found h2 h3 => rw [h1] at h2; injection h2 with h2; injection h2 with h2; subst h2; rw [h0] at h3; cases h3
    | next h2 h3 h4 => rw [h1] at h2; injection h2 with h2 h5; subst h5; exact ih h4
    | absent h2 => rw [h1] at h2; injection h2 with h2; cases h2
    | fail h2 => rw [h1] at h2; injection h2 with h2; cases h2
  | absent h1 h0 =>
    cases h' with
    | found h2 => rw [h1] at h2; injection h2 with h2; cases h2
    | next h2 => rw [h1] at h2; injection h2 with h2; cases h2
    | absent h2 => rw [h1] at h2; injection h2 with _ h2; exact ⟨rfl, h2⟩
    | fail h2 h3 => rw [h1] at h2; injection h2 with h2; injection h2 with h2; subst h2; rw [h0] at h3; cases h3
  | fail h1 h0 =>
    cases h' with
    | found h2 => rw [h1] at h2; injection h2 with h2; cases h2
    | next h2 => rw [h1] at h2; injection h2 with h2; cases h2
    | absent h2 h3 => rw [h1] at h2; injection h2 with h2; injection h2 with h2; subst h2; rw [h0] at h3; cases h3
    | fail h2 => rw [h1] at h2; injection h2 with h2 h4; injection h2 with h2; exact ⟨congrArg _ h2, h4⟩

theorem isSelection_int {n i : Nat} {r : List Nat} (hi : i < n) (h : IsSelection n (.int i) r) : r = [i] := by
  refine sorted_ext h.1 (List.pairwise_singleton _ _) fun j => ?_
  rw [h.2 j, List.mem_singleton]
  simp only [Selects]
  omega

theorem int_valid {n i : Nat} (hi : i < n) : ¬ Invalid n (.int i) := by
  show ¬ (_ ∨ _)
  generalize i = j at *
  omega

theorem sub_single (a : Attachment X) (kv : X → X → V) (i j : Nat) : a.sub kv [i] [j] = ⟨1, 1, fun _ _ => a.entry kv i j⟩ := by
  unfold Attachment.sub Mat.ofCells
  simp

theorem pos_lt {n m t : Nat} (ht : t < n * m) : t / m < n ∧ t % m < m := by
  have hm : 0 < m := Nat.pos_of_ne_zero fun h => by rw [h] at ht; simp at ht
  exact ⟨Nat.div_lt_of_lt_mul (by rwa [Nat.mul_comm]), Nat.mod_lt _ hm⟩

theorem whole_one {n m i j : Nat} (hi : i < n) (hj : j < m) (h : WholeKey n m (.pair (.int i) (.int j))) : n = 1 ∧ m = 1 := by
  have e1 := h.1 0 (by omega)
  have e2 := h.2 0 (by omega)
  have e3 := h.1 (n - 1) (by omega)
  have e4 := h.2 (m - 1) (by omega)
  simp only [Selects] at e1 e2 e3 e4
  omega

section
variable {env : Env K X V} {k : K} {norm : Bool} {a : Attachment X} {s : KMState K X V}

/-- `km[t]` with a position in range is `km[t // m, t % m]` -/
theorem kmAt_in (h : SinceAny env k norm a s) {t : Nat} (ht : t < a.nrows * a.ncols) :
    kmAt env t s = exec env (.getItem (.pair (.int (t / a.ncols : Nat)) (.int (t % a.ncols : Nat)))) s := by
  show exec env (.getItem (.linear t)) s = _
  rw [C06_linear_indexing h, if_pos ⟨by omega, by exact_mod_cast ht⟩]
  push_cast
  rfl

theorem kmAt_out (h : SinceAny env k norm a s) {t : Nat} (ht : a.nrows * a.ncols ≤ t) : kmAt env t s = (.error .valueError, s) := by
  show exec env (.getItem (.linear t)) s = _
  rw [C06_linear_indexing h, if_neg (by rintro ⟨_, h1⟩; have : t < a.nrows * a.ncols := by exact_mod_cast h1
                                        omega)]

theorem kmAt_state (h : SinceAny env k norm a s) (t : Nat) : SinceAny env k norm a (kmAt env t s).2 := .call _ h rfl trivial

theorem kmAt_clean (hf : NoFaultsOn env k a) (hq : Quiet env k a) (h : SinceAny env k norm a s) {t : Nat} (ht : t < a.nrows * a.ncols) :
    ∃ out, kmAt env t s = (.ok out, (kmAt env t s).2) ∧ a.IsElement (env.kval k) t out := by
  obtain ⟨h1, h2⟩ := pos_lt ht
  obtain ⟨rows, cols, fmt, hr, hc, _, _, he, _⟩ := C04_selection_semantics hf hq h (S := .int (t / a.ncols : Nat)) (T := .int (t % a.ncols : Nat))
    ⟨by rintro ⟨_, _, h⟩; simp at h, int_valid h1⟩ ⟨by rintro ⟨_, _, h⟩; simp at h, int_valid h2⟩
  rw [isSelection_int h1 hr, isSelection_int h2 hc, sub_single] at he
  exact ⟨_, by rw [← kmAt_in h ht] at he; exact Prod.ext he rfl, fmt, rfl⟩

/-- whatever happened before: if `km[t]` returns something, then the element -/
theorem kmAt_ok (h : SinceAny env k norm a s) {t : Nat} {out : KMOut V} (h1 : ¬ (a.nrows = 1 ∧ a.ncols = 1)) (hok : (kmAt env t s).1 = .ok out) :
    t < a.nrows * a.ncols ∧ out = .mat .dense ⟨1, 1, fun _ _ => a.entry (env.kval k) (t / a.ncols) (t % a.ncols)⟩ := by
  rcases Nat.lt_or_ge t (a.nrows * a.ncols) with ht | ht
  · refine ⟨ht, ?_⟩
    obtain ⟨h2, h3⟩ := pos_lt ht
    rw [kmAt_in h ht] at hok
    obtain ⟨rows, cols, hr, hc, e⟩ := C01_element_access h (fun hw => h1 (whole_one h2 h3 hw)) hok
    rw [e, isSelection_int h2 hr, isSelection_int h3 hc, sub_single]
  · rw [kmAt_out h ht] at hok
    cases hok

end

/-! ### `IndexError` -/

/-- never raises `IndexError` -/
def NoIdx (m : PyM σ α) : Prop := ∀ s, (m s).1 ≠ .error .indexError

theorem NoIdx.bind {β : Type} {m : PyM σ α} {f : α → PyM σ β} (h : NoIdx m) (hf : ∀ x, NoIdx (f x)) : NoIdx (m >>= f) := by
  intro s hs
  rw [bind_run] at hs
  have h1 := h s
  rcases hm : m s with ⟨e | x, s1⟩
  · rw [hm] at hs h1; exact h1 (by simpa using hs)
  · rw [hm] at hs; exact hf x s1 hs

theorem NoIdx.pure (x : α) : NoIdx (Pure.pure x : PyM σ α) := fun _ h => by cases h
theorem NoIdx.get : NoIdx (PyM.get : PyM σ σ) := fun _ h => by cases h
theorem NoIdx.modify (f : σ → σ) : NoIdx (PyM.modify f) := fun _ h => by cases h
theorem NoIdx.getAttr (f : σ → Option α) : NoIdx (PyM.getAttr f) := fun s h => by
  unfold PyM.getAttr at h
  rcases hf : f s with _ | x <;> rw [hf] at h <;> cases h
theorem NoIdx.when {c : Bool} {m : PyM σ Unit} (h : NoIdx m) : NoIdx (PyM.when c m) := by
  cases c
  · exact NoIdx.pure ()
  · exact h
theorem NoIdx.raiseIf {e : PyErr} (c : Bool) (h : e ≠ .indexError) : NoIdx (PyM.raiseIf c e : PyM σ Unit) := by
  cases c
  · exact NoIdx.pure ()
  · exact fun _ h' => h (by injection h')
theorem NoIdx.catchAll {e : PyErr} (m : PyM σ α) (h : e ≠ .indexError) : NoIdx (PyM.catchAll e m) := fun s h' => by
  unfold PyM.catchAll at h'
  rcases hm : m s with ⟨e' | x, s1⟩ <;> rw [hm] at h'
  · injection h' with h'; exact h h'
  · cases h'

theorem noIdx_populateFully (env : Env K X V) (d l : Bool) : NoIdx (populateFully env d l) := by
  refine .bind (.bind .get fun _ => .when (.bind (.getAttr _) fun _ => .bind (.modify _) fun _ => .bind (.catchAll _ (by decide)) fun _ => .modify _)) fun _ => ?_
  refine .bind (.bind .get fun _ => .when (.bind (.catchAll _ (by decide)) fun _ => .modify _)) fun _ => ?_
  refine .bind (.bind (.getAttr _) fun _ => .when (.modify _)) fun _ => ?_
  exact .bind (.bind (.getAttr _) fun _ => .bind (.getAttr _) fun _ => .pure _) fun _ => .bind .get fun _ => .raiseIf _ (by decide)

section
variable {env : Env K X V} {k : K} {norm : Bool} {a : Attachment X} {s : KMState K X V}

theorem evalAt_noIdx (h : AttachedTo env a s) {p : Nat × Nat} (h1 : p.1 < a.one.nrows) (h2 : p.2 < (a.two.getD a.one).nrows) : (evalAt env p s).1 ≠ .error .indexError := by
  unfold evalAt
  rw [get_bind_run]
  rcases s.cache.lookup p with _ | v
  · intro hs
    simp only at hs
    have r1 : rowAt (·.sample) .typeError p.1 s = (.ok (a.one.row p.1), s) := by
      unfold rowAt; beta_reduce; rw [h.sample]; simp only; rw [if_pos h1]
    have r2 : rowAt (·.sampleTwo) .attributeError p.2 s = (.ok ((a.two.getD a.one).row p.2), s) := by
      unfold rowAt; beta_reduce; rw [h.sampleTwo]; simp only; rw [if_pos h2]
    rw [bind_ok r1, bind_ok r2, bind_run] at hs
    rcases hc : callKernel env p (a.one.row p.1) ((a.two.getD a.one).row p.2) s with ⟨e | v, s1⟩
    · rw [hc] at hs
      unfold callKernel at hc
      split at hc
      · injection hc with hc; injection hc with hc; rw [← hc] at hs; simp at hs
      · injection hc with hc; cases hc
    · rw [hc] at hs; cases hs
  · intro hs; cases hs

theorem evalKernel_noIdx (h : AttachedTo env a s) {i j : Nat} (h1 : i < a.nrows) (h2 : j < a.ncols) : (evalKernel env i j s).1 ≠ .error .indexError := by
  rw [evalKernel_run]
  split
  · exact fun h => by cases h
  · unfold memoKey
    rw [h.two]
    rcases ht : a.two with _ | b
    · have hc : a.ncols = a.one.nrows := by unfold Attachment.ncols; rw [ht]
      have hr : a.nrows = a.one.nrows := rfl
      split
      · exact evalAt_noIdx h (by simp only; omega) (by rw [ht]; simp only [Option.getD_none]; omega)
      · exact evalAt_noIdx h (by simp only; omega) (by rw [ht]; simp only [Option.getD_none]; omega)
    · have hc : a.ncols = b.nrows := by unfold Attachment.ncols; rw [ht]
      have hr : a.nrows = a.one.nrows := rfl
      rw [if_neg (by simp)]
      exact evalAt_noIdx h (by simp only; omega) (by rw [ht]; simp only [Option.getD_some]; omega)

/-- `km[t]` never raises `IndexError` -/
theorem kmAt_noIdx (h : SinceAny env k norm a s) (t : Nat) : (kmAt env t s).1 ≠ .error .indexError := by
  rcases Nat.lt_or_ge t (a.nrows * a.ncols) with ht | ht
  swap
  · rw [kmAt_out h ht]; exact fun h => by cases h
  obtain ⟨h1, h2⟩ := pos_lt ht
  have hatt := h.attachedTo
  obtain ⟨one, e1, s1, _⟩ := getIndices_of_valid (n := a.nrows) (m := a.ncols) (idx := .int (t / a.ncols : Nat)) (dim := false)
    (by rintro ⟨_, _, h⟩; simp at h) (int_valid ‹_›)
  obtain ⟨two, e2, s2, _⟩ := getIndices_of_valid (n := a.nrows) (m := a.ncols) (idx := .int (t % a.ncols : Nat)) (dim := true)
    (by rintro ⟨_, _, h⟩; simp at h) (int_valid ‹_›)
  have g1 := isSelection_int h1 s1
  have g2 := isSelection_int h2 s2
  rw [kmAt_in h ht, exec_getItem_run, getItem_run_pair hatt.shape, e1, e2]
  simp only
  intro hs
  have hs : (if (one.2 && two.2) = true then (populateFully env false true >>= fun _ => fullMat) s else computeForIndexCombinations env one.1 two.1 s).1 = .error .indexError := by
    rcases hx : (if (one.2 && two.2) = true then (populateFully env false true >>= fun _ => fullMat) s else computeForIndexCombinations env one.1 two.1 s) with ⟨e | v, s3⟩
    · rw [hx] at hs; injection hs with hs; rw [hs]
    · rw [hx] at hs; cases hs
  split at hs
  · exact NoIdx.bind (noIdx_populateFully env false true) (fun _ => .bind (.getAttr _) fun _ => .bind (.getAttr _) fun _ => .pure _) s hs
  · unfold computeForIndexCombinations at hs
    rw [g1, g2] at hs
    have he := evalKernel_noIdx hatt h1 h2
    rw [bind_run] at hs
    rcases hv : evalKernel env (t / a.ncols) (t % a.ncols) s with ⟨e | v, s3⟩
    · rw [hv] at he
      have : mapEach (([t / a.ncols] : List Nat).flatMap fun i => ([t % a.ncols] : List Nat).map fun j => (i, j)) (fun p => evalKernel env p.1 p.2) s = (.error e, s3) := by
        show (evalKernel env (t / a.ncols) (t % a.ncols) >>= _ : PyM _ _) s = _
        rw [bind_error hv]
      rw [this] at hs
      exact he (by simpa using hs)
    · have : mapEach (([t / a.ncols] : List Nat).flatMap fun i => ([t % a.ncols] : List Nat).map fun j => (i, j)) (fun p => evalKernel env p.1 p.2) s = (.ok [v], s3) := by
        show (evalKernel env (t / a.ncols) (t % a.ncols) >>= _ : PyM _ _) s = _
        rw [bind_ok hv]; rfl
      rw [this] at hs
      cases hs


theorem loop_clean (stops : PyErr → Bool) (hs : stops .valueError = false) (hf : NoFaultsOn env k a) (hq : Quiet env k a) (d : Nat) : ∀ (i : Nat) (s : KMState K X V),
    SinceAny env k norm a s → i + d = a.nrows * a.ncols →
    ∃ l s', Loop stops (kmAt env) i s l (.error .valueError) s' ∧ SinceAny env k norm a s' ∧ l.length = d ∧ ∀ (t : Nat) (h : t < l.length), a.IsElement (env.kval k) (i + t) l[t] := by
  induction d with
  | zero =>
    intro i s h hi
    exact ⟨[], s, .fail (kmAt_out h (by omega)) hs, h, rfl, fun t ht => absurd ht (Nat.not_lt_zero t)⟩
  | succ d ih =>
    intro i s h hi
    obtain ⟨out, he, ho⟩ := kmAt_clean hf hq h (t := i) (by omega)
    obtain ⟨l, s', hl, h', hlen, hel⟩ := ih (i + 1) _ (kmAt_state h i) (by omega)
    refine ⟨out :: l, s', .next he hl, h', by rw [List.length_cons, hlen], fun t ht => ?_⟩
    cases t with
    | zero => exact ho
    | succ t =>
      have := hel t (by simpa using ht)
      rw [show i + 1 + t = i + (t + 1) by omega] at this
      exact this

theorem backwards_clean (stops : PyErr → Bool) (hf : NoFaultsOn env k a) (hq : Quiet env k a) (d : Nat) : ∀ (s : KMState K X V), SinceAny env k norm a s → d ≤ a.nrows * a.ncols →
    (backwards stops (kmAt env) d s).2.1 = .ok () ∧ SinceAny env k norm a (backwards stops (kmAt env) d s).2.2 ∧ (backwards stops (kmAt env) d s).1.length = d ∧
    ∀ (t : Nat) (h : t < (backwards stops (kmAt env) d s).1.length), a.IsElement (env.kval k) (d - 1 - t) (backwards stops (kmAt env) d s).1[t] := by
  induction d with
  | zero => exact fun s h _ => ⟨rfl, h, rfl, fun t ht => absurd ht (Nat.not_lt_zero t)⟩
  | succ d ih =>
    intro s h hd
    obtain ⟨out, he, ho⟩ := kmAt_clean hf hq h (t := d) (by omega)
    obtain ⟨h1, h2, h3, h4⟩ := ih _ (kmAt_state h d) (by omega)
    have hb : backwards stops (kmAt env) (d + 1) s = (out :: (backwards stops (kmAt env) d (kmAt env d s).2).1, (backwards stops (kmAt env) d (kmAt env d s).2).2) := by
      rw [backwards]; rw [he]
    refine ⟨by rw [hb]; exact h1, by rw [hb]; exact h2, by rw [hb, List.length_cons, h3], ?_⟩
    rw [hb]
    intro t ht
    cases t with
    | zero => exact ho
    | succ t =>
      have := h4 t (by simpa using ht)
      rw [show d - 1 - t = d + 1 - 1 - (t + 1) by omega] at this
      exact this

theorem finds_clean (stops : PyErr → Bool) (hs : stops .valueError = false) (hf : NoFaultsOn env k a) (hq : Quiet env k a) {eq : KMOut V → Bool} {p : V → Bool}
    (hp : ∀ fmt v, eq (.mat fmt ⟨1, 1, fun _ _ => v⟩) = p v) (d : Nat) : ∀ (i : Nat) (s : KMState K X V), SinceAny env k norm a s → i + d = a.nrows * a.ncols →
    ∃ r s', Finds stops (kmAt env) eq i s r s' ∧ SinceAny env k norm a s' ∧
      ((r = .ok true ∧ ∃ t, i ≤ t ∧ t < a.nrows * a.ncols ∧ p (a.entry (env.kval k) (t / a.ncols) (t % a.ncols)) = true) ∨
        (r = .error .valueError ∧ ∀ t, i ≤ t → t < a.nrows * a.ncols → p (a.entry (env.kval k) (t / a.ncols) (t % a.ncols)) = false)) := by
  induction d with
  | zero =>
    intro i s h hi
    exact ⟨_, s, .fail (kmAt_out h (by omega)) hs, h, Or.inr ⟨rfl, fun t h1 h2 => by omega⟩⟩
  | succ d ih =>
    intro i s h hi
    obtain ⟨out, he, fmt, rfl⟩ := kmAt_clean hf hq h (t := i) (by omega)
    rcases hv : p (a.entry (env.kval k) (i / a.ncols) (i % a.ncols))
    · obtain ⟨r, s', hl, h', hr⟩ := ih (i + 1) _ (kmAt_state h i) (by omega)
      refine ⟨r, s', .next he (by rw [hp]; exact hv) hl, h', ?_⟩
      rcases hr with ⟨hr, t, h1, h2⟩ | ⟨hr, hn⟩
      · exact Or.inl ⟨hr, t, by omega, h2⟩
      · refine Or.inr ⟨hr, fun t h1 h2 => ?_⟩
        rcases Nat.eq_or_lt_of_le h1 with rfl | h3
        · exact hv
        · exact hn t h3 h2
    · exact ⟨_, _, .found he (by rw [hp]; exact hv), kmAt_state h i, Or.inl ⟨rfl, i, le_refl i, by omega, hv⟩⟩

theorem loop_elements {stops : PyErr → Bool} {i : Nat} {s' : KMState K X V} {l : List (KMOut V)} {r : Except PyErr Unit} (hl : Loop stops (kmAt env) i s l r s')
    (h : SinceAny env k norm a s) (h1 : ¬ (a.nrows = 1 ∧ a.ncols = 1)) :
    (l = [] ∨ i + l.length ≤ a.nrows * a.ncols) ∧ ∀ (t : Nat) (h : t < l.length), a.IsElement (env.kval k) (i + t) l[t] := by
  induction hl with
  | next he _ ih =>
    rename_i i s s1 s2 v l r hl
    have hst : s1 = (kmAt env i s).2 := by rw [he]
    obtain ⟨h2, h3⟩ := ih (hst ▸ kmAt_state h i)
    obtain ⟨h4, h5⟩ := kmAt_ok (t := i) h h1 (by rw [he])
    refine ⟨Or.inr ?_, fun t ht => ?_⟩
    · rcases h2 with rfl | h2
      · simp only [List.length_cons, List.length_nil]; omega
      · simp only [List.length_cons]; omega
    · cases t with
      | zero => exact ⟨_, h5⟩
      | succ t =>
        have := h3 t (by simpa using ht)
        rw [show i + 1 + t = i + (t + 1) by omega] at this
        exact this
  | stop _ _ => exact ⟨Or.inl rfl, fun t ht => absurd ht (Nat.not_lt_zero t)⟩
  | fail _ _ => exact ⟨Or.inl rfl, fun t ht => absurd ht (Nat.not_lt_zero t)⟩

theorem loop_not_ok {b : Bool} {i : Nat} {s' : KMState K X V} {l : List (KMOut V)} {r : Except PyErr Unit} (hl : Loop (isIndexError b) (kmAt env) i s l r s')
    (h : SinceAny env k norm a s) (hr : r = .ok ()) : b = true := by
  induction hl with
  | next he _ ih =>
    rename_i i s s1 s2 v l r hl
    have hst : s1 = (kmAt env i s).2 := by rw [he]
    exact ih (hst ▸ kmAt_state h i) hr
  | stop he hs =>
    rename_i i s s1 e
    have := kmAt_noIdx h i
    rw [he] at this
    cases e <;> first | exact hs | exact absurd rfl this | exact absurd hs Bool.false_ne_true
  | fail _ _ => cases hr

theorem finds_not_absent {b : Bool} {eq : KMOut V → Bool} {i : Nat} {s' : KMState K X V} {r : Except PyErr Bool} (hl : Finds (isIndexError b) (kmAt env) eq i s r s')
    (h : SinceAny env k norm a s) (hr : r = .ok false) : b = true := by
  induction hl with
  | found _ _ => cases hr
  | next he _ _ ih =>
    rename_i i s s1 s2 v r _ _
    have hst : s1 = (kmAt env i s).2 := by rw [he]
    exact ih (hst ▸ kmAt_state h i) hr
  | absent he hs =>
    rename_i i s s1 e
    have := kmAt_noIdx h i
    rw [he] at this
    cases e <;> first | exact hs | exact absurd rfl this | exact absurd hs Bool.false_ne_true
  | fail _ _ => cases hr

end

theorem backwards_error {σ α : Type} {stops : PyErr → Bool} {get : Nat → PyM σ α} {e : PyErr} (n : Nat) : ∀ {s : σ}, (backwards stops get n s).2.1 = .error e → stops e = false := by
  induction n with
  | zero => intro s h; cases h
  | succ n ih =>
    intro s h
    rw [backwards] at h
    rcases hg : get n s with ⟨_ | v, s1⟩
    · rename_i e'
      rw [hg] at h
      simp only at h
      by_cases hs : stops e' = true
      · rw [if_pos hs] at h; cases h
      · rw [if_neg hs] at h
        cases h
        exact Bool.eq_false_iff.2 hs
    · rw [hg] at h
      exact ih h

/-! ### precomputed matrices -/

theorem npIndex_row (A : Mat F) (i : Nat) : A.npIndex (.single (.int i)) =
    (axisPos A.nrows i >>= fun a => (NpIdx.slice none none none).positions A.ncols >>= fun c => pure (.vec (c.map fun b => A.get a b))) := rfl

theorem preAt_in (p : Precomputed) {i : Nat} (hi : i < p.mat.nrows) : preAt p i () = (.ok (.vec (List.ofFn (p.mat.get ⟨i, hi⟩))), ()) := by
  have h1 : axisPos p.mat.nrows i = .ok ⟨i, hi⟩ := by
    unfold axisPos
    rw [dif_pos ⟨by omega, by exact_mod_cast hi⟩]
    rfl
  unfold preAt Precomputed.getItem
  rw [npIndex_row]
  rw [h1, positions_whole]
  show (Except.ok (NpOut.vec _), ()) = _
  rw [List.ofFn_eq_map]

theorem preAt_out (p : Precomputed) {i : Nat} (hi : p.mat.nrows ≤ i) : preAt p i () = (.error .kmAccess, ()) := by
  have h1 : axisPos p.mat.nrows i = .error .indexError := by
    unfold axisPos
    rw [dif_neg (by omega), dif_neg (by omega)]
  unfold preAt Precomputed.getItem
  rw [npIndex_row]
  rw [h1]
  rfl

theorem pre_loop (stops : PyErr → Bool) (hs : stops .kmAccess = false) (p : Precomputed) (d : Nat) : ∀ i, i + d = p.mat.nrows →
    ∃ l, Loop stops (preAt p) i () l (.error .kmAccess) () ∧ l.length = d ∧ ∀ (t : Nat) (h : t < l.length) (hi : i + t < p.mat.nrows), l[t] = .vec (List.ofFn (p.mat.get ⟨i + t, hi⟩)) := by
  induction d with
  | zero => exact fun i hi => ⟨[], .fail (preAt_out p (by omega)) hs, rfl, fun t ht => absurd ht (Nat.not_lt_zero t)⟩
  | succ d ih =>
    intro i hi
    obtain ⟨l, hl, hlen, hel⟩ := ih (i + 1) (by omega)
    refine ⟨_, .next (preAt_in p (by omega)) hl, by rw [List.length_cons, hlen], fun t ht h2 => ?_⟩
    cases t with
    | zero => rfl
    | succ t =>
      have := hel t (by simpa using ht) (by omega)
      simp only [show i + 1 + t = i + (t + 1) by omega] at this
      exact this

theorem pre_backwards (stops : PyErr → Bool) (p : Precomputed) (d : Nat) : d ≤ p.mat.nrows →
    (backwards stops (preAt p) d ()).2.1 = .ok () ∧ (backwards stops (preAt p) d ()).1.length = d ∧
    ∀ (t : Nat) (h : t < (backwards stops (preAt p) d ()).1.length) (hi : d - 1 - t < p.mat.nrows),
      (backwards stops (preAt p) d ()).1[t] = .vec (List.ofFn (p.mat.get ⟨d - 1 - t, hi⟩)) := by
  induction d with
  | zero => exact fun _ => ⟨rfl, rfl, fun t ht => absurd ht (Nat.not_lt_zero t)⟩
  | succ d ih =>
    intro hd
    obtain ⟨h1, h2, h3⟩ := ih (by omega)
    have hb : backwards stops (preAt p) (d + 1) () = (.vec (List.ofFn (p.mat.get ⟨d, by omega⟩)) :: (backwards stops (preAt p) d ()).1, (backwards stops (preAt p) d ()).2) := by
      rw [backwards, preAt_in p (by omega)]
    refine ⟨by rw [hb]; exact h1, by rw [hb, List.length_cons, h2], ?_⟩
    rw [hb]
    intro t ht hi
    cases t with
    | zero => rfl
    | succ t =>
      have := h3 t (by simpa using ht) (by omega)
      simp only [show d - 1 - t = d + 1 - 1 - (t + 1) by omega] at this
      exact this

end KMethods
