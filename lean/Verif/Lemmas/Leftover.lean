import Verif.Lemmas.BrokenComposite
import Verif.Lemmas.Fits
/-!
# What a failed `fit` of a composite kernel leaves behind
-/
namespace KMethods
open PyM
variable {K X : Type} {env : Env K X F} {P : Fmt → Prop}
namespace CompSt

theorem loop_stuck {ι : Type} (g : ι → Fmt × Mat F → Fmt × Mat F → Except PyErr (Fmt × Mat F)) (idx : ι → Nat) {r : Nat} {l : List ι} (hne : ∀ p ∈ l, idx p ≠ r) {s : CompSt K X} (h : s.Stuck env r) :
    (forEach l (fun p => step env (g p) (idx p)) s).2.Stuck env r := by
  induction l generalizing s with
  | nil => exact h
  | cons p l ih =>
    show ((step env (g p) (idx p) >>= fun _ => forEach l _) s).2.Stuck env r
    have h1 := h.step_other (hne p List.mem_cons_self) (g p)
    rw [bind_run]
    rcases hs : step env (g p) (idx p) s with ⟨e | u, s1⟩
    · rw [hs] at h1
      exact h1
    · rw [hs] at h1
      exact ih (fun q hq => hne q (List.mem_cons_of_mem _ hq)) h1

theorem forEach_append_ok {ι σ : Type} {f : ι → PyM σ Unit} {l₁ l₂ : List ι} {s s1 : σ} (h : forEach l₁ f s = (.ok (), s1)) : forEach (l₁ ++ l₂) f s = forEach l₂ f s1 := by
  induction l₁ generalizing s with
  | nil =>
    cases h
    rfl
  | cons p l ih =>
    change (f p >>= fun _ => forEach l f) s = _ at h
    show (f p >>= fun _ => forEach (l ++ l₂) f) s = _
    rw [bind_run] at h ⊢
    rcases hs : f p s with ⟨e | u, s2⟩ <;> rw [hs] at h
    · cases h
    · exact ih h

/-- the loop stops at the member whose matrix cannot be computed, with what has been accumulated -/
theorem loop_leftover {ι : Type} (g : ι → Fmt × Mat F → Fmt × Mat F → Except PyErr (Fmt × Mat F)) (idx : ι → Nat) {l₁ l₂ : List ι} {x : ι} (hne : ∀ p ∈ l₁, idx p ≠ idx x) {s s1 : CompSt K X}
    (h : s.Stuck env (idx x)) (h1 : forEach l₁ (fun p => step env (g p) (idx p)) s = (.ok (), s1)) :
    ∃ e s2, forEach (l₁ ++ x :: l₂) (fun p => step env (g p) (idx p)) s = (.error e, s2) ∧ s2.comp = s1.comp := by
  have h2 := loop_stuck g idx hne h
  rw [h1] at h2
  obtain ⟨e, he⟩ := h2.step_raises (g x)
  rw [forEach_append_ok h1]
  rcases hs : step env (g x) (idx x) s1 with ⟨e' | u, s2⟩
  · refine ⟨e', s2, ?_, ?_⟩
    · show (step env (g x) (idx x) >>= fun _ => forEach l₂ _) s1 = _
      exact bind_error hs
    · obtain ⟨t, e'', ht, he''⟩ := h2
      rw [step_cases] at hs
      rcases hk : s1.comp.km with _ | acc <;> rw [hk] at hs
      · cases hs
        rfl
      · dsimp only at hs
        have hf := Heap.full_raises (env := env) ht he''
        rcases hh : Heap.full env (idx x) s1.heap with ⟨e3 | M, h'⟩ <;> rw [hh] at hs hf
        · cases hs
          rfl
        · cases hf
  · rw [hs] at he
    cases he

/-- `fit` raises and afterwards `composite_KM` is the finite matrix `A` -/
theorem leaves_of_body {n : Nat} {w : Option WeightsIn} {s s2 : CompSt K X} {e : PyErr} {f : Fmt} {A : Matrix (Fin n) (Fin n) ℝ} (hb : fitBody env w s s = (.error e, s2)) (hf : s.comp.isFitted = true)
    (hc : s2.comp = { s.comp with km := some (f, Mat.ofReal A) }) : s.Leaves env w A := by
  refine ⟨e, s2, f, by rw [fit_run, hb], ?_⟩
  rw [compositeKM_eq, hc]
  show (if s.comp.isFitted = true then _ else _) = _
  rw [if_pos hf]

theorem weightedSum_leftover {n : Nat} {s : CompSt K X} {l₁ l₂ : List Nat} {r : Nat} {Ks : List (Matrix (Fin n) (Fin n) ℝ)} {l : List ℝ} (hm : s.set.members = l₁ ++ r :: l₂) (hl : l.length = s.set.members.length)
    (hn : s.comp.numSamples = .one n) (hg : s.heap.GivesAll env P l₁ Ks) (hr : r ∉ l₁) (h : s.Stuck env r) :
    ∃ e s2 f, weightedSum env (l.map F.real) s = (.error e, s2) ∧ s2.comp = { s.comp with km := some (f, Mat.ofReal (wsum l Ks)) } := by
  have hKs : Ks.length = l₁.length := (List.Forall₂.length_eq hg).symm
  have hlen : l₁.length < l.length := by rw [hl, hm]; simp
  let s0 : CompSt K X := ⟨s.heap, s.set, { s.comp with km := some (.dense, Mat.ofReal fun (_ _ : Fin n) => (0 : ℝ)) }⟩
  obtain ⟨h', f, e, -, -⟩ := sum_loop (w := l.take l₁.length) (env := env) (s := s0) rfl hg
  have hw : wsum (l.take l₁.length) Ks = wsum l Ks := by
    funext i j
    unfold wsum
    have : (l.take l₁.length).zip Ks = l.zip Ks := by
      rw [List.zip_eq_zip_take_min (l₁ := l), hKs, Nat.min_eq_right hlen.le, List.take_of_length_le hKs.le]
    rw [this]
  have hz : (l.map F.real).zip s.set.members = ((l.take l₁.length).map F.real).zip l₁ ++ (F.real l[l₁.length], r) :: ((l.drop (l₁.length + 1)).map F.real).zip l₂ := by
    have e1 : l.map F.real = (l.take l₁.length).map F.real ++ F.real l[l₁.length] :: (l.drop (l₁.length + 1)).map F.real := by
      conv_lhs => rw [← List.take_append_drop l₁.length l, List.drop_eq_getElem_cons hlen]
      rw [List.map_append, List.map_cons]
    rw [e1, hm, List.zip_append (by simp; omega)]
    rfl
  obtain ⟨err, s2, e2, hc⟩ := loop_leftover (env := env) (fun p : F × Nat => fun acc M => addStored acc (scaleStored p.1 M)) (fun p => p.2) (l₂ := ((l.drop (l₁.length + 1)).map F.real).zip l₂)
    (x := (F.real l[l₁.length], r)) (l₁ := ((l.take l₁.length).map F.real).zip l₁) (fun p hp h' => hr ((show p.2 = r from h') ▸ (List.of_mem_zip hp).2)) (s := s0) (Stuck.congr h rfl) e
  refine ⟨err, s2, f, ?_, ?_⟩
  · unfold weightedSum
    rw [get_bind_run, hn, hz]
    exact e2
  · rw [hc]
    simp only [zero_add, s0]
    rw [← hw]

theorem product_leftover {n : Nat} {s : CompSt K X} {l₁ l₂ : List Nat} {r : Nat} {Ks : List (Matrix (Fin n) (Fin n) ℝ)} (hm : s.set.members = l₁ ++ r :: l₂) (hk : s.comp.kind = .product)
    (hn : s.comp.numSamples = .one n) (hg : s.heap.GivesAll env IsDense l₁ Ks) (hr : r ∉ l₁) (h : s.Stuck env r) :
    ∃ e s2, fitBody env none s s = (.error e, s2) ∧ s2.comp = { s.comp with km := some (.dense, Mat.ofReal (eprod Ks)) } := by
  let s0 : CompSt K X := ⟨s.heap, s.set, { s.comp with km := some (.dense, Mat.ofReal fun (_ _ : Fin n) => (1 : ℝ)) }⟩
  obtain ⟨h', e, -⟩ := prod_loop (env := env) (Ks := Ks) (s := s0) rfl hg
  obtain ⟨err, s2, e2, hc⟩ := loop_leftover (env := env) (fun _ : Nat => mulStored) (fun q => q) (l₂ := l₂) (x := r) (l₁ := l₁) (fun p hp h' => hr (h' ▸ hp)) (s := s0) (Stuck.congr h rfl) e
  refine ⟨err, s2, ?_, ?_⟩
  · unfold fitBody
    rw [hk, hn, hm]
    exact e2
  · rw [hc]
    simp only [one_mul, s0]

theorem average_leftover {n : Nat} {s : CompSt K X} {l₁ l₂ : List Nat} {r : Nat} {Ks : List (Matrix (Fin n) (Fin n) ℝ)} (hm : s.set.members = l₁ ++ r :: l₂) (hk : s.comp.kind = .average)
    (hn : s.comp.numSamples = .one n) (hg : s.heap.GivesAll env P l₁ Ks) (hr : r ∉ l₁) (h : s.Stuck env r) :
    ∃ e s2 f, fitBody env none s s = (.error e, s2) ∧ s2.comp = { s.comp with km := some (f, Mat.ofReal fun i j => (Ks.map fun A => A i j).sum) } := by
  have hKs : Ks.length = l₁.length := (List.Forall₂.length_eq hg).symm
  let s0 : CompSt K X := ⟨s.heap, s.set, { s.comp with km := some (.dense, Mat.ofReal fun (_ _ : Fin n) => (0 : ℝ)) }⟩
  obtain ⟨h', f, e, -, -⟩ := sum_loop (w := List.replicate l₁.length 1) (env := env) (s := s0) rfl hg
  rw [← plain_loop] at e
  obtain ⟨err, s2, e2, hc⟩ := loop_leftover (env := env) (fun _ : Nat => addStored) (fun q => q) (l₂ := l₂) (x := r) (l₁ := l₁) (fun p hp h' => hr (h' ▸ hp)) (s := s0) (Stuck.congr h rfl) e
  refine ⟨err, s2, f, ?_, ?_⟩
  · unfold fitBody
    rw [hk, hn, hm]
    show ((forEach (l₁ ++ r :: l₂) (step env addStored) >>= _ : PyM (CompSt K X) Unit) s0) = _
    exact bind_error e2
  · rw [hc, ← hKs, wsum_replicate]
    simp only [zero_add, one_mul, s0]

end CompSt
end KMethods
