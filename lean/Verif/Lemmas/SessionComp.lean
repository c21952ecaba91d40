import Verif.Lemmas.SessionRun
import Verif.Lemmas.OptMachineOk
import Verif.Lemmas.Fits
/-!
# Composite kernels in programs
-/
namespace KMethods
open PyM
variable {K X α : Type} {env : Env K X F} {P : Fmt → Prop}

/-- the composite kernel `c` is `x`, its set exists -/
def HasComp (c : Nat) (x : Nat × Comp) (s : ProgSt K X) : Prop := s.loc.comps[c]? = some x ∧ x.1 < s.loc.sets.length

variable {c : Nat} {x : Nat × Comp}

theorem hasComp_onHeap (m : PyM (Heap K X) α) : Pres (HasComp c x) (ProgSt.onHeap m) := fun _ hs => hs

theorem hasComp_bindVar (r : Nat) : Pres (HasComp c x) (ProgSt.bindVar r : PyM (ProgSt K X) Unit) := fun _ hs => hs

theorem hasComp_bindSet (t : KSet) : Pres (HasComp c x) (ProgSt.bindSet t : PyM (ProgSt K X) Unit) := fun s hs =>
  ⟨hs.1, by
    show x.1 < (s.loc.sets ++ [t]).length
    rw [List.length_append]; exact hs.2.trans_le (Nat.le_add_right _ _)⟩

theorem hasComp_bindComp (i : Nat) (y : Comp) : Pres (HasComp c x) (ProgSt.bindComp i y : PyM (ProgSt K X) Unit) := fun s hs =>
  ⟨by
    show (s.loc.comps ++ [(i, y)])[c]? = some x
    rw [List.getElem?_append_left (List.getElem?_eq_some_iff.1 hs.1).1]; exact hs.1, hs.2⟩

theorem hasComp_var (l : Locals → List α) (v : Nat) : Pres (HasComp c x) (ProgSt.var l v : PyM (ProgSt K X) α) := .of_eq fun s => by
  rcases h : (l s.loc)[v]? with _ | y
  · rw [ProgSt.var_none h]
  · rw [ProgSt.var_some h]

theorem hasComp_onSet (i : Nat) (m : PyM (SetSt K X) α) : Pres (HasComp c x) (ProgSt.onSet i m) := fun s hs => by
  rcases h : s.loc.sets[i]? with _ | t
  · rw [ProgSt.onSet_none h]; exact hs
  · rw [ProgSt.onSet_some h]
    refine ⟨hs.1, ?_⟩
    show x.1 < (s.loc.sets.set i _).length
    rw [List.length_set]; exact hs.2

/-- a method call on a composite kernel -/
theorem ProgSt.onComp_some {s : ProgSt K X} {t : KSet} (h : s.loc.comps[c]? = some x) (ht : s.loc.sets[x.1]? = some t) (m : PyM (CompSt K X) α) :
    ProgSt.onComp c m s = ((m ⟨s.heap, t, x.2⟩).1, ⟨(m ⟨s.heap, t, x.2⟩).2.heap, { s.loc with sets := s.loc.sets.set x.1 (m ⟨s.heap, t, x.2⟩).2.set, comps := s.loc.comps.set c (x.1, (m ⟨s.heap, t, x.2⟩).2.comp) }⟩) :=
  (bind_ok (ProgSt.var_some (l := fun l => l.comps) h)).trans ((bind_ok (ProgSt.var_some (l := fun l => l.sets) ht)).trans rfl)

theorem hasComp_onComp (d : Nat) (m : PyM (CompSt K X) α) (h : d = c → ∀ s, (m s).2.comp = s.comp) : Pres (HasComp c x) (ProgSt.onComp d m) := fun s hs => by
  rcases h1 : s.loc.comps[d]? with _ | y
  · rw [show ProgSt.onComp d m s = _ from bind_error (ProgSt.var_none (l := fun l => l.comps) h1)]; exact hs
  rcases h2 : s.loc.sets[y.1]? with _ | t
  · rw [show ProgSt.onComp d m s = _ from (bind_ok (ProgSt.var_some (l := fun l => l.comps) h1)).trans (bind_error (ProgSt.var_none (l := fun l => l.sets) h2))]; exact hs
  rw [ProgSt.onComp_some h1 h2]
  refine ⟨?_, ?_⟩
  · show (s.loc.comps.set d _)[c]? = _
    by_cases hd : d = c
    · subst hd
      rw [hs.1] at h1
      obtain rfl := Option.some.inj h1
      rw [List.getElem?_set_self (List.getElem?_eq_some_iff.1 hs.1).1, h rfl]
    · rw [List.getElem?_set_ne hd]; exact hs.1
  · show x.1 < (s.loc.sets.set y.1 _).length
    rw [List.length_set]; exact hs.2

/-- a step that is not `c.fit(...)` leaves the composite kernel `c` alone -/
theorem hasComp_exec (op : POp K X) (hop : ∀ w, op ≠ .fit c w) : Pres (HasComp c x) (ProgSt.exec env op) := by
  cases op with
  | newKM k norm t => exact (hasComp_onHeap _).bind fun r => (hasComp_bindVar r).bind fun _ => .pure _
  | newPre x => exact (Pres.lift _).bind fun p => (hasComp_onHeap _).bind fun r => (hasComp_bindVar r).bind fun _ => .pure _
  | km v op => exact (hasComp_var _ _).bind fun r => (hasComp_onHeap _).bind fun _ => .pure _
  | full v => exact (hasComp_var _ _).bind fun r => (hasComp_onHeap _).bind fun _ => .pure _
  | newSet arg num => exact Pres.get fun s => (Pres.lift _).bind fun _ => (hasComp_onHeap _).bind fun t => (hasComp_bindSet t).bind fun _ => .pure _
  | append i a => exact Pres.get fun s => (Pres.lift _).bind fun _ => (hasComp_onSet i _).bind fun _ => .pure _
  | item i idx => exact (hasComp_onSet i _).bind fun r => (hasComp_bindVar r).bind fun _ => .pure _
  | size i => exact (hasComp_onSet i _).bind fun _ => .pure _
  | take i idx => exact (hasComp_onSet i _).bind fun t => (hasComp_bindSet t).bind fun _ => .pure _
  | extend i j => exact (hasComp_var _ _).bind fun t => (hasComp_onSet i _).bind fun _ => .pure _
  | attach i sample attr => exact (hasComp_onSet i _).bind fun _ => .pure _
  | setAttr i name values => exact (hasComp_onSet i _).bind fun _ => .pure _
  | getAttr i name default => exact (hasComp_onSet i _).bind fun _ => .pure _
  | newComposite cls i => exact (hasComp_var _ _).bind fun t => (Pres.lift _).bind fun y => (hasComp_bindComp i y).bind fun _ => .pure _
  | fit d w => exact (hasComp_onComp d _ fun hd => absurd (by rw [hd]) (hop w)).bind fun _ => .pure _
  | composite d => exact (hasComp_onComp d _ fun _ s => by rw [CompSt.compositeKM_eq]).bind fun _ => .pure _
  | combine i w norm => exact (hasComp_var _ _).bind fun t => (hasComp_onHeap _).bind fun _ => .pure _
  | rank i cv targets method p => exact (hasComp_onSet i _).bind fun _ => .pure _
  | find i isBucket cv sample targets method p => exact (hasComp_onSet i _).bind fun r => (hasComp_bindVar r).bind fun _ => .pure _
  | similarity i metric => exact (hasComp_var _ _).bind fun t => (hasComp_onHeap _).bind fun _ => .pure _
  | newBucket lib normalize skip vals => exact (hasComp_onHeap _).bind fun t => (hasComp_bindSet t.set).bind fun _ => .pure _
  | addKernels i flags cls param values => exact (hasComp_onSet i _).bind fun _ => .pure _

theorem hasComp_run (l : List (POp K X)) (hl : ∀ op ∈ l, ∀ w, op ≠ .fit c w) {s : ProgSt K X} (hs : HasComp c x s) : HasComp c x (ProgSt.run env l s).2 := by
  induction l generalizing s with
  | nil => exact hs
  | cons op l ih => exact ih (fun o ho => hl o (List.mem_cons_of_mem _ ho)) (hasComp_exec op (hl op List.mem_cons_self) s hs)

theorem fit_comp (w : Option WeightsIn) (s : CompSt K X) : (CompSt.fit env w s).2.comp.kind = s.comp.kind ∧ (CompSt.fit env w s).2.comp.numSamples = s.comp.numSamples := by
  obtain ⟨-, v, hv⟩ := CompSt.fitBody_frame (env := env) w s
  rw [CompSt.fit_run]
  rcases h : CompSt.fitBody env w s s with ⟨e | _, s'⟩ <;> rw [h] at hv <;> have hv' : s'.comp = { s.comp with km := v } := hv
  · show s'.comp.kind = _ ∧ s'.comp.numSamples = _
    rw [hv']; exact ⟨rfl, rfl⟩
  · show s'.comp.kind = _ ∧ s'.comp.numSamples = _
    rw [hv']; exact ⟨rfl, rfl⟩

/-- class, weights, number of samples and set of a composite kernel never change -/
def HasKind (c i : Nat) (k : CompKind) (num : NumSamples) (s : ProgSt K X) : Prop := ∃ y, HasComp c (i, y) s ∧ y.kind = k ∧ y.numSamples = num

theorem hasKind_exec {i : Nat} {k : CompKind} {num : NumSamples} (op : POp K X) : Pres (HasKind c i k num) (ProgSt.exec env op) := by
  rintro s ⟨y, hy, h1, h2⟩
  by_cases hop : ∀ w, op ≠ .fit c w
  · exact ⟨y, hasComp_exec op hop s hy, h1, h2⟩
  · obtain ⟨w, rfl⟩ : ∃ w, op = .fit c w := by
      by_contra h
      exact hop fun w e => h ⟨w, e⟩
    obtain ⟨t, ht⟩ : ∃ t, s.loc.sets[i]? = some t := ⟨_, List.getElem?_eq_getElem hy.2⟩
    have e : (ProgSt.exec env (.fit c w) s).2 = (ProgSt.onComp c (CompSt.fit env w) s).2 := by
      show ((ProgSt.onComp c (CompSt.fit env w) >>= fun _ => pure POut.none : PyM (ProgSt K X) POut) s).2 = _
      rw [bind_run]
      rcases ProgSt.onComp c (CompSt.fit env w) s with ⟨_ | _, _⟩ <;> rfl
    rw [e, ProgSt.onComp_some hy.1 ht]
    obtain ⟨h3, h4⟩ := fit_comp (env := env) w (⟨s.heap, t, y⟩ : CompSt K X)
    refine ⟨_, ⟨List.getElem?_set_self (List.getElem?_eq_some_iff.1 hy.1).1, ?_⟩, h3.trans h1, h4.trans h2⟩
    show i < (s.loc.sets.set i _).length
    rw [List.length_set]; exact hy.2

theorem hasKind_run {i : Nat} {k : CompKind} {num : NumSamples} (l : List (POp K X)) {s : ProgSt K X} (hs : HasKind c i k num s) : HasKind c i k num (ProgSt.run env l s).2 := by
  induction l generalizing s with
  | nil => exact hs
  | cons op l ih => exact ih (hasKind_exec op s hs)

/-- the composite kernel right after its construction -/
theorem exec_newComposite {s : ProgSt K X} {i : Nat} {t : KSet} {cls : CompClass} (ht : s.loc.sets[i]? = some t) (h : (ProgSt.exec env (.newComposite cls i) s).1 = .ok .none) :
    ∃ y, mkComposite cls (some t) = .ok y ∧ HasComp s.loc.comps.length (i, y) (ProgSt.exec env (.newComposite cls i) s).2 := by
  have e : ProgSt.exec env (.newComposite cls i) s = (lift (mkComposite cls (some t)) >>= fun y => ProgSt.bindComp i y >>= fun _ => pure .none : PyM (ProgSt K X) POut) s :=
    bind_ok (ProgSt.var_some (l := fun l => l.sets) ht)
  rw [e] at h ⊢
  rcases hc : mkComposite cls (some t) with err | y
  · rw [hc] at h; cases h
  · refine ⟨y, rfl, ?_, ?_⟩
    · show (s.loc.comps ++ [(i, y)])[s.loc.comps.length]? = _
      rw [List.getElem?_append_right (Nat.le_refl _), Nat.sub_self]; rfl
    · exact (List.getElem?_eq_some_iff.1 ht).1

/-- what `c.composite_KM` gives depends on the composite kernel only -/
theorem exec_composite {s : ProgSt K X} (hs : HasComp c x s) :
    (ProgSt.exec env (.composite c) s).1 =
      (if x.2.isFitted then (match x.2.km with | some M => .ok (.mat M) | none => .error .attributeError) else .error .valueError) := by
  obtain ⟨t, ht⟩ : ∃ t, s.loc.sets[x.1]? = some t := ⟨_, List.getElem?_eq_getElem hs.2⟩
  show ((ProgSt.onComp c CompSt.compositeKM >>= fun M => pure (POut.mat M) : PyM (ProgSt K X) POut) s).1 = _
  rw [bind_run, ProgSt.onComp_some hs.1 ht, CompSt.compositeKM_eq]
  simp only
  rcases x.2.isFitted with _ | _
  · rfl
  · rcases x.2.km with _ | M <;> rfl

/-- `fit` in a program -/
theorem exec_fit {s : ProgSt K X} {t : KSet} (h : s.loc.comps[c]? = some x) (ht : s.loc.sets[x.1]? = some t) {n : Nat} {w : Option WeightsIn} {A : Matrix (Fin n) (Fin n) ℝ}
    (hf : CompSt.Fits env P w ⟨s.heap, t, x.2⟩ A) :
    ∃ f, (ProgSt.exec env (.fit c w) s).1 = .ok .none ∧ (ProgSt.exec env (.composite c) (ProgSt.exec env (.fit c w) s).2).1 = .ok (.mat (f, Mat.ofReal A)) ∧
      ((∀ g, P g → g = .dense) → f = .dense) ∧ ∃ y, HasComp c y (ProgSt.exec env (.fit c w) s).2 := by
  obtain ⟨s', f, e1, e2, d⟩ := hf
  have e3 : ProgSt.exec env (.fit c w) s = (.ok .none, ⟨s'.heap, { s.loc with sets := s.loc.sets.set x.1 s'.set, comps := s.loc.comps.set c (x.1, s'.comp) }⟩) := by
    show (ProgSt.onComp c (CompSt.fit env w) >>= fun _ => pure POut.none : PyM (ProgSt K X) POut) s = _
    rw [bind_run, ProgSt.onComp_some h ht, e1]
    rfl
  have h4 : HasComp c (x.1, s'.comp) (ProgSt.exec env (.fit c w) s).2 := by
    rw [e3]
    refine ⟨List.getElem?_set_self (List.getElem?_eq_some_iff.1 h).1, ?_⟩
    show x.1 < (s.loc.sets.set x.1 _).length
    rw [List.length_set]; exact (List.getElem?_eq_some_iff.1 ht).1
  refine ⟨f, by rw [e3], ?_, d, _, h4⟩
  rw [exec_composite h4]
  rw [CompSt.compositeKM_eq] at e2
  simp only at e2 ⊢
  rcases h5 : s'.comp.isFitted with _ | _
  · rw [h5] at e2; cases e2
  · rw [h5] at e2
    rcases h6 : s'.comp.km with _ | M
    · rw [h6] at e2; cases e2
    · rw [h6] at e2
      obtain rfl := Except.ok.inj e2
      rfl

open CompSt in
/-- only the members up to the number of weights are used -/
theorem fits_weighted_take {n : Nat} {s : CompSt K X} {Ks : List (Matrix (Fin n) (Fin n) ℝ)} {l : List ℝ} {old new : List Nat} (hk : s.comp.kind = .weighted (l.map F.real))
    (hn : s.comp.numSamples = .one n) (hm : s.set.members = old ++ new) (hlen : old.length = l.length) (hg : s.heap.GivesAll env P old Ks) : s.Fits env P none (wsum l Ks) := by
  have hz : (l.map F.real).zip s.set.members = (l.map F.real).zip old := by
    rw [hm, show l.map F.real = l.map F.real ++ [] from (List.append_nil _).symm, List.zip_append (by rw [List.length_map]; exact hlen.symm)]
    simp
  obtain ⟨h', r, e, -, d⟩ := sum_loop (w := l) (env := env)
    (s := ⟨s.heap, s.set, { s.comp with km := some (.dense, Mat.ofReal fun (_ _ : Fin n) => (0 : ℝ)) }⟩) rfl hg
  have hb : fitBody env none s s = (.ok (), ⟨h', s.set, { s.comp with km := some (r, Mat.ofReal (wsum l Ks)) }⟩) := by
    unfold fitBody
    rw [hk]
    show weightedSum env (l.map F.real) s = _
    unfold weightedSum
    rw [get_bind_run, hn, hz]
    refine Eq.trans e ?_
    rw [show (fun i j => 0 + wsum l Ks i j) = wsum l Ks from by funext i j; rw [zero_add]]
  refine ⟨_, r, fit_ok hb, ?_, d rfl⟩
  rw [compositeKM_run rfl rfl]

end KMethods
