import Verif.Lemmas.SessionHeap
/-!
# What the steps of a program do to its sets
-/
namespace KMethods
open PyM
variable {K X α : Type} {env : Env K X F}

namespace KSet.Grown
theorem refl (t : KSet) : t.Grown t := ⟨List.prefix_rfl, fun _ => rfl⟩
theorem trans {a b c : KSet} (h : a.Grown b) (h' : b.Grown c) : a.Grown c := ⟨h.1.trans h'.1, fun hn => by rw [h'.2 (by rw [h.2 hn]; exact hn), h.2 hn]⟩
end KSet.Grown

/-! ## single sets -/

/-- the set is `t` -/
abbrev SetIs (t : KSet) (s : SetSt K X) : Prop := s.set = t
/-- the set has grown from `t` -/
abbrev SetGrown (t : KSet) (s : SetSt K X) : Prop := t.Grown s.set

variable {t : KSet}

theorem setIs_onHeap (m : PyM (Heap K X) α) : Pres (SetIs t) (SetSt.onHeap m) := fun _ hs => hs
theorem setGrown_onHeap (m : PyM (Heap K X) α) : Pres (SetGrown t) (SetSt.onHeap m) := fun _ hs => hs
theorem SetIs.grown {m : PyM (SetSt K X) α} (h : ∀ u, Pres (SetIs u) m) : Pres (SetGrown t) m := fun s hs => by
  show t.Grown (m s).2.set
  rw [h s.set s rfl]
  exact hs

theorem setGrown_appendRef (r : Nat) : Pres (SetGrown t) (SetSt.appendRef r : PyM (SetSt K X) Unit) := fun s hs => by
  rcases SetSt.appendRef_cases s r with ⟨n, -, ha, e⟩ | ⟨e, h⟩
  · rw [e]
    refine KSet.Grown.trans hs ⟨List.prefix_append _ _, fun hn => ?_⟩
    rcases ha with h | h
    · exact h.symm
    · exact absurd h.2 hn
  · rw [h]; exact hs

theorem setGrown_append (a : AppendArg) : Pres (SetGrown t) (SetSt.append a : PyM (SetSt K X) Unit) := by
  cases a with
  | ref r => exact setGrown_appendRef r
  | kernelFunc => exact .of_eq fun _ => rfl
  | other x => exact (Pres.lift _).bind fun p => (setGrown_onHeap _).bind fun r => setGrown_appendRef r

theorem setGrown_extend (u : KSet) : Pres (SetGrown t) (SetSt.extend (some u) : PyM (SetSt K X) Unit) :=
  .get fun _ => (Pres.raiseIf _ _).bind fun _ => .forEach fun r => setGrown_appendRef r

theorem setGrown_addParametrized {V : Type} (f : BucketFlags) (cls : KernelClassArg K V) (param : String) (values : ValuesArg V) :
    Pres (SetGrown t) (SetSt.addParametrized f cls param values : PyM (SetSt K X) Unit) := by
  have h : ∀ norm k, Pres (SetGrown t) (SetSt.appendNew norm k : PyM (SetSt K X) Unit) := fun norm k => (Pres.lift _).bind fun _ => (setGrown_onHeap _).bind fun r => setGrown_appendRef r
  cases cls with
  | other => exact .of_eq fun _ => rfl
  | cls build =>
    cases values with
    | none => exact .pure _
    | notIterable => exact .of_eq fun _ => rfl
    | unsized => exact .of_eq fun _ => rfl
    | seq l => exact (Pres.raiseIf _ _).bind fun _ => .forEach fun v => fun s hs => h f.norm (build f.skip param v) s hs

theorem setGrown_attach (sample : SetSample X) (attr : Option (String × String)) : Pres (SetGrown t) (SetSt.attach sample attr : PyM (SetSt K X) Unit) := by
  refine (Pres.lift _).bind fun n => fun s hs => ?_
  rw [get_bind_run]
  rcases hc : (s.set.numSamples != .unset && s.set.numSamples != .one n) with _ | _
  · have h1 : s.set.numSamples = .unset ∨ s.set.numSamples = .one n := by
      by_contra h
      rw [not_or] at h
      simp [h.1, h.2] at hc
    have h2 : t.Grown { s.set with numSamples := .one n } := KSet.Grown.trans hs ⟨List.prefix_rfl, fun hn => by rcases h1 with h | h; exacts [absurd h hn, h.symm]⟩
    have h3 : Pres (SetGrown t) ((do
        forEach s.set.members fun r => SetSt.onHeap (Heap.call r (KMState.attach sample.toSampleIn none))
        match attr with
        | none => pure ()
        | some a => forEach s.set.members fun r => SetSt.onHeap (Heap.call r (KMState.setAttr a.1 a.2)) : PyM (SetSt K X) Unit)) := by
      refine (Pres.forEach fun r => setGrown_onHeap _).bind fun _ => ?_
      cases attr with
      | none => exact .pure _
      | some a => exact .forEach fun r => setGrown_onHeap _
    exact h3 { s with set := { s.set with numSamples := .one n } } h2
  · exact hs

theorem setIs_getItem (idx : SetIdx) : Pres (SetIs t) (SetSt.getItem idx : PyM (SetSt K X) Nat) := by
  cases idx with
  | other => exact .of_eq fun _ => rfl
  | intList => exact .of_eq fun _ => rfl
  | int i => exact .get fun _ => (Pres.raiseIf _ _).bind fun _ => .pure _

theorem setIs_setAttr (name : String) (values : AttrVals) : Pres (SetIs t) (SetSt.setAttr name values : PyM (SetSt K X) Unit) := by
  refine .get fun s => ?_
  cases values with
  | unsized => exact .of_eq fun _ => rfl
  | scalar v => exact .forEach fun r => setIs_onHeap _
  | seq l => exact (Pres.raiseIf _ _).bind fun _ => .forEach fun p => setIs_onHeap _

theorem setIs_rank (cv : CVScore) (targets : List F) (method : String) (p : MethodParams) : Pres (SetIs t) (rankKernels env cv targets method p : PyM (SetSt K X) (List F)) := by
  refine (Pres.raiseIf _ _).bind fun _ => ?_
  split_ifs
  · exact .get fun _ => .mapEach fun r => (setIs_onHeap _).bind fun _ => (Pres.raiseIf _ _).bind fun _ => .lift _
  · exact (Pres.raiseIf _ _).bind fun _ => .get fun _ => (Pres.mapEach fun r => (Pres.lift _).bind fun _ => (setIs_onHeap _).bind fun _ => .lift _).bind fun _ =>
      (Pres.lift _).bind fun _ => .pure _

theorem setGrown_find (cv : CVScore) (c : Bool) (sample : SetSample X) (targets : List F) (method : String) (p : MethodParams) :
    Pres (SetGrown t) (findOptimalKernel env cv c sample targets method p : PyM (SetSt K X) Nat) :=
  (Pres.raiseIf _ _).bind fun _ => (Pres.raiseIf _ _).bind fun _ => (setGrown_attach sample none).bind fun _ => (SetIs.grown fun _ => setIs_rank cv targets method p).bind fun _ => (Pres.lift _).bind fun _ =>
    SetIs.grown fun _ => setIs_getItem _

/-! ## composite kernels -/

/-- the set of the composite kernel is `t` -/
abbrev CompSetIs (t : KSet) (s : CompSt K X) : Prop := s.set = t

theorem compSetIs_step (f : Fmt × Mat F → Fmt × Mat F → Except PyErr (Fmt × Mat F)) (r : Nat) : Pres (CompSetIs t) (CompSt.step env f r : PyM (CompSt K X) Unit) :=
  (Pres.getAttr _).bind fun _ => Pres.bind (fun _ hs => hs) fun _ => (Pres.lift _).bind fun _ => fun _ hs => hs

theorem compSetIs_weightedSum (l : List F) : Pres (CompSetIs t) (CompSt.weightedSum env l : PyM (CompSt K X) Unit) :=
  .get fun _ => (Pres.lift _).bind fun _ => Pres.bind (fun _ hs => hs) fun _ => .forEach fun _ => compSetIs_step _ _

theorem compSetIs_fit (w : Option WeightsIn) : Pres (CompSetIs t) (CompSt.fit env w : PyM (CompSt K X) Unit) := by
  refine .get fun s => Pres.bind ?_ fun _ => fun _ hs => hs
  unfold CompSt.fitBody
  rcases s.comp.kind with _ | _ | _ | l
  · exact (Pres.lift _).bind fun _ => compSetIs_weightedSum _
  · exact (Pres.raiseIf _ _).bind fun _ => (Pres.lift _).bind fun _ => Pres.bind (fun _ hs => hs) fun _ => .forEach fun _ => compSetIs_step _ _
  · refine (Pres.raiseIf _ _).bind fun _ => (Pres.lift _).bind fun _ => Pres.bind (fun _ hs => hs) fun _ => Pres.bind (.forEach fun _ => compSetIs_step _ _) fun _ => ?_
    exact (Pres.getAttr _).bind fun _ => fun _ hs => hs
  · exact (Pres.raiseIf _ _).bind fun _ => compSetIs_weightedSum _

/-! ## programs -/

/-- the sets `sets` are still there, have grown, and only those satisfying `T` have changed -/
def Kept (T : Nat → Prop) (sets : List KSet) (s : ProgSt K X) : Prop :=
  ∀ j t, sets[j]? = some t → ∃ t', s.loc.sets[j]? = some t' ∧ t.Grown t' ∧ (¬ T j → t' = t)

variable {T : Nat → Prop} {sets : List KSet}

theorem kept_same {m : PyM (ProgSt K X) α} (h : ∀ s, (m s).2.loc.sets = s.loc.sets) : Pres (Kept T sets) m := fun s hs j t ht => by
  rw [h s]; exact hs j t ht
theorem kept_onHeap (m : PyM (Heap K X) α) : Pres (Kept T sets) (ProgSt.onHeap m) := kept_same fun _ => rfl
theorem kept_var (l : Locals → List α) (v : Nat) : Pres (Kept T sets) (ProgSt.var l v : PyM (ProgSt K X) α) := .of_eq fun s => by
  unfold ProgSt.var
  cases (l s.loc)[v]? <;> rfl
theorem kept_bindVar (r : Nat) : Pres (Kept T sets) (ProgSt.bindVar r : PyM (ProgSt K X) Unit) := kept_same fun _ => rfl
theorem kept_bindComp (i : Nat) (c : Comp) : Pres (Kept T sets) (ProgSt.bindComp i c : PyM (ProgSt K X) Unit) := kept_same fun _ => rfl
theorem kept_bindSet (u : KSet) : Pres (Kept T sets) (ProgSt.bindSet u : PyM (ProgSt K X) Unit) := fun s hs j t ht => by
  obtain ⟨t', h, h'⟩ := hs j t ht
  exact ⟨t', prefix_get (List.prefix_append _ _) h, h'⟩

theorem kept_set {s s' : ProgSt K X} (hs : Kept T sets s) {i : Nat} {u u' : KSet} (hu : s.loc.sets[i]? = some u) (e : s'.loc.sets = s.loc.sets.set i u') (hg : u.Grown u') (hT : ¬ T i → u' = u) : Kept T sets s' := fun j t ht => by
  obtain ⟨t', h, h1, h2⟩ := hs j t ht
  rw [e]
  by_cases hj : i = j
  · subst hj
    rw [hu] at h
    cases h
    exact ⟨u', by rw [List.getElem?_set_self (List.getElem?_eq_some_iff.1 hu).1], h1.trans hg, fun hn => by rw [hT hn, h2 hn]⟩
  · exact ⟨t', by rw [List.getElem?_set_ne hj, h], h1, h2⟩

theorem kept_onSet {i : Nat} (hi : T i) {m : PyM (SetSt K X) α} (h : ∀ t, Pres (SetGrown t) m) : Pres (Kept T sets) (ProgSt.onSet i m) := fun s hs => by
  rcases hu : s.loc.sets[i]? with _ | u
  · rw [ProgSt.onSet_none hu]; exact hs
  · rw [ProgSt.onSet_some hu]
    exact kept_set hs hu rfl (h u ⟨s.heap, u⟩ (.refl u)) fun hn => absurd hi hn

theorem kept_onSet_same (i : Nat) {m : PyM (SetSt K X) α} (h : ∀ t, Pres (SetIs t) m) : Pres (Kept T sets) (ProgSt.onSet i m) := fun s hs => by
  rcases hu : s.loc.sets[i]? with _ | u
  · rw [ProgSt.onSet_none hu]; exact hs
  · rw [ProgSt.onSet_some hu]
    have e : (m ⟨s.heap, u⟩).2.set = u := h u ⟨s.heap, u⟩ rfl
    exact kept_set hs hu rfl (by rw [e]; exact .refl u) fun _ => e

theorem kept_onComp (c : Nat) {m : PyM (CompSt K X) α} (h : ∀ t, Pres (CompSetIs t) m) : Pres (Kept T sets) (ProgSt.onComp c m) := fun s hs => by
  rcases hx : s.loc.comps[c]? with _ | x
  · have : ProgSt.onComp c m s = (.error .nameError, s) := bind_error (ProgSt.var_none (l := fun l => l.comps) hx)
    rw [this]; exact hs
  rcases hu : s.loc.sets[x.1]? with _ | u
  · have : ProgSt.onComp c m s = (.error .nameError, s) := (bind_ok (ProgSt.var_some (l := fun l => l.comps) hx)).trans (bind_error (ProgSt.var_none (l := fun l => l.sets) hu))
    rw [this]; exact hs
  · rw [ProgSt.onComp_some hx hu]
    have e : (m ⟨s.heap, u, x.2⟩).2.set = u := h u ⟨s.heap, u, x.2⟩ rfl
    exact kept_set hs hu rfl (by rw [e]; exact .refl u) fun _ => e

theorem kept_exec (op : POp K X) (hop : ∀ j, op.target = some j → T j) : Pres (Kept T sets) (ProgSt.exec env op) := by
  cases op with
  | newKM k norm t => exact (kept_onHeap _).bind fun r => (kept_bindVar r).bind fun _ => .pure _
  | newPre x => exact (Pres.lift _).bind fun p => (kept_onHeap _).bind fun r => (kept_bindVar r).bind fun _ => .pure _
  | km v op => exact (kept_var _ _).bind fun r => (kept_onHeap _).bind fun _ => .pure _
  | full v => exact (kept_var _ _).bind fun r => (kept_onHeap _).bind fun _ => .pure _
  | newSet arg num => exact Pres.get fun s => (Pres.lift _).bind fun _ => (kept_onHeap _).bind fun t => (kept_bindSet t).bind fun _ => .pure _
  | append i a => exact Pres.get fun s => (Pres.lift _).bind fun _ => (kept_onSet (hop i rfl) fun _ => setGrown_append _).bind fun _ => .pure _
  | item i idx => exact (kept_onSet_same i fun _ => setIs_getItem idx).bind fun r => (kept_bindVar r).bind fun _ => .pure _
  | size i => exact (kept_onSet_same i fun _ => .get fun _ => .pure _).bind fun _ => .pure _
  | take i idx => exact (kept_onSet_same i fun _ => .get fun _ => (Pres.lift _).bind fun _ => .lift _).bind fun t => (kept_bindSet t).bind fun _ => .pure _
  | extend i j => exact (kept_var _ _).bind fun t => (kept_onSet (hop i rfl) fun _ => setGrown_extend t).bind fun _ => .pure _
  | attach i sample attr => exact (kept_onSet (hop i rfl) fun _ => setGrown_attach _ _).bind fun _ => .pure _
  | setAttr i name values => exact (kept_onSet_same i fun _ => setIs_setAttr _ _).bind fun _ => .pure _
  | getAttr i name default => exact (kept_onSet_same i fun _ => .get fun _ => .mapEach fun r => setIs_onHeap _).bind fun _ => .pure _
  | newComposite cls i => exact (kept_var _ _).bind fun t => (Pres.lift _).bind fun y => (kept_bindComp i y).bind fun _ => .pure _
  | fit d w => exact (kept_onComp d fun _ => compSetIs_fit w).bind fun _ => .pure _
  | composite d => exact (kept_onComp d fun _ => .get fun _ => (Pres.raiseIf _ _).bind fun _ => .getAttr _).bind fun _ => .pure _
  | combine i w norm => exact (kept_var _ _).bind fun t => (kept_onHeap _).bind fun _ => .pure _
  | rank i cv targets method p => exact (kept_onSet_same i fun _ => setIs_rank _ _ _ _).bind fun _ => .pure _
  | find i isBucket cv sample targets method p => exact (kept_onSet (hop i rfl) fun _ => setGrown_find _ _ _ _ _ _).bind fun r => (kept_bindVar r).bind fun _ => .pure _
  | similarity i metric => exact (kept_var _ _).bind fun t => (kept_onHeap _).bind fun _ => .pure _
  | newBucket lib normalize skip vals => exact (kept_onHeap _).bind fun t => (kept_bindSet t.set).bind fun _ => .pure _
  | addKernels i flags cls param values => exact (kept_onSet (hop i rfl) fun _ => setGrown_addParametrized _ _ _ _).bind fun _ => .pure _

theorem kept_run (l : List (POp K X)) (hl : ∀ op ∈ l, ∀ j, op.target = some j → T j) {s : ProgSt K X} (hs : Kept T sets s) : Kept T sets (ProgSt.run env l s).2 := by
  induction l generalizing s with
  | nil => exact hs
  | cons op l ih => exact ih (fun o ho => hl o (List.mem_cons_of_mem _ ho)) (kept_exec op (hl op List.mem_cons_self) s hs)

end KMethods
