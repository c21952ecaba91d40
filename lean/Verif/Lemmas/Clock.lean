import Verif.Lemmas.PyM
import Verif.Spec.History
/-!
# Results do not depend on the clock when kernel failures do not
-/
namespace KMethods
open PyM
namespace KMState
variable {K X V α β ι : Type}

/-- another clock and, if `C`, another stored centered matrix -/
def frame (C : Bool) (c : Nat) (x : Option (Fmt × Mat V)) (s : KMState K X V) : KMState K X V := { s with clock := c, centeredKm := bif C then x else s.centeredKm }

/-- with another clock (and stored centered matrix), the same result and the same state up to the clock (and this matrix) -/
def CF (C : Bool) (m : PyM (KMState K X V) α) : Prop := ∀ s c x, ∃ c', m (frame C c x s) = ((m s).1, frame C c' x (m s).2)

variable {C : Bool}

theorem CF.pure (x : α) : CF C (pure x : PyM (KMState K X V) α) := fun _ c _ => ⟨c, rfl⟩
theorem CF.lift (x : Except PyErr α) : CF C (lift x : PyM (KMState K X V) α) := fun _ c _ => ⟨c, rfl⟩
theorem CF.throw (e : PyErr) : CF C (throw e : PyM (KMState K X V) α) := fun _ c _ => ⟨c, rfl⟩
theorem CF.raiseIf (b : Bool) (e : PyErr) : CF C (raiseIf b e : PyM (KMState K X V) Unit) := by cases b; exacts [CF.pure _, CF.throw _]
theorem CF.modify {f : KMState K X V → KMState K X V} (h : ∀ s c x, f (frame C c x s) = frame C c x (f s)) : CF C (modify f) :=
  fun s c x => ⟨c, congrArg (Prod.mk _) (h s c x)⟩

theorem CF.bind {m : PyM (KMState K X V) α} {f : α → PyM (KMState K X V) β} (h : CF C m) (hf : ∀ x, CF C (f x)) : CF C (m >>= f) := by
  intro s c z
  obtain ⟨c', e⟩ := h s c z
  rcases hm : m s with ⟨e' | a, s'⟩
  · rw [hm] at e
    exact ⟨c', by rw [bind_error e, bind_error hm]⟩
  · rw [hm] at e
    obtain ⟨c'', e2⟩ := hf a s' c' z
    exact ⟨c'', by rw [bind_ok e, bind_ok hm]; exact e2⟩

theorem CF.get {f : KMState K X V → PyM (KMState K X V) β} (hf : ∀ s, CF C (f s)) (hc : ∀ s c x, f (frame C c x s) = f s) : CF C (get >>= f) := by
  intro s c z
  rw [get_bind_run, get_bind_run, hc]
  exact hf s s c z

theorem CF.getAttr {f : KMState K X V → Option α} (hc : ∀ s c x, f (frame C c x s) = f s) : CF C (getAttr f) := by
  intro s c z
  refine ⟨c, ?_⟩
  unfold PyM.getAttr
  rw [hc]
  rcases f s with _ | _ <;> rfl

theorem CF.catchAll {e : PyErr} {m : PyM (KMState K X V) α} (h : CF C m) : CF C (catchAll e m) := by
  intro s c z
  obtain ⟨c', e1⟩ := h s c z
  refine ⟨c', ?_⟩
  unfold PyM.catchAll
  rw [e1]
  rcases m s with ⟨_ | _, _⟩ <;> rfl

theorem CF.ite {c : Prop} [Decidable c] {m m' : PyM (KMState K X V) α} (h : CF C m) (h' : CF C m') : CF C (if c then m else m') := by
  split
  · exact h
  · exact h'

theorem CF.when {c : Bool} {m : PyM (KMState K X V) Unit} (h : CF C m) : CF C (when c m) := CF.ite h (CF.pure _)

theorem CF.forEach {l : List ι} {f : ι → PyM (KMState K X V) Unit} (h : ∀ x, CF C (f x)) : CF C (forEach l f) := by
  induction l with
  | nil => exact CF.pure _
  | cons x l ih => exact (h x).bind fun _ => ih

theorem CF.mapEach {l : List ι} {f : ι → PyM (KMState K X V) β} (h : ∀ x, CF C (f x)) : CF C (mapEach l f) := by
  induction l with
  | nil => exact CF.pure _
  | cons x l ih => exact (h x).bind fun _ => ih.bind fun _ => CF.pure _

variable {env : Env K X V}

theorem cf_attach (one : SampleIn X) (two : Option (SampleIn X)) : CF C (attach one two : PyM (KMState K X V) Unit) := by
  refine (CF.lift _).bind fun a => (CF.modify fun _ _ _ => rfl).bind fun _ => ?_
  cases two with
  | none => exact (CF.modify fun _ _ _ => rfl).bind fun _ => CF.modify fun _ _ _ => rfl
  | some t =>
    exact (CF.lift _).bind fun b => (CF.modify fun _ _ _ => rfl).bind fun _ => (CF.raiseIf _ _).bind fun _ =>
      (CF.modify fun _ _ _ => rfl).bind fun _ => CF.modify fun _ _ _ => rfl

theorem cf_size : CF C (size : PyM (KMState K X V) Nat) := by
  refine (CF.getAttr fun _ _ _ => rfl).bind fun two => CF.get (fun s => ?_) fun _ _ _ => rfl
  cases two
  · show CF C (match s.numSamples with | .one n => (pure (n ^ 2) : PyM (KMState K X V) Nat) | _ => PyM.throw .typeError)
    split
    · exact CF.pure _
    · exact CF.throw _
  · show CF C (match s.numSamples with | .two n m => (pure (n * m) : PyM (KMState K X V) Nat) | .one n => pure n | .unset => PyM.throw .typeError)
    split
    · exact CF.pure _
    · exact CF.pure _
    · exact CF.throw _

theorem cf_getAttrVal (n d : String) : CF C (getAttrVal n d : PyM (KMState K X V) String) := CF.get (fun _ => CF.pure _) fun _ _ _ => rfl

theorem cf_rowAt {f : KMState K X V → Option (Arr2 X)} (hc : ∀ s c x, f (frame C c x s) = f s) (e : PyErr) (i : Nat) : CF C (rowAt f e i) := by
  intro s c z
  refine ⟨c, ?_⟩
  unfold rowAt
  rw [hc]
  rcases f s with _ | a
  · rfl
  · by_cases h : i < a.nrows
    · simp only [if_pos h]
    · simp only [if_neg h]

variable (hs : Steady env)
include hs

theorem cf_callKernel (p : Nat × Nat) (x y : X) : CF C (callKernel env p x y) := by
  intro s c z
  refine ⟨c + 1, ?_⟩
  unfold callKernel
  show (if env.fails c s.kernel x y then (_, frame C (c + 1) z s) else (_, { frame C (c + 1) z s with succ := p :: s.succ })) = _
  rw [hs c s.clock]
  by_cases h : env.fails s.clock s.kernel x y
  · rw [if_pos h, if_pos h]; rfl
  · rw [if_neg h, if_neg h]; rfl

theorem cf_evalAt (p : Nat × Nat) : CF C (evalAt env p) := by
  refine CF.get (fun s => ?_) fun _ _ _ => rfl
  split
  · exact CF.pure _
  · exact (cf_rowAt (fun _ _ _ => rfl) _ _).bind fun _ => (cf_rowAt (fun _ _ _ => rfl) _ _).bind fun _ => (cf_callKernel hs _ _ _).bind fun _ =>
      (CF.modify fun _ _ _ => rfl).bind fun _ => CF.pure _

theorem cf_evalKernel (i j : Nat) : CF C (evalKernel env i j) :=
  CF.ite ((CF.getAttr fun _ _ _ => rfl).bind fun _ => CF.ite (cf_evalAt hs _) (cf_evalAt hs _)) (cf_evalAt hs _)

theorem cf_fillCells (l : List (Nat × Nat)) : CF C (fillCells env l) :=
  CF.forEach fun _ => (cf_evalKernel hs _ _).bind fun _ => CF.modify fun _ _ _ => rfl

theorem cf_populateUpper (d : Bool) : CF C (populateUpper env d) :=
  CF.get (fun _ => CF.when <| (CF.getAttr fun _ _ _ => rfl).bind fun _ => (CF.modify fun _ _ _ => rfl).bind fun _ =>
    (CF.catchAll (cf_fillCells hs _)).bind fun _ => CF.modify fun _ _ _ => rfl) fun _ _ _ => rfl

theorem cf_populateLower (l : Bool) : CF C (populateLower env l) :=
  CF.get (fun _ => CF.when <| (CF.catchAll <| (CF.getAttr fun _ _ _ => rfl).bind fun _ => (CF.getAttr fun _ _ _ => rfl).bind fun _ =>
    CF.ite (CF.modify fun _ _ _ => rfl) (cf_fillCells hs _)).bind fun _ => CF.modify fun _ _ _ => rfl) fun _ _ _ => rfl

omit hs in
theorem cf_densify (d : Bool) : CF C (densify d : PyM (KMState K X V) Unit) :=
  (CF.getAttr fun _ _ _ => rfl).bind fun _ => CF.when (CF.modify fun _ _ _ => rfl)

omit hs in
theorem cf_fullMat : CF C (fullMat : PyM (KMState K X V) _) :=
  (CF.getAttr fun _ _ _ => rfl).bind fun _ => (CF.getAttr fun _ _ _ => rfl).bind fun _ => CF.pure _

omit hs in
theorem cf_warn (M : Mat V) : CF C (warnNonFinite env M) :=
  CF.get (fun _ => CF.raiseIf _ _) fun _ _ _ => rfl

theorem cf_populateFully (d l : Bool) : CF C (populateFully env d l) :=
  (cf_populateUpper hs d).bind fun _ => (cf_populateLower hs l).bind fun _ => (cf_densify _).bind fun _ =>
    cf_fullMat.bind fun _ => cf_warn _

theorem cf_ensurePopulated : CF C (ensurePopulated env) :=
  CF.get (fun _ => CF.when (cf_populateFully hs _ _)) fun _ _ _ => rfl

theorem cf_diagonal : CF C (diagonal env) :=
  (CF.getAttr fun _ _ _ => rfl).bind fun _ => CF.ite (CF.throw _) ((CF.getAttr fun _ _ _ => rfl).bind fun _ => CF.mapEach fun _ => cf_evalKernel hs _ _)

theorem cf_freshDiagonal {f : KMState K X V → Option (Arr2 X)} (hc : ∀ s c x, f (frame C c x s) = f s) : CF C (freshDiagonal env f) := by
  refine (CF.getAttr hc).bind fun a => ?_
  intro s c z
  rw [get_bind_run, get_bind_run]
  obtain ⟨c', e⟩ := cf_diagonal (C := false) hs (freshOn s.kernel a s.clock) c none
  refine ⟨c', ?_⟩
  have e' : diagonal env (freshOn s.kernel a c) = _ := e
  show (lift (diagonal env (freshOn s.kernel a c)).1 : PyM (KMState K X V) _) (frame C (diagonal env (freshOn s.kernel a c)).2.clock z s) = _
  rw [e']
  rfl

theorem cf_computeNormed (m : String) : CF C (computeNormed env m) :=
  (CF.getAttr fun _ _ _ => rfl).bind fun _ => CF.ite (cf_fullMat.bind fun _ => (CF.lift _).bind fun _ => CF.pure _) <|
    (cf_freshDiagonal hs fun _ _ _ => rfl).bind fun _ => (cf_freshDiagonal hs fun _ _ _ => rfl).bind fun _ => cf_fullMat.bind fun _ => (CF.lift _).bind fun _ => CF.pure _

theorem cf_normalize (m : String) : CF C (normalize env m) :=
  (cf_ensurePopulated hs).bind fun _ => CF.get (fun _ => CF.when <| (cf_computeNormed hs m).bind fun _ =>
    (CF.modify fun _ _ _ => rfl).bind fun _ => cf_warn _) fun _ _ _ => rfl

theorem cf_normedKmVal : CF C (normedKmVal env) :=
  CF.get (fun _ => (CF.when (cf_normalize hs _)).bind fun _ => CF.getAttr fun _ _ _ => rfl) fun _ _ _ => rfl

theorem cf_full : CF C (full env) :=
  CF.get (fun _ => (CF.raiseIf _ _).bind fun _ => (cf_ensurePopulated hs).bind fun _ => CF.ite (cf_normedKmVal hs) cf_fullMat) fun _ _ _ => rfl

theorem cf_fullSparse : CF C (fullSparse env) :=
  CF.get (fun _ => CF.ite (cf_normedKmVal hs) ((cf_populateFully hs _ _).bind fun _ => cf_fullMat)) fun _ _ _ => rfl

theorem cf_center : CF false (center env) :=
  (CF.getAttr fun _ _ _ => rfl).bind fun _ => (CF.raiseIf _ _).bind fun _ => (cf_ensurePopulated hs).bind fun _ => cf_fullMat.bind fun _ =>
    (CF.raiseIf _ _).bind fun _ => (CF.lift _).bind fun _ => CF.modify fun _ _ _ => rfl

theorem cf_centered : CF false (centered env) :=
  (CF.getAttr fun _ _ _ => rfl).bind fun _ => (CF.raiseIf _ _).bind fun _ =>
    CF.get (fun _ => (CF.when (cf_center hs)).bind fun _ => CF.getAttr fun _ _ _ => rfl) fun _ _ _ => rfl

theorem cf_frobNormVal : CF C (frobNormVal env) :=
  (cf_ensurePopulated hs).bind fun _ => CF.get (fun _ => (CF.when <| cf_fullMat.bind fun _ => (CF.lift _).bind fun _ => CF.modify fun _ _ _ => rfl).bind fun _ =>
    CF.getAttr fun _ _ _ => rfl) fun _ _ _ => rfl

theorem cf_compute (one two : List Nat) : CF C (computeForIndexCombinations env one two) :=
  (CF.mapEach fun _ => cf_evalKernel hs _ _).bind fun _ => CF.pure _

omit hs in
theorem cf_keyPair (key : Key) : CF C (keyPair key : PyM (KMState K X V) _) := by
  cases key with
  | linear k => exact (CF.getAttr fun _ _ _ => rfl).bind fun _ => (CF.lift _).bind fun _ => CF.pure _
  | pair a b => exact CF.pure _
  | other => exact CF.throw _

theorem cf_getItem (key : Key) : CF C (getItem env key) :=
  (cf_keyPair key).bind fun _ => CF.get (fun _ => (CF.lift _).bind fun _ => (CF.lift _).bind fun _ =>
    CF.ite ((cf_populateFully hs _ _).bind fun _ => cf_fullMat) (cf_compute hs _ _)) fun _ _ _ => rfl

theorem cf_exec (op : KMOp X) : CF false (exec env op) := by
  cases op with
  | attach one two => exact (cf_attach one two).bind fun _ => CF.pure _
  | setAttr n v => exact (CF.modify fun _ _ _ => rfl).bind fun _ => CF.pure _
  | getAttr n d => exact (cf_getAttrVal n d).bind fun _ => CF.pure _
  | attributes => exact CF.get (fun _ => CF.pure _) fun _ _ _ => rfl
  | numSamples => exact CF.get (fun _ => CF.pure _) fun _ _ _ => rfl
  | shape => exact (CF.getAttr fun _ _ _ => rfl).bind fun _ => CF.pure _
  | size => exact cf_size.bind fun _ => CF.pure _
  | full => exact (cf_full hs).bind fun _ => CF.pure _
  | fullSparse => exact (cf_fullSparse hs).bind fun _ => CF.pure _
  | center => exact (cf_center hs).bind fun _ => CF.pure _
  | centered => exact (cf_centered hs).bind fun _ => CF.pure _
  | normalize m => exact (cf_normalize hs m).bind fun _ => CF.pure _
  | normedKm => exact (cf_normedKmVal hs).bind fun _ => CF.pure _
  | frobNorm => exact (cf_frobNormVal hs).bind fun _ => CF.pure _
  | diagonal => exact (cf_diagonal hs).bind fun _ => CF.pure _
  | getItem k => exact (cf_getItem hs k).bind fun _ => CF.pure _

end KMState
end KMethods
