import Verif.Lemmas.History
/-!
# A stale `_centered` value is unobservable

`_reset` clears the flag `_is_centered` but does not delete the attribute `_centered`.
-/
namespace KMethods
namespace KMState
variable {K X V α β ι : Type}
open PyM

/-- replace the cached centered matrix -/
def setC (c : Option (Fmt × Mat V)) (s : KMState K X V) : KMState K X V := { s with centeredKm := c }

/-- equal up to a stale centered matrix -/
def Alike (s s' : KMState K X V) : Prop := ∃ c, s' = setC c s ∧ (s.isCentered = true → c = s.centeredKm)

theorem Alike.refl (s : KMState K X V) : Alike s s := ⟨s.centeredKm, rfl, fun _ => rfl⟩

/-- `m` gives the same results on states alike, and leads to states alike -/
def Same (m : PyM (KMState K X V) α) : Prop :=
  ∀ s s', Alike s s' → (m s').1 = (m s).1 ∧ Alike (m s).2 (m s').2

theorem Same.bind {m : PyM (KMState K X V) α} {f : α → PyM (KMState K X V) β} (h : Same m) (hf : ∀ x, Same (f x)) :
    Same (m >>= f) := by
  intro s s' hs
  obtain ⟨h1, h2⟩ := h s s' hs
  rw [bind_run, bind_run]
  rcases hm : m s with ⟨e | x, t⟩ <;> rcases hm' : m s' with ⟨e' | x', t'⟩ <;> rw [hm, hm'] at h1 h2 <;> simp at h1
  · subst h1; exact ⟨rfl, h2⟩
  · subst h1; exact hf _ _ _ h2

theorem Same.pure (x : α) : Same (pure x : PyM (KMState K X V) α) := fun _ _ h => ⟨rfl, h⟩
theorem Same.throw (e : PyErr) : Same (throw e : PyM (KMState K X V) α) := fun _ _ h => ⟨rfl, h⟩
theorem Same.lift (r : Except PyErr α) : Same (lift r : PyM (KMState K X V) α) := fun _ _ h => ⟨rfl, h⟩

theorem Same.get {f : KMState K X V → PyM (KMState K X V) β} (h : ∀ s, Same (f s)) (he : ∀ c s, f (setC c s) = f s) :
    Same (get >>= f) := by
  rintro s s' ⟨c, rfl, hc⟩
  rw [get_bind_run, get_bind_run, he]
  exact h s s _ ⟨c, rfl, hc⟩

theorem Same.getAttr {f : KMState K X V → Option α} (he : ∀ c s, f (setC c s) = f s) : Same (getAttr f) := by
  rintro s s' ⟨c, rfl, hc⟩
  rw [getAttr_run, getAttr_run, he]
  rcases f s with _ | x
  · exact ⟨rfl, c, rfl, hc⟩
  · exact ⟨rfl, c, rfl, hc⟩

theorem Same.modify {f : KMState K X V → KMState K X V} (he : ∀ c s, f (setC c s) = setC c (f s))
    (hi : ∀ s, (f s).isCentered = true → s.isCentered = true ∧ (f s).centeredKm = s.centeredKm) :
    Same (modify f) := by
  rintro s s' ⟨c, rfl, hc⟩
  rw [modify_run, modify_run]
  exact ⟨rfl, c, he c s, fun h => (hc (hi s h).1).trans (hi s h).2.symm⟩

theorem Same.when {c : Bool} {m : PyM (KMState K X V) Unit} (h : Same m) : Same (when c m) := by
  cases c
  · exact Same.pure ()
  · exact h

theorem Same.raiseIf (c : Bool) (e : PyErr) : Same (raiseIf c e : PyM (KMState K X V) Unit) := by
  cases c
  · exact Same.pure ()
  · exact Same.throw e

theorem Same.ite {c : Prop} [Decidable c] {m m' : PyM (KMState K X V) α} (h : Same m) (h' : Same m') :
    Same (if c then m else m') := by
  split
  · exact h
  · exact h'

theorem Same.catchAll {e : PyErr} {m : PyM (KMState K X V) α} (h : Same m) : Same (catchAll e m) := by
  intro s s' hs
  obtain ⟨h1, h2⟩ := h s s' hs
  rw [catchAll_run, catchAll_run]
  rcases hm : m s with ⟨e | x, t⟩ <;> rcases hm' : m s' with ⟨e' | x', t'⟩ <;> rw [hm, hm'] at h1 h2 <;> simp at h1
  · exact ⟨rfl, h2⟩
  · subst h1; exact ⟨rfl, h2⟩

theorem Same.forEach {l : List ι} {f : ι → PyM (KMState K X V) Unit} (h : ∀ x, Same (f x)) : Same (forEach l f) := by
  induction l with
  | nil => exact Same.pure ()
  | cons x l ih => exact (h x).bind fun _ => ih

theorem Same.mapEach {l : List ι} {f : ι → PyM (KMState K X V) β} (h : ∀ x, Same (f x)) : Same (mapEach l f) := by
  induction l with
  | nil => exact Same.pure _
  | cons x l ih => exact (h x).bind fun _ => ih.bind fun _ => Same.pure _

variable (env : Env K X V)

theorem same_callKernel (p : Nat × Nat) (x y : X) : Same (callKernel env p x y) := by
  rintro s s' ⟨c, rfl, hc⟩
  unfold callKernel
  have e1 : (setC c s).clock = s.clock := rfl
  have e2 : (setC c s).kernel = s.kernel := rfl
  rw [e1, e2]
  by_cases h : env.fails s.clock s.kernel x y = true
  · rw [if_pos h, if_pos h]; exact ⟨rfl, c, rfl, hc⟩
  · rw [if_neg h, if_neg h]; exact ⟨rfl, c, rfl, hc⟩

theorem same_rowAt (f : KMState K X V → Option (Arr2 X)) (he : ∀ c s, f (setC c s) = f s) (e : PyErr) (i : Nat) :
    Same (rowAt f e i) := by
  rintro s s' ⟨c, rfl, hc⟩
  unfold rowAt
  rw [he]
  rcases f s with _ | a
  · exact ⟨rfl, c, rfl, hc⟩
  · by_cases h : i < a.nrows
    · simp only [if_pos h]; exact ⟨trivial, c, rfl, hc⟩
    · simp only [if_neg h]; exact ⟨trivial, c, rfl, hc⟩

theorem same_evalAt (p : Nat × Nat) : Same (evalAt env p) := by
  refine Same.get (fun s => ?_) fun _ _ => rfl
  split
  · exact Same.pure _
  · exact (same_rowAt _ (fun _ _ => rfl) _ _).bind fun _ => (same_rowAt _ (fun _ _ => rfl) _ _).bind fun _ =>
      (same_callKernel env _ _ _).bind fun _ => Same.bind (Same.modify (fun _ _ => rfl) fun _ h => ⟨h, rfl⟩) fun _ => Same.pure _

theorem same_evalKernel (i j : Nat) : Same (evalKernel env i j) :=
  Same.ite ((Same.getAttr fun _ _ => rfl).bind fun _ => Same.ite (same_evalAt env _) (same_evalAt env _)) (same_evalAt env _)

theorem same_fillCells (l : List (Nat × Nat)) : Same (fillCells env l) :=
  Same.forEach fun _ => (same_evalKernel env _ _).bind fun _ => Same.modify (fun _ _ => rfl) fun _ h => ⟨h, rfl⟩

theorem same_populateUpper (d : Bool) : Same (populateUpper env d) :=
  Same.get (fun _ => Same.when <| (Same.getAttr fun _ _ => rfl).bind fun _ =>
    Same.bind (Same.modify (fun _ _ => rfl) fun _ h => ⟨h, rfl⟩) fun _ =>
    (Same.catchAll (same_fillCells env _)).bind fun _ => Same.modify (fun _ _ => rfl) fun _ h => ⟨h, rfl⟩) fun _ _ => rfl

theorem same_populateLower (l : Bool) : Same (populateLower env l) :=
  Same.get (fun _ => Same.when <| Same.bind (Same.catchAll <| (Same.getAttr fun _ _ => rfl).bind fun _ =>
    (Same.getAttr fun _ _ => rfl).bind fun _ =>
    Same.ite (Same.modify (fun _ _ => rfl) fun _ h => ⟨h, rfl⟩) (same_fillCells env _)) fun _ =>
      Same.modify (fun _ _ => rfl) fun _ h => ⟨h, rfl⟩) fun _ _ => rfl

theorem same_fullMat : Same (fullMat : PyM (KMState K X V) _) :=
  (Same.getAttr fun _ _ => rfl).bind fun _ => (Same.getAttr fun _ _ => rfl).bind fun _ => Same.pure _

theorem same_warn (M : Mat V) : Same (warnNonFinite env M) :=
  Same.get (fun _ => Same.raiseIf _ _) fun _ _ => rfl

theorem same_populateFully (d l : Bool) : Same (populateFully env d l) :=
  (same_populateUpper env d).bind fun _ => (same_populateLower env l).bind fun _ =>
    Same.bind ((Same.getAttr fun _ _ => rfl).bind fun _ => Same.when <| Same.modify (fun _ _ => rfl) fun _ h => ⟨h, rfl⟩) fun _ =>
      same_fullMat.bind fun _ => same_warn env _

theorem same_ensurePopulated : Same (ensurePopulated env) :=
  Same.get (fun _ => Same.when (same_populateFully env _ _)) fun _ _ => rfl

theorem same_diagonal : Same (diagonal env) :=
  (Same.getAttr fun _ _ => rfl).bind fun _ => Same.ite (Same.throw _) <|
    (Same.getAttr fun _ _ => rfl).bind fun _ => Same.mapEach fun _ => same_evalKernel env _ _

theorem same_freshDiagonal (f : KMState K X V → Option (Arr2 X)) (he : ∀ c s, f (setC c s) = f s) :
    Same (freshDiagonal env f) :=
  (Same.getAttr he).bind fun _ => Same.get (fun _ =>
    Same.bind (Same.modify (fun _ _ => rfl) fun _ h => ⟨h, rfl⟩) fun _ => Same.lift _) fun _ _ => rfl

theorem same_computeNormed (m : String) : Same (computeNormed env m) :=
  (Same.getAttr fun _ _ => rfl).bind fun _ => Same.ite
    (same_fullMat.bind fun _ => (Same.lift _).bind fun _ => Same.pure _)
    ((same_freshDiagonal env _ fun _ _ => rfl).bind fun _ => (same_freshDiagonal env _ fun _ _ => rfl).bind fun _ =>
      same_fullMat.bind fun _ => (Same.lift _).bind fun _ => Same.pure _)

theorem same_normalize (m : String) : Same (normalize env m) :=
  (same_ensurePopulated env).bind fun _ => Same.get (fun _ => Same.when <|
    (same_computeNormed env m).bind fun _ => Same.bind (Same.modify (fun _ _ => rfl) fun _ h => ⟨h, rfl⟩) fun _ => same_warn env _) fun _ _ => rfl

theorem same_normedKmVal : Same (normedKmVal env) :=
  Same.get (fun _ => (Same.when (same_normalize env _)).bind fun _ => Same.getAttr fun _ _ => rfl) fun _ _ => rfl

theorem same_full : Same (full env) :=
  Same.get (fun _ => (Same.raiseIf _ _).bind fun _ => (same_ensurePopulated env).bind fun _ =>
    Same.ite (same_normedKmVal env) same_fullMat) fun _ _ => rfl

theorem same_fullSparse : Same (fullSparse env) :=
  Same.get (fun _ => Same.ite (same_normedKmVal env) <| (same_populateFully env _ _).bind fun _ => same_fullMat) fun _ _ => rfl

/-- `center` ends in states alike, equal ones if it succeeds -/
theorem same_center : Same (center env) := by
  refine (Same.getAttr fun _ _ => rfl).bind fun _ => (Same.raiseIf _ _).bind fun _ =>
    (same_ensurePopulated env).bind fun _ => same_fullMat.bind fun _ => (Same.raiseIf _ _).bind fun _ =>
      (Same.lift _).bind fun C => ?_
  rintro s s' ⟨c, rfl, hc⟩
  exact ⟨rfl, _, rfl, fun _ => rfl⟩

/-- every successful run ends in a state satisfying `Z` -/
def EndsIn (Z : KMState K X V → Prop) (m : PyM (KMState K X V) α) : Prop := ∀ s x, (m s).1 = .ok x → Z (m s).2

theorem EndsIn.bind {Z : KMState K X V → Prop} {m : PyM (KMState K X V) α} {f : α → PyM (KMState K X V) β}
    (h : ∀ y, EndsIn Z (f y)) : EndsIn Z (m >>= f) := by
  intro s x hs
  rw [bind_run] at *
  rcases hm : m s with ⟨e | y, t⟩
  · rw [hm] at hs; simp at hs
  · rw [hm] at hs; exact h y t x hs

theorem center_flag : EndsIn (fun s : KMState K X V => s.isCentered = true) (center env) :=
  EndsIn.bind fun _ => EndsIn.bind fun _ => EndsIn.bind fun _ => EndsIn.bind fun _ => EndsIn.bind fun _ =>
    EndsIn.bind fun _ _ _ _ => rfl

theorem same_centered : Same (centered env) := by
  refine (Same.getAttr fun _ _ => rfl).bind fun _ => (Same.raiseIf _ _).bind fun _ => ?_
  rintro s s' ⟨c, rfl, hc⟩
  rw [get_bind_run, get_bind_run]
  have e1 : (setC c s).isCentered = s.isCentered := rfl
  rw [e1]
  rcases hi : s.isCentered
  · simp only [Bool.not_false, when_true]
    obtain ⟨h1, h2⟩ := same_center env s (setC c s) ⟨c, rfl, hc⟩
    rcases hm : center env s with ⟨e | x, t⟩ <;> rcases hm' : center env (setC c s) with ⟨e' | x', t'⟩ <;>
      rw [hm, hm'] at h1 h2 <;> simp at h1
    · subst h1
      rw [bind_error hm, bind_error hm']; exact ⟨rfl, h2⟩
    · rw [bind_ok hm, bind_ok hm']
      have : t' = t := by
        obtain ⟨c', rfl, hc'⟩ := h2
        have hfl := center_flag env s x (by rw [hm])
        rw [hm] at hfl
        rw [hc' hfl]; rfl
      subst this
      exact ⟨rfl, Alike.refl _⟩
  · have : setC c s = s := by rw [hc hi]; rfl
    rw [this]
    exact ⟨rfl, Alike.refl _⟩

theorem same_frobNormVal : Same (frobNormVal env) :=
  (same_ensurePopulated env).bind fun _ => Same.get (fun _ => Same.bind (Same.when <| same_fullMat.bind fun _ =>
    (Same.lift _).bind fun _ => Same.modify (fun _ _ => rfl) fun _ h => ⟨h, rfl⟩) fun _ =>
      Same.getAttr fun _ _ => rfl) fun _ _ => rfl

theorem same_keyPair (key : Key) : Same (keyPair key : PyM (KMState K X V) _) := by
  cases key with
  | linear q => exact (Same.getAttr fun _ _ => rfl).bind fun _ => (Same.lift _).bind fun _ => Same.pure _
  | pair S T => exact Same.pure _
  | other => exact Same.throw _

theorem same_getItem (key : Key) : Same (getItem env key) :=
  (same_keyPair key).bind fun _ => Same.get (fun _ => (Same.lift _).bind fun _ => (Same.lift _).bind fun _ =>
    Same.ite ((same_populateFully env _ _).bind fun _ => same_fullMat) <|
      Same.bind (Same.mapEach fun _ => same_evalKernel env _ _) fun _ => Same.pure _) fun _ _ => rfl

theorem same_size : Same (size : PyM (KMState K X V) _) := by
  refine (Same.getAttr fun _ _ => rfl).bind fun b => Same.get (fun s => ?_) fun _ _ => rfl
  cases b <;> rcases s.numSamples with _ | _ | _ <;> first | exact Same.throw _ | exact Same.pure _

theorem same_attach (one : SampleIn X) (two : Option (SampleIn X)) :
    Same (attach one two : PyM (KMState K X V) _) := by
  refine (Same.lift _).bind fun a => Same.bind (Same.modify (fun _ _ => rfl) fun _ h => ⟨h, rfl⟩) fun _ => ?_
  have hreset : Same (modify reset : PyM (KMState K X V) _) :=
    Same.modify (fun _ _ => rfl) fun _ h => by simp [reset] at h
  cases two with
  | none => exact Same.bind (Same.modify (fun _ _ => rfl) fun _ h => ⟨h, rfl⟩) fun _ => hreset
  | some t =>
    exact (Same.lift _).bind fun _ => Same.bind (Same.modify (fun _ _ => rfl) fun _ h => ⟨h, rfl⟩) fun _ =>
      (Same.raiseIf _ _).bind fun _ => Same.bind (Same.modify (fun _ _ => rfl) fun _ h => ⟨h, rfl⟩) fun _ => hreset

theorem same_exec (op : KMOp X) : Same (exec env op) := by
  cases op with
  | attach one two => exact (same_attach one two).bind fun _ => Same.pure _
  | setAttr n v => exact Same.bind (Same.modify (fun _ _ => rfl) fun _ h => ⟨h, rfl⟩) fun _ => Same.pure _
  | getAttr n d => exact Same.bind (Same.get (fun _ => Same.pure _) fun _ _ => rfl) fun _ => Same.pure _
  | attributes => exact Same.get (fun _ => Same.pure _) fun _ _ => rfl
  | numSamples => exact Same.get (fun _ => Same.pure _) fun _ _ => rfl
  | shape => exact (Same.getAttr fun _ _ => rfl).bind fun _ => Same.pure _
  | size => exact same_size.bind fun _ => Same.pure _
  | full => exact (same_full env).bind fun _ => Same.pure _
  | fullSparse => exact (same_fullSparse env).bind fun _ => Same.pure _
  | center => exact (same_center env).bind fun _ => Same.pure _
  | centered => exact (same_centered env).bind fun _ => Same.pure _
  | normalize m => exact (same_normalize env m).bind fun _ => Same.pure _
  | normedKm => exact (same_normedKmVal env).bind fun _ => Same.pure _
  | frobNorm => exact (same_frobNormVal env).bind fun _ => Same.pure _
  | diagonal => exact (same_diagonal env).bind fun _ => Same.pure _
  | getItem k => exact (same_getItem env k).bind fun _ => Same.pure _

theorem Alike.trace {s s' : KMState K X V} (h : Alike s s') (ops : List (KMOp X)) :
    trace env ops s' = trace env ops s := by
  induction ops generalizing s s' with
  | nil => rfl
  | cons op ops ih =>
    obtain ⟨h1, h2⟩ := same_exec env op s s' h
    show _ :: _ = _ :: _
    rw [h1, ih h2]

end KMState
end KMethods
