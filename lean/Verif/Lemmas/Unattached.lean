import Verif.Lemmas.History
/-! # Objects on which `attach_to` never succeeded -/
namespace KMethods
namespace KMState
variable {K X V : Type}
open PyM

structure Unattached (s : KMState K X V) : Prop where
  shape : s.shape = none
  two : s.twoSamples = none
  pop : s.populated = false
  full : s.fullKm = none
  normed : s.isNormed = false
  centered : s.isCentered = false

variable {env : Env K X V} {s : KMState K X V}

theorem populateFully_unattached (h : Unattached s) (d l : Bool) :
    populateFully env d l s = (.error .attributeError, s) := by
  refine bind_error ?_
  show (get >>= _) s = _
  rw [get_bind_run, h.pop, h.full]
  simp only [Bool.not_false, Option.isNone_none, Bool.and_self, when_true]
  exact bind_error (getAttr_run_none _ _ h.shape)

theorem ensurePopulated_unattached (h : Unattached s) : ensurePopulated env s = (.error .attributeError, s) := by
  show (get >>= _) s = _
  rw [get_bind_run, h.pop]
  exact populateFully_unattached h _ _

theorem normalize_unattached (h : Unattached s) (m : String) : normalize env m s = (.error .attributeError, s) :=
  bind_error (ensurePopulated_unattached h)

theorem normedKmVal_unattached (h : Unattached s) : normedKmVal env s = (.error .attributeError, s) := by
  show (get >>= _) s = _
  rw [get_bind_run, h.normed]
  exact bind_error (normalize_unattached h _)

theorem full_unattached (h : Unattached s) :
    full env s = (.error (if s.sample.isNone then .valueError else .attributeError), s) := by
  show (get >>= _) s = _
  rw [get_bind_run]
  rcases s.sample with _ | a
  · rfl
  · have hr : (raiseIf (some a).isNone PyErr.valueError : PyM (KMState K X V) Unit) s = (.ok (), s) := rfl
    rw [bind_ok hr]
    exact bind_error (ensurePopulated_unattached h)

theorem fullSparse_unattached (h : Unattached s) : fullSparse env s = (.error .attributeError, s) := by
  show (get >>= _) s = _
  rw [get_bind_run]
  rcases s.keepNormed
  · exact bind_error (populateFully_unattached h _ _)
  · exact normedKmVal_unattached h

theorem getIndices_unattached (i : Idx) (d : Bool) : ∃ e, getIndicesInSample none i d = .error e ∧
    (e = .attributeError ∨ e = .kmAccess) := by
  have hc : ∀ l, ∃ e, checkIndices none d l = .error e ∧ (e = .attributeError ∨ e = .kmAccess) := by
    intro l
    unfold checkIndices
    rcases idxInts l with _ | _ | _
    · exact ⟨_, rfl, Or.inr rfl⟩
    · exact ⟨_, rfl, Or.inr rfl⟩
    · exact ⟨_, rfl, Or.inl rfl⟩
  cases i with
  | int i => exact hc [IdxItem.int i]
  | iter l => exact hc l
  | slice a b c => exact ⟨_, rfl, Or.inl rfl⟩
  | other => exact ⟨_, rfl, Or.inl rfl⟩

theorem getItem_unattached (h : Unattached s) (key : Key) : ∃ e, getItem env key s = (.error e, s) ∧
    (e = .attributeError ∨ e = .kmAccess) := by
  cases key with
  | linear q => exact ⟨_, bind_error (bind_error (getAttr_run_none _ _ h.shape)), Or.inl rfl⟩
  | other => exact ⟨_, rfl, Or.inr rfl⟩
  | pair S T =>
    obtain ⟨e, he, h'⟩ := getIndices_unattached S false
    refine ⟨e, ?_, h'⟩
    unfold getItem
    have hk : (keyPair (.pair S T) : PyM (KMState K X V) _) s = (.ok (S, T), s) := rfl
    rw [bind_ok hk, get_bind_run, h.shape]
    refine bind_error ?_
    rw [he]; rfl

theorem exec_unattached (h : Unattached s) (op : KMOp X) (hop : op.isContent = true) :
    ∃ e, exec env op s = (.error e, s) ∧ (e = .attributeError ∨ e = .valueError ∨ e = .kmAccess) := by
  cases op <;> simp [KMOp.isContent] at hop
  · refine ⟨_, bind_error (full_unattached h), ?_⟩
    split
    · exact Or.inr (Or.inl rfl)
    · exact Or.inl rfl
  · exact ⟨_, bind_error (fullSparse_unattached h), Or.inl rfl⟩
  · exact ⟨_, bind_error (bind_error (getAttr_run_none _ _ h.two)), Or.inl rfl⟩
  · exact ⟨_, bind_error (bind_error (getAttr_run_none _ _ h.two)), Or.inl rfl⟩
  · exact ⟨_, bind_error (normalize_unattached h _), Or.inl rfl⟩
  · exact ⟨_, bind_error (normedKmVal_unattached h), Or.inl rfl⟩
  · exact ⟨_, bind_error (bind_error (ensurePopulated_unattached h)), Or.inl rfl⟩
  · exact ⟨_, bind_error (bind_error (getAttr_run_none _ _ h.two)), Or.inl rfl⟩
  · rename_i key
    obtain ⟨e, he, h'⟩ := getItem_unattached (env := env) h key
    exact ⟨e, bind_error he, h'.imp id Or.inr⟩

theorem size_state (s : KMState K X V) : (size s).2 = s := by
  unfold size
  rw [bind_run, getAttr_run]
  rcases s.twoSamples with _ | b
  · rfl
  · simp only [get_bind_run]
    cases b <;> rcases s.numSamples with _ | _ | _ <;> rfl

theorem NeverAttached.unattached {k : K} {norm : Bool} (h : NeverAttached env k norm s) : Unattached s := by
  induction h with
  | new t => exact ⟨rfl, rfl, rfl, rfl, rfl, rfl⟩
  | call op _ ha ih =>
    by_cases hc : op.isContent = true
    · obtain ⟨e, he, _⟩ := exec_unattached (env := env) ih op hc
      rw [he]; exact ih
    · cases op <;> simp [KMOp.isContent] at hc
      · rename_i one two
        have := ha one two rfl
        rw [exec_attach_run]
        rcases hof : Attachment.ofArgs one two with e | a
        · obtain ⟨x, y, he⟩ := attach_error_state one two _ e hof
          rw [he]; exact ⟨ih.shape, ih.two, ih.pop, ih.full, ih.normed, ih.centered⟩
        · exact absurd ⟨a, (ofArgs_iff _ _ _).1 hof⟩ this
      · exact ⟨ih.shape, ih.two, ih.pop, ih.full, ih.normed, ih.centered⟩
      · exact ih
      · exact ih
      · exact ih
      · rw [exec_shape_run]; exact ih
      · unfold KMState.exec
        rw [(exec_state _).1, size_state]; exact ih

end KMState
end KMethods
