import Verif.Lemmas.History
/-! # Attributes of a `KernelMatrix` over a history of calls -/
namespace KMethods
open KMState
variable {K X V : Type}

theorem assocSet_lookup (n v m : String) (l : List (String × String)) :
    (assocSet n v l).lookup m = if m = n then some v else l.lookup m := by
  induction l with
  | nil =>
    by_cases h : m = n
    · subst h; simp [assocSet]
    · simp [assocSet, h]
  | cons e l ih =>
    obtain ⟨k, w⟩ := e
    unfold assocSet
    by_cases hk : k = n
    · subst hk
      by_cases h : m = k
      · subst h; simp
      · have : (m == k) = false := by simpa using h
        simp [h, List.lookup_cons, this]
    · rw [if_neg hk]
      by_cases h : m = k
      · subst h
        simp [hk]
      · have : (m == k) = false := by simpa using h
        simp only [List.lookup_cons, this, ih]

theorem attrs_run {env : Env K X V} (name : String) (h : List (KMOp X)) (k : K) (norm : Bool) (t : Nat) :
    WF (run env h.reverse (init k norm t)) ∧
    (run env h.reverse (init k norm t)).attrs.lookup name = lastValue name h := by
  induction h with
  | nil => exact ⟨wf_init k norm t, rfl⟩
  | cons op h ih =>
    obtain ⟨hwf, ih⟩ := ih
    have hrun : run env (op :: h).reverse (init k norm t) = (exec env op (run env h.reverse (init k norm t))).2 := by
      simp [run, List.foldl_append]
    rw [hrun]
    generalize run env h.reverse (init k norm t) = s at *
    refine ⟨hwf.exec op, ?_⟩
    by_cases ha : op.isAttach = true
    · cases op <;> simp [KMOp.isAttach] at ha
      rename_i one two
      rw [exec_attach_run]
      rcases hof : Attachment.ofArgs one two with e | a
      · obtain ⟨x, y, he⟩ := attach_error_state one two s e hof
        rw [he]
        rw [lastValue, if_neg]
        · exact ih
        · rintro ⟨a, ha⟩
          rw [(ofArgs_iff _ _ _).2 ha] at hof; cases hof
      · rw [attach_ok one two s a hof, lastValue, if_pos ⟨a, (ofArgs_iff _ _ _).1 hof⟩]
        rfl
    · by_cases hs : op.isSetAttr = true
      · cases op <;> simp [KMOp.isSetAttr] at hs
        rename_i n v
        show (assocSet n v s.attrs).lookup name = lastValue name (.setAttr n v :: h)
        rw [assocSet_lookup, ih, lastValue]
        by_cases hn : n = name
        · rw [if_pos hn, if_pos hn.symm]
        · rw [if_neg hn, if_neg (Ne.symm hn)]
      · have := (exec_ext env op s hwf.square (by simpa using ha) (by simpa using hs)).attrs
        rw [this, ih]
        cases op <;> first | rfl | exact absurd rfl ha | exact absurd rfl hs

end KMethods
