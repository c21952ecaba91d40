import Verif.Lemmas.FaultFreeOn
/-!
# Element access of an attached object
-/
namespace KMethods
open KMState IndexSpec
variable {K X V : Type}

theorem getItem_attached {env : Env K X V} {a : Attachment X} {s : KMState K X V} (hatt : AttachedTo env a s) {S T : Idx}
    (hw : ¬ WholeKey a.nrows a.ncols (.pair S T)) {out : KMOut V} (hok : (exec env (.getItem (.pair S T)) s).1 = .ok out) :
    ∃ rows cols, IsSelection a.nrows S rows ∧ IsSelection a.ncols T cols ∧ out = .mat .dense (a.sub (env.kval s.kernel) rows cols) := by
  rw [exec_getItem_run, getItem_run_pair hatt.shape] at hok
  rcases h1 : getIndicesInSample (some (a.nrows, a.ncols)) S false with e | one
  · rw [h1] at hok; simp [Except.map] at hok
  rcases h2 : getIndicesInSample (some (a.nrows, a.ncols)) T true with e | two
  · rw [h1, h2] at hok; simp [Except.map] at hok
  rw [h1, h2] at hok
  simp only at hok
  rcases hb : (one.2 && two.2)
  swap
  · exact absurd (whole_of_flags h1 h2 hb) hw
  rw [hb] at hok
  simp only [Bool.false_eq_true, if_false] at hok
  rcases hc : computeForIndexCombinations env one.1 two.1 s with ⟨e | r, s'⟩
  · rw [hc] at hok; simp [Except.map] at hok
  rw [hc] at hok
  simp only [Except.map, Except.ok.injEq] at hok
  have hr := compute_ok hatt hc
  refine ⟨one.1, two.1, ?_, ?_, ?_⟩
  · rcases getIndices_spec a.nrows a.ncols S false with ⟨_, h⟩ | ⟨_, _, h⟩ | ⟨_, _, l, b, h, e1, e2, e3, e4, e5⟩
    · rw [h1] at h; simp at h
    · rw [h1] at h; simp at h
    · rw [h1] at h; simp at h; subst h
      exact ⟨e1, fun i => ⟨fun hi => ⟨e3 i hi, (e4 i).1 hi⟩, fun hi => (e4 i).2 hi.2⟩⟩
  · rcases getIndices_spec a.nrows a.ncols T true with ⟨_, h⟩ | ⟨_, _, h⟩ | ⟨_, _, l, b, h, e1, e2, e3, e4, e5⟩
    · rw [h2] at h; simp at h
    · rw [h2] at h; simp at h
    · rw [h2] at h; simp at h; subst h
      exact ⟨e1, fun i => ⟨fun hi => ⟨e3 i hi, (e4 i).1 hi⟩, fun hi => (e4 i).2 hi.2⟩⟩
  · rw [← hok, hr]
    rfl

end KMethods
