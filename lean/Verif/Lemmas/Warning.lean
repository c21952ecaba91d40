import Verif.Lemmas.FaultFreeOn
import Verif.Lemmas.Operations
/-!
# `full` and the check for non-finite values
-/
namespace KMethods
namespace KMState
open PyM
variable {K X V : Type}

/-- the first `full` of an unnormalised object -/
theorem full_first_ff {env : Env K X V} (hf : NoFaults env) {a : Attachment X} {sp : Lv} {s : KMState K X V} (h : Good env a sp s)
    (hp : s.populated = false) (hb : env.fmtRaises s.kernel = true) (hn : env.ops.nonFinite (a.gram (env.kval s.kernel)) = true) :
    (full env s).1 = .error .typeError := by
  have := populateFully_first hf h hp
  rw [hb, hn] at this
  rcases hr : populateFully env true true s with ⟨r, s1⟩
  rw [hr] at this
  obtain rfl : r = .error .typeError := this
  have e1 : ensurePopulated env s = (.error .typeError, s1) := by
    unfold ensurePopulated
    rw [get_bind_run, hp]
    exact hr
  unfold full
  rw [get_bind_run, h.sample_isNone]
  simp only [raiseIf_false]
  rw [pure_bind_run, bind_error e1]

theorem full_fine_ff {env : Env K X V} (hf : NoFaults env) {a : Attachment X} {sp : Lv} {s : KMState K X V} (h : Good env a sp s)
    (hp : s.populated = false) (hk : s.keepNormed = false) (hsp : sp.sp = false) (hn : env.ops.nonFinite (a.gram (env.kval s.kernel)) = false) :
    (full env s).1 = .ok (.dense, a.gram (env.kval s.kernel)) := by
  have h0 := populateFully_first hf h hp
  rw [hn, Bool.and_false] at h0
  have hnp : (full env s).1 ≠ .error .typeError := by
    obtain ⟨s1, r, e1, e2, e3, e4, e5, e6, hr, hq⟩ := ensurePopulated_ff hf h
    have : r = .ok () := by
      unfold ensurePopulated at e1
      rw [get_bind_run, hp] at e1
      change populateFully env true true s = _ at e1
      rw [e1] at h0
      exact h0
    subst this
    unfold full
    rw [get_bind_run, h.sample_isNone]
    simp only [raiseIf_false]
    rw [pure_bind_run, bind_ok e1, hk]
    simp only [Bool.false_eq_true, if_false]
    obtain ⟨fmt, A, g1, _⟩ := fullMat_ff e2 e4
    rw [g1]
    simp
  exact ((full_ff hf h).2.2.2.2 hk hsp).resolve_right hnp

theorem full_populated_ff {env : Env K X V} (hf : NoFaults env) {a : Attachment X} {sp : Lv} {s : KMState K X V} (h : Good env a sp s)
    (hk : s.keepNormed = false) : (full env s).2.populated = true ∧ (full env s).2.keepNormed = false ∧ (full env s).2.kernel = s.kernel := by
  obtain ⟨s1, r, e1, e2, e3, e4, e5, e6, hr, hq⟩ := ensurePopulated_ff hf h
  have hk1 : s1.keepNormed = s.keepNormed := by obtain ⟨_, _, _, _, _, _, _, rfl⟩ := e3; rfl
  have hker : s1.kernel = s.kernel := by obtain ⟨_, _, _, _, _, _, _, rfl⟩ := e3; rfl
  have hs : (full env s).2 = s1 := by
    unfold full
    rw [get_bind_run, h.sample_isNone]
    simp only [raiseIf_false]
    rw [pure_bind_run]
    rcases hr with rfl | rfl
    · rw [bind_ok e1, hk]
      simp only [Bool.false_eq_true, if_false]
      obtain ⟨fmt, A, g1, _⟩ := fullMat_ff e2 e4
      rw [g1]
    · rw [bind_error e1]
  rw [hs]
  exact ⟨e4, hk1.trans hk, hker⟩

theorem full_done_ff {env : Env K X V} {a : Attachment X} {sp : Lv} {s : KMState K X V} (h : Good env a sp s)
    (hk : s.keepNormed = false) (hp : s.populated = true) (hsp : sp.sp = false) :
    full env s = (.ok (.dense, a.gram (env.kval s.kernel)), s) := by
  have e1 : ensurePopulated env s = (.ok (), s) := by
    unfold ensurePopulated
    rw [get_bind_run, hp]
    rfl
  unfold full
  rw [get_bind_run, h.sample_isNone]
  simp only [raiseIf_false]
  rw [pure_bind_run, bind_ok e1, hk]
  simp only [Bool.false_eq_true, if_false]
  obtain ⟨fmt, A, g1, g2, g3, g4, g5, g6⟩ := fullMat_ff h hp
  rw [g1, g3 hsp, g4 (h.lower hp (Or.inr (Or.inr hsp)))]

end KMState
end KMethods
