import Verif.Props.FullMatrix
/-! # Results computed from a matrix in sparse storage -/
namespace KMethods
open F
namespace KMState
variable {K X V : Type}
open PyM

/-- `full_sparse` right after attaching -/
theorem fullSparse_fresh {env : Env K X V} (hf : NoFaults env) (k : K) (a : Attachment X) (c : Nat) (o : Option (Fmt × Mat V)) :
    ∃ s, (fullSparse env (attachedState k false a c o)).2 = s ∧ Good env a ⟨true, true⟩ s ∧ s.populated = true ∧ s.lowerFilled = false ∧
      s.frobNorm = none ∧ s.isCentered = false ∧ s.kernel = k := by
  have h0 : Good env a ⟨false, false⟩ (attachedState k false a c o) := good_attachedState env k false a c o _
  obtain ⟨s1, f, e1, e2, e3, e4, e5, e6, e7, -, -⟩ := populateUpper_ff hf h0.att rfl rfl false
  have hg := (fullSparse_ff hf h0 (sp' := ⟨true, true⟩) ⟨by simp, by simp⟩ (by simp)).1
  have hrun : (fullSparse env (attachedState k false a c o)).2 = s1 := by
    unfold fullSparse
    rw [get_bind_run]
    simp only [attachedState, Bool.false_eq_true]
    have h1 : (populateUpper env false >>= fun _ => populateLower env false >>= fun _ => densify false) (attachedState k false a c o) = (.ok (), s1) := by
      rw [bind_ok e1, bind_ok (populateLower_skip (Or.inl rfl)), densify_skip e4 (Or.inl rfl)]
    have hm : fullMat s1 = (.ok (f.fmt, _), s1) := fullMat_run e4 e2.shape
    show ((populateFully env false false >>= fun _ => fullMat : PyM (KMState K X V) _) (attachedState k false a c o)).2 = s1
    have h2 : (populateFully env false false (attachedState k false a c o)).2 = s1 := by
      rw [populateFully_split, bind_ok h1, bind_ok hm]
      unfold warnNonFinite
      rw [get_bind_run]
      unfold raiseIf
      split <;> rfl
    rcases hp : populateFully env false false (attachedState k false a c o) with ⟨e | u, t⟩
    · rw [bind_error hp]; rw [hp] at h2; exact h2
    · rw [bind_ok hp]; rw [hp] at h2
      obtain rfl : t = s1 := h2
      rw [hm]
  rw [hrun] at hg
  refine ⟨s1, hrun, hg, e5, e6, ?_, ?_, ?_⟩ <;>
  · obtain ⟨_, _, _, _, _, _, _, rfl⟩ := e3
    rfl

/-- the format is sparse while the lower triangle is missing -/
theorem Good.fullMat_sparse {env : Env K X V} {a : Attachment X} {sp : Lv} {s : KMState K X V} (h : Good env a sp s) (hp : s.populated = true)
    (hl : s.lowerFilled = false) : fullMat s = (.ok (.sparse, upperGram env a s.kernel), s) := by
  obtain ⟨fmt, A, g1, g2, g3, g4, g5, g6⟩ := fullMat_ff h hp
  rw [g6 hl] at g1
  rcases hfm : fmt
  · rw [g5 hfm] at hl; cases hl
  · rw [hfm] at g1; exact g1
  · exact absurd hfm g2

theorem frobNormVal_sparse {env : Env K X V} {a : Attachment X} {sp : Lv} {s : KMState K X V} (h : Good env a sp s) (hp : s.populated = true)
    (hl : s.lowerFilled = false) (hn : s.frobNorm = none) : (frobNormVal env s).1 = env.ops.frobSparse (upperGram env a s.kernel) := by
  unfold frobNormVal
  have he : ensurePopulated env s = (.ok (), s) := by
    unfold ensurePopulated
    rw [get_bind_run, hp]
    rfl
  rw [bind_ok he, get_bind_run]
  simp only [hn, Option.isNone_none, when_true]
  have hinner : (fullMat >>= fun A : Fmt × Mat V =>
      lift (if A.1 == .sparse then env.ops.frobSparse A.2 else env.ops.frob A.2) >>= fun v =>
      modify fun s : KMState K X V => { s with frobNorm := some v }) s =
      match env.ops.frobSparse (upperGram env a s.kernel) with
      | .error e => (.error e, s)
      | .ok v => (.ok (), { s with frobNorm := some v }) := by
    rw [bind_ok (h.fullMat_sparse hp hl)]
    simp only [beq_self_eq_true, if_true]
    rcases env.ops.frobSparse (upperGram env a s.kernel) with e | v <;> rfl
  rcases hv : env.ops.frobSparse (upperGram env a s.kernel) with e | v
  · rw [hv] at hinner
    rw [bind_error hinner]
  · rw [hv] at hinner
    rw [bind_ok hinner]
    rfl

theorem centered_sparse {env : Env K X V} {A : Arr2 X} {sp : Lv} {s : KMState K X V} (h : Good env ⟨A, none⟩ sp s) (hp : s.populated = true)
    (hl : s.lowerFilled = false) (hn : s.isCentered = false) : (centered env s).1 = .error .valueError := by
  unfold centered
  rw [bind_ok (getAttr_run_some (·.twoSamples) s _ h.att.two)]
  simp only [Option.isSome_none, raiseIf_false]
  rw [pure_bind_run, get_bind_run]
  simp only [hn, Bool.not_false, when_true]
  have : center env s = (.error .valueError, s) := by
    unfold center
    rw [bind_ok (getAttr_run_some (·.twoSamples) s _ h.att.two)]
    simp only [Option.isSome_none, raiseIf_false]
    rw [pure_bind_run]
    have he : ensurePopulated env s = (.ok (), s) := by
      unfold ensurePopulated
      rw [get_bind_run, hp]
      rfl
    rw [bind_ok he, bind_ok (h.fullMat_sparse hp hl)]
    rfl
  rw [bind_error this]

/-- `centered` in any state: the right matrix, or `ValueError` -/
theorem centered_any {env : Env K X V} (hf : NoFaults env) {A : Arr2 X} {sp : Lv} {s : KMState K X V} (h : Good env ⟨A, none⟩ sp s)
    (hq : Quiet env s.kernel ⟨A, none⟩) :
    (centered env s).1 = (env.ops.center (Attachment.gram ⟨A, none⟩ (env.kval s.kernel))).map (fun C => (.dense, C)) ∨
      (centered env s).1 = .error .valueError := by
  unfold centered
  rw [bind_ok (getAttr_run_some (·.twoSamples) s _ h.att.two)]
  simp only [Option.isSome_none, raiseIf_false]
  rw [pure_bind_run, get_bind_run]
  rcases hc : s.isCentered
  · simp only [Bool.not_false, when_true]
    unfold center
    obtain ⟨s1, r, e1, e2, e3, e4, e5, e6, hr, hq'⟩ := ensurePopulated_ff hf h
    have hker : s1.kernel = s.kernel := by obtain ⟨_, _, _, _, _, _, _, rfl⟩ := e3; rfl
    obtain rfl := hq' hq
    obtain ⟨fmt, M, g1, g2, g3, g4, g5, g6⟩ := fullMat_ff e2 e4
    have hstep : (getAttr (fun s : KMState K X V => s.twoSamples) >>= fun two => raiseIf two PyErr.notImplemented >>= fun _ =>
        ensurePopulated env >>= fun _ => fullMat >>= fun A => raiseIf (A.1 == .sparse) PyErr.valueError >>= fun _ =>
        lift (env.ops.center A.2) >>= fun C => modify fun s : KMState K X V => { s with centeredKm := some (productFmt A.1, C), isCentered := true }) s =
        (raiseIf (fmt == .sparse) PyErr.valueError >>= fun _ =>
          lift (env.ops.center M) >>= fun C => modify fun s : KMState K X V => { s with centeredKm := some (productFmt fmt, C), isCentered := true }) s1 := by
      rw [bind_ok (getAttr_run_some (·.twoSamples) s _ h.att.two)]
      simp only [Option.isSome_none, raiseIf_false]
      rw [pure_bind_run, bind_ok e1, bind_ok g1]
    rcases hfm : fmt
    · have hA := g4 (g5 hfm)
      rw [hker] at hA
      left
      rw [hfm] at hstep
      rcases hC : env.ops.center M with e | C
      · rw [hC] at hstep
        rw [bind_error (hstep.trans rfl), ← hA, hC]
        rfl
      · rw [hC] at hstep
        rw [bind_ok (hstep.trans rfl), ← hA, hC]
        rfl
    · right
      rw [hfm] at hstep
      rw [bind_error (hstep.trans rfl)]
    · exact absurd hfm g2
  · left
    simp only [Bool.not_true, when_false, pure_bind_run]
    obtain ⟨C, g1, g2⟩ := h.centered hc
    rw [getAttr_run_some (·.centeredKm) s _ g1, g2]
    rfl

end KMState

theorem frobeniusNormSparse_real {n : Nat} (M : Matrix (Fin n) (Fin n) ℝ) :
    frobeniusNormSparse (Mat.ofReal M) = .ok (F.sqrt (.real (∑ i, ∑ j, (M * M) i j))) := by
  unfold frobeniusNormSparse
  rw [dif_pos (show (Mat.ofReal M).nrows = (Mat.ofReal M).ncols from rfl)]
  congr 2
  show F.sum (fun p : Fin n × Fin n => matmul (fun i j => real (M i j)) (fun i j => real (M i j)) p.1 p.2) = _
  rw [matmul_real, sum_real, Fintype.sum_prod_type]

end KMethods
