import Verif.Lemmas.KMGood
/-! Outcome of every public call in fault-free histories. -/
namespace KMethods

/-- the normalisation accepts at most one method, whose name is equivalent to "cosine" -/
def OpsOk {V : Type} (ops : Ops V) : Prop :=
  ∀ A m N, ops.normalize A m = .ok N → ops.normalize A "cosine" = .ok N

theorem Attachment.normed_cosine {X V : Type} {a : Attachment X} {kv : X → X → V} {ops : Ops V}
    (hops : OpsOk ops) {m : String} {N : Mat V} (h : a.normed kv ops m = .ok N) :
    a.normed kv ops "cosine" = .ok N := by
  unfold Attachment.normed Attachment.normedOf at *
  rcases ht : a.two with _ | b
  · rw [ht] at h; exact hops _ _ _ h
  · rw [ht] at h; exact h

namespace KMState
variable {K X V α β ι : Type}
open PyM

theorem Good.setClock {env : Env K X V} {a : Attachment X} {sp : Lv} {s : KMState K X V}
    (h : Good env a sp s) (t : Nat) : Good env a sp { s with clock := t } :=
  h.core ⟨s.cache, s.numKerEval, s.succ, t, s.fullKm, s.populated, s.lowerFilled, rfl⟩
    (h.att.congr rfl rfl rfl rfl rfl rfl rfl) h.full (Lv.Le.refl _)

theorem Good.lower {env : Env K X V} {a : Attachment X} {sp : Lv} {s : KMState K X V}
    (h : Good env a sp s) (hp : s.populated = true) (hk : s.keepNormed = true ∨ sp.up = false ∨ sp.sp = false) :
    s.lowerFilled = true := by
  rcases h.full with ⟨_, g2, _⟩ | ⟨f, g1, g2, g3, g4, g5, g6, g7, g8⟩
  · rw [hp] at g2; simp at g2
  · rcases hk with hk | hk | hk
    · exact g6 (Or.inl hk)
    · exact g6 (Or.inr hk)
    · exact g5 (g4 hk)

theorem normalize_ff {env : Env K X V} (hf : NoFaults env) {a : Attachment X} {sp : Lv}
    {s : KMState K X V} (h : Good env a sp s) (m : String) :
    Good env a sp (normalize env m s).2 ∧ (normalize env m s).2.keepNormed = s.keepNormed ∧
    (normalize env m s).2.kernel = s.kernel ∧
    (Quiet env s.kernel a → s.isNormed = true → (normalize env m s).1 = .ok ()) ∧
    (Quiet env s.kernel a → QuietNormed env s.kernel a → s.isNormed = false → (s.keepNormed = true ∨ sp.up = false) →
      (∃ N, a.normed (env.kval s.kernel) env.ops m = .ok N ∧ (normalize env m s).1 = .ok () ∧
        (normalize env m s).2.normedKm = some (.dense, N)) ∨
      (∃ e, a.normed (env.kval s.kernel) env.ops m = .error e ∧ (normalize env m s).1 = .error e)) ∧
    ((normalize env m s).1 = .ok () → (normalize env m s).2.isNormed = true) ∧
    (s.isNormed = true → (normalize env m s).2.normedKm = s.normedKm) := by
  obtain ⟨s1, r, e1, e2, e3, e4, e5, e6, hr, hq⟩ := ensurePopulated_ff hf h
  have hk1 : s1.keepNormed = s.keepNormed := by obtain ⟨_, _, _, _, _, _, _, rfl⟩ := e3; rfl
  have hker : s1.kernel = s.kernel := by obtain ⟨_, _, _, _, _, _, _, rfl⟩ := e3; rfl
  have hnorm : s1.isNormed = s.isNormed := by obtain ⟨_, _, _, _, _, _, _, rfl⟩ := e3; rfl
  have hnkm : s1.normedKm = s.normedKm := by obtain ⟨_, _, _, _, _, _, _, rfl⟩ := e3; rfl
  rcases hr with rfl | rfl
  swap
  · have hno : ¬ Quiet env s.kernel a := fun h => by have := hq h; simp at this
    have : normalize env m s = (.error .typeError, s1) := by
      unfold normalize
      rw [bind_error e1]
    rw [this]
    exact ⟨e2, hk1, hker, fun h => absurd h hno, fun h => absurd h hno, by simp, fun _ => hnkm⟩
  have hrun : normalize env m s = (when (!s1.isNormed) (computeNormed env m >>= fun N =>
      modify (fun s => { s with normedKm := some N, isNormed := true }) >>= fun _ => warnNonFinite env N.2)) s1 := by
    unfold normalize
    rw [bind_ok e1]
    rfl
  rw [hrun]
  rcases hn : s.isNormed
  · rw [hnorm, hn]
    simp only [Bool.not_false, when_true]
    obtain ⟨t, c1, c2, c3⟩ := computeNormed_ff hf e2 e4 m
    rcases hc : computeNormed env m s1 with ⟨e | N, s2⟩
    · rw [hc] at c1 c3
      simp only at c1 c3
      subst c1
      rw [bind_error hc]
      refine ⟨e2.setClock t, hk1, hker, by simp, ?_, by simp, by simp⟩
      intro _ _ _ hk
      right
      have := c3 (e2.lower e4 (by rw [hk1]; exact hk.imp id Or.inl))
      rw [hker] at this
      rcases hh : a.normed (env.kval s.kernel) env.ops m with e' | N
      · rw [hh] at this; simp [Except.map] at this; exact ⟨e', rfl, by rw [this]⟩
      · rw [hh] at this; simp [Except.map] at this
    · rw [hc] at c1 c2 c3
      simp only at c1 c3
      subst c1
      rw [bind_ok hc]
      have hNd := c2 N rfl
      rw [modify_bind_run, warn_run]
      have hval : (s.keepNormed = true ∨ sp.up = false) → a.normed (env.kval s.kernel) env.ops m = .ok N.2 := by
        intro hk
        have := c3 (e2.lower e4 (by rw [hk1]; exact hk.imp id Or.inl))
        rw [hker] at this
        rcases hh : a.normed (env.kval s.kernel) env.ops m with e' | N'
        · rw [hh] at this; simp [Except.map] at this
        · rw [hh] at this; simp [Except.map] at this; rw [this]
      have hN : N = (.dense, N.2) := by rw [← hNd]
      refine ⟨?_, hk1, hker, by simp, ?_, by simp, by simp⟩
      · refine ⟨e2.att.congr rfl rfl rfl rfl rfl rfl rfl, e2.full, ?_, e2.centered, e2.frob⟩
        intro _
        refine ⟨N.2, by rw [← hN], ?_⟩
        intro hk
        exact ⟨m, by simpa [hker] using hval (by simpa [hk1] using hk)⟩
      · intro _ hqq _ hk
        left
        refine ⟨N.2, hval hk, if_neg ?_, by rw [← hN]⟩
        rw [Bool.and_comm, Bool.and_eq_true, not_and]
        intro h1 h2
        have h2 : env.fmtRaises s.kernel = true := by rw [← hker]; exact h2
        rw [hqq h2 m N.2 (hval hk)] at h1
        simp at h1
  · rw [hnorm, hn]
    simp only [Bool.not_true, when_false]
    exact ⟨e2, hk1, hker, fun _ _ => rfl, by simp, fun _ => by show s1.isNormed = true; rw [hnorm, hn], fun _ => hnkm⟩

theorem normedKmVal_ff {env : Env K X V} (hf : NoFaults env) {a : Attachment X}
    {sp : Lv} {s : KMState K X V} (h : Good env a sp s) :
    Good env a sp (normedKmVal env s).2 ∧
    (Quiet env s.kernel a → QuietNormed env s.kernel a → OpsOk env.ops → (s.keepNormed = true ∨ sp.up = false) → (normedKmVal env s).1 =
      (a.normed (env.kval s.kernel) env.ops "cosine").map fun N => (.dense, N)) := by
  unfold normedKmVal
  rw [get_bind_run]
  rcases hn : s.isNormed
  · simp only [Bool.not_false, when_true]
    obtain ⟨n1, n2, n3, _, n5, n6, _⟩ := normalize_ff hf h "cosine"
    rcases hr : normalize env "cosine" s with ⟨e | u, s1⟩
    · rw [hr] at n1 n5
      rw [bind_error hr]
      refine ⟨n1, fun hqq hqn hops hk => ?_⟩
      rcases n5 hqq hqn hn hk with ⟨N, _, h2, _⟩ | ⟨e', h1, h2⟩
      · simp at h2
      · simp at h2; subst h2; rw [h1]; rfl
    · rw [hr] at n1 n5 n6
      rw [bind_ok hr]
      obtain ⟨N, g1, g2⟩ := n1.normed (n6 rfl)
      have hget := getAttr_run_some (·.normedKm) s1 _ g1
      rw [hget]
      refine ⟨n1, fun hqq hqn hops hk => ?_⟩
      rcases n5 hqq hqn hn hk with ⟨N', h1, _, h3⟩ | ⟨e', _, h2⟩
      · simp only at h3
        rw [g1] at h3
        injection h3 with h3
        injection h3 with _ h3
        subst h3
        rw [h1]; rfl
      · simp at h2
  · simp only [Bool.not_true, when_false, pure_bind_run]
    obtain ⟨N, g1, g2⟩ := h.normed hn
    have hget := getAttr_run_some (·.normedKm) s _ g1
    rw [hget]
    refine ⟨h, fun _ _ hops hk => ?_⟩
    obtain ⟨m, hm⟩ := g2 hk
    rw [Attachment.normed_cosine hops hm]; rfl

theorem Good.sample_isNone {env : Env K X V} {a : Attachment X} {sp : Lv} {s : KMState K X V}
    (h : Good env a sp s) : s.sample.isNone = false := by rw [h.att.sample]; rfl

theorem full_ff {env : Env K X V} (hf : NoFaults env) {a : Attachment X}
    {sp : Lv} {s : KMState K X V} (h : Good env a sp s) :
    Good env a sp (full env s).2 ∧
    (Quiet env s.kernel a → QuietNormed env s.kernel a → OpsOk env.ops → s.keepNormed = true → (full env s).1 =
      (a.normed (env.kval s.kernel) env.ops "cosine").map fun N => (.dense, N)) ∧
    (Quiet env s.kernel a → s.keepNormed = false → sp.sp = false → (full env s).1 = .ok (.dense, a.gram (env.kval s.kernel))) ∧
    (Quiet env s.kernel a → s.keepNormed = false → sp.up = false → ∃ fmt, (full env s).1 = .ok (fmt, a.gram (env.kval s.kernel))) ∧
    (s.keepNormed = false → sp.sp = false → (full env s).1 = .ok (.dense, a.gram (env.kval s.kernel)) ∨
      (full env s).1 = .error .typeError) := by
  obtain ⟨s1, r, e1, e2, e3, e4, e5, e6, hr, hq⟩ := ensurePopulated_ff hf h
  have hk1 : s1.keepNormed = s.keepNormed := by obtain ⟨_, _, _, _, _, _, _, rfl⟩ := e3; rfl
  have hker : s1.kernel = s.kernel := by obtain ⟨_, _, _, _, _, _, _, rfl⟩ := e3; rfl
  rcases hr with rfl | rfl
  swap
  · have hno : ¬ Quiet env s.kernel a := fun h => by have := hq h; simp at this
    have : full env s = (.error .typeError, s1) := by
      unfold full
      rw [get_bind_run, h.sample_isNone]
      simp only [raiseIf_false]
      rw [pure_bind_run, bind_error e1]
    rw [this]
    exact ⟨e2, fun h => absurd h hno, fun h => absurd h hno, fun h => absurd h hno, fun _ _ => Or.inr rfl⟩
  have hrun : full env s = (if s.keepNormed then normedKmVal env else fullMat) s1 := by
    unfold full
    rw [get_bind_run, h.sample_isNone]
    simp only [raiseIf_false]
    rw [pure_bind_run, bind_ok e1]
  rw [hrun]
  rcases hk : s.keepNormed
  · simp only [Bool.false_eq_true, if_false]
    obtain ⟨fmt, A, g1, g2, g3, g4, g5, g6⟩ := fullMat_ff e2 e4
    rw [g1]
    refine ⟨e2, by simp, fun _ _ hsp => ?_, fun _ _ hup => ?_, fun _ hsp => Or.inl ?_⟩
    · have hl := e2.lower e4 (Or.inr (Or.inr hsp))
      rw [g3 hsp, g4 hl, hker]
    · have hl := e2.lower e4 (Or.inr (Or.inl hup))
      exact ⟨fmt, by rw [g4 hl, hker]⟩
    · have hl := e2.lower e4 (Or.inr (Or.inr hsp))
      rw [g3 hsp, g4 hl, hker]
  · simp only [if_true]
    obtain ⟨n1, n2⟩ := normedKmVal_ff hf e2
    refine ⟨n1, fun hqq hqn hops _ => ?_, by simp, by simp, by simp⟩
    rw [n2 (by rw [hker]; exact hqq) (by rw [hker]; exact hqn) hops (Or.inl (by rw [hk1, hk])), hker]

theorem fullSparse_ff {env : Env K X V} (hf : NoFaults env) {a : Attachment X}
    {sp sp' : Lv} {s : KMState K X V} (h : Good env a sp s)
    (hsp : sp.Le sp') (hsp1 : s.keepNormed = false → sp'.sp = true ∧ sp'.up = true) :
    Good env a sp' (fullSparse env s).2 ∧
    (Quiet env s.kernel a → QuietNormed env s.kernel a → OpsOk env.ops → s.keepNormed = true → (fullSparse env s).1 =
      (a.normed (env.kval s.kernel) env.ops "cosine").map fun N => (.dense, N)) ∧
    (Quiet env s.kernel a → s.keepNormed = false → ∃ fmt A, (fullSparse env s).1 = .ok (fmt, A) ∧
      (A = a.gram (env.kval s.kernel) ∨ A = Mat.ofCells a.nrows a.ncols fun i j =>
        if i ≤ j then a.entry (env.kval s.kernel) i j else env.ops.zero)) := by
  unfold fullSparse
  rw [get_bind_run]
  rcases hk : s.keepNormed
  · simp only [Bool.false_eq_true, if_false]
    obtain ⟨s1, r, e1, e2, e3, e4, _, hr, hq⟩ := populateFully_ff hf h false false (by simp) (fun _ => hk)
    have hker : s1.kernel = s.kernel := by obtain ⟨_, _, _, _, _, _, _, rfl⟩ := e3; rfl
    rcases hr with rfl | rfl
    swap
    · have hno : ¬ Quiet env s.kernel a := fun h => by have := hq h; simp at this
      rw [bind_error e1]
      exact ⟨e2.mono ⟨by simp [(hsp1 hk).1], by simp [(hsp1 hk).2]⟩, by simp, fun h => absurd h hno⟩
    rw [bind_ok e1]
    obtain ⟨fmt, A, g1, g2, g3, g4, g5, g6⟩ := fullMat_ff e2 e4
    rw [g1]
    refine ⟨e2.mono ⟨by simp [(hsp1 hk).1], by simp [(hsp1 hk).2]⟩, by simp, fun _ _ => ?_⟩
    refine ⟨fmt, A, rfl, ?_⟩
    rw [hker] at g4 g6
    rcases hl : s1.lowerFilled
    · exact Or.inr (g6 hl)
    · exact Or.inl (g4 hl)
  · simp only [if_true]
    obtain ⟨n1, n2⟩ := normedKmVal_ff hf h
    exact ⟨n1.mono hsp, fun hqq hqn hops _ => n2 hqq hqn hops (Or.inl hk), by simp⟩

theorem center_ff {env : Env K X V} (hf : NoFaults env) {a : Attachment X}
    {sp : Lv} {s : KMState K X V} (h : Good env a sp s) :
    Good env a sp (center env s).2 ∧
    ((center env s).1 = .ok () → (center env s).2.isCentered = true) ∧
    (Quiet env s.kernel a → a.two = none → sp.sp = false →
      (∃ C, env.ops.center (a.gram (env.kval s.kernel)) = .ok C ∧ (center env s).1 = .ok () ∧
        (center env s).2.centeredKm = some (.dense, C)) ∨
      (∃ e, env.ops.center (a.gram (env.kval s.kernel)) = .error e ∧ (center env s).1 = .error e)) := by
  unfold center
  rcases ht : a.two with _ | b
  swap
  · have htwo : s.twoSamples = some true := by rw [h.att.two, ht]; rfl
    rw [bind_ok (getAttr_run_some (·.twoSamples) s _ htwo)]
    exact ⟨h, by simp, by simp⟩
  have htwo : s.twoSamples = some false := by rw [h.att.two, ht]; rfl
  rw [bind_ok (getAttr_run_some (·.twoSamples) s _ htwo)]
  simp only [raiseIf_false]
  rw [pure_bind_run]
  obtain ⟨s1, r, e1, e2, e3, e4, e5, e6, hr, hq⟩ := ensurePopulated_ff hf h
  have hker : s1.kernel = s.kernel := by obtain ⟨_, _, _, _, _, _, _, rfl⟩ := e3; rfl
  rcases hr with rfl | rfl
  swap
  · have hno : ¬ Quiet env s.kernel a := fun h => by have := hq h; simp at this
    rw [bind_error e1]
    exact ⟨e2, by simp, fun h => absurd h hno⟩
  rw [bind_ok e1]
  obtain ⟨fmt, A, g1, g2, g3, g4, g5, g6⟩ := fullMat_ff e2 e4
  rw [bind_ok g1]
  rcases hfm : fmt
  · -- dense
    have hA := g4 (g5 hfm)
    rw [hker] at hA
    simp only [show (Fmt.dense == Fmt.sparse) = false from rfl, raiseIf_false]
    rw [pure_bind_run]
    rcases hC : env.ops.center A with e | C
    · rw [lift_error_bind_run]
      refine ⟨e2, by simp, fun _ _ _ => Or.inr ⟨e, by rw [← hA, hC], rfl⟩⟩
    · rw [lift_ok_bind_run]
      refine ⟨?_, by simp, fun _ _ _ => Or.inl ⟨C, by rw [← hA, hC], rfl, rfl⟩⟩
      refine ⟨e2.att.congr rfl rfl rfl rfl rfl rfl rfl, e2.full, e2.normed, ?_, e2.frob⟩
      intro _
      exact ⟨C, rfl, by
        show env.ops.center (a.gram (env.kval s1.kernel)) = _
        rw [hker, ← hA, hC]⟩
  · simp only [show (Fmt.sparse == Fmt.sparse) = true from rfl, raiseIf_true]
    rw [throw_bind_run]
    refine ⟨e2, by simp, fun _ _ hsp => ?_⟩
    rw [g3 hsp] at hfm; simp at hfm
  · exact absurd hfm g2

theorem centered_ff {env : Env K X V} (hf : NoFaults env) {a : Attachment X}
    {sp : Lv} {s : KMState K X V} (h : Good env a sp s) :
    Good env a sp (centered env s).2 ∧
    (Quiet env s.kernel a → a.two = none → sp.sp = false → (centered env s).1 =
      (env.ops.center (a.gram (env.kval s.kernel))).map fun C => (.dense, C)) := by
  unfold centered
  rcases ht : a.two with _ | b
  swap
  · have htwo : s.twoSamples = some true := by rw [h.att.two, ht]; rfl
    rw [bind_ok (getAttr_run_some (·.twoSamples) s _ htwo)]
    exact ⟨h, by simp⟩
  have htwo : s.twoSamples = some false := by rw [h.att.two, ht]; rfl
  rw [bind_ok (getAttr_run_some (·.twoSamples) s _ htwo)]
  simp only [raiseIf_false]
  rw [pure_bind_run, get_bind_run]
  rcases hc : s.isCentered
  · simp only [Bool.not_false, when_true]
    obtain ⟨c1, c2, c3⟩ := center_ff hf h
    rcases hr : center env s with ⟨e | u, s1⟩
    · rw [hr] at c1 c3
      rw [bind_error hr]
      refine ⟨c1, fun hqq _ hsp => ?_⟩
      rcases c3 hqq ht hsp with ⟨C, _, h2, _⟩ | ⟨e', h1, h2⟩
      · simp at h2
      · simp at h2; subst h2; rw [h1]; rfl
    · rw [hr] at c1 c2 c3
      rw [bind_ok hr]
      obtain ⟨C, g1, g2⟩ := c1.centered (c2 rfl)
      have hget := getAttr_run_some (·.centeredKm) s1 _ g1
      rw [hget]
      refine ⟨c1, fun hqq _ hsp => ?_⟩
      rcases c3 hqq ht hsp with ⟨C', h1, _, h3⟩ | ⟨e', _, h2⟩
      · simp only at h3
        rw [g1] at h3
        injection h3 with h3
        injection h3 with _ h3
        subst h3
        rw [h1]; rfl
      · simp at h2
  · simp only [Bool.not_true, when_false, pure_bind_run]
    obtain ⟨C, g1, g2⟩ := h.centered hc
    have hget := getAttr_run_some (·.centeredKm) s _ g1
    rw [hget]
    exact ⟨h, fun _ _ _ => by rw [g2]; rfl⟩

theorem frobNormVal_ff {env : Env K X V} (hf : NoFaults env) {a : Attachment X}
    {sp : Lv} {s : KMState K X V} (h : Good env a sp s) :
    Good env a sp (frobNormVal env s).2 ∧
    (Quiet env s.kernel a → FrobIs env a sp s.kernel (frobNormVal env s).1) := by
  obtain ⟨s1, r, e1, e2, e3, e4, e5, e6, hr, hq⟩ := ensurePopulated_ff hf h
  have hker : s1.kernel = s.kernel := by obtain ⟨_, _, _, _, _, _, _, rfl⟩ := e3; rfl
  unfold frobNormVal
  rcases hr with rfl | rfl
  swap
  · have hno : ¬ Quiet env s.kernel a := fun h => by have := hq h; simp at this
    rw [bind_error e1]
    exact ⟨e2, fun h => absurd h hno⟩
  rw [bind_ok e1, get_bind_run]
  rcases hfr : s1.frobNorm with _ | v
  · simp only [Option.isNone_none, when_true]
    obtain ⟨fmt, A, g1, g2, g3, g4, g5, g6⟩ := fullMat_ff e2 e4
    have hinner : (fullMat >>= fun A : Fmt × Mat V =>
        lift (if A.1 == .sparse then env.ops.frobSparse A.2 else env.ops.frob A.2) >>= fun v =>
        modify fun s : KMState K X V => { s with frobNorm := some v }) s1 =
        match (if fmt == .sparse then env.ops.frobSparse A else env.ops.frob A) with
        | .error e => (.error e, s1)
        | .ok v => (.ok (), { s1 with frobNorm := some v }) := by
      rw [bind_ok g1]
      rcases (if fmt == .sparse then env.ops.frobSparse A else env.ops.frob A) with e | v <;> rfl
    have hval : FrobIs env a sp s1.kernel (if fmt == .sparse then env.ops.frobSparse A else env.ops.frob A) := by
      rcases hfm : fmt
      · rw [g4 (g5 hfm)]
        exact Or.inl rfl
      · have hsp : sp.sp = true := by
          rcases hsp : sp.sp
          · rw [g3 hsp] at hfm; cases hfm
          · rfl
        refine Or.inr ⟨hsp, ?_⟩
        rcases hl : s1.lowerFilled
        · refine Or.inr ⟨?_, ?_⟩
          · rcases hu : sp.up
            · rw [e2.lower e4 (Or.inr (Or.inl hu))] at hl; cases hl
            · rfl
          · rw [g6 hl]; rfl
        · rw [g4 hl]; exact Or.inl rfl
      · exact absurd hfm g2
    rcases hv : (if fmt == .sparse then env.ops.frobSparse A else env.ops.frob A) with e | v
    · rw [hv] at hinner hval
      rw [bind_error hinner]
      rw [hker] at hval
      exact ⟨e2, fun _ => hval⟩
    · rw [hv] at hinner hval
      rw [bind_ok hinner]
      refine ⟨?_, fun _ => by rw [hker] at hval; exact hval⟩
      refine ⟨e2.att.congr rfl rfl rfl rfl rfl rfl rfl, e2.full, e2.normed, e2.centered, ?_⟩
      intro w hw
      have : v = w := by
        have h0 : (some v : Option V) = some w := hw
        injection h0
      subst this
      exact hval
  · simp only [Option.isNone_some, when_false, pure_bind_run]
    have hget := getAttr_run_some (·.frobNorm) s1 _ hfr
    rw [hget]
    refine ⟨e2, fun _ => ?_⟩
    have := e2.frob v hfr
    rw [hker] at this
    exact this

theorem Good.same {env : Env K X V} {a : Attachment X} {sp : Lv} {s s' : KMState K X V}
    (h : Good env a sp s) (hs : SameBut s s') (hatt : AttachedTo env a s') (hfk : s'.fullKm = s.fullKm) :
    Good env a sp s' := by
  refine h.core hs.core hatt ?_ (Lv.Le.refl _)
  obtain ⟨c, n, u, t, fk, rfl⟩ := hs
  simp only at hfk
  subst hfk
  exact h.full

theorem compute_ff {env : Env K X V} (hf : NoFaults env) {a : Attachment X} {one two : List Nat}
    (h1 : ∀ i ∈ one, i < a.nrows) (h2 : ∀ j ∈ two, j < a.ncols) {s : KMState K X V} (h : AttachedTo env a s) :
    ∃ s', computeForIndexCombinations env one two s =
      (.ok (.dense, Mat.ofCells one.length two.length fun p q =>
        a.entry (env.kval s.kernel) (one.getD p 0) (two.getD q 0)), s') ∧
      AttachedTo env a s' ∧ SameBut s s' ∧ s'.fullKm = s.fullKm := by
  obtain ⟨s', g1, g2, g3, g4⟩ := mapEach_eval_ff hf (a := a)
    (one.flatMap fun i => two.map fun j => (i, j)) (by
      intro p hp
      obtain ⟨i, hi, hp⟩ := List.mem_flatMap.1 hp
      obtain ⟨j, hj, rfl⟩ := List.mem_map.1 hp
      exact ⟨h1 i hi, h2 j hj⟩) h
  refine ⟨s', ?_, g2, g3, g4⟩
  have : ∃ r, computeForIndexCombinations env one two s = (.ok r, s') := by
    unfold computeForIndexCombinations
    rw [bind_ok g1]
    exact ⟨_, rfl⟩
  obtain ⟨r, hr⟩ := this
  rw [hr, compute_ok h hr]

/-- indices accepted by `km[...]` on an attached object -/
theorem getItem_run_pair {env : Env K X V} {s : KMState K X V} {n m : Nat} (hs : s.shape = some (n, m))
    (S T : Idx) :
    getItem env (.pair S T) s =
      match getIndicesInSample (some (n, m)) S false with
      | .error e => (.error e, s)
      | .ok one =>
        match getIndicesInSample (some (n, m)) T true with
        | .error e => (.error e, s)
        | .ok two =>
          if one.2 && two.2 then (populateFully env false true >>= fun _ => fullMat) s
          else computeForIndexCombinations env one.1 two.1 s := by
  unfold getItem keyPair
  rw [pure_bind_run, get_bind_run, hs]
  rcases getIndicesInSample (some (n, m)) S false with e | one
  · rfl
  rw [lift_ok_bind_run]
  simp only
  rcases getIndicesInSample (some (n, m)) T true with e | two
  · rfl
  rw [lift_ok_bind_run]
  simp only
  split <;> rfl

theorem getItem_linear {env : Env K X V} {s : KMState K X V} {n m : Nat} (hs : s.shape = some (n, m))
    (k : Int) :
    getItem env (.linear k) s =
      if k < 0 ∨ ((n * m : Nat) : Int) ≤ k then (.error .valueError, s)
      else getItem env (.pair (.int (k.toNat / m : Nat)) (.int (k.toNat % m : Nat))) s := by
  have hkp : (keyPair (K := K) (X := X) (V := V) (.linear k)) s =
      if k < 0 ∨ ((n * m : Nat) : Int) ≤ k then (.error .valueError, s)
      else (.ok (.int (k.toNat / m : Nat), .int (k.toNat % m : Nat)), s) := by
    unfold keyPair
    simp only
    rw [bind_ok (getAttr_run_some (·.shape) s _ hs)]
    unfold unravel
    by_cases hk : k < 0 ∨ ((n * m : Nat) : Int) ≤ k
    · rw [if_pos hk, if_pos (by simpa using hk)]; rfl
    · rw [if_neg hk, if_neg (by simpa using hk)]; rfl
  unfold getItem
  by_cases hk : k < 0 ∨ ((n * m : Nat) : Int) ≤ k
  · rw [if_pos hk] at hkp ⊢
    rw [bind_error hkp]
  · rw [if_neg hk] at hkp ⊢
    rw [bind_ok hkp]
    rfl

/-- outcome of `km[S, T]` without failures -/
theorem getItem_ff {env : Env K X V} (hf : NoFaults env) {a : Attachment X}
    {sp : Lv} {s : KMState K X V} (h : Good env a sp s) (S T : Idx)
    {one two : List Nat × Bool} (h1 : getIndicesInSample (some (a.nrows, a.ncols)) S false = .ok one)
    (h2 : getIndicesInSample (some (a.nrows, a.ncols)) T true = .ok two) :
    Good env a ⟨sp.sp || (one.2 && two.2), sp.up⟩ (getItem env (.pair S T) s).2 ∧
    (Quiet env s.kernel a → ∃ fmt, (getItem env (.pair S T) s).1 = .ok (fmt, Mat.ofCells one.1.length two.1.length fun p q =>
        a.entry (env.kval s.kernel) (one.1.getD p 0) (two.1.getD q 0)) ∧
      ((one.2 && two.2) = false → fmt = .dense)) := by
  rw [getItem_run_pair h.att.shape, h1, h2]
  simp only
  have hi1 : ∃ l b, one = (l, b) ∧ l.Pairwise (· < ·) ∧ (∀ i ∈ l, i < a.nrows) ∧ (b = true ↔ l.length = a.nrows) := by
    rcases getIndices_spec a.nrows a.ncols S false with ⟨_, h⟩ | ⟨_, _, h⟩ | ⟨_, _, l, b, h, e1, e2, e3, e4, e5⟩
    · rw [h1] at h; simp at h
    · rw [h1] at h; simp at h
    · rw [h1] at h; simp at h; exact ⟨l, b, h, e1, e3, e5⟩
  have hi2 : ∃ l b, two = (l, b) ∧ l.Pairwise (· < ·) ∧ (∀ i ∈ l, i < a.ncols) ∧ (b = true ↔ l.length = a.ncols) := by
    rcases getIndices_spec a.nrows a.ncols T true with ⟨_, h⟩ | ⟨_, _, h⟩ | ⟨_, _, l, b, h, e1, e2, e3, e4, e5⟩
    · rw [h2] at h; simp at h
    · rw [h2] at h; simp at h
    · rw [h2] at h; simp at h; exact ⟨l, b, h, e1, e3, e5⟩
  obtain ⟨l1, b1, rfl, p1, r1, w1⟩ := hi1
  obtain ⟨l2, b2, rfl, p2, r2, w2⟩ := hi2
  simp only
  rcases hw : (b1 && b2)
  · simp only [Bool.false_eq_true, if_false, Bool.or_false]
    obtain ⟨s', g1, g2, g3, g4⟩ := compute_ff hf r1 r2 h.att
    rw [g1]
    exact ⟨h.same g3 g2 g4, fun _ => ⟨.dense, rfl, fun _ => rfl⟩⟩
  · simp only [if_true]
    obtain ⟨s1, r, e1, e2, e3, e4, e5, hr, hq⟩ := populateFully_ff hf h false true (by simp) (by simp)
    have hker : s1.kernel = s.kernel := by obtain ⟨_, _, _, _, _, _, _, rfl⟩ := e3; rfl
    rcases hr with rfl | rfl
    swap
    · have hno : ¬ Quiet env s.kernel a := fun h => by have := hq h; simp at this
      rw [bind_error e1]
      exact ⟨by simpa using e2, fun h => absurd h hno⟩
    rw [bind_ok e1]
    obtain ⟨fmt, A, g1, g2, g3, g4, g5, g6⟩ := fullMat_ff e2 e4
    rw [g1]
    refine ⟨by simpa using e2, fun _ => ⟨fmt, ?_, by simp⟩⟩
    rw [g4 (e5 rfl), hker]
    have hb1 : b1 = true := by revert hw; cases b1 <;> simp
    have hb2 : b2 = true := by revert hw; cases b2 <;> simp
    have hl1 := sorted_eq_range p1 r1 (w1.1 hb1)
    have hl2 := sorted_eq_range p2 r2 (w2.1 hb2)
    rw [hl1, hl2]
    show Except.ok (fmt, a.gram (env.kval s.kernel)) = _
    unfold Attachment.gram
    simp only [List.length_range]
    congr 2
    apply ofCells_congr
    intro i hi j hj
    simp [List.getD_eq_getElem?_getD, hi, hj]

theorem diagonal_good {env : Env K X V} (hf : NoFaults env) {a : Attachment X}
    {sp : Lv} {s : KMState K X V} (h : Good env a sp s) :
    Good env a sp (diagonal env s).2 ∧
    (a.two = none → (diagonal env s).1 = .ok (a.one.selfs (env.kval s.kernel))) := by
  rcases ht : a.two with _ | b
  · obtain ⟨s', g1, g2, g3, g4⟩ := diagonal_ff hf h.att ht
    rw [g1]
    exact ⟨h.same g3 g2 g4, fun _ => rfl⟩
  · have htwo : s.twoSamples = some true := by rw [h.att.two, ht]; rfl
    unfold diagonal
    rw [bind_ok (getAttr_run_some (·.twoSamples) s _ htwo)]
    exact ⟨h, by simp⟩

theorem exec_state {m : PyM (KMState K X V) α} {f : α → KMOut V} (s : KMState K X V) :
    ((m >>= fun x => pure (f x)) s).2 = (m s).2 ∧
    ((m >>= fun x => pure (f x)) s).1 = (m s).1.map f := by
  rw [bind_run]
  rcases m s with ⟨_ | _, _⟩ <;> exact ⟨rfl, rfl⟩

/-- whole-matrix selection by flags means the key is whole -/
theorem whole_of_flags {n m : Nat} {S T : Idx} {one two : List Nat × Bool}
    (h1 : getIndicesInSample (some (n, m)) S false = .ok one)
    (h2 : getIndicesInSample (some (n, m)) T true = .ok two) (hb : (one.2 && two.2) = true) :
    WholeKey n m (.pair S T) := by
  have hb1 : one.2 = true := by revert hb; cases one.2 <;> simp
  have hb2 : two.2 = true := by revert hb; cases two.2 <;> simp
  constructor
  · rcases getIndices_spec n m S false with ⟨_, h⟩ | ⟨_, _, h⟩ | ⟨_, _, l, b, h, e1, e2, e3, e4, e5⟩
    · rw [h1] at h; simp at h
    · rw [h1] at h; simp at h
    · rw [h1] at h; simp at h; subst h
      intro i hi
      exact (e4 i).1 (all_of_length (e1.imp (by intro a b h; omega)) e3 (e5.1 hb1) i hi)
  · rcases getIndices_spec n m T true with ⟨_, h⟩ | ⟨_, _, h⟩ | ⟨_, _, l, b, h, e1, e2, e3, e4, e5⟩
    · rw [h2] at h; simp at h
    · rw [h2] at h; simp at h
    · rw [h2] at h; simp at h; subst h
      intro i hi
      exact (e4 i).1 (all_of_length (e1.imp (by intro a b h; omega)) e3 (e5.1 hb2) i hi)

/-- conversely -/
theorem flags_of_whole {n m : Nat} {S T : Idx} {one two : List Nat × Bool}
    (h1 : getIndicesInSample (some (n, m)) S false = .ok one)
    (h2 : getIndicesInSample (some (n, m)) T true = .ok two) (hw : WholeKey n m (.pair S T)) :
    (one.2 && two.2) = true := by
  have key : ∀ (l : List Nat) (n : Nat), l.Pairwise (· < ·) → (∀ i ∈ l, i < n) → (∀ i < n, i ∈ l) → l.length = n := by
    intro l n hp hlt hall
    have hnd : l.Nodup := hp.imp (by intro a b h; omega)
    have h1 : l.length ≤ n := by
      have := (hnd.subperm (fun x hx => List.mem_range.2 (hlt x hx) : l ⊆ List.range n)).length_le
      simpa using this
    have h2 : n ≤ l.length := by
      have := (List.nodup_range.subperm (fun x hx => hall x (List.mem_range.1 hx) : List.range n ⊆ l)).length_le
      simpa using this
    omega
  have hb1 : one.2 = true := by
    rcases getIndices_spec n m S false with ⟨_, h⟩ | ⟨_, _, h⟩ | ⟨_, _, l, b, h, e1, e2, e3, e4, e5⟩
    · rw [h1] at h; simp at h
    · rw [h1] at h; simp at h
    · rw [h1] at h; simp at h; subst h
      exact e5.2 (key l _ e1 e3 fun i hi => (e4 i).2 (hw.1 i hi))
  have hb2 : two.2 = true := by
    rcases getIndices_spec n m T true with ⟨_, h⟩ | ⟨_, _, h⟩ | ⟨_, _, l, b, h, e1, e2, e3, e4, e5⟩
    · rw [h2] at h; simp at h
    · rw [h2] at h; simp at h
    · rw [h2] at h; simp at h; subst h
      exact e5.2 (key l _ e1 e3 fun i hi => (e4 i).2 (hw.2 i hi))
  rw [hb1, hb2]; rfl

theorem getItem_good_pair {env : Env K X V} (hf : NoFaults env) {a : Attachment X}
    {sp sp' : Lv} {s : KMState K X V} (h : Good env a sp s) (S T : Idx)
    (hup : sp.Le sp') (hsp : sp'.sp = false → ¬ WholeKey a.nrows a.ncols (.pair S T)) :
    Good env a sp' (getItem env (.pair S T) s).2 := by
  have hmono : ∀ {s}, Good env a sp s → Good env a sp' s := fun g => g.mono hup
  rcases h1 : getIndicesInSample (some (a.nrows, a.ncols)) S false with e | one
  · rw [getItem_run_pair h.att.shape, h1]; exact hmono h
  rcases h2 : getIndicesInSample (some (a.nrows, a.ncols)) T true with e | two
  · rw [getItem_run_pair h.att.shape, h1, h2]; exact hmono h
  refine (getItem_ff hf h S T h1 h2).1.mono ⟨fun h0 => ?_, hup.2⟩
  have g2 := hsp h0
  show (sp.sp || (one.2 && two.2)) = false
  rw [hup.1 h0]
  rcases hb : (one.2 && two.2)
  · rfl
  · exact absurd (whole_of_flags h1 h2 hb) g2

theorem getItem_good {env : Env K X V} (hf : NoFaults env) {a : Attachment X}
    {sp sp' : Lv} {s : KMState K X V} (h : Good env a sp s) (k : Key)
    (hup : sp.Le sp') (hsp : sp'.sp = false → ¬ WholeKey a.nrows a.ncols k) :
    Good env a sp' (getItem env k s).2 := by
  have hmono : ∀ {s}, Good env a sp s → Good env a sp' s := fun g => g.mono hup
  cases k with
  | pair S T => exact getItem_good_pair hf h S T hup hsp
  | other => exact hmono h
  | linear k =>
    rw [getItem_linear h.att.shape]
    split
    · exact hmono h
    · rename_i hk
      refine getItem_good_pair hf h _ _ hup fun h0 => ?_
      rintro ⟨w1, w2⟩
      refine (hsp h0) ⟨?_, ?_⟩
      · have hpos : 0 < a.nrows := by
          by_contra hc
          have : a.nrows = 0 := by omega
          rw [this] at hk; simp at hk; omega
        have e1 := w1 0 hpos
        have e2 := w1 (a.nrows - 1) (by omega)
        simp only [IndexSpec.Selects] at e1 e2
        omega
      · have hpos : 0 < a.ncols := by
          by_contra hc
          have : a.ncols = 0 := by omega
          rw [this] at hk; simp at hk; omega
        have e1 := w2 0 hpos
        have e2 := w2 (a.ncols - 1) (by omega)
        simp only [IndexSpec.Selects] at e1 e2
        omega

/-- preservation of the invariant by every call except `attach_to` -/
theorem Good.exec {env : Env K X V} (hf : NoFaults env) {a : Attachment X}
    {sp sp' : Lv} {s : KMState K X V} (h : Good env a sp s) (op : KMOp X) (ha : op.isAttach = false)
    (hup : sp.Le sp') (hsp : sp'.sp = false → ¬ op.MayGoSparse s.keepNormed a.nrows a.ncols)
    (hup' : sp'.up = false → s.keepNormed = true ∨ op ≠ .fullSparse) :
    Good env a sp' (exec env op s).2 := by
  have hmono : ∀ {s}, Good env a sp s → Good env a sp' s := fun g => g.mono hup
  cases op with
  | attach => simp [KMOp.isAttach] at ha
  | setAttr n v =>
    exact hmono ⟨h.att.congr rfl rfl rfl rfl rfl rfl rfl, h.full, h.normed, h.centered, h.frob⟩
  | getAttr n d => exact hmono h
  | attributes => exact hmono h
  | numSamples => exact hmono h
  | shape =>
    rw [exec_shape_run]; exact hmono h
  | size =>
    have : (size s).2 = s := by
      unfold size
      rw [bind_run, getAttr_run]
      rcases s.twoSamples with _ | b
      · rfl
      · simp only [get_bind_run]
        cases b <;> rcases s.numSamples with _ | _ | _ <;> rfl
    unfold KMState.exec
    rw [(exec_state s).1, this]
    exact hmono h
  | full => unfold KMState.exec; rw [(exec_state s).1]; exact hmono (full_ff hf h).1
  | fullSparse =>
    unfold KMState.exec; rw [(exec_state s).1]
    refine (fullSparse_ff hf h hup fun hk => ⟨?_, ?_⟩).1
    · by_contra hc
      exact hsp (by simpa using hc) hk
    · by_contra hc
      rcases hup' (by simpa using hc) with h0 | h0
      · rw [hk] at h0; simp at h0
      · exact h0 rfl
  | center =>
    unfold KMState.exec; rw [(exec_state s).1]; exact hmono (center_ff hf h).1
  | centered => unfold KMState.exec; rw [(exec_state s).1]; exact hmono (centered_ff hf h).1
  | normalize m =>
    unfold KMState.exec; rw [(exec_state s).1]; exact hmono (normalize_ff hf h m).1
  | normedKm =>
    unfold KMState.exec; rw [(exec_state s).1]; exact hmono (normedKmVal_ff hf h).1
  | frobNorm =>
    unfold KMState.exec; rw [(exec_state s).1]; exact hmono (frobNormVal_ff hf h).1
  | diagonal => unfold KMState.exec; rw [(exec_state s).1]; exact hmono (diagonal_good hf h).1
  | getItem k =>
    unfold KMState.exec; rw [(exec_state s).1]
    exact getItem_good hf h k hup hsp

end KMState
end KMethods
