import Verif.Lemmas.KMFaultFree
/-!
# Fault-free behaviour: invariant on the cached matrices and outcome of every call
-/
namespace KMethods

/-- the normalisation of the true kernel matrix -/
abbrev Attachment.normed {X V : Type} (a : Attachment X) (kv : X → X → V) (ops : Ops V) (method : String) :
    Except PyErr (Mat V) := a.normedOf kv ops method (a.gram kv)

theorem Attachment.entry_symm {X V : Type} (a : Attachment X) (kv : X → X → V) (h : a.two = none) (i j : Nat) :
    a.entry kv i j = a.entry kv j i := by
  unfold Attachment.entry
  rw [h]
  simp only [Nat.min_comm i j, Nat.max_comm i j]

namespace KMState
variable {K X V α β ι : Type}
open PyM

/-- `s'` differs from `s` at most in memo table, counters, `_full_km` and its two flags -/
def Core (s s' : KMState K X V) : Prop :=
  ∃ c n u t fk pop low, s' = { s with
    cache := c, numKerEval := n, succ := u, clock := t, fullKm := fk
    populated := pop, lowerFilled := low }

theorem Core.refl (s : KMState K X V) : Core s s :=
  ⟨s.cache, s.numKerEval, s.succ, s.clock, s.fullKm, s.populated, s.lowerFilled, rfl⟩
theorem Core.trans {s s' s'' : KMState K X V} (h : Core s s') (h' : Core s' s'') : Core s s'' := by
  obtain ⟨_, _, _, _, _, _, _, rfl⟩ := h
  obtain ⟨c, n, u, t, fk, p, l, rfl⟩ := h'
  exact ⟨c, n, u, t, fk, p, l, rfl⟩
theorem SameBut.core {s s' : KMState K X V} (h : SameBut s s') : Core s s' := by
  obtain ⟨c, n, u, t, fk, rfl⟩ := h
  exact ⟨c, n, u, t, fk, s.populated, s.lowerFilled, rfl⟩

theorem AttachedTo.congr {env : Env K X V} {a : Attachment X} {s s' : KMState K X V}
    (h : AttachedTo env a s) (h1 : s'.sample = s.sample) (h2 : s'.sampleTwo = s.sampleTwo)
    (h3 : s'.shape = s.shape) (h4 : s'.twoSamples = s.twoSamples) (h5 : s'.numSamples = s.numSamples)
    (h6 : s'.cache = s.cache) (h7 : s'.kernel = s.kernel) : AttachedTo env a s' :=
  ⟨h1.trans h.sample, h2.trans h.sampleTwo, h3.trans h.shape, h4.trans h.two, h5.trans h.num,
    by rw [h6, h7]; exact h.sound⟩

/-- What may have been requested so far: `sp`: the sparse format; `up`: the upper triangle only (`full_sparse`). -/
structure Lv where
  sp : Bool
  up : Bool

/-- `l'` allows at least what `l` allows -/
def Lv.Le (l l' : Lv) : Prop := (l'.sp = false → l.sp = false) ∧ (l'.up = false → l.up = false)

theorem Lv.Le.refl (l : Lv) : l.Le l := ⟨id, id⟩

/-- contents of `_full_km` in fault-free histories. -/
def FullOk (env : Env K X V) (a : Attachment X) (sp : Lv) (s : KMState K X V) : Prop :=
  (s.fullKm = none ∧ s.populated = false ∧ s.lowerFilled = false) ∨
  ∃ f, s.fullKm = some f ∧ s.populated = true ∧ f.fmt ≠ .npMatrix ∧ (sp.sp = false → f.fmt = .dense) ∧
    (f.fmt = .dense → s.lowerFilled = true) ∧ (s.keepNormed = true ∨ sp.up = false → s.lowerFilled = true) ∧
    (∀ i < a.nrows, ∀ j < a.ncols, (i ≤ j ∨ s.lowerFilled = true) →
      f.cell i j = a.entry (env.kval s.kernel) i j) ∧
    (∀ i < a.nrows, ∀ j < a.ncols, j < i → s.lowerFilled = false → f.cell i j = env.ops.zero)

/-- the kernel matrix without its lower triangle, as stored by `full_sparse` -/
def upperGram (env : Env K X V) (a : Attachment X) (k : K) : Mat V :=
  Mat.ofCells a.nrows a.ncols fun i j => if i ≤ j then a.entry (env.kval k) i j else env.ops.zero

/-- possible values of `frob_norm`: what `frobenius_norm` returns for the kernel matrix, or, if the sparse format has been requested, for the kernel matrix or
its upper triangle in that format -/
def FrobIs (env : Env K X V) (a : Attachment X) (sp : Lv) (k : K) (r : Except PyErr V) : Prop :=
  r = env.ops.frob (a.gram (env.kval k)) ∨
  (sp.sp = true ∧ (r = env.ops.frobSparse (a.gram (env.kval k)) ∨ (sp.up = true ∧ r = env.ops.frobSparse (upperGram env a k))))

theorem FrobIs.mono {env : Env K X V} {a : Attachment X} {sp sp' : Lv} {k : K} {r : Except PyErr V} (h : FrobIs env a sp k r) (hsp : sp.Le sp') :
    FrobIs env a sp' k r := by
  have h1 : sp.sp = true → sp'.sp = true := fun h => by
    rcases h' : sp'.sp
    · rw [hsp.1 h'] at h; exact h
    · rfl
  have h2 : sp.up = true → sp'.up = true := fun h => by
    rcases h' : sp'.up
    · rw [hsp.2 h'] at h; exact h
    · rfl
  exact h.imp id fun ⟨a, b⟩ => ⟨h1 a, b.imp id fun ⟨c, d⟩ => ⟨h2 c, d⟩⟩

theorem FrobIs.dense {env : Env K X V} {a : Attachment X} {sp : Lv} {k : K} {r : Except PyErr V} (h : FrobIs env a sp k r) (hsp : sp.sp = false) :
    env.ops.frob (a.gram (env.kval k)) = r := by
  rcases h with h | h
  · exact h.symm
  · rw [hsp] at h; simp at h

/-- invariant of fault-free histories since the last attach -/
structure Good (env : Env K X V) (a : Attachment X) (sp : Lv) (s : KMState K X V) : Prop where
  att : AttachedTo env a s
  full : FullOk env a sp s
  normed : s.isNormed = true → ∃ N, s.normedKm = some (.dense, N) ∧
    ((s.keepNormed = true ∨ sp.up = false) → ∃ m, a.normed (env.kval s.kernel) env.ops m = .ok N)
  centered : s.isCentered = true → ∃ C, s.centeredKm = some (.dense, C) ∧
    env.ops.center (a.gram (env.kval s.kernel)) = .ok C
  frob : ∀ v, s.frobNorm = some v → FrobIs env a sp s.kernel (.ok v)

theorem Good.mono {env : Env K X V} {a : Attachment X} {sp sp' : Lv} {s : KMState K X V}
    (h : Good env a sp s) (hsp : sp.Le sp') : Good env a sp' s := by
  refine ⟨h.att, ?_, ?_, h.centered, fun v hv => (h.frob v hv).mono hsp⟩
  · rcases h.full with h | ⟨f, h1, h2, h3, h4, h5, h6, h7⟩
    · exact Or.inl h
    · exact Or.inr ⟨f, h1, h2, h3, fun h' => h4 (hsp.1 h'), h5, fun h' => h6 (h'.imp id hsp.2), h7⟩
  · intro hn
    obtain ⟨N, h1, h2⟩ := h.normed hn
    exact ⟨N, h1, fun h' => h2 (h'.imp id hsp.2)⟩

theorem good_attachedState (env : Env K X V) (k : K) (b : Bool) (a : Attachment X) (c : Nat)
    (o : Option (Fmt × Mat V)) (sp : Lv) : Good env a sp (attachedState k b a c o) :=
  ⟨attachedTo_attachedState env k b a c o, Or.inl ⟨rfl, rfl, rfl⟩, by simp [attachedState],
    by simp [attachedState], by simp [attachedState]⟩

/-- only memo table, counters and `_full_km` changed -/
theorem Good.core {env : Env K X V} {a : Attachment X} {sp sp' : Lv} {s s' : KMState K X V}
    (h : Good env a sp s) (hc : Core s s') (hatt : AttachedTo env a s') (hf : FullOk env a sp' s')
    (hsp : sp.Le sp') : Good env a sp' s' := by
  obtain ⟨_, _, _, _, _, _, _, rfl⟩ := hc
  have h' := h.mono hsp
  exact ⟨hatt, hf, h'.normed, h'.centered, h'.frob⟩

theorem catchAll_ok {σ : Type} {e : PyErr} {m : PyM σ α} {s s' : σ} {x : α}
    (h : m s = (.ok x, s')) : catchAll e m s = (.ok x, s') := by
  rw [catchAll_run, h]

theorem populateUpper_ff {env : Env K X V} (hf : NoFaults env) {a : Attachment X} {s : KMState K X V}
    (h : AttachedTo env a s) (h1 : s.fullKm = none) (h2 : s.populated = false) (d : Bool) :
    ∃ s' f, populateUpper env d s = (.ok (), s') ∧ AttachedTo env a s' ∧ Core s s' ∧
      s'.fullKm = some f ∧ s'.populated = true ∧ s'.lowerFilled = s.lowerFilled ∧
      f.fmt = (if d then .dense else .sparse) ∧
      (∀ i < a.nrows, ∀ j < a.ncols, i ≤ j → f.cell i j = a.entry (env.kval s.kernel) i j) ∧
      (∀ i < a.nrows, ∀ j < a.ncols, j < i → f.cell i j = if d then env.ops.nan else env.ops.zero) := by
  let f0 : Full V := if !d then ⟨.sparse, fun _ _ => env.ops.zero⟩ else ⟨.dense, fun _ _ => env.ops.nan⟩
  let s0 : KMState K X V := { s with fullKm := some f0 }
  obtain ⟨s1, f1, hr, hatt, hsame, hfk, hfmt, hin, hout⟩ := fillCells_ff hf (a := a)
    (upperPairs a.nrows a.ncols) (fun p hp => by
      obtain ⟨x, y, _⟩ := mem_upperPairs.1 hp; exact ⟨x, y⟩) (s := s0) (f := f0) (h.setFull _) rfl
  refine ⟨{ s1 with populated := true }, f1, ?_, hatt.congr rfl rfl rfl rfl rfl rfl rfl, ?_, hfk, rfl, ?_, ?_, ?_, ?_⟩
  · unfold populateUpper
    rw [get_bind_run]
    simp only [h1, h2, Option.isNone_none, Bool.not_false, Bool.and_self, when_true]
    rw [bind_ok (getAttr_run_some (·.shape) s _ h.shape)]
    rw [modify_bind_run]
    rw [bind_ok (catchAll_ok hr)]
    rfl
  · obtain ⟨c, n, u, t, fk, rfl⟩ := hsame
    exact ⟨c, n, u, t, fk, true, s.lowerFilled, rfl⟩
  · obtain ⟨c, n, u, t, fk, rfl⟩ := hsame; rfl
  · rw [hfmt]; cases d <;> rfl
  · intro i hi j hj hij
    exact hin i j (mem_upperPairs.2 ⟨hi, hj, hij⟩)
  · intro i hi j hj hij
    rw [hout i j (by rw [mem_upperPairs]; simp; omega)]
    cases d <;> rfl

theorem populateUpper_done {env : Env K X V} {s : KMState K X V} (h : s.populated = true) (d : Bool) :
    populateUpper env d s = (.ok (), s) := by
  unfold populateUpper
  rw [get_bind_run]
  simp [h]

theorem populateLower_ff {env : Env K X V} (hf : NoFaults env) {a : Attachment X} {s : KMState K X V}
    (h : AttachedTo env a s) {f : Full V} (h1 : s.fullKm = some f) (hl : s.lowerFilled = false)
    (hup : ∀ i < a.nrows, ∀ j < a.ncols, i ≤ j → f.cell i j = a.entry (env.kval s.kernel) i j) :
    ∃ s' f', populateLower env true s = (.ok (), s') ∧ AttachedTo env a s' ∧ Core s s' ∧
      s'.fullKm = some f' ∧ s'.populated = s.populated ∧ s'.lowerFilled = true ∧ f'.fmt = f.fmt ∧
      (∀ i < a.nrows, ∀ j < a.ncols, f'.cell i j = a.entry (env.kval s.kernel) i j) := by
  rcases ht : a.two with _ | b
  · have hsh : a.ncols = a.nrows := by unfold Attachment.ncols Attachment.nrows; rw [ht]
    have htwo : s.twoSamples = some false := by rw [h.two, ht]; rfl
    let f1 : Full V := { f with cell := fun x y => if y < x then f.cell y x else f.cell x y }
    refine ⟨{ s with fullKm := some f1, lowerFilled := true }, f1, ?_, h.congr rfl rfl rfl rfl rfl rfl rfl,
      ⟨s.cache, s.numKerEval, s.succ, s.clock, some f1, s.populated, true, rfl⟩, rfl, rfl, rfl, rfl, ?_⟩
    · unfold populateLower
      rw [get_bind_run]
      simp only [hl, Bool.not_false, Bool.and_self, when_true]
      have : (do
          let sh ← getAttr (·.shape)
          let two ← getAttr (·.twoSamples)
          if !two && sh.1 == sh.2 then symmetrize
          else fillCells env (lowerPairs sh.1 sh.2) : PyM (KMState K X V) Unit) s =
          (.ok (), { s with fullKm := some f1 }) := by
        rw [bind_ok (getAttr_run_some (·.shape) s _ h.shape),
          bind_ok (getAttr_run_some (·.twoSamples) s _ htwo)]
        simp [hsh, symmetrize, h1, f1]
      rw [bind_ok (catchAll_ok this)]
      rfl
    · intro i hi j hj
      simp only [f1]
      split
      · rename_i hlt
        rw [hup j (by omega) i (by omega) (by omega)]
        exact a.entry_symm _ ht _ _
      · exact hup i hi j hj (by omega)
  · have htwo : s.twoSamples = some true := by rw [h.two, ht]; rfl
    obtain ⟨s1, f1, hr, hatt, hsame, hfk, hfmt, hin, hout⟩ := fillCells_ff hf (a := a)
      (lowerPairs a.nrows a.ncols) (fun p hp => by
        obtain ⟨x, y, _⟩ := mem_lowerPairs.1 hp; exact ⟨x, y⟩) (s := s) (f := f) h h1
    refine ⟨{ s1 with lowerFilled := true }, f1, ?_, hatt.congr rfl rfl rfl rfl rfl rfl rfl, ?_, hfk, ?_, rfl, hfmt, ?_⟩
    · unfold populateLower
      rw [get_bind_run]
      simp only [hl, Bool.not_false, Bool.and_self, when_true]
      have : (do
          let sh ← getAttr (·.shape)
          let two ← getAttr (·.twoSamples)
          if !two && sh.1 == sh.2 then symmetrize
          else fillCells env (lowerPairs sh.1 sh.2) : PyM (KMState K X V) Unit) s = (.ok (), s1) := by
        rw [bind_ok (getAttr_run_some (·.shape) s _ h.shape),
          bind_ok (getAttr_run_some (·.twoSamples) s _ htwo)]
        simpa using hr
      rw [bind_ok (catchAll_ok this)]
      rfl
    · obtain ⟨c, n, u, t, fk, rfl⟩ := hsame
      exact ⟨c, n, u, t, fk, s.populated, true, rfl⟩
    · obtain ⟨c, n, u, t, fk, rfl⟩ := hsame; rfl
    · intro i hi j hj
      by_cases hij : j < i
      · exact hin i j (mem_lowerPairs.2 ⟨hi, hj, hij⟩)
      · rw [hout i j (by rw [mem_lowerPairs]; simp; omega)]
        exact hup i hi j hj (by omega)

theorem populateLower_skip {env : Env K X V} {s : KMState K X V} {l : Bool}
    (h : l = false ∨ s.lowerFilled = true) : populateLower env l s = (.ok (), s) := by
  unfold populateLower
  rw [get_bind_run]
  rcases h with h | h <;> simp [h]

theorem densify_skip {s : KMState K X V} {f : Full V} {d : Bool} (h : s.fullKm = some f)
    (h' : d = false ∨ f.fmt = .dense) : densify d s = (.ok (), s) := by
  unfold densify
  rw [bind_ok (getAttr_run_some (·.fullKm) s _ h)]
  have : (f.fmt == .sparse && d) = false := by
    rcases h' with h' | h'
    · simp [h']
    · rw [h']; rfl
  rw [this]; rfl

theorem fullMat_run {s : KMState K X V} {f : Full V} {sh : Nat × Nat} (h : s.fullKm = some f)
    (h2 : s.shape = some sh) : fullMat s = (.ok (f.fmt, Mat.ofCells sh.1 sh.2 f.cell), s) := by
  unfold fullMat
  rw [bind_ok (getAttr_run_some (·.fullKm) s _ h), bind_ok (getAttr_run_some (·.shape) s _ h2)]
  rfl

/-- reading the populated matrix: the Gram matrix once the lower triangle is filled -/
theorem fullMat_ff {env : Env K X V} {a : Attachment X} {sp : Lv} {s : KMState K X V}
    (h : Good env a sp s) (hp : s.populated = true) :
    ∃ fmt A, fullMat s = (.ok (fmt, A), s) ∧ fmt ≠ .npMatrix ∧ (sp.sp = false → fmt = .dense) ∧
      (s.lowerFilled = true → A = a.gram (env.kval s.kernel)) ∧ (fmt = .dense → s.lowerFilled = true) ∧
      (s.lowerFilled = false → A = Mat.ofCells a.nrows a.ncols fun i j =>
        if i ≤ j then a.entry (env.kval s.kernel) i j else env.ops.zero) := by
  rcases h.full with ⟨_, g2, _⟩ | ⟨f, g1, g2, g3, g4, g5, g6, g7, g8⟩
  · rw [hp] at g2; simp at g2
  · refine ⟨f.fmt, _, fullMat_run g1 h.att.shape, g3, g4, ?_, g5, ?_⟩
    · intro hl
      apply ofCells_congr
      intro i hi j hj
      exact g7 i hi j hj (Or.inr hl)
    · intro hl
      apply ofCells_congr
      intro i hi j hj
      by_cases hij : i ≤ j
      · simp only [hij, if_true]; exact g7 i hi j hj (Or.inl hij)
      · simp only [hij, if_false]; exact g8 i hi j hj (by omega) hl

theorem warn_run (env : Env K X V) (M : Mat V) (s : KMState K X V) :
    warnNonFinite env M s = (if (env.fmtRaises s.kernel && env.ops.nonFinite M) then .error .typeError else .ok (), s) := by
  unfold warnNonFinite
  rw [get_bind_run]
  cases env.fmtRaises s.kernel && env.ops.nonFinite M <;> rfl

/-- the check at the end of `_populate_fully` -/
theorem warn_full_ff {env : Env K X V} {a : Attachment X} {sp : Lv} {s : KMState K X V}
    (h : Good env a sp s) (hp : s.populated = true) :
    ∃ r, (fullMat >>= fun A => warnNonFinite env A.2) s = (r, s) ∧ (r = .ok () ∨ r = .error .typeError) ∧
      (Quiet env s.kernel a → r = .ok ()) := by
  obtain ⟨fmt, A, g1, _, _, g4, _, g6⟩ := fullMat_ff h hp
  refine ⟨_, by rw [bind_ok g1, warn_run], ?_, fun hq => ?_⟩
  · split
    · exact Or.inr rfl
    · exact Or.inl rfl
  · rw [if_neg]
    rw [Bool.and_comm, Bool.and_eq_true, not_and]
    intro h1 h2
    rcases hl : s.lowerFilled
    · rw [g6 hl] at h1; exact absurd h1 (by rw [← Attachment.upper, (hq h2).2]; simp)
    · rw [g4 hl] at h1; exact absurd h1 (by rw [(hq h2).1]; simp)

theorem populateFully_split (env : Env K X V) (d l : Bool) (s : KMState K X V) :
    populateFully env d l s = ((populateUpper env d >>= fun _ => populateLower env l >>= fun _ => densify d) >>=
      fun _ => fullMat >>= fun A => warnNonFinite env A.2) s := by
  unfold populateFully
  simp only [bind_run]
  rcases populateUpper env d s with ⟨_ | _, t⟩
  · rfl
  · dsimp only
    rcases populateLower env l t with ⟨_ | _, t⟩
    · rfl
    · rfl

/-- the three call patterns of `_populate_fully` without failures, up to the check for non-finite values -/
theorem populateFully_pre_ff {env : Env K X V} (hf : NoFaults env) {a : Attachment X} {sp : Lv}
    {s : KMState K X V} (h : Good env a sp s) (d l : Bool)
    (hd : d = true → l = true ∧ s.populated = false)
    (hl : l = false → s.keepNormed = false) :
    ∃ s', (populateUpper env d >>= fun _ => populateLower env l >>= fun _ => densify d) s = (.ok (), s') ∧
      Good env a ⟨sp.sp || !d, sp.up || !l⟩ s' ∧ Core s s' ∧
      s'.populated = true ∧ (l = true → s'.lowerFilled = true) := by
  have hsp : sp.Le ⟨sp.sp || !d, sp.up || !l⟩ := ⟨by simp +contextual, by simp +contextual⟩
  -- after the first block
  have step1 : ∃ s1 f1, populateUpper env d s = (.ok (), s1) ∧ AttachedTo env a s1 ∧ Core s s1 ∧
      s1.fullKm = some f1 ∧ s1.populated = true ∧ f1.fmt ≠ .npMatrix ∧ ((sp.sp || !d) = false → f1.fmt = .dense) ∧
      (f1.fmt = .dense → s1.lowerFilled = true ∨ l = true) ∧
      (s.keepNormed = true ∨ (sp.up || !l) = false → s1.lowerFilled = true ∨ l = true) ∧
      (d = true → f1.fmt = .dense) ∧
      (∀ i < a.nrows, ∀ j < a.ncols, (i ≤ j ∨ s1.lowerFilled = true) →
        f1.cell i j = a.entry (env.kval s.kernel) i j) ∧
      (d = false → ∀ i < a.nrows, ∀ j < a.ncols, j < i → s1.lowerFilled = false → f1.cell i j = env.ops.zero) := by
    rcases h.full with ⟨g1, g2, g3⟩ | ⟨f, g1, g2, g3, g4, g5, g6, g7, g8⟩
    · obtain ⟨s1, f1, e1, e2, e3, e4, e5, e6, e7, e8, e9⟩ := populateUpper_ff hf h.att g1 g2 d
      refine ⟨s1, f1, e1, e2, e3, e4, e5, ?_, ?_, ?_, ?_, ?_, ?_, ?_⟩
      · rw [e7]; cases d <;> simp
      · rw [e7]; cases d <;> simp
      · rw [e7]
        cases d
        · simp
        · intro _; exact Or.inr (hd rfl).1
      · intro hk
        cases l
        · rw [hl rfl] at hk; simp at hk
        · exact Or.inr rfl
      · rw [e7]; intro h; simp [h]
      · intro i hi j hj hij
        rcases hij with hij | hij
        · exact e8 i hi j hj hij
        · rw [e6, g3] at hij; simp at hij
      · intro hdf i hi j hj hij _
        rw [e9 i hi j hj hij, hdf]; rfl
    · refine ⟨s, f, populateUpper_done g2 d, h.att, Core.refl s, g1, g2, g3, fun hh => g4 (hsp.1 hh),
        fun hh => Or.inl (g5 hh), fun hh => Or.inl (g6 (hh.imp id hsp.2)), ?_, g7, fun _ => g8⟩
      intro hdt
      have := (hd hdt).2
      rw [g2] at this
      simp at this
  obtain ⟨s1, f1, e1, e2, e3, e4, e5, e6, e7, e8, e8', e9, e10, e11⟩ := step1
  have hker : s1.kernel = s.kernel := by obtain ⟨_, _, _, _, _, _, _, rfl⟩ := e3; rfl
  have hkeep : s1.keepNormed = s.keepNormed := by obtain ⟨_, _, _, _, _, _, _, rfl⟩ := e3; rfl
  by_cases hfill : l = true ∧ s1.lowerFilled = false
  · obtain ⟨rfl, hlf⟩ := hfill
    obtain ⟨s2, f2, k1, k2, k3, k4, k5, k6, k7, k8⟩ := populateLower_ff hf e2 e4 hlf
      (fun i hi j hj hij => by rw [hker]; exact e10 i hi j hj (Or.inl hij))
    have hcore := e3.trans k3
    refine ⟨s2, ?_, ?_, hcore, by rw [k5, e5], fun _ => k6⟩
    · rw [bind_ok e1, bind_ok k1]
      refine densify_skip k4 ?_
      cases d
      · exact Or.inl rfl
      · right; rw [k7]; exact e9 rfl
    · refine h.core hcore k2 ?_ hsp
      have hker2 : s2.kernel = s.kernel := by obtain ⟨_, _, _, _, _, _, _, rfl⟩ := hcore; rfl
      refine Or.inr ⟨f2, k4, by rw [k5, e5], by rw [k7]; exact e6, fun hh => by rw [k7]; exact e7 hh,
        fun _ => k6, fun _ => k6, ?_, ?_⟩
      · intro i hi j hj _
        rw [hker2, ← hker]; exact k8 i hi j hj
      · intro i hi j hj _ hh; rw [k6] at hh; simp at hh
  · have hskip : l = false ∨ s1.lowerFilled = true := by
      cases l
      · exact Or.inl rfl
      · right; by_contra hc; exact hfill ⟨rfl, by simpa using hc⟩
    refine ⟨s1, ?_, ?_, e3, e5, ?_⟩
    · rw [bind_ok e1, bind_ok (populateLower_skip hskip)]
      refine densify_skip e4 ?_
      cases d
      · exact Or.inl rfl
      · exact Or.inr (e9 rfl)
    · refine h.core e3 e2 ?_ hsp
      have hor : ∀ {P : Prop}, (P → s1.lowerFilled = true ∨ l = true) → P → s1.lowerFilled = true := by
        intro P hP hp
        rcases hP hp with hh | hh
        · exact hh
        · rcases hskip with h0 | h0
          · rw [h0] at hh; simp at hh
          · exact h0
      refine Or.inr ⟨f1, e4, e5, e6, e7, hor e8, ?_, ?_, ?_⟩
      · rw [hkeep]; exact hor e8'
      · rw [hker]; exact e10
      · cases d with
        | false => exact e11 rfl
        | true =>
          intro i hi j hj hij hlf
          have := hor e8 (e9 rfl)
          rw [this] at hlf; simp at hlf
    · intro hlt
      rcases hskip with h0 | h0
      · rw [h0] at hlt; simp at hlt
      · exact h0

/-- the three call patterns of `_populate_fully` without failures -/
theorem populateFully_ff {env : Env K X V} (hf : NoFaults env) {a : Attachment X} {sp : Lv}
    {s : KMState K X V} (h : Good env a sp s) (d l : Bool)
    (hd : d = true → l = true ∧ s.populated = false)
    (hl : l = false → s.keepNormed = false) :
    ∃ s' r, populateFully env d l s = (r, s') ∧ Good env a ⟨sp.sp || !d, sp.up || !l⟩ s' ∧ Core s s' ∧
      s'.populated = true ∧ (l = true → s'.lowerFilled = true) ∧ (r = .ok () ∨ r = .error .typeError) ∧
      (Quiet env s.kernel a → r = .ok ()) := by
  obtain ⟨s', h1, h2, h3, h4, h5⟩ := populateFully_pre_ff hf h d l hd hl
  obtain ⟨r, r1, r2, r3⟩ := warn_full_ff h2 h4
  refine ⟨s', r, ?_, h2, h3, h4, h5, r2, ?_⟩
  · rw [populateFully_split, bind_ok h1, r1]
  · have hker : s'.kernel = s.kernel := by obtain ⟨_, _, _, _, _, _, _, rfl⟩ := h3; rfl
    rw [← hker]; exact r3

/-- the first call that fills the whole matrix: the outcome is decided by the check for non-finite values -/
theorem populateFully_first {env : Env K X V} (hf : NoFaults env) {a : Attachment X} {sp : Lv}
    {s : KMState K X V} (h : Good env a sp s) (hp : s.populated = false) :
    (populateFully env true true s).1 =
      if (env.fmtRaises s.kernel && env.ops.nonFinite (a.gram (env.kval s.kernel))) then .error .typeError else .ok () := by
  obtain ⟨s', h1, h2, h3, h4, h5⟩ := populateFully_pre_ff hf h true true (fun _ => ⟨rfl, hp⟩) (by simp)
  have hker : s'.kernel = s.kernel := by obtain ⟨_, _, _, _, _, _, _, rfl⟩ := h3; rfl
  obtain ⟨fmt, A, g1, _, _, g4, _, _⟩ := fullMat_ff h2 h4
  rw [populateFully_split, bind_ok h1, bind_ok g1, warn_run, g4 (h5 rfl), hker]

theorem ensurePopulated_ff {env : Env K X V} (hf : NoFaults env) {a : Attachment X} {sp : Lv}
    {s : KMState K X V} (h : Good env a sp s) :
    ∃ s' r, ensurePopulated env s = (r, s') ∧ Good env a sp s' ∧ Core s s' ∧ s'.populated = true ∧
      (s.populated = false → s'.lowerFilled = true) ∧ (s.populated = true → s' = s) ∧
      (r = .ok () ∨ r = .error .typeError) ∧ (Quiet env s.kernel a → r = .ok ()) := by
  unfold ensurePopulated
  rw [get_bind_run]
  rcases hp : s.populated
  · obtain ⟨s', r, h1, h2, h3, h4, h5, h6, h7⟩ := populateFully_ff hf h true true (fun _ => ⟨rfl, hp⟩) (by simp)
    exact ⟨s', r, h1, by simpa using h2, h3, h4, fun _ => h5 rfl, by simp, h6, h7⟩
  · exact ⟨s, .ok (), rfl, h, Core.refl s, hp, by simp, fun _ => rfl, Or.inl rfl, fun _ => rfl⟩

theorem mapEach_eval_ff {env : Env K X V} (hf : NoFaults env) {a : Attachment X} (l : List (Nat × Nat))
    (hl : ∀ p ∈ l, p.1 < a.nrows ∧ p.2 < a.ncols) {s : KMState K X V} (h : AttachedTo env a s) :
    ∃ s', mapEach l (fun p => evalKernel env p.1 p.2) s =
        (.ok (l.map fun p => a.entry (env.kval s.kernel) p.1 p.2), s') ∧
      AttachedTo env a s' ∧ SameBut s s' ∧ s'.fullKm = s.fullKm := by
  induction l generalizing s with
  | nil => exact ⟨s, rfl, h, SameBut.refl s, rfl⟩
  | cons p l ih =>
    obtain ⟨hp1, hp2⟩ := hl p (by simp)
    obtain ⟨s1, he, h1, hs1, hfk⟩ := evalKernel_ff hf h hp1 hp2
    obtain ⟨s2, hr, h2, hs2, hfk2⟩ := ih (fun q hq => hl q (by simp [hq])) h1
    have hker : s1.kernel = s.kernel := by obtain ⟨_, _, _, _, _, rfl⟩ := hs1; rfl
    rw [hker] at hr
    exact ⟨s2, mapEach_cons_ok.2 ⟨_, s1, _, he, hr, rfl⟩, h2, hs1.trans hs2, hfk2.trans hfk⟩

theorem attachedTo_freshOn (env : Env K X V) (k : K) (x : Arr2 X) (c : Nat) :
    AttachedTo env ⟨x, none⟩ (freshOn k x c : KMState K X V) :=
  ⟨rfl, rfl, rfl, rfl, rfl, by simp [freshOn, init, reset]⟩

theorem mapEach_map_eval {env : Env K X V} (l : List Nat) (s : KMState K X V) :
    mapEach l (fun i => evalKernel env i i) s =
      mapEach (l.map fun i => (i, i)) (fun p => evalKernel env p.1 p.2) s := by
  induction l generalizing s with
  | nil => rfl
  | cons i l ih =>
    show (evalKernel env i i >>= fun y => mapEach l (fun i => evalKernel env i i) >>= fun ys => pure (y :: ys)) s =
      (evalKernel env i i >>= fun y => mapEach (l.map fun i => (i, i)) (fun p => evalKernel env p.1 p.2) >>= fun ys => pure (y :: ys)) s
    rw [bind_run, bind_run]
    rcases evalKernel env i i s with ⟨e | v, s1⟩
    · rfl
    · simp only [bind_run, ih]

theorem diagonal_run_one {env : Env K X V} {a : Attachment X} {s : KMState K X V}
    (h : AttachedTo env a s) (ha : a.two = none) :
    diagonal env s = mapEach ((List.range a.nrows).map fun i => (i, i))
      (fun p => evalKernel env p.1 p.2) s := by
  have htwo : s.twoSamples = some false := by rw [h.two, ha]; rfl
  unfold diagonal
  rw [bind_ok (getAttr_run_some (·.twoSamples) s _ htwo)]
  show (getAttr (·.shape) >>= fun sh => mapEach (List.range sh.1) fun i => evalKernel env i i) s = _
  rw [bind_ok (getAttr_run_some (·.shape) s _ h.shape), mapEach_map_eval]

theorem Attachment_entry_diag (a : Attachment X) (ha : a.two = none) (kv : X → X → V) (i : Nat) :
    a.entry kv i i = kv (a.one.row i) (a.one.row i) := by
  unfold Attachment.entry; rw [ha]; simp

theorem diagonal_ff {env : Env K X V} (hf : NoFaults env) {a : Attachment X} {s : KMState K X V}
    (h : AttachedTo env a s) (ha : a.two = none) :
    ∃ s', diagonal env s = (.ok (a.one.selfs (env.kval s.kernel)), s') ∧ AttachedTo env a s' ∧
      SameBut s s' ∧ s'.fullKm = s.fullKm := by
  rw [diagonal_run_one h ha]
  have hn : a.ncols = a.nrows := by unfold Attachment.ncols Attachment.nrows; rw [ha]
  obtain ⟨s', h1, h2, h3, h4⟩ := mapEach_eval_ff hf (a := a) ((List.range a.nrows).map fun i => (i, i))
    (by
      intro p hp
      obtain ⟨i, hi, rfl⟩ := List.mem_map.1 hp
      have := List.mem_range.1 hi
      exact ⟨this, by rw [hn]; exact this⟩) h
  refine ⟨s', ?_, h2, h3, h4⟩
  rw [h1]
  congr 2
  unfold Arr2.selfs
  rw [List.map_map]
  apply List.map_congr_left
  intro i _
  exact Attachment_entry_diag a ha _ i

theorem freshDiagonal_ff {env : Env K X V} (hf : NoFaults env) {s : KMState K X V}
    {g : KMState K X V → Option (Arr2 X)} {x : Arr2 X} (hg : g s = some x) :
    ∃ t, freshDiagonal env g s = (.ok (x.selfs (env.kval s.kernel)), { s with clock := t }) := by
  obtain ⟨s', h1, _, _, _⟩ := diagonal_ff hf (attachedTo_freshOn env s.kernel x s.clock) rfl
  refine ⟨s'.clock, ?_⟩
  unfold freshDiagonal
  rw [bind_ok (getAttr_run_some g s _ hg), get_bind_run]
  show (modify _ >>= fun _ => lift _) s = _
  rw [modify_bind_run, h1]
  rfl

/-- `normalize` without failures: either raises the error of the normalisation, or stores it -/
theorem computeNormed_ff {env : Env K X V} (hf : NoFaults env) {a : Attachment X} {sp : Lv}
    {s : KMState K X V} (h : Good env a sp s) (hp : s.populated = true) (m : String) :
    ∃ t, (computeNormed env m s).2 = { s with clock := t } ∧
      (∀ N, (computeNormed env m s).1 = .ok N → N.1 = .dense) ∧
      (s.lowerFilled = true → (computeNormed env m s).1 =
        (a.normed (env.kval s.kernel) env.ops m).map fun N => (.dense, N)) := by
  obtain ⟨fmt, A, hfm, hnp, _, hA, _, _⟩ := fullMat_ff h hp
  have hprod : productFmt fmt = .dense := by
    cases fmt
    · rfl
    · rfl
    · exact absurd rfl hnp
  rcases ht : a.two with _ | b
  · have htwo : s.twoSamples = some false := by rw [h.att.two, ht]; rfl
    have hrun : computeNormed env m s = ((env.ops.normalize A m).map fun N => (.dense, N), s) := by
      unfold computeNormed
      rw [bind_ok (getAttr_run_some (·.twoSamples) s _ htwo)]
      show ((fullMat >>= fun A => lift (env.ops.normalize A.2 m) >>= fun N => pure (productFmt A.1, N)) s) = _
      rw [bind_ok hfm]
      rcases env.ops.normalize A m with e | N
      · rfl
      · simp [hprod]; rfl
    refine ⟨s.clock, by rw [hrun], ?_, ?_⟩
    · intro N hN
      rw [hrun] at hN
      rcases hh : env.ops.normalize A m with e | N' <;> rw [hh] at hN <;> simp [Except.map] at hN
      rw [← hN]
    · intro hl
      rw [hrun, hA hl]
      unfold Attachment.normed Attachment.normedOf
      rw [ht]
  · have htwo : s.twoSamples = some true := by rw [h.att.two, ht]; rfl
    obtain ⟨t1, hd1⟩ := freshDiagonal_ff hf (s := s) (g := (·.sample)) h.att.sample
    obtain ⟨t2, hd2⟩ := freshDiagonal_ff hf (s := { s with clock := t1 }) (g := (·.sampleTwo)) h.att.sampleTwo
    have hfm' : fullMat { s with clock := t2 } = (.ok (fmt, A), { s with clock := t2 }) := by
      rcases h.full with ⟨_, g2, _⟩ | ⟨f, g1, _⟩
      · rw [hp] at g2; simp at g2
      · have e1 := fullMat_run g1 h.att.shape
        rw [hfm] at e1
        injection e1 with e1 _
        injection e1 with e1
        have e2 := fullMat_run (s := { s with clock := t2 }) g1 h.att.shape
        rw [e2, e1]
    have hb : a.two.getD a.one = b := by rw [ht]; rfl
    have hrun : computeNormed env m s =
        ((env.ops.normalize2 A (a.one.selfs (env.kval s.kernel)) (b.selfs (env.kval s.kernel))).map
          fun N => (.dense, N), { s with clock := t2 }) := by
      unfold computeNormed
      rw [bind_ok (getAttr_run_some (·.twoSamples) s _ htwo)]
      show ((freshDiagonal env (·.sample) >>= fun dx => freshDiagonal env (·.sampleTwo) >>= fun dy =>
        fullMat >>= fun A => lift (env.ops.normalize2 A.2 dx dy) >>= fun N => pure (productFmt A.1, N)) s) = _
      rw [bind_ok hd1, bind_ok hd2]
      rw [bind_ok hfm', hb]
      rcases env.ops.normalize2 A _ _ with e | N
      · rfl
      · simp [hprod]; rfl
    refine ⟨t2, by rw [hrun], ?_, ?_⟩
    · intro N hN
      rw [hrun] at hN
      rcases hh : env.ops.normalize2 A (a.one.selfs (env.kval s.kernel)) (b.selfs (env.kval s.kernel)) with e | N' <;>
        rw [hh] at hN <;> simp [Except.map] at hN
      rw [← hN]
    · intro hl
      rw [hrun, hA hl]
      unfold Attachment.normed Attachment.normedOf
      rw [ht]

end KMState
end KMethods
