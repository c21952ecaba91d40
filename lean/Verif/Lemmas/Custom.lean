import Verif.Lemmas.Fill
/-!
# When formatting the kernel raises: with arbitrary kernel failures, an incomplete dense matrix is never returned

One sample, no sparse storage. A failed computation leaves a NaN in the upper triangle, which every later computation of the matrix finds
when it checks for non-finite values.
-/
namespace KMethods
namespace KMState
variable {K X V α β ι : Type}
open PyM

theorem upperPairs_nodup (n m : Nat) : (upperPairs n m).Nodup := by
  unfold upperPairs
  rw [List.nodup_flatMap]
  refine ⟨fun i _ => (List.nodup_range' (step := 1)).map fun a b h => (Prod.mk.inj h).2, ?_⟩
  refine List.Pairwise.imp_of_mem ?_ (List.nodup_range (n := n))
  intro a b _ _ hab
  rw [Function.onFun, List.disjoint_left]
  rintro p hp hp'
  obtain ⟨_, _, rfl⟩ := List.mem_map.1 hp
  obtain ⟨_, _, h⟩ := List.mem_map.1 hp'
  exact hab (Prod.mk.inj h).1.symm

/-- filling cells, with any failures: completed cells have the true value, others are unchanged, and after an exception some requested cell is
unchanged -/
theorem fillCells_any {env : Env K X V} {a : Attachment X} (l : List (Nat × Nat)) (hl : l.Nodup) {s : KMState K X V} {f : Full V}
    (h : AttachedTo env a s) (hfull : s.fullKm = some f) :
    ∃ r s' f', fillCells env l s = (r, s') ∧ AttachedTo env a s' ∧ SameBut s s' ∧ s'.fullKm = some f' ∧ f'.fmt = f.fmt ∧
      (∀ i j, (i, j) ∉ l → f'.cell i j = f.cell i j) ∧
      (r = .ok () → ∀ i j, (i, j) ∈ l → f'.cell i j = a.entry (env.kval s.kernel) i j) ∧
      ((∃ e, r = .error e) → ∃ i j, (i, j) ∈ l ∧ f'.cell i j = f.cell i j) := by
  induction l generalizing s f with
  | nil => exact ⟨.ok (), s, f, rfl, h, SameBut.refl s, hfull, rfl, by simp, by simp, by simp⟩
  | cons p l ih =>
    obtain ⟨hp, hl⟩ := List.nodup_cons.1 hl
    have hext := evalKernel_ext env s p.1 p.2
    have hsame := evalKernel_same env s p.1 p.2
    rcases he : evalKernel env p.1 p.2 s with ⟨e | v, s1⟩
    · rw [he] at hext hsame
      refine ⟨.error e, s1, f, ?_, h.ext hext, hsame.1, hsame.2.trans hfull, rfl, fun _ _ _ => rfl, by simp,
        fun _ => ⟨p.1, p.2, by simp, rfl⟩⟩
      show ((evalKernel env p.1 p.2 >>= fun v => setCell p.1 p.2 v) >>= fun _ => fillCells env l) s = _
      rw [bind_run, bind_run, he]
    · rw [he] at hext hsame
      have h1 := h.ext hext
      have hval := h1.entry (i := p.1) (j := p.2) (v := v) (by
        have h3 : s1.twoSamples = s.twoSamples := hext.twoSamples
        rw [h3]; exact evalKernel_ok he)
      have h4 : s1.kernel = s.kernel := hext.kernel
      rw [h4] at hval
      let f1 : Full V := { f with cell := fun x y => if x = p.1 ∧ y = p.2 then v else f.cell x y }
      let s2 : KMState K X V := { s1 with fullKm := some f1 }
      have hset : setCell p.1 p.2 v s1 = (.ok (), s2) := by
        simp only at hsame
        simp [setCell, s2, f1, hsame.2, hfull]
      obtain ⟨r, s3, f3, hr, h3, hs3, hfk3, hfmt, hout, hin, herr⟩ := ih hl (s := s2) (f := f1) (h1.setFull _) rfl
      refine ⟨r, s3, f3, ?_, h3, ?_, hfk3, hfmt, ?_, ?_, ?_⟩
      · show ((evalKernel env p.1 p.2 >>= fun v => setCell p.1 p.2 v) >>= fun _ => fillCells env l) s = _
        rw [bind_run, bind_run, he]
        simp only
        rw [hset]
        exact hr
      · refine hsame.1.trans (SameBut.trans ?_ hs3)
        exact ⟨s1.cache, s1.numKerEval, s1.succ, s1.clock, some f1, rfl⟩
      · intro i j hij
        have h2 : (i, j) ∉ l := fun h => hij (by simp [h])
        rw [hout i j h2]
        have : ¬ (i = p.1 ∧ j = p.2) := by
          rintro ⟨rfl, rfl⟩; exact hij (by simp)
        simp [f1, this]
      · intro hok i j hij
        by_cases hmem : (i, j) ∈ l
        · rw [hin hok i j hmem]
          show a.entry (env.kval s1.kernel) i j = _
          rw [h4]
        · rw [hout i j hmem]
          have : (i, j) = p := by
            rcases List.mem_cons.1 hij with h | h
            · exact h
            · exact absurd h hmem
          subst this
          simp [f1, hval]
      · intro hx
        obtain ⟨i, j, hij, hc⟩ := herr hx
        refine ⟨i, j, by simp [hij], hc.trans ?_⟩
        have : ¬ (i = p.1 ∧ j = p.2) := by
          rintro ⟨rfl, rfl⟩; exact hp hij
        simp [f1, this]

variable (env : Env K X V) (k : K) (norm : Bool) (A : Arr2 X)

/-- `_full_km` does not exist, or is complete, or has a NaN in the upper triangle and is not marked as complete -/
def WholeOrMarked (s : KMState K X V) : Prop :=
  (s.fullKm = none ∧ s.populated = false ∧ s.lowerFilled = false) ∨
  ∃ f, s.fullKm = some f ∧ f.fmt = .dense ∧
    ((s.populated = true ∧ s.lowerFilled = true ∧
        ∀ i j, i < A.nrows → j < A.nrows → f.cell i j = (⟨A, none⟩ : Attachment X).entry (env.kval k) i j) ∨
      (s.populated = false ∧ ∃ i j, i ≤ j ∧ j < A.nrows ∧ f.cell i j = env.ops.nan))

/-- attached to the single sample `A`; the cached matrices that exist are derived from the true kernel matrix, or marked as incomplete -/
structure CustomOk (s : KMState K X V) : Prop where
  att : AttachedTo env ⟨A, none⟩ s
  kernel : s.kernel = k
  keep : s.keepNormed = norm
  store : WholeOrMarked env k A s
  normed : ∀ N, s.normedKm = some N → s.isNormed = true → N.1 = .dense ∧ ∃ m,
    env.ops.normalize ((⟨A, none⟩ : Attachment X).gram (env.kval k)) m = .ok N.2
  centered : ∀ C, s.centeredKm = some C → s.isCentered = true → C.1 = .dense ∧
    env.ops.center ((⟨A, none⟩ : Attachment X).gram (env.kval k)) = .ok C.2
  frob : ∀ v, s.frobNorm = some v → env.ops.frob ((⟨A, none⟩ : Attachment X).gram (env.kval k)) = .ok v

variable {env k norm A}

theorem CustomOk.core {s s' : KMState K X V} (h : CustomOk env k norm A s) (hs : SameBut s s') (ha : AttachedTo env ⟨A, none⟩ s')
    (hf : s'.fullKm = s.fullKm) : CustomOk env k norm A s' := by
  obtain ⟨c, n, u, t, fk, rfl⟩ := hs
  obtain rfl : fk = s.fullKm := hf
  exact ⟨ha, h.kernel, h.keep, h.store, h.normed, h.centered, h.frob⟩

theorem custom_evalKernel (i j : Nat) : Holds (CustomOk env k norm A) (evalKernel env i j) fun _ => True := by
  intro s hs
  obtain ⟨h1, h2⟩ := evalKernel_same env s i j
  exact ⟨hs.core h1 (hs.att.ext (evalKernel_ext env s i j)) h2, fun _ _ => trivial⟩

theorem custom_shape : Holds (CustomOk env k norm A) (getAttr fun s => s.shape) fun sh => sh = (A.nrows, A.nrows) :=
  Holds.getAttr fun s hs x hx => by rw [hs.att.shape] at hx; injection hx with hx; exact hx.symm

theorem custom_two : Holds (CustomOk env k norm A) (getAttr fun s => s.twoSamples) fun b => b = false :=
  Holds.getAttr fun s hs x hx => by rw [hs.att.two] at hx; injection hx with hx; exact hx.symm

variable (env k A) in
/-- `populateFully` in dense format, where formatting the kernel raises -/
theorem custom_populateFully (hb : env.fmtRaises k = true) (hn : env.ops.FindsNan) {s : KMState K X V} (h : CustomOk env k norm A s)
    (hp : s.populated = false) :
    CustomOk env k norm A (populateFully env true true s).2 ∧
    ((populateFully env true true s).1 = .ok () → (populateFully env true true s).2.populated = true) := by
  -- the last two steps on a state with a NaN in the upper triangle
  have bad : ∀ (s : KMState K X V) (f : Full V), CustomOk env k norm A s → s.fullKm = some f → f.fmt = .dense →
      s.populated = false → (∃ i j, i ≤ j ∧ j < A.nrows ∧ f.cell i j = env.ops.nan) →
      ∃ s', (populateLower env true >>= fun _ => densify true >>= fun _ => fullMat >>= fun A => warnNonFinite env A.2 : PyM _ _) s =
        (.error .typeError, s') ∧ CustomOk env k norm A s' := by
    intro s f hs hf hd hp hnan
    obtain ⟨i, j, hij, hj, hc⟩ := hnan
    have tail : ∀ (s : KMState K X V) (f : Full V), CustomOk env k norm A s → s.fullKm = some f → f.fmt = .dense →
        f.cell i j = env.ops.nan →
        (densify true >>= fun _ => fullMat >>= fun A => warnNonFinite env A.2 : PyM _ _) s = (.error .typeError, s) := by
      intro s f hs hf hd hc
      have e1 : densify true s = (.ok (), s) := by
        unfold densify
        rw [bind_ok (getAttr_run_some (fun s : KMState K X V => s.fullKm) s f hf), hd]
        rfl
      rw [bind_ok e1]
      have e2 : fullMat s = (.ok (.dense, Mat.ofCells A.nrows A.nrows f.cell), s) := by
        unfold fullMat
        rw [bind_ok (getAttr_run_some (fun s : KMState K X V => s.fullKm) s f hf),
          bind_ok (getAttr_run_some (fun s : KMState K X V => s.shape) s _ hs.att.shape), hd]
        rfl
      rw [bind_ok e2]
      unfold warnNonFinite
      rw [get_bind_run, hs.kernel, hb, hn _ _ _ i j (by omega) hj hc]
      rfl
    by_cases hl : s.lowerFilled = true
    · have e1 : populateLower env true s = (.ok (), s) := by
        unfold populateLower
        rw [get_bind_run, hl]
        rfl
      rw [bind_ok e1]
      exact ⟨s, tail s f hs hf hd hc, hs⟩
    · let f' : Full V := { f with cell := fun a b => if b < a then f.cell b a else f.cell a b }
      let s' : KMState K X V := { s with fullKm := some f', lowerFilled := true }
      have hc' : f'.cell i j = env.ops.nan := by
        show (if j < i then _ else _) = _
        rw [if_neg (by omega), hc]
      have hs' : CustomOk env k norm A s' :=
        ⟨hs.att.congr rfl rfl rfl rfl rfl rfl rfl, hs.kernel, hs.keep,
          Or.inr ⟨f', rfl, hd, Or.inr ⟨hp, i, j, hij, hj, hc'⟩⟩, hs.normed, hs.centered, hs.frob⟩
      have e1 : populateLower env true s = (.ok (), s') := by
        unfold populateLower
        rw [get_bind_run, show s.lowerFilled = false by simpa using hl]
        show ((catchAll .runtimeError _ >>= _ : PyM (KMState K X V) Unit)) s = _
        rw [bind_run, catchAll_run, bind_ok (getAttr_run_some (fun s : KMState K X V => s.shape) s _ hs.att.shape),
          bind_ok (getAttr_run_some (fun s : KMState K X V => s.twoSamples) s _ hs.att.two)]
        have hsq : (!(⟨A, none⟩ : Attachment X).two.isSome && (⟨A, none⟩ : Attachment X).nrows == (⟨A, none⟩ : Attachment X).ncols) = true := by
          simp [Attachment.nrows, Attachment.ncols]
        simp only [hsq, if_true]
        simp [symmetrize, hf, s', f']
      rw [bind_ok e1]
      exact ⟨s', tail s' f' hs' rfl hd hc', hs'⟩
  have hrun : populateFully env true true s = (populateUpper env true >>= fun _ => populateLower env true >>= fun _ => densify true >>= fun _ =>
      fullMat >>= fun A => warnNonFinite env A.2 : PyM _ _) s := rfl
  rw [hrun]
  rcases h.store with ⟨h1, h2, h3⟩ | ⟨f, h1, h2, h3 | ⟨-, h3⟩⟩
  · -- first computation
    let f0 : Full V := ⟨.dense, fun _ _ => env.ops.nan⟩
    let s0 : KMState K X V := { s with fullKm := some f0 }
    obtain ⟨r, s1, f1, hr, hatt, hsame, hfk, hfmt, hout, hin, herr⟩ := fillCells_any (env := env) (a := ⟨A, none⟩)
      (upperPairs A.nrows A.nrows) (upperPairs_nodup _ _) (s := s0) (f := f0) (h.att.setFull _) rfl
    have hu : populateUpper env true s =
        (catchAll .runtimeError (fillCells env (upperPairs A.nrows A.nrows)) >>= fun _ =>
          modify fun s => { s with populated := true } : PyM (KMState K X V) Unit) s0 := by
      unfold populateUpper
      rw [get_bind_run, h2, h1]
      show ((getAttr fun s => s.shape) >>= _ : PyM (KMState K X V) Unit) s = _
      rw [bind_ok (getAttr_run_some (fun s : KMState K X V => s.shape) s _ h.att.shape)]
      rfl
    obtain ⟨c, n, u, t, fk, rfl⟩ := hsame
    obtain rfl : fk = some f1 := hfk
    rcases r with e | ⟨⟩
    · have e1 : populateUpper env true s = (.error .runtimeError, { s0 with cache := c, numKerEval := n, succ := u, clock := t, fullKm := some f1 }) := by
        rw [hu, bind_run, catchAll_run, hr]
      rw [bind_error e1]
      refine ⟨⟨hatt, h.kernel, h.keep, Or.inr ⟨f1, rfl, hfmt, Or.inr ⟨h2, ?_⟩⟩, h.normed, h.centered, h.frob⟩, by simp⟩
      obtain ⟨i, j, hij, hc⟩ := herr ⟨e, rfl⟩
      have := mem_upperPairs.1 hij
      exact ⟨i, j, this.2.2, this.2.1, hc⟩
    · let s2 : KMState K X V := { s0 with cache := c, numKerEval := n, succ := u, clock := t, fullKm := some f1, populated := true }
      have e1 : populateUpper env true s = (.ok (), s2) := by
        rw [hu, bind_run, catchAll_run, hr]
        rfl
      rw [bind_ok e1]
      let f3 : Full V := { f1 with cell := fun a b => if b < a then f1.cell b a else f1.cell a b }
      let s3 : KMState K X V := { s2 with fullKm := some f3, lowerFilled := true }
      have e2 : populateLower env true s2 = (.ok (), s3) := by
        unfold populateLower
        rw [get_bind_run, show s2.lowerFilled = false from h3]
        show ((catchAll .runtimeError _ >>= _ : PyM (KMState K X V) Unit)) s2 = _
        rw [bind_run, catchAll_run, bind_ok (getAttr_run_some (fun s : KMState K X V => s.shape) s2 _ h.att.shape),
          bind_ok (getAttr_run_some (fun s : KMState K X V => s.twoSamples) s2 _ h.att.two)]
        have hsq : (!(⟨A, none⟩ : Attachment X).two.isSome && (⟨A, none⟩ : Attachment X).nrows == (⟨A, none⟩ : Attachment X).ncols) = true := by
          simp [Attachment.nrows, Attachment.ncols]
        simp only [hsq, if_true]
        rfl
      rw [bind_ok e2]
      have e3 : densify true s3 = (.ok (), s3) := by
        unfold densify
        rw [bind_ok (getAttr_run_some (fun s : KMState K X V => s.fullKm) s3 f3 rfl), show f3.fmt = .dense from hfmt]
        rfl
      rw [bind_ok e3]
      have hcells : ∀ i j, i < A.nrows → j < A.nrows → f3.cell i j = (⟨A, none⟩ : Attachment X).entry (env.kval k) i j := by
        intro i j hi hj
        show (if j < i then f1.cell j i else f1.cell i j) = _
        have hk : s0.kernel = k := h.kernel
        rw [hk] at hin
        split
        · rename_i hji
          rw [hin rfl j i (mem_upperPairs.2 ⟨hj, hi, hji.le⟩), Attachment.entry_symm _ _ rfl]
        · rename_i hji
          rw [hin rfl i j (mem_upperPairs.2 ⟨hi, hj, by simpa using hji⟩)]
      have hs3 : CustomOk env k norm A s3 :=
        ⟨hatt.congr rfl rfl rfl rfl rfl rfl rfl, h.kernel, h.keep, Or.inr ⟨f3, rfl, hfmt, Or.inl ⟨rfl, rfl, hcells⟩⟩,
          h.normed, h.centered, h.frob⟩
      have hfin : ((fullMat >>= fun A => warnNonFinite env A.2 : PyM _ _) s3).2 = s3 := by
        unfold fullMat
        rw [bind_run, bind_ok (getAttr_run_some (fun s : KMState K X V => s.fullKm) s3 f3 rfl),
          bind_ok (getAttr_run_some (fun s : KMState K X V => s.shape) s3 _ h.att.shape)]
        show ((get >>= _ : PyM (KMState K X V) Unit) s3).2 = _
        rw [get_bind_run]
        unfold raiseIf
        split <;> rfl
      rw [hfin]
      exact ⟨hs3, fun _ => rfl⟩
  · rw [hp] at h3; cases h3.1
  · have e1 : populateUpper env true s = (.ok (), s) := by
      unfold populateUpper
      rw [get_bind_run, h1]
      simp
    rw [bind_ok e1]
    obtain ⟨s', e2, h4⟩ := bad s f h h1 h2 hp h3
    rw [e2]
    exact ⟨h4, by simp⟩

variable (env k norm A) in
/-- as `CustomOk`, and the matrix is complete -/
def CustomDone (s : KMState K X V) : Prop := CustomOk env k norm A s ∧ s.populated = true

/-- run `m`, which on success establishes `Q'`, then `f` -/
theorem Holds.thenDone {Q Q' : KMState K X V → Prop} {m : PyM (KMState K X V) Unit} {f : PyM (KMState K X V) β} {R : β → Prop}
    (hm : ∀ s, Q s → Q (m s).2 ∧ ((m s).1 = .ok () → Q' (m s).2)) (hQ : ∀ s, Q' s → Q s) (hf : Holds Q' f R) :
    Holds Q (m >>= fun _ => f) R := by
  intro s hs
  obtain ⟨h1, h2⟩ := hm s hs
  rw [bind_run]
  rcases he : m s with ⟨e | ⟨⟩, s'⟩
  · rw [he] at h1; exact ⟨h1, by simp⟩
  · rw [he] at h2
    obtain ⟨h3, h4⟩ := hf s' (h2 rfl)
    exact ⟨hQ _ h3, h4⟩

section
variable (hb : env.fmtRaises k = true) (hn : env.ops.FindsNan)
include hb hn

theorem custom_ensurePopulated (s : KMState K X V) (h : CustomOk env k norm A s) :
    CustomOk env k norm A (ensurePopulated env s).2 ∧
    ((ensurePopulated env s).1 = .ok () → CustomDone env k norm A (ensurePopulated env s).2) := by
  unfold ensurePopulated
  rw [get_bind_run]
  rcases hp : s.populated
  · obtain ⟨h1, h2⟩ := custom_populateFully env k A hb hn h hp
    exact ⟨h1, fun h => ⟨h1, h2 h⟩⟩
  · exact ⟨h, fun _ => ⟨h, hp⟩⟩

theorem custom_afterPopulated {f : PyM (KMState K X V) β} {R : β → Prop} (hf : Holds (CustomDone env k norm A) f R) :
    Holds (CustomOk env k norm A) (ensurePopulated env >>= fun _ => f) R :=
  Holds.thenDone (custom_ensurePopulated hb hn) (fun _ h => h.1) hf

omit hb hn in
theorem custom_fullMat : Holds (CustomDone env k norm A) fullMat fun M => M = (.dense, (⟨A, none⟩ : Attachment X).gram (env.kval k)) := by
  rintro s ⟨hs, hp⟩
  rcases hs.store with ⟨_, h, _⟩ | ⟨f, h1, h2, ⟨_, _, h3⟩ | ⟨h, _⟩⟩
  · rw [hp] at h; cases h
  · have e2 : fullMat s = (.ok (.dense, Mat.ofCells A.nrows A.nrows f.cell), s) := by
      unfold fullMat
      rw [bind_ok (getAttr_run_some (fun s : KMState K X V => s.fullKm) s f h1),
        bind_ok (getAttr_run_some (fun s : KMState K X V => s.shape) s _ hs.att.shape), h2]
      rfl
    rw [e2]
    refine ⟨⟨hs, hp⟩, fun x hx => ?_⟩
    injection hx with hx
    rw [← hx]
    congr 1
    show Mat.mk _ _ _ = Mat.mk _ _ _
    congr 1
    funext i j
    exact h3 i j i.2 j.2
  · rw [hp] at h; cases h

omit hb hn in
theorem custom_two' : Holds (CustomDone env k norm A) (getAttr fun s => s.twoSamples) fun b => b = false :=
  Holds.getAttr fun s hs x hx => by rw [hs.1.att.two] at hx; injection hx with hx; exact hx.symm

omit hb hn in
theorem custom_computeNormed (m : String) : Holds (CustomDone env k norm A) (computeNormed env m) fun N => N.1 = .dense ∧
    env.ops.normalize ((⟨A, none⟩ : Attachment X).gram (env.kval k)) m = .ok N.2 := by
  refine custom_two'.bind fun b hb => ?_
  subst hb
  simp only [Bool.not_false, if_true]
  refine custom_fullMat.bind fun M hM => ?_
  subst hM
  rcases hN : env.ops.normalize ((⟨A, none⟩ : Attachment X).gram (env.kval k)) m with e | N
  · exact fun s hs => ⟨hs, fun x hx => by cases hx⟩
  · refine Holds.bind (R := fun x => x = N) (fun s hs => ⟨hs, fun x hx => by injection hx with hx; exact hx.symm⟩) fun x hx => ?_
    subst hx
    exact Holds.pure ⟨rfl, rfl⟩

theorem custom_normalize (m : String) (s : KMState K X V) (h : CustomOk env k norm A s) :
    CustomOk env k norm A (normalize env m s).2 ∧ ((normalize env m s).1 = .ok () → (normalize env m s).2.isNormed = true) := by
  unfold normalize
  obtain ⟨h1, h2⟩ := custom_ensurePopulated hb hn s h
  rw [bind_run]
  rcases he : ensurePopulated env s with ⟨e | ⟨⟩, s1⟩
  · rw [he] at h1; exact ⟨h1, by simp⟩
  · rw [he] at h2
    have h3 := h2 rfl
    simp only
    rw [get_bind_run]
    rcases hi : s1.isNormed
    · show CustomOk env k norm A ((computeNormed env m >>= _ : PyM (KMState K X V) Unit) s1).2 ∧ _
      obtain ⟨g1, g2⟩ := custom_computeNormed m s1 h3
      show CustomOk env k norm A ((computeNormed env m >>= fun N => (modify fun s => { s with normedKm := some N, isNormed := true }) >>= fun _ =>
        warnNonFinite env N.2 : PyM (KMState K X V) Unit) s1).2 ∧
        (((computeNormed env m >>= fun N => (modify fun s => { s with normedKm := some N, isNormed := true }) >>= fun _ =>
        warnNonFinite env N.2 : PyM (KMState K X V) Unit) s1).1 = .ok () →
        ((computeNormed env m >>= fun N => (modify fun s => { s with normedKm := some N, isNormed := true }) >>= fun _ =>
        warnNonFinite env N.2 : PyM (KMState K X V) Unit) s1).2.isNormed = true)
      rcases hc : computeNormed env m s1 with ⟨e | N, s2⟩
      · rw [hc] at g1
        rw [bind_error hc]
        exact ⟨g1.1, by simp⟩
      · rw [hc] at g1 g2
        obtain ⟨g3, g4⟩ := g2 N rfl
        rw [bind_ok hc, modify_bind_run]
        have hw : ∀ s : KMState K X V, (warnNonFinite env N.2 s).2 = s := by
          intro s
          unfold warnNonFinite
          rw [get_bind_run]
          unfold raiseIf
          split <;> rfl
        rw [hw]
        refine ⟨⟨g1.1.att.congr rfl rfl rfl rfl rfl rfl rfl, g1.1.kernel, g1.1.keep, g1.1.store, ?_, g1.1.centered, g1.1.frob⟩, fun _ => rfl⟩
        intro N' hN' _
        obtain rfl : N = N' := Option.some.inj hN'
        exact ⟨g3, m, g4⟩
    · exact ⟨h3.1, fun _ => hi⟩

theorem custom_normedKmVal : Holds (CustomOk env k norm A) (normedKmVal env) fun N => N.1 = .dense ∧
    ∃ m, env.ops.normalize ((⟨A, none⟩ : Attachment X).gram (env.kval k)) m = .ok N.2 := by
  intro s hs
  unfold normedKmVal
  rw [get_bind_run]
  have fin : ∀ s : KMState K X V, CustomOk env k norm A s → s.isNormed = true →
      CustomOk env k norm A (getAttr (fun s : KMState K X V => s.normedKm) s).2 ∧
      ∀ N, (getAttr (fun s : KMState K X V => s.normedKm) s).1 = .ok N → N.1 = .dense ∧
        ∃ m, env.ops.normalize ((⟨A, none⟩ : Attachment X).gram (env.kval k)) m = .ok N.2 := by
    intro s hs hi
    rw [getAttr_run]
    rcases hN : s.normedKm with _ | N
    · exact ⟨hs, fun N h => by cases h⟩
    · exact ⟨hs, fun N' h => by injection h with h; rw [← h]; exact hs.normed N hN hi⟩
  rcases hi : s.isNormed
  · obtain ⟨h1, h2⟩ := custom_normalize hb hn "cosine" s hs
    show CustomOk env k norm A ((normalize env "cosine" >>= fun _ => getAttr fun s => s.normedKm : PyM (KMState K X V) _) s).2 ∧
      ∀ N, ((normalize env "cosine" >>= fun _ => getAttr fun s => s.normedKm : PyM (KMState K X V) _) s).1 = .ok N → _
    rw [bind_run]
    rcases he : normalize env "cosine" s with ⟨e | ⟨⟩, s1⟩
    · rw [he] at h1; exact ⟨h1, by simp⟩
    · rw [he] at h1 h2; exact fin s1 h1 (h2 rfl)
  · exact fin s hs hi

theorem custom_full : Holds (CustomOk env k norm A) (full env) fun M => M.1 = .dense ∧
    (norm = false → M.2 = (⟨A, none⟩ : Attachment X).gram (env.kval k)) ∧
    (norm = true → ∃ m, env.ops.normalize ((⟨A, none⟩ : Attachment X).gram (env.kval k)) m = .ok M.2) := by
  refine Holds.get.bind fun s hs => Holds.raiseIf.bind fun _ _ => ?_
  rw [hs.keep]
  cases norm
  · exact custom_afterPopulated hb hn (custom_fullMat.imp fun M hM => by subst hM; exact ⟨rfl, fun _ => rfl, by simp⟩)
  · intro s hs
    obtain ⟨h1, h2⟩ := custom_ensurePopulated hb hn s hs
    rw [bind_run]
    rcases he : ensurePopulated env s with ⟨e | ⟨⟩, s1⟩
    · rw [he] at h1; exact ⟨h1, by simp⟩
    · rw [he] at h1
      exact ((custom_normedKmVal hb hn).imp fun N hN => ⟨hN.1, by simp, fun _ => hN.2⟩) s1 h1

theorem custom_fullSparse (hk : norm = true) : Holds (CustomOk env k norm A) (fullSparse env) fun _ => True := by
  refine Holds.get.bind fun s hs => ?_
  rw [hs.keep, hk]
  subst hk
  exact (custom_normedKmVal hb hn).triv

theorem custom_center (s : KMState K X V) (h : CustomOk env k norm A s) :
    CustomOk env k norm A (center env s).2 ∧ ((center env s).1 = .ok () → (center env s).2.isCentered = true) := by
  unfold center
  rw [bind_ok (getAttr_run_some (fun s : KMState K X V => s.twoSamples) s _ h.att.two)]
  show CustomOk env k norm A ((pure () >>= fun _ => ensurePopulated env >>= fun _ => fullMat >>= _ : PyM (KMState K X V) Unit) s).2 ∧
    (((pure () >>= fun _ => ensurePopulated env >>= fun _ => fullMat >>= _ : PyM (KMState K X V) Unit) s).1 = .ok () →
    ((pure () >>= fun _ => ensurePopulated env >>= fun _ => fullMat >>= _ : PyM (KMState K X V) Unit) s).2.isCentered = true)
  rw [pure_bind_run]
  obtain ⟨h1, h2⟩ := custom_ensurePopulated hb hn s h
  rcases he : ensurePopulated env s with ⟨e | ⟨⟩, s1⟩
  · rw [he] at h1
    rw [bind_error he]
    exact ⟨h1, by simp⟩
  · rw [he] at h2
    rw [bind_ok he]
    have h3 := h2 rfl
    obtain ⟨g1, g2⟩ := custom_fullMat s1 h3
    rcases hm : fullMat s1 with ⟨e | M, s2⟩
    · rw [hm] at g1
      rw [bind_error hm]
      exact ⟨g1.1, by simp⟩
    · rw [hm] at g1 g2
      obtain rfl := g2 M rfl
      rw [bind_ok hm]
      show CustomOk env k norm A ((pure () >>= fun _ => lift (env.ops.center _) >>= _ : PyM (KMState K X V) Unit) s2).2 ∧
        (((pure () >>= fun _ => lift (env.ops.center _) >>= _ : PyM (KMState K X V) Unit) s2).1 = .ok () →
        ((pure () >>= fun _ => lift (env.ops.center _) >>= _ : PyM (KMState K X V) Unit) s2).2.isCentered = true)
      rw [pure_bind_run]
      rcases hC : env.ops.center ((⟨A, none⟩ : Attachment X).gram (env.kval k)) with e | C
      · exact ⟨g1.1, fun h => by cases h⟩
      · refine ⟨⟨g1.1.att.congr rfl rfl rfl rfl rfl rfl rfl, g1.1.kernel, g1.1.keep, g1.1.store, g1.1.normed, ?_, g1.1.frob⟩, fun _ => rfl⟩
        intro C' hC' _
        obtain rfl : (productFmt .dense, C) = C' := Option.some.inj hC'
        exact ⟨rfl, hC⟩

theorem custom_centered : Holds (CustomOk env k norm A) (centered env) fun C => C.1 = .dense ∧
    env.ops.center ((⟨A, none⟩ : Attachment X).gram (env.kval k)) = .ok C.2 := by
  refine custom_two.bind fun b hb' => Holds.raiseIf.bind fun _ _ => ?_
  intro s hs
  rw [get_bind_run]
  have fin : ∀ s : KMState K X V, CustomOk env k norm A s → s.isCentered = true →
      CustomOk env k norm A (getAttr (fun s : KMState K X V => s.centeredKm) s).2 ∧
      ∀ C, (getAttr (fun s : KMState K X V => s.centeredKm) s).1 = .ok C → C.1 = .dense ∧
        env.ops.center ((⟨A, none⟩ : Attachment X).gram (env.kval k)) = .ok C.2 := by
    intro s hs hi
    rw [getAttr_run]
    rcases hN : s.centeredKm with _ | N
    · exact ⟨hs, fun N h => by cases h⟩
    · exact ⟨hs, fun N' h => by injection h with h; rw [← h]; exact hs.centered N hN hi⟩
  rcases hi : s.isCentered
  · obtain ⟨h1, h2⟩ := custom_center hb hn s hs
    show CustomOk env k norm A ((center env >>= fun _ => getAttr fun s => s.centeredKm : PyM (KMState K X V) _) s).2 ∧
      ∀ N, ((center env >>= fun _ => getAttr fun s => s.centeredKm : PyM (KMState K X V) _) s).1 = .ok N → _
    rw [bind_run]
    rcases he : center env s with ⟨e | ⟨⟩, s1⟩
    · rw [he] at h1; exact ⟨h1, by simp⟩
    · rw [he] at h1 h2; exact fin s1 h1 (h2 rfl)
  · exact fin s hs hi

theorem custom_frobNormVal : Holds (CustomOk env k norm A) (frobNormVal env) fun v =>
    env.ops.frob ((⟨A, none⟩ : Attachment X).gram (env.kval k)) = .ok v := by
  refine custom_afterPopulated hb hn (Holds.get.bind fun s _ => Holds.bind (R := fun _ => True) (Holds.when ?_) fun _ _ =>
    Holds.getAttr fun s hs x hx => hs.1.frob x hx)
  refine custom_fullMat.bind fun M hM => ?_
  subst hM
  rcases hv : env.ops.frob ((⟨A, none⟩ : Attachment X).gram (env.kval k)) with e | v
  · refine Holds.bind (R := fun _ => False) (fun s hs => ⟨hs, fun x hx => ?_⟩) fun _ h => h.elim
    change Except.error e = _ at hx
    cases hx
  · refine Holds.bind (R := fun x => x = v) (fun s hs => ⟨hs, fun x hx => ?_⟩) fun x hx => Holds.modify fun s hs =>
      ⟨⟨hs.1.att.congr rfl rfl rfl rfl rfl rfl rfl, hs.1.kernel, hs.1.keep, hs.1.store, hs.1.normed, hs.1.centered, ?_⟩, hs.2⟩
    · change Except.ok v = _ at hx
      injection hx with hx
      exact hx.symm
    · intro w hw
      obtain rfl : x = w := Option.some.inj hw
      rw [hv, hx]

omit hb hn in
theorem custom_diagonal : Holds (CustomOk env k norm A) (diagonal env) fun _ => True :=
  custom_two.bind fun _ _ => Holds.ite Holds.throw (custom_shape.bind fun _ _ =>
    Holds.mapEach fun _ => custom_evalKernel _ _)

omit hb hn in
theorem custom_size : Holds (CustomOk env k norm A) size fun _ => True := by
  refine custom_two.bind fun b _ => Holds.get.bind fun s _ => ?_
  cases b <;> rcases s.numSamples with _ | _ | _ <;> first | exact Holds.throw | exact Holds.pure trivial

omit hb hn in
theorem custom_compute (one two : List Nat) :
    Holds (CustomOk env k norm A) (computeForIndexCombinations env one two) fun _ => True :=
  Holds.bind (Holds.mapEach fun _ => custom_evalKernel _ _) fun _ _ => Holds.pure trivial

omit hb hn in
theorem custom_getItem_pair {s : KMState K X V} (h : CustomOk env k norm A s) (S T : Idx)
    (hw : ¬ WholeKey A.nrows A.nrows (.pair S T)) : CustomOk env k norm A (getItem env (.pair S T) s).2 := by
  rw [getItem_run_pair h.att.shape]
  rcases h1 : getIndicesInSample (some ((⟨A, none⟩ : Attachment X).nrows, (⟨A, none⟩ : Attachment X).ncols)) S false with e | one
  · exact h
  rcases h2 : getIndicesInSample (some ((⟨A, none⟩ : Attachment X).nrows, (⟨A, none⟩ : Attachment X).ncols)) T true with e | two
  · exact h
  simp only
  rcases hb : (one.2 && two.2)
  · exact (custom_compute _ _ s h).1
  · exact absurd (whole_of_flags h1 h2 hb) hw

omit hb hn in
theorem custom_getItem {s : KMState K X V} (h : CustomOk env k norm A s) (key : Key)
    (hw : ¬ WholeKey A.nrows A.nrows key) : CustomOk env k norm A (getItem env key s).2 := by
  cases key with
  | pair S T => exact custom_getItem_pair h S T hw
  | other => exact h
  | linear q =>
    rw [getItem_linear h.att.shape]
    split
    · exact h
    · rename_i hk
      refine custom_getItem_pair h _ _ ?_
      have hpos : 0 < A.nrows := by
        by_contra hc
        have h0 : A.nrows = 0 := by omega
        refine hk ?_
        simp only [Attachment.nrows, Attachment.ncols, h0]
        simp
        omega
      rintro ⟨w1, w2⟩
      have e1 := w1 0 hpos
      have e2 := w1 (A.nrows - 1) (by omega)
      simp only [IndexSpec.Selects] at e1 e2
      have : A.nrows = 1 := by omega
      exact hw ⟨this, this⟩

theorem CustomOk.exec {s : KMState K X V} (h : CustomOk env k norm A s) (op : KMOp X) (ha : op.isAttach = false)
    (hd : ¬ op.MayGoSparse norm A.nrows A.nrows) : CustomOk env k norm A (exec env op s).2 := by
  have run : ∀ {α : Type} {m : PyM (KMState K X V) α} (f : α → KMOut V),
      CustomOk env k norm A (m s).2 → CustomOk env k norm A ((m >>= fun x => pure (f x)) s).2 := by
    intro α m f hm
    rw [bind_run]
    rcases hr : m s with ⟨e | x, s'⟩ <;> rw [hr] at hm <;> exact hm
  cases op with
  | attach => simp [KMOp.isAttach] at ha
  | setAttr n v => exact ⟨h.att.congr rfl rfl rfl rfl rfl rfl rfl, h.kernel, h.keep, h.store, h.normed, h.centered, h.frob⟩
  | getAttr n d => exact h
  | attributes => exact h
  | numSamples => exact h
  | shape => rw [exec_shape_run]; exact h
  | size => exact run _ (custom_size s h).1
  | full => exact run _ (custom_full hb hn s h).1
  | fullSparse => exact run _ (custom_fullSparse hb hn (by simpa [KMOp.MayGoSparse] using hd) s h).1
  | center => exact run (fun _ => .none) (custom_center hb hn s h).1
  | centered => exact run _ (custom_centered hb hn s h).1
  | normalize m => exact run (fun _ => .none) (custom_normalize hb hn m s h).1
  | normedKm => exact run _ (custom_normedKmVal hb hn s h).1
  | frobNorm => exact run _ (custom_frobNormVal hb hn s h).1
  | diagonal => exact run _ (custom_diagonal s h).1
  | getItem key => exact run _ (custom_getItem h key hd)

theorem Since.customOk {s : KMState K X V} (h : SinceDense env k norm ⟨A, none⟩ s) : CustomOk env k norm A s := by
  induction h with
  | attached hr ha h =>
    have hk := hr.kernel
    rw [exec_attach_ok ha h]
    exact ⟨attachedTo_attachedState env _ _ ⟨A, none⟩ _ _, hk.1, hk.2, Or.inl ⟨rfl, rfl, rfl⟩,
      fun _ hf => by simp [attachedState] at hf, fun _ _ hf => by simp [attachedState] at hf, fun _ hf => by simp [attachedState] at hf⟩
  | call op _ ha hd ih => exact ih.exec hb hn op ha hd

end

/-! ### a kernel function that always raises on some pair of samples -/

variable (env k A) in
/-- attached to `A`; the pair `(i, j)` has not been evaluated -/
def Unevaluated (i j : Nat) (s : KMState K X V) : Prop :=
  AttachedTo env ⟨A, none⟩ s ∧ s.kernel = k ∧ s.cache.lookup (i, j) = none

variable (env k norm A) in
/-- as `CustomOk`; the matrix is not complete, nothing was derived from it, and the pair `(i, j)` has not been evaluated -/
def CustomStuck (i j : Nat) (s : KMState K X V) : Prop :=
  CustomOk env k norm A s ∧ (s.populated = false ∧ s.isNormed = false ∧ s.isCentered = false) ∧ s.cache.lookup (i, j) = none

section
variable {i j : Nat} (hij : i ≤ j) (hfail : ∀ t, env.fails t k (A.row i) (A.row j) = true)
include hij hfail

omit hij in
theorem unev_evalAt (p : Nat × Nat) {s : KMState K X V} (hs : Unevaluated env k A i j s) :
    (evalAt env p s).2.cache.lookup (i, j) = none ∧ (p = (i, j) → ∃ e, (evalAt env p s).1 = .error e) := by
  obtain ⟨ha, hk, hl⟩ := hs
  unfold evalAt
  rw [get_bind_run]
  rcases hp : s.cache.lookup p with _ | v
  swap
  · refine ⟨hl, fun h => ?_⟩
    rw [h, hl] at hp
    cases hp
  have hx : s.sample = some A := ha.sample
  have hy : s.sampleTwo = some A := ha.sampleTwo
  by_cases ha : p.1 < A.nrows
  swap
  · simp [bind_run, rowAt, hx, ha, hl]
  by_cases hb : p.2 < A.nrows
  swap
  · simp [bind_run, rowAt, hx, ha, hy, hb, hl]
  by_cases hf : env.fails s.clock s.kernel (A.row p.1) (A.row p.2) = true
  · simp [bind_run, rowAt, hx, ha, hy, hb, callKernel, hf, hl]
  · have hne : p ≠ (i, j) := by
      rintro rfl
      rw [hk] at hf
      exact hf (hfail _)
    simp only [bind_run, rowAt, hx, ha, hy, hb, callKernel, hf, if_true]
    refine ⟨?_, fun h => absurd h hne⟩
    show List.lookup (i, j) ((p, _) :: s.cache) = none
    rw [List.lookup_cons]
    have : ((i, j) == p) = false := by
      simp only [beq_eq_false_iff_ne, ne_eq]
      exact fun h => hne h.symm
    rw [this]
    exact hl

theorem unev_evalKernel (a b : Nat) : Holds (Unevaluated env k A i j) (evalKernel env a b) fun _ => (a, b) ≠ (i, j) := by
  intro s hs
  have hext := evalKernel_ext env s a b
  have hrun : evalKernel env a b s = evalAt env (memoKey s.twoSamples a b) s := by
    rw [evalKernel_run, if_neg (by rw [hs.1.two]; simp)]
  obtain ⟨h4, h5⟩ := unev_evalAt hfail (memoKey s.twoSamples a b) hs
  rw [← hrun] at h4 h5
  refine ⟨⟨hs.1.ext hext, hext.kernel.trans hs.2.1, h4⟩, fun x hx hab => ?_⟩
  obtain ⟨rfl, rfl⟩ := Prod.mk.inj hab
  obtain ⟨e, he⟩ := h5 (by unfold memoKey; rw [if_neg (by omega)])
  rw [hx] at he
  cases he

theorem unev_fillCells (l : List (Nat × Nat)) : Holds (Unevaluated env k A i j) (fillCells env l) fun _ => (i, j) ∉ l := by
  induction l with
  | nil => exact Holds.pure (by simp)
  | cons p l ih =>
    show Holds _ ((evalKernel env p.1 p.2 >>= fun v => setCell p.1 p.2 v) >>= fun _ => fillCells env l) _
    refine Holds.bind (R := fun _ => p ≠ (i, j)) ((unev_evalKernel hij hfail p.1 p.2).bind fun v hv => ?_) fun _ hp => ih.imp fun _ hl => ?_
    · exact fun s hs => ⟨⟨hs.1.congr rfl rfl rfl rfl rfl rfl rfl, hs.2⟩, fun _ _ => hv⟩
    · rw [List.mem_cons, not_or]
      exact ⟨fun h => hp h.symm, hl⟩

theorem stuck_evalKernel (a b : Nat) : Holds (CustomStuck env k norm A i j) (evalKernel env a b) fun _ => True := by
  intro s hs
  obtain ⟨h1, h2⟩ := evalKernel_same env s a b
  have h3 := hs.1.core h1 (hs.1.att.ext (evalKernel_ext env s a b)) h2
  obtain ⟨h4, -⟩ := unev_evalKernel hij hfail a b s ⟨hs.1.att, hs.1.kernel, hs.2.2⟩
  have hp : (evalKernel env a b s).2.populated = false ∧ (evalKernel env a b s).2.isNormed = false ∧
      (evalKernel env a b s).2.isCentered = false := by
    obtain ⟨_, _, _, _, _, h⟩ := h1
    rw [h]
    exact hs.2.1
  exact ⟨⟨h3, hp, h4.2.2⟩, fun _ _ => trivial⟩

variable (env k A) in
/-- what `populateFully` keeps -/
def StuckCore (i j : Nat) (s : KMState K X V) : Prop :=
  Unevaluated env k A i j s ∧ s.populated = false ∧ s.isNormed = false ∧ s.isCentered = false

theorem unev_populateUpper (hj : j < A.nrows) :
    Holds (StuckCore env k A i j) (populateUpper env true) fun _ => True := by
  rintro s ⟨hs, hp⟩
  refine ⟨?_, fun _ _ => trivial⟩
  show StuckCore _ _ _ _ _ _
  unfold populateUpper
  rw [get_bind_run, hp.1]
  rcases hf : s.fullKm with _ | f
  · let f0 : Full V := ⟨.dense, fun _ _ => env.ops.nan⟩
    let s0 : KMState K X V := { s with fullKm := some f0 }
    show StuckCore env k A i j (((getAttr fun s => s.shape) >>= _ : PyM (KMState K X V) Unit) s).2
    rw [bind_ok (getAttr_run_some (fun s : KMState K X V => s.shape) s _ hs.1.shape), modify_bind_run]
    have hs0 : Unevaluated env k A i j s0 := ⟨hs.1.congr rfl rfl rfl rfl rfl rfl rfl, hs.2⟩
    obtain ⟨h1, h2⟩ := unev_fillCells hij hfail (upperPairs A.nrows A.nrows) s0 hs0
    obtain ⟨r, s1, f1, hr, _, hsame, _⟩ := fillCells_any (env := env) (a := ⟨A, none⟩)
      (upperPairs A.nrows A.nrows) (upperPairs_nodup _ _) (s := s0) (f := f0) hs0.1 rfl
    show StuckCore env k A i j ((catchAll .runtimeError (fillCells env (upperPairs A.nrows A.nrows)) >>= _ : PyM (KMState K X V) Unit) s0).2
    rw [hr] at h1 h2
    rcases r with e | ⟨⟩
    · have e1 : catchAll .runtimeError (fillCells env (upperPairs A.nrows A.nrows)) s0 = (.error .runtimeError, s1) := by
        rw [catchAll_run, hr]
      rw [bind_error e1]
      refine ⟨h1, ?_⟩
      obtain ⟨_, _, _, _, _, rfl⟩ := hsame
      exact hp
    · exact absurd (mem_upperPairs.2 ⟨by simp only; omega, hj, hij⟩) (h2 () rfl)
  · exact ⟨hs, hp⟩

omit hij hfail in
theorem unev_populateLower :
    Holds (StuckCore env k A i j) (populateLower env true) fun _ => True := by
  refine Holds.get.bind fun s _ => Holds.when <| Holds.bind (R := fun _ => True) (Holds.catchAll ?_) fun _ _ =>
    Holds.modify fun s hs => ⟨⟨hs.1.1.congr rfl rfl rfl rfl rfl rfl rfl, hs.1.2⟩, hs.2⟩
  refine Holds.bind (R := fun sh => sh = (A.nrows, A.nrows)) (Holds.getAttr fun s hs x hx => ?_) fun sh hsh =>
    Holds.bind (R := fun b => b = false) (Holds.getAttr fun s hs x hx => ?_) fun b hb => ?_
  · rw [hs.1.1.shape] at hx; injection hx with hx; exact hx.symm
  · rw [hs.1.1.two] at hx; injection hx with hx; exact hx.symm
  · subst hsh hb
    simp only [Bool.not_false, Bool.true_and, beq_self_eq_true, if_true]
    exact Holds.modify fun s hs => ⟨⟨hs.1.1.congr rfl rfl rfl rfl rfl rfl rfl, hs.1.2⟩, hs.2⟩

theorem unev_populateFully (hj : j < A.nrows) :
    Holds (StuckCore env k A i j) (populateFully env true true) fun _ => True := by
  refine (unev_populateUpper hij hfail hj).bind fun _ _ => unev_populateLower.bind fun _ _ => Holds.bind (R := fun _ => True) ?_ fun _ _ =>
    Holds.bind (R := fun _ => True) ?_ fun _ _ => Holds.get.bind fun _ _ => Holds.raiseIf
  · exact Holds.bind (Holds.getAttr (R := fun _ => True) fun _ _ _ _ => trivial) fun f _ => Holds.when <|
      Holds.modify fun s hs => ⟨⟨hs.1.1.congr rfl rfl rfl rfl rfl rfl rfl, hs.1.2⟩, hs.2⟩
  · exact Holds.bind (Holds.getAttr (R := fun _ => True) fun _ _ _ _ => trivial) fun f _ =>
      Holds.bind (Holds.getAttr (R := fun _ => True) fun _ _ _ _ => trivial) fun _ _ => Holds.pure trivial

variable (hb : env.fmtRaises k = true) (hn : env.ops.FindsNan) (hj : j < A.nrows)
include hb hn hj

/-- the matrix can never be completed -/
theorem stuck_ensurePopulated : Holds (CustomStuck env k norm A i j) (ensurePopulated env) fun _ => False := by
  intro s hs
  unfold ensurePopulated
  rw [get_bind_run, hs.2.1.1]
  obtain ⟨h1, h2⟩ := custom_populateFully env k A hb hn hs.1 hs.2.1.1
  obtain ⟨⟨h3, h4⟩, -⟩ := unev_populateFully hij hfail hj s ⟨⟨hs.1.att, hs.1.kernel, hs.2.2⟩, hs.2.1⟩
  refine ⟨⟨h1, h4, h3.2.2⟩, fun x hx => ?_⟩
  have := h2 hx
  rw [h4.1] at this
  cases this

theorem stuck_after {f : Unit → PyM (KMState K X V) β} {R : β → Prop} :
    Holds (CustomStuck env k norm A i j) (ensurePopulated env >>= f) R :=
  (stuck_ensurePopulated hij hfail hb hn hj).bind fun _ h => h.elim

theorem stuck_full : Holds (CustomStuck env k norm A i j) (full env) fun _ => False :=
  Holds.get.bind fun _ _ => Holds.raiseIf.bind fun _ _ => stuck_after hij hfail hb hn hj

theorem stuck_normalize (m : String) : Holds (CustomStuck env k norm A i j) (normalize env m) fun _ => False :=
  stuck_after hij hfail hb hn hj

theorem stuck_normedKmVal : Holds (CustomStuck env k norm A i j) (normedKmVal env) fun _ => False := by
  refine Holds.get.bind fun s hs => ?_
  rw [hs.2.1.2.1]
  exact (stuck_normalize hij hfail hb hn hj _).bind fun _ h => h.elim

theorem stuck_fullSparse (hk : norm = true) : Holds (CustomStuck env k norm A i j) (fullSparse env) fun _ => False := by
  refine Holds.get.bind fun s hs => ?_
  rw [hs.1.keep, hk]
  subst hk
  exact stuck_normedKmVal hij hfail hb hn hj

omit hij hfail hb hn hj in
theorem stuck_two : Holds (CustomStuck env k norm A i j) (getAttr fun s => s.twoSamples) fun b => b = false :=
  Holds.getAttr fun s hs x hx => by rw [hs.1.att.two] at hx; injection hx with hx; exact hx.symm

theorem stuck_center : Holds (CustomStuck env k norm A i j) (center env) fun _ => False :=
  stuck_two.bind fun _ _ => Holds.raiseIf.bind fun _ _ => stuck_after hij hfail hb hn hj

theorem stuck_centered : Holds (CustomStuck env k norm A i j) (centered env) fun _ => False := by
  refine stuck_two.bind fun _ _ => Holds.raiseIf.bind fun _ _ => Holds.get.bind fun s hs => ?_
  rw [hs.2.1.2.2]
  exact (stuck_center hij hfail hb hn hj).bind fun _ h => h.elim

theorem stuck_frobNormVal : Holds (CustomStuck env k norm A i j) (frobNormVal env) fun _ => False :=
  stuck_after hij hfail hb hn hj

omit hb hn hj in
theorem stuck_diagonal : Holds (CustomStuck env k norm A i j) (diagonal env) fun _ => True :=
  stuck_two.bind fun _ _ => Holds.ite Holds.throw (Holds.bind (R := fun _ => True) (Holds.getAttr fun _ _ _ _ => trivial) fun _ _ =>
    Holds.mapEach fun _ => stuck_evalKernel hij hfail _ _)

omit hij hfail hb hn hj in
theorem stuck_size : Holds (CustomStuck env k norm A i j) size fun _ => True := by
  refine stuck_two.bind fun b _ => Holds.get.bind fun s _ => ?_
  cases b <;> rcases s.numSamples with _ | _ | _ <;> first | exact Holds.throw | exact Holds.pure trivial

omit hb hn hj in
theorem stuck_getItem_pair {s : KMState K X V} (h : CustomStuck env k norm A i j s) (S T : Idx)
    (hw : ¬ WholeKey A.nrows A.nrows (.pair S T)) : CustomStuck env k norm A i j (getItem env (.pair S T) s).2 := by
  rw [getItem_run_pair h.1.att.shape]
  rcases h1 : getIndicesInSample (some ((⟨A, none⟩ : Attachment X).nrows, (⟨A, none⟩ : Attachment X).ncols)) S false with e | one
  · exact h
  rcases h2 : getIndicesInSample (some ((⟨A, none⟩ : Attachment X).nrows, (⟨A, none⟩ : Attachment X).ncols)) T true with e | two
  · exact h
  simp only
  rcases hb : (one.2 && two.2)
  · refine (Holds.bind (Q := CustomStuck env k norm A i j) (R' := fun _ => True) (Holds.mapEach fun _ => stuck_evalKernel hij hfail _ _)
      (fun _ _ => Holds.pure trivial) s h).1
  · exact absurd (whole_of_flags h1 h2 hb) hw

omit hb hn hj in
theorem stuck_getItem {s : KMState K X V} (h : CustomStuck env k norm A i j s) (key : Key)
    (hw : ¬ WholeKey A.nrows A.nrows key) : CustomStuck env k norm A i j (getItem env key s).2 := by
  cases key with
  | pair S T => exact stuck_getItem_pair hij hfail h S T hw
  | other => exact h
  | linear q =>
    rw [getItem_linear h.1.att.shape]
    split
    · exact h
    · rename_i hk
      refine stuck_getItem_pair hij hfail h _ _ ?_
      have hpos : 0 < A.nrows := by
        by_contra hc
        have h0 : A.nrows = 0 := by omega
        refine hk ?_
        simp only [Attachment.nrows, Attachment.ncols, h0]
        simp
        omega
      rintro ⟨w1, w2⟩
      have e1 := w1 0 hpos
      have e2 := w1 (A.nrows - 1) (by omega)
      simp only [IndexSpec.Selects] at e1 e2
      have : A.nrows = 1 := by omega
      exact hw ⟨this, this⟩

theorem CustomStuck.exec {s : KMState K X V} (h : CustomStuck env k norm A i j s) (op : KMOp X) (ha : op.isAttach = false)
    (hd : ¬ op.MayGoSparse norm A.nrows A.nrows) : CustomStuck env k norm A i j (exec env op s).2 := by
  have run : ∀ {α : Type} {m : PyM (KMState K X V) α} (f : α → KMOut V),
      CustomStuck env k norm A i j (m s).2 → CustomStuck env k norm A i j ((m >>= fun x => pure (f x)) s).2 := by
    intro α m f hm
    rw [bind_run]
    rcases hr : m s with ⟨e | x, s'⟩ <;> rw [hr] at hm <;> exact hm
  cases op with
  | attach => simp [KMOp.isAttach] at ha
  | setAttr n v => exact ⟨⟨h.1.att.congr rfl rfl rfl rfl rfl rfl rfl, h.1.kernel, h.1.keep, h.1.store, h.1.normed, h.1.centered, h.1.frob⟩, h.2⟩
  | getAttr n d => exact h
  | attributes => exact h
  | numSamples => exact h
  | shape => rw [exec_shape_run]; exact h
  | size => exact run _ (stuck_size s h).1
  | full => exact run _ (stuck_full hij hfail hb hn hj s h).1
  | fullSparse => exact run _ (stuck_fullSparse hij hfail hb hn hj (by simpa [KMOp.MayGoSparse] using hd) s h).1
  | center => exact run (fun _ => .none) (stuck_center hij hfail hb hn hj s h).1
  | centered => exact run _ (stuck_centered hij hfail hb hn hj s h).1
  | normalize m => exact run (fun _ => .none) (stuck_normalize hij hfail hb hn hj m s h).1
  | normedKm => exact run _ (stuck_normedKmVal hij hfail hb hn hj s h).1
  | frobNorm => exact run _ (stuck_frobNormVal hij hfail hb hn hj s h).1
  | diagonal => exact run _ (stuck_diagonal hij hfail s h).1
  | getItem key => exact run _ (stuck_getItem hij hfail h key hd)

theorem Since.customStuck {s : KMState K X V} (h : SinceDense env k norm ⟨A, none⟩ s) : CustomStuck env k norm A i j s := by
  induction h with
  | attached hr ha h =>
    have hs := Since.customOk hb hn (Since.attached (P := fun op => ¬ op.MayGoSparse norm A.nrows A.nrows) hr ha h)
    refine ⟨hs, ?_⟩
    rw [exec_attach_ok ha h]
    exact ⟨⟨rfl, rfl, rfl⟩, rfl⟩
  | call op _ ha hd ih => exact ih.exec hij hfail hb hn hj op ha hd

end

end KMState
end KMethods
