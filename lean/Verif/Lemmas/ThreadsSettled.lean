import Verif.Lemmas.ThreadsOps
import Verif.Lemmas.KMExec
import Verif.Lemmas.FaultFreeOn
/-!
# Threads that share a kernel matrix computed before they were started
-/
namespace KMethods
namespace Shared
variable {K X V : Type}
open Prog Rely KMState IndexSpec

variable {env : Env K X V} {a : Attachment X} {k : K} {p0 : Nat × Nat} {keep : Bool} {r0 : Nat}

/-- `_normed_km` is right -/
def NormedRight (env : Env K X V) (a : Attachment X) (k : K) (t : Shared K X V) : Prop :=
  ∃ N, t.km.normedKm = some (.dense, N) ∧ a.normed (env.kval k) env.ops "cosine" = .ok N

/-- `_centered` is right -/
def CenteredRight (env : Env K X V) (a : Attachment X) (k : K) (t : Shared K X V) : Prop :=
  ∃ C, t.km.centeredKm = some (.dense, C) ∧ env.ops.center (a.gram (env.kval k)) = .ok C

/-- the whole matrix is there, in dense format, and derived results are right -/
structure Settled (env : Env K X V) (a : Attachment X) (k : K) (keep : Bool) (r0 : Nat) (t : Shared K X V) : Prop where
  keep : t.km.keepNormed = keep
  pop : t.km.populated = true
  low : t.km.lowerFilled = true
  ref : t.ref = some r0
  fmt : (t.heap r0).fmt = .dense
  cells : ∀ i < a.nrows, ∀ j < a.ncols, (t.heap r0).cell i j = a.entry (env.kval k) i j
  normed : t.km.isNormed = true → NormedRight env a k t
  centered : t.km.isCentered = true → CenteredRight env a k t
  frob : ∀ v, t.km.frobNorm = some v → env.ops.frob (a.gram (env.kval k)) = .ok v

/-- and right results stay right -/
abbrev settled (env : Env K X V) (a : Attachment X) (k : K) (keep : Bool) (r0 : Nat) : Extra K X V :=
  ⟨Settled env a k keep r0, fun A => A = NormedRight env a k ∨ A = CenteredRight env a k⟩

theorem unaffected_settled : Unaffected (settled env a k keep r0) := by
  refine ⟨fun _ _ _ _ _ h => ⟨h.keep, h.pop, h.low, h.ref, h.fmt, h.cells, h.normed, h.centered, h.frob⟩, ?_⟩
  rintro A (rfl | rfl) _ _ _ _ _ h <;> exact h

/-- a step after which neither result is different, or the new one is right -/
theorem kept_of {t t' : Shared K X V} (h1 : NormedRight env a k t → NormedRight env a k t') (h2 : CenteredRight env a k t → CenteredRight env a k t') :
    ∀ A, (settled env a k keep r0).kept A → A t → A t' := by
  rintro A (rfl | rfl)
  · exact h1
  · exact h2

local notation "ρs" => rely env a k p0 (settled env a k keep r0)

theorem tri_rd {J : Extra K X V} {α : Type} {f : KMState K X V → α} {x : α} {P : Nat → Shared K X V → Prop} {E : PyErr → Nat → Shared K X V → Prop}
    (hP : Stable (rely env a k p0 J) P) (hx : ∀ t, (rely env a k p0 J).Inv t → f t.km = x) :
    (rely env a k p0 J).Tri P (rd f) (fun v b t => P b t ∧ v = x) E :=
  (tri_read hP _).mono (fun _ _ h => h) (fun _ _ _ h => ⟨h.1, h.2.2.trans (hx _ h.2.1)⟩) fun _ _ _ h => h

theorem tri_loadS {E : PyErr → Nat → Shared K X V → Prop} {P : Nat → Shared K X V → Prop} (hP : Stable ρs P) :
    (ρs).Tri P load (fun r b t => P b t ∧ r = r0) E :=
  tri_look fun b s0 s hp hr hi => ⟨r0, by simp only [hi.2.2.ref], hP _ _ _ hp hr, rfl⟩

theorem tri_fullMatS {E : PyErr → Nat → Shared K X V → Prop} {P : Nat → Shared K X V → Prop} (hP : Stable ρs P) :
    (ρs).Tri P fullMatP (fun A b t => P b t ∧ A = (.dense, a.gram (env.kval k))) E := by
  refine (tri_loadS hP).bind fun r => Tri.given ?_
  rintro rfl
  refine (tri_attr hP (x := (a.nrows, a.ncols)) fun t ht => ht.1.shape).bind fun sh => Tri.given ?_
  rintro rfl
  refine (tri_read hP _).mono (fun _ _ h => h) ?_ fun _ _ _ h => h
  rintro A b t ⟨h1, h2, rfl⟩
  refine ⟨h1, ?_⟩
  rw [h2.2.2.fmt]
  congr 1
  exact KMState.ofCells_congr fun i hi j hj => h2.2.2.cells i hi j hj

theorem tri_warnS {E : PyErr → Nat → Shared K X V → Prop} {P : Nat → Shared K X V → Prop} (hP : Stable ρs P) {M : Mat V}
    (hM : env.fmtRaises k = true → env.ops.nonFinite M = false) : (ρs).Tri P (warnNonFiniteP env M) (fun _ => P) E := by
  refine (tri_rd hP (x := k) fun t ht => ht.2.1).bind fun k' => Tri.given ?_
  rintro rfl
  refine tri_raiseIf (fun h => ?_) fun _ _ _ h => h
  rw [Bool.and_eq_true] at h
  rw [hM h.1] at h
  simp at h

theorem tri_ensureS {E : PyErr → Nat → Shared K X V → Prop} {P : Nat → Shared K X V → Prop} (hP : Stable ρs P) :
    (ρs).Tri P (ensurePopulatedP env) (fun _ => P) E := by
  refine (tri_rd hP (x := true) fun t ht => ht.2.2.pop).bind fun pop => Tri.given ?_
  rintro rfl
  exact tri_when (by simp) fun _ _ _ h => h

theorem tri_populateFullyS (hq : Quiet env k a) {E : PyErr → Nat → Shared K X V → Prop} {P : Nat → Shared K X V → Prop} (hP : Stable ρs P) (d l : Bool) :
    (ρs).Tri P (populateFullyP env d l) (fun _ => P) E := by
  refine Tri.bind (Q := fun _ => P) ?_ fun _ => Tri.bind (Q := fun _ => P) ?_ fun _ => Tri.bind (Q := fun _ => P) ?_ fun _ =>
    (tri_fullMatS hP).bind fun A => Tri.given ?_
  · refine (tri_rd hP (x := true) fun t ht => ht.2.2.pop).bind fun pop => Tri.given ?_
    rintro rfl
    exact tri_pure fun _ _ h => h
  · refine tri_when (fun _ => ?_) fun _ _ _ h => h
    refine (tri_rd hP (x := true) fun t ht => ht.2.2.low).bind fun low => Tri.given ?_
    rintro rfl
    exact tri_when (by simp) fun _ _ _ h => h
  · refine (tri_loadS hP).bind fun r => Tri.given ?_
    rintro rfl
    refine (tri_read hP _).bind fun sp => ?_
    refine Tri.mono (P := fun b t => P b t ∧ sp = false) (Tri.given ?_) ?_ (fun _ _ _ h => h) fun _ _ _ h => h
    · rintro rfl
      exact tri_when (by simp) fun _ _ _ h => h
    · rintro b t ⟨h1, h2, rfl⟩
      exact ⟨h1, by rw [h2.2.2.fmt]; rfl⟩
  · rintro rfl
    exact tri_warnS hP fun h => (hq h).1

section nofaults
variable (hf : NoFaultsOn env k a)
include hf

theorem no_fault : ¬ HasFault env a k := fun ⟨t, x, y, hx, hy, h⟩ => by rw [hf t x y hx hy] at h; simp at h

theorem tri_evalS {i j : Nat} (hi : i < a.nrows) (hj : j < a.ncols) {E : PyErr → Nat → Shared K X V → Prop} :
    (ρs).Tri (Allow p0) (evalKernelP env i j) (fun v b t => Allow p0 b t ∧ v = a.entry (env.kval k) i j) E :=
  (tri_evalKernel unaffected_settled hi hj).mono (fun _ _ h => h) (fun _ _ _ h => h) fun _ _ _ h => (no_fault hf h.2.2).elim

theorem tri_privateDiagS {P : Nat → Shared K X V → Prop} (hP : Stable ρs P) (hP' : ∀ b (t : Shared K X V) cl, P b t → P b { t with km := { t.km with clock := cl } })
    {x : Arr2 X} (hx : ∀ i < x.nrows, a.IsRow (x.row i)) (l : List Nat) (hl : ∀ i ∈ l, i < x.nrows) (q : KMState K X V)
    (hq : AttachedTo env ⟨x, none⟩ q) (hk : q.kernel = k) {E : PyErr → Nat → Shared K X V → Prop} :
    (ρs).Tri P (privateDiagP env l q) (fun vs b t => P b t ∧ vs = l.map fun i => env.kval k (x.row i) (x.row i)) E := by
  induction l generalizing q with
  | nil => exact tri_pure fun _ _ h => ⟨h, rfl⟩
  | cons i l ih =>
    refine Tri.bind (Q := fun r b t => P b t ∧ r.1 = env.kval k (x.row i) (x.row i) ∧ AttachedTo env ⟨x, none⟩ r.2 ∧ r.2.kernel = k)
      (tri_atomic' fun b s0 s hp hr hi => ?_) fun r => Tri.given fun hr => ?_
    · have hp := hP _ _ _ hp hr
      have hon : OnRows k a.IsRow { q with clock := s.km.clock } := by
        refine ⟨hk, fun A hA => ?_, fun A hA => ?_⟩
        · have : some A = some x := hA.symm.trans hq.sample
          simp only [Option.some.injEq] at this
          subst this
          exact hx
        · have : some A = some x := hA.symm.trans hq.sampleTwo
          simp only [Option.some.injEq] at this
          subst this
          exact hx
      have e := (agree_evalKernel hf i i _ hon).1
      obtain ⟨s', h1, h2, h3, h4⟩ := evalKernel_ff (noFaults_faultless env) (a := ⟨x, none⟩) (s := { q with clock := s.km.clock })
        (⟨hq.sample, hq.sampleTwo, hq.shape, hq.two, hq.num, hq.sound⟩ : AttachedTo env.faultless ⟨x, none⟩ { q with clock := s.km.clock }) (i := i) (j := i) (hl i (by simp)) (hl i (by simp))
      refine ⟨.ok (env.kval k (x.row i) (x.row i), s'), { s with km := { s.km with clock := s'.clock } }, ?_,
        ⟨hi.1.congr rfl rfl rfl rfl rfl rfl rfl, hi.2.1, unaffected_settled.1 _ _ _ _ _ hi.2.2⟩, ⟨fun _ h => h, id, id, id, id, id, id, fun A hA => unaffected_settled.2 A hA _ _ _ _ _⟩, b, le_rfl, hP' _ _ _ hp, rfl, ⟨h2.sample, h2.sampleTwo, h2.shape, h2.two, h2.num, h2.sound⟩, ?_⟩
      · unfold privateEval
        rw [e, h1]
        simp only [Except.map, Prod.mk.injEq, and_true]
        show Except.ok (env.kval q.kernel (x.row (min i i)) (x.row (max i i)), s') = _
        rw [hk, min_self, max_self]
      · obtain ⟨_, _, _, _, _, rfl⟩ := h3
        exact hk
    · refine (ih (fun j hj => hl j (by simp [hj])) r.2 hr.2.1 hr.2.2).bind fun vs => tri_pure ?_
      rintro b t ⟨h1, rfl⟩
      exact ⟨h1, by rw [hr.1]; rfl⟩

theorem tri_freshDiagonalS {P : Nat → Shared K X V → Prop} (hP : Stable ρs P) (hP' : ∀ b (t : Shared K X V) cl, P b t → P b { t with km := { t.km with clock := cl } })
    (f : KMState K X V → Option (Arr2 X)) {x : Arr2 X} (hx : ∀ t, (ρs).Inv t → f t.km = some x)
    (hr : ∀ i < x.nrows, a.IsRow (x.row i)) {E : PyErr → Nat → Shared K X V → Prop} :
    (ρs).Tri P (freshDiagonalP env f) (fun vs b t => P b t ∧ vs = x.selfs (env.kval k)) E := by
  refine (tri_attr hP hx).bind fun x' => Tri.given ?_
  rintro rfl
  refine (tri_rd hP (x := k) fun t ht => ht.2.1).bind fun k' => Tri.given ?_
  rintro rfl
  exact tri_privateDiagS hf hP hP' hr _ (fun i hi => List.mem_range.1 hi) _ (attachedTo_freshOn env _ _ _) rfl

omit hf in
theorem rows_ok : (∀ i < a.one.nrows, a.IsRow (a.one.row i)) ∧ ∀ i < (a.two.getD a.one).nrows, a.IsRow ((a.two.getD a.one).row i) := by
  refine ⟨fun i hi => Or.inl ⟨i, hi, rfl⟩, ?_⟩
  rcases h : a.two with _ | y
  · exact fun i hi => Or.inl ⟨i, hi, rfl⟩
  · exact fun i hi => Or.inr ⟨y, i, h, hi, rfl⟩

/-- errors described by a condition, leaving the budget in order -/
theorem tri_computeNormedS (m : String) : (ρs).Tri (Allow p0) (computeNormedP env m)
    (fun A b t => Allow p0 b t ∧ A.1 = .dense ∧ a.normed (env.kval k) env.ops m = .ok A.2)
    (Err p0 fun e => a.normed (env.kval k) env.ops m = .error e) := by
  refine (tri_attr stable_allow (x := a.two.isSome) fun t ht => ht.1.two).bind fun tw => Tri.given ?_
  rintro rfl
  refine tri_ite (fun h => ?_) fun h => ?_
  · have h2 : a.two = none := by
      rcases ha : a.two with _ | y
      · rfl
      · rw [ha] at h; simp at h
    have hN : a.normed (env.kval k) env.ops m = env.ops.normalize (a.gram (env.kval k)) m := by
      unfold Attachment.normed Attachment.normedOf; rw [h2]
    rw [hN]
    refine (tri_fullMatS stable_allow).bind fun A => Tri.given ?_
    rintro rfl
    exact (tri_lift (Q := fun N b t => Allow p0 b t ∧ env.ops.normalize (a.gram (env.kval k)) m = .ok N) (fun N h b s hp => ⟨hp, h⟩)
      fun e h b s hp => ⟨hp, h⟩).bind fun N => tri_pure fun b s h => ⟨h.1, rfl, h.2⟩
  · obtain ⟨y, hy⟩ : ∃ y, a.two = some y := by
      rcases ha : a.two with _ | y
      · rw [ha] at h; simp at h
      · exact ⟨y, rfl⟩
    have hN : a.normed (env.kval k) env.ops m = env.ops.normalize2 (a.gram (env.kval k)) (a.one.selfs (env.kval k)) (y.selfs (env.kval k)) := by
      unfold Attachment.normed Attachment.normedOf; rw [hy]
    rw [hN]
    refine (tri_freshDiagonalS hf stable_allow (fun _ _ _ h => h) _ (fun t ht => ht.1.sample) rows_ok.1).bind fun dx => Tri.given ?_
    rintro rfl
    refine (tri_freshDiagonalS hf stable_allow (fun _ _ _ h => h) _ (fun t ht => ht.1.sampleTwo) rows_ok.2).bind fun dy => Tri.given ?_
    rintro rfl
    rw [hy]
    refine (tri_fullMatS stable_allow).bind fun A => Tri.given ?_
    rintro rfl
    exact (tri_lift (Q := fun N b t => Allow p0 b t ∧ env.ops.normalize2 (a.gram (env.kval k)) (a.one.selfs (env.kval k)) (y.selfs (env.kval k)) = .ok N)
      (fun N h b s hp => ⟨hp, h⟩) fun e h b s hp => ⟨hp, h⟩).bind fun N => tri_pure fun b s h => ⟨h.1, rfl, h.2⟩

/-- `_normed_km` is there for good -/
abbrev DoneN (p0 : Nat × Nat) (b : Nat) (t : Shared K X V) : Prop := Allow p0 b t ∧ t.km.isNormed = true
omit hf in
theorem stable_doneN {J : Extra K X V} : Stable (rely env a k p0 J) (DoneN p0) := stable_and stable_allow fun _ _ _ h hr => hr.normed h

omit hf in
theorem tri_getNormedS {E : PyErr → Nat → Shared K X V → Prop} : (ρs).Tri (DoneN p0) (attr (·.normedKm))
    (fun A b t => DoneN p0 b t ∧ A.1 = .dense ∧ a.normed (env.kval k) env.ops "cosine" = .ok A.2) E := by
  refine tri_look fun b s0 s hp hr hi => ?_
  have hp := stable_doneN _ _ _ hp hr
  obtain ⟨N, hN, hN'⟩ := hi.2.2.normed hp.2
  exact ⟨(.dense, N), by unfold onKM; rw [PyM.getAttr_run, hN], hp, rfl, hN'⟩

theorem tri_normalizeS (hops : OpsOk env.ops) (hqn : QuietNormed env k a) (m : String) :
    (ρs).Tri (Allow p0) (normalizeP env m) (fun _ b t => DoneN p0 b t ∧ ∃ N, a.normed (env.kval k) env.ops "cosine" = .ok N)
      (Err p0 fun e => a.normed (env.kval k) env.ops m = .error e) := by
  refine (tri_ensureS stable_allow).bind fun _ => (tri_read stable_allow _).bind fun isN => tri_when (fun _ => ?_) ?_
  swap
  · rintro h b t ⟨h1, h2, rfl⟩
    have h : t.km.isNormed = true := by simpa using h
    obtain ⟨N, _, hN⟩ := h2.2.2.normed h
    exact ⟨⟨h1, h⟩, N, hN⟩
  refine Tri.mono (P := Allow p0) ?_ (fun _ _ h => h.1) (fun _ _ _ h => h) fun _ _ _ h => h
  refine (tri_computeNormedS hf m).bind fun N => Tri.given fun hN => ?_
  have hc := Attachment.normed_cosine hops hN.2
  have hN1 : N = (.dense, N.2) := by rw [← hN.1]
  have hst : Stable ρs (fun b t => Allow p0 b t ∧ NormedRight env a k t) := stable_and stable_allow fun _ _ _ h hr => hr.kept _ (Or.inl rfl) h
  refine Tri.bind (Q := fun _ b t => Allow p0 b t ∧ NormedRight env a k t) ?_ fun _ =>
    Tri.bind (Q := fun _ => DoneN p0) ?_ fun _ => tri_getNormedS.bind fun A => Tri.given fun hA => ?_
  · exact tri_wr stable_allow (fun _ => ⟨rfl, rfl, rfl, rfl, rfl, rfl, rfl, rfl⟩)
      (fun t b hi hp => ⟨⟨hi.2.2.keep, hi.2.2.pop, hi.2.2.low, hi.2.2.ref, hi.2.2.fmt, hi.2.2.cells, fun _ => ⟨N.2, congrArg some hN1, hc⟩, hi.2.2.centered, hi.2.2.frob⟩,
        ⟨fun _ h => h, id, id, fun _ => rfl, id, id, id, kept_of (fun _ => ⟨N.2, congrArg some hN1, hc⟩) id⟩⟩)
      fun b t _ h => ⟨h, N.2, congrArg some hN1, hc⟩
  · exact tri_wr hst (fun _ => ⟨rfl, rfl, rfl, rfl, rfl, rfl, rfl, rfl⟩)
      (fun t b hi hp => ⟨⟨hi.2.2.keep, hi.2.2.pop, hi.2.2.low, hi.2.2.ref, hi.2.2.fmt, hi.2.2.cells, fun _ => hp.2, hi.2.2.centered, hi.2.2.frob⟩,
        ⟨fun _ h => h, id, fun _ => rfl, id, id, id, id, kept_of id id⟩⟩)
      fun b t _ h => ⟨h.1, rfl⟩
  · exact (tri_warnS stable_doneN fun h => hqn h _ _ hA.2).mono (fun _ _ h => h) (fun _ _ _ h => ⟨h, A.2, hA.2⟩) fun _ _ _ h => h

theorem tri_normedKmValS (hops : OpsOk env.ops) (hqn : QuietNormed env k a) :
    (ρs).Tri (Allow p0) (normedKmValP env) (fun A b t => Allow p0 b t ∧ A.1 = .dense ∧ a.normed (env.kval k) env.ops "cosine" = .ok A.2)
      (Err p0 fun e => a.normed (env.kval k) env.ops "cosine" = .error e) := by
  refine (tri_read stable_allow _).bind fun isN => Tri.bind (Q := fun _ => DoneN p0) (tri_when (fun _ => ?_) ?_) fun _ => ?_
  · exact (tri_normalizeS hf hops hqn _).mono (fun _ _ h => h.1) (fun _ _ _ h => h.1) fun _ _ _ h => h
  · rintro h b t ⟨h1, h2, rfl⟩
    exact ⟨h1, by simpa using h⟩
  · exact tri_getNormedS.mono (fun _ _ h => h) (fun _ _ _ h => ⟨h.1.1, h.2⟩) fun _ _ _ h => h

theorem tri_fullS (hops : OpsOk env.ops) (hqn : QuietNormed env k a) : (ρs).Tri (Allow p0) (fullP env)
    (fun A b t => Allow p0 b t ∧ (if keep then a.normed (env.kval k) env.ops "cosine" else .ok (a.gram (env.kval k))) = .ok A.2 ∧ A.1 = .dense)
    (Err p0 fun e => (if keep then a.normed (env.kval k) env.ops "cosine" else .ok (a.gram (env.kval k))) = .error e) := by
  refine (tri_rd stable_allow (x := (false, keep)) fun t ht => by rw [ht.1.sample, ht.2.2.keep]; rfl).bind fun x => Tri.given ?_
  rintro rfl
  refine Tri.bind (Q := fun _ => Allow p0) (tri_pure fun _ _ h => h) fun _ => (tri_ensureS stable_allow).bind fun _ => ?_
  cases keep
  · refine (tri_fullMatS stable_allow).mono (fun _ _ h => h) ?_ fun _ _ _ h => h
    rintro A b t ⟨h1, rfl⟩
    exact ⟨h1, rfl, rfl⟩
  · exact (tri_normedKmValS hf hops hqn).mono (fun _ _ h => h) (fun _ _ _ h => ⟨h.1, h.2.2, h.2.1⟩) fun _ _ _ h => h

theorem tri_fullSparseS (hops : OpsOk env.ops) (hqn : QuietNormed env k a) (hq : Quiet env k a) : (ρs).Tri (Allow p0) (fullSparseP env)
    (fun A b t => Allow p0 b t ∧ (if keep then a.normed (env.kval k) env.ops "cosine" else .ok (a.gram (env.kval k))) = .ok A.2 ∧ A.1 = .dense)
    (Err p0 fun e => (if keep then a.normed (env.kval k) env.ops "cosine" else .ok (a.gram (env.kval k))) = .error e) := by
  refine (tri_rd (J := settled env a k keep r0) stable_allow (x := keep) fun t ht => ht.2.2.keep).bind fun x => Tri.given ?_
  rintro rfl
  cases x
  · refine Tri.bind (Q := fun _ => Allow p0) (tri_populateFullyS hq stable_allow false false) fun _ => (tri_fullMatS stable_allow).mono (fun _ _ h => h) ?_ fun _ _ _ h => h
    rintro A b t ⟨h1, rfl⟩
    exact ⟨h1, rfl, rfl⟩
  · exact (tri_normedKmValS hf hops hqn).mono (fun _ _ h => h) (fun _ _ _ h => ⟨h.1, h.2.2, h.2.1⟩) fun _ _ _ h => h

abbrev DoneC (p0 : Nat × Nat) (b : Nat) (t : Shared K X V) : Prop := Allow p0 b t ∧ t.km.isCentered = true
omit hf in
theorem stable_doneC {J : Extra K X V} : Stable (rely env a k p0 J) (DoneC p0) := stable_and stable_allow fun _ _ _ h hr => hr.centered h

omit hf in
theorem tri_centerS : (ρs).Tri (Allow p0) (centerP env)
    (fun _ b t => DoneC p0 b t ∧ a.two = none ∧ ∃ C, env.ops.center (a.gram (env.kval k)) = .ok C)
    (Err p0 fun e => (a.two.isSome = true ∧ e = .notImplemented) ∨ (a.two = none ∧ env.ops.center (a.gram (env.kval k)) = .error e)) := by
  refine (tri_attr stable_allow (x := a.two.isSome) fun t ht => ht.1.two).bind fun tw => Tri.given ?_
  rintro rfl
  refine Tri.bind (Q := fun _ b t => Allow p0 b t ∧ a.two = none) (tri_raiseIf (fun h _ _ hp => ⟨hp, Or.inl ⟨h, rfl⟩⟩) fun h _ _ hp => ⟨hp, by simpa using h⟩) fun _ =>
    Tri.given fun h2 => ?_
  refine (tri_rd (J := settled env a k keep r0) stable_allow (x := true) fun t ht => ht.2.2.pop).bind fun pop => Tri.given ?_
  rintro rfl
  refine Tri.bind (Q := fun _ => Allow p0) (tri_when (by simp) fun _ _ _ h => h) fun _ => (tri_fullMatS stable_allow).bind fun A => Tri.given ?_
  rintro rfl
  refine Tri.bind (Q := fun _ => Allow p0) (tri_pure fun _ _ h => h) fun _ => ?_
  refine (tri_lift (Q := fun C b t => Allow p0 b t ∧ env.ops.center (a.gram (env.kval k)) = .ok C) (fun C h b s hp => ⟨hp, h⟩)
      fun e h b s hp => ⟨hp, Or.inr ⟨h2, h⟩⟩).bind fun C => Tri.given fun hC => ?_
  have hst : Stable ρs (fun b t => Allow p0 b t ∧ CenteredRight env a k t) := stable_and stable_allow fun _ _ _ h hr => hr.kept _ (Or.inr rfl) h
  refine Tri.bind (Q := fun _ b t => Allow p0 b t ∧ CenteredRight env a k t) ?_ fun _ => ?_
  · exact tri_wr stable_allow (fun _ => ⟨rfl, rfl, rfl, rfl, rfl, rfl, rfl, rfl⟩)
      (fun t b hi hp => ⟨⟨hi.2.2.keep, hi.2.2.pop, hi.2.2.low, hi.2.2.ref, hi.2.2.fmt, hi.2.2.cells, hi.2.2.normed, fun _ => ⟨C, rfl, hC⟩, hi.2.2.frob⟩,
        ⟨fun _ h => h, id, id, id, id, fun _ => rfl, id, kept_of id fun _ => ⟨C, rfl, hC⟩⟩⟩)
      fun b t _ h => ⟨h, C, rfl, hC⟩
  · exact tri_wr hst (fun _ => ⟨rfl, rfl, rfl, rfl, rfl, rfl, rfl, rfl⟩)
      (fun t b hi hp => ⟨⟨hi.2.2.keep, hi.2.2.pop, hi.2.2.low, hi.2.2.ref, hi.2.2.fmt, hi.2.2.cells, hi.2.2.normed, fun _ => hp.2, hi.2.2.frob⟩,
        ⟨fun _ h => h, id, id, id, fun _ => rfl, id, id, kept_of id id⟩⟩)
      fun b t _ h => ⟨⟨h.1, rfl⟩, h2, C, hC⟩

omit hf in
theorem tri_centeredS : (ρs).Tri (Allow p0) (centeredP env)
    (fun A b t => Allow p0 b t ∧ a.two = none ∧ A.1 = .dense ∧ env.ops.center (a.gram (env.kval k)) = .ok A.2)
    (Err p0 fun e => (a.two.isSome = true ∧ e = .kmAccess) ∨ (a.two = none ∧ env.ops.center (a.gram (env.kval k)) = .error e)) := by
  refine (tri_attr stable_allow (x := a.two.isSome) fun t ht => ht.1.two).bind fun tw => Tri.given ?_
  rintro rfl
  refine Tri.bind (Q := fun _ b t => Allow p0 b t ∧ a.two = none) (tri_raiseIf (fun h _ _ hp => ⟨hp, Or.inl ⟨h, rfl⟩⟩) fun h _ _ hp => ⟨hp, by simpa using h⟩) fun _ =>
    Tri.given fun h2 => ?_
  refine (tri_read stable_allow _).bind fun isC => Tri.bind (Q := fun _ => DoneC p0) (tri_when (fun _ => ?_) ?_) fun _ => ?_
  · refine tri_centerS.mono (fun _ _ h => h.1) (fun _ _ _ h => h.1) ?_
    rintro e b t ⟨h1, ⟨h, _⟩ | h⟩
    · rw [h2] at h; simp at h
    · exact ⟨h1, Or.inr h⟩
  · rintro h b t ⟨h1, h3, rfl⟩
    exact ⟨h1, by simpa using h⟩
  · refine tri_look fun b s0 s hp hr hi => ?_
    have hp := stable_doneC _ _ _ hp hr
    obtain ⟨N, hN, hN'⟩ := hi.2.2.centered hp.2
    exact ⟨(.dense, N), by unfold onKM; rw [PyM.getAttr_run, hN], hp.1, h2, rfl, hN'⟩

omit hf in
theorem tri_frobNormS : (ρs).Tri (Allow p0) (frobNormP env) (fun v b t => Allow p0 b t ∧ env.ops.frob (a.gram (env.kval k)) = .ok v)
    (Err p0 fun e => env.ops.frob (a.gram (env.kval k)) = .error e) := by
  refine (tri_ensureS stable_allow).bind fun _ => (tri_read stable_allow _).bind fun missing => Tri.bind (Q := fun _ => ReadyF p0) (tri_when (fun _ => ?_) ?_) fun _ => ?_
  · refine Tri.mono (P := Allow p0) ?_ (fun _ _ h => h.1) (fun _ _ _ h => h) fun _ _ _ h => h
    refine (tri_fullMatS stable_allow).bind fun A => Tri.given ?_
    rintro rfl
    refine (tri_lift (Q := fun v b t => Allow p0 b t ∧ env.ops.frob (a.gram (env.kval k)) = .ok v) (fun v h b s hp => ⟨hp, h⟩)
      fun e h b s hp => ⟨hp, h⟩).bind fun v => Tri.given fun hv => ?_
    exact tri_wr stable_allow (fun _ => ⟨rfl, rfl, rfl, rfl, rfl, rfl, rfl, rfl⟩)
      (fun t b hi hp => ⟨⟨hi.2.2.keep, hi.2.2.pop, hi.2.2.low, hi.2.2.ref, hi.2.2.fmt, hi.2.2.cells, hi.2.2.normed, hi.2.2.centered,
        fun w hw => by injection hw with hw; rw [← hw]; exact hv⟩, ⟨fun _ h => h, id, id, id, id, id, fun _ => rfl, kept_of id id⟩⟩)
      fun b t _ h => ⟨h, rfl⟩
  · rintro rfl b t ⟨h1, h2, h3⟩
    refine ⟨h1, ?_⟩
    rcases hf : t.km.frobNorm with _ | v
    · have h3 : false = t.km.frobNorm.isNone := h3
      rw [hf] at h3; simp at h3
    · rfl
  · refine tri_look fun b s0 s hp hr hi => ?_
    have hp := stable_readyF _ _ _ hp hr
    obtain ⟨N, hN⟩ := Option.isSome_iff_exists.1 hp.2
    exact ⟨N, by unfold onKM; rw [PyM.getAttr_run, hN], hp.1, hi.2.2.frob N hN⟩

theorem tri_diagonalS : (ρs).Tri (Allow p0) (diagonalP env) (fun l b t => Allow p0 b t ∧ a.two = none ∧ l = a.one.selfs (env.kval k))
    (Err p0 fun e => a.two.isSome = true ∧ e = .kmAccess) := by
  refine (tri_attr stable_allow (x := a.two.isSome) fun t ht => ht.1.two).bind fun tw => Tri.given ?_
  rintro rfl
  refine tri_ite (fun h => tri_throw fun b s hp => ⟨hp, h, rfl⟩) fun h => ?_
  have h2 : a.two = none := by
    rcases ha : a.two with _ | y
    · rfl
    · rw [ha] at h; simp at h
  have hcols : a.ncols = a.nrows := by unfold Attachment.ncols Attachment.nrows; rw [h2]
  refine (tri_attr stable_allow (x := (a.nrows, a.ncols)) fun t ht => ht.1.shape).bind fun sh => Tri.given ?_
  rintro rfl
  refine Tri.mono (tri_mapEach (P := Allow p0) (fun i => a.entry (env.kval k) i i) fun i hi => ?_) (fun _ _ h => h) ?_ fun _ _ _ h => h
  · have hi := List.mem_range.1 hi
    exact tri_evalS hf hi (by rw [hcols]; exact hi)
  · rintro l b t ⟨h1, rfl⟩
    refine ⟨h1, h2, ?_⟩
    unfold Arr2.selfs Attachment.entry
    rw [h2]
    simp only [min_self, max_self]
    rfl

/-- the two index objects of a key -/
def keyRef (a : Attachment X) : Key → Except PyErr (Idx × Idx)
  | .linear n => (unravel n a.nrows a.ncols).map fun q => (Idx.int q.1, Idx.int q.2)
  | .pair S T => .ok (S, T)
  | .other => .error .kmAccess

/-- what `__getitem__` does when everything is there -/
def itemRef (env : Env K X V) (a : Attachment X) (k : K) (key : Key) : Except PyErr (Mat V) := do
  let q ← keyRef a key
  let one ← getIndicesInSample (some (a.nrows, a.ncols)) q.1 false
  let two ← getIndicesInSample (some (a.nrows, a.ncols)) q.2 true
  if one.2 && two.2 then .ok (a.gram (env.kval k)) else .ok (a.sub (env.kval k) one.1 two.1)

theorem tri_getItemS (hq : Quiet env k a) (key : Key) : (ρs).Tri (Allow p0) (getItemP env key)
    (fun A b t => Allow p0 b t ∧ A.1 = .dense ∧ itemRef env a k key = .ok A.2) (Err p0 fun e => itemRef env a k key = .error e) := by
  have hdef : itemRef env a k key = keyRef a key >>= fun q => getIndicesInSample (some (a.nrows, a.ncols)) q.1 false >>= fun one =>
      getIndicesInSample (some (a.nrows, a.ncols)) q.2 true >>= fun two =>
        if one.2 && two.2 then .ok (a.gram (env.kval k)) else .ok (a.sub (env.kval k) one.1 two.1) := rfl
  rw [hdef]
  generalize hkp : keyRef a key = kp
  refine Tri.bind (Q := fun q b t => Allow p0 b t ∧ kp = .ok q) ?_ fun q => Tri.given fun hkq => ?_
  · refine tri_atomic' fun b s0 s hp hr hi => ?_
    have hk : keyPair key s.km = (kp, s.km) := by
      rw [← hkp]
      rcases key with n | ⟨S, T⟩ | _
      · show (PyM.getAttr (fun s : KMState K X V => s.shape) >>= _) _ = _
        rw [PyM.bind_ok (PyM.getAttr_run_some _ _ _ hi.1.shape)]
        simp only [keyRef]
        rcases KMState.unravel n a.nrows a.ncols with e | q <;> rfl
      · rfl
      · rfl
    refine ⟨kp, s, by unfold onKM; rw [hk], hi, (ρs).refl s, b, le_rfl, ?_⟩
    rcases kp with e | q
    · exact ⟨stable_allow _ _ _ hp hr, rfl⟩
    · exact ⟨stable_allow _ _ _ hp hr, rfl⟩
  rw [hkq]
  refine (tri_rd stable_allow (x := some (a.nrows, a.ncols)) fun t ht => ht.1.shape).bind fun sh => Tri.given ?_
  rintro rfl
  refine Tri.bind (Q := fun one b t => Allow p0 b t ∧ getIndicesInSample (some (a.nrows, a.ncols)) q.1 false = .ok one)
    (tri_lift (fun one h b s hp => ⟨hp, h⟩) fun e h b s hp => ⟨hp, by show (getIndicesInSample _ _ _ >>= _) = _; rw [h]; rfl⟩) fun one => Tri.given fun h1 => ?_
  refine Tri.bind (Q := fun two b t => Allow p0 b t ∧ getIndicesInSample (some (a.nrows, a.ncols)) q.2 true = .ok two)
    (tri_lift (fun one h b s hp => ⟨hp, h⟩) fun e h b s hp => ⟨hp, by show (getIndicesInSample _ _ _ >>= _) = _; rw [h1]; show (getIndicesInSample _ _ _ >>= _) = _; rw [h]; rfl⟩) fun two => Tri.given fun h2 => ?_
  have hres : (Except.ok q >>= fun q : Idx × Idx => getIndicesInSample (some (a.nrows, a.ncols)) q.1 false >>= fun one =>
      getIndicesInSample (some (a.nrows, a.ncols)) q.2 true >>= fun two =>
        if one.2 && two.2 then Except.ok (a.gram (env.kval k)) else .ok (a.sub (env.kval k) one.1 two.1)) =
      if one.2 && two.2 then Except.ok (a.gram (env.kval k)) else .ok (a.sub (env.kval k) one.1 two.1) := by
    show (getIndicesInSample _ _ _ >>= _) = _
    rw [h1]
    show (getIndicesInSample _ _ _ >>= _) = _
    rw [h2]
    rfl
  rw [hres]
  refine tri_ite (fun hb => ?_) fun hb => ?_
  · rw [if_pos hb]
    refine Tri.bind (Q := fun _ => Allow p0) (tri_populateFullyS hq stable_allow false true) fun _ => (tri_fullMatS stable_allow).mono (fun _ _ h => h) ?_ fun _ _ _ h => h
    rintro A b t ⟨h1, rfl⟩
    exact ⟨h1, rfl, rfl⟩
  · rw [if_neg hb]
    have i1 := isSelection_of h1
    have i2 := isSelection_of h2
    refine (tri_compute unaffected_settled (fun i hi => ((i1.2 i).1 hi).1) fun j hj => ((i2.2 j).1 hj).1).mono (fun _ _ h => h) ?_ fun _ _ _ h => (no_fault hf h.2.2).elim
    rintro A b t ⟨h1, rfl⟩
    exact ⟨h1, rfl, rfl⟩

omit hf in
theorem tri_quietS {α : Type} {m : PyM (KMState K X V) α} {E : PyErr → Prop} {Q : α → Prop}
    (hm : ∀ s, (m s).2 = s ∨ ∃ l, (m s).2 = { s with attrs := l })
    (hok : ∀ t, (ρs).Inv t → ∀ x, (m t.km).1 = .ok x → Q x) (her : ∀ t, (ρs).Inv t → ∀ e, (m t.km).1 = .error e → E e) :
    (ρs).Tri (Allow p0) (atomic (onKM m)) (fun x b t => Allow p0 b t ∧ Q x) (Err p0 E) := by
  refine tri_atomic' fun b s0 s hp hr hi => ?_
  refine ⟨(m s.km).1, { s with km := (m s.km).2 }, rfl, ?_⟩
  have hp := stable_allow _ _ _ hp hr
  have h1 := hok s hi
  have h2 := her s hi
  rcases hm s.km with h | ⟨l, h⟩ <;> rw [h]
  · refine ⟨hi, (ρs).refl s, b, le_rfl, ?_⟩
    rcases hr' : (m s.km).1 with e | v
    · exact ⟨hp, h2 e hr'⟩
    · exact ⟨hp, h1 v hr'⟩
  · refine ⟨⟨hi.1.congr rfl rfl rfl rfl rfl rfl rfl, hi.2.1, ⟨hi.2.2.keep, hi.2.2.pop, hi.2.2.low, hi.2.2.ref, hi.2.2.fmt, hi.2.2.cells, hi.2.2.normed, hi.2.2.centered, hi.2.2.frob⟩⟩,
      ⟨fun _ h => h, id, id, id, id, id, id, kept_of (fun h => h) fun h => h⟩, b, le_rfl, ?_⟩
    rcases hr' : (m s.km).1 with e | v
    · exact ⟨hp, h2 e hr'⟩
    · exact ⟨hp, h1 v hr'⟩

/-- the outcome of a call when everything is there -/
def outRef (env : Env K X V) (a : Attachment X) (k : K) (keep : Bool) : KMOp X → Except PyErr (KMOut V)
  | .setAttr _ _ => .ok .none
  | .numSamples => .ok (.num (match a.two with | none => .one a.one.nrows | some b => .two a.one.nrows b.nrows))
  | .shape => .ok (.shape a.nrows a.ncols)
  | .size => .ok (.nat (match a.two with | none => a.one.nrows ^ 2 | some b => a.one.nrows * b.nrows))
  | .full => (if keep then a.normed (env.kval k) env.ops "cosine" else .ok (a.gram (env.kval k))).map (.mat .dense)
  | .fullSparse => (if keep then a.normed (env.kval k) env.ops "cosine" else .ok (a.gram (env.kval k))).map (.mat .dense)
  | .center => if a.two.isSome then .error .notImplemented else (env.ops.center (a.gram (env.kval k))).map fun _ => .none
  | .centered => if a.two.isSome then .error .kmAccess else (env.ops.center (a.gram (env.kval k))).map (.mat .dense)
  | .normalize _ => (a.normed (env.kval k) env.ops "cosine").map fun _ => .none
  | .normedKm => (a.normed (env.kval k) env.ops "cosine").map (.mat .dense)
  | .frobNorm => (env.ops.frob (a.gram (env.kval k))).map .val
  | .diagonal => if a.two.isSome then .error .kmAccess else .ok (.vec (a.one.selfs (env.kval k)))
  | .getItem key => (itemRef env a k key).map (.mat .dense)
  | _ => .ok .none

omit hf in
theorem tri_thenS {α β : Type} {P : Nat → Shared K X V → Prop} {p : Prog (Shared K X V) α} {f : α → β} {Q : α → Nat → Shared K X V → Prop}
    {Q' : β → Nat → Shared K X V → Prop} {E E' : PyErr → Nat → Shared K X V → Prop} (h : (ρs).Tri P p Q E)
    (hQ : ∀ x b t, Q x b t → Q' (f x) b t) (hE : ∀ e b t, E e b t → E' e b t) : (ρs).Tri P (p >>= fun x => pure (f x)) Q' E' :=
  (h.mono (fun _ _ h => h) (fun _ _ _ h => h) hE).bind fun x => tri_pure fun b t h => hQ x b t h

omit hf in
theorem size_inv (t : Shared K X V) (ht : (ρs).Inv t) : (KMState.size t.km).1 = .ok (match a.two with | none => a.one.nrows ^ 2 | some b => a.one.nrows * b.nrows) := by
  show ((PyM.getAttr (fun s : KMState K X V => s.twoSamples) >>= _) t.km).1 = _
  rw [PyM.bind_ok (PyM.getAttr_run_some _ _ _ ht.1.two), PyM.get_bind_run, ht.1.num]
  rcases a.two with _ | y <;> rfl

theorem tri_execS (hops : OpsOk env.ops) (hq : Quiet env k a) (hqn : QuietNormed env k a) (op : KMOp X) (hop : op.isAttach = false) :
    (ρs).Tri (Allow p0) (execP env op)
      (fun o b t => Allow p0 b t ∧ (op.SetByOthers = false → outRef env a k keep op = .ok o))
      (fun e b t => Allow p0 b t ∧ (op.SetByOthers = false → outRef env a k keep op = .error e)) := by
  cases op with
  | attach one two => simp [KMOp.isAttach] at hop
  | setAttr n v =>
    exact tri_thenS (tri_quietS (m := KMState.setAttr n v) (E := fun _ => False) (Q := fun _ => True) (fun s => Or.inr ⟨_, rfl⟩) (fun _ _ _ _ => trivial) (fun _ _ _ h => nomatch h))
      (fun _ _ _ h => ⟨h.1, fun _ => rfl⟩) fun _ _ _ h => h.2.elim
  | getAttr n d =>
    exact tri_thenS (tri_quietS (m := KMState.getAttrVal n d) (E := fun _ => False) (Q := fun _ => True) (fun s => Or.inl rfl) (fun _ _ _ _ => trivial) (fun _ _ _ h => nomatch h))
      (fun _ _ _ h => ⟨h.1, fun h => by simp [KMOp.SetByOthers] at h⟩) fun _ _ _ h => h.2.elim
  | attributes => exact tri_thenS (E := fun _ _ _ => False) (tri_read stable_allow _) (fun _ _ _ h => ⟨h.1, fun h => by simp [KMOp.SetByOthers] at h⟩) fun _ _ _ h => h.elim
  | numSamples => exact tri_thenS (E := fun _ _ _ => False) (tri_rd stable_allow fun t ht => ht.1.num) (fun _ _ _ h => ⟨h.1, fun _ => by rw [h.2]; rfl⟩) fun _ _ _ h => h.elim
  | shape => exact tri_thenS (E := fun _ _ _ => False) (tri_attr stable_allow (x := (a.nrows, a.ncols)) fun t ht => ht.1.shape) (fun _ _ _ h => ⟨h.1, fun _ => by rw [h.2]; rfl⟩) fun _ _ _ h => h.elim
  | size =>
    exact tri_thenS (tri_quietS (E := fun _ => False) (Q := fun n => outRef env a k keep .size = .ok (.nat n)) (fun s => Or.inl (KMState.size_state s))
      (fun t ht x hx => by rw [size_inv t ht] at hx; injection hx with hx; rw [← hx]; rfl) fun t ht x hx => by rw [size_inv t ht] at hx; cases hx)
      (fun _ _ _ h => ⟨h.1, fun _ => h.2⟩) fun _ _ _ h => h.2.elim
  | full =>
    exact tri_thenS (tri_fullS hf hops hqn) (fun A _ _ h => ⟨h.1, fun _ => by unfold outRef; rw [h.2.1, h.2.2]; rfl⟩)
      fun _ _ _ h => ⟨h.1, fun _ => by unfold outRef; rw [h.2]; rfl⟩
  | fullSparse =>
    exact tri_thenS (tri_fullSparseS hf hops hqn hq) (fun A _ _ h => ⟨h.1, fun _ => by unfold outRef; rw [h.2.1, h.2.2]; rfl⟩)
      fun _ _ _ h => ⟨h.1, fun _ => by unfold outRef; rw [h.2]; rfl⟩
  | center =>
    refine tri_thenS tri_centerS ?_ ?_
    · rintro x b t ⟨h1, h2, C, hC⟩
      exact ⟨h1.1, fun _ => by unfold outRef; rw [h2, hC]; rfl⟩
    · rintro e b t ⟨h1, ⟨h2, rfl⟩ | ⟨h2, hC⟩⟩
      · exact ⟨h1, fun _ => by unfold outRef; exact if_pos h2⟩
      · exact ⟨h1, fun _ => by unfold outRef; rw [h2, hC]; rfl⟩
  | centered =>
    refine tri_thenS tri_centeredS ?_ ?_
    · rintro x b t ⟨h1, h2, h3, hC⟩
      exact ⟨h1, fun _ => by unfold outRef; rw [h2, hC, h3]; rfl⟩
    · rintro e b t ⟨h1, ⟨h2, rfl⟩ | ⟨h2, hC⟩⟩
      · exact ⟨h1, fun _ => by unfold outRef; exact if_pos h2⟩
      · exact ⟨h1, fun _ => by unfold outRef; rw [h2, hC]; rfl⟩
  | normalize m =>
    refine tri_thenS (tri_normalizeS hf hops hqn m) ?_ ?_
    · rintro x b t ⟨h1, N, hN⟩
      exact ⟨h1.1, fun _ => by unfold outRef; rw [hN]; rfl⟩
    · rintro e b t ⟨h1, h2⟩
      refine ⟨h1, fun h => ?_⟩
      have : m = "cosine" := by simpa [KMOp.SetByOthers] using h
      subst this
      unfold outRef; rw [h2]; rfl
  | normedKm =>
    exact tri_thenS (tri_normedKmValS hf hops hqn) (fun A _ _ h => ⟨h.1, fun _ => by unfold outRef; rw [h.2.1, h.2.2]; rfl⟩)
      fun _ _ _ h => ⟨h.1, fun _ => by unfold outRef; rw [h.2]; rfl⟩
  | frobNorm => exact tri_thenS tri_frobNormS (fun A _ _ h => ⟨h.1, fun _ => by unfold outRef; rw [h.2]; rfl⟩) fun _ _ _ h => ⟨h.1, fun _ => by unfold outRef; rw [h.2]; rfl⟩
  | diagonal =>
    refine tri_thenS (tri_diagonalS hf) ?_ ?_
    · rintro x b t ⟨h1, h2, h3⟩
      exact ⟨h1, fun _ => by unfold outRef; rw [h2, h3]; rfl⟩
    · rintro e b t ⟨h1, h2, rfl⟩
      exact ⟨h1, fun _ => by unfold outRef; exact if_pos h2⟩
  | getItem key =>
    exact tri_thenS (tri_getItemS hf hq key) (fun A _ _ h => ⟨h.1, fun _ => by change (itemRef env a k key).map (KMOut.mat .dense) = _; rw [h.2.2, h.2.1]; rfl⟩)
      fun _ _ _ h => ⟨h.1, fun _ => by change (itemRef env a k key).map (KMOut.mat .dense) = _; rw [h.2]; rfl⟩

/-- the state after a successful `full` is settled -/
theorem settled_full {norm : Bool} {s0 s : KMState K X V} (h : SinceDense env k norm a s0) {o : KMOut V} (hfull : exec env .full s0 = (.ok o, s)) (p0 : Nat × Nat)
    (hops : OpsOk env.ops) (d : Full V) : (rely env a k p0 (settled env a k norm 0)).Inv (share d s) := by
  have hs : SinceDense env k norm a s := by
    have := Since.call .full h rfl (by simp [KMOp.MayGoSparse])
    rw [hfull] at this; exact this
  have hg := hs.goodOnDense hf
  -- `_full_km` exists after `full`
  have hsome : s.fullKm.isSome = true := by
    obtain ⟨t, ht, hi⟩ := inv_since h p0
    have hsim := sim_exec env .full t
    unfold SimAt at hsim
    rw [ht, hfull] at hsim
    have htri : (rely env a k p0 (soundly env a k norm)).Tri (Allow p0) (execP env .full) (fun _ b t => Ready p0 b t) (fun _ _ _ => True) :=
      (tri_full.mono (fun _ _ h => h) (fun _ _ _ h => h) fun _ _ _ _ => trivial).bind fun _ => tri_pure fun _ _ h => h.1
    obtain ⟨_, _, hq, _⟩ := (htri 1 t (Or.inl one_pos)).alone hi
    obtain ⟨b, hb⟩ := hq o (congrArg Prod.fst hsim)
    have hfl := congrArg Prod.snd hsim
    simp only at hfl
    rw [← hfl]
    show (Option.map _ _).isSome = true
    rw [Option.isSome_map]
    exact hb.2
  have hk := hs.reachable.kernel
  rcases hg.full with ⟨h1, _⟩ | ⟨f, h1, h2, h3, h4, h5, h6, h7, h8⟩
  · rw [h1] at hsome; simp at hsome
  have hlow := h5 (h4 rfl)
  have hatt := hg.att
  refine ⟨⟨hatt.sample, hatt.sampleTwo, hatt.shape, hatt.two, hatt.num, hatt.sound⟩, hk.1, ⟨hk.2, h2, hlow, ?_, ?_, ?_, ?_, ?_, ?_⟩⟩
  · show Option.map _ s.fullKm = _
    rw [h1]; rfl
  · show (s.fullKm.getD d).fmt = _
    rw [h1]; exact h4 rfl
  · intro i hi j hj
    show (s.fullKm.getD d).cell i j = _
    rw [h1, ← hk.1]
    exact h7 i hi j hj (Or.inr hlow)
  · intro hn
    obtain ⟨N, g1, g2⟩ := hg.normed hn
    obtain ⟨m, g3⟩ := g2 (Or.inr rfl)
    refine ⟨N, g1, ?_⟩
    rw [← hk.1]
    exact Attachment.normed_cosine hops g3
  · intro hc
    obtain ⟨C, g1, g2⟩ := hg.centered hc
    exact ⟨C, g1, by rw [← hk.1]; exact g2⟩
  · intro v hv
    rw [← hk.1]
    exact (hg.frob v hv).dense rfl

/-- whatever the schedule, the outcomes are those of the sequential model -/
theorem settled_outcome {norm : Bool} {s0 s : KMState K X V} (h : SinceDense env k norm a s0) {o : KMOut V} (hfull : exec env .full s0 = (.ok o, s))
    (hops : OpsOk env.ops) (hq : Quiet env k a) (hqn : QuietNormed env k a) {calls : List (List (KMOp X))} (hc : NoAttach calls) {l : List Nat} {i n : Nat} {op : KMOp X}
    {r : Except PyErr (KMOut V)} (ho : Outcome calls ((sharedBy env s calls).schedule l) i n op r) (hop : op.SetByOthers = false) :
    r = (exec env op s).1 := by
  have hinv := settled_full hf h hfull (0, 0) hops ⟨.dense, fun _ _ => env.ops.nan⟩
  obtain ⟨ops, rs, g1, g2, g3, g4⟩ := ho
  have hmem : op ∈ ops := List.mem_of_getElem? g3
  have hna : op.isAttach = false := hc ops (List.mem_of_getElem? g1) op hmem
  -- sequentially
  have hseq : (exec env op s).1 = outRef env a k norm op := by
    have hsim := sim_exec env op (share ⟨.dense, fun _ _ => env.ops.nan⟩ s)
    unfold SimAt at hsim
    obtain ⟨_, _, h1, h2⟩ := (tri_execS (p0 := (0, 0)) hf hops hq hqn op hna 1 _ (Or.inl one_pos)).alone hinv
    have hflat : (share ⟨.dense, fun _ _ => env.ops.nan⟩ s).flat = s := by
      unfold share flat
      rcases hs : s.fullKm with _ | f
      · simp only [Option.map_none]
        rw [← hs]
      · simp only [Option.map_some, Option.getD_some]
        rw [← hs]
    rw [hflat] at hsim
    rw [← congrArg Prod.fst hsim]
    simp only
    rcases hr : (alone (execP env op) (share ⟨.dense, fun _ _ => env.ops.nan⟩ s)).1 with e | x
    · obtain ⟨b, hb⟩ := h2 e hr
      exact (hb.2 hop).symm
    · obtain ⟨b, hb⟩ := h1 x hr
      exact (hb.2 hop).symm
  rw [hseq]
  obtain ⟨_, _, _, B', _, h5⟩ := Rely.schedule (ρ := rely env a k (0, 0) (settled env a k norm 0)) (c0 := sharedBy env s calls)
    (Q := fun i rs b t => Allow (0, 0) b t ∧ List.Forall₂ (fun (op : KMOp X) r => op.SetByOthers = false → r = outRef env a k norm op) (calls.getD i []) rs) (E := fun _ _ _ _ => False)
    (B := fun _ => 1) hinv (fun i p hp => by
      change (calls.map (callsP env))[i]? = some p at hp
      rw [List.getElem?_map] at hp
      rcases ho : calls[i]? with _ | ops
      · rw [ho] at hp; simp at hp
      · rw [ho] at hp
        simp only [Option.map_some, Option.some.injEq] at hp
        subst hp
        rw [show calls.getD i [] = ops by rw [List.getD_eq_getElem?_getD, ho]; rfl]
        exact tri_calls (env := env) (ρ := rely env a k (0, 0) (settled env a k norm 0)) (P := Allow (0, 0)) (ops := ops)
          (fun op hop => (tri_execS hf hops hq hqn op (hc ops (List.mem_of_getElem? ho) op hop)).mono (fun _ _ h => h) (fun _ _ _ h => ⟨h.1, fun h' => (h.2 h').symm⟩)
            fun _ _ _ h => ⟨h.1, fun h' => (h.2 h').symm⟩) 1 _ (Or.inl one_pos)) l
  obtain ⟨t', _, h6⟩ := h5 i _ g2
  rw [show calls.getD i [] = ops by rw [List.getD_eq_getElem?_getD, g1]; rfl] at h6
  have h7 := h6.2
  clear g1 g2 hmem h5 h6
  induction h7 generalizing n with
  | nil => simp at g3
  | cons hr _ ih =>
    rcases n with _ | n
    · simp at g3 g4; subst g3; subst g4; exact hr hop
    · simp at g3 g4; exact ih g3 g4

end nofaults
end Shared
end KMethods
