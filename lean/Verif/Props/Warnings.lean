import Verif.Lemmas.Warnings
import Verif.Spec.Demo
/-!
# Warnings about NaN and infinite values, and about skipped parameter values
-/
namespace KMethods
open PyM KMState
variable {K X V : Type}

/-- **C90** Warnings have no effect: with or without the log, a call returns (or raises) the same and leaves the same object. -/
theorem C90_no_effect (env : Env K X V) (op : KMOp X) (s : KMState K X V) (w : List (Announced V)) :
    (execW env op (s, w)).1 = (exec env op s).1 ∧ (execW env op (s, w)).2.1 = (exec env op s).2 :=
  proj_exec env op s w

/-- **C90** No false alarms: every warning is about a matrix that does contain NaN or infinite values. -/
theorem C90_no_false_alarm (env : Env K X V) (op : KMOp X) (s : KMState K X V) : ∀ x ∈ warnings env op s, env.ops.nonFinite x.mat = true := by
  obtain ⟨new, e, h⟩ := logs_exec env op s []
  unfold warnings
  rw [e]
  simpa using h

/-- **C90** No silence. If no call since the attachment issued a warning, and neither does this one, then the kernel matrix it returns (by `full`, `full_sparse`,
`normed_km`, or by selecting all rows and columns) has no NaN or infinite entries. The kernel may fail at any time when one sample is attached; with two samples, only
if no call since the attachment ended in a `RuntimeError`. The kernel function can be formatted (see C60 for those that cannot).

Partial: for two samples the full statement has no such condition; see `C90_violated`. -/
theorem C90_silent_partial {env : Env K X V} {k : K} {norm : Bool} {a : Attachment X} {s : KMState K X V} (hk : env.fmtRaises k = false) (h : Silent env k norm a s)
    (op : KMOp X) (hop : op.ReturnsWhole a.nrows a.ncols) (hw : warnings env op s = [])
    (h2 : a.two.isSome = true → (exec env op s).1 ≠ .error .runtimeError) {fmt : Fmt} {M : Mat V} (hM : (exec env op s).1 = .ok (.mat fmt M)) :
    env.ops.nonFinite M = false :=
  ((h.clear hk).exec hk op (by cases op <;> first | rfl | exact hop.elim) hw h2).2 fmt M hM hop

/-- **C90** Exactly when `full` warns (without normalisation): on the call that computes the matrix, if it contains NaN or infinite values; not again when the matrix
exists. The warning is about the matrix returned. -/
theorem C90_full_exact {env : Env K X V} {k : K} {norm : Bool} {s : KMState K X V} (hr : Reachable env k norm s) (hn : norm = false) (hk : env.fmtRaises k = false)
    {fmt : Fmt} {M : Mat V} (hM : (exec env .full s).1 = .ok (.mat fmt M)) :
    warnings env .full s = if s.populated = false ∧ env.ops.nonFinite M = true then [⟨false, M⟩] else [] := by
  have hkern := hr.kernel.1
  have hkeep : s.keepNormed = false := hr.kernel.2.trans hn
  have e0 : exec env .full s = (raiseIf s.sample.isNone .valueError >>= fun _ => ensurePopulated env >>= fun _ =>
      (fullMat : PyM (KMState K X V) _) >>= fun A => pure (KMOut.mat A.1 A.2)) s := by
    show ((full env >>= fun A => pure (KMOut.mat A.1 A.2)) : PyM (KMState K X V) _) s = _
    unfold full
    rw [bind_run, get_bind_run, hkeep]
    simp only [Bool.false_eq_true, if_false]
    simp only [bind_run]
    rcases (raiseIf s.sample.isNone .valueError : PyM (KMState K X V) Unit) s with ⟨_ | _, t⟩
    · rfl
    · simp only
      rcases ensurePopulated env t with ⟨_ | _, _⟩ <;> rfl
  have e0' : execW env .full (s, []) = (quietly (raiseIf s.sample.isNone .valueError) >>= fun _ => ensurePopulatedW env >>= fun _ =>
      (quietly fullMat : PyM (LogSt K X V) _) >>= fun A => pure (KMOut.mat A.1 A.2)) (s, []) := by
    show ((fullW env >>= fun A => pure (KMOut.mat A.1 A.2)) : PyM (LogSt K X V) _) (s, []) = _
    unfold fullW
    rw [bind_run, get_bind_run, hkeep]
    simp only [Bool.false_eq_true, if_false]
    simp only [bind_run]
    rcases quietly (raiseIf s.sample.isNone .valueError) (s, ([] : List (Announced V))) with ⟨_ | _, t⟩
    · rfl
    · simp only
      rcases ensurePopulatedW env t with ⟨_ | _, _⟩ <;> rfl
  unfold warnings
  rw [e0'] ; rw [e0] at hM
  rcases hs : s.sample with _ | smp
  · rw [hs] at hM
    cases hM
  rw [hs] at hM
  show ((quietly (Pure.pure ()) >>= fun _ => ensurePopulatedW env >>= fun _ =>
      (quietly fullMat : PyM (LogSt K X V) _) >>= fun A => pure (KMOut.mat A.1 A.2)) (s, [])).2.2 = _
  change ((ensurePopulated env >>= fun _ => (fullMat : PyM (KMState K X V) _) >>= fun A => pure (KMOut.mat A.1 A.2)) s).1 = _ at hM
  rw [bind_ok (show quietly (Pure.pure () : PyM (KMState K X V) Unit) (s, ([] : List (Announced V))) = (.ok (), (s, [])) from rfl)]
  have last : ∀ (t : KMState K X V) (w : List (Announced V)),
      (((quietly fullMat : PyM (LogSt K X V) _) >>= fun A => pure (KMOut.mat A.1 A.2)) (t, w)).2.2 = w := by
    intro t w
    rw [bind_run]
    unfold quietly
    rcases (fullMat t) with ⟨_ | _, _⟩ <;> rfl
  rcases hp : s.populated
  · have ee : ensurePopulated env s = populateFully env true true s := by
      unfold ensurePopulated; rw [get_bind_run, hp]; rfl
    have eeW : ensurePopulatedW env (s, []) = populateFullyW env true true (s, []) := by
      unfold ensurePopulatedW; rw [get_bind_run]
      show when (!s.populated) _ _ = _
      rw [hp]; rfl
    rcases populateW_run hk true true s hkern [] with ⟨e, t, f1, f2⟩ | ⟨f, sh, t, f1, f2, f3, f4⟩
    · rw [bind_error (ee.trans f1)] at hM; cases hM
    · rw [bind_ok (ee.trans f1)] at hM
      rw [bind_ok (eeW.trans f4), last]
      have fm : fullMat t = (.ok (f.fmt, Mat.ofCells sh.1 sh.2 f.cell), t) := by
        rcases fullMat_cases t with ⟨e, _, hn | hn⟩ | ⟨f', sh', h1, h2, h3⟩
        · rw [f2] at hn; cases hn
        · rw [f3] at hn; cases hn
        · rw [f2] at h1; rw [f3] at h2
          injection h1 with h1; injection h2 with h2; subst h1; subst h2; exact h3
      rw [bind_ok fm] at hM
      injection hM with hM
      injection hM with _ hM
      subst hM
      simp
  · have ee : ensurePopulatedW env (s, []) = (.ok (), (s, [])) := by
      unfold ensurePopulatedW; rw [get_bind_run]
      show when (!s.populated) _ _ = _
      rw [hp]; rfl
    rw [bind_ok ee, last]
    simp

/-- **C90** Exactly when `normed_km` warns, once the matrix exists: on the call that normalises it, if the result contains NaN or infinite values. -/
theorem C90_normed_exact {env : Env K X V} {k : K} {norm : Bool} {s : KMState K X V} (hr : Reachable env k norm s) (hk : env.fmtRaises k = false)
    (hp : s.populated = true) {fmt : Fmt} {M : Mat V} (hM : (exec env .normedKm s).1 = .ok (.mat fmt M)) :
    warnings env .normedKm s = if s.isNormed = false ∧ env.ops.nonFinite M = true then [⟨true, M⟩] else [] := by
  have hkern := hr.kernel.1
  have e0' : execW env .normedKm (s, []) = (when (!s.isNormed) (normalizeW env "cosine") >>= fun _ => (quietly (getAttr fun s => s.normedKm) : PyM (LogSt K X V) _) >>=
      fun A => pure (KMOut.mat A.1 A.2)) (s, []) := by
    show ((normedKmValW env >>= fun A => pure (KMOut.mat A.1 A.2)) : PyM (LogSt K X V) _) (s, []) = _
    unfold normedKmValW
    rw [bind_run, get_bind_run]
    simp only [bind_run]
    rcases when (!s.isNormed) (normalizeW env "cosine") (s, []) with ⟨_ | _, _⟩ <;> rfl
  rw [← (proj_exec env .normedKm s []).1, e0'] at hM
  unfold warnings
  rw [e0']
  have last : ∀ (t : KMState K X V) (w : List (Announced V)),
      (((quietly (getAttr fun s => s.normedKm) : PyM (LogSt K X V) _) >>= fun A => pure (KMOut.mat A.1 A.2)) (t, w)).2.2 = w := by
    intro t w
    rw [bind_run]
    unfold quietly
    rcases (getAttr (fun s : KMState K X V => s.normedKm) t) with ⟨_ | _, _⟩ <;> rfl
  rcases hn : s.isNormed
  · rw [hn] at hM
    change ((normalizeW env "cosine" >>= _ : PyM (LogSt K X V) _) (s, [])).1 = _ at hM
    show ((normalizeW env "cosine" >>= _ : PyM (LogSt K X V) _) (s, [])).2.2 = _
    have ee : ensurePopulatedW env (s, []) = (.ok (), (s, [])) := by
      unfold ensurePopulatedW; rw [get_bind_run]
      show when (!s.populated) _ _ = _
      rw [hp]; rfl
    have ne : normalizeW env "cosine" (s, []) = (quietly (computeNormed env "cosine") >>= fun N =>
        quietly (modify fun s => { s with normedKm := some N, isNormed := true }) >>= fun _ => warnNonFiniteW env true N.2 : PyM (LogSt K X V) Unit) (s, []) := by
      unfold normalizeW
      rw [bind_ok ee, get_bind_run]
      show when (!s.isNormed) _ _ = _
      rw [hn]; rfl
    have kc : (computeNormed env "cosine" s).2.kernel = k :=
      ((show Holds (fun t : KMState K X V => t.kernel = k) (computeNormed env "cosine") fun _ => True from
        (Leaf.attr _).bind fun _ _ => Holds.ite (Leaf.fullMat.bind fun _ _ => Holds.lift.bind fun _ _ => Holds.pure trivial)
          ((show Holds (fun t : KMState K X V => t.kernel = k) (freshDiagonal env fun s => s.sample) fun _ => True from
              (Leaf.attr _).bind fun _ _ => Holds.get.bind fun _ _ => (Holds.modify fun _ h => h).bind fun _ _ => Holds.lift).bind fun _ _ =>
            (show Holds (fun t : KMState K X V => t.kernel = k) (freshDiagonal env fun s => s.sampleTwo) fun _ => True from
              (Leaf.attr _).bind fun _ _ => Holds.get.bind fun _ _ => (Holds.modify fun _ h => h).bind fun _ _ => Holds.lift).bind fun _ _ =>
            Leaf.fullMat.bind fun _ _ => Holds.lift.bind fun _ _ => Holds.pure trivial)) s hkern).1
    rcases hc : computeNormed env "cosine" s with ⟨e | N, t⟩
    · have : normalizeW env "cosine" (s, []) = (.error e, (t, [])) := by
        rw [ne, bind_error (by unfold quietly; rw [hc])]
      rw [bind_error this] at hM; cases hM
    · rw [hc] at kc
      have nn : normalizeW env "cosine" (s, []) = (.ok (), ({ t with normedKm := some N, isNormed := true },
          if env.ops.nonFinite N.2 = true then [] ++ [⟨true, N.2⟩] else [])) := by
        rw [ne, bind_ok (show quietly (computeNormed env "cosine") (s, ([] : List (Announced V))) = (.ok N, (t, [])) by unfold quietly; rw [hc])]
        exact warnW_run hk true N.2 { t with normedKm := some N, isNormed := true } kc []
      rw [bind_ok nn] at hM ⊢
      rw [last]
      injection hM with hM
      injection hM with _ hM
      subst hM
      simp
  · show ((Pure.pure () >>= _ : PyM (LogSt K X V) _) (s, [])).2.2 = _
    rw [pure_bind_run, last]
    simp

/-! ### Violation with two samples -/

namespace Demo
/-- two samples, the kernel raises on its fourth call, which is the first below the diagonal -/
def stW : KMState Unit Int Int := (exec (faulty 3) (.attach argA (some argB)) (init () false 0)).2
end Demo

/-- **C90**, violated with two samples: the kernel fails once, while the lower triangle is computed; the first `full` raises `RuntimeError`, the next one returns a
matrix with NaN. No warning is ever issued. -/
theorem C90_violated : Since (Demo.faulty 3) () false Demo.two (fun _ => True) Demo.stW ∧
    (exec (Demo.faulty 3) .full Demo.stW).1 = .error .runtimeError ∧ warnings (Demo.faulty 3) .full Demo.stW = [] ∧
    warnings (Demo.faulty 3) .full (exec (Demo.faulty 3) .full Demo.stW).2 = [] ∧
    ∃ M, (exec (Demo.faulty 3) .full (exec (Demo.faulty 3) .full Demo.stW).2).1 = .ok (.mat .dense M) ∧ Demo.ops.nonFinite M = true := by
  refine ⟨.attached (.new 0) Demo.attaches_two rfl, rfl, rfl, rfl, _, rfl, by decide +kernel⟩

/-! ### Parameter values skipped by a bucket -/

/-- **C90** `add_parametrized_kernels` skips no value silently. On a bucket that is not attached, the values it warns about are exactly those for which the kernel cannot
be constructed, in order; every other value becomes a member. On an attached bucket it warns about every value and adds none (see C41). -/
theorem C90_bucket (b : BucketFlags) (build : Bool → String → V → Except PyErr K) (param : String) {l : List V} (hl : l ≠ []) (s : SetSt K X) :
    SetSt.addParametrizedW b (.cls build) param (.seq l) (s, []) =
      (.ok (), ((SetSt.addParametrized b (.cls build) param (.seq l) s).2, (SetSt.addParametrizedW b (.cls build) param (.seq l) (s, [])).2.2)) ∧
    (SetSt.addParametrized b (.cls build) param (.seq l) s).2.set.members.length + (SetSt.addParametrizedW b (.cls build) param (.seq l) (s, [])).2.2.length =
      s.set.members.length + l.length ∧
    (s.set.numSamples = .unset → (SetSt.addParametrizedW b (.cls build) param (.seq l) (s, [])).2.2 = l.filter fun v => (build b.skip param v).toOption.isNone) ∧
    (s.set.numSamples ≠ .unset → (SetSt.addParametrizedW b (.cls build) param (.seq l) (s, [])).2.2 = l) := by
  have hlen : decide (l.length < 1) = false := by
    rcases l with _ | ⟨x, l⟩
    · exact absurd rfl hl
    · simp
  have er : SetSt.addParametrizedW (X := X) b (.cls build) param (.seq l) (s, []) = forEach l (fun v => orWarn (SetSt.appendNew b.norm (build b.skip param v)) v) (s, []) := by
    unfold SetSt.addParametrizedW
    simp only [hlen]
    rfl
  obtain ⟨p1, p2⟩ := SetSt.proj_addParametrized (X := X) b (.cls build) param (.seq l) s []
  have ok : (SetSt.addParametrizedW (X := X) b (.cls build) param (.seq l) (s, [])).1 = .ok () := by
    rw [er]
    clear er p1 p2 hlen hl
    generalize ([] : List V) = w
    induction l generalizing s w with
    | nil => rfl
    | cons v l ih =>
      show ((orWarn (SetSt.appendNew b.norm (build b.skip param v)) v >>= fun _ => forEach l fun v => orWarn (SetSt.appendNew b.norm (build b.skip param v)) v) (s, w)).1 = _
      rw [bind_run]
      unfold orWarn
      rcases SetSt.appendNew b.norm (build b.skip param v) s with ⟨_ | _, t⟩ <;> exact ih _ _
  refine ⟨?_, ?_, ?_, ?_⟩
  · rw [← p2, ← ok]
  · rw [← p2, er]
    by_cases hs : s.set.numSamples = .unset
    · obtain ⟨a1, -, a3⟩ := SetSt.orWarn_unset b.norm (fun v => build b.skip param v) l s hs []
      rw [a1]
      simpa using a3
    · obtain ⟨a1, a2⟩ := SetSt.orWarn_attached b.norm (fun v => build b.skip param v) l s hs []
      rw [a1, a2]
      simp
  · intro hs
    rw [er, (SetSt.orWarn_unset b.norm (fun v => build b.skip param v) l s hs []).1]
    simp
  · intro hs
    rw [er, (SetSt.orWarn_attached b.norm (fun v => build b.skip param v) l s hs []).1]
    simp

/-! ### Examples -/

namespace Demo
/-- the sample `0, -1`: the kernel value `10 * 0 + (-1)` is the NaN of this instance -/
def argN : SampleIn Int := .arr [2, 1] (fun i => -(i : Int))
def stN : KMState Unit Int Int := (exec env (.attach argN none) (init () false 0)).2
end Demo

/-- the first `full` warns, the second does not -/
example : (warnings Demo.env .full Demo.stN).length = 1 ∧ (warnings Demo.env .full (exec Demo.env .full Demo.stN).2).length = 0 := ⟨rfl, rfl⟩

/-- the first `full` of a matrix with a kernel failure raises; the second returns the incomplete matrix with a warning -/
example : (exec (Demo.faulty 3) .full (Demo.stF 3)).1 = .error .runtimeError ∧
    (warnings (Demo.faulty 3) .full (exec (Demo.faulty 3) .full (Demo.stF 3)).2).length = 1 := ⟨rfl, rfl⟩

/-- a silent history: the demonstration matrix has no NaN, and no call warns -/
example {M : Mat Int} (hM : (exec Demo.env .full (exec Demo.env .normedKm (Demo.st1 false)).2).1 = .ok (.mat .dense M)) : Demo.ops.nonFinite M = false :=
  C90_silent_partial (a := Demo.one) (k := ()) (norm := false) (by rfl)
    (.call .normedKm (.attached (.new 0) Demo.attaches_one rfl : Silent Demo.env () false Demo.one (Demo.st1 false)) rfl (List.length_eq_zero_iff.1 (by decide +kernel))
      (fun h => by cases h)) .full trivial (List.length_eq_zero_iff.1 (by decide +kernel)) (fun h => by cases h) hM

/-- such a matrix is returned -/
example : (Demo.entries (exec Demo.env .full (exec Demo.env .normedKm (Demo.st1 false)).2).1).isSome := by decide +kernel

/-- a class that only accepts even numbers, given 1, 2, 3, 4: two warnings -/
example (s : SetSt Nat ℕ) (hs : s.set.numSamples = .unset) : (SetSt.addParametrizedW (V := Nat) ⟨true, false⟩
    (.cls fun _ _ v => if v % 2 = 0 then .ok v else .error .valueError) "degree" (.seq [1, 2, 3, 4]) (s, [])).2.2 = [1, 3] := by
  rw [(C90_bucket _ _ _ (by simp) s).2.2.1 hs]
  decide +kernel

end KMethods
