import Verif.Lemmas.BrokenComposite
import Verif.Props.Broken
import Verif.Props.Composite
/-!
# C104: composite kernels of kernels that cannot be evaluated
-/
namespace KMethods
open PyM KMState
variable {K X : Type} {env : Env K X F}

/-- **C104 (partial)** Full statement: this, also for later calls of `fit`, after one that raised. This is false, see `C104_violated`.
A set with a kernel that raises has been attached to a sample. Then `fit` of any composite kernel of this set raises an exception, whatever weights are given (also 0). For `WeightedAverageKernel` the number of weights
must be that of the kernels (what happens otherwise is the subject of C82). -/
theorem C104_fit_partial {u u' : SetSt K X} {A : Arr2 X} (h : u.HasBroken env A) (hu : SetSt.attach (sampleArg A) none u = (.ok (), u')) (c : Comp) (hw : ∀ l, c.kind = .weighted l → l.length = u'.set.members.length)
    (w : Option WeightsIn) : ∃ e, (CompSt.fit env w ⟨u'.heap, u'.set, c⟩).1 = .error e := by
  obtain ⟨r, hr, t, ht, hb⟩ := h
  obtain ⟨h1, t', h2, h3⟩ := attach_stuck hr ht hb hu
  exact CompSt.fit_stuck (r := r) ⟨t', _, h2, h3⟩ (by rw [h1]; exact hr) hw w

/-- **C104 (partial)** (full statement as before) So does `linear_combination`. -/
theorem C104_linear_combination_partial {u u' : SetSt K X} {A : Arr2 X} (h : u.HasBroken env A) (hu : SetSt.attach (sampleArg A) none u = (.ok (), u')) {w : WeightsIn} {l : List ℝ} (hw : w.IsVec l) (norm : Bool) :
    ∃ e, (linearCombination env u'.set w norm u'.heap).1 = .error e := by
  obtain ⟨r, hr, t, ht, hb⟩ := h
  obtain ⟨h1, t', h2, h3⟩ := attach_stuck hr ht hb hu
  exact linearCombination_raises h2 h3 (by rw [h1]; exact hr) hw norm

/-- **C104 (partial)** (full statement as before) For kernels that cannot be formatted (all custom kernels), however they have been used since `attach_to`, except in sparse format: `fit` and `linear_combination` raise each time. -/
theorem C104_custom_partial (hops : env.ops = realOps) {s : CompSt K X} {A : Arr2 X} {r : Nat} (hr : r ∈ s.set.members) {t : KMState K X F} (ht : s.heap.objs r = some (.km t)) {k : K} {norm : Bool}
    (hs : SinceDense env k norm ⟨A, none⟩ t) (hk : env.fmtRaises k = true) (hb : env.BreaksOn k A) (hw : ∀ l, s.comp.kind = .weighted l → l.length = s.set.members.length) (w : Option WeightsIn)
    {w' : WeightsIn} {l : List ℝ} (hw' : w'.IsVec l) (b : Bool) : (∃ e, (CompSt.fit env w s).1 = .error e) ∧ ∃ e, (linearCombination env s.set w' b s.heap).1 = .error e := by
  obtain ⟨i, j, hij, hj, hf⟩ := hb
  obtain ⟨e, he⟩ := C11_custom_always_raises_partial (op := .full) hk (by rw [hops]; exact realOps_findsNan) hij hj hf hs (Or.inl rfl)
  have he' : (KMState.full env t).1 = .error e := by
    rw [exec_full_run] at he
    rcases hT : (KMState.full env t).1 with e' | T
    · rw [hT] at he
      injection (show (.error e' : Except PyErr (KMOut F)) = .error e from he) with he
      rw [he]
    · rw [hT] at he
      cases he
  exact ⟨CompSt.fit_stuck ⟨t, e, ht, he'⟩ hr hw w, linearCombination_raises ht he' hr hw' b⟩

namespace Demo
/-- a set of two kernels that always raise -/
noncomputable def brokenPair : SetSt Unit ℝ := ⟨⟨fun r => if r < 2 then some (.km (KMState.init () false 0)) else none, 2⟩, ⟨[0, 1], .unset, true⟩⟩
/-- attached to a sample -/
noncomputable def brokenPair1 : SetSt Unit ℝ := (SetSt.attach (sampleArg oneRow) none brokenPair).2
/-- their sum -/
noncomputable def brokenSum : CompSt Unit ℝ := ⟨brokenPair1.heap, brokenPair1.set, ⟨.sum, .one 1, false, none⟩⟩
end Demo

/-- **C104** violated: the sum of two kernels that always raise. `fit` raises twice, once for each of them; the third call succeeds, and `composite_KM` is a matrix of NaN. -/
theorem C104_violated : Demo.brokenPair.HasBroken Demo.brokenEnv Demo.oneRow ∧ (SetSt.attach (sampleArg Demo.oneRow) none Demo.brokenPair).1 = .ok () ∧
    mkComposite .sum (some Demo.brokenPair1.set) = .ok Demo.brokenSum.comp ∧ ∃ s1 s2 s3, CompSt.fit Demo.brokenEnv none Demo.brokenSum = (.error .runtimeError, s1) ∧
      CompSt.fit Demo.brokenEnv none s1 = (.error .runtimeError, s2) ∧ CompSt.fit Demo.brokenEnv none s2 = (.ok (), s3) ∧ ∃ M, (CompSt.compositeKM s3).1 = .ok M ∧ Demo.cell00 (.ok M) = .nan := by
  refine ⟨⟨0, by simp [Demo.brokenPair], _, rfl, 0, 0, le_rfl, Nat.one_pos, fun _ => rfl⟩, rfl, rfl, (CompSt.fit Demo.brokenEnv none Demo.brokenSum).2,
    (CompSt.fit Demo.brokenEnv none (CompSt.fit Demo.brokenEnv none Demo.brokenSum).2).2,
    (CompSt.fit Demo.brokenEnv none (CompSt.fit Demo.brokenEnv none (CompSt.fit Demo.brokenEnv none Demo.brokenSum).2).2).2, Prod.ext rfl rfl, Prod.ext rfl rfl, Prod.ext rfl rfl, _, rfl, rfl⟩

/-- the hypotheses of `C104_fit_partial` and `C104_linear_combination_partial` -/
example : ∃ u' : SetSt Unit ℝ, Demo.brokenPair.HasBroken Demo.brokenEnv Demo.oneRow ∧ SetSt.attach (sampleArg Demo.oneRow) none Demo.brokenPair = (.ok (), u') ∧
    (WeightsIn.arr ⟨.float64, [2], [.real 1, .real 0]⟩).IsVec [1, 0] :=
  ⟨Demo.brokenPair1, C104_violated.1, Prod.ext C104_violated.2.1 rfl, .float64, 0, Or.inl rfl, rfl⟩

/-- those of `C104_custom_partial` and `C102_rank_custom_partial`: a kernel that always raises and cannot be formatted, after a `full` that raised -/
example : ∃ (env : Env Unit ℝ F) (t : KMState Unit ℝ F), env.ops = realOps ∧ SinceDense env () false ⟨Demo.oneRow, none⟩ t ∧ env.fmtRaises () = true ∧ env.BreaksOn () Demo.oneRow ∧ t.populated = false := by
  let env : Env Unit ℝ F := ⟨fun _ _ _ => .real 0, fun _ _ _ _ => true, realOps, fun _ => true⟩
  refine ⟨env, (exec env .full (exec env (.attach (.arr [1, 1] Demo.oneRow.row) none) (init () false 0)).2).2, rfl, ?_, rfl, ⟨0, 0, le_rfl, Nat.one_pos, fun _ => rfl⟩, rfl⟩
  exact .call .full (.attached (two := none) (one := .arr [1, 1] Demo.oneRow.row) (.new 0) ⟨⟨0, rfl⟩, trivial⟩ rfl) rfl id

end KMethods
