import Verif.Lemmas.Tags
/-!
# Tags of estimators tell which data they accept
-/
namespace KMethods
open PyM KMState
variable {P X M Y W Q : Type}

/-- **C100** For kernels of the library: the tag `requires_positive_X` is there if and only if there are vectors of equal length on which the kernel raises an exception; and it raises an exception only if an entry is negative. -/
theorem C100_kernels (s : Machine (KernelArg P) X M Y) {k : NumKernel} (hk : s.kFunc = some (.num k)) :
    (Tag.requiresPositiveX ∈ s.moreTags ↔ ∃ (x y : List ℝ) (e : PyErr), x.length = y.length ∧ k.call false (.vec x) (.vec y) = .error e) ∧
    ∀ (x y : List ℝ) (e : PyErr), x.length = y.length → k.call false (.vec x) (.vec y) = .error e → ∃ a, (a ∈ x ∨ a ∈ y) ∧ a < 0 := by
  have key : ∀ (x y : List ℝ), x.length = y.length → ((∃ e, k.call false (.vec x) (.vec y) = .error e) ↔ (∃ γ, k = .chi2 γ) ∧ ((∃ a ∈ x, a < 0) ∨ ∃ a ∈ y, a < 0)) := by
    intro x y h
    rw [call_vec k h]
    cases k <;> simp [NumKernel.eval]
    split_ifs with h <;> simp [h]
  rw [Machine.tag_iff hk]
  refine ⟨⟨?_, fun ⟨x, y, e, h, he⟩ => ((key x y h).1 ⟨e, he⟩).1⟩, fun x y e h he => ?_⟩
  · rintro ⟨γ, rfl⟩
    obtain ⟨e, he⟩ := (key [-1] [-1] rfl).2 ⟨⟨γ, rfl⟩, Or.inl ⟨-1, by simp, by norm_num⟩⟩
    exact ⟨[-1], [-1], e, rfl, he⟩
  · rcases ((key x y h).1 ⟨e, he⟩).2 with ⟨a, h1, h2⟩ | ⟨a, h1, h2⟩
    · exact ⟨a, Or.inl h1, h2⟩
    · exact ⟨a, Or.inr h1, h2⟩

example : Tag.requiresPositiveX ∈ (⟨true, some (.num (.chi2 1)), some "SVC", some true, none, none, none, none⟩ : Machine (KernelArg Unit) (List ℝ) Unit Unit).moreTags ∧
    Tag.requiresPositiveX ∉ (⟨true, some (.num .linear), some "SVC", some true, none, none, none, none⟩ : Machine (KernelArg Unit) (List ℝ) Unit Unit).moreTags := by
  constructor <;> simp [Machine.moreTags]

/-- **C100 (partial)** Full statement: the same for all kernel functions. This is false, see `C100_violated`.
For kernels of the library, fitting raises `RuntimeError` (the kernel matrix cannot be computed) if and only if the estimator has the tag `requires_positive_X` and an entry of the training data is negative; provided the learner does not
raise this exception. Otherwise, without normalisation, the learner is called. -/
theorem C100_fit_partial (L : Learner M Y W Q) (s : Machine (KernelArg P) (List ℝ) M Y) {k : NumKernel} {norm : Bool} {e : Est} {A : Arr2 (List ℝ)} (y : Y) (w : W) (hk : s.kFunc = some (.num k))
    (hn : s.normalized = some norm) (he : getEstimator s.learnerId = .ok e) (hA : A.Rect) (hL : ∀ T, L.fit e T y w ≠ .error .runtimeError) :
    ((Machine.fit (argEnv realOps) L (.ok (A, y)) w s).1 = .error .runtimeError ↔ Tag.requiresPositiveX ∈ s.moreTags ∧ A.HasNegative) ∧
    (¬ (Tag.requiresPositiveX ∈ s.moreTags ∧ A.HasNegative) → norm = false → ∃ T, (∀ m, L.fit e T y w = .ok m → (Machine.fit (argEnv realOps) L (.ok (A, y)) w s).2.estimator = some (e, some m)) ∧
      ∀ err, L.fit e T y w = .error err → (Machine.fit (argEnv realOps) L (.ok (A, y)) w s).1 = .error err) := by
  obtain ⟨t, ⟨ht, hst⟩, hrun⟩ := Machine.fit_run_from (env := argEnv realOps) L s (A := A) y w hk hn he
  rw [Machine.tag_iff hk]
  by_cases h : (∃ γ, k = .chi2 γ) ∧ A.HasNegative
  · obtain ⟨h1, i, hi, h2⟩ := id h
    have hfull := full_pending (env := argEnv (P := P) realOps) (k := .num k) (a := ⟨A, none⟩) (i := i) (j := i) (fun t => (NumKernel.fails_iff k rfl t).2 ⟨h1, Or.inl h2⟩) (fun _ => le_refl i) hi hi norm
      ((s.km.map (·.clock)).getD 0) none
    rw [hst, hfull] at hrun
    rw [hrun]
    exact ⟨⟨fun _ => h, fun _ => rfl⟩, fun hc => absurd h hc⟩
  · obtain ⟨h1, h2⟩ := full_quiet (env := argEnv (P := P) realOps) (k := .num k) rfl rfl (noFaults_num hA.rows fun ⟨h1, x, hx, h2⟩ => h ⟨h1, by
      rcases hx with ⟨i, hi, rfl⟩ | ⟨_, _, hB, _⟩
      · exact ⟨i, hi, h2⟩
      · cases hB⟩) (fun _ h => h) ht
    constructor
    · refine ⟨fun hr => absurd hr ?_, fun hc => absurd hc h⟩
      rw [hrun]
      rcases hT : (KMState.full (argEnv realOps) t).1 with err | T
      · intro hr
        injection (show (.error err : Except PyErr Unit) = _ from hr) with hr
        exact h1 (by rw [hT, hr])
      · dsimp only
        rcases hm : L.fit e T y w with err | m
        · intro hr
          injection (show (.error err : Except PyErr Unit) = _ from hr) with hr
          exact hL T (by rw [hm, hr])
        · show ¬ (if s.classifier = true ∧ e = .svr then (.error .attributeError : Except PyErr Unit) else .ok ()) = _
          split_ifs <;> exact fun h => by cases h
    · intro _ hn0
      obtain ⟨T, hT⟩ := h2 hn0
      refine ⟨T, fun m hm => ?_, fun err hm => ?_⟩ <;> rw [hrun, hT] <;> simp only [hm]

/-- **C100 (partial)** (full statement: as for `C100_fit_partial`) Prediction of a fitted machine raises `RuntimeError` if and only if the estimator has the tag and an entry of the new data, or of the training data, is negative;
provided the learner does not raise it. -/
theorem C100_predict_partial (L : Learner M Y W Q) (s : Machine (KernelArg P) (List ℝ) M Y) {k : NumKernel} {norm : Bool} {A B : Arr2 (List ℝ)} {y : Y} {e : Est} {m : Option M}
    (hk : s.kFunc = some (.num k)) (hn : s.normalized = some norm) (hkm : s.km.isSome) (hx : s.trainX = some A) (hy : s.trainY = some y) (he : s.estimator = some (e, m)) (hc : B.ncols = A.ncols)
    (hA : A.Rect) (hB : B.Rect) (hA0 : 0 < A.nrows) (hB0 : 0 < B.nrows) (hL : ∀ T, (Machine.applyModel L m T).bind (L.cast y) ≠ .error .runtimeError) :
    (Machine.predict (argEnv realOps) L (.ok B) s).1 = .error .runtimeError ↔ Tag.requiresPositiveX ∈ s.moreTags ∧ (B.HasNegative ∨ A.HasNegative) := by
  obtain ⟨t, ⟨ht, hst⟩, hrun⟩ := Machine.predict_run_from (env := argEnv realOps) L s hk hn hkm hx hy he hc
  rw [Machine.tag_iff hk]
  by_cases h : (∃ γ, k = .chi2 γ) ∧ (B.HasNegative ∨ A.HasNegative)
  · obtain ⟨h1, h2⟩ := id h
    have hfull : (KMState.full (argEnv (P := P) realOps) t).1 = .error .runtimeError := by
      rw [hst]
      rcases h2 with ⟨i, hi, h2⟩ | ⟨j, hj, h2⟩
      · exact full_pending (a := ⟨B, some A⟩) (i := i) (j := 0) (fun t => (NumKernel.fails_iff k (((hB i hi).trans hc).trans (hA 0 hA0).symm) t).2 ⟨h1, Or.inl h2⟩) (fun h => by cases h) hi hA0 _ _ _
      · exact full_pending (a := ⟨B, some A⟩) (i := 0) (j := j) (fun t => (NumKernel.fails_iff k (((hB 0 hB0).trans hc).trans (hA j hj).symm) t).2 ⟨h1, Or.inr h2⟩) (fun h => by cases h) hB0 hj _ _ _
    rw [hrun, hfull]
    exact ⟨fun _ => h, fun _ => rfl⟩
  · obtain ⟨h1, -⟩ := full_quiet (env := argEnv (P := P) realOps) (k := .num k) rfl rfl (noFaults_num (hA.rows2 hB hc) fun ⟨h1, x, hx, h2⟩ => h ⟨h1, by
      rcases hx with ⟨i, hi, rfl⟩ | ⟨C, i, hC, hi, rfl⟩
      · exact Or.inl ⟨i, hi, h2⟩
      · cases hC
        exact Or.inr ⟨i, hi, h2⟩⟩) (fun _ h => h) ht
    refine ⟨fun hr => absurd hr ?_, fun hc => absurd hc h⟩
    rw [hrun]
    rcases hT : (KMState.full (argEnv realOps) t).1 with err | T
    · intro hr
      injection (show (.error err : Except PyErr Q) = _ from hr) with hr
      exact h1 (by rw [hT, hr])
    · exact hL T

namespace Demo
/-- the data matrices `[[1]]` and `[[-1]]` -/
noncomputable def onePos : Arr2 (List ℝ) := ⟨1, 1, fun _ => [1]⟩
noncomputable def oneNeg : Arr2 (List ℝ) := ⟨1, 1, fun _ => [-1]⟩
/-- a learner that accepts everything -/
def anyLearner : Learner Unit Unit Unit Unit := ⟨fun _ _ _ _ => .ok (), fun _ _ => .ok (), fun _ _ => .ok ()⟩
/-- `KernelMachine(k_func=k)` -/
def tagMachine (k : KernelArg Unit) : Machine (KernelArg Unit) (List ℝ) Unit Unit := ⟨true, some k, some "SVR", some true, none, none, none, none⟩
/-- a machine with the chi² kernel, fitted on positive data -/
noncomputable def tagFitted : Machine (KernelArg Unit) (List ℝ) Unit Unit :=
  ⟨true, some (.num (.chi2 1)), some "SVR", some true, some onePos, some (), some (KMState.init (.num (.chi2 1)) true 0), some (.svr, some ())⟩
/-- `KernelFromCallable(lambda x, y: Chi2Kernel()(x, y))` -/
noncomputable def lambdaChi2 : CallableKernel (List ℝ) Unit := ⟨fun x y _ => (NumKernel.chi2 1).call false (.vec x) (.vec y), [], "lambda"⟩
end Demo

/-- non-vacuity of `C100_fit_partial`: the chi² kernel with data of either sign, and the linear kernel with negative data -/
example : (Machine.fit (argEnv realOps) Demo.anyLearner (.ok (Demo.oneNeg, ())) () (Demo.tagMachine (.num (.chi2 1)))).1 = .error .runtimeError ∧
    (Machine.fit (argEnv realOps) Demo.anyLearner (.ok (Demo.onePos, ())) () (Demo.tagMachine (.num (.chi2 1)))).1 ≠ .error .runtimeError ∧
    (Machine.fit (argEnv realOps) Demo.anyLearner (.ok (Demo.oneNeg, ())) () (Demo.tagMachine (.num .linear))).1 ≠ .error .runtimeError := by
  have he : getEstimator (some "SVR") = .ok .svr := by decide +kernel
  refine ⟨((C100_fit_partial _ _ () () rfl rfl he (fun i hi => rfl) fun _ h => by cases h).1).2 ⟨by simp [Machine.moreTags, Demo.tagMachine], 0, by simp [Demo.oneNeg], -1, by simp [Demo.oneNeg], by norm_num⟩,
    fun h => ?_, fun h => ?_⟩
  · obtain ⟨-, i, -, a, ha, h0⟩ := ((C100_fit_partial _ _ () () rfl rfl he (fun i hi => rfl) fun _ h => by cases h).1).1 h
    simp only [Demo.onePos, List.mem_singleton] at ha
    subst ha
    norm_num at h0
  · obtain ⟨h1, -⟩ := ((C100_fit_partial _ _ () () rfl rfl he (fun i hi => rfl) fun _ h => by cases h).1).1 h
    simp [Machine.moreTags, Demo.tagMachine] at h1

/-- non-vacuity of `C100_predict_partial`: a machine with the chi² kernel, fitted on positive data -/
example : (Machine.predict (argEnv realOps) Demo.anyLearner (.ok Demo.oneNeg) Demo.tagFitted).1 = .error .runtimeError := by
  have hA : Demo.onePos.Rect := fun i hi => rfl
  have hB : Demo.oneNeg.Rect := fun i hi => rfl
  refine (C100_predict_partial (A := Demo.onePos) (B := Demo.oneNeg) (m := some ()) (e := .svr) (y := ()) (norm := true) (k := .chi2 1) Demo.anyLearner Demo.tagFitted rfl rfl rfl rfl rfl rfl rfl hA hB Nat.one_pos Nat.one_pos
    (fun _ h => ?_)).2 ⟨?_, Or.inl ⟨0, Nat.one_pos, -1, ?_, by norm_num⟩⟩
  · cases h
  · simp [Machine.moreTags, Demo.tagFitted]
  · simp [Demo.oneNeg]

/-- **C100** violated: a custom kernel that calls the chi² kernel makes fitting on negative data fail in the same way, but the estimator has no tags. -/
theorem C100_violated : (Demo.tagMachine (.custom Demo.lambdaChi2)).moreTags = [] ∧
    (Machine.fit (argEnv realOps) Demo.anyLearner (.ok (Demo.oneNeg, ())) () (Demo.tagMachine (.custom Demo.lambdaChi2))).1 = .error .runtimeError := by
  refine ⟨rfl, ?_⟩
  obtain ⟨t, ⟨-, hst⟩, hrun⟩ := Machine.fit_run_from (env := argEnv realOps) Demo.anyLearner (Demo.tagMachine (.custom Demo.lambdaChi2)) (A := Demo.oneNeg) () () rfl rfl
    (show getEstimator (some "SVR") = .ok .svr by decide +kernel)
  have hfull := full_pending (env := argEnv (P := Unit) realOps) (k := .custom Demo.lambdaChi2) (a := ⟨Demo.oneNeg, none⟩) (i := 0) (j := 0) (fun t =>
    (NumKernel.fails_iff (P := Unit) (.chi2 1) (x := [-1]) (y := [-1]) rfl t).2 ⟨⟨1, rfl⟩, Or.inl ⟨-1, by simp, by norm_num⟩⟩) (fun _ => le_refl 0) Nat.one_pos Nat.one_pos true 0 none
  rw [hrun, hst]
  rw [show (KMState.full (argEnv realOps) (attachedState (.custom Demo.lambdaChi2) true ⟨Demo.oneNeg, none⟩ (((Demo.tagMachine (.custom Demo.lambdaChi2)).km.map (·.clock)).getD 0) none)).1 = .error .runtimeError from hfull]

end KMethods
