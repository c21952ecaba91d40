import Verif.Props.Ranking
/-!
# C45: when `find_optimal_kernel` raises
-/
namespace KMethods
open PyM
variable {K X : Type} {env : Env K X F}

/-- **C45** the estimators that can be asked for, in any case; other names: `NotImplementedError`; anything that is not a string: `AttributeError` -/
theorem C45_estimator_names (s : String) :
    (getEstimator (some s) = .ok .svc ↔ s.toLower = "svm" ∨ s.toLower = "svc") ∧ (getEstimator (some s) = .ok .svr ↔ s.toLower = "svr") ∧
    (s.toLower ≠ "svm" → s.toLower ≠ "svc" → s.toLower ≠ "svr" → getEstimator (some s) = .error .notImplemented) ∧ getEstimator none = .error .attributeError := by
  unfold getEstimator
  simp only [List.mem_cons, List.not_mem_nil, or_false]
  refine ⟨?_, ?_, fun h1 h2 h3 => ?_, trivial⟩
  · split
    · simp [*]
    · split <;> simp [*]
  · split
    · rename_i h
      constructor
      · intro h'; simp at h'
      · intro h'
        rw [h'] at h
        exact absurd h (by decide +kernel)
    · split <;> simp [*]
  · simp [*]

example : "Svm".toLower = "svm" ∧ "KNN".toLower ≠ "svm" ∧ "KNN".toLower ≠ "svc" ∧ "KNN".toLower ≠ "svr" := by decide +kernel

/-- what happens after the method name was accepted -/
theorem findOptimal_valid {cv : CVScore} {sample : SetSample X} {targets : List F} {method : String} {p : MethodParams} {s : SetSt K X}
    (hm : method.toLower = "align/corr" ∨ method.toLower = "cv_risk") :
    findOptimalKernel env cv true sample targets method p s =
      (SetSt.attach sample none >>= fun _ => rankKernels env cv targets method p >>= fun metric => lift (argmaxF metric) >>= fun i => SetSt.getItem (.int i)) s := by
  show (raiseIf (!validMethod method) .notImplemented >>= fun _ => _ : PyM (SetSt K X) Nat) s = _
  rw [show validMethod method = true by rcases hm with h | h <;> simp [validMethod, h]]
  rfl

/-- **C45** If the size of the sample is not that of the bucket: `ValueError`, and nothing changes. -/
theorem C45_wrong_size {s : SetSt K X} {A : Arr2 X} {n : NumSamples} (hs : s.set.numSamples = n) (hn : n ≠ .unset ∧ n ≠ .one A.nrows) (cv : CVScore) (targets : List F) {method : String}
    (p : MethodParams) (hm : method.toLower = "align/corr" ∨ method.toLower = "cv_risk") :
    findOptimalKernel env cv true (sampleArg A) targets method p s = (.error .valueError, s) := by
  rw [findOptimal_valid hm]
  refine bind_error ?_
  unfold SetSt.attach
  have hc : (sampleArg A).check = .ok A.nrows := by
    show (ensureShape2D _ >>= _) = _
    rw [(ensureShape2D_iff [A.nrows, A.ncols] A.nrows A.ncols).2 ⟨0, rfl⟩]
    rfl
  rw [hc]
  show (raiseIf (s.set.numSamples != .unset && s.set.numSamples != .one A.nrows) .valueError >>= _ : PyM (SetSt K X) Unit) s = _
  rw [show (s.set.numSamples != .unset && s.set.numSamples != .one A.nrows) = true by simp [hs, hn]]
  rfl

example : Demo.setStA.set.numSamples = .one 3 ∧ (NumSamples.one 3 ≠ .unset ∧ NumSamples.one 3 ≠ .one Demo.rB.nrows) := ⟨rfl, by simp, by simp [Demo.rB]⟩

/-- **C45** A sample that cannot be made a numeric 2-D array: the exception of that check, and nothing changes. -/
theorem C45_bad_sample {s : SetSt K X} {sample : SetSample X} {e : PyErr} (he : sample.check = .error e) (cv : CVScore) (targets : List F) {method : String}
    (p : MethodParams) (hm : method.toLower = "align/corr" ∨ method.toLower = "cv_risk") :
    findOptimalKernel env cv true sample targets method p s = (.error e, s) := by
  rw [findOptimal_valid hm]
  refine bind_error ?_
  show (lift sample.check >>= fun _ => _ : PyM (SetSt K X) Unit) s = _
  rw [he]
  rfl

example : (SetSample.arr true [2, 2, 2] fun _ => (0 : ℝ)).check = .error .valueError := rfl

/-- **C45** An empty bucket: `ValueError` for both methods (for 'cv_risk' with keywords it knows). -/
theorem C45_empty_bucket {s : SetSt K X} (hs : s.set.members = []) {A : Arr2 X} (hn : s.set.numSamples = .unset ∨ s.set.numSamples = .one A.nrows) (cv : CVScore) (targets : List F)
    {method : String} {p : MethodParams} (hm : method.toLower = "align/corr" ∨ (method.toLower = "cv_risk" ∧ p.zeroDiv = none ∧ p.centeredAlready = none ∧ p.other = false)) :
    (findOptimalKernel env cv true (sampleArg A) targets method p s).1 = .error .valueError := by
  rw [findOptimal_valid (hm.imp_right fun h => h.1)]
  obtain ⟨s', e1, h1⟩ := attach_nowAttached (env := env) hn fun r hr => by rw [hs] at hr; simp at hr
  have hs' : s'.set.members = [] := by rw [h1.1]; exact hs
  rw [bind_ok e1]
  rcases hm with hm | ⟨hm, h2, h3, h4⟩
  · have : rankKernels env cv targets method p s' = (.ok [], s') := by
      rw [rank_align hm]
      show mapEach s'.set.members _ s' = _
      rw [hs']
      rfl
    rw [bind_ok this]
    show ((lift (argmaxF []) >>= fun i => SetSt.getItem (.int i) : PyM (SetSt K X) Nat) s').1 = _
    rw [argmaxF, if_pos rfl]
    rfl
  · have : rankKernels env cv targets method p s' = (.error .valueError, s') := by
      rw [rank_cv hm]
      show (raiseIf (p.zeroDiv.isSome || p.centeredAlready.isSome || p.other) .typeError >>= _ : PyM (SetSt K X) (List F)) s' = _
      rw [h2, h3, h4]
      show (mapEach s'.set.members (cvScoreOne env cv p) >>= _ : PyM (SetSt K X) (List F)) s' = _
      rw [hs']
      rfl
    rw [bind_error this]

/-- **C45** Keywords of the other method, or unknown ones: `TypeError` (with 'align/corr' only if the bucket is not empty), after the bucket was attached. -/
theorem C45_keywords {s : SetSt K X} {A : Arr2 X} (hn : s.set.numSamples = .unset ∨ s.set.numSamples = .one A.nrows) (hkm : ∀ r ∈ s.set.members, ∃ k norm, s.heap.IsKM env r k norm)
    (cv : CVScore) (targets : List F) {method : String} {p : MethodParams} :
    (method.toLower = "cv_risk" → p.zeroDiv ≠ none ∨ p.centeredAlready ≠ none ∨ p.other = true →
      ∃ s', findOptimalKernel env cv true (sampleArg A) targets method p s = (.error .typeError, s') ∧ s.NowAttached env s' A) ∧
    (env.ops = realOps → method.toLower = "align/corr" → p.numFolds ≠ none ∨ p.estimatorName ≠ none ∨ p.other = true → s.set.members ≠ [] →
      (∀ r ∈ s.set.members, ∃ G, s.heap.KernelOn env r A G) →
      ∃ s', findOptimalKernel env cv true (sampleArg A) targets method p s = (.error .typeError, s') ∧ s.NowAttached env s' A) := by
  obtain ⟨s1, e1, h1⟩ := attach_nowAttached (env := env) hn hkm
  constructor
  · intro hm hp
    refine ⟨s1, ?_, h1⟩
    rw [findOptimal_valid (.inr hm), bind_ok e1]
    refine bind_error ?_
    rw [rank_cv hm]
    show (raiseIf (p.zeroDiv.isSome || p.centeredAlready.isSome || p.other) .typeError >>= _ : PyM (SetSt K X) (List F)) s1 = _
    rw [show (p.zeroDiv.isSome || p.centeredAlready.isSome || p.other) = true by
      rcases hp with h | h | h
      · simp [Option.isSome_iff_ne_none.2 h]
      · simp [Option.isSome_iff_ne_none.2 h]
      · simp [h]]
    rfl
  · intro hops hm hp hne hG
    obtain ⟨r, l, hl⟩ := List.exists_cons_of_ne_nil hne
    have hr : r ∈ s.set.members := by rw [hl]; simp
    obtain ⟨G, hG⟩ := hG r hr
    obtain ⟨s2, e2, h2⟩ := h1.full hops hr hG
    refine ⟨s2, ?_, h2⟩
    rw [findOptimal_valid (.inl hm), bind_ok e1]
    refine bind_error ?_
    rw [rank_align hm]
    show mapEach s1.set.members _ s1 = _
    rw [show s1.set.members = r :: l by rw [h1.1]; exact hl]
    refine bind_error ?_
    show (SetSt.onHeap (Heap.full env r) >>= _ : PyM (SetSt K X) F) s1 = _
    rw [bind_ok e2]
    show (raiseIf (p.numFolds.isSome || p.estimatorName.isSome || p.other) .typeError >>= _ : PyM (SetSt K X) F) s2 = _
    rw [show (p.numFolds.isSome || p.estimatorName.isSome || p.other) = true by
      rcases hp with h | h | h
      · simp [Option.isSome_iff_ne_none.2 h]
      · simp [Option.isSome_iff_ne_none.2 h]
      · simp [h]]
    rfl

/-- **C45** With 'cv_risk' and an unknown estimator: `NotImplementedError`, after the bucket (which is not empty) was attached. -/
theorem C45_unknown_estimator {s : SetSt K X} {A : Arr2 X} (hn : s.set.numSamples = .unset ∨ s.set.numSamples = .one A.nrows) (hkm : ∀ r ∈ s.set.members, ∃ k norm, s.heap.IsKM env r k norm)
    (hne : s.set.members ≠ []) (cv : CVScore) (targets : List F) {method : String} {p : MethodParams} (hm : method.toLower = "cv_risk")
    (hp : p.zeroDiv = none ∧ p.centeredAlready = none ∧ p.other = false) {name : String} (hname : p.estimatorName = some name)
    (hu : name.toLower ≠ "svm" ∧ name.toLower ≠ "svc" ∧ name.toLower ≠ "svr") :
    ∃ s', findOptimalKernel env cv true (sampleArg A) targets method p s = (.error .notImplemented, s') ∧ s.NowAttached env s' A := by
  obtain ⟨s1, e1, h1⟩ := attach_nowAttached (env := env) hn hkm
  obtain ⟨r, l, hl⟩ := List.exists_cons_of_ne_nil hne
  refine ⟨s1, ?_, h1⟩
  rw [findOptimal_valid (.inr hm), bind_ok e1]
  refine bind_error ?_
  rw [rank_cv hm]
  show (raiseIf (p.zeroDiv.isSome || p.centeredAlready.isSome || p.other) .typeError >>= _ : PyM (SetSt K X) (List F)) s1 = _
  rw [hp.1, hp.2.1, hp.2.2]
  show (mapEach s1.set.members (cvScoreOne env cv p) >>= _ : PyM (SetSt K X) (List F)) s1 = _
  rw [show s1.set.members = r :: l by rw [h1.1]; exact hl]
  refine bind_error (bind_error ?_)
  show (lift (getEstimator (some (p.estimatorName.getD "SVM"))) >>= _ : PyM (SetSt K X) F) s1 = _
  rw [hname, Option.getD_some, (C45_estimator_names name).2.2.1 hu.1 hu.2.1 hu.2.2]
  rfl

/-- **C45** With 'cv_risk', if the cross-validation raises for some member and gives a score for all earlier ones: that exception, after the bucket was attached. -/
theorem C45_score_raises (hops : env.ops = realOps) {s : SetSt K X} {A : Arr2 X} (hn : s.set.numSamples = .unset ∨ s.set.numSamples = .one A.nrows) (cv : CVScore) (targets : List F)
    {method : String} {p : MethodParams} (hm : method.toLower = "cv_risk")
    (hp : p.zeroDiv = none ∧ p.centeredAlready = none ∧ p.other = false) {e : Est} (he : getEstimator (some (p.estimatorName.getD "SVM")) = .ok e)
    {G : Nat → Matrix (Fin A.nrows) (Fin A.nrows) ℝ} (hG : ∀ r ∈ s.set.members, s.heap.KernelOn env r A (G r)) {l1 l2 : List Nat} {r : Nat} (hl : s.set.members = l1 ++ r :: l2) {err : PyErr}
    (h1 : ∀ q ∈ l1, ∃ v, cv e (p.numFolds.getD 3) (.dense, Mat.ofReal (G q)) = .ok v) (h2 : cv e (p.numFolds.getD 3) (.dense, Mat.ofReal (G r)) = .error err) :
    ∃ s', findOptimalKernel env cv true (sampleArg A) targets method p s = (.error err, s') ∧ s.NowAttached env s' A := by
  obtain ⟨s1, e1, a1⟩ := attach_nowAttached (env := env) hn fun r hr => (hG r hr).isKM
  have hone : ∀ q ∈ s.set.members, ∀ t, s.NowAttached env t A → ∃ t', cvScoreOne env cv p q t = (cv e (p.numFolds.getD 3) (.dense, Mat.ofReal (G q)), t') ∧ s.NowAttached env t' A := by
    intro q hq t ht
    obtain ⟨t', e2, h2⟩ := ht.full hops hq (hG q hq)
    refine ⟨t', ?_, h2⟩
    show (lift (getEstimator (some (p.estimatorName.getD "SVM"))) >>= _ : PyM (SetSt K X) F) t = _
    rw [he]
    show (SetSt.onHeap (Heap.full env q) >>= _ : PyM (SetSt K X) F) t = _
    rw [bind_ok e2]
    rfl
  have key : ∀ (m : List Nat) (t : SetSt K X), (∀ q ∈ m, q ∈ s.set.members ∧ ∃ v, cv e (p.numFolds.getD 3) (.dense, Mat.ofReal (G q)) = .ok v) → s.NowAttached env t A →
      ∃ t', mapEach (m ++ r :: l2) (cvScoreOne env cv p) t = (.error err, t') ∧ s.NowAttached env t' A := by
    intro m
    induction m with
    | nil =>
      intro t _ ht
      obtain ⟨t', e2, a2⟩ := hone r (by rw [hl]; simp) t ht
      rw [h2] at e2
      exact ⟨t', bind_error e2, a2⟩
    | cons q m ih =>
      intro t hq ht
      obtain ⟨hq1, v, hv⟩ := hq q (by simp)
      obtain ⟨t1, e2, a2⟩ := hone q hq1 t ht
      rw [hv] at e2
      obtain ⟨t2, e3, a3⟩ := ih t1 (fun q' hq' => hq q' (by simp [hq'])) a2
      refine ⟨t2, ?_, a3⟩
      show (cvScoreOne env cv p q >>= _ : PyM (SetSt K X) (List F)) t = _
      rw [bind_ok e2]
      exact bind_error e3
  obtain ⟨s2, e2, a2⟩ := key l1 s1 (fun q hq => ⟨by rw [hl]; simp [hq], h1 q hq⟩) a1
  refine ⟨s2, ?_, a2⟩
  rw [findOptimal_valid (.inr hm), bind_ok e1]
  refine bind_error ?_
  rw [rank_cv hm]
  show (raiseIf (p.zeroDiv.isSome || p.centeredAlready.isSome || p.other) .typeError >>= _ : PyM (SetSt K X) (List F)) s1 = _
  rw [hp.1, hp.2.1, hp.2.2]
  show (mapEach s1.set.members (cvScoreOne env cv p) >>= _ : PyM (SetSt K X) (List F)) s1 = _
  rw [show s1.set.members = l1 ++ r :: l2 by rw [a1.1]; exact hl]
  exact bind_error e2

/-- the bucket of two members, where the first gets a score and the second makes the cross-validation fail -/
example : ∃ cv : CVScore, Demo.bucket2.set.members = [0] ++ 1 :: [] ∧ (∀ q ∈ [0], ∃ v, cv .svc 3 (.dense, Mat.ofReal (Demo.G2 q)) = .ok v) ∧
    cv .svc 3 (.dense, Mat.ofReal (Demo.G2 1)) = .error .valueError := by
  classical
  refine ⟨fun _ _ M => if M = (.dense, Mat.ofReal (Demo.G2 1)) then .error .valueError else .ok 0, rfl, ?_, if_pos rfl⟩
  intro q hq
  obtain rfl : q = 0 := by simpa using hq
  refine ⟨0, if_neg fun h => ?_⟩
  have h1 : (fun i j : Fin 3 => F.real (Demo.G2 0 i j)) = fun i j : Fin 3 => F.real (Demo.G2 1 i j) := eq_of_heq (Mat.mk.inj (Prod.mk.inj h).2).2.2
  have h2 := congrFun (congrFun h1 2) 2
  injection h2 with h2
  have h3 : Demo.G2 0 2 2 = 9 := by
    show (((2:Nat):ℝ) + 1) * (((2:Nat):ℝ) + 1) = 9
    norm_num
  have h4 : Demo.G2 1 2 2 ≤ 1 := by
    show cosNorm (Demo.rA.gramR fun x y : ℝ => 2 * (x * y)) (2 : Fin 3) (2 : Fin 3) ≤ 1
    unfold cosNorm
    rw [Real.sqrt_mul_self_eq_abs]
    exact div_le_one_of_le₀ (le_abs_self _) (abs_nonneg _)
  linarith

/-- the other hypotheses: members that are kernel matrix objects, keywords not known -/
example : (∀ r ∈ Demo.bucket2.set.members, ∃ k norm, Demo.bucket2.heap.IsKM Demo.env2 r k norm) ∧ ({ other := true } : MethodParams).other = true ∧
    ∃ p : MethodParams, p.estimatorName = some "KNN" ∧ p.other = false :=
  ⟨fun r hr => (Demo.kernelOn2 r hr).isKM, rfl, { estimatorName := some "KNN" }, rfl, rfl⟩

end KMethods
