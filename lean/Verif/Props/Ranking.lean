import Verif.Lemmas.Ranking
/-!
# C45: `find_optimal_kernel`
-/
namespace KMethods
open PyM KMState
variable {K X : Type} {env : Env K X F}

/-- once a list of scores has been computed -/
theorem findOptimal_run {cv : CVScore} {A : Arr2 X} {targets : List F} {method : String} {p : MethodParams} {s s' s'' : SetSt K X} {metric : List F} {i r : Nat}
    (hm : validMethod method = true) (ha : SetSt.attach (sampleArg A) none s = (.ok (), s')) (hr : rankKernels env cv targets method p s' = (.ok metric, s''))
    (hi : argmaxF metric = .ok i) (hmem : s''.set.members[i]? = some r) :
    findOptimalKernel env cv true (sampleArg A) targets method p s = (.ok r, s'') := by
  show (raiseIf (!validMethod method) .notImplemented >>= fun _ => _ : PyM (SetSt K X) Nat) s = _
  rw [hm]
  show (SetSt.attach (sampleArg A) none >>= _ : PyM (SetSt K X) Nat) s = _
  rw [bind_ok ha]
  show (rankKernels env cv targets method p >>= _ : PyM (SetSt K X) Nat) s' = _
  rw [bind_ok hr]
  show (lift (argmaxF metric) >>= _ : PyM (SetSt K X) Nat) s'' = _
  rw [hi]
  exact getItem_member s'' hmem

theorem FirstBest.member {members : List Nat} {sc : Nat → ℝ} {i : Nat} (h : FirstBest (members.map sc) i) : ∃ r, members[i]? = some r :=
  ⟨members[i]'(by simpa using h.index_lt), List.getElem?_eq_getElem _⟩

theorem rank_align {cv : CVScore} {targets : List F} {method : String} {p : MethodParams} {s : SetSt K X} (hm : method.toLower = "align/corr") :
    rankKernels env cv targets method p s = alignRanking env targets p s := by
  unfold rankKernels validMethod
  rw [hm]
  rfl

theorem rank_cv {cv : CVScore} {targets : List F} {method : String} {p : MethodParams} {s : SetSt K X} (hm : method.toLower = "cv_risk") :
    rankKernels env cv targets method p s = cvRanking env cv p s := by
  unfold rankKernels validMethod
  rw [hm]
  rfl

/-- **C45** `find_optimal_kernel(bucket, sample, y, method='align/corr')` attaches the bucket to the sample and returns the first of the kernel matrices whose centered
alignment with `y yᵀ` is the largest. -/
theorem C45_align (hops : env.ops = realOps) {s : SetSt K X} {A : Arr2 X} (cv : CVScore) (y : Fin A.nrows → ℝ) {method : String} (hm : method.toLower = "align/corr")
    (hn : s.set.numSamples = .unset ∨ s.set.numSamples = .one A.nrows) (hne : s.set.members ≠ [])
    {G : Nat → Matrix (Fin A.nrows) (Fin A.nrows) ℝ} (hG : ∀ r ∈ s.set.members, s.heap.KernelOn env r A (G r)) :
    ∃ i r s', findOptimalKernel env cv true (sampleArg A) ((List.ofFn y).map .real) method {} s = (.ok r, s') ∧ s.NowAttached env s' A ∧
      s.set.members[i]? = some r ∧ FirstBest (s.set.members.map fun r => calign (G r) (outerR A.nrows y)) i := by
  obtain ⟨s1, e1, h1⟩ := attach_nowAttached (env := env) hn fun r hr => (hG r hr).isKM
  obtain ⟨s2, e2, h2⟩ := alignRanking_run hops h1 y hG
  obtain ⟨i, e3, hi⟩ := argmaxF_real (xs := s.set.members.map fun r => calign (G r) (outerR A.nrows y)) (by simpa using hne)
  obtain ⟨r, hr⟩ := hi.member
  exact ⟨i, r, s2, findOptimal_run (by simp [validMethod, hm]) e1 ((rank_align hm).trans e2) e3 (by rw [h2.1]; exact hr), h2, hr, hi⟩

/-- **C45** With `method='cv_risk'`, for any (finite) scores of the cross-validation: the first of the kernel matrices whose score is the largest, if some two scores
differ by more than 1e-8. -/
theorem C45_cv (hops : env.ops = realOps) {s : SetSt K X} {A : Arr2 X} {cv : CVScore} (targets : List F) {method : String} (hm : method.toLower = "cv_risk") {p : MethodParams}
    (hp : p.zeroDiv = none ∧ p.centeredAlready = none ∧ p.other = false) {e : Est} (he : getEstimator (some (p.estimatorName.getD "SVM")) = .ok e)
    (hn : s.set.numSamples = .unset ∨ s.set.numSamples = .one A.nrows)
    {G : Nat → Matrix (Fin A.nrows) (Fin A.nrows) ℝ} (hG : ∀ r ∈ s.set.members, s.heap.KernelOn env r A (G r)) {sc : Nat → ℝ}
    (hsc : ∀ r ∈ s.set.members, cv e (p.numFolds.getD 3) (.dense, Mat.ofReal (G r)) = .ok (.real (sc r)))
    (hspread : ∃ r ∈ s.set.members, ∃ q ∈ s.set.members, 1e-8 < sc r - sc q) :
    ∃ i r s', findOptimalKernel env cv true (sampleArg A) targets method p s = (.ok r, s') ∧ s.NowAttached env s' A ∧
      s.set.members[i]? = some r ∧ FirstBest (s.set.members.map sc) i := by
  obtain ⟨a, ha, b, hb, hab⟩ := hspread
  obtain ⟨u, v, hu, hmm, -⟩ := C44_scaled (List.mem_map.2 ⟨a, ha, rfl⟩) (List.mem_map.2 ⟨b, hb, rfl⟩) hab
  obtain ⟨s1, e1, h1⟩ := attach_nowAttached (env := env) hn fun r hr => (hG r hr).isKM
  obtain ⟨s2, e2, h2⟩ := cvRanking_run hops h1 hp he hG (sc := fun r => .real (sc r)) hsc (by rw [List.map_map] at hmm; exact hmm)
  have hl : ((s.set.members.map sc).map fun x => F.real (u * x + v)).map (F.real 100 * ·) = (((s.set.members.map sc).map fun x => 100 * (u * x + v)).map F.real) := by
    simp only [List.map_map]
    rfl
  rw [hl] at e2
  obtain ⟨i, e3, hi⟩ := argmaxF_real (xs := (s.set.members.map sc).map fun x => 100 * (u * x + v)) (by simpa using List.ne_nil_of_mem ha)
  rw [FirstBest.map_iff (fun x y hxy => by show 100 * (u * x + v) < 100 * (u * y + v); nlinarith)] at hi
  obtain ⟨r, hr⟩ := hi.member
  exact ⟨i, r, s2, findOptimal_run (by simp [validMethod, hm]) e1 ((rank_cv hm).trans e2) e3 (by rw [h2.1]; exact hr), h2, hr, hi⟩

/-- **C45** With `method='cv_risk'`, if no two scores differ by more than 1e-8: the first kernel matrix. -/
theorem C45_cv_tied (hops : env.ops = realOps) {s : SetSt K X} {A : Arr2 X} {cv : CVScore} (targets : List F) {method : String} (hm : method.toLower = "cv_risk") {p : MethodParams}
    (hp : p.zeroDiv = none ∧ p.centeredAlready = none ∧ p.other = false) {e : Est} (he : getEstimator (some (p.estimatorName.getD "SVM")) = .ok e)
    (hn : s.set.numSamples = .unset ∨ s.set.numSamples = .one A.nrows) {r0 : Nat} {l : List Nat} (hl : s.set.members = r0 :: l)
    {G : Nat → Matrix (Fin A.nrows) (Fin A.nrows) ℝ} (hG : ∀ r ∈ s.set.members, s.heap.KernelOn env r A (G r)) {sc : Nat → ℝ}
    (hsc : ∀ r ∈ s.set.members, cv e (p.numFolds.getD 3) (.dense, Mat.ofReal (G r)) = .ok (.real (sc r)))
    (hspread : ∀ r ∈ s.set.members, ∀ q ∈ s.set.members, sc r - sc q ≤ 1e-8) :
    ∃ s', findOptimalKernel env cv true (sampleArg A) targets method p s = (.ok r0, s') ∧ s.NowAttached env s' A := by
  have hne : s.set.members.map sc ≠ [] := by rw [hl]; simp
  have hmm := C44_constant hne (by
    intro a ha b hb
    obtain ⟨r, hr, rfl⟩ := List.mem_map.1 ha
    obtain ⟨q, hq, rfl⟩ := List.mem_map.1 hb
    exact hspread r hr q hq)
  obtain ⟨s1, e1, h1⟩ := attach_nowAttached (env := env) hn fun r hr => (hG r hr).isKM
  obtain ⟨s2, e2, h2⟩ := cvRanking_run hops h1 hp he hG (sc := fun r => .real (sc r)) hsc (by rw [List.map_map] at hmm; exact hmm)
  have hl' : ((s.set.members.map sc).map fun _ => (0 : F)).map (F.real 100 * ·) = (((s.set.members.map sc).map fun _ => (100 * 0 : ℝ)).map F.real) := by
    simp only [List.map_map]
    rfl
  rw [hl'] at e2
  obtain ⟨i, e3, hi⟩ := argmaxF_real (xs := (s.set.members.map sc).map fun _ => (100 * 0 : ℝ)) (by simpa using hne)
  obtain rfl := hi.const
  exact ⟨s2, findOptimal_run (by simp [validMethod, hm]) e1 ((rank_cv hm).trans e2) e3 (by rw [h2.1]; show s.set.members[0]? = _; rw [hl]; rfl), h2⟩

/-- **C45** With `method='cv_risk'`, if some score is not a number: the first kernel matrix. -/
theorem C45_cv_nan (hops : env.ops = realOps) {s : SetSt K X} {A : Arr2 X} {cv : CVScore} (targets : List F) {method : String} (hm : method.toLower = "cv_risk") {p : MethodParams}
    (hp : p.zeroDiv = none ∧ p.centeredAlready = none ∧ p.other = false) {e : Est} (he : getEstimator (some (p.estimatorName.getD "SVM")) = .ok e)
    (hn : s.set.numSamples = .unset ∨ s.set.numSamples = .one A.nrows) {r0 : Nat} {l : List Nat} (hl : s.set.members = r0 :: l)
    {G : Nat → Matrix (Fin A.nrows) (Fin A.nrows) ℝ} (hG : ∀ r ∈ s.set.members, s.heap.KernelOn env r A (G r)) {sc : Nat → F}
    (hsc : ∀ r ∈ s.set.members, cv e (p.numFolds.getD 3) (.dense, Mat.ofReal (G r)) = .ok (sc r))
    (hnan : ∃ r ∈ s.set.members, sc r = .nan) :
    ∃ s', findOptimalKernel env cv true (sampleArg A) targets method p s = (.ok r0, s') ∧ s.NowAttached env s' A := by
  obtain ⟨r, hr, hr0⟩ := hnan
  have hmm := C44_empty_nan.2 (s.set.members.map sc) (List.mem_map.2 ⟨r, hr, hr0⟩)
  obtain ⟨s1, e1, h1⟩ := attach_nowAttached (env := env) hn fun r hr => (hG r hr).isKM
  obtain ⟨s2, e2, h2⟩ := cvRanking_run hops h1 hp he hG hsc hmm
  refine ⟨s2, findOptimal_run (by simp [validMethod, hm]) e1 ((rank_cv hm).trans e2) (argmaxF_all_nan ?_ ?_) (by rw [h2.1]; show s.set.members[0]? = _; rw [hl]; rfl), h2⟩
  · rw [hl]; simp
  · intro x hx
    simp only [List.map_map, List.mem_map] at hx
    obtain ⟨_, -, rfl⟩ := hx
    rfl

/-- **C45** an unknown method: `NotImplementedError`; not a `KernelBucket`: `TypeError`; in both cases nothing changes -/
theorem C45_rejects (cv : CVScore) (sample : SetSample X) (targets : List F) (method : String) (p : MethodParams) (s : SetSt K X) :
    findOptimalKernel env cv false sample targets method p s = (.error .typeError, s) ∧
    (method.toLower ≠ "align/corr" → method.toLower ≠ "cv_risk" → findOptimalKernel env cv true sample targets method p s = (.error .notImplemented, s)) := by
  refine ⟨rfl, fun h1 h2 => ?_⟩
  show (raiseIf (!validMethod method) .notImplemented >>= fun _ => _ : PyM (SetSt K X) Nat) s = _
  rw [show validMethod method = false by simp [validMethod, h1, h2]]
  rfl

/-- **C45** Whatever the arguments and the state: if something is returned, it is a member of the bucket, and the bucket has the same members as before. -/
theorem C45_member {cv : CVScore} {isBucket : Bool} {sample : SetSample X} {targets : List F} {method : String} {p : MethodParams} {s s' : SetSt K X} {r : Nat}
    (h : findOptimalKernel env cv isBucket sample targets method p s = (.ok r, s')) : r ∈ s.set.members ∧ s'.set.members = s.set.members := by
  obtain ⟨_, s1, e1, h⟩ := bind_ok_iff.1 h
  obtain ⟨_, s2, e2, h⟩ := bind_ok_iff.1 h
  obtain ⟨_, s3, e3, h⟩ := bind_ok_iff.1 h
  obtain ⟨metric, s4, e4, h⟩ := bind_ok_iff.1 h
  obtain ⟨i, s5, e5, h⟩ := bind_ok_iff.1 h
  have m1 : s1.set.members = s.set.members := by have := sameMembers_raiseIf (!isBucket) .typeError s; rw [e1] at this; exact this
  have m2 : s2.set.members = s1.set.members := by have := sameMembers_raiseIf (!validMethod method) .notImplemented s1; rw [e2] at this; exact this
  have m3 : s3.set.members = s2.set.members := by have := sameMembers_attach sample s2; rw [e3] at this; exact this
  have m4 : s4.set.members = s3.set.members := by have := sameMembers_rank (env := env) cv targets method p s3; rw [e4] at this; exact this
  have m5 : s5.set.members = s4.set.members := by have := sameMembers_lift (argmaxF metric) s4; rw [e5] at this; exact this
  have hm : s5.set.members = s.set.members := by rw [m5, m4, m3, m2, m1]
  rw [← hm]
  by_cases hi : i < s5.set.members.length
  · have := getItem_member s5 (List.getElem?_eq_getElem hi)
    rw [this] at h
    obtain ⟨h1, rfl⟩ := Prod.mk.inj h
    obtain rfl := Except.ok.inj h1
    exact ⟨List.getElem_mem _, rfl⟩
  · exfalso
    have h1 : (decide ((i : Int) < 0) || decide ((i : Int) ≥ (s5.set.members.length : Int))) = true := by
      simp only [Bool.or_eq_true, decide_eq_true_eq]
      omega
    have : SetSt.getItem (.int i) s5 = (.error .indexError, s5) := by
      show (raiseIf (decide ((i : Int) < 0) || decide ((i : Int) ≥ (s5.set.members.length : Int))) .indexError >>= fun _ => _ : PyM (SetSt K X) Nat) s5 = _
      rw [h1]
      rfl
    rw [this] at h
    exact nomatch (Prod.mk.inj h).1

/-! A bucket of two different kernels, `x y` and `2 x y` (the latter normalising), not attached -/
namespace Demo
noncomputable def env2 : Env Bool ℝ F := ⟨fun b x y => .real (if b then 2 * (x * y) else x * y), fun _ _ _ _ => false, realOps, fun _ => false⟩
noncomputable def bucket2 : SetSt Bool ℝ :=
  ⟨⟨fun r => if r = 0 then some (.km (KMState.init false false 0)) else if r = 1 then some (.km (KMState.init true true 0)) else none, 2⟩, ⟨[0, 1], .unset, true⟩⟩
noncomputable def G2 (r : Nat) : Matrix (Fin 3) (Fin 3) ℝ :=
  if r = 0 then rA.gramR (· * ·) else cosNorm (rA.gramR fun x y : ℝ => 2 * (x * y))
/-- the score is the entry (2, 2) of the matrix -/
noncomputable def cv2 : CVScore := fun _ _ M => .ok (if h : 2 < M.2.nrows ∧ 2 < M.2.ncols then M.2.get ⟨2, h.1⟩ ⟨2, h.2⟩ else .nan)

theorem isMatrix_G2 : IsMatrix1 env2 true true rA (G2 1) := by
  refine ⟨fun x y => 2 * (x * y), fun _ _ _ _ _ => rfl, fun x y _ _ => ?_, ?_⟩
  · show F.real (if true = true then _ else _) = _
    rfl
  · rw [if_pos rfl]
    refine ⟨fun i => ?_, rfl⟩
    have h0 : (0:ℝ) ≤ (i : Nat) := Nat.cast_nonneg _
    have h1 : (0:ℝ) < 2 * ((((i : Nat) : ℝ) + 1) * (((i : Nat) : ℝ) + 1)) := by positivity
    refine ⟨h1.le, ?_⟩
    show ¬ |2 * ((((i : Nat) : ℝ) + 1) * (((i : Nat) : ℝ) + 1))| ≤ _
    rw [abs_of_pos h1, not_le]
    nlinarith

theorem kernelOn2 : ∀ r ∈ bucket2.set.members, bucket2.heap.KernelOn env2 r rA (G2 r) := by
  intro r hr
  have : r = 0 ∨ r = 1 := by simpa [bucket2] using hr
  rcases this with rfl | rfl
  · refine ⟨false, false, ⟨_, rfl, .new 0⟩, (· * ·), fun _ _ _ _ _ => rfl, fun x y _ _ => ?_, rfl⟩
    show F.real (if false = true then _ else _) = _
    rfl
  · exact ⟨true, true, ⟨_, rfl, .new 0⟩, isMatrix_G2⟩
end Demo

example : "Align/Corr".toLower = "align/corr" ∧ "CV_risk".toLower = "cv_risk" ∧ getEstimator (some "SVM") = .ok .svc ∧ getEstimator (some "svr") = .ok .svr := by
  refine ⟨by decide +kernel, by decide +kernel, ?_, ?_⟩
  · exact if_pos (by decide +kernel)
  · exact (if_neg (by decide +kernel)).trans (if_pos (by decide +kernel))

/-- the hypotheses of `C45_align` -/
example : Demo.env2.ops = realOps ∧ Demo.bucket2.set.numSamples = .unset ∧ Demo.bucket2.set.members ≠ [] ∧
    ∀ r ∈ Demo.bucket2.set.members, Demo.bucket2.heap.KernelOn Demo.env2 r Demo.rA (Demo.G2 r) := ⟨rfl, rfl, by simp [Demo.bucket2], Demo.kernelOn2⟩

/-- the hypotheses of `C45_cv` -/
example : (∀ r ∈ Demo.bucket2.set.members, Demo.cv2 .svc 3 (.dense, Mat.ofReal (Demo.G2 r)) = .ok (.real (Demo.G2 r 2 2))) ∧
    ∃ r ∈ Demo.bucket2.set.members, ∃ q ∈ Demo.bucket2.set.members, 1e-8 < Demo.G2 r 2 2 - Demo.G2 q 2 2 := by
  refine ⟨fun r _ => rfl, 0, by simp [Demo.bucket2], 1, by simp [Demo.bucket2], ?_⟩
  show 1e-8 < (((2:Nat):ℝ) + 1) * (((2:Nat):ℝ) + 1) - cosNorm (Demo.rA.gramR fun x y : ℝ => 2 * (x * y)) (2 : Fin 3) (2 : Fin 3)
  have h : cosNorm (Demo.rA.gramR fun x y : ℝ => 2 * (x * y)) (2 : Fin 3) (2 : Fin 3) ≤ 1 := by
    unfold cosNorm
    rw [Real.sqrt_mul_self_eq_abs]
    exact div_le_one_of_le₀ (le_abs_self _) (abs_nonneg _)
  norm_num
  linarith

/-- the hypotheses of `C45_cv_tied`: a constant score -/
example : ∀ r ∈ Demo.bucket2.set.members, (fun _ _ _ => .ok (.real 0.5) : CVScore) .svr 3 (.dense, Mat.ofReal (Demo.G2 r)) = .ok (.real 0.5) := fun _ _ => rfl

end KMethods
