import Verif.Lemmas.Broken
import Verif.Props.Alternatives
import Verif.Props.Custom
import Verif.Props.Tags
/-!
# A kernel that cannot be evaluated is not passed over
-/
namespace KMethods
open PyM KMState
variable {K X H M W P : Type} {env : Env K X F}

/-- **C102** If the kernel function of some member of the bucket raises an exception on a pair of rows of the sample, then `find_optimal_kernel` raises an exception, whatever the other kernels are and however the kernel matrices
have been used before (in particular by earlier calls that raised). -/
theorem C102_find {s : SetSt K X} {A : Arr2 X} (h : s.HasBroken env A) (cv : CVScore) (isBucket : Bool) (targets : List F) (method : String) (p : MethodParams) :
    ∃ e, (findOptimalKernel env cv isBucket (sampleArg A) targets method p s).1 = .error e := by
  obtain ⟨r, hr, t, ht, hb⟩ := h
  unfold findOptimalKernel
  cases isBucket
  · exact ⟨.typeError, rfl⟩
  show ∃ e, ((raiseIf (!validMethod method) .notImplemented >>= fun _ => SetSt.attach (sampleArg A) none >>= _ : PyM (SetSt K X) Nat) s).1 = .error e
  rcases validMethod method
  · exact ⟨.notImplemented, rfl⟩
  show ∃ e, ((SetSt.attach (sampleArg A) none >>= _ : PyM (SetSt K X) Nat) s).1 = .error e
  refine raises_bind fun _ s' e => raises_bind_left ?_
  obtain ⟨h1, t', h2, h3⟩ := attach_stuck hr ht hb e
  exact rank_stuck (by rw [h1]; exact hr) ⟨t', _, h2, h3⟩ cv targets method p

/-- **C102** The exception is `RuntimeError` if this is the first kernel of the bucket, and the other arguments are as they should be. -/
theorem C102_first {s : SetSt K X} {A : Arr2 X} {r : Nat} {l : List Nat} (hl : s.set.members = r :: l) (hkm : ∀ q ∈ s.set.members, ∃ t, s.heap.objs q = some (.km t)) {t : KMState K X F}
    (ht : s.heap.objs r = some (.km t)) (hb : env.BreaksOn t.kernel A) (hn : s.set.numSamples = .unset ∨ s.set.numSamples = .one A.nrows) (cv : CVScore) (targets : List F) {method : String} {p : MethodParams}
    (hm : method.toLower = "align/corr" ∨ method.toLower = "cv_risk" ∧ (p.zeroDiv = none ∧ p.centeredAlready = none ∧ p.other = false) ∧ ∃ e, getEstimator (some (p.estimatorName.getD "SVM")) = .ok e) :
    (findOptimalKernel env cv true (sampleArg A) targets method p s).1 = .error .runtimeError := by
  have hc : (sampleArg A).check = .ok A.nrows := by
    show (ensureShape2D _ >>= _) = _
    rw [(ensureShape2D_iff [A.nrows, A.ncols] A.nrows A.ncols).2 ⟨0, rfl⟩]
    rfl
  obtain ⟨h', e1, -⟩ := attach_ok_run hc none s hn hkm
  obtain ⟨h1, t', h2, h3⟩ := attach_stuck (by rw [hl]; simp) ht hb e1
  rw [hl] at h1
  obtain ⟨s2, hfull⟩ : ∃ s2, SetSt.onHeap (Heap.full env r) ⟨h', { s.set with numSamples := .one A.nrows }⟩ = (.error .runtimeError, s2) := ⟨_, Prod.ext (Heap.full_raises h2 h3) rfl⟩
  rw [findOptimal_valid (hm.imp_right fun h => h.1), bind_ok e1]
  suffices h : ∃ s2, rankKernels env cv targets method p ⟨h', { s.set with numSamples := .one A.nrows }⟩ = (.error .runtimeError, s2) by
    obtain ⟨s2, h⟩ := h
    rw [bind_error h]
  rcases hm with hm | ⟨hm, ⟨p1, p2, p3⟩, est, he⟩
  · rw [rank_align hm]
    refine ⟨s2, ?_⟩
    show mapEach s.set.members (alignScoreOne env targets p) _ = _
    rw [hl]
    exact bind_error (bind_error hfull)
  · rw [rank_cv hm]
    refine ⟨s2, ?_⟩
    unfold cvRanking
    rw [p1, p2, p3]
    show (mapEach s.set.members (cvScoreOne env cv p) >>= _ : PyM (SetSt K X) (List F)) _ = _
    rw [hl]
    refine bind_error (bind_error ?_)
    unfold cvScoreOne
    rw [he]
    show (SetSt.onHeap (Heap.full env r) >>= _ : PyM (SetSt K X) F) _ = _
    exact bind_error hfull

/-- **C102** `OptimalKernelSVC.fit` and `OptimalKernelSVR.fit` raise an exception if the bucket they were given contains such a kernel; the chosen kernel and the model of an earlier `fit` are kept. -/
theorem C102_fit (mkB : String → PyM (Heap K X) Bucket) (cv : List F → CVScore) (L : SvmLearner H M W P) {s : OptMachine K X H M} {t : KSet} (ht : s.kBucket = .bucket t)
    (hmem : ∀ r ∈ t.members, r < s.heap.next ∧ (s.heap.objs r).isSome) {A : Arr2 X} (hb : SetSt.HasBroken env ⟨s.heap, t⟩ A) (y : List F) (w : W) :
    ∃ e s', OptMachine.fit env mkB cv L (.ok (A, y)) w s = (.error e, s') ∧ s'.optKernel = s.optKernel ∧ s'.model = s.model := by
  obtain ⟨rs, h', f, e, a1, a2, a3, a4⟩ := copyBucket_run s.heap t hmem
  rw [OptMachine.fit_eq, OptMachine.choose_bucket mkB s ht, e]
  dsimp only
  obtain ⟨r, hr, u, hu, hu2⟩ := hb
  have hr : r ∈ t.members := hr
  rw [← a3] at hr
  obtain ⟨q, hq, rfl⟩ := List.mem_map.1 hr
  have hbroken : SetSt.HasBroken env ⟨h', { t with members := rs }⟩ A := ⟨q, hq, u, (a4 q hq).2.2.trans hu, hu2⟩
  unfold OptMachine.fitOn
  have key : ∀ s1 : OptMachine K X H M, s1.heap = h' → s1.bucket = some { t with members := rs } → ∃ e h'' b, OptMachine.searchKernel env cv A y s1 = (.error e, { s1 with heap := h'', bucket := b }) := by
    intro s1 e1 e2
    obtain ⟨err, herr⟩ := C102_find hbroken (cv y) true y s1.method { estimatorName := some s1.est.name }
    unfold OptMachine.searchKernel
    rw [get_bind_run]
    unfold OptMachine.onBucket
    rw [e2, e1]
    exact ⟨err, _, _, Prod.ext herr rfl⟩
  obtain ⟨err, h'', b, hs⟩ := key { s with heap := h', bucket := some { t with members := rs }, trainX := some A, trainY := some y } rfl rfl
  exact ⟨err, _, bind_error hs, rfl, rfl⟩

/-- **C102** In particular with the chi² kernel in the bucket and a negative entry in the data. (The tags of the class say nothing about it: `OptimalKernelSVC` and `OptimalKernelSVR` have no `_more_tags`.) -/
theorem C102_chi2 {Q : Type} (mkB : String → PyM (Heap (KernelArg Q) (List ℝ)) Bucket) (cv : List F → CVScore) (L : SvmLearner H M W P) {s : OptMachine (KernelArg Q) (List ℝ) H M} {t : KSet} (ht : s.kBucket = .bucket t)
    (hmem : ∀ r ∈ t.members, r < s.heap.next ∧ (s.heap.objs r).isSome) {r : Nat} (hr : r ∈ t.members) {u : KMState (KernelArg Q) (List ℝ) F} (hu : s.heap.objs r = some (.km u)) {γ : ℝ} (hk : u.kernel = .num (.chi2 γ))
    {A : Arr2 (List ℝ)} (hneg : A.HasNegative) (y : List F) (w : W) : ∃ e, (OptMachine.fit (argEnv realOps) mkB cv L (.ok (A, y)) w s).1 = .error e := by
  obtain ⟨i, hi, hneg⟩ := hneg
  obtain ⟨e, s', h, -⟩ := C102_fit (env := argEnv realOps) mkB cv L ht hmem (A := A) ⟨r, hr, u, hu, i, i, le_rfl, hi, fun c => by
    rw [hk]
    exact (NumKernel.fails_iff (.chi2 γ) rfl c).2 ⟨⟨γ, rfl⟩, Or.inl hneg⟩⟩ y w
  exact ⟨e, by rw [h]⟩

/-- **C102 (partial)** Full statement: also later calls of `rank_kernels`, after one that raised, raise. This is false, see `C102_rank_violated`.
`rank_kernels` right after `attach_to` raises an exception. -/
theorem C102_rank_partial {s s' : SetSt K X} {A : Arr2 X} (h : s.HasBroken env A) (hs : SetSt.attach (sampleArg A) none s = (.ok (), s')) (cv : CVScore) (targets : List F) (method : String) (p : MethodParams) :
    ∃ e, (rankKernels env cv targets method p s').1 = .error e := by
  obtain ⟨r, hr, t, ht, hb⟩ := h
  obtain ⟨h1, t', h2, h3⟩ := attach_stuck hr ht hb hs
  exact rank_stuck (by rw [h1]; exact hr) ⟨t', _, h2, h3⟩ cv targets method p

/-- **C102 (partial)** (full statement as before) For kernels that cannot be formatted (all custom kernels), however they have been used since `attach_to`, except in sparse format: `rank_kernels` raises each time. -/
theorem C102_rank_custom_partial (hops : env.ops = realOps) {s : SetSt K X} {A : Arr2 X} {r : Nat} (hr : r ∈ s.set.members) {t : KMState K X F} (ht : s.heap.objs r = some (.km t)) {k : K} {norm : Bool}
    (hs : SinceDense env k norm ⟨A, none⟩ t) (hk : env.fmtRaises k = true) (hb : env.BreaksOn k A) (cv : CVScore) (targets : List F) (method : String) (p : MethodParams) :
    ∃ e, (rankKernels env cv targets method p s).1 = .error e := by
  obtain ⟨i, j, hij, hj, hf⟩ := hb
  obtain ⟨e, he⟩ := C11_custom_always_raises_partial (op := .full) hk (by rw [hops]; exact realOps_findsNan) hij hj hf hs (Or.inl rfl)
  refine rank_stuck hr ⟨t, e, ht, ?_⟩ cv targets method p
  rw [exec_full_run] at he
  rcases hT : (KMState.full env t).1 with e' | T
  · rw [hT] at he
    injection (show (.error e' : Except PyErr (KMOut F)) = .error e from he) with he
    rw [he]
  · rw [hT] at he
    cases he

namespace Demo
/-- kernels that always raise -/
noncomputable def brokenEnv : Env Unit ℝ F := ⟨fun _ _ _ => .real 0, fun _ _ _ _ => true, realOps, fun _ => false⟩
/-- a bucket with one such kernel -/
noncomputable def brokenBucket : SetSt Unit ℝ := ⟨⟨fun r => if r = 0 then some (.km (KMState.init () false 0)) else none, 1⟩, ⟨[0], .unset, true⟩⟩
/-- the bucket after `attach_to`, and after the first `rank_kernels` -/
noncomputable def brokenAttached : SetSt Unit ℝ := (SetSt.attach (sampleArg oneRow) none brokenBucket).2
noncomputable def brokenRanked (cv : CVScore) : SetSt Unit ℝ := (rankKernels brokenEnv cv [.real 1] "align/corr" {} brokenAttached).2
theorem align_some {n : Nat} (A B : Fin n → Fin n → F) : ∃ x, alignmentCentered ⟨n, n, A⟩ ⟨n, n, B⟩ (.value 0) false = .ok x := by
  unfold alignmentCentered
  rw [if_neg (by simp)]
  show ∃ x, (centerKm ⟨n, n, A⟩ >>= fun cA => centerKm ⟨n, n, B⟩ >>= fun cB => alignmentOf cA cB (.value 0)) = .ok x
  unfold centerKm
  rw [if_pos rfl, if_pos rfl]
  show ∃ x, alignmentOf ⟨n, n, _⟩ ⟨n, n, _⟩ (.value 0) = .ok x
  unfold alignmentOf frobeniusNorm frobeniusProduct
  rw [dif_pos ⟨rfl, rfl⟩, dif_pos ⟨rfl, rfl⟩, dif_pos ⟨rfl, rfl⟩]
  dsimp only [Except.map, Bind.bind, Except.bind]
  split_ifs
  · exact ⟨0, rfl⟩
  · exact ⟨_, rfl⟩
theorem align_name : "align/corr".toLower = "align/corr" := by decide +kernel
end Demo

/-- **C102** violated for `rank_kernels`: the kernel function always raises; so does `rank_kernels` after `attach_to`. When it is called once more, it returns a list of scores. -/
theorem C102_rank_violated (cv : CVScore) : Demo.brokenBucket.HasBroken Demo.brokenEnv Demo.oneRow ∧ (SetSt.attach (sampleArg Demo.oneRow) none Demo.brokenBucket).1 = .ok () ∧
    (rankKernels Demo.brokenEnv cv [.real 1] "align/corr" {} Demo.brokenAttached).1 = .error .runtimeError ∧
    ∃ x, (rankKernels Demo.brokenEnv cv [.real 1] "align/corr" {} (Demo.brokenRanked cv)).1 = .ok [x] := by
  refine ⟨⟨0, by simp [Demo.brokenBucket], _, rfl, 0, 0, le_rfl, Nat.one_pos, fun _ => rfl⟩, rfl, ?_, ?_⟩
  · rw [rank_align Demo.align_name]
    rfl
  · unfold Demo.brokenRanked
    rw [rank_align Demo.align_name, rank_align Demo.align_name]
    obtain ⟨x, hx⟩ : ∃ x, alignmentCenteredAny (storedArg (.dense, Mat.ofCells 1 1 fun a b => if b < a then F.nan else F.nan)) (.arr (idealKernel [.real 1])) (.value 0) false = .ok x := by
      exact Demo.align_some _ _
    refine ⟨x, ?_⟩
    have hone : (alignScoreOne Demo.brokenEnv [.real 1] {} 0 (alignRanking Demo.brokenEnv [.real 1] {} Demo.brokenAttached).2).1 = .ok x := hx
    show ((alignScoreOne Demo.brokenEnv [.real 1] {} 0 >>= _ : PyM (SetSt Unit ℝ) (List F)) (alignRanking Demo.brokenEnv [.real 1] {} Demo.brokenAttached).2).1 = _
    rw [bind_ok (Prod.ext hone rfl)]
    rfl

/-- the hypotheses of `C102_find` hold in an example -/
example : Demo.brokenBucket.HasBroken Demo.brokenEnv Demo.oneRow := ⟨0, by simp [Demo.brokenBucket], _, rfl, 0, 0, le_rfl, Nat.one_pos, fun _ => rfl⟩

/-- and those of `C102_first` and `C102_fit` -/
example (cv : CVScore) (L : SvmLearner Unit Unit Unit Unit) (mkB : String → PyM (Heap Unit ℝ) Bucket) :
    (findOptimalKernel Demo.brokenEnv cv true (sampleArg Demo.oneRow) [.real 1] "align/corr" {} Demo.brokenBucket).1 = .error .runtimeError ∧
    ∃ e s', OptMachine.fit Demo.brokenEnv mkB (fun _ => cv) L (.ok (Demo.oneRow, [.real 1])) () ⟨.svc, .bucket Demo.brokenBucket.set, "align/corr", (), Demo.brokenBucket.heap, none, none, none, none, none⟩ = (.error e, s') := by
  have hb : ∀ k, Demo.brokenEnv.BreaksOn k Demo.oneRow := fun _ => ⟨0, 0, le_rfl, Nat.one_pos, fun _ => rfl⟩
  refine ⟨C102_first (r := 0) (l := []) rfl (fun q hq => ?_) (t := KMState.init () false 0) rfl (hb _) (Or.inl rfl) cv _ (Or.inl Demo.align_name), ?_⟩
  · obtain rfl : q = 0 := by simpa [Demo.brokenBucket] using hq
    exact ⟨_, rfl⟩
  · obtain ⟨e, s', h, -⟩ := C102_fit (env := Demo.brokenEnv) mkB (fun _ => cv) L (s := ⟨.svc, .bucket Demo.brokenBucket.set, "align/corr", (), Demo.brokenBucket.heap, none, none, none, none, none⟩) rfl (fun r hr => by
      obtain rfl : r = 0 := by simpa [Demo.brokenBucket] using hr
      exact ⟨Nat.one_pos, rfl⟩) (A := Demo.oneRow) ⟨0, List.mem_singleton.2 rfl, _, rfl, hb _⟩ [.real 1] ()
    exact ⟨e, s', h⟩

end KMethods
