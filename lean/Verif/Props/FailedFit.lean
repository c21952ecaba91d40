import Verif.Lemmas.FailedFit
import Verif.Props.Broken
import Verif.Props.Machine
/-!
# C103: `predict` after a `fit` that raised (`OptimalKernelSVC`, `OptimalKernelSVR`)
-/
namespace KMethods
open PyM KMState OptMachine
variable {K X M W P H : Type} {env : Env K X F}

/-- **C103** A machine that has never been fitted successfully makes no predictions, whatever calls of `fit` raised. -/
theorem C103_never_fitted (mkB : String → PyM (Heap K X) Bucket) (cv : List F → CVScore) (L : SvmLearner H M W P) (checked : Except PyErr (Arr2 X × List F)) (w : W) {s s' : OptMachine K X H M} {e : PyErr}
    (hs : s.model = none) (h : OptMachine.fit env mkB cv L checked w s = (.error e, s')) : s'.model = none ∧ ∀ test, ∃ e', (OptMachine.predict env L test s').1 = .error e' := by
  have hm : s'.model = none := (fit_error_model mkB cv L checked w h).trans hs
  exact ⟨hm, fun test => predict_no_model L test s' hm⟩

/-- **C103 (partial)** Full statement: for every `fit` that raises, afterwards `predict` gives the same results as before or raises. This is false, see `C103_violated`, `C103_search_violated`, `C103_svm_violated`.
It holds if `fit` raises because of `k_bucket` or because the training data do not pass the check. -/
theorem C103_rejected_partial {mkB : String → PyM (Heap K X) Bucket} (hB : MakesFresh mkB) (hB' : MakesOk env mkB) (cv : List F → CVScore) {L : SvmLearner H M W P} (checked : Except PyErr (Arr2 X × List F)) (w : W)
    {s : OptMachine K X H M} (hs : OptMachine.Lived env mkB L s) (hk : ∀ r, s.optKernel = some r → (s.heap.objs r).isSome)
    (h : (∃ e, checked = .error e) ∨ s.kBucket = .other ∨ ∃ n e h', s.kBucket = .str n ∧ mkB n s.heap = (.error e, h')) :
    (∃ e, (OptMachine.fit env mkB cv L checked w s).1 = .error e) ∧
      ∀ test, (OptMachine.predict env L test (OptMachine.fit env mkB cv L checked w s).2).1 = (OptMachine.predict env L test s).1 := by
  have hok := hs.ok hB'
  obtain ⟨h1, b1, hc2⟩ := chooseBucket_method mkB s
  obtain ⟨c1, -, -⟩ := chooseBucket_keeps hB (U := fun r => s.optKernel = some r) s fun r hr => by
    by_contra hlt
    have := hk r hr
    rw [hok.1 r (not_lt.1 hlt)] at this
    cases this
  have key : ∀ test, (OptMachine.predict env L test (chooseBucket mkB s).2).1 = (OptMachine.predict env L test s).1 := fun test =>
    predict_same L test hok (by rw [hc2]) (by rw [hc2]) (by rw [hc2]) (by rw [hc2]) fun r hr => c1 r hr
  have hfit : ∃ e, OptMachine.fit env mkB cv L checked w s = (.error e, (chooseBucket mkB s).2) := by
    rw [fit_eq]
    rcases hc : chooseBucket mkB s with ⟨e1 | _, s1⟩
    · exact ⟨e1, rfl⟩
    rcases h with ⟨e, rfl⟩ | h | ⟨n, e, h', h, hn⟩
    · exact ⟨e, rfl⟩
    · rw [choose_other mkB s h] at hc
      cases congrArg Prod.fst hc
    · rw [choose_str mkB s h, hn] at hc
      cases congrArg Prod.fst hc
  obtain ⟨e, hfit⟩ := hfit
  rw [hfit]
  exact ⟨⟨e, rfl⟩, key⟩

/-- **C103** violated, if the search for a kernel raises: because of the method (`align/corr` always raises, see C46; so do unknown methods) or because of a kernel that raises (see C102).
`fit` has replaced the training data, but not the chosen kernel, nor the model. From then on `predict` passes to the old model the matrix of the old kernel, with a column for each of the new training samples. -/
theorem C103_search_violated (hops : env.ops = realOps) (mkB : String → PyM (Heap K X) Bucket) (cv : List F → CVScore) (L : SvmLearner H M W P) {s : OptMachine K X H M} {r : Nat} {m : M} {k : K} {norm : Bool}
    (h1 : s.optKernel = some r) (hr : r < s.heap.next) (h2 : s.heap.IsKM env r k norm) (h3 : s.model = some m) {t : KSet} (hkb : s.kBucket = .bucket t)
    (hmem : ∀ q ∈ t.members, q < s.heap.next ∧ (s.heap.objs q).isSome) {A : Arr2 X} (y : List F) (w : W)
    (hbad : s.method.toLower = "align/corr" ∨ validMethod s.method = false ∨ SetSt.HasBroken env ⟨s.heap, t⟩ A) :
    ∃ e s', OptMachine.fit env mkB cv L (.ok (A, y)) w s = (.error e, s') ∧ ∀ (B : Arr2 X) (G : Matrix (Fin B.nrows) (Fin A.nrows) ℝ), B.ncols = A.ncols → IsMatrix2 env k norm B A G →
      (OptMachine.predict env L (.ok B) s').1 = (L.predict m (.dense, Mat.ofReal G)).bind (L.cast s.est) := by
  obtain ⟨rs, h', f, e, a1, a2, a3, a4⟩ := copyBucket_run s.heap t hmem
  have hsearch : ∃ e, (findOptimalKernel env (cv y) true (sampleArg A) y s.method { estimatorName := some s.est.name } ⟨h', { t with members := rs }⟩).1 = .error e := by
    rcases hbad with hm | hm | ⟨q, hq, u, hu, hu2⟩
    · exact align_fails (cv y) (sampleArg A) y hm s.est.name _
    · refine ⟨.notImplemented, ?_⟩
      show ((raiseIf (!validMethod s.method) .notImplemented >>= fun _ => _ : PyM (SetSt K X) Nat) _).1 = _
      rw [hm]
      rfl
    · have hq : q ∈ t.members := hq
      rw [← a3] at hq
      obtain ⟨p, hp, rfl⟩ := List.mem_map.1 hq
      exact C102_find (env := env) (s := ⟨h', { t with members := rs }⟩) ⟨p, hp, u, (a4 p hp).2.2.trans hu, hu2⟩ (cv y) true y s.method { estimatorName := some s.est.name }
  obtain ⟨e', h'', b, hf, hobj⟩ := fitOn_search_error (env := env) cv L A y w (s := { s with heap := h', bucket := some { t with members := rs }, trainX := some A, trainY := some y }) rfl hsearch
    (U := fun q => q = r) (fun q hq => by
      obtain rfl : q = r := hq
      exact hr.trans_le a2) (fun q hq hqr => by
      obtain rfl : q = r := hqr
      exact absurd (a4 q hq).1 (not_le.2 hr))
  refine ⟨e', { s with heap := h'', bucket := b, trainX := some A, trainY := some y }, ?_, fun B G hc hG => ?_⟩
  · rw [fit_eq, choose_bucket mkB s hkb, e]
    exact hf
  · obtain ⟨u, hu, hre⟩ := h2
    obtain ⟨t', -, hp⟩ := C47_optimal_predict hops L (s := { s with heap := h'', bucket := b, trainX := some A, trainY := some y }) (A := A) (B := B) h1 rfl
      ⟨u, (hobj r rfl).trans ((a1 r hr).trans hu), hre⟩ h3 hc hG
    rw [hp]

/-- **C103** violated, if the SVM raises (for example because of the weights of the samples): then the kernel has been replaced, too, but not the model. From then on `predict` passes to the old model the matrix
of the new kernel, with a column for each of the new training samples. -/
theorem C103_svm_violated (hops : env.ops = realOps) (mkB : String → PyM (Heap K X) Bucket) {cv : List F → CVScore} (L : SvmLearner H M W P) {s : OptMachine K X H M} {t : KSet} {m : M} (h3 : s.model = some m)
    (hkb : s.kBucket = .bucket t) (hm : s.method.toLower = "cv_risk") {A : Arr2 X} (y : List F) (w : W) (hal : ∀ r ∈ t.members, r < s.heap.next)
    (hn : t.numSamples = .unset ∨ t.numSamples = .one A.nrows)
    {G : Nat → Matrix (Fin A.nrows) (Fin A.nrows) ℝ} (hG : ∀ r ∈ t.members, s.heap.KernelOn env r A (G r)) {sc : Nat → ℝ}
    (hsc : ∀ r ∈ t.members, cv y s.est 3 (.dense, Mat.ofReal (G r)) = .ok (.real (sc r))) (hspread : ∃ r ∈ t.members, ∃ q ∈ t.members, 1e-8 < sc r - sc q)
    {e : PyErr} (hL : ∀ T, L.fit s.est .rbf s.hyper T y w = .error e) :
    ∃ i r k norm s', t.members[i]? = some r ∧ FirstBest (t.members.map sc) i ∧ s.heap.IsKM env r k norm ∧ OptMachine.fit env mkB cv L (.ok (A, y)) w s = (.error e, s') ∧
      ∀ (B : Arr2 X) (G : Matrix (Fin B.nrows) (Fin A.nrows) ℝ), B.ncols = A.ncols → IsMatrix2 env k norm B A G →
        (OptMachine.predict env L (.ok B) s').1 = (L.predict m (.dense, Mat.ofReal G)).bind (L.cast s.est) := by
  obtain ⟨i, r, q, h', b, b1, b2, -, ⟨k, norm, b3, u, b4, b5⟩, -, hf⟩ := C46_cv_partial hops mkB (cv := cv) L hkb hm (A := A) y w hal hn hG hsc hspread
  rw [hL] at hf
  refine ⟨i, r, k, norm, { s with heap := h', bucket := b, trainX := some A, trainY := some y, optKernel := some q }, b1, b2, b3, hf, fun B G hc hG => ?_⟩
  obtain ⟨t', -, hp⟩ := C47_optimal_predict hops L (s := { s with heap := h', bucket := b, trainX := some A, trainY := some y, optKernel := some q }) (A := A) (B := B) rfl rfl ⟨u, b4, b5.reachable⟩ h3 hc hG
  rw [hp]

namespace Demo
theorem firstBest2 {i r : Nat} (h : bucket2.set.members[i]? = some r) (hi : FirstBest (bucket2.set.members.map fun r => G2 r 2 2) i) : r = 0 := by
  change [0, 1][i]? = some r at h
  rcases i with _ | _ | i
  · exact (Option.some.inj h).symm
  · exfalso
    obtain ⟨x, hx, -, hlt⟩ := hi
    obtain rfl : G2 1 2 2 = x := Option.some.inj hx
    have h1 : G2 0 2 2 < G2 1 2 2 := hlt (G2 0 2 2) (List.mem_singleton.2 rfl)
    have h2 : G2 1 2 2 ≤ 1 := by
      show cosNorm (rA.gramR fun x y : ℝ => 2 * (x * y)) (2 : Fin 3) (2 : Fin 3) ≤ 1
      unfold cosNorm
      rw [Real.sqrt_mul_self_eq_abs]
      exact div_le_one_of_le₀ (le_abs_self _) (abs_nonneg _)
    have h3 : G2 0 2 2 = (((2:Nat):ℝ) + 1) * (((2:Nat):ℝ) + 1) := rfl
    norm_num at h3
    linarith
  · simp at h

theorem optMachine_lived : OptMachine.Lived env2 noBuckets recorder optMachine := by
  refine .new ⟨fun r hr => ?_, fun r s hs => ?_⟩ _ _ _ _
  · change 2 ≤ r at hr
    show (if r = 0 then _ else if r = 1 then _ else none) = none
    rw [if_neg (by omega), if_neg (by omega)]
  · change (if r = 0 then some (Obj.km (KMState.init false false 0)) else if r = 1 then some (.km (KMState.init true true 0)) else none) = some (.km s) at hs
    split_ifs at hs
    · injection hs with hs; injection hs with hs; subst hs; exact ⟨false, false, .new 0⟩
    · injection hs with hs; injection hs with hs; subst hs; exact ⟨true, true, .new 0⟩

/-- `fit` on a bucket of two kernels succeeds, and chooses the first of them -/
theorem optMachine_fits_first : ∃ q h' b m, OptMachine.fit env2 noBuckets (fun _ => cv2) recorder (.ok (rA, [1, 0, 1])) () optMachine =
    (.ok (), { optMachine with heap := h', bucket := b, trainX := some rA, trainY := some [1, 0, 1], optKernel := some q, model := some (.rbf, m) }) ∧ h'.IsKM env2 q false false ∧ q < h'.next ∧
    ∀ r ∈ bucket2.set.members, r < h'.next ∧ h'.objs r = bucket2.heap.objs r := by
  obtain ⟨i, r, q, h', b, h0, h1, h2, ⟨k, norm, ⟨t0, h3, h4⟩, t, h5, h6⟩, h7, h⟩ := C46_cv_partial (env := env2) rfl noBuckets (cv := fun _ => cv2) recorder (s := optMachine) (t := bucket2.set) rfl
    (by decide +kernel) (A := rA) [1, 0, 1] () alloc2 (Or.inl rfl) kernelOn2 (sc := fun r => G2 r 2 2) (fun r _ => rfl) spread2
  obtain rfl := firstBest2 h0 h1
  have h3 : some (Obj.km (KMState.init false false 0)) = some (.km t0) := h3
  injection h3 with h3
  injection h3 with h3
  subst h3
  obtain rfl : k = false := h4.kernel.1.symm
  obtain rfl : norm = false := h4.kernel.2.symm
  have hok : Heap.Ok env2 h' := by
    have := (optMachine_lived.fit (fun _ => cv2) (.ok (rA, [1, 0, 1])) ()).ok fun _ _ h => h
    rw [h] at this
    exact this
  have hlt : ∀ r, (h'.objs r).isSome → r < h'.next := fun r hr => by
    by_contra hlt
    rw [hok.1 r (not_lt.1 hlt)] at hr
    cases hr
  refine ⟨q, h', b, _, h, ⟨t, h5, h6.reachable⟩, hlt q (by rw [h5]; rfl), fun r hr => ?_⟩
  have e := h7 r (alloc2 r hr)
  refine ⟨hlt r ?_, e⟩
  rw [e]
  have : r = 0 ∨ r = 1 := by simpa [bucket2] using hr
  rcases this with rfl | rfl <;> rfl
end Demo

/-- **C103** violated: a machine has been fitted on the sample 1, 2, 3 with `method='cv_risk'`. After `set_params(method='align/corr')`, `fit` on the sample 2, 3, 4 raises. Then `predict` returns
other predictions than before. -/
theorem C103_violated : ∃ s1 s2, OptMachine.fit Demo.env2 Demo.noBuckets (fun _ => Demo.cv2) Demo.recorder (.ok (Demo.rA, [1, 0, 1])) () Demo.optMachine = (.ok (), s1) ∧
    (∃ e, OptMachine.fit Demo.env2 Demo.noBuckets (fun _ => Demo.cv2) Demo.recorder (.ok (Demo.rA', [1, 0, 1])) () (OptMachine.setParams [.method "align/corr"] s1).2 = (.error e, s2)) ∧
    (∃ p, (OptMachine.predict Demo.env2 Demo.recorder (.ok Demo.rA) s2).1 = .ok p) ∧
    (OptMachine.predict Demo.env2 Demo.recorder (.ok Demo.rA) s2).1 ≠ (OptMachine.predict Demo.env2 Demo.recorder (.ok Demo.rA) s1).1 := by
  obtain ⟨q, h', b, m, h, hk, hq, hmem⟩ := Demo.optMachine_fits_first
  obtain ⟨e, s2, hs2, hp2⟩ := C103_search_violated (env := Demo.env2) rfl Demo.noBuckets (fun _ => Demo.cv2) Demo.recorder
    (s := { Demo.optMachine with method := "align/corr", heap := h', bucket := b, trainX := some Demo.rA, trainY := some [1, 0, 1], optKernel := some q, model := some (.rbf, m) }) rfl hq hk rfl rfl
    (fun r hr => ⟨(hmem r hr).1, by
      rw [(hmem r hr).2]
      have : r = 0 ∨ r = 1 := by simpa [Demo.bucket2] using hr
      rcases this with rfl | rfl <;> rfl⟩) (A := Demo.rA') [1, 0, 1] () (Or.inl Demo.align_name)
  obtain ⟨t1, -, hp1⟩ := C47_optimal_predict (env := Demo.env2) rfl Demo.recorder
    (s := { Demo.optMachine with heap := h', bucket := b, trainX := some Demo.rA, trainY := some [1, 0, 1], optKernel := some q, model := some (.rbf, m) }) (A := Demo.rA) (B := Demo.rA) rfl rfl hk rfl rfl
    (Demo.isMatrix_env2 false Demo.rA Demo.rA).1
  have hp2 := hp2 Demo.rA _ rfl (Demo.isMatrix_env2 false Demo.rA' Demo.rA).1
  refine ⟨_, s2, h, ⟨e, hs2⟩, ⟨_, hp2⟩, ?_⟩
  rw [hp2, hp1]
  intro hc
  have h4 := congrArg (fun x : Except PyErr (Fmt × Mat F) => Demo.cell00 x) hc
  change F.real ((((0 : Nat) : ℝ) + 1) * (((0 : Nat) : ℝ) + 2)) = F.real ((((0 : Nat) : ℝ) + 1) * (((0 : Nat) : ℝ) + 1)) at h4
  have h5 := F.real.inj h4
  norm_num at h5

/-- the hypotheses of `C103_never_fitted` -/
example : Demo.optMachine.model = none ∧ ∃ e s', OptMachine.fit Demo.env2 Demo.noBuckets (fun _ => Demo.cv2) Demo.recorder (.error .valueError) () Demo.optMachine = (.error e, s') := by
  refine ⟨rfl, ?_⟩
  rw [fit_eq]
  rcases chooseBucket Demo.noBuckets Demo.optMachine with ⟨e | _, s1⟩
  · exact ⟨e, s1, rfl⟩
  · exact ⟨.valueError, s1, rfl⟩

/-- those of `C103_rejected_partial`: a fitted machine, and training data that do not pass the check -/
example : MakesFresh Demo.noBuckets ∧ MakesOk Demo.env2 Demo.noBuckets ∧ ∃ s r, OptMachine.Lived Demo.env2 Demo.noBuckets Demo.recorder s ∧ s.optKernel = some r ∧ (s.heap.objs r).isSome ∧ s.model.isSome := by
  refine ⟨fun n h => ⟨fun _ _ => rfl, le_rfl, fun b hb => by cases hb⟩, fun _ _ h => h, ?_⟩
  obtain ⟨q, h', b, m, h, ⟨t, ht, -⟩, -, -⟩ := Demo.optMachine_fits_first
  have := Demo.optMachine_lived.fit (fun _ => Demo.cv2) (.ok (Demo.rA, [1, 0, 1])) ()
  rw [h] at this
  exact ⟨_, q, this, rfl, by rw [ht]; rfl, rfl⟩

/-- those of `C103_svm_violated`: an SVM that raises if the weights are wrong, in a machine that has a model -/
example : ∃ s' : OptMachine Bool ℝ Unit Unit, ∃ e, OptMachine.fit Demo.env2 Demo.noBuckets (fun _ => Demo.cv2) (⟨fun _ _ _ _ _ w => if w then .ok () else .error .valueError, fun _ A => .ok A, fun _ p => .ok p⟩ : SvmLearner Unit Unit Bool (Fmt × Mat F))
    (.ok (Demo.rA, [1, 0, 1])) false ⟨.svc, .bucket Demo.bucket2.set, "cv_risk", (), Demo.bucket2.heap, none, none, none, none, some ()⟩ = (.error e, s') ∧ s'.model = some () := by
  obtain ⟨i, r, k, norm, s', -, -, -, hf, -⟩ := C103_svm_violated (env := Demo.env2) rfl Demo.noBuckets (cv := fun _ => Demo.cv2)
    (⟨fun _ _ _ _ _ w => if w then .ok () else .error .valueError, fun _ A => .ok A, fun _ p => .ok p⟩ : SvmLearner Unit Unit Bool (Fmt × Mat F))
    (s := ⟨.svc, .bucket Demo.bucket2.set, "cv_risk", (), Demo.bucket2.heap, none, none, none, none, some ()⟩) (t := Demo.bucket2.set) rfl rfl (by decide +kernel) (A := Demo.rA) [1, 0, 1] false Demo.alloc2 (Or.inl rfl)
    Demo.kernelOn2 (sc := fun r => Demo.G2 r 2 2) (fun r _ => rfl) Demo.spread2 (e := .valueError) fun _ => rfl
  exact ⟨s', _, hf, fit_error_model _ _ _ _ _ hf⟩

end KMethods
