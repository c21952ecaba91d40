import Verif.Lemmas.OptMachineOk
import Verif.Props.Machine
import Verif.Props.Sampling
/-!
# C46, C47, C48, C49, C56, C57: `OptimalKernelSVC`, `OptimalKernelSVR`
-/
namespace KMethods
open PyM KMState
variable {K X M W P H : Type} {env : Env K X F}

namespace OptMachine

theorem KernelOn.congr {h h' : Heap K X} {r r' : Nat} (e : h'.objs r' = h.objs r) {A : Arr2 X} {G : Matrix (Fin A.nrows) (Fin A.nrows) ℝ} (hk : h.KernelOn env r A G) :
    h'.KernelOn env r' A G := by
  obtain ⟨k, norm, ⟨t, h1, h2⟩, h3⟩ := hk
  exact ⟨k, norm, ⟨t, e.trans h1, h2⟩, h3⟩

/-- `fit` with a bucket already chosen -/
theorem fitOn_cv (hops : env.ops = realOps) {cv : List F → CVScore} (L : SvmLearner H M W P) {s : OptMachine K X H M} {t : KSet} (hb : s.bucket = some t)
    (hm : s.method.toLower = "cv_risk") {A : Arr2 X} (y : List F) (w : W) (hn : t.numSamples = .unset ∨ t.numSamples = .one A.nrows)
    {G : Nat → Matrix (Fin A.nrows) (Fin A.nrows) ℝ} (hG : ∀ r ∈ t.members, s.heap.KernelOn env r A (G r)) {sc : Nat → ℝ}
    (hsc : ∀ r ∈ t.members, cv y s.est 3 (.dense, Mat.ofReal (G r)) = .ok (.real (sc r))) (hspread : ∃ r ∈ t.members, ∃ q ∈ t.members, 1e-8 < sc r - sc q) :
    ∃ i r h' b, t.members[i]? = some r ∧ FirstBest (t.members.map sc) i ∧ (∃ k norm, s.heap.IsKM env r k norm ∧ h'.AttachedTo env r k norm A) ∧
      (∀ q, q ∉ t.members → h'.objs q = s.heap.objs q) ∧
      fitOn env cv L A y w s = match L.fit s.est .rbf s.hyper (.dense, Mat.ofReal (G r)) y w with
        | .error e => (.error e, { s with heap := h', bucket := b, optKernel := some r })
        | .ok m => (.ok (), { s with heap := h', bucket := b, optKernel := some r, model := some m }) := by
  obtain ⟨i, r, u, e1, h1, hr, hi⟩ := C45_cv hops (s := ⟨s.heap, t⟩) (cv := cv y) y hm (p := { estimatorName := some s.est.name }) ⟨rfl, rfl, rfl⟩ (e := s.est) (est_name s.est) hn hG hsc hspread
  have hmem : r ∈ t.members := List.mem_of_getElem? hr
  obtain ⟨k, norm, hk, hM⟩ := hG r hmem
  obtain ⟨h', a1, a2, -, a3⟩ := fitOn_run hops cv L y w hb e1 (h1.2.2 r k norm hmem hk) hM
  exact ⟨i, r, h', some u.set, hr, hi, ⟨k, norm, hk, a1⟩, fun q hq => (a2 q fun e => hq (e ▸ hmem)).trans (h1.2.1 q hq), a3⟩

/-- `align/corr` -/
theorem fitOn_align_type (hops : env.ops = realOps) (cv : List F → CVScore) (L : SvmLearner H M W P) {s : OptMachine K X H M} {t : KSet} (hb : s.bucket = some t)
    (hm : s.method.toLower = "align/corr") {A : Arr2 X} (y : List F) (w : W) (hne : t.members ≠ []) (hn : t.numSamples = .unset ∨ t.numSamples = .one A.nrows)
    {G : Nat → Matrix (Fin A.nrows) (Fin A.nrows) ℝ} (hG : ∀ r ∈ t.members, s.heap.KernelOn env r A (G r)) : (fitOn env cv L A y w s).1 = .error .typeError := by
  obtain ⟨s1, e1, h1⟩ := attach_nowAttached (env := env) (s := ⟨s.heap, t⟩) hn fun r hr => (hG r hr).isKM
  obtain ⟨r, l, hl⟩ := List.exists_cons_of_ne_nil hne
  obtain ⟨s2, e2, -⟩ := h1.full hops (r := r) (by show r ∈ t.members; rw [hl]; exact .head _) (hG r (by rw [hl]; exact .head _))
  have hset : s1.set.members = r :: l := by rw [h1.1]; exact hl
  have e3 : rankKernels env (cv y) y s.method { estimatorName := some s.est.name } s1 = (.error .typeError, s2) := by
    rw [rank_align hm]
    show mapEach s1.set.members (alignScoreOne env y { estimatorName := some s.est.name }) s1 = _
    rw [hset]
    show (alignScoreOne env y { estimatorName := some s.est.name } r >>= _ : PyM (SetSt K X) (List F)) s1 = _
    rw [bind_error (s' := s2) (e := .typeError)]
    show (SetSt.onHeap (Heap.full env r) >>= _ : PyM (SetSt K X) F) s1 = _
    rw [bind_ok e2]
    rfl
  have e4 : findOptimalKernel env (cv y) true (.arr true [A.nrows, A.ncols] A.row) y s.method { estimatorName := some s.est.name } ⟨s.heap, t⟩ = (.error .typeError, s2) := by
    show (raiseIf (!validMethod s.method) .notImplemented >>= fun _ => _ : PyM (SetSt K X) Nat) _ = _
    rw [show validMethod s.method = true by simp [validMethod, hm]]
    show (SetSt.attach (sampleArg A) none >>= _ : PyM (SetSt K X) Nat) _ = _
    rw [bind_ok e1]
    show (rankKernels env (cv y) y s.method { estimatorName := some s.est.name } >>= _ : PyM (SetSt K X) Nat) s1 = _
    rw [bind_error e3]
  have e5 : searchKernel env cv A y s = (.error .typeError, { s with heap := s2.heap, bucket := some s2.set }) := by
    show onBucket _ s = _
    rw [onBucket_run _ hb]
    change (((findOptimalKernel env (cv y) true (.arr true [A.nrows, A.ncols] A.row) y s.method { estimatorName := some s.est.name }) ⟨s.heap, t⟩).1, _) = _
    rw [e4]
  show ((searchKernel env cv A y >>= _ : PyM (OptMachine K X H M) Unit) s).1 = _
  rw [bind_error e5]

end OptMachine

open OptMachine

/-- **C46 (partial)** Full statement: this, for `method` any of `align/corr` and `cv_risk`. For `align/corr` it is false, see `C46_violated`.

With `method='cv_risk'` and a bucket of kernel matrices as `k_bucket`: `fit` chooses the first of them with the largest cross-validation score (if some two scores differ by more than 1e-8). It uses a copy of it,
attached to the training data; what existed before remains as it was. The estimator's learner is given the kernel matrix of the training data. -/
theorem C46_cv_partial (hops : env.ops = realOps) (mkB : String → PyM (Heap K X) Bucket) {cv : List F → CVScore} (L : SvmLearner H M W P) {s : OptMachine K X H M} {t : KSet}
    (hkb : s.kBucket = .bucket t) (hm : s.method.toLower = "cv_risk") {A : Arr2 X} (y : List F) (w : W) (hal : ∀ r ∈ t.members, r < s.heap.next)
    (hn : t.numSamples = .unset ∨ t.numSamples = .one A.nrows)
    {G : Nat → Matrix (Fin A.nrows) (Fin A.nrows) ℝ} (hG : ∀ r ∈ t.members, s.heap.KernelOn env r A (G r)) {sc : Nat → ℝ}
    (hsc : ∀ r ∈ t.members, cv y s.est 3 (.dense, Mat.ofReal (G r)) = .ok (.real (sc r))) (hspread : ∃ r ∈ t.members, ∃ q ∈ t.members, 1e-8 < sc r - sc q) :
    ∃ i r q h' b, t.members[i]? = some r ∧ FirstBest (t.members.map sc) i ∧ s.heap.next ≤ q ∧ (∃ k norm, s.heap.IsKM env r k norm ∧ h'.AttachedTo env q k norm A) ∧
      (∀ p < s.heap.next, h'.objs p = s.heap.objs p) ∧
      OptMachine.fit env mkB cv L (.ok (A, y)) w s = match L.fit s.est .rbf s.hyper (.dense, Mat.ofReal (G r)) y w with
        | .error e => (.error e, { s with heap := h', bucket := b, trainX := some A, trainY := some y, optKernel := some q })
        | .ok m => (.ok (), { s with heap := h', bucket := b, trainX := some A, trainY := some y, optKernel := some q, model := some m }) := by
  obtain ⟨rs, h1, f, e1, a1, a2, a3, a4⟩ := copyBucket_run s.heap t fun r hr => ⟨hal r hr, by
    obtain ⟨_, _, ⟨u, hu, -⟩, -⟩ := hG r hr
    rw [hu]; rfl⟩
  have hf : ∀ q ∈ rs, f q ∈ t.members := fun q hq => a3 ▸ List.mem_map_of_mem hq
  have hf' : ∀ r ∈ t.members, ∃ q ∈ rs, f q = r := fun r hr => List.mem_map.1 (a3.symm ▸ hr)
  obtain ⟨i, q, h', b, b1, b2, ⟨k, norm, b3, b4⟩, b5, b6⟩ := fitOn_cv hops (cv := cv) L
    (s := { s with heap := h1, bucket := some { t with members := rs }, trainX := some A, trainY := some y }) (t := { t with members := rs }) rfl hm (A := A) y w hn
    (G := fun q => G (f q)) (fun q hq => KernelOn.congr (a4 q hq).2.2 (hG (f q) (hf q hq))) (sc := fun q => sc (f q)) (fun q hq => hsc (f q) (hf q hq))
    (by
      obtain ⟨r, hr, r', hr', h⟩ := hspread
      obtain ⟨q, hq, rfl⟩ := hf' r hr
      obtain ⟨q', hq', rfl⟩ := hf' r' hr'
      exact ⟨q, hq, q', hq', h⟩)
  have hq : q ∈ rs := List.mem_of_getElem? b1
  refine ⟨i, f q, q, h', b, ?_, ?_, (a4 q hq).1, ⟨k, norm, ?_, b4⟩, ?_, ?_⟩
  · rw [← a3, List.getElem?_map, b1]; rfl
  · rw [← a3, List.map_map]; exact b2
  · obtain ⟨u, hu, hre⟩ := b3
    exact ⟨u, (a4 q hq).2.2.symm.trans hu, hre⟩
  · intro p hp
    exact (b5 p fun hmem => absurd (a4 p hmem).1 (not_le.2 hp)).trans (a1 p hp)
  · rw [fit_eq, choose_bucket mkB s hkb, e1]
    exact b6

/-- **C46 (partial)** The same if `k_bucket` is the name of a strategy, for which `make_kernel_bucket` makes the bucket `b0` (see C40 for its contents). -/
theorem C46_cv_strategy_partial (hops : env.ops = realOps) (mkB : String → PyM (Heap K X) Bucket) {cv : List F → CVScore} (L : SvmLearner H M W P) {s : OptMachine K X H M} {n : String}
    (hkb : s.kBucket = .str n) {b0 : Bucket} {h0 : Heap K X} (hb0 : mkB n s.heap = (.ok b0, h0))
    (hm : s.method.toLower = "cv_risk") {A : Arr2 X} (y : List F) (w : W) (hn : b0.set.numSamples = .unset ∨ b0.set.numSamples = .one A.nrows)
    {G : Nat → Matrix (Fin A.nrows) (Fin A.nrows) ℝ} (hG : ∀ r ∈ b0.set.members, h0.KernelOn env r A (G r)) {sc : Nat → ℝ}
    (hsc : ∀ r ∈ b0.set.members, cv y s.est 3 (.dense, Mat.ofReal (G r)) = .ok (.real (sc r))) (hspread : ∃ r ∈ b0.set.members, ∃ q ∈ b0.set.members, 1e-8 < sc r - sc q) :
    ∃ i r h' b, b0.set.members[i]? = some r ∧ FirstBest (b0.set.members.map sc) i ∧ (∃ k norm, h0.IsKM env r k norm ∧ h'.AttachedTo env r k norm A) ∧
      OptMachine.fit env mkB cv L (.ok (A, y)) w s = match L.fit s.est .rbf s.hyper (.dense, Mat.ofReal (G r)) y w with
        | .error e => (.error e, { s with heap := h', bucket := b, trainX := some A, trainY := some y, optKernel := some r })
        | .ok m => (.ok (), { s with heap := h', bucket := b, trainX := some A, trainY := some y, optKernel := some r, model := some m }) := by
  obtain ⟨i, r, h', b, b1, b2, b3, -, b6⟩ := fitOn_cv hops (cv := cv) L
    (s := { s with heap := h0, bucket := some b0.set, trainX := some A, trainY := some y }) rfl hm (A := A) y w hn hG hsc hspread
  refine ⟨i, r, h', b, b1, b2, b3, ?_⟩
  rw [fit_eq, choose_str mkB s hkb, hb0]
  exact b6

/-- **C46 is violated**: with `method='align/corr'`, which is among the valid methods, `fit` always raises: for every bucket, every training data, every learner. -/
theorem C46_violated (mkB : String → PyM (Heap K X) Bucket) (cv : List F → CVScore) (L : SvmLearner H M W P) (checked : Except PyErr (Arr2 X × List F)) (w : W) (s : OptMachine K X H M)
    (hm : s.method.toLower = "align/corr") : validMethod s.method = true ∧ ∃ e, (OptMachine.fit env mkB cv L checked w s).1 = .error e := by
  refine ⟨by simp [validMethod, hm], ?_⟩
  obtain ⟨h', b, hs⟩ := chooseBucket_method mkB s
  rw [fit_eq]
  rcases hc : chooseBucket mkB s with ⟨e | _, s1⟩
  · exact ⟨e, rfl⟩
  rcases checked with e | ⟨A, y⟩
  · exact ⟨e, rfl⟩
  rw [hc] at hs
  obtain rfl : s1 = _ := hs
  exact fitOn_align_fails cv L A y w _ hm

/-- **C46 is violated**: with `align/corr` and a non-empty bucket of kernel matrices that are fine on the training data, the exception is `TypeError`: the ranking passes `estimator_name` to
`alignment_centered`, which does not know it. -/
theorem C46_type_error (hops : env.ops = realOps) (mkB : String → PyM (Heap K X) Bucket) (cv : List F → CVScore) (L : SvmLearner H M W P) {s : OptMachine K X H M} {t : KSet}
    (hkb : s.kBucket = .bucket t) (hm : s.method.toLower = "align/corr") {A : Arr2 X} (y : List F) (w : W) (hne : t.members ≠ []) (hal : ∀ r ∈ t.members, r < s.heap.next)
    (hn : t.numSamples = .unset ∨ t.numSamples = .one A.nrows)
    {G : Nat → Matrix (Fin A.nrows) (Fin A.nrows) ℝ} (hG : ∀ r ∈ t.members, s.heap.KernelOn env r A (G r)) :
    (OptMachine.fit env mkB cv L (.ok (A, y)) w s).1 = .error .typeError := by
  obtain ⟨rs, h1, f, e1, a1, a2, a3, a4⟩ := copyBucket_run s.heap t fun r hr => ⟨hal r hr, by
    obtain ⟨_, _, ⟨u, hu, -⟩, -⟩ := hG r hr
    rw [hu]; rfl⟩
  have hf : ∀ q ∈ rs, f q ∈ t.members := fun q hq => a3 ▸ List.mem_map_of_mem hq
  have hrs : rs ≠ [] := by rintro rfl; exact hne a3.symm
  have := fitOn_align_type hops cv L (s := { s with heap := h1, bucket := some { t with members := rs }, trainX := some A, trainY := some y }) (t := { t with members := rs }) rfl hm (A := A) y w hrs hn
    (G := fun q => G (f q)) fun q hq => KernelOn.congr (a4 q hq).2.2 (hG (f q) (hf q hq))
  rw [fit_eq, choose_bucket mkB s hkb, e1]
  exact this

/-- **C47** `fit` rejects a `k_bucket` that is neither a string nor a bucket, before anything else, with `ValueError`; then training data that do not pass the check, with its exception. -/
theorem C47_optimal_fit_rejects (mkB : String → PyM (Heap K X) Bucket) (cv : List F → CVScore) (L : SvmLearner H M W P) (checked : Except PyErr (Arr2 X × List F)) (w : W) (s : OptMachine K X H M) :
    (s.kBucket = .other → OptMachine.fit env mkB cv L checked w s = (.error .valueError, s)) ∧
    (∀ n e h', s.kBucket = .str n → mkB n s.heap = (.error e, h') → (OptMachine.fit env mkB cv L checked w s).1 = .error .valueError) ∧
    ∀ n b h' e, s.kBucket = .str n → mkB n s.heap = (.ok b, h') → checked = .error e → (OptMachine.fit env mkB cv L checked w s).1 = .error e := by
  refine ⟨fun h => ?_, fun n e h' h hb => ?_, fun n b h' e h hb hc => ?_⟩
  · rw [fit_eq, choose_other mkB s h]
  · rw [fit_eq, choose_str mkB s h, hb]
  · rw [fit_eq, choose_str mkB s h, hb, hc]

/-- **C47** `predict` passes to the fitted model the matrix of the chosen kernel, with a row per test sample and a column per training sample; its predictions are cast to float for regression.
Of all objects only the chosen kernel matrix changes. -/
theorem C47_optimal_predict (hops : env.ops = realOps) (L : SvmLearner H M W P) {s : OptMachine K X H M} {r : Nat} {A B : Arr2 X} {m : M} {k : K} {norm : Bool} (h1 : s.optKernel = some r)
    (h2 : s.trainX = some A) (h3 : s.heap.IsKM env r k norm) (h4 : s.model = some m) (hc : B.ncols = A.ncols) {G : Matrix (Fin B.nrows) (Fin A.nrows) ℝ} (hG : IsMatrix2 env k norm B A G) :
    ∃ t, Reachable env k norm t ∧ OptMachine.predict env L (.ok B) s =
      ((L.predict m (.dense, Mat.ofReal G)).bind (L.cast s.est), { s with heap := { s.heap with objs := Function.update s.heap.objs r (some (.km t)) } }) := by
  obtain ⟨t, ht, hre⟩ := h3
  obtain ⟨t', a1, a2⟩ := OptMachine.predict_run L B h1 h2 ht hre
  have hcore : core env L s.est s.model A B t = (L.predict m (.dense, Mat.ofReal G)).bind (L.cast s.est) := by rw [h4, core_matrix hops L s.est m hre hc hG]
  rw [hcore] at a2
  exact ⟨t', a1, a2⟩

/-- **C47** `predict` before `fit`: `NotFittedError` -/
theorem C47_optimal_not_fitted (L : SvmLearner H M W P) (checked : Except PyErr (Arr2 X)) (s : OptMachine K X H M) (h : s.optKernel = none) :
    OptMachine.predict env L checked s = (.error .notFitted, s) := OptMachine.predict_unfitted L checked s h

/-- what `predict` and `set_params` leave as it is -/
theorem OptMachine.AfterPredicts.same (L : SvmLearner H M W P) {s s' : OptMachine K X H M} (hok : s.heap.Ok env) (h : OptMachine.AfterPredicts env L s s') :
    s'.est = s.est ∧ s'.trainX = s.trainX ∧ s'.optKernel = s.optKernel ∧ s'.model = s.model ∧ s'.heap.Ok env ∧
      ∀ r, (∃ t t', s.heap.objs r = some (.km t) ∧ s'.heap.objs r = some (.km t') ∧ t'.kernel = t.kernel ∧ t'.keepNormed = t.keepNormed) ∨ s'.heap.objs r = s.heap.objs r := by
  induction h with
  | refl => exact ⟨rfl, rfl, rfl, rfl, hok, fun _ => Or.inr rfl⟩
  | setParams ps _ ih =>
    rename_i s' _
    obtain ⟨kb, me, hy, e⟩ := setParams_state ps s'
    rw [e]
    exact ih
  | predict checked _ ih =>
    rename_i s' _
    obtain ⟨i1, i2, i3, i4, i5, i6⟩ := ih
    by_cases hcase : (∃ e, checked = .error e) ∨ s'.optKernel = none ∨ s'.trainX = none ∨ ∃ r, s'.optKernel = some r ∧ ∀ t, s'.heap.objs r ≠ some (.km t)
    · obtain ⟨e, he⟩ := predict_other (env := env) L checked s' hcase
      rw [he]
      exact ⟨i1, i2, i3, i4, i5, i6⟩
    · push Not at hcase
      obtain ⟨c1, c2, c3, c4⟩ := hcase
      rcases checked with e | B
      · exact absurd rfl (c1 e)
      obtain ⟨r, hr⟩ := Option.ne_none_iff_exists'.1 c2
      obtain ⟨A, hA⟩ := Option.ne_none_iff_exists'.1 c3
      obtain ⟨t, ht⟩ := c4 r hr
      obtain ⟨k, norm, hre⟩ := i5.2 r t ht
      obtain ⟨t', a1, a2⟩ := OptMachine.predict_run L B hr hA ht hre
      rw [a2]
      have key : t'.kernel = t.kernel ∧ t'.keepNormed = t.keepNormed := by
        obtain ⟨x1, x2⟩ := a1.kernel
        obtain ⟨y1, y2⟩ := hre.kernel
        exact ⟨x1.trans y1.symm, x2.trans y2.symm⟩
      refine ⟨i1, i2, i3, i4, ⟨fun q hq => ?_, fun q u hu => ?_⟩, fun q => ?_⟩
      · have hqr : q ≠ r := by
          rintro rfl
          rw [i5.1 q hq] at ht
          cases ht
        exact (Function.update_of_ne hqr _ _).trans (i5.1 q hq)
      · by_cases hqr : q = r
        · subst hqr
          have h0 : Function.update s'.heap.objs q (some (Obj.km t')) q = some (.km t') := Function.update_self ..
          have : some (Obj.km t') = some (.km u) := h0.symm.trans hu
          obtain rfl : t' = u := by injection this with this; injection this
          exact ⟨k, norm, a1⟩
        · exact i5.2 q u ((Function.update_of_ne hqr _ _).symm.trans hu)
      · by_cases hqr : q = r
        · subst hqr
          rcases i6 q with ⟨u, u', b1, b2, b3, b4⟩ | h6
          · left
            rw [ht] at b2
            obtain rfl : t = u' := by injection b2 with b2; injection b2
            exact ⟨u, t', b1, Function.update_self .., key.1.trans b3, key.2.trans b4⟩
          · exact Or.inl ⟨t, t', h6.symm.trans ht, Function.update_self .., key⟩
        · have : Function.update s'.heap.objs r (some (Obj.km t')) q = s'.heap.objs q := Function.update_of_ne hqr _ _
          dsimp only
          rw [this]
          exact i6 q

theorem OptMachine.Lived.ok {mkB : String → PyM (Heap K X) Bucket} (hB : MakesOk env mkB) {L : SvmLearner H M W P} {s : OptMachine K X H M} (h : OptMachine.Lived env mkB L s) : s.heap.Ok env := by
  induction h with
  | new hh => exact hh
  | fit cv checked w _ ih => exact pres_fit hB cv L checked w _ ih
  | predict checked _ ih => exact pres_predict L checked _ ih
  | setParams ps _ ih =>
    rename_i s' _
    obtain ⟨kb, me, hy, e⟩ := setParams_state ps s'
    rw [e]
    exact ih

/-- **C48**, **C49** for `OptimalKernelSVC`/`SVR`: after any calls of `predict` and `set_params`, with any arguments, `predict` gives the same result (or raises the same exception) as it would have before
them: if whether the kernel function raises depends on its arguments only. -/
theorem C48_optimal_predict_again (hst : Steady env) {mkB : String → PyM (Heap K X) Bucket} (hB : MakesOk env mkB) {L : SvmLearner H M W P} {s s' : OptMachine K X H M}
    (hs : OptMachine.Lived env mkB L s) (h : OptMachine.AfterPredicts env L s s')
    (checked : Except PyErr (Arr2 X)) : (OptMachine.predict env L checked s').1 = (OptMachine.predict env L checked s).1 := by
  have hok := hs.ok hB
  obtain ⟨i1, i2, i3, i4, i5, i6⟩ := h.same L hok
  rcases hr : s.optKernel with _ | r
  · rw [OptMachine.predict_unfitted L checked s hr, OptMachine.predict_unfitted L checked s' (i3.trans hr)]
  rcases checked with e | B
  · have : ∀ u : OptMachine K X H M, u.optKernel = some r → (OptMachine.predict env L (.error e) u).1 = .error e := by
      intro u hu
      obtain ⟨est, kb, me, hy, hp, bu, tx, ty, ok, mo⟩ := u
      obtain rfl : ok = some r := hu
      rfl
    rw [this s hr, this s' (i3.trans hr)]
  rcases hA : s.trainX with _ | A
  · have : ∀ u : OptMachine K X H M, u.optKernel = some r → u.trainX = none → (OptMachine.predict env L (.ok B) u).1 = .error .attributeError := by
      intro u hu hu'
      obtain ⟨est, kb, me, hy, hp, bu, tx, ty, ok, mo⟩ := u
      obtain rfl : ok = some r := hu
      obtain rfl : tx = none := hu'
      rfl
    rw [this s hr hA, this s' (i3.trans hr) (i2.trans hA)]
  by_cases hkm : ∃ t, s.heap.objs r = some (.km t)
  · obtain ⟨t, ht⟩ := hkm
    obtain ⟨t', ht', e1, e2⟩ : ∃ t', s'.heap.objs r = some (.km t') ∧ t'.kernel = t.kernel ∧ t'.keepNormed = t.keepNormed := by
      rcases i6 r with ⟨u, u', b1, b2, b3, b4⟩ | h6
      · rw [ht] at b1
        obtain rfl : t = u := by injection b1 with b1; injection b1
        exact ⟨u', b2, b3, b4⟩
      · exact ⟨t, h6.trans ht, rfl, rfl⟩
    obtain ⟨k, norm, hre⟩ := hok.2 r t ht
    obtain ⟨k', norm', hre'⟩ := i5.2 r t' ht'
    obtain ⟨t1, -, a1⟩ := OptMachine.predict_run L B hr hA ht hre
    obtain ⟨t2, -, a2⟩ := OptMachine.predict_run L B (i3.trans hr) (i2.trans hA) ht' hre'
    rw [a1, a2, i1, i4]
    exact core_eq hst L _ _ A B e1 e2
  · have : ∀ u : OptMachine K X H M, u.optKernel = some r → u.trainX = some A → (∀ t, u.heap.objs r ≠ some (.km t)) → (OptMachine.predict env L (.ok B) u).1 = .error .attributeError := by
      intro u hu hu' hn
      obtain ⟨est, kb, me, hy, hp, bu, tx, ty, ok, mo⟩ := u
      obtain rfl : ok = some r := hu
      obtain rfl : tx = some A := hu'
      show ((onHeap (Heap.call r (KMState.attach (Machine.arg B) (some (Machine.arg A)))) >>= _ : PyM (OptMachine K X H M) P) _).1 = _
      rw [bind_error (e := .attributeError) (s' := ⟨est, kb, me, hy, hp, bu, some A, ty, some r, mo⟩)]
      unfold onHeap
      rw [Heap.call_not_km _ hn]
    rw [this s hr hA fun t ht => hkm ⟨t, ht⟩, this s' (i3.trans hr) (i2.trans hA) fun t ht => ?_]
    rcases i6 r with ⟨u, u', b1, -⟩ | h6
    · exact hkm ⟨u, b1⟩
    · exact hkm ⟨t, h6.symm.trans ht⟩

/-- **C49** for `OptimalKernelSVC`/`SVR`: `set_params`, with any arguments, does not change predictions. -/
theorem C49_optimal (hst : Steady env) {mkB : String → PyM (Heap K X) Bucket} (hB : MakesOk env mkB) {L : SvmLearner H M W P} {s : OptMachine K X H M} (hs : OptMachine.Lived env mkB L s)
    (ps : List (OptMachine.Update H)) (checked : Except PyErr (Arr2 X)) : (OptMachine.predict env L checked (OptMachine.setParams ps s).2).1 = (OptMachine.predict env L checked s).1 :=
  C48_optimal_predict_again hst hB hs (.setParams ps .refl) checked

/-- **C47** A whole life: `fit` succeeded on training data `A`; then `predict` and `set_params` were called any number of times. Then predictions for `B` are those of the fitted model, applied to the
matrix `N` of the chosen kernel between `B` and `A`. -/
theorem C47_optimal_after (hops : env.ops = realOps) {mkB : String → PyM (Heap K X) Bucket} (hB : MakesOk env mkB) {L : SvmLearner H M W P} {s s' : OptMachine K X H M}
    (hs : OptMachine.Lived env mkB L s) (h : OptMachine.AfterPredicts env L s s') {r : Nat} {A B : Arr2 X} {m : M} {k : K} {norm : Bool} (h1 : s.optKernel = some r)
    (h2 : s.trainX = some A) (h3 : s.heap.IsKM env r k norm) (h4 : s.model = some m) (hc : B.ncols = A.ncols) {N : Matrix (Fin B.nrows) (Fin A.nrows) ℝ} (hN : IsMatrix2 env k norm B A N) :
    (OptMachine.predict env L (.ok B) s').1 = (L.predict m (.dense, Mat.ofReal N)).bind (L.cast s.est) := by
  obtain ⟨i1, i2, i3, i4, i5, i6⟩ := h.same L (hs.ok hB)
  obtain ⟨t, ht, hre⟩ := h3
  have hkm : s'.heap.IsKM env r k norm := by
    rcases i6 r with ⟨u, u', b1, b2, b3, b4⟩ | h6
    · rw [ht] at b1
      obtain rfl : t = u := by injection b1 with b1; injection b1
      obtain ⟨k', norm', hre'⟩ := i5.2 r u' b2
      obtain ⟨x1, x2⟩ := hre.kernel
      obtain ⟨y1, y2⟩ := hre'.kernel
      obtain rfl : k' = k := by rw [← y1, b3, x1]
      obtain rfl : norm' = norm := by rw [← y2, b4, x2]
      exact ⟨u', b2, hre'⟩
    · exact ⟨t, h6.trans ht, hre⟩
  obtain ⟨t', -, e⟩ := C47_optimal_predict hops L (i3.trans h1) (i2.trans h2) hkm (i4.trans h4) hc hN
  rw [e, i1]

/-- **C56 is violated**, in general: the learner is never given `kernel='precomputed'`: a learner that differs in that case only makes no difference. -/
theorem C56_always_rbf (mkB : String → PyM (Heap K X) Bucket) (cv : List F → CVScore) (L L' : SvmLearner H M W P) (h : ∀ e hy A y w, L.fit e .rbf hy A y w = L'.fit e .rbf hy A y w)
    (checked : Except PyErr (Arr2 X × List F)) (w : W) (s : OptMachine K X H M) : OptMachine.fit env mkB cv L checked w s = OptMachine.fit env mkB cv L' checked w s := by
  unfold OptMachine.fit svmKernel
  simp only [h]

/-- **C56 (partial)** Full statement: this, with `.precomputed` in place of `.rbf`; that is false, see `C56_always_rbf`, `C56_violated`. True is: if `fit` succeeds, the model is one made by the learner from
the kernel matrix of the training data for a kernel of the bucket, and if it makes none, `fit` raises its exception. -/
theorem C56_partial (hops : env.ops = realOps) (mkB : String → PyM (Heap K X) Bucket) {cv : List F → CVScore} (L : SvmLearner H M W P) {s : OptMachine K X H M} {t : KSet}
    (hkb : s.kBucket = .bucket t) (hm : s.method.toLower = "cv_risk") {A : Arr2 X} (y : List F) (w : W) (hal : ∀ r ∈ t.members, r < s.heap.next)
    (hn : t.numSamples = .unset ∨ t.numSamples = .one A.nrows)
    {G : Nat → Matrix (Fin A.nrows) (Fin A.nrows) ℝ} (hG : ∀ r ∈ t.members, s.heap.KernelOn env r A (G r)) {sc : Nat → ℝ}
    (hsc : ∀ r ∈ t.members, cv y s.est 3 (.dense, Mat.ofReal (G r)) = .ok (.real (sc r))) (hspread : ∃ r ∈ t.members, ∃ q ∈ t.members, 1e-8 < sc r - sc q) :
    ∃ r ∈ t.members, (∀ q ∈ t.members, sc q ≤ sc r) ∧
      (∀ e, L.fit s.est .rbf s.hyper (.dense, Mat.ofReal (G r)) y w = .error e → (OptMachine.fit env mkB cv L (.ok (A, y)) w s).1 = .error e) ∧
      ∀ m, L.fit s.est .rbf s.hyper (.dense, Mat.ofReal (G r)) y w = .ok m →
        (OptMachine.fit env mkB cv L (.ok (A, y)) w s).1 = .ok () ∧ (OptMachine.fit env mkB cv L (.ok (A, y)) w s).2.model = some m := by
  obtain ⟨i, r, q, h', b, h1, ⟨x, hx1, hx2, -⟩, -, -, -, h2⟩ := C46_cv_partial hops mkB L hkb hm y w hal hn hG hsc hspread
  have hr := List.mem_of_getElem? h1
  rw [List.getElem?_map, h1] at hx1
  obtain rfl : sc r = x := by injection hx1
  refine ⟨r, hr, fun q hq => hx2 _ (List.mem_map_of_mem hq), fun e he => ?_, fun m hm' => ?_⟩
  · rw [h2, he]
  · rw [h2, hm']
    exact ⟨rfl, rfl⟩

/-- **C57** `fit` and `predict` leave the objects of the caller, in particular the kernel matrices of the bucket given as `k_bucket`, as they are; and so does every later call. -/
theorem C57_fit {mkB : String → PyM (Heap K X) Bucket} (hB : MakesFresh mkB) (cv : List F → CVScore) (L : SvmLearner H M W P) (checked : Except PyErr (Arr2 X × List F)) (w : W) {U : Set Nat}
    (s : OptMachine K X H M) (hs : s.Private U) :
    (∀ r ∈ U, (OptMachine.fit env mkB cv L checked w s).2.heap.objs r = s.heap.objs r) ∧ (OptMachine.fit env mkB cv L checked w s).2.Private U := by
  obtain ⟨k1, k2, k3⟩ := chooseBucket_keeps hB (U := U) s hs.1
  obtain ⟨h', b, hst⟩ := chooseBucket_method mkB s
  rw [fit_eq]
  rcases hc : chooseBucket mkB s with ⟨e | _, s1⟩
  · rw [hc] at k1 k2 hst
    refine ⟨k1, fun r hr => (hs.1 r hr).trans_le k2, ?_⟩
    dsimp only at hst ⊢
    rw [hst]
    exact hs.2
  rw [hc] at k1 k2 k3 hst
  obtain ⟨t, ht, hfresh⟩ := k3 rfl
  have hp : ∀ tx ty, OptMachine.Private U { s1 with trainX := tx, trainY := ty } := by
    intro tx ty
    refine ⟨fun r hr => (hs.1 r hr).trans_le k2, ?_⟩
    dsimp only at hst ⊢
    rw [hst]
    exact hs.2
  rcases checked with e | ⟨A, y⟩
  · exact ⟨k1, hp s1.trainX s1.trainY⟩
  · obtain ⟨j1, j2⟩ := fitOn_keeps (env := env) cv L A y w { s1 with trainX := some A, trainY := some y } (hp _ _) (t := t) ht hfresh
    exact ⟨fun r hr => (j1 r hr).trans (k1 r hr), j2⟩

/-- **C57** the same for `predict` and `set_params` -/
theorem C57_predict (L : SvmLearner H M W P) {U : Set Nat} (s : OptMachine K X H M) (hs : s.Private U) :
    (∀ checked, (∀ r ∈ U, (OptMachine.predict env L checked s).2.heap.objs r = s.heap.objs r) ∧ (OptMachine.predict env L checked s).2.Private U) ∧
    ∀ ps, (OptMachine.setParams ps s).2.heap = s.heap ∧ (OptMachine.setParams ps s).2.Private U := by
  refine ⟨fun checked => ?_, fun ps => ?_⟩
  · obtain ⟨a1, a2, a3⟩ := keepsOpt_predict (env := env) L checked s hs
    exact ⟨a1, fun r hr => (hs.1 r hr).trans_le a2, fun r hr => hs.2 r (a3.symm.trans hr)⟩
  · obtain ⟨kb, me, hy, e⟩ := setParams_state ps s
    rw [e]
    exact ⟨rfl, hs⟩

theorem makeKernelBucket_cases {X : Type} (n : String) (norm skip : Bool) (h : Heap LibKernel X) {p : Prop}
    (h1 : ∀ b h' ks, makeKernelBucket (.str n) (some norm) (some skip) h = (.ok b, h') → SetSt.Grown ⟨h, ⟨[], .unset, true⟩⟩ ⟨h', b.set⟩ norm ks → p)
    (h2 : makeKernelBucket (.str n) (some norm) (some skip) h = (.error .valueError, h) → p) : p := by
  by_cases hn : n.toLower ∈ ["exhaustive", "light", "linear_only"]
  · simp only [List.mem_cons, List.not_mem_nil, or_false] at hn
    rcases hn with hn | hn | hn
    · obtain ⟨b, h', ks, e, -, -, hg, -⟩ := C40_exhaustive n hn norm skip h
      exact h1 b h' ks e hg
    · obtain ⟨b, h', ks, e, -, -, hg, -⟩ := C40_light n hn norm skip h
      exact h1 b h' ks e hg
    · obtain ⟨b, h', e, -, -, hg⟩ := C40_linear_only n hn norm skip h
      exact h1 b h' _ e hg
  · exact h2 ((C40_other_strategy (some norm) (some skip) h).1 n hn)

/-- **C57** the assumption on `make_kernel_bucket` in `C57_fit` holds for the library's -/
theorem C57_make_kernel_bucket {X : Type} (norm skip : Bool) : MakesFresh (fun n => (makeKernelBucket (.str n) (some norm) (some skip) : PyM (Heap LibKernel X) Bucket)) := by
  intro n h
  have key : ∀ b h' ks, makeKernelBucket (.str n) (some norm) (some skip) h = (.ok b, h') → SetSt.Grown ⟨h, ⟨[], .unset, true⟩⟩ ⟨h', b.set⟩ norm ks →
      (∀ r < h.next, (makeKernelBucket (.str n) (some norm) (some skip) h).2.objs r = h.objs r) ∧ h.next ≤ (makeKernelBucket (.str n) (some norm) (some skip) h).2.next ∧
        ∀ b, (makeKernelBucket (.str n) (some norm) (some skip) h).1 = .ok b → ∀ r ∈ b.set.members, h.next ≤ r := by
    intro b h' ks e hg
    obtain ⟨rs, g1, -, g2, g3, g4, -⟩ := hg
    rw [e]
    refine ⟨g3, g4, fun b' hb r hr => ?_⟩
    obtain rfl : b = b' := Except.ok.inj hb
    change b.set.members = rs at g1
    rw [g1] at hr
    clear g1 e
    induction g2 with
    | nil => cases hr
    | cons hx _ ih =>
      rcases List.mem_cons.1 hr with rfl | hr
      · exact hx.1
      · exact ih hr
  exact makeKernelBucket_cases n norm skip h (fun b h' ks e hg => key b h' ks e hg) fun e => by
    dsimp only
    rw [e]
    exact ⟨fun _ _ => rfl, le_rfl, fun b hb => by cases hb⟩

/-- **C48** the assumption on `make_kernel_bucket` in `C48_optimal_predict_again` holds for the library's -/
theorem C48_make_kernel_bucket {X : Type} (env : Env LibKernel X F) (norm skip : Bool) :
    MakesOk env (fun n => (makeKernelBucket (.str n) (some norm) (some skip) : PyM (Heap LibKernel X) Bucket)) := by
  intro n
  exact (Pres.lift _).bind fun vals => pres_mkBucket numericLib (some norm) (some skip) vals

namespace Demo
/-- a learner that records the parameter `kernel` it is given -/
def recorder : SvmLearner Unit (SvmKernel × (Fmt × Mat F)) Unit (Fmt × Mat F) := ⟨fun _ k _ A _ _ => .ok (k, A), fun _ A => .ok A, fun _ p => .ok p⟩
noncomputable def optMachine : OptMachine Bool ℝ Unit (SvmKernel × (Fmt × Mat F)) := ⟨.svc, .bucket bucket2.set, "cv_risk", (), bucket2.heap, none, none, none, none, none⟩
/-- a constructor of buckets that always fails -/
def noBuckets : String → PyM (Heap Bool ℝ) Bucket := fun _ => throw .valueError

theorem spread2 : ∃ r ∈ bucket2.set.members, ∃ q ∈ bucket2.set.members, 1e-8 < G2 r 2 2 - G2 q 2 2 := by
  refine ⟨0, by simp [bucket2], 1, by simp [bucket2], ?_⟩
  show 1e-8 < (((2:Nat):ℝ) + 1) * (((2:Nat):ℝ) + 1) - cosNorm (rA.gramR fun x y : ℝ => 2 * (x * y)) (2 : Fin 3) (2 : Fin 3)
  have h : cosNorm (rA.gramR fun x y : ℝ => 2 * (x * y)) (2 : Fin 3) (2 : Fin 3) ≤ 1 := by
    unfold cosNorm
    rw [Real.sqrt_mul_self_eq_abs]
    exact div_le_one_of_le₀ (le_abs_self _) (abs_nonneg _)
  norm_num
  linarith

theorem alloc2 : ∀ r ∈ bucket2.set.members, r < bucket2.heap.next := by
  intro r hr
  have : r = 0 ∨ r = 1 := by simpa [bucket2] using hr
  show r < 2
  omega

/-- `fit` on a bucket of two kernels succeeds -/
theorem optMachine_fits : ∃ q h' b m, OptMachine.fit env2 noBuckets (fun _ => cv2) recorder (.ok (rA, [1, 0, 1])) () optMachine =
    (.ok (), { optMachine with heap := h', bucket := b, trainX := some rA, trainY := some [1, 0, 1], optKernel := some q, model := some (.rbf, m) }) ∧ 2 ≤ q ∧
    ∃ k norm, h'.IsKM env2 q k norm := by
  obtain ⟨i, r, q, h', b, -, -, h2, ⟨k, norm, -, t, h3, h4⟩, -, h⟩ := C46_cv_partial (env := env2) rfl noBuckets (cv := fun _ => cv2) recorder (s := optMachine) (t := bucket2.set) rfl
    (by decide +kernel) (A := rA) [1, 0, 1] () alloc2 (Or.inl rfl) kernelOn2 (sc := fun r => G2 r 2 2) (fun r _ => rfl) spread2
  exact ⟨q, h', b, _, h, h2, k, norm, t, h3, h4.reachable⟩
end Demo

/-- **C56 is violated**: `fit` succeeds, and the SVM has been given the kernel matrix as if it were a table of features, with `kernel='rbf'`. -/
theorem C56_violated : ∃ s' m, OptMachine.fit Demo.env2 Demo.noBuckets (fun _ => Demo.cv2) Demo.recorder (.ok (Demo.rA, [1, 0, 1])) () Demo.optMachine = (.ok (), s') ∧ s'.model = some (.rbf, m) := by
  obtain ⟨q, h', b, m, h, -⟩ := Demo.optMachine_fits
  exact ⟨_, m, h, rfl⟩

/-- the machine of the example is private with respect to the bucket it was given -/
example : Demo.optMachine.Private (· ∈ Demo.bucket2.set.members) ∧ MakesFresh Demo.noBuckets := by
  refine ⟨⟨fun r hr => Demo.alloc2 r hr, fun r hr => by cases hr⟩, fun n h => ⟨fun _ _ => rfl, le_rfl, fun b hb => by cases hb⟩⟩

/-- `align/corr` -/
example : ({ Demo.optMachine with method := "align/corr" } : OptMachine Bool ℝ Unit (SvmKernel × (Fmt × Mat F))).method.toLower = "align/corr" ∧ Demo.bucket2.set.members ≠ [] :=
  ⟨by decide +kernel, by simp [Demo.bucket2]⟩

/-- the hypotheses of `C48_optimal_predict_again`, `C47_optimal_after` -/
example : MakesOk Demo.env2 Demo.noBuckets ∧ Steady Demo.env2 ∧ ∃ s r k norm m, OptMachine.Lived Demo.env2 Demo.noBuckets Demo.recorder s ∧ s.optKernel = some r ∧ s.trainX = some Demo.rA ∧
    s.heap.IsKM Demo.env2 r k norm ∧ s.model = some m := by
  refine ⟨fun _ _ h => h, fun _ _ _ _ _ => rfl, ?_⟩
  obtain ⟨q, h', b, m, h, -, k, norm, hk⟩ := Demo.optMachine_fits
  have hl : OptMachine.Lived Demo.env2 Demo.noBuckets Demo.recorder Demo.optMachine := by
    refine .new ⟨fun r hr => ?_, fun r s hs => ?_⟩ _ _ _ _
    · change 2 ≤ r at hr
      show (if r = 0 then _ else if r = 1 then _ else none) = none
      rw [if_neg (by omega), if_neg (by omega)]
    · change (if r = 0 then some (Obj.km (KMState.init false false 0)) else if r = 1 then some (.km (KMState.init true true 0)) else none) = some (.km s) at hs
      split_ifs at hs
      · injection hs with hs; injection hs with hs; subst hs; exact ⟨false, false, .new 0⟩
      · injection hs with hs; injection hs with hs; subst hs; exact ⟨true, true, .new 0⟩
  have := hl.fit (fun _ => Demo.cv2) (.ok (Demo.rA, [1, 0, 1])) ()
  rw [h] at this
  exact ⟨_, q, k, norm, _, this, rfl, rfl, hk, rfl⟩

end KMethods
