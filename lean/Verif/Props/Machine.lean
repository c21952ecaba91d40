import Verif.Lemmas.Algorithms
import Verif.Props.Ranking
/-!
# C47, C48, C49: `KernelMachine`, `KernelMachineRegressor`
-/
namespace KMethods
open PyM KMState
variable {K X M Y W P : Type} {env : Env K X F}

/-- **C47** Whatever happened to the machine before, `fit` passes to the learner the kernel matrix of the training data (normalised if the machine is to normalise), and keeps the result.
If the learner raises, so does `fit`, and no fitted estimator is left. If a classifier is used with the learner `SVR`, `fit` raises after having fitted it. -/
theorem C47_fit (hops : env.ops = realOps) (L : Learner M Y W P) (s : Machine K X M Y) {k : K} {norm : Bool} {e : Est} {A : Arr2 X} (y : Y) (w : W)
    (hk : s.kFunc = some k) (hn : s.normalized = some norm) (he : getEstimator s.learnerId = .ok e) {G : Matrix (Fin A.nrows) (Fin A.nrows) ℝ} (hG : IsMatrix1 env k norm A G) :
    ∃ t, Machine.fit env L (.ok (A, y)) w s = match L.fit e (.dense, Mat.ofReal G) y w with
      | .error err => (.error err, { s with trainX := some A, trainY := some y, km := some t, estimator := some (e, none) })
      | .ok m => (if s.classifier = true ∧ e = .svr then .error .attributeError else .ok (),
          { s with trainX := some A, trainY := some y, km := some t, estimator := some (e, some m) }) := by
  obtain ⟨t, hs, h⟩ := Machine.fit_run (env := env) L s (A := A) y w hk hn he
  rw [hG.full hops hs] at h
  exact ⟨_, h⟩

/-- **C47** `predict` passes to the fitted model the kernel matrix with a row per test sample and a column per training sample, and returns its predictions in the type of the training targets.
Of the machine only the internal kernel matrix changes. -/
theorem C47_predict (hops : env.ops = realOps) (L : Learner M Y W P) (s : Machine K X M Y) {k : K} {norm : Bool} {A B : Arr2 X} {y : Y} {m : M} (hs : s.Fitted k norm A y m)
    (hc : B.ncols = A.ncols) {G : Matrix (Fin B.nrows) (Fin A.nrows) ℝ} (hG : IsMatrix2 env k norm B A G) :
    ∃ t, Machine.predict env L (.ok B) s = ((L.predict m (.dense, Mat.ofReal G)).bind (L.cast y), { s with km := some t }) := by
  obtain ⟨e, he⟩ := hs.model
  obtain ⟨t, ht, h⟩ := Machine.predict_run (env := env) L s hs.kFunc hs.normalized hs.km hs.trainX hs.trainY he hc
  rw [hG.full hops ht] at h
  exact ⟨_, h⟩

/-- **C47** test data with another number of features: `ValueError` -/
theorem C47_predict_cols (L : Learner M Y W P) (s : Machine K X M Y) {k : K} {norm : Bool} {A B : Arr2 X} {y : Y} {m : M} (hs : s.Fitted k norm A y m) (hc : B.ncols ≠ A.ncols) :
    (Machine.predict env L (.ok B) s).1 = .error .valueError :=
  Machine.predict_bad_cols L s hs.kFunc hs.normalized hs.km hs.trainX hc

/-- **C47** A whole life: whatever happened before, `fit` on the data `A`, `y` succeeded, then `predict` was called any number of times. Then predictions for `B` are those of a model that the
learner made from the kernel matrix `G` of `A`, applied to the kernel matrix `N` between `B` and `A`. -/
theorem C47_fit_predict (hops : env.ops = realOps) (L : Learner M Y W P) (s s1 s2 : Machine K X M Y) {k : K} {norm : Bool} {A B : Arr2 X} {y : Y} {w : W}
    (hk : s.kFunc = some k) (hn : s.normalized = some norm) (hfit : Machine.fit env L (.ok (A, y)) w s = (.ok (), s1)) (hp : Machine.AfterPredicts env L s1 s2)
    {G : Matrix (Fin A.nrows) (Fin A.nrows) ℝ} (hG : IsMatrix1 env k norm A G) (hc : B.ncols = A.ncols) {N : Matrix (Fin B.nrows) (Fin A.nrows) ℝ} (hN : IsMatrix2 env k norm B A N) :
    ∃ e m, getEstimator s.learnerId = .ok e ∧ L.fit e (.dense, Mat.ofReal G) y w = .ok m ∧
      (Machine.predict env L (.ok B) s2).1 = (L.predict m (.dense, Mat.ofReal N)).bind (L.cast y) := by
  rcases he : getEstimator s.learnerId with err | e
  · exfalso
    have := Machine.fit_learner (env := env) L s (A := A) y w hk hn he
    rw [hfit] at this
    cases this
  obtain ⟨t, h⟩ := C47_fit hops L s y w hk hn he hG
  rw [hfit] at h
  rcases hm : L.fit e (.dense, Mat.ofReal G) y w with err | m
  · rw [hm] at h; cases congrArg Prod.fst h
  rw [hm] at h
  obtain rfl : s1 = _ := congrArg Prod.snd h
  have hfitted : s2.Fitted k norm A y m := by
    clear hfit h
    induction hp with
    | refl => exact ⟨hk, hn, rfl, rfl, rfl, e, rfl⟩
    | predict checked _ ih =>
      obtain ⟨t', h1, h2⟩ := Machine.predict_state (env := env) L checked _
      rw [h1]
      exact ⟨ih.kFunc, ih.normalized, ih.trainX, ih.trainY, h2 ih.km, ih.model⟩
  obtain ⟨t', h'⟩ := C47_predict hops L s2 hfitted hc hN
  exact ⟨e, m, rfl, hm, by rw [h']⟩

/-- **C47** For a symmetric kernel function, the matrix passed by `predict` on the training data is the one that was passed by `fit`. -/
theorem C47_training_data {k : K} {norm : Bool} {A : Arr2 X} (hsym : ∀ i j : Fin A.nrows, env.kval k (A.row i) (A.row j) = env.kval k (A.row j) (A.row i))
    {G : Matrix (Fin A.nrows) (Fin A.nrows) ℝ} (hG : IsMatrix1 env k norm A G) : IsMatrix2 env k norm A A G := by
  obtain ⟨κ, hf, hκ, hM⟩ := hG
  have key : ∀ x, Attachment.IsRow ⟨A, some A⟩ x → Attachment.IsRow ⟨A, none⟩ x := by
    rintro x (⟨i, hi, e⟩ | ⟨B, i, hB, hi, e⟩)
    · exact Or.inl ⟨i, hi, e⟩
    · injection hB with hB; subst hB; exact Or.inl ⟨i, hi, e⟩
  have hrow : ∀ i : Fin A.nrows, Attachment.IsRow ⟨A, none⟩ (A.row i) := fun i => Or.inl ⟨i, i.2, rfl⟩
  have hk : ∀ i j : Fin A.nrows, κ (A.row i) (A.row j) = κ (A.row j) (A.row i) := by
    intro i j
    have := hsym i j
    rw [hκ _ _ (hrow i) (hrow j), hκ _ _ (hrow j) (hrow i)] at this
    exact F.real.inj this
  have hgram : A.gramR κ = A.crossR A κ := by
    funext i j
    show κ (A.row (min i j : Nat)) (A.row (max i j : Nat)) = κ (A.row i) (A.row j)
    rcases le_total (i : Nat) j with h | h
    · rw [min_eq_left h, max_eq_right h]
    · rw [min_eq_right h, max_eq_left h]; exact hk j i
  refine ⟨κ, fun t x y hx hy => hf t x y (key x hx) (key y hy), fun x y hx hy => hκ x y (key x hx) (key y hy), ?_⟩
  cases norm with
  | false => rw [if_neg (by simp)] at hM ⊢; rw [hM, hgram]
  | true =>
    rw [if_pos rfl] at hM ⊢
    refine ⟨hM.1, hM.1, ?_⟩
    rw [hM.2, ← hgram]
    funext i j
    show A.gramR κ i j / Real.sqrt (A.gramR κ i i * A.gramR κ j j) = A.gramR κ i j / Real.sqrt (κ _ _ * κ _ _)
    unfold Arr2.gramR
    simp only [min_self, max_self]

/-- **C47** `predict` before `fit` raises `NotFittedError`, also after other calls of `predict`, of `set_params`, and of `fit` with invalid data; it changes nothing. -/
theorem C47_not_fitted (L : Learner M Y W P) {s : Machine K X M Y} (hs : Machine.NeverFitted env L s) (checked : Except PyErr (Arr2 X)) :
    Machine.predict env L checked s = (.error .notFitted, s) := by
  refine Machine.predict_unfitted L checked s ?_
  induction hs with
  | new => rfl
  | setParams ps _ ih =>
    rw [Machine.setParams_run]
    exact (Machine.foldl_setParam_km _ _).trans ih
  | predict checked _ ih => rw [Machine.predict_unfitted L checked _ ih]; exact ih
  | badFit e w _ ih => exact ih

/-- **C47** What `fit` rejects. Invalid data: the exception of the check, and nothing changes. A kernel function or a flag of the wrong type: `TypeError`. An unknown learner:
`NotImplementedError`. -/
theorem C47_fit_rejects (L : Learner M Y W P) (s : Machine K X M Y) (A : Arr2 X) (y : Y) (w : W) :
    (∀ e, Machine.fit env L (.error e) w s = (.error e, s)) ∧
    (s.kFunc = none ∨ s.normalized = none → (Machine.fit env L (.ok (A, y)) w s).1 = .error .typeError) ∧
    (∀ k norm e, s.kFunc = some k → s.normalized = some norm → getEstimator s.learnerId = .error e → (Machine.fit env L (.ok (A, y)) w s).1 = .error e) := by
  refine ⟨fun _ => rfl, ?_, fun k norm e hk hn he => Machine.fit_learner L s y w hk hn he⟩
  intro h
  obtain ⟨cl, kf, li, nm, tx, ty, km0, es⟩ := s
  rcases kf with _ | k
  · rfl
  rcases nm with _ | norm
  · rfl
  rcases h with h | h <;> cases h

/-- **C48** After any calls of `predict`, with any arguments, `predict` gives the same result (or raises the same exception) as it would have before them: if whether the kernel function raises
depends on its arguments only. -/
theorem C48_predict_again (hst : Steady env) (L : Learner M Y W P) {s s' : Machine K X M Y} (h : Machine.AfterPredicts env L s s') (checked : Except PyErr (Arr2 X)) :
    (Machine.predict env L checked s').1 = (Machine.predict env L checked s).1 := by
  rcases hkm : s.km with _ | u
  · have : s' = s := by
      induction h with
      | refl => rfl
      | predict checked _ ih => rw [ih, Machine.predict_unfitted L checked s hkm]
    rw [this]
  have key : ∃ t, s' = { s with km := t } ∧ t.isSome := by
    induction h with
    | refl => exact ⟨some u, by rw [← hkm], rfl⟩
    | predict checked _ ih =>
      obtain ⟨t, rfl, ht⟩ := ih
      obtain ⟨t', h1, h2⟩ := Machine.predict_state (env := env) L checked { s with km := t }
      exact ⟨t', h1, h2 ht⟩
  obtain ⟨t, rfl, ht⟩ := key
  obtain ⟨t, rfl⟩ := Option.isSome_iff_exists.1 ht
  exact Machine.predict_km hst L checked s (by rw [hkm]; rfl) t

/-- **C49 (partial)** Full statement: for every list `ps`, `(Machine.predict env L checked (Machine.setParams ps s).2).1 = (Machine.predict env L checked s).1`. This is false, see `C49_violated`; it holds
if `ps` concerns neither `k_func` nor `normalized`. -/
theorem C49_partial (L : Learner M Y W P) (s : Machine K X M Y) (ps : List (ParamUpdate K)) (h : ∀ p ∈ ps, p.Neutral) (checked : Except PyErr (Arr2 X)) :
    (Machine.predict env L checked (Machine.setParams ps s).2).1 = (Machine.predict env L checked s).1 := by
  have key : ∃ l, (Machine.setParams ps s).2 = { s with learnerId := l } := by
    rw [Machine.setParams_run]
    induction ps generalizing s with
    | nil => exact ⟨s.learnerId, rfl⟩
    | cons p ps ih =>
      obtain ⟨l, hl⟩ := ih (Machine.setParam p s) fun q hq => h q (.tail _ hq)
      cases p with
      | learnerId v => exact ⟨l, hl⟩
      | other => exact ⟨l, hl⟩
      | kFunc v => exact (h _ (.head _)).elim
      | normalized v => exact (h _ (.head _)).elim
  obtain ⟨l, hl⟩ := key
  rw [hl]
  exact Machine.predict_learnerId L checked s l

/-- **C49** What happens instead: after `set_params(k_func=k', normalized=norm')`, the model fitted with the former kernel function is applied to a matrix of the new one. -/
theorem C49_predict_current (hops : env.ops = realOps) (L : Learner M Y W P) (s : Machine K X M Y) {k : K} {norm : Bool} {A B : Arr2 X} {y : Y} {m : M} (hs : s.Fitted k norm A y m)
    (k' : K) (norm' : Bool) (hc : B.ncols = A.ncols) {G : Matrix (Fin B.nrows) (Fin A.nrows) ℝ} (hG : IsMatrix2 env k' norm' B A G) :
    (Machine.predict env L (.ok B) (Machine.setParams [.kFunc (some k'), .normalized (some norm')] s).2).1 = (L.predict m (.dense, Mat.ofReal G)).bind (L.cast y) := by
  obtain ⟨t, h⟩ := C47_predict hops L { s with kFunc := some k', normalized := some norm' } (k := k') (norm := norm') ⟨rfl, rfl, hs.trainX, hs.trainY, hs.km, hs.model⟩ hc hG
  have : (Machine.setParams [.kFunc (some k'), .normalized (some norm')] s).2 = { s with kFunc := some k', normalized := some norm' } := rfl
  rw [this, h]

namespace Demo
/-- a learner whose predictions are the matrix it is given -/
def echo : Learner (Fmt × Mat F) Unit Unit (Fmt × Mat F) := ⟨fun _ A _ _ => .ok A, fun _ A => .ok A, fun _ p => .ok p⟩
/-- `KernelMachine()`, with the kernel `x y` as default -/
def machine : Machine Bool ℝ (Fmt × Mat F) Unit := Machine.new true false none (some "SVC") (some false)
theorem svc_ok : getEstimator (some "SVC") = .ok .svc := if_pos (by decide +kernel)

theorem isMatrix_env2 (b : Bool) (A B : Arr2 ℝ) : IsMatrix2 env2 b false B A (B.crossR A fun x y => if b then 2 * (x * y) else x * y) ∧
    IsMatrix1 env2 b false A (A.gramR fun x y => if b then 2 * (x * y) else x * y) :=
  ⟨⟨_, fun _ _ _ _ _ => rfl, fun _ _ _ _ => rfl, rfl⟩, ⟨_, fun _ _ _ _ _ => rfl, fun _ _ _ _ => rfl, rfl⟩⟩

/-- the sample 2, 3, 4 -/
noncomputable def rA' : Arr2 ℝ := ⟨3, 1, fun i => (i : ℝ) + 2⟩
theorem knn_bad : getEstimator (some "KNN") = .error .notImplemented := (if_neg (by decide +kernel)).trans (if_neg (by decide +kernel))

/-- the machine fitted on the sample 1, 2, 3 -/
theorem machine_fits : ∃ s1, Machine.fit env2 echo (.ok (rA, ())) () machine = (.ok (), s1) ∧ ∃ m, s1.Fitted false false rA () m := by
  obtain ⟨t, h⟩ := C47_fit (env := env2) rfl echo machine (A := rA) () () rfl rfl svc_ok (isMatrix_env2 false rA rA).2
  exact ⟨_, h, _, rfl, rfl, rfl, rfl, rfl, _, rfl⟩
end Demo

/-- **C49 is violated**: a machine is fitted with the kernel `x y` on the sample 1, 2, 3; `set_params(k_func=...)` with the kernel `2 x y` changes its predictions, without another `fit`. -/
theorem C49_violated : ∃ s1, Machine.fit Demo.env2 Demo.echo (.ok (Demo.rA, ())) () Demo.machine = (.ok (), s1) ∧
    (Machine.predict Demo.env2 Demo.echo (.ok Demo.rA) (Machine.setParams [.kFunc (some true)] s1).2).1 ≠ (Machine.predict Demo.env2 Demo.echo (.ok Demo.rA) s1).1 := by
  obtain ⟨s1, h, m, hf⟩ := Demo.machine_fits
  refine ⟨s1, h, ?_⟩
  obtain ⟨t, h1⟩ := C47_predict (env := Demo.env2) rfl Demo.echo s1 hf (B := Demo.rA) rfl (Demo.isMatrix_env2 false Demo.rA Demo.rA).1
  have h2 := C49_predict_current (env := Demo.env2) rfl Demo.echo s1 hf true false (B := Demo.rA) rfl (Demo.isMatrix_env2 true Demo.rA Demo.rA).1
  have h3 : (Machine.setParams [.kFunc (some true), .normalized (some false)] s1).2 = (Machine.setParams [.kFunc (some true)] s1).2 := by
    show { s1 with kFunc := some true, normalized := some false } = { s1 with kFunc := some true }
    rw [← hf.normalized]
  rw [h3] at h2
  rw [h2, h1]
  intro hc
  have h4 := congrArg (fun x : Except PyErr (Fmt × Mat F) => Demo.cell00 x) hc
  change F.real (2 * ((((0 : Nat) : ℝ) + 1) * (((0 : Nat) : ℝ) + 1))) = F.real ((((0 : Nat) : ℝ) + 1) * (((0 : Nat) : ℝ) + 1)) at h4
  have h5 := F.real.inj h4
  norm_num at h5

/-- the hypotheses of `C47_fit`, `C47_predict`, `C47_training_data` -/
example : Demo.env2.ops = realOps ∧ Demo.machine.kFunc = some false ∧ Demo.machine.normalized = some false ∧ getEstimator Demo.machine.learnerId = .ok .svc ∧
    (∃ s1, Machine.fit Demo.env2 Demo.echo (.ok (Demo.rA, ())) () Demo.machine = (.ok (), s1) ∧ ∃ m, s1.Fitted false false Demo.rA () m) ∧
    (∀ i j : Fin Demo.rA.nrows, Demo.env2.kval false (Demo.rA.row i) (Demo.rA.row j) = Demo.env2.kval false (Demo.rA.row j) (Demo.rA.row i)) ∧ Steady Demo.env2 := by
  refine ⟨rfl, rfl, rfl, Demo.svc_ok, Demo.machine_fits, fun i j => ?_, fun _ _ _ _ _ => rfl⟩
  show F.real (_ * _) = F.real (_ * _)
  rw [mul_comm]

/-- a machine that normalises -/
example : IsMatrix1 Demo.env2 true true Demo.rA (Demo.G2 1) := Demo.isMatrix_G2

/-- **C59 (partial)** Full statement: for every `fit` that raises, afterwards `predict` gives the same results as before or raises. This is false, see `C59_violated`; it holds if the learner is known, and
is not `SVR` in a classifier. -/
theorem C59_partial (L : Learner M Y W P) (s s1 : Machine K X M Y) {e : Est} (he : getEstimator s.learnerId = .ok e) (hcl : ¬ (s.classifier = true ∧ e = .svr))
    (checked : Except PyErr (Arr2 X × Y)) (w : W) {err : PyErr} (h : Machine.fit env L checked w s = (.error err, s1)) :
    s1 = s ∨ ∀ test, ∃ err', (Machine.predict env L test s1).1 = .error err' := by
  rcases checked with err0 | ⟨A, y⟩
  · exact Or.inl (congrArg Prod.snd h).symm
  right
  rcases hk : s.kFunc with _ | k
  · obtain rfl : s1 = _ := (congrArg Prod.snd h).symm
    exact fun test => Machine.predict_no_kernel L test _ (Or.inl (by rw [Machine.fit_no_kernel L s A y w (Or.inl hk)]; exact hk))
  rcases hn : s.normalized with _ | norm
  · obtain rfl : s1 = _ := (congrArg Prod.snd h).symm
    exact fun test => Machine.predict_no_kernel L test _ (Or.inr (by rw [Machine.fit_no_kernel L s A y w (Or.inr hn)]; exact hn))
  obtain ⟨t, -, h'⟩ := Machine.fit_run (env := env) L s (A := A) y w hk hn he
  rw [h] at h'
  have key : s1.estimator = some (e, none) := by
    rcases hr : (KMState.full env t).1 with err1 | T
    · rw [hr] at h'
      exact congrArg (fun x => x.2.estimator) h'
    · rw [hr] at h'
      dsimp only at h'
      rcases hm : L.fit e T y w with err1 | m
      · rw [hm] at h'
        exact congrArg (fun x => x.2.estimator) h'
      · rw [hm] at h'
        dsimp only at h'
        rw [if_neg hcl] at h'
        cases congrArg Prod.fst h'
  exact fun test => Machine.predict_no_model L test s1 key

/-- **C58** `set_params(**get_params())` changes nothing; `get_params` shows what `set_params` has set -/
theorem C58_round_trip (s : Machine K X M Y) :
    (∃ ps, Machine.getParams s = (.ok ps, s) ∧ Machine.setParams ps s = (.ok (), s)) ∧
    ∀ k norm l, Machine.getParams (Machine.setParams [.kFunc k, .normalized norm, .learnerId l] s).2 = 
      (.ok [.kFunc k, .normalized norm, .learnerId l], (Machine.setParams [.kFunc k, .normalized norm, .learnerId l] s).2) :=
  ⟨⟨_, rfl, rfl⟩, fun _ _ _ => rfl⟩

/-- **C59 is violated**: a machine is fitted on the sample 1, 2, 3; `fit` on the sample 2, 3, 4 with an unknown learner raises `NotImplementedError`; then `predict` applies the old model to kernel values
with the new sample. -/
theorem C59_violated : ∃ s1 s2, Machine.fit Demo.env2 Demo.echo (.ok (Demo.rA, ())) () Demo.machine = (.ok (), s1) ∧
    Machine.fit Demo.env2 Demo.echo (.ok (Demo.rA', ())) () (Machine.setParams [.learnerId (some "KNN")] s1).2 = (.error .notImplemented, s2) ∧
    (∃ p, (Machine.predict Demo.env2 Demo.echo (.ok Demo.rA) s2).1 = .ok p) ∧
    (Machine.predict Demo.env2 Demo.echo (.ok Demo.rA) s2).1 ≠ (Machine.predict Demo.env2 Demo.echo (.ok Demo.rA) s1).1 := by
  obtain ⟨s1, h, m, hf⟩ := Demo.machine_fits
  obtain ⟨t, h2⟩ := Machine.fit_learner_run (env := Demo.env2) Demo.echo { s1 with learnerId := some "KNN" } (A := Demo.rA') () () hf.kFunc hf.normalized Demo.knn_bad
  refine ⟨s1, _, h, h2, ?_⟩
  obtain ⟨e, he⟩ := hf.model
  obtain ⟨t1, h1⟩ := C47_predict (env := Demo.env2) rfl Demo.echo s1 hf (B := Demo.rA) rfl (Demo.isMatrix_env2 false Demo.rA Demo.rA).1
  obtain ⟨t3, h3⟩ := C47_predict (env := Demo.env2) rfl Demo.echo { s1 with learnerId := some "KNN", trainX := some Demo.rA', trainY := some (), km := some t }
    (k := false) (norm := false) (A := Demo.rA') (y := ()) (m := m) ⟨hf.kFunc, hf.normalized, rfl, rfl, rfl, e, he⟩ (B := Demo.rA) rfl (Demo.isMatrix_env2 false Demo.rA' Demo.rA).1
  rw [h1, h3]
  refine ⟨⟨_, rfl⟩, ?_⟩
  intro hc
  have h4 := congrArg (fun x : Except PyErr (Fmt × Mat F) => Demo.cell00 x) hc
  change F.real ((((0 : Nat) : ℝ) + 1) * (((0 : Nat) : ℝ) + 2)) = F.real ((((0 : Nat) : ℝ) + 1) * (((0 : Nat) : ℝ) + 1)) at h4
  have h5 := F.real.inj h4
  norm_num at h5

/-- the hypotheses of `C59_partial`: a learner that raises -/
example : ∃ s1, Machine.fit Demo.env2 (⟨fun _ _ _ _ => .error .valueError, fun _ A => .ok A, fun _ p => .ok p⟩ : Learner (Fmt × Mat F) Unit Unit (Fmt × Mat F)) (.ok (Demo.rA, ())) () Demo.machine =
    (.error .valueError, s1) := by
  obtain ⟨t, h⟩ := C47_fit (env := Demo.env2) rfl ⟨fun _ _ _ _ => .error .valueError, fun _ A => .ok A, fun _ p => .ok p⟩ Demo.machine (A := Demo.rA) () () rfl rfl Demo.svc_ok
    (Demo.isMatrix_env2 false Demo.rA Demo.rA).2
  exact ⟨_, h⟩

end KMethods
