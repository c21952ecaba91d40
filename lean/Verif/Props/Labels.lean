import Verif.Lemmas.Labels
import Verif.Props.Machine
import Verif.Props.OptMachine
/-!
# C91: classifiers predict labels they were given
-/
namespace KMethods
open PyM
variable {K X M W H Y P : Type} {env : Env K X F} {N : NumpyCasts}

/-- **C91** for `KernelMachine`: after a successful `fit` with labels of any dtype, and any calls of `predict` and `set_params`, what `predict` returns are the predictions of the fitted SVC, unchanged, and
they are among the labels given to `fit`. -/
theorem C91_machine {L : Learner M Labels W (List Label)} (hcast : L.cast = castMachine N) (hL : L.Classifies) {s s1 s2 : Machine K X M Labels} (hc : s.classifier = true) {A : Arr2 X} {y : Labels}
    (hy : y.WellTyped) {w : W} (hfit : Machine.fit env L (.ok (A, y)) w s = (.ok (), s1)) (h : Machine.AfterCalls env L s1 s2) {checked : Except PyErr (Arr2 X)} {q : List Label}
    (hq : (Machine.predict env L checked s2).1 = .ok q) :
    (∃ G T m, L.fit .svc G y w = .ok m ∧ L.predict m T = .ok q) ∧ ∀ l ∈ q, l ∈ y.vals := by
  obtain ⟨e, G, m, h1, -, h2, h3, h4⟩ := Machine.fit_inv hfit
  obtain rfl := h2 hc
  obtain ⟨h5, h6⟩ := Machine.afterCalls_inv h
  obtain ⟨T, p, h7, h8⟩ := Machine.predict_inv (s' := (Machine.predict env L checked s2).2) (Prod.ext hq rfl) (h5.trans h3) (h6.trans h4)
  have hp := hL G y w m h1 T p h7
  rw [hcast, castMachine, convertAll_own fun l hl => hy l (hp l hl)] at h8
  obtain rfl := Except.ok.inj h8
  exact ⟨⟨G, T, m, h1, h7⟩, hp⟩

/-- **C91** for `KernelMachineRegressor`: targets are floating point numbers (algorithms.py:106), and predictions that are floating point numbers are returned unchanged. -/
theorem C91_regressor {L : Learner M Labels W (List Label)} (hcast : L.cast = castMachine N) (hL : ∀ m T p, L.predict m T = .ok p → ∀ l ∈ p, ∃ x, l = .real x) {s s1 s2 : Machine K X M Labels}
    {A : Arr2 X} {v : List Label} {w : W} (hfit : Machine.fit env L (.ok (A, ⟨.float, v⟩)) w s = (.ok (), s1)) (h : Machine.AfterCalls env L s1 s2) {checked : Except PyErr (Arr2 X)}
    {q : List Label} (hq : (Machine.predict env L checked s2).1 = .ok q) : ∃ e G T m, getEstimator s.learnerId = .ok e ∧ L.fit e G ⟨.float, v⟩ w = .ok m ∧ L.predict m T = .ok q := by
  obtain ⟨e, G, m, h1, he, -, h3, h4⟩ := Machine.fit_inv hfit
  obtain ⟨h5, h6⟩ := Machine.afterCalls_inv h
  obtain ⟨T, p, h7, h8⟩ := Machine.predict_inv (s' := (Machine.predict env L checked s2).2) (Prod.ext hq rfl) (h5.trans h3) (h6.trans h4)
  rw [hcast, castMachine, convertAll_own fun l hl => ?_] at h8
  · obtain rfl := Except.ok.inj h8
    exact ⟨e, G, T, m, he, h1, h7⟩
  · obtain ⟨x, rfl⟩ := hL m T p h7 l hl
    trivial

/-- **C91, partial**, for `OptimalKernelSVC`: if all labels are integers (of any numeric type) that fit into 64 bits, what `predict` returns are integers that equal the predictions of the SVC one by one, and
they are among the labels given to `fit`. Full statement: the same for all labels that an `SVC` accepts; see `C91_violated`, `C91_text_violated`. -/
theorem C91_optimal_partial {mkB : String → PyM (Heap K X) Bucket} {cv : List F → CVScore} {L : SvmLearner H M W (List Label)} (hcast : L.cast = castOptimal N) (hL : L.Classifies)
    {s s1 s2 : OptMachine K X H M} (hc : s1.est = .svc) {A : Arr2 X} {y : List F} (hy : ∀ v ∈ y, ∃ z : ℤ, v = .real z ∧ -2 ^ 63 ≤ z ∧ z < 2 ^ 63) {w : W}
    (hfit : OptMachine.fit env mkB cv L (.ok (A, y)) w s = (.ok (), s1)) (h : OptMachine.AfterPredicts env L s1 s2) {checked : Except PyErr (Arr2 X)} {q : List Label}
    (hq : (OptMachine.predict env L checked s2).1 = .ok q) :
    (∃ hy G T m p, L.fit .svc .rbf hy G y w = .ok m ∧ L.predict m T = .ok p ∧ List.Forall₂ Label.PyEq q p) ∧ ∀ l ∈ q, ∃ z : ℤ, l = .int z ∧ F.real z ∈ y := by
  obtain ⟨hy', G, m, h1, h2⟩ := OptMachine.fit_inv hfit
  rw [hc] at h1
  obtain ⟨h5, h6⟩ := OptMachine.afterPredicts_inv h
  obtain ⟨T, p, h7, h8⟩ := OptMachine.predict_inv (s' := (OptMachine.predict env L checked s2).2) (Prod.ext hq rfl) (h5.trans h2)
  have hp := hL .rbf hy' G y w m h1 T p h7
  rw [h6, hc, hcast] at h8
  obtain ⟨q', e, hq'⟩ := convertAll_intp (N := N) (p := p) fun l hl => by
    obtain ⟨x, hx, hm⟩ := hp l hl
    obtain ⟨z, hz, hr⟩ := hy _ hm
    exact ⟨z, by rw [hx, F.real.inj hz], hr⟩
  obtain rfl : q' = q := Except.ok.inj (e.symm.trans h8)
  refine ⟨⟨hy', G, T, m, p, h1, h7, hq'.imp ?_⟩, fun l hl => ?_⟩
  · rintro a l ⟨z, rfl, hz⟩
    rcases l with z' | x | b | t
    · exact hz.symm
    · exact hz.symm
    · exact hz.symm
    · cases hz
  · obtain ⟨i, hi, rfl⟩ := List.mem_iff_getElem.1 hl
    have hi' : i < p.length := hq'.length_eq ▸ hi
    obtain ⟨z, hz, hv⟩ := (List.forall₂_iff_get.1 hq').2 i hi hi'
    obtain ⟨x, hx, hm⟩ := hp _ (List.getElem_mem hi')
    refine ⟨z, hz, ?_⟩
    rwa [show x = z from Option.some.inj (hx.symm.trans hv)] at hm

/-- **C91** With such labels the conversion itself never raises: whenever the fitted SVC has an answer, so has `predict`. -/
theorem C91_optimal_answers (hops : env.ops = realOps) {mkB : String → PyM (Heap K X) Bucket} (hB : MakesOk env mkB) {L : SvmLearner H M W (List Label)} (hcast : L.cast = castOptimal N)
    {s s' : OptMachine K X H M} (hs : OptMachine.Lived env mkB L s) (h : OptMachine.AfterPredicts env L s s') (hc : s.est = .svc) {r : Nat} {A B : Arr2 X} {m : M} {k : K} {norm : Bool}
    (h1 : s.optKernel = some r) (h2 : s.trainX = some A) (h3 : s.heap.IsKM env r k norm) (h4 : s.model = some m) (hcols : B.ncols = A.ncols)
    {G : Matrix (Fin B.nrows) (Fin A.nrows) ℝ} (hG : IsMatrix2 env k norm B A G) {p : List Label} (hp : L.predict m (.dense, Mat.ofReal G) = .ok p)
    (hi : ∀ l ∈ p, ∃ z : ℤ, l.value = some (z : ℝ) ∧ -2 ^ 63 ≤ z ∧ z < 2 ^ 63) :
    ∃ q, (OptMachine.predict env L (.ok B) s').1 = .ok q ∧ q.length = p.length := by
  rw [C47_optimal_after hops hB hs h h1 h2 h3 h4 hcols hG, hp, hc, hcast]
  obtain ⟨q, e, hq⟩ := convertAll_intp (N := N) hi
  exact ⟨q, e, hq.length_eq⟩

/-- **C91 is violated** by `OptimalKernelSVC` for labels that are strings: whenever the fitted SVC predicts labels that are not numerals, `predict` raises `ValueError`. (Training does not need numbers if
kernels are compared by cross-validation. In the model the targets are numbers; here the learner may predict strings all the same.) -/
theorem C91_text_violated (hops : env.ops = realOps) {mkB : String → PyM (Heap K X) Bucket} (hB : MakesOk env mkB) {L : SvmLearner H M W (List Label)} (hcast : L.cast = castOptimal N)
    {s s' : OptMachine K X H M} (hs : OptMachine.Lived env mkB L s) (h : OptMachine.AfterPredicts env L s s') (hc : s.est = .svc) {r : Nat} {A B : Arr2 X} {m : M} {k : K} {norm : Bool}
    (h1 : s.optKernel = some r) (h2 : s.trainX = some A) (h3 : s.heap.IsKM env r k norm) (h4 : s.model = some m) (hcols : B.ncols = A.ncols)
    {G : Matrix (Fin B.nrows) (Fin A.nrows) ℝ} (hG : IsMatrix2 env k norm B A G) {p : List Label} (hp : L.predict m (.dense, Mat.ofReal G) = .ok p) (h0 : p ≠ [])
    (ht : ∀ l ∈ p, ∃ t, l = .text t ∧ N.parseInt t = .error .valueError) : (OptMachine.predict env L (.ok B) s').1 = .error .valueError := by
  rw [C47_optimal_after hops hB hs h h1 h2 h3 h4 hcols hG, hp, hc, hcast]
  rcases p with _ | ⟨l, p⟩
  · exact absurd rfl h0
  obtain ⟨t, rfl, e⟩ := ht l (.head _)
  show (convertAll N intp (.text t :: p)) = _
  unfold convertAll
  rw [show convert N intp (.text t) = .error .valueError from by
    show (N.parseInt t).map _ = _
    rw [e]
    rfl]

namespace Demo
/-- conversions in which no string is a numeral, and large numbers become the smallest integer -/
def casts : NumpyCasts := ⟨fun _ => .error .valueError, fun _ => .error .valueError, fun _ => .error .valueError, fun _ => "", fun _ => -2 ^ 63⟩
/-- a number as a label: an integer if it is one -/
noncomputable def asLabel (x : ℝ) : Label := if (⌊x⌋ : ℝ) = x then .int ⌊x⌋ else .real x
theorem asLabel_value (x : ℝ) : (asLabel x).value = some x := by
  unfold asLabel
  split_ifs with h
  · exact congrArg some h
  · rfl
/-- a classifier that predicts all labels it was given, whatever the test data -/
noncomputable def allLabels : SvmLearner Unit (List F) Unit (List Label) :=
  ⟨fun _ _ _ _ y _ => .ok y, fun y _ => .ok (y.filterMap fun | .real x => some (asLabel x) | .nan => none), castOptimal casts⟩
theorem allLabels_classifies : allLabels.Classifies := by
  intro k h A y w m hm T p hp l hl
  obtain rfl : y = m := Except.ok.inj hm
  obtain rfl := Except.ok.inj hp
  obtain ⟨v, hv, e⟩ := List.mem_filterMap.1 hl
  rcases v with x | _
  · obtain rfl := Option.some.inj e
    exact ⟨x, asLabel_value x, hv⟩
  · cases e
noncomputable def labelMachine : OptMachine Bool ℝ Unit (List F) := ⟨.svc, .bucket bucket2.set, "cv_risk", (), bucket2.heap, none, none, none, none, none⟩
/-- `fit` on a bucket of two kernels succeeds -/
theorem labelMachine_fits (y : List F) : ∃ q h' b, OptMachine.fit env2 noBuckets (fun _ => cv2) allLabels (.ok (rA, y)) () labelMachine =
    (.ok (), { labelMachine with heap := h', bucket := b, trainX := some rA, trainY := some y, optKernel := some q, model := some y }) ∧
    ∃ k norm, h'.IsKM env2 q k norm := by
  obtain ⟨i, r, q, h', b, -, -, h2, ⟨k, norm, -, t, h3, h4⟩, -, h⟩ := C46_cv_partial (env := env2) rfl noBuckets (cv := fun _ => cv2) allLabels (s := labelMachine) (t := bucket2.set) rfl
    (by decide +kernel) (A := rA) y () alloc2 (Or.inl rfl) kernelOn2 (sc := fun r => G2 r 2 2) (fun r _ => rfl) spread2
  exact ⟨q, h', b, h, k, norm, t, h3, h4.reachable⟩
theorem lived : OptMachine.Lived env2 noBuckets allLabels labelMachine := by
  refine .new ⟨fun r hr => ?_, fun r s hs => ?_⟩ _ _ _ _
  · change 2 ≤ r at hr
    show (if r = 0 then _ else if r = 1 then _ else none) = none
    rw [if_neg (by omega), if_neg (by omega)]
  · change (if r = 0 then some (Obj.km (KMState.init false false 0)) else if r = 1 then some (.km (KMState.init true true 0)) else none) = some (.km s) at hs
    split_ifs at hs
    · injection hs with hs; injection hs with hs; subst hs; exact ⟨false, false, .new 0⟩
    · injection hs with hs; injection hs with hs; subst hs; exact ⟨true, true, .new 0⟩
/-- the sample 1, 2, 3 has a matrix for both kernels, normalised or not -/
theorem rA_matrix (k norm : Bool) : ∃ G, IsMatrix2 env2 k norm rA rA G := by
  have h : ∀ i : Fin rA.nrows, 1 ≤ (if k then 2 * (rA.row i * rA.row i) else rA.row i * rA.row i) := by
    intro i
    have : 1 ≤ rA.row i := by
      show (1 : ℝ) ≤ ((i : Nat) : ℝ) + 1
      have := Nat.cast_nonneg (α := ℝ) (i : Nat)
      linarith
    have h2 : 1 ≤ rA.row i * rA.row i := by nlinarith
    split_ifs <;> linarith
  have h' : ∀ i : Fin rA.nrows, 0 ≤ (if k then 2 * (rA.row i * rA.row i) else rA.row i * rA.row i) ∧ ¬ NearZero (if k then 2 * (rA.row i * rA.row i) else rA.row i * rA.row i) := by
    refine fun i => ⟨zero_le_one.trans (h i), fun hz => ?_⟩
    have := (le_abs_self _).trans hz
    have := h i
    norm_num at *
    linarith
  cases norm
  · exact ⟨_, (isMatrix_env2 k rA rA).1⟩
  · exact ⟨_, fun x y => if k then 2 * (x * y) else x * y, fun _ _ _ _ _ => rfl, fun _ _ _ _ => rfl, h', h', rfl⟩
end Demo

/-- **C91 is violated** by `OptimalKernelSVC`: with the labels 2⁶³, 0, 1 (of type `uint64`), `fit` succeeds, and `predict` returns the label -2⁶³, for a classifier that predicts labels it was given. -/
theorem C91_violated : Demo.allLabels.cast = castOptimal Demo.casts ∧ Demo.allLabels.Classifies ∧ ∃ s1 q,
    OptMachine.fit Demo.env2 Demo.noBuckets (fun _ => Demo.cv2) Demo.allLabels (.ok (Demo.rA, [F.real (2 ^ 63), 0, 1])) () Demo.labelMachine = (.ok (), s1) ∧
    (OptMachine.predict Demo.env2 Demo.allLabels (.ok Demo.rA) s1).1 = .ok q ∧ Label.int (-2 ^ 63) ∈ q ∧ F.real (((-2 ^ 63 : ℤ)) : ℝ) ∉ [F.real (2 ^ 63), 0, 1] := by
  obtain ⟨r, h', b, hf, k, norm, hk⟩ := Demo.labelMachine_fits [F.real (2 ^ 63), 0, 1]
  have hl := Demo.lived.fit (fun _ => Demo.cv2) (.ok (Demo.rA, [F.real (2 ^ 63), 0, 1])) ()
  rw [hf] at hl
  obtain ⟨G, hG⟩ := Demo.rA_matrix k norm
  have hp := C47_optimal_after (env := Demo.env2) (B := Demo.rA) rfl (fun _ _ h => h) hl .refl rfl rfl hk rfl rfl hG
  have hb : Int.bmod (2 ^ 63) (2 ^ 64) = -2 ^ 63 := by decide
  have e0 : Demo.asLabel (2 ^ 63) = .int (2 ^ 63) := by
    have : (2 ^ 63 : ℝ) = ((2 ^ 63 : ℤ) : ℝ) := by norm_num
    unfold Demo.asLabel
    rw [this, Int.floor_intCast, if_pos rfl]
  have e1 : ∀ z : ℤ, Demo.asLabel z = .int z := fun z => by
    unfold Demo.asLabel
    rw [Int.floor_intCast, if_pos rfl]
  have hc : castOptimal Demo.casts .svc [.int (2 ^ 63), .int 0, .int 1] = .ok [.int (-2 ^ 63), .int 0, .int 1] := by
    show (convertAll Demo.casts intp _) = _
    simp only [convertAll, convert, intp, hb]
    rfl
  refine ⟨rfl, Demo.allLabels_classifies, _, [.int (-2 ^ 63), .int 0, .int 1], hf, ?_, .head _, fun h => ?_⟩
  · rw [hp]
    show castOptimal Demo.casts .svc [Demo.asLabel (2 ^ 63), Demo.asLabel 0, Demo.asLabel 1] = _
    rw [e0, show (0 : ℝ) = ((0 : ℤ) : ℝ) by norm_num, show (1 : ℝ) = ((1 : ℤ) : ℝ) by norm_num, e1, e1, hc]
  · simp only [List.mem_cons, List.not_mem_nil, or_false] at h
    rcases h with h | h | h
    · have := F.real.inj h
      norm_num at this
    · have := F.real.inj (h.trans (show (0 : F) = F.real 0 from rfl))
      norm_num at this
    · have := F.real.inj (h.trans (show (1 : F) = F.real 1 from rfl))
      norm_num at this

/-- the hypotheses of `C91_optimal_partial`, `C91_optimal_answers`: labels 5, -1, 5; predictions succeed -/
example : Demo.allLabels.cast = castOptimal Demo.casts ∧ Demo.allLabels.Classifies ∧ (∀ v ∈ ([F.real ((5 : ℤ) : ℝ), F.real ((-1 : ℤ) : ℝ)] : List F), ∃ z : ℤ, v = .real z ∧ -2 ^ 63 ≤ z ∧ z < 2 ^ 63) ∧
    ∃ s1 q, OptMachine.fit Demo.env2 Demo.noBuckets (fun _ => Demo.cv2) Demo.allLabels (.ok (Demo.rA, [F.real ((5 : ℤ) : ℝ), F.real ((-1 : ℤ) : ℝ)])) () Demo.labelMachine = (.ok (), s1) ∧
      s1.est = .svc ∧ (OptMachine.predict Demo.env2 Demo.allLabels (.ok Demo.rA) s1).1 = .ok q ∧ q.length = 2 := by
  have hy : ∀ v ∈ ([F.real ((5 : ℤ) : ℝ), F.real ((-1 : ℤ) : ℝ)] : List F), ∃ z : ℤ, v = .real z ∧ -2 ^ 63 ≤ z ∧ z < 2 ^ 63 := by
    intro v hv
    simp only [List.mem_cons, List.not_mem_nil, or_false] at hv
    rcases hv with rfl | rfl
    · exact ⟨5, rfl, by norm_num, by norm_num⟩
    · exact ⟨-1, rfl, by norm_num, by norm_num⟩
  obtain ⟨r, h', b, hf, k, norm, hk⟩ := Demo.labelMachine_fits [F.real ((5 : ℤ) : ℝ), F.real ((-1 : ℤ) : ℝ)]
  have hl := Demo.lived.fit (fun _ => Demo.cv2) (.ok (Demo.rA, [F.real ((5 : ℤ) : ℝ), F.real ((-1 : ℤ) : ℝ)])) ()
  rw [hf] at hl
  obtain ⟨G, hG⟩ := Demo.rA_matrix k norm
  obtain ⟨q, h1, h2⟩ := C91_optimal_answers (env := Demo.env2) (N := Demo.casts) (B := Demo.rA) rfl (fun _ _ h => h) rfl hl .refl rfl rfl rfl hk rfl rfl hG
    (p := [Demo.asLabel ((5 : ℤ) : ℝ), Demo.asLabel ((-1 : ℤ) : ℝ)]) rfl (by
      intro l hl
      simp only [List.mem_cons, List.not_mem_nil, or_false] at hl
      rcases hl with rfl | rfl
      · exact ⟨5, Demo.asLabel_value _, by norm_num, by norm_num⟩
      · exact ⟨-1, Demo.asLabel_value _, by norm_num, by norm_num⟩)
  exact ⟨rfl, Demo.allLabels_classifies, hy, _, q, hf, rfl, h1, h2⟩

namespace Demo
/-- a learner whose `SVC` predicts the labels it was given, and whose `SVR` predicts 5/2 -/
noncomputable def labelLearner : Learner (Option Labels) Labels Unit (List Label) :=
  ⟨fun e _ y _ => .ok (if e = .svc then some y else none), fun m _ => .ok (match m with | some y => y.vals | none => [.real (5 / 2)]), castMachine casts⟩
theorem labelLearner_classifies : labelLearner.Classifies := by
  intro A y w m hm T p hp l hl
  obtain rfl : some y = m := Except.ok.inj hm
  obtain rfl : y.vals = p := Except.ok.inj hp
  exact hl
def kmLabels (learner : String) : Machine Bool ℝ (Option Labels) Labels := Machine.new true false none (some learner) (some false)
theorem svr_ok : getEstimator (some "SVR") = .ok .svr := (if_neg (by decide +kernel)).trans (if_pos (by decide +kernel))
def catDog : Labels := ⟨.text, [.text "cat", .text "dog", .text "cat"]⟩
def zeroFive : Labels := ⟨.int 64, [.int 0, .int 5, .int 5]⟩
end Demo

/-- **C91 is violated** by `KernelMachine(learner_id='SVR')`, whose `fit` raises an exception (see C59) but leaves a fitted regressor: predictions are truncated to the type of the labels. With the labels 0, 5
the label 2 is predicted, though the learner's `SVC` predicts labels it was given. -/
theorem C91_svr_violated : Demo.labelLearner.cast = castMachine Demo.casts ∧ Demo.labelLearner.Classifies ∧ Demo.zeroFive.WellTyped ∧ ∃ s1,
    Machine.fit Demo.env2 Demo.labelLearner (.ok (Demo.rA, Demo.zeroFive)) () (Demo.kmLabels "SVR") = (.error .attributeError, s1) ∧
    (Machine.predict Demo.env2 Demo.labelLearner (.ok Demo.rA) s1).1 = .ok [.int 2] ∧ Label.int 2 ∉ Demo.zeroFive.vals := by
  obtain ⟨t, h⟩ := C47_fit (env := Demo.env2) rfl Demo.labelLearner (Demo.kmLabels "SVR") (A := Demo.rA) Demo.zeroFive () rfl rfl Demo.svr_ok (Demo.isMatrix_env2 false Demo.rA Demo.rA).2
  refine ⟨rfl, Demo.labelLearner_classifies, ?_, _, h, ?_, ?_⟩
  · intro l hl
    simp only [Demo.zeroFive, List.mem_cons, List.not_mem_nil, or_false] at hl
    rcases hl with rfl | rfl | rfl <;> exact ⟨by norm_num, by norm_num, by norm_num⟩
  · obtain ⟨t', h'⟩ := C47_predict (env := Demo.env2) rfl Demo.labelLearner
      { Demo.kmLabels "SVR" with trainX := some Demo.rA, trainY := some Demo.zeroFive, km := some t, estimator := some (.svr, some none) } (k := false) (norm := false) (A := Demo.rA)
      (B := Demo.rA) (y := Demo.zeroFive) (m := none) ⟨rfl, rfl, rfl, rfl, rfl, .svr, rfl⟩ rfl (Demo.isMatrix_env2 false Demo.rA Demo.rA).1
    refine (congrArg Prod.fst h').trans ?_
    have ht : truncateIn Demo.casts (-2 ^ (64 - 1)) (2 ^ (64 - 1) - 1) (5 / 2) = 2 := by
      have : truncate (5 / 2) = 2 := by
        unfold truncate
        rw [if_pos (by norm_num), Int.floor_eq_iff]
        norm_num
      unfold truncateIn
      rw [this, if_pos (by norm_num)]
    show convertAll Demo.casts (.int 64) [.real (5 / 2)] = _
    simp only [convertAll, convert, ht]
    rfl
  · simp [Demo.zeroFive]

/-- the hypotheses of `C91_machine`: `KernelMachine()` with strings as labels. Predictions succeed. -/
example : Demo.labelLearner.cast = castMachine Demo.casts ∧ Demo.labelLearner.Classifies ∧ (Demo.kmLabels "SVC").classifier = true ∧ Demo.catDog.WellTyped ∧ ∃ s1 q,
    Machine.fit Demo.env2 Demo.labelLearner (.ok (Demo.rA, Demo.catDog)) () (Demo.kmLabels "SVC") = (.ok (), s1) ∧ (Machine.predict Demo.env2 Demo.labelLearner (.ok Demo.rA) s1).1 = .ok q ∧
      q = Demo.catDog.vals := by
  obtain ⟨t, h⟩ := C47_fit (env := Demo.env2) rfl Demo.labelLearner (Demo.kmLabels "SVC") (A := Demo.rA) Demo.catDog () rfl rfl Demo.svc_ok (Demo.isMatrix_env2 false Demo.rA Demo.rA).2
  refine ⟨rfl, Demo.labelLearner_classifies, rfl, ?_, _, Demo.catDog.vals, h, ?_, rfl⟩
  · intro l hl
    simp only [Demo.catDog, List.mem_cons, List.not_mem_nil, or_false] at hl
    rcases hl with rfl | rfl | rfl <;> trivial
  · obtain ⟨t', h'⟩ := C47_predict (env := Demo.env2) rfl Demo.labelLearner
      { Demo.kmLabels "SVC" with trainX := some Demo.rA, trainY := some Demo.catDog, km := some t, estimator := some (.svc, some (some Demo.catDog)) } (k := false) (norm := false) (A := Demo.rA)
      (B := Demo.rA) (y := Demo.catDog) (m := some Demo.catDog) ⟨rfl, rfl, rfl, rfl, rfl, .svc, rfl⟩ rfl (Demo.isMatrix_env2 false Demo.rA Demo.rA).1
    exact (congrArg Prod.fst h').trans rfl

/-- the hypothesis of `C91_regressor` on predictions -/
example : ∀ m T p, (⟨fun _ _ _ _ => .ok (), fun _ _ => .ok [.real (1 / 2)], castMachine Demo.casts⟩ : Learner Unit Labels Unit (List Label)).predict m T = .ok p → ∀ l ∈ p, ∃ x, l = .real x := by
  rintro m T p h l hl
  obtain rfl := Except.ok.inj h
  simp only [List.mem_singleton] at hl
  exact ⟨_, hl⟩

/-- the hypothesis of `C91_text_violated` on the conversions -/
example : Demo.casts.parseInt "cat" = .error .valueError := rfl

end KMethods
