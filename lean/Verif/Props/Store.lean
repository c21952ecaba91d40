import Verif.Lemmas.Store
import Verif.Props.Machine
import Verif.Props.OptMachine
import Verif.Props.Derived
import Verif.Props.Composite
/-!
# C87: later changes of the caller's arrays
-/
namespace KMethods
open PyM
variable {K X M Y W P H : Type} {env : Env K X F}

/-! ## estimators -/

/-- **C87, partial (1)**: `KernelMachine`, `KernelMachineRegressor`. Any program that calls `fit`, `predict` and `set_params`, with any arguments, and overwrites its arrays in between, but never the array with which the
machine was last fitted: all results are those of the same calls with arguments that nobody else can change. -/
theorem C87_machine_partial (L : Learner M Y W P) (l : List (EstStep X Y W (List (ParamUpdate K)))) (w : SharedEst (Machine K X M Y) X) (h : w.Careful (Machine.cls env L) l) :
    w.trace (Machine.cls env L) l = (Machine.cls env L).trace (EstStep.calls l w.arrays) (w.now (Machine.cls env L)) :=
  (machine_lawful env L).trace l w h

/-- **C87, partial (2)**: the same for `OptimalKernelSVC`, `OptimalKernelSVR` -/
theorem C87_optimal_partial (mkB : String → PyM (Heap K X) Bucket) (cv : List F → CVScore) (L : SvmLearner H M W P) (l : List (EstStep X (List F) W (List (OptMachine.Update H))))
    (w : SharedEst (OptMachine K X H M) X) (h : w.Careful (OptMachine.cls env mkB cv L) l) :
    w.trace (OptMachine.cls env mkB cv L) l = (OptMachine.cls env mkB cv L).trace (EstStep.calls l w.arrays) (w.now (OptMachine.cls env mkB cv L)) :=
  (optMachine_lawful env mkB cv L).trace l w h

/-- **C87, partial (3)**: if scikit-learn has to convert the training data (a list, for instance), it makes a copy, and then the program may overwrite everything. -/
theorem C87_copied_partial (L : Learner M Y W P) (l : List (EstStep X Y W (List (ParamUpdate K)))) (hl : ∀ st ∈ l, st.Copies) (w : SharedEst (Machine K X M Y) X) (hw : w.train = none)
    (mkB : String → PyM (Heap K X) Bucket) (cv : List F → CVScore) (L' : SvmLearner H M W P) (l' : List (EstStep X (List F) W (List (OptMachine.Update H)))) (hl' : ∀ st ∈ l', st.Copies)
    (w' : SharedEst (OptMachine K X H M) X) (hw' : w'.train = none) :
    w.trace (Machine.cls env L) l = (Machine.cls env L).trace (EstStep.calls l w.arrays) (w.now (Machine.cls env L)) ∧
    w'.trace (OptMachine.cls env mkB cv L') l' = (OptMachine.cls env mkB cv L').trace (EstStep.calls l' w'.arrays) (w'.now (OptMachine.cls env mkB cv L')) :=
  ⟨C87_machine_partial L l w (careful_of_copies l hl w fun r e => by rw [hw] at e; cases e),
    C87_optimal_partial mkB cv L' l' w' (careful_of_copies l' hl' w' fun r e => by rw [hw'] at e; cases e)⟩

/-- a program that refills one array with new test data for each prediction; and one that fits on a list -/
example (E : EstClass (Machine Bool ℝ Unit Unit) ℝ Unit Unit (List (ParamUpdate Bool)) Unit) (hE : ∀ s, E.stores s = true) (w : SharedEst (Machine Bool ℝ Unit Unit) ℝ) :
    w.Careful E [.fit (.array 0) () (), .write 1 (fun i => i), .predict (.array 1), .write 1 (fun i => 2 * i), .predict (.array 1)] ∧
    ∀ st ∈ ([.write 0 (fun i => i), .fit (.other Demo.rA) () (), .predict (.array 0)] : List (EstStep ℝ Unit Unit (List (ParamUpdate Bool)))), st.Copies := by
  constructor
  · simp [SharedEst.Careful, SharedEst.step, DataArg.kept, hE]
  · intro st h
    simp only [List.mem_cons, List.not_mem_nil, or_false] at h
    rcases h with rfl | rfl | rfl <;> trivial

/-- **C87** What happens otherwise: the machine is fitted with the array `r`, then the program overwrites any of its arrays, also this one. Predictions come from the model made from the kernel matrix `G` of the old
contents, applied to the kernel matrix `N` between the test data and the new contents. -/
theorem C87_overwritten (hops : env.ops = realOps) (L : Learner M Y W P) {w w1 : SharedEst (Machine K X M Y) X} {k : K} {norm : Bool} {r : Nat} {y : Y} {wt : W}
    (hk : w.obj.kFunc = some k) (hn : w.obj.normalized = some norm) (hfit : w.step (Machine.cls env L) (.fit (.array r) y wt) = (.ok none, w1))
    {G : Matrix (Fin (w.arrays r).nrows) (Fin (w.arrays r).nrows) ℝ} (hG : IsMatrix1 env k norm (w.arrays r) G) (l : List (Nat × (Nat → X))) {w2 : SharedEst (Machine K X M Y) X}
    (hw2 : w2 = w1.overwrite (Machine.cls env L) l) {B : Arr2 X} (hc : B.ncols = (w.arrays r).ncols) {N : Matrix (Fin B.nrows) (Fin (w2.arrays r).nrows) ℝ}
    (hN : IsMatrix2 env k norm B (w2.arrays r) N) :
    ∃ e m, getEstimator w.obj.learnerId = .ok e ∧ L.fit e (.dense, Mat.ofReal G) y wt = .ok m ∧
      (w2.step (Machine.cls env L) (.predict (.other B))).1 = ((L.predict m (.dense, Mat.ofReal N)).bind (L.cast y)).map some := by
  have h1 : ((Machine.fit env L (.ok (w.arrays r, y)) wt (w.now (Machine.cls env L))).1.map fun _ => none : Except PyErr (Option P)) = .ok none := congrArg Prod.fst hfit
  have h2 : (⟨w.arrays, (Machine.fit env L (.ok (w.arrays r, y)) wt (w.now (Machine.cls env L))).2, some (.inl r)⟩ : SharedEst _ X) = w1 := congrArg Prod.snd hfit
  rcases hm : Machine.fit env L (.ok (w.arrays r, y)) wt (w.now (Machine.cls env L)) with ⟨e | u, s1⟩
  · rw [hm] at h1; cases h1
  rw [hm] at h2
  rcases he : getEstimator w.obj.learnerId with err | e
  · exfalso
    have := Machine.fit_learner (env := env) L (w.now (Machine.cls env L)) (A := w.arrays r) y wt hk hn he
    rw [hm] at this
    cases this
  obtain ⟨t, ht⟩ := C47_fit hops L (w.now (Machine.cls env L)) (A := w.arrays r) y wt hk hn he hG
  rw [hm] at ht
  rcases hL : L.fit e (.dense, Mat.ofReal G) y wt with err | m
  · rw [hL] at ht; cases congrArg Prod.fst ht
  rw [hL] at ht
  have hs1 := congrArg Prod.snd ht
  change s1 = _ at hs1
  refine ⟨e, m, rfl, hL, ?_⟩
  obtain ⟨o1, o2, o3⟩ := overwrite_obj (Machine.cls env L) l w1
  rw [← hw2] at o1 o2 o3
  subst h2
  have hF : (w2.now (Machine.cls env L)).Fitted k norm (w2.arrays r) y m := by
    have : w2.now (Machine.cls env L) = { s1 with trainX := some (w2.arrays r) } := by
      show ({ w2.obj with trainX := w2.train.map (Sum.elim w2.arrays id) } : Machine K X M Y) = _
      rw [o1, o2]
      rfl
    rw [this, hs1]
    exact ⟨hk, hn, rfl, rfl, rfl, _, rfl⟩
  obtain ⟨t', h⟩ := C47_predict hops L _ hF (hc.trans (o3 r).2.symm) hN
  show ((Machine.predict env L (.ok B) (w2.now (Machine.cls env L))).1.map some : Except PyErr (Option P)) = _
  rw [h]

namespace Demo
/-- a new machine, and one array with the sample 1, 2, 3 -/
noncomputable def shared : SharedEst (Machine Bool ℝ (Fmt × Mat F) Unit) ℝ := ⟨fun _ => rA, machine, none⟩
end Demo

/-- **C87 is violated** for ndarrays: the machine is fitted on an array with the samples 1, 2, 3; the program then writes 2, 3, 4 into this array, and the prediction for the sample 1 changes. -/
theorem C87_violated : ∃ p p', Demo.shared.trace (Machine.cls Demo.env2 Demo.echo) [.fit (.array 0) () (), .predict (.other ⟨1, 1, fun _ => 1⟩), .write 0 Demo.rA'.row, .predict (.other ⟨1, 1, fun _ => 1⟩)] =
    [.ok none, .ok (some p), .ok (some p')] ∧ p.2.bcastGet 0 0 = .real 1 ∧ p'.2.bcastGet 0 0 = .real 2 := by
  obtain ⟨s1, h, m, hf⟩ := Demo.machine_fits
  obtain ⟨t, h1⟩ := C47_predict (env := Demo.env2) rfl Demo.echo s1 hf (B := ⟨1, 1, fun _ => 1⟩) rfl (Demo.isMatrix_env2 false Demo.rA _).1
  have hf' : ({ s1 with km := some t, trainX := some Demo.rA' } : Machine Bool ℝ (Fmt × Mat F) Unit).Fitted false false Demo.rA' () m := ⟨hf.kFunc, hf.normalized, rfl, hf.trainY, rfl, hf.model⟩
  obtain ⟨t', h2⟩ := C47_predict (env := Demo.env2) rfl Demo.echo _ hf' (B := ⟨1, 1, fun _ => 1⟩) rfl (Demo.isMatrix_env2 false Demo.rA' _).1
  let E := Machine.cls Demo.env2 Demo.echo
  let v (A : Arr2 ℝ) : Fmt × Mat F := (.dense, Mat.ofReal (Arr2.crossR ⟨1, 1, fun _ => 1⟩ A fun x y => if false = true then 2 * (x * y) else x * y))
  have e1 : Demo.shared.step E (.fit (.array 0) () ()) = (.ok none, ⟨fun _ => Demo.rA, s1, some (.inl 0)⟩) := by
    show ((Machine.fit Demo.env2 Demo.echo (.ok (Demo.rA, ())) () Demo.machine).1.map (fun _ => none), (⟨_, (Machine.fit Demo.env2 Demo.echo (.ok (Demo.rA, ())) () Demo.machine).2, _⟩ : SharedEst _ ℝ)) = _
    rw [h]
    rfl
  have e2 : (⟨fun _ => Demo.rA, s1, some (.inl 0)⟩ : SharedEst (Machine Bool ℝ (Fmt × Mat F) Unit) ℝ).step E (.predict (.other ⟨1, 1, fun _ => 1⟩)) =
      (.ok (some (v Demo.rA)), ⟨fun _ => Demo.rA, { s1 with km := some t }, some (.inl 0)⟩) := by
    have hs : ({ s1 with trainX := some Demo.rA } : Machine Bool ℝ (Fmt × Mat F) Unit) = s1 := by rw [← hf.trainX]
    show ((Machine.predict Demo.env2 Demo.echo (.ok ⟨1, 1, fun _ => 1⟩) { s1 with trainX := some Demo.rA }).1.map some,
      (⟨_, (Machine.predict Demo.env2 Demo.echo (.ok ⟨1, 1, fun _ => 1⟩) { s1 with trainX := some Demo.rA }).2, _⟩ : SharedEst _ ℝ)) = _
    rw [hs, h1]
    rfl
  have e3 : ((⟨fun _ => Demo.rA, { s1 with km := some t }, some (.inl 0)⟩ : SharedEst (Machine Bool ℝ (Fmt × Mat F) Unit) ℝ).step E (.write 0 Demo.rA'.row)).2 =
      ⟨fun q => if q = 0 then Demo.rA' else Demo.rA, { s1 with km := some t }, some (.inl 0)⟩ := rfl
  have e4 : ((⟨fun q => if q = 0 then Demo.rA' else Demo.rA, { s1 with km := some t }, some (.inl 0)⟩ : SharedEst (Machine Bool ℝ (Fmt × Mat F) Unit) ℝ).step E (.predict (.other ⟨1, 1, fun _ => 1⟩))).1 =
      .ok (some (v Demo.rA')) := by
    show (Machine.predict Demo.env2 Demo.echo (.ok ⟨1, 1, fun _ => 1⟩) { s1 with km := some t, trainX := some Demo.rA' }).1.map some = _
    rw [h2]
    rfl
  refine ⟨v Demo.rA, v Demo.rA', ?_, ?_, ?_⟩
  · show (Demo.shared.step E (.fit (.array 0) () ())).1 :: SharedEst.trace E _ (Demo.shared.step E (.fit (.array 0) () ())).2 = _
    rw [e1]
    show _ :: (SharedEst.step E (.predict (.other ⟨1, 1, fun _ => 1⟩)) _).1 :: SharedEst.trace E [.write 0 Demo.rA'.row, .predict (.other ⟨1, 1, fun _ => 1⟩)] _ = _
    rw [e2]
    show _ :: _ :: (SharedEst.step E (.predict (.other ⟨1, 1, fun _ => 1⟩)) (SharedEst.step E (.write 0 Demo.rA'.row) _).2).1 :: [] = _
    rw [e3, e4]
  all_goals simp [v, Mat.bcastGet, Mat.ofReal, Arr2.crossR, Demo.rA, Demo.rA']

/-! ## precomputed matrices -/

/-- **C87, partial (4)**: a `KernelMatrixPrecomputed` made from an array `r` is not changed when the program overwrites other arrays; one made from anything else (a list, for instance) not by any. -/
theorem C87_precomputed_partial (arrays : Nat → Mat F) (a : MatArg) (s : PreShared) (h : mkPreShared arrays a = .ok s) (l : List (Nat × (Nat → Nat → F))) (hl : ∀ p ∈ l, a ≠ .array p.1) :
    (l.foldl (fun t p => t.write p.1 p.2) s).now = s.now := by
  have hs : ∀ p ∈ l, s.mat ≠ .inl p.1 := by
    intro p hp e
    cases a with
    | array r =>
      rcases hm : mkPrecomputed (.real (arrays r)) with err | q
      · rw [mkPreShared, hm] at h; cases h
      · rw [mkPreShared, hm] at h
        obtain rfl := Except.ok.inj h
        exact hl p hp (by rw [Sum.inl.inj e])
    | other A =>
      rcases hm : mkPrecomputed A with err | q
      · rw [mkPreShared, hm] at h; cases h
      · rw [mkPreShared, hm] at h
        obtain rfl := Except.ok.inj h
        cases e
  clear h hl
  induction l generalizing s with
  | nil => rfl
  | cons p l ih =>
    rw [List.foldl_cons, ih (s.write p.1 p.2) fun q hq => hs q (List.mem_cons_of_mem _ hq)]
    obtain ⟨b, n, m⟩ := s
    have h0 := hs p List.mem_cons_self
    cases m with
    | inl r =>
      have : r ≠ p.1 := fun e => h0 (congrArg Sum.inl e)
      simp [PreShared.now, PreShared.write, this]
    | inr A => rfl

/-- **C87** what happens otherwise: the object shows what the program wrote, without checks -/
theorem C87_precomputed_written (arrays : Nat → Mat F) (r : Nat) (s : PreShared) (h : mkPreShared arrays (.array r) = .ok s) (cell : Nat → Nat → F) :
    (s.write r cell).now.full = Mat.ofCells (arrays r).nrows (arrays r).ncols cell ∧ (s.write r cell).now.size = s.now.size := by
  rcases hm : mkPrecomputed (.real (arrays r)) with err | q
  · rw [mkPreShared, hm] at h; cases h
  · rw [mkPreShared, hm] at h
    obtain rfl := Except.ok.inj h
    refine ⟨?_, ?_⟩
    · simp [PreShared.now, PreShared.write, Precomputed.full]
    · simp only [PreShared.now, PreShared.write, Precomputed.size, Sum.elim_inl, if_true]
      rfl

/-- **C87 is violated** for precomputed matrices: an array with the matrix (1 2; 2 5) is accepted, as symmetric; the program then writes (1 2; 3 5), and this is what `full` returns, though the constructor rejects it. -/
theorem C87_precomputed_violated : ∃ s, mkPreShared (fun _ => Mat.ofReal !![1, 2; 2, 5]) (.array 0) = .ok s ∧ s.now.full = Mat.ofReal !![1, 2; 2, 5] ∧
    ∃ cell, (s.write 0 cell).now.full = Mat.ofReal !![1, 2; 3, 5] ∧ mkPrecomputed (.real (s.write 0 cell).now.full) = .error .valueError := by
  have h1 : mkPrecomputed (.real (Mat.ofReal !![1, 2; 2, 5])) = .ok ⟨Mat.ofReal !![1, 2; 2, 5], 2⟩ := by
    refine (C51_square_partial 2 _ _).2 ⟨rfl, rfl, rfl, _, rfl, ?_⟩
    intro i j
    fin_cases i <;> fin_cases j <;> norm_num [abs_of_pos]
  have h2 : mkPrecomputed (.real (Mat.ofReal !![1, 2; 3, 5])) = .error .valueError := by
    rcases h : mkPrecomputed (.real (Mat.ofReal !![1, 2; 3, 5])) with e | p
    · rw [C51_error _ _ h]
    · obtain ⟨-, -, -, R, hR, hs⟩ := (C51_square_partial 2 _ _).1 h
      have e1 : (2 : ℝ) = R 0 1 := F.real.inj (congrFun (congrFun (eq_of_heq (Mat.mk.inj hR).2.2) 0) 1)
      have e2 : (3 : ℝ) = R 1 0 := F.real.inj (congrFun (congrFun (eq_of_heq (Mat.mk.inj hR).2.2) 1) 0)
      have := hs 0 1
      rw [← e1, ← e2] at this
      norm_num at this
  have h3 : ∀ s, mkPreShared (fun _ => Mat.ofReal !![1, 2; 2, 5]) (.array 0) = .ok s →
      (s.write 0 fun i j => (Mat.ofReal !![1, 2; 3, 5]).bcastGet i j).now.full = Mat.ofReal !![1, 2; 3, 5] := by
    intro s h
    rw [(C87_precomputed_written _ 0 s h _).1]
    refine congrArg (Mat.mk 2 2) (funext fun i => funext fun j => ?_)
    exact bcastGet_eq (Mat.ofReal !![1, 2; 3, 5]) i j
  have h4 : mkPreShared (fun _ => Mat.ofReal !![1, 2; 2, 5]) (.array 0) = .ok ⟨fun _ => Mat.ofReal !![1, 2; 2, 5], 2, .inl 0⟩ := by
    rw [mkPreShared, h1]
    rfl
  exact ⟨_, h4, rfl, _, h3 _ h4, by rw [h3 _ h4]; exact h2⟩

/-- the hypotheses of `C87_precomputed_partial` -/
example : ∃ s, mkPreShared (fun _ => Mat.ofReal !![1, 2; 2, 5]) (.array 0) = .ok s ∧ ∀ p ∈ ([(1, fun _ _ => F.real 7), (2, fun _ _ => F.nan)] : List (Nat × (Nat → Nat → F))), MatArg.array 0 ≠ .array p.1 := by
  obtain ⟨s, h, -⟩ := C87_precomputed_violated
  refine ⟨s, h, fun p hp e => ?_⟩
  simp only [List.mem_cons, List.not_mem_nil, or_false] at hp
  rcases hp with rfl | rfl <;> cases e

/-! ## composite kernels -/

/-- **C87, partial (5)**: what `composite_KM` returns is not changed by whatever happens to the set, its members and their arrays, or to the array of weights. -/
theorem C87_composite_partial (l : List (CompStep K X)) (hl : ∀ st ∈ l, st.Elsewhere) (s : CompSt K X) :
    (CompSt.compositeKM (l.foldl (fun t st => CompSt.after env st t) s)).1 = (CompSt.compositeKM s).1 := by
  have h : (l.foldl (fun t st => CompSt.after env st t) s).comp.km = s.comp.km ∧ (l.foldl (fun t st => CompSt.after env st t) s).comp.isFitted = s.comp.isFitted := by
    induction l generalizing s with
    | nil => exact ⟨rfl, rfl⟩
    | cons st l ih =>
      obtain ⟨h1, h2⟩ := ih (fun q hq => hl q (List.mem_cons_of_mem _ hq)) (CompSt.after env st s)
      have h0 := hl st List.mem_cons_self
      rw [List.foldl_cons, h1, h2]
      cases st with
      | fit w => exact h0.elim
      | onSet f => exact ⟨rfl, rfl⟩
      | writeKM c => exact h0.elim
      | writeWeights l => exact ⟨rfl, rfl⟩
  rw [CompSt.compositeKM_eq, CompSt.compositeKM_eq, h.1, h.2]

/-- **C87** `fit` makes its matrix anew: whether it succeeds, and then all that it leaves behind, does not depend on what was written into the old one. -/
theorem C87_refit (c : Nat → Nat → F) (w : Option WeightsIn) (s : CompSt K X) :
    (CompSt.fit env w (CompSt.after env (.writeKM c) s)).1 = (CompSt.fit env w s).1 ∧
    ((CompSt.fit env w s).1 = .ok () → (CompSt.fit env w (CompSt.after env (.writeKM c) s)).2 = (CompSt.fit env w s).2) := by
  obtain ⟨hp, t, kind, ns, fitted, km⟩ := s
  have key := fitBody_old_matrix (env := env) hp t kind ns fitted km (km.map fun A => (A.1, Mat.ofCells A.2.nrows A.2.ncols c)) w
  show (CompSt.fit env w ⟨hp, t, kind, ns, fitted, km.map fun A => (A.1, Mat.ofCells A.2.nrows A.2.ncols c)⟩).1 = _ ∧
    (_ → (CompSt.fit env w ⟨hp, t, kind, ns, fitted, km.map fun A => (A.1, Mat.ofCells A.2.nrows A.2.ncols c)⟩).2 = _)
  rw [CompSt.fit_run, CompSt.fit_run]
  rcases key with h | ⟨e, h1, h2⟩
  · rw [← h]; exact ⟨rfl, fun _ => rfl⟩
  · rw [h1, h2]; exact ⟨rfl, fun h => by cases h⟩

/-- **C87 is violated** for composite kernels: the caller writes into the matrix that `composite_KM` returned, and `composite_KM` then returns what was written. -/
theorem C87_composite_violated : ∃ M, (CompSt.compositeKM (CompSt.fit Demo.fenv none Demo.fsum).2).1 = .ok M ∧ Demo.cell00 (.ok M) = .real 2 ∧
    Demo.cell00 (CompSt.compositeKM (CompSt.after Demo.fenv (.writeKM fun _ _ => .real 7) (CompSt.fit Demo.fenv none Demo.fsum).2)).1 = .real 7 := by
  refine ⟨_, rfl, ?_, rfl⟩
  show F.real 0 + F.real 1 * F.real ((1 * 1 : Nat) : ℝ) + F.real 1 * F.real ((1 * 1 : Nat) : ℝ) = F.real 2
  rw [F.real_mul, F.real_add, F.real_add]
  exact congrArg F.real (by norm_num)

/-- **C87** `WeightedAverageKernel` keeps the array of weights, or a view of it: what the caller writes into it is used by later calls of `fit`, as if the object had been made with these weights. -/
theorem C87_weights (w w' : WeightsIn) {t : KSet} {c c' : Comp} (h : mkComposite (.weighted w) (some t) = .ok c) (h' : mkComposite (.weighted w') (some t) = .ok c') {l : List F} (hl : w'.to1D = .ok l)
    (hp : Heap K X) : CompSt.fit env none (CompSt.after env (.writeWeights l) ⟨hp, t, c⟩) = CompSt.fit env none ⟨hp, t, c'⟩ := by
  have key : ∀ (w : WeightsIn) (c : Comp), mkComposite (.weighted w) (some t) = .ok c → ∃ l, w.to1D = .ok l ∧ c = ⟨.weighted l, t.numSamples, false, none⟩ := by
    intro w c h
    simp only [mkComposite] at h
    split_ifs at h
    rcases hc : w.checked t.members.length with e | l
    · rw [hc] at h; cases h
    · rw [hc] at h
      refine ⟨l, ?_, (Except.ok.inj h).symm⟩
      unfold WeightsIn.checked at hc
      rcases hn : w.len with e | n
      · rw [hn] at hc; cases hc
      · rw [hn] at hc
        change (if t.members.length = n then w.to1D else .error .valueError) = .ok l at hc
        split_ifs at hc
        exact hc
  obtain ⟨l0, -, rfl⟩ := key w c h
  obtain ⟨l1, h1, rfl⟩ := key w' c' h'
  obtain rfl : l1 = l := Except.ok.inj (h1.symm.trans hl)
  rfl

set_option maxHeartbeats 1000000 in
/-- **C87 is violated** for weights: made with the weights 1 and 1, which the caller overwrites with 3 and 4 before `fit` -/
theorem C87_weights_violated : ∃ c, mkComposite (.weighted (.arr ⟨.float64, [2], [.real 1, .real 1]⟩)) (some Demo.fsum.set) = .ok c ∧
    Demo.cell00 (CompSt.compositeKM (CompSt.fit Demo.fenv none ⟨Demo.fsum.heap, Demo.fsum.set, c⟩).2).1 = .real 2 ∧
    Demo.cell00 (CompSt.compositeKM (CompSt.fit Demo.fenv none (CompSt.after Demo.fenv (.writeWeights [.real 3, .real 4]) ⟨Demo.fsum.heap, Demo.fsum.set, c⟩)).2).1 = .real 7 := by
  have key : ∀ a b : ℝ, Demo.cell00 (CompSt.compositeKM (CompSt.fit Demo.fenv none ⟨Demo.fsum.heap, Demo.fsum.set, ⟨.weighted [.real a, .real b], .one 2, false, none⟩⟩).2).1 = .real (a + b) := by
    intro a b
    have : Demo.cell00 (CompSt.compositeKM (CompSt.fit Demo.fenv none ⟨Demo.fsum.heap, Demo.fsum.set, ⟨.weighted [.real a, .real b], .one 2, false, none⟩⟩).2).1 =
      F.real 0 + F.real a * F.real ((1 * 1 : Nat) : ℝ) + F.real b * F.real ((1 * 1 : Nat) : ℝ) := rfl
    rw [this, F.real_mul, F.real_mul, F.real_add, F.real_add]
    exact congrArg F.real (by simp)
  have h2 : (1 : ℝ) + 1 = 2 := by norm_num
  have h7 : (3 : ℝ) + 4 = 7 := by norm_num
  exact ⟨⟨.weighted [.real 1, .real 1], .one 2, false, none⟩, rfl, h2 ▸ key 1 1, h7 ▸ key 3 4⟩

/-- the hypotheses of `C87_composite_partial` and `C87_refit` -/
example : (∀ st ∈ ([.onSet fun s => { s with set := { s.set with members := [] } }, .writeWeights [.nan]] : List (CompStep Bool Nat)), st.Elsewhere) ∧ (CompSt.fit Demo.fenv none Demo.fsum).1 = .ok () := by
  refine ⟨fun st h => ?_, rfl⟩
  simp only [List.mem_cons, List.not_mem_nil, or_false] at h
  rcases h with rfl | rfl <;> trivial

end KMethods
