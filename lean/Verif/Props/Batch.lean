import Verif.Lemmas.Batch
import Verif.Props.OptMachine
import Verif.Props.Machine
/-!
# C80: predictions are made sample by sample
-/
namespace KMethods
open PyM KMState
variable {K X M Y W P Q H : Type} {env : Env K X F}

/-- **C80** If the learner predicts row by row, so does the machine: there is a function of one sample such that the predictions for any batch of samples are its values on these samples, whatever other samples
are in the batch and whatever was predicted before. (Or `predict` always raises the same exception.) The batches are those on which the kernel does not raise, is finite and, if normalised, can be
normalised. -/
theorem C80_function_partial (hops : env.ops = realOps) {L : Learner M Y W (List Q)} {f : M → Nat → Except PyErr (List ℝ → Q)} {c : Y → Q → Q} (hL : L.RowWise f c)
    {s : Machine K X M Y} {k : K} {norm : Bool} {A : Arr2 X} {y : Y} {m : M} (hs : s.Fitted k norm A y m) :
    ∃ r : Except PyErr (X → Q), ∀ s', Machine.AfterPredicts env L s s' → ∀ B : Arr2 X, 0 < B.nrows → B.ncols = A.ncols → (∃ G, IsMatrix2 env k norm B A G) →
      (Machine.predict env L (.ok B) s').1 = r.map fun g => List.ofFn fun i : Fin B.nrows => g (B.row i) := by
  refine ⟨(f m A.nrows).map fun g x => c y (g (kernelRow env k norm A x)), fun s' hp B hB hc ⟨G, hG⟩ => ?_⟩
  have hs' : s'.Fitted k norm A y m := by
    induction hp with
    | refl => exact hs
    | predict checked _ ih =>
      obtain ⟨t', h1, h2⟩ := Machine.predict_state (env := env) L checked _
      rw [h1]
      exact ⟨ih.kFunc, ih.normalized, ih.trainX, ih.trainY, h2 ih.km, ih.model⟩
  obtain ⟨t, h⟩ := C47_predict hops L s' hs' hc hG
  rw [h]
  dsimp only
  rw [hL.predict m G hB]
  rcases f m A.nrows with e | g
  · rfl
  · show L.cast y _ = Except.ok _
    rw [hL.cast, List.map_ofFn]
    congr 2
    funext i
    show c y (g (List.ofFn (G i))) = _
    rw [hG.row]

/-- **C80** In particular: predicting for a selection of the samples (a single one, a part of the batch, all of them in another order, some of them repeated) gives the selected predictions. -/
theorem C80_selection_partial (hops : env.ops = realOps) {L : Learner M Y W (List Q)} {f : M → Nat → Except PyErr (List ℝ → Q)} {c : Y → Q → Q} (hL : L.RowWise f c)
    {s : Machine K X M Y} {k : K} {norm : Bool} {A B B' : Arr2 X} {y : Y} {m : M} (hs : s.Fitted k norm A y m) (hc : B.ncols = A.ncols) (hc' : B'.ncols = A.ncols)
    (h0 : 0 < B'.nrows) {φ : Fin B'.nrows → Fin B.nrows} (hφ : B'.PickedFrom B φ) {G : Matrix (Fin B.nrows) (Fin A.nrows) ℝ} (hG : IsMatrix2 env k norm B A G) :
    (∃ e, (Machine.predict env L (.ok B) s).1 = .error e ∧ (Machine.predict env L (.ok B') s).1 = .error e) ∨
    ∃ p : Fin B.nrows → Q, (Machine.predict env L (.ok B) s).1 = .ok (List.ofFn p) ∧ (Machine.predict env L (.ok B') s).1 = .ok (List.ofFn fun i => p (φ i)) := by
  obtain ⟨r, hr⟩ := C80_function_partial hops hL hs
  have hB : 0 < B.nrows := (φ ⟨0, h0⟩).pos
  rw [hr s .refl B hB hc ⟨G, hG⟩, hr s .refl B' h0 hc' ⟨_, hG.picked hφ⟩]
  rcases r with e | g
  · exact Or.inl ⟨e, rfl, rfl⟩
  · refine Or.inr ⟨fun i => g (B.row i), rfl, ?_⟩
    show Except.ok (List.ofFn fun i : Fin B'.nrows => g (B'.row i)) = Except.ok (List.ofFn fun i => g (B.row (φ i)))
    congr 2
    funext i
    rw [hφ i]

/-- **C80** and the predictions for two batches together are those for the first one, followed by those for the second one. -/
theorem C80_together_partial (hops : env.ops = realOps) {L : Learner M Y W (List Q)} {f : M → Nat → Except PyErr (List ℝ → Q)} {c : Y → Q → Q} (hL : L.RowWise f c)
    {s : Machine K X M Y} {k : K} {norm : Bool} {A B B1 B2 : Arr2 X} {y : Y} {m : M} (hs : s.Fitted k norm A y m) (hc : B.ncols = A.ncols) (hc1 : B1.ncols = A.ncols)
    (hc2 : B2.ncols = A.ncols) (h1 : 0 < B1.nrows) (h2 : 0 < B2.nrows) (hn : B.nrows = B1.nrows + B2.nrows) (hr1 : ∀ i : Fin B1.nrows, B.row i = B1.row i)
    (hr2 : ∀ i : Fin B2.nrows, B.row (B1.nrows + i) = B2.row i) {G : Matrix (Fin B.nrows) (Fin A.nrows) ℝ} (hG : IsMatrix2 env k norm B A G) :
    (Machine.predict env L (.ok B) s).1 = (do
      let p1 ← (Machine.predict env L (.ok B1) s).1
      let p2 ← (Machine.predict env L (.ok B2) s).1
      pure (p1 ++ p2)) := by
  obtain ⟨r, hr⟩ := C80_function_partial hops hL hs
  have g1 : IsMatrix2 env k norm B1 A _ := hG.picked (f := fun i => ⟨i, by omega⟩) fun i => (hr1 i).symm
  have g2 : IsMatrix2 env k norm B2 A _ := hG.picked (f := fun i => ⟨B1.nrows + i, by omega⟩) fun i => (hr2 i).symm
  rw [hr s .refl B (by omega) hc ⟨G, hG⟩, hr s .refl B1 h1 hc1 ⟨_, g1⟩, hr s .refl B2 h2 hc2 ⟨_, g2⟩]
  rcases r with e | g
  · rfl
  · show Except.ok _ = Except.ok (_ ++ _)
    congr 1
    dsimp only
    rw [List.ofFn_congr hn, List.ofFn_add]
    congr 2
    · funext i
      exact congrArg g (hr1 i)
    · funext i
      exact congrArg g (hr2 i)

/-- **C80** What decides about the exceptions of a normalising machine: a sample with self-kernel 0 (up to 1e-8), among the training or the test samples, makes the prediction of the whole batch fail; otherwise the kernel
matrix is passed to the learner. -/
theorem C80_normalising (hops : env.ops = realOps) (L : Learner M Y W P) {s : Machine K X M Y} {k : K} {A B : Arr2 X} {y : Y} {m : M} (hs : s.Fitted k true A y m)
    (hc : B.ncols = A.ncols) {κ : X → X → ℝ} (hf : NoFaultsOn env k ⟨B, some A⟩) (hκ : RealOn (env.kval k) κ ⟨B, some A⟩)
    (hA : ∀ i : Fin A.nrows, 0 ≤ κ (A.row i) (A.row i)) (hB : ∀ i : Fin B.nrows, 0 ≤ κ (B.row i) (B.row i)) :
    ((∃ i : Fin B.nrows, NearZero (κ (B.row i) (B.row i))) ∨ (∃ j : Fin A.nrows, NearZero (κ (A.row j) (A.row j))) → (Machine.predict env L (.ok B) s).1 = .error .kmNorm) ∧
    (¬ ((∃ i : Fin B.nrows, NearZero (κ (B.row i) (B.row i))) ∨ (∃ j : Fin A.nrows, NearZero (κ (A.row j) (A.row j)))) → ∃ G, IsMatrix2 env k true B A G) := by
  constructor
  · intro hz
    obtain ⟨e, he⟩ := hs.model
    obtain ⟨t, ht, h⟩ := Machine.predict_run (env := env) L s hs.kFunc hs.normalized hs.km hs.trainX hs.trainY he hc
    have h1 := (C09_two_samples hops hf hκ (Since.mono (fun _ _ => trivial) ht) hB hA).1 hz
    rw [exec_full_run] at h1
    have h2 : (KMState.full env t).1 = .error .kmNorm := by
      rcases hr : (KMState.full env t).1 with e | T
      · rw [hr] at h1
        injection h1 with h1
        rw [h1]
      · rw [hr] at h1; cases h1
    rw [h, h2]
  · intro hz
    refine ⟨cosNorm2 (B.crossR A κ) (fun i => κ (B.row i) (B.row i)) fun j => κ (A.row j) (A.row j), κ, hf, hκ, ?_⟩
    rw [if_pos rfl]
    exact ⟨fun i => ⟨hB i, fun h => hz (Or.inl ⟨i, h⟩)⟩, fun j => ⟨hA j, fun h => hz (Or.inr ⟨j, h⟩)⟩, rfl⟩

namespace Demo
/-- a learner that predicts the rows of the kernel matrix -/
noncomputable def rowLearner : Learner Unit Unit Unit (List (List ℝ)) :=
  ⟨fun _ _ _ _ => .ok (), fun _ T => .ok (List.ofFn fun i => List.ofFn fun j => (T.2.get i j).val), fun _ p => .ok p⟩
theorem rowLearner_rowWise : rowLearner.RowWise (fun _ _ => .ok id) fun _ q => q :=
  ⟨fun _ _ _ _ _ => rfl, fun _ l => congrArg Except.ok (List.map_id' l).symm⟩
/-- a machine with the kernel `x y`, normalising, fitted on the sample 1, 2, 3 -/
noncomputable def rowMachine : Machine Bool ℝ Unit Unit := ⟨true, some false, some "SVC", some true, some rA, some (), some (KMState.init false true 0), some (.svc, some ())⟩
/-- the samples 1, 0 -/
noncomputable def oneZero : Arr2 ℝ := ⟨2, 1, fun i => 1 - i⟩
theorem rowMachine_fitted : rowMachine.Fitted false true rA () () := ⟨rfl, rfl, rfl, rfl, rfl, _, rfl⟩
end Demo

/-- **C80 is violated** for normalising machines: the machine predicts for the sample 1, but not for the samples 1 and 0 together. -/
theorem C80_violated : ∃ (s : Machine Bool ℝ Unit Unit) (B B' : Arr2 ℝ) (φ : Fin B'.nrows → Fin B.nrows), s.Fitted false true Demo.rA () () ∧ Demo.rowLearner.RowWise (fun _ _ => .ok id) (fun _ q => q) ∧
    B.ncols = Demo.rA.ncols ∧ B'.ncols = Demo.rA.ncols ∧ B'.PickedFrom B φ ∧ (Machine.predict Demo.env2 Demo.rowLearner (.ok B) s).1 = .error .kmNorm ∧
    ∃ p, (Machine.predict Demo.env2 Demo.rowLearner (.ok B') s).1 = .ok p := by
  have hA : ∀ i : Fin Demo.rA.nrows, 0 ≤ Demo.rA.row i * Demo.rA.row i := fun i => mul_self_nonneg _
  have hB : ∀ (B : Arr2 ℝ) (i : Fin B.nrows), 0 ≤ B.row i * B.row i := fun B i => mul_self_nonneg _
  have hr : ∀ B : Arr2 ℝ, RealOn (Demo.env2.kval false) (fun x y => x * y) ⟨B, some Demo.rA⟩ := fun B x y _ _ => rfl
  have hf : ∀ B : Arr2 ℝ, NoFaultsOn Demo.env2 false ⟨B, some Demo.rA⟩ := fun B _ _ _ _ _ => rfl
  refine ⟨Demo.rowMachine, Demo.oneZero, ⟨1, 1, fun _ => 1⟩, fun _ => (⟨0, two_pos⟩ : Fin 2), Demo.rowMachine_fitted, Demo.rowLearner_rowWise, rfl, rfl, fun i => ?_, ?_, ?_⟩
  · show (1 : ℝ) = 1 - ((0 : Nat) : ℝ)
    norm_num
  · refine (C80_normalising (env := Demo.env2) (κ := fun x y => x * y) (B := Demo.oneZero) rfl Demo.rowLearner Demo.rowMachine_fitted rfl (hf Demo.oneZero) (hr _) hA (hB _)).1 (Or.inl ⟨(⟨1, one_lt_two⟩ : Fin 2), ?_⟩)
    show NearZero ((1 - ((1 : Nat) : ℝ)) * (1 - ((1 : Nat) : ℝ)))
    norm_num [NearZero]
  · obtain ⟨G, hG⟩ := (C80_normalising (env := Demo.env2) (κ := fun x y => x * y) rfl Demo.rowLearner Demo.rowMachine_fitted (B := ⟨1, 1, fun _ => 1⟩) rfl (hf _) (hr _) hA (hB _)).2 (by
      rintro (⟨i, hi⟩ | ⟨j, hj⟩)
      · norm_num [NearZero] at hi
      · have h1 : (1 : ℝ) ≤ (j : Nat) + 1 := by linarith [Nat.cast_nonneg (α := ℝ) (j : Nat)]
        have h2 : NearZero (((j : Nat) + 1 : ℝ) * ((j : Nat) + 1)) := hj
        rw [NearZero, abs_of_nonneg (mul_self_nonneg _)] at h2
        have h3 := one_le_mul_of_one_le_of_one_le h1 h1
        norm_num at h2
        linarith)
    obtain ⟨t, h⟩ := C47_predict (env := Demo.env2) (B := ⟨1, 1, fun _ => 1⟩) rfl Demo.rowLearner Demo.rowMachine Demo.rowMachine_fitted rfl hG
    rw [h]
    exact ⟨_, rfl⟩

/-- **C80** The same for `OptimalKernelSVC`, `OptimalKernelSVR`: after `fit` has succeeded, predictions are a function of the sample, whatever was predicted before or set by `set_params`. -/
theorem C80_optimal_partial (hops : env.ops = realOps) {mkB : String → PyM (Heap K X) Bucket} (hB : MakesOk env mkB) {L : SvmLearner H M W (List Q)}
    {f : M → Nat → Except PyErr (List ℝ → Q)} {c : Est → Q → Q} (hL : L.RowWise f c) {s : OptMachine K X H M} (hs : OptMachine.Lived env mkB L s) {r : Nat} {A : Arr2 X} {m : M}
    {k : K} {norm : Bool} (h1 : s.optKernel = some r) (h2 : s.trainX = some A) (h3 : s.heap.IsKM env r k norm) (h4 : s.model = some m) :
    ∃ r : Except PyErr (X → Q), ∀ s', OptMachine.AfterPredicts env L s s' → ∀ B : Arr2 X, 0 < B.nrows → B.ncols = A.ncols → (∃ G, IsMatrix2 env k norm B A G) →
      (OptMachine.predict env L (.ok B) s').1 = r.map fun g => List.ofFn fun i : Fin B.nrows => g (B.row i) := by
  refine ⟨(f m A.nrows).map fun g x => c s.est (g (kernelRow env k norm A x)), fun s' hp B h0 hc ⟨G, hG⟩ => ?_⟩
  rw [C47_optimal_after hops hB hs hp h1 h2 h3 h4 hc hG, hL.predict m G h0]
  rcases f m A.nrows with e | g
  · rfl
  · show L.cast s.est _ = Except.ok _
    rw [hL.cast, List.map_ofFn]
    congr 2
    funext i
    show c s.est (g (List.ofFn (G i))) = _
    rw [hG.row]

/-- **C80** The order of the training samples: if it does not matter to the learner, it does not matter to the machine. -/
theorem C80_training_order (hops : env.ops = realOps) (L : Learner M Y W P) {s1 s2 t1 t2 : Machine K X M Y} {k : K} {norm : Bool} {A A' B : Arr2 X} {y y' : Y} {w w' : W}
    (hk1 : s1.kFunc = some k) (hn1 : s1.normalized = some norm) (hk2 : s2.kFunc = some k) (hn2 : s2.normalized = some norm) (hl : s2.learnerId = s1.learnerId)
    (hf1 : Machine.fit env L (.ok (A, y)) w s1 = (.ok (), t1)) (hf2 : Machine.fit env L (.ok (A', y')) w' s2 = (.ok (), t2)) (hr : A'.nrows = A.nrows)
    {σ : Fin A.nrows → Fin A.nrows} (hA : ∀ i : Fin A.nrows, A'.row i = A.row (σ i)) (hsym : SymmOn (env.kval k) A) (hL : L.OrderFree σ y y' w w')
    (hc : B.ncols = A.ncols) (hc' : B.ncols = A'.ncols) {G : Matrix (Fin A.nrows) (Fin A.nrows) ℝ} (hG : IsMatrix1 env k norm A G)
    {N : Matrix (Fin B.nrows) (Fin A.nrows) ℝ} (hN : IsMatrix2 env k norm B A N) :
    (Machine.predict env L (.ok B) t2).1 = (Machine.predict env L (.ok B) t1).1 := by
  obtain ⟨n', c', row'⟩ := A'
  obtain rfl : n' = A.nrows := hr
  have hp : Arr2.PickedFrom (⟨A.nrows, c', row'⟩ : Arr2 X) A σ := hA
  obtain ⟨e, m, he, hm, h1⟩ := C47_fit_predict hops L s1 t1 t1 hk1 hn1 hf1 .refl hG hc hN
  obtain ⟨e', m', he', hm', h2⟩ := C47_fit_predict hops L s2 t2 t2 hk2 hn2 hf2 .refl (hG.reordered hsym hp) hc' (hN.reordered hp)
  obtain rfl : e' = e := by
    rw [hl, he] at he'
    injection he' with he'
    exact he'.symm
  rw [h1, h2, hL.1]
  rw [hL.2 _ G hG.symm m m' hm hm' _ N]

/-- the hypotheses of `C80_function_partial`, `C80_selection_partial`, `C80_together_partial`: the machine with the kernel `x y`, not normalising, fitted on 1, 2, 3, and the samples 1, 0 as the batch -/
example : Demo.env2.ops = realOps ∧ Demo.rowLearner.RowWise (fun _ _ => .ok id) (fun _ q => q) ∧
    ({ Demo.rowMachine with normalized := some false, km := some (KMState.init false false 0) } : Machine Bool ℝ Unit Unit).Fitted false false Demo.rA () () ∧
    Demo.oneZero.ncols = Demo.rA.ncols ∧ (∃ G, IsMatrix2 Demo.env2 false false Demo.oneZero Demo.rA G) ∧ (⟨1, 1, fun _ => 0⟩ : Arr2 ℝ).PickedFrom Demo.oneZero fun _ => (⟨1, one_lt_two⟩ : Fin 2) := by
  refine ⟨rfl, Demo.rowLearner_rowWise, ⟨rfl, rfl, rfl, rfl, rfl, _, rfl⟩, rfl, ⟨_, (Demo.isMatrix_env2 false Demo.rA Demo.oneZero).1⟩, fun i => ?_⟩
  show (0 : ℝ) = 1 - ((1 : Nat) : ℝ)
  norm_num

/-- a support vector machine that predicts row by row, whatever it has learned -/
example : SvmLearner.RowWise (⟨fun _ _ _ _ _ _ => .ok (), fun _ T => .ok (List.ofFn fun i => List.ofFn fun j => (T.2.get i j).val), fun _ p => .ok p⟩ : SvmLearner Unit Unit Unit (List (List ℝ)))
    (fun _ _ => .ok id) fun _ q => q := ⟨fun _ _ _ _ _ => rfl, fun _ l => congrArg Except.ok (List.map_id' l).symm⟩

/-- a learner to which the order does not matter: it predicts the sum of the targets, weighted by kernel values -/
example (v : Fin 3 → ℝ) (σ : Fin 3 → Fin 3) (hσ : Function.Bijective σ) :
    Learner.OrderFree (⟨fun _ _ y _ => .ok y, fun m T => .ok (List.ofFn fun i => ∑ j, (T.2.get i j).val * m.getD j 0), fun _ p => .ok p⟩ : Learner (List ℝ) (List ℝ) Unit (List ℝ)) σ
      (List.ofFn v) (List.ofFn fun i => v (σ i)) () () := by
  refine ⟨rfl, fun e G _ m m' h h' k T => ?_⟩
  obtain rfl : List.ofFn v = m := by injection h
  obtain rfl : (List.ofFn fun i => v (σ i)) = m' := by injection h'
  show Except.ok _ = Except.ok _
  congr 2
  funext i
  show ∑ j : Fin 3, T i (σ j) * (List.ofFn fun i => v (σ i)).getD j 0 = ∑ j : Fin 3, T i j * (List.ofFn v).getD j 0
  have e : ∀ u : Fin 3 → ℝ, ∀ j : Fin 3, (List.ofFn u).getD j 0 = u j := fun u j => by
    rw [List.getD_eq_getElem?_getD, List.getElem?_ofFn]; simp
  simp only [e]
  exact hσ.sum_comp fun j => T i j * v j

end KMethods
