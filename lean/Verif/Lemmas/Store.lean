import Verif.Spec.Store
import Verif.Lemmas.OptMachineOk
/-! Estimators whose training data are shared with the caller. -/
namespace KMethods
open PyM
variable {S X Y W U P K M H : Type}

/-- what is needed of a class of estimators -/
structure EstClass.Lawful (E : EstClass S X Y W U P) : Prop where
  get_set : ∀ A s, E.train (E.setTrain A s) = A
  set_get : ∀ s, E.setTrain (E.train s) s = s
  set_set : ∀ A B s, E.setTrain A (E.setTrain B s) = E.setTrain A s
  predict : ∀ c s, E.train (E.predict c s).2 = E.train s
  setParams : ∀ u s, E.train (E.setParams u s).2 = E.train s
  fit_bad : ∀ e w s, E.train (E.fit (.error e) w s).2 = E.train s
  fit_ok : ∀ A y w s, E.train (E.fit (.ok (A, y)) w s).2 = if E.stores s then some A else E.train s

theorem EstClass.Lawful.trace {E : EstClass S X Y W U P} (hE : E.Lawful) (l : List (EstStep X Y W U)) (w : SharedEst S X) (h : w.Careful E l) :
    w.trace E l = E.trace (EstStep.calls l w.arrays) (w.now E) := by
  induction l generalizing w with
  | nil => rfl
  | cons st l ih =>
    have hnow : ∀ w : SharedEst S X, E.train (w.now E) = w.train.map (Sum.elim w.arrays id) := fun w => hE.get_set _ _
    have key : ∀ (w : SharedEst S X) (s : S), E.train s = w.train.map (Sum.elim w.arrays id) → SharedEst.now E { w with obj := s } = s := fun w s hs => by
      show E.setTrain (w.train.map (Sum.elim w.arrays id)) s = s
      rw [← hs, hE.set_get]
    cases st with
    | write r row =>
      have e : (w.step E (.write r row)).2.now E = w.now E := by
        show E.setTrain _ w.obj = E.setTrain _ w.obj
        congr 1
        rcases ht : w.train with _ | q | A
        · simp only [SharedEst.step, ht]; rfl
        · simp only [SharedEst.step, ht]
          have : q ≠ r := fun e => h.1 (by rw [ht, e])
          show some _ = some _
          simp only [Sum.elim_inl, if_neg this]
        · simp only [SharedEst.step, ht]; rfl
      show SharedEst.trace E l (w.step E (.write r row)).2 = _
      rw [ih _ h.2, e]
      rfl
    | fit d y wt =>
      have e : (w.step E (.fit d y wt)).2.now E = (E.fit ((d.checked w.arrays).map fun A => (A, y)) wt (w.now E)).2 := by
        refine key ⟨w.arrays, w.obj, _⟩ _ ?_
        dsimp only
        cases d with
        | array r =>
          show E.train (E.fit (.ok (w.arrays r, y)) wt (w.now E)).2 = _
          rw [hE.fit_ok, hnow]
          cases E.stores (w.now E) <;> rfl
        | other A =>
          show E.train (E.fit (.ok (A, y)) wt (w.now E)).2 = _
          rw [hE.fit_ok, hnow]
          cases E.stores (w.now E) <;> rfl
        | bad err =>
          show E.train (E.fit (.error err) wt (w.now E)).2 = _
          rw [hE.fit_bad, hnow]
          cases E.stores (w.now E) <;> rfl
      show _ :: SharedEst.trace E l (w.step E (.fit d y wt)).2 = _ :: _
      rw [ih _ h, e]
      rfl
    | predict d =>
      have e : (w.step E (.predict d)).2.now E = (E.predict (d.checked w.arrays) (w.now E)).2 :=
        key w _ ((hE.predict _ _).trans (hnow w))
      show _ :: SharedEst.trace E l (w.step E (.predict d)).2 = _ :: _
      rw [ih _ h, e]
      rfl
    | setParams u =>
      have e : (w.step E (.setParams u)).2.now E = (E.setParams u (w.now E)).2 :=
        key w _ ((hE.setParams _ _).trans (hnow w))
      show _ :: SharedEst.trace E l (w.step E (.setParams u)).2 = _ :: _
      rw [ih _ h, e]
      rfl

theorem careful_of_copies {E : EstClass S X Y W U P} (l : List (EstStep X Y W U)) (h : ∀ st ∈ l, st.Copies) (w : SharedEst S X) (hw : ∀ r, w.train ≠ some (.inl r)) :
    w.Careful E l := by
  induction l generalizing w with
  | nil => trivial
  | cons st l ih =>
    have h1 := h st (by simp)
    have h2 : ∀ st ∈ l, st.Copies := fun st hst => h st (by simp [hst])
    cases st with
    | write r row => exact ⟨hw r, ih h2 _ hw⟩
    | fit d y wt =>
      refine ih h2 _ fun r => ?_
      show (if E.stores (w.now E) then (d.kept <|> w.train) else w.train) ≠ _
      cases E.stores (w.now E) with
      | false => exact hw r
      | true =>
        cases d with
        | array q => exact h1.elim
        | other A => exact fun e => by cases e
        | bad err => exact hw r
    | predict d => exact ih h2 _ hw
    | setParams u => exact ih h2 _ hw

/-! ## the two classes -/

theorem machine_fit_train {env : Env K X F} (L : Learner M Y W P) (A : Arr2 X) (y : Y) (w : W) (s : Machine K X M Y) :
    (Machine.fit env L (.ok (A, y)) w s).2.trainX = some A := by
  have hI : ∀ {α : Type} {m : PyM (Machine K X M Y) α}, Machine.KeepsKM m → Pres (fun s => s.trainX = some A) m := fun h s hs => by
    obtain ⟨t, e, -⟩ := h s
    rw [e]
    exact hs
  have : Pres (fun s : Machine K X M Y => s.trainX = some A) (do
      Machine.freshKM
      Machine.onKM (KMState.attach (Machine.arg A) none)
      let s ← get
      let e ← lift (getEstimator s.learnerId)
      modify fun s => { s with estimator := some (e, none) }
      let T ← Machine.onKM (KMState.full env)
      Machine.fitEstimator L e T y w) := by
    refine (hI Machine.keepsKM_freshKM).bind fun _ => (hI (Machine.keepsKM_onKM _)).bind fun _ => Pres.get fun s => (Pres.lift _).bind fun e =>
      Pres.bind ?_ fun _ => (hI (Machine.keepsKM_onKM _)).bind fun T => (Pres.lift _).bind fun m => Pres.bind ?_ fun _ => Pres.get fun s => Pres.raiseIf _ _
    · exact Pres.modify fun _ hs => hs
    · exact Pres.modify fun _ hs => hs
  exact this { s with trainX := some A, trainY := some y } rfl

theorem machine_setParams_train (ps : List (ParamUpdate K)) (s : Machine K X M Y) : (Machine.setParams ps s).2.trainX = s.trainX := by
  rw [Machine.setParams_run]
  induction ps generalizing s with
  | nil => rfl
  | cons p ps ih => exact (ih _).trans (by cases p <;> rfl)

theorem machine_lawful (env : Env K X F) (L : Learner M Y W P) : (Machine.cls env L).Lawful where
  get_set _ _ := rfl
  set_get _ := rfl
  set_set _ _ _ := rfl
  predict c s := by
    obtain ⟨t, e, -⟩ := Machine.predict_state (env := env) L c s
    show (Machine.predict env L c s).2.trainX = _
    rw [e]
    rfl
  setParams u s := machine_setParams_train u s
  fit_bad _ _ _ := rfl
  fit_ok A y w s := machine_fit_train L A y w s

namespace OptMachine

theorem pres_train_onHeap {α : Type} {t : Option (Arr2 X)} (m : PyM (Heap K X) α) : Pres (fun s : OptMachine K X H M => s.trainX = t) (onHeap m) := fun _ hs => hs

theorem chooseBucket_train (mkB : String → PyM (Heap K X) Bucket) (s : OptMachine K X H M) : (chooseBucket mkB s).2.trainX = s.trainX := by
  rcases hk : s.kBucket with n | t | _
  · rw [choose_str mkB s hk]
    rcases mkB n s.heap with ⟨e | b, h'⟩ <;> rfl
  · rw [choose_bucket mkB s hk]
    rcases copyBucket t s.heap with ⟨e | b, h'⟩ <;> rfl
  · rw [choose_other mkB s hk]

theorem fitOn_train {env : Env K X F} (cv : List F → CVScore) (L : SvmLearner H M W P) (A : Arr2 X) (y : List F) (w : W) (s : OptMachine K X H M) :
    (fitOn env cv L A y w s).2.trainX = s.trainX := by
  have : Pres (fun s' : OptMachine K X H M => s'.trainX = s.trainX) (fitOn env cv L A y w) := by
    refine Pres.bind ?_ fun r => Pres.bind ?_ fun _ => (pres_train_onHeap _).bind fun T => Pres.get fun _ => (Pres.lift _).bind fun m => ?_
    · refine Pres.get fun s' => fun s hs => ?_
      unfold onBucket
      rcases s.bucket with _ | t
      · exact hs
      · exact hs
    · exact Pres.modify fun _ hs => hs
    · exact Pres.modify fun _ hs => hs
  exact this s rfl

end OptMachine

theorem optMachine_lawful (env : Env K X F) (mkB : String → PyM (Heap K X) Bucket) (cv : List F → CVScore) (L : SvmLearner H M W P) :
    (OptMachine.cls (X := X) env mkB cv L).Lawful where
  get_set _ _ := rfl
  set_get _ := rfl
  set_set _ _ _ := rfl
  predict c s := (Pres.get (I := fun s' : OptMachine K X H M => s'.trainX = s.trainX) fun _ => (Pres.raiseIf _ _).bind fun _ => (Pres.getAttr _).bind fun r => (Pres.lift _).bind fun _ =>
    (Pres.getAttr _).bind fun _ => (OptMachine.pres_train_onHeap _).bind fun _ => (OptMachine.pres_train_onHeap _).bind fun _ => (Pres.getAttr _).bind fun _ => (Pres.lift _).bind fun _ => Pres.lift _) s rfl
  setParams u s := by
    show (OptMachine.setParams u s).2.trainX = s.trainX
    rw [OptMachine.setParams_run]
    induction u generalizing s with
    | nil => rfl
    | cons p ps ih => exact (ih _).trans (by cases p <;> rfl)
  fit_bad e w s := by
    show (OptMachine.fit env mkB cv L (.error e) w s).2.trainX = s.trainX
    rw [OptMachine.fit_eq]
    have := OptMachine.chooseBucket_train mkB s
    rcases h : OptMachine.chooseBucket mkB s with ⟨_ | _, s1⟩ <;> rw [h] at this <;> exact this
  fit_ok A y w s := by
    show (OptMachine.fit env mkB cv L (.ok (A, y)) w s).2.trainX =
      if (match (OptMachine.chooseBucket mkB s).1 with | .ok _ => true | .error _ => false) = true then some A else s.trainX
    rw [OptMachine.fit_eq]
    have := OptMachine.chooseBucket_train mkB s
    rcases h : OptMachine.chooseBucket mkB s with ⟨_ | _, s1⟩ <;> rw [h] at this
    · exact this
    · exact OptMachine.fitOn_train cv L A y w _

/-- overwriting arrays does not concern the object -/
theorem overwrite_obj {S U : Type} (E : EstClass S X Y W U P) (l : List (Nat × (Nat → X))) (w : SharedEst S X) :
    (w.overwrite E l).obj = w.obj ∧ (w.overwrite E l).train = w.train ∧ ∀ r, ((w.overwrite E l).arrays r).nrows = (w.arrays r).nrows ∧ ((w.overwrite E l).arrays r).ncols = (w.arrays r).ncols := by
  induction l generalizing w with
  | nil => exact ⟨rfl, rfl, fun _ => ⟨rfl, rfl⟩⟩
  | cons p l ih =>
    obtain ⟨q, row⟩ := p
    obtain ⟨h1, h2, h3⟩ := ih (w.step E (.write q row)).2
    refine ⟨h1, h2, fun r => ?_⟩
    rw [show w.overwrite E ((q, row) :: l) = ((w.step E (.write q row)).2.overwrite E l) from rfl, (h3 r).1, (h3 r).2]
    simp only [SharedEst.step]
    split_ifs with h
    · subst h; exact ⟨rfl, rfl⟩
    · exact ⟨rfl, rfl⟩

/-- up to its first assignment to `KM`, `fit` only computes arguments -/
theorem fitBody_old_matrix (hp : Heap K X) (t : KSet) (kind : CompKind) (ns : NumSamples) (b : Bool) (v v' : Option (Fmt × Mat F)) (w : Option WeightsIn) :
    CompSt.fitBody env w ⟨hp, t, kind, ns, b, v⟩ ⟨hp, t, kind, ns, b, v⟩ = CompSt.fitBody env w ⟨hp, t, kind, ns, b, v'⟩ ⟨hp, t, kind, ns, b, v'⟩ ∨
    ∃ e, CompSt.fitBody env w ⟨hp, t, kind, ns, b, v⟩ ⟨hp, t, kind, ns, b, v⟩ = (.error e, ⟨hp, t, kind, ns, b, v⟩) ∧
      CompSt.fitBody env w ⟨hp, t, kind, ns, b, v'⟩ ⟨hp, t, kind, ns, b, v'⟩ = (.error e, ⟨hp, t, kind, ns, b, v'⟩) := by
  have start : ∀ {α : Type} (x : Except PyErr α) (k : α → PyM (CompSt K X) Unit), (∀ a, k a ⟨hp, t, kind, ns, b, v⟩ = k a ⟨hp, t, kind, ns, b, v'⟩ ∨
      ∃ e, k a ⟨hp, t, kind, ns, b, v⟩ = (.error e, ⟨hp, t, kind, ns, b, v⟩) ∧ k a ⟨hp, t, kind, ns, b, v'⟩ = (.error e, ⟨hp, t, kind, ns, b, v'⟩)) →
      ((lift x >>= k : PyM _ _) ⟨hp, t, kind, ns, b, v⟩ = (lift x >>= k : PyM _ _) ⟨hp, t, kind, ns, b, v'⟩ ∨
      ∃ e, (lift x >>= k : PyM _ _) ⟨hp, t, kind, ns, b, v⟩ = (.error e, ⟨hp, t, kind, ns, b, v⟩) ∧ (lift x >>= k : PyM _ _) ⟨hp, t, kind, ns, b, v'⟩ = (.error e, ⟨hp, t, kind, ns, b, v'⟩)) := by
    intro α x k h
    rcases x with e | a
    · exact .inr ⟨e, rfl, rfl⟩
    · exact h a
  have ws : ∀ l, CompSt.weightedSum env l ⟨hp, t, kind, ns, b, v⟩ = CompSt.weightedSum env l ⟨hp, t, kind, ns, b, v'⟩ ∨
      ∃ e, CompSt.weightedSum env l ⟨hp, t, kind, ns, b, v⟩ = (.error e, ⟨hp, t, kind, ns, b, v⟩) ∧ CompSt.weightedSum env l ⟨hp, t, kind, ns, b, v'⟩ = (.error e, ⟨hp, t, kind, ns, b, v'⟩) :=
    fun l => start (squareOf 0 ns) (fun Z => CompSt.setKM (.dense, Z) >>= fun _ => forEach (l.zip t.members) fun p => CompSt.step env (fun acc M => addStored acc (scaleStored p.1 M)) p.2)
      fun a => .inl rfl
  have ri : ∀ k : PyM (CompSt K X) Unit, (k ⟨hp, t, kind, ns, b, v⟩ = k ⟨hp, t, kind, ns, b, v'⟩ ∨
      ∃ e, k ⟨hp, t, kind, ns, b, v⟩ = (.error e, ⟨hp, t, kind, ns, b, v⟩) ∧ k ⟨hp, t, kind, ns, b, v'⟩ = (.error e, ⟨hp, t, kind, ns, b, v'⟩)) →
      ((raiseIf w.isSome .typeError >>= fun _ => k : PyM _ _) ⟨hp, t, kind, ns, b, v⟩ = (raiseIf w.isSome .typeError >>= fun _ => k : PyM _ _) ⟨hp, t, kind, ns, b, v'⟩ ∨
      ∃ e, (raiseIf w.isSome .typeError >>= fun _ => k : PyM _ _) ⟨hp, t, kind, ns, b, v⟩ = (.error e, ⟨hp, t, kind, ns, b, v⟩) ∧
        (raiseIf w.isSome .typeError >>= fun _ => k : PyM _ _) ⟨hp, t, kind, ns, b, v'⟩ = (.error e, ⟨hp, t, kind, ns, b, v'⟩)) := by
    intro k h
    cases w with
    | none => exact h
    | some w => exact .inr ⟨.typeError, rfl, rfl⟩
  cases kind with
  | sum => exact start (CompSt.sumWeights t.members.length w) (fun l => CompSt.weightedSum env l) ws
  | product => exact ri _ (start (squareOf 1 ns) (fun Z => CompSt.setKM (.dense, Z) >>= fun _ => forEach t.members (CompSt.step env mulStored)) fun a => .inl rfl)
  | average => exact ri _ (start (squareOf 0 ns) (fun Z => CompSt.setKM (.dense, Z) >>= fun _ => forEach t.members (CompSt.step env addStored) >>= fun _ =>
      getAttr (·.comp.km) >>= fun acc => CompSt.setKM (acc.1, acc.2.map (· / .real t.members.length))) fun a => .inl rfl)
  | weighted l => exact ri _ (ws l)

end KMethods
