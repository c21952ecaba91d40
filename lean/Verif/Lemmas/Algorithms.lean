import Verif.Spec.Algorithms
import Verif.Lemmas.Ranking
import Verif.Lemmas.Clock
/-!
# Lemmas on kernel machines
-/
namespace KMethods
open PyM KMState
variable {K X M Y W P H : Type} {env : Env K X F}

theorem ofArgs_arg1 (A : Arr2 X) : Attachment.ofArgs (Machine.arg A) none = .ok ⟨A, none⟩ :=
  (ofArgs_iff _ _ _).2 ⟨⟨0, rfl⟩, trivial⟩

theorem ofArgs_arg2 {B A : Arr2 X} (h : B.ncols = A.ncols) : Attachment.ofArgs (Machine.arg B) (some (Machine.arg A)) = .ok ⟨B, some A⟩ :=
  (ofArgs_iff _ _ _).2 ⟨⟨0, rfl⟩, ⟨0, rfl⟩, h⟩

theorem ofArgs_arg2_bad {B A : Arr2 X} (h : B.ncols ≠ A.ncols) : Attachment.ofArgs (Machine.arg B) (some (Machine.arg A)) = .error .valueError := by
  have : (Machine.arg A).to2D = .ok A := (to2D_iff _ _).2 ⟨0, rfl⟩
  have : (Machine.arg B).to2D = .ok B := (to2D_iff _ _).2 ⟨0, rfl⟩
  simp [Attachment.ofArgs, *]

theorem since_attach1 {k : K} {norm : Bool} {A : Arr2 X} {t : KMState K X F} (ht : Reachable env k norm t) (Q : KMOp X → Prop) :
    ∃ t', KMState.attach (Machine.arg A) none t = (.ok (), t') ∧ Since env k norm ⟨A, none⟩ Q t' ∧ t' = attachedState t.kernel t.keepNormed ⟨A, none⟩ t.clock t.centeredKm := by
  have e := attach_ok _ _ t _ (ofArgs_arg1 A)
  refine ⟨_, e, .attached (one := Machine.arg A) (two := none) ht ⟨⟨0, rfl⟩, trivial⟩ ?_, rfl⟩
  rw [exec_attach_run, e]
  rfl

theorem since_attach2 {k : K} {norm : Bool} {A B : Arr2 X} (h : B.ncols = A.ncols) {t : KMState K X F} (ht : Reachable env k norm t) (Q : KMOp X → Prop) :
    ∃ t', KMState.attach (Machine.arg B) (some (Machine.arg A)) t = (.ok (), t') ∧ Since env k norm ⟨B, some A⟩ Q t' ∧
      t' = attachedState t.kernel t.keepNormed ⟨B, some A⟩ t.clock t.centeredKm := by
  have e := attach_ok _ _ t _ (ofArgs_arg2 h)
  refine ⟨_, e, .attached (one := Machine.arg B) (two := some (Machine.arg A)) ht ⟨⟨0, rfl⟩, ⟨0, rfl⟩, h⟩ ?_, rfl⟩
  rw [exec_attach_run, e]
  rfl

namespace Machine

theorem onKM_run {α : Type} (m : PyM (KMState K X F) α) {s : Machine K X M Y} {t : KMState K X F} (h : s.km = some t) :
    onKM m s = ((m t).1, { s with km := some (m t).2 }) := by
  unfold onKM; rw [h]

theorem freshKM_run {s : Machine K X M Y} {k : K} {norm : Bool} (h1 : s.kFunc = some k) (h2 : s.normalized = some norm) :
    freshKM s = (.ok (), { s with km := some (KMState.init k norm ((s.km.map (·.clock)).getD 0)) }) := by
  unfold freshKM; rw [h1, h2]

/-- `fit` up to the call of the learner, with the state of the kernel matrix -/
theorem fit_run_from (L : Learner M Y W P) (s : Machine K X M Y) {k : K} {norm : Bool} {e : Est} {A : Arr2 X} (y : Y) (w : W) (hk : s.kFunc = some k) (hn : s.normalized = some norm)
    (he : getEstimator s.learnerId = .ok e) :
    ∃ t, (Since env k norm ⟨A, none⟩ (fun op => op = .full) t ∧ t = attachedState k norm ⟨A, none⟩ ((s.km.map (·.clock)).getD 0) none) ∧ fit env L (.ok (A, y)) w s =
      match (KMState.full env t).1 with
      | .error err => (.error err, { s with trainX := some A, trainY := some y, km := some (KMState.full env t).2, estimator := some (e, none) })
      | .ok T => match L.fit e T y w with
        | .error err => (.error err, { s with trainX := some A, trainY := some y, km := some (KMState.full env t).2, estimator := some (e, none) })
        | .ok m => (if s.classifier = true ∧ e = .svr then .error .attributeError else .ok (),
            { s with trainX := some A, trainY := some y, km := some (KMState.full env t).2, estimator := some (e, some m) }) := by
  obtain ⟨cl, kf, li, nm, tx, ty, km0, es⟩ := s
  obtain rfl : kf = some k := hk
  obtain rfl : nm = some norm := hn
  obtain ⟨t, et, hs, hst⟩ := since_attach1 (env := env) (A := A) (.new ((km0.map (·.clock)).getD 0)) (fun op => op = .full)
  refine ⟨t, ⟨hs, hst⟩, ?_⟩
  have e1 : onKM (KMState.attach (arg A) none) (⟨cl, some k, li, some norm, some A, some y, some (KMState.init k norm ((km0.map (·.clock)).getD 0)), es⟩ : Machine K X M Y) =
      (.ok (), ⟨cl, some k, li, some norm, some A, some y, some t, es⟩) := by
    rw [onKM_run _ rfl, et]
  show (onKM (KMState.attach (arg A) none) >>= _ : PyM (Machine K X M Y) Unit)
    (⟨cl, some k, li, some norm, some A, some y, some (KMState.init k norm ((km0.map (·.clock)).getD 0)), es⟩ : Machine K X M Y) = _
  rw [bind_ok e1]
  show (lift (getEstimator li) >>= _ : PyM (Machine K X M Y) Unit) (⟨cl, some k, li, some norm, some A, some y, some t, es⟩ : Machine K X M Y) = _
  rw [show getEstimator li = _ from he]
  show (onKM (KMState.full env) >>= _ : PyM (Machine K X M Y) Unit) (⟨cl, some k, li, some norm, some A, some y, some t, some (e, none)⟩ : Machine K X M Y) = _
  rcases hr : (KMState.full env t).1 with err | T
  · rw [bind_error (m := onKM (KMState.full env)) (by rw [onKM_run _ rfl, hr])]
  · rw [bind_ok (m := onKM (KMState.full env)) (by rw [onKM_run _ rfl, hr])]
    show (lift (L.fit e T y w) >>= _ : PyM (Machine K X M Y) Unit) _ = _
    dsimp only
    rcases L.fit e T y w with err | m
    · rfl
    · cases cl <;> cases e <;> rfl

/-- `fit` up to the call of the learner -/
theorem fit_run (L : Learner M Y W P) (s : Machine K X M Y) {k : K} {norm : Bool} {e : Est} {A : Arr2 X} (y : Y) (w : W) (hk : s.kFunc = some k) (hn : s.normalized = some norm)
    (he : getEstimator s.learnerId = .ok e) :
    ∃ t, Since env k norm ⟨A, none⟩ (fun op => op = .full) t ∧ fit env L (.ok (A, y)) w s =
      match (KMState.full env t).1 with
      | .error err => (.error err, { s with trainX := some A, trainY := some y, km := some (KMState.full env t).2, estimator := some (e, none) })
      | .ok T => match L.fit e T y w with
        | .error err => (.error err, { s with trainX := some A, trainY := some y, km := some (KMState.full env t).2, estimator := some (e, none) })
        | .ok m => (if s.classifier = true ∧ e = .svr then .error .attributeError else .ok (),
            { s with trainX := some A, trainY := some y, km := some (KMState.full env t).2, estimator := some (e, some m) }) := by
  obtain ⟨t, h, e⟩ := fit_run_from (env := env) L s (A := A) y w hk hn he
  exact ⟨t, h.1, e⟩

/-- an unknown learner -/
theorem fit_learner_run (L : Learner M Y W P) (s : Machine K X M Y) {k : K} {norm : Bool} {e : PyErr} {A : Arr2 X} (y : Y) (w : W) (hk : s.kFunc = some k) (hn : s.normalized = some norm)
    (he : getEstimator s.learnerId = .error e) : ∃ t, fit env L (.ok (A, y)) w s = (.error e, { s with trainX := some A, trainY := some y, km := some t }) := by
  obtain ⟨cl, kf, li, nm, tx, ty, km0, es⟩ := s
  obtain rfl : kf = some k := hk
  obtain rfl : nm = some norm := hn
  obtain ⟨t, et, hs, _⟩ := since_attach1 (env := env) (A := A) (.new ((km0.map (·.clock)).getD 0)) (fun op => op = .full)
  have e1 : onKM (KMState.attach (arg A) none) (⟨cl, some k, li, some norm, some A, some y, some (KMState.init k norm ((km0.map (·.clock)).getD 0)), es⟩ : Machine K X M Y) =
      (.ok (), ⟨cl, some k, li, some norm, some A, some y, some t, es⟩) := by
    rw [onKM_run _ rfl, et]
  refine ⟨t, ?_⟩
  show (onKM (KMState.attach (arg A) none) >>= _ : PyM (Machine K X M Y) Unit)
    (⟨cl, some k, li, some norm, some A, some y, some (KMState.init k norm ((km0.map (·.clock)).getD 0)), es⟩ : Machine K X M Y) = _
  rw [bind_ok e1]
  show (lift (getEstimator li) >>= _ : PyM (Machine K X M Y) Unit) (⟨cl, some k, li, some norm, some A, some y, some t, es⟩ : Machine K X M Y) = _
  rw [show getEstimator li = _ from he]
  rfl

theorem fit_learner (L : Learner M Y W P) (s : Machine K X M Y) {k : K} {norm : Bool} {e : PyErr} {A : Arr2 X} (y : Y) (w : W) (hk : s.kFunc = some k) (hn : s.normalized = some norm)
    (he : getEstimator s.learnerId = .error e) : (fit env L (.ok (A, y)) w s).1 = .error e := by
  obtain ⟨t, h⟩ := fit_learner_run (env := env) L s (A := A) y w hk hn he
  rw [h]

/-- a kernel function or flag of the wrong type -/
theorem fit_no_kernel (L : Learner M Y W P) (s : Machine K X M Y) (A : Arr2 X) (y : Y) (w : W) (h : s.kFunc = none ∨ s.normalized = none) :
    fit env L (.ok (A, y)) w s = (.error .typeError, { s with trainX := some A, trainY := some y }) := by
  obtain ⟨cl, kf, li, nm, tx, ty, km0, es⟩ := s
  rcases kf with _ | k
  · rfl
  rcases nm with _ | norm
  · rfl
  rcases h with h | h <;> cases h

/-- `predict` up to the call of the learner, with the state of the kernel matrix -/
theorem predict_run_from (L : Learner M Y W P) (s : Machine K X M Y) {k : K} {norm : Bool} {A B : Arr2 X} {y : Y} {e : Est} {m : Option M} (hk : s.kFunc = some k) (hn : s.normalized = some norm)
    (hkm : s.km.isSome) (hA : s.trainX = some A) (hy : s.trainY = some y) (he : s.estimator = some (e, m)) (hc : B.ncols = A.ncols) :
    ∃ t, (Since env k norm ⟨B, some A⟩ (fun op => op = .full) t ∧ t = attachedState k norm ⟨B, some A⟩ ((s.km.map (·.clock)).getD 0) none) ∧ predict env L (.ok B) s =
      (match (KMState.full env t).1 with
        | .error err => .error err
        | .ok T => (applyModel L m T).bind (L.cast y), { s with km := some (KMState.full env t).2 }) := by
  obtain ⟨cl, kf, li, nm, tx, ty, km0, es⟩ := s
  obtain rfl : kf = some k := hk
  obtain rfl : nm = some norm := hn
  obtain rfl : tx = some A := hA
  obtain rfl : ty = some y := hy
  obtain rfl : es = some (e, m) := he
  obtain ⟨u, rfl⟩ := Option.isSome_iff_exists.1 hkm
  obtain ⟨t, et, hs, hst⟩ := since_attach2 (env := env) hc (.new u.clock) (fun op => op = .full)
  refine ⟨t, ⟨hs, hst⟩, ?_⟩
  have e1 : onKM (KMState.attach (arg B) (some (arg A))) (⟨cl, some k, li, some norm, some A, some y, some (KMState.init k norm u.clock), some (e, m)⟩ : Machine K X M Y) =
      (.ok (), ⟨cl, some k, li, some norm, some A, some y, some t, some (e, m)⟩) := by
    rw [onKM_run _ rfl, et]
  show (onKM (KMState.attach (arg B) (some (arg A))) >>= _ : PyM (Machine K X M Y) P)
    (⟨cl, some k, li, some norm, some A, some y, some (KMState.init k norm u.clock), some (e, m)⟩ : Machine K X M Y) = _
  rw [bind_ok e1]
  show (onKM (KMState.full env) >>= _ : PyM (Machine K X M Y) P) (⟨cl, some k, li, some norm, some A, some y, some t, some (e, m)⟩ : Machine K X M Y) = _
  rcases hr : (KMState.full env t).1 with err | T
  · rw [bind_error (m := onKM (KMState.full env)) (by rw [onKM_run _ rfl, hr])]
  · rw [bind_ok (m := onKM (KMState.full env)) (by rw [onKM_run _ rfl, hr])]
    show (lift (applyModel L m T) >>= _ : PyM (Machine K X M Y) P) _ = _
    dsimp only
    rcases applyModel L m T with err | p <;> rfl

/-- `predict` up to the call of the learner -/
theorem predict_run (L : Learner M Y W P) (s : Machine K X M Y) {k : K} {norm : Bool} {A B : Arr2 X} {y : Y} {e : Est} {m : Option M} (hk : s.kFunc = some k) (hn : s.normalized = some norm)
    (hkm : s.km.isSome) (hA : s.trainX = some A) (hy : s.trainY = some y) (he : s.estimator = some (e, m)) (hc : B.ncols = A.ncols) :
    ∃ t, Since env k norm ⟨B, some A⟩ (fun op => op = .full) t ∧ predict env L (.ok B) s =
      (match (KMState.full env t).1 with
        | .error err => .error err
        | .ok T => (applyModel L m T).bind (L.cast y), { s with km := some (KMState.full env t).2 }) := by
  obtain ⟨t, h, e⟩ := predict_run_from (env := env) L s hk hn hkm hA hy he hc
  exact ⟨t, h.1, e⟩

/-- with test data of the wrong number of columns -/
theorem predict_bad_cols (L : Learner M Y W P) (s : Machine K X M Y) {k : K} {norm : Bool} {A B : Arr2 X} (hk : s.kFunc = some k) (hn : s.normalized = some norm)
    (hkm : s.km.isSome) (hA : s.trainX = some A) (hc : B.ncols ≠ A.ncols) : (predict env L (.ok B) s).1 = .error .valueError := by
  obtain ⟨cl, kf, li, nm, tx, ty, km0, es⟩ := s
  obtain rfl : kf = some k := hk
  obtain rfl : nm = some norm := hn
  obtain rfl : tx = some A := hA
  obtain ⟨u, rfl⟩ := Option.isSome_iff_exists.1 hkm
  have et := attach_error _ _ (KMState.init (V := F) k norm u.clock) _ (ofArgs_arg2_bad hc)
  show ((onKM (KMState.attach (arg B) (some (arg A))) >>= _ : PyM (Machine K X M Y) P)
    (⟨cl, some k, li, some norm, some A, ty, some (KMState.init k norm u.clock), es⟩ : Machine K X M Y)).1 = _
  rw [bind_run, onKM_run _ rfl, et]

/-- only `_km` is changed, and it stays there -/
def KeepsKM {α : Type} (m : PyM (Machine K X M Y) α) : Prop := ∀ s, ∃ t, (m s).2 = { s with km := t } ∧ (s.km.isSome → t.isSome)

theorem KeepsKM.bind {α β : Type} {m : PyM (Machine K X M Y) α} {f : α → PyM (Machine K X M Y) β} (h : KeepsKM m) (hf : ∀ x, KeepsKM (f x)) : KeepsKM (m >>= f) := by
  intro s
  obtain ⟨t, e, ht⟩ := h s
  rcases hm : m s with ⟨err | a, s'⟩
  · rw [bind_error hm]
    rw [hm] at e
    exact ⟨t, e, ht⟩
  · rw [bind_ok hm]
    rw [hm] at e
    obtain rfl : s' = _ := e
    obtain ⟨t', e', ht'⟩ := hf a { s with km := t }
    exact ⟨t', e', fun h => ht' (ht h)⟩

theorem KeepsKM.of_eq {α : Type} {m : PyM (Machine K X M Y) α} (h : ∀ s, (m s).2 = s) : KeepsKM m := fun s => ⟨s.km, h s, id⟩

theorem keepsKM_lift {α : Type} (x : Except PyErr α) : KeepsKM (lift x : PyM (Machine K X M Y) α) := .of_eq fun _ => rfl
theorem keepsKM_pure {α : Type} (x : α) : KeepsKM (pure x : PyM (Machine K X M Y) α) := .of_eq fun _ => rfl
theorem keepsKM_getAttr {α : Type} (f : Machine K X M Y → Option α) : KeepsKM (getAttr f) := .of_eq fun s => by
  rw [getAttr_run]
  rcases f s <;> rfl
theorem keepsKM_onKM {α : Type} (m : PyM (KMState K X F) α) : KeepsKM (onKM m : PyM (Machine K X M Y) α) := fun s => by
  rcases h : s.km with _ | t
  · exact ⟨none, by simp only [onKM, h]; rw [← h], id⟩
  · exact ⟨some (m t).2, by simp only [onKM, h], fun _ => rfl⟩
theorem keepsKM_freshKM : KeepsKM (freshKM : PyM (Machine K X M Y) Unit) := fun s => by
  rcases h1 : s.kFunc with _ | k
  · exact ⟨s.km, by simp only [freshKM, h1]; rw [← h1], id⟩
  rcases h2 : s.normalized with _ | norm
  · exact ⟨s.km, by simp only [freshKM, h1, h2]; rw [← h1, ← h2], id⟩
  · rw [freshKM_run h1 h2]
    exact ⟨some (KMState.init k norm ((s.km.map (·.clock)).getD 0)), by rw [← h1, ← h2], fun _ => rfl⟩

theorem predict_unfitted (L : Learner M Y W P) (checked : Except PyErr (Arr2 X)) (s : Machine K X M Y) (h : s.km = none) : predict env L checked s = (.error .notFitted, s) := by
  show (get >>= _ : PyM (Machine K X M Y) P) s = _
  rw [get_bind_run, h]
  rfl

/-- `predict` changes only `_km`, which stays there -/
theorem predict_state (L : Learner M Y W P) (checked : Except PyErr (Arr2 X)) : KeepsKM (predict env L checked : PyM (Machine K X M Y) P) := by
  intro s
  rcases h : s.km with _ | u
  · rw [predict_unfitted _ _ _ h]
    exact ⟨none, by rw [← h], id⟩
  show ∃ t, ((get >>= _ : PyM (Machine K X M Y) P) s).2 = _ ∧ _
  rw [get_bind_run, h]
  change ∃ t, ((lift checked >>= _ : PyM (Machine K X M Y) P) s).2 = _ ∧ _
  rw [← h]
  exact (keepsKM_lift checked).bind (fun B => keepsKM_freshKM.bind fun _ => (keepsKM_getAttr _).bind fun A => (keepsKM_onKM _).bind fun _ =>
    (keepsKM_getAttr _).bind fun e => (keepsKM_onKM _).bind fun T => (keepsKM_lift _).bind fun p => (keepsKM_getAttr _).bind fun y => keepsKM_lift _) s

/-- another `_km` gives the same result of `predict`, if failures of the kernel function do not depend on the number of the call -/
theorem predict_km (hs : Steady env) (L : Learner M Y W P) (checked : Except PyErr (Arr2 X)) (s : Machine K X M Y) (h : s.km.isSome) (t : KMState K X F) :
    (predict env L checked { s with km := some t }).1 = (predict env L checked s).1 := by
  obtain ⟨cl, kf, li, nm, tx, ty, km0, es⟩ := s
  obtain ⟨u, rfl⟩ := Option.isSome_iff_exists.1 h
  rcases checked with err | B
  · rfl
  rcases kf with _ | k
  · rfl
  rcases nm with _ | norm
  · rfl
  rcases tx with _ | A
  · rfl
  obtain ⟨c1, e1⟩ := cf_attach (C := false) (arg B) (some (arg A)) (KMState.init (V := F) k norm u.clock) t.clock none
  rw [show frame false t.clock none (KMState.init (V := F) k norm u.clock) = KMState.init k norm t.clock from rfl] at e1
  show ((onKM (KMState.attach (arg B) (some (arg A))) >>= _ : PyM (Machine K X M Y) P)
    (⟨cl, some k, li, some norm, some A, ty, some (KMState.init k norm t.clock), es⟩ : Machine K X M Y)).1 =
    ((onKM (KMState.attach (arg B) (some (arg A))) >>= _ : PyM (Machine K X M Y) P)
    (⟨cl, some k, li, some norm, some A, ty, some (KMState.init k norm u.clock), es⟩ : Machine K X M Y)).1
  rw [bind_run, bind_run, onKM_run _ rfl, onKM_run _ rfl, e1]
  rcases h : KMState.attach (arg B) (some (arg A)) (KMState.init (V := F) k norm u.clock) with ⟨_ | _, t1⟩
  · rfl
  rcases es with _ | e
  · rfl
  obtain ⟨c2, e2⟩ := cf_full (C := false) hs t1 c1 none
  show ((onKM (KMState.full env) >>= _ : PyM (Machine K X M Y) P) (⟨cl, some k, li, some norm, some A, ty, some (frame false c1 none t1), some e⟩ : Machine K X M Y)).1 =
    ((onKM (KMState.full env) >>= _ : PyM (Machine K X M Y) P) (⟨cl, some k, li, some norm, some A, ty, some t1, some e⟩ : Machine K X M Y)).1
  rw [bind_run, bind_run, onKM_run _ rfl, onKM_run _ rfl, e2]
  rcases (KMState.full env t1).1 with _ | T
  · rfl
  show ((lift (applyModel L e.2 T) >>= _ : PyM (Machine K X M Y) P) _).1 = ((lift (applyModel L e.2 T) >>= _ : PyM (Machine K X M Y) P) _).1
  rcases applyModel L e.2 T with _ | p
  · rfl
  rcases ty with _ | y <;> rfl

theorem predict_no_kernel (L : Learner M Y W P) (checked : Except PyErr (Arr2 X)) (s : Machine K X M Y) (h : s.kFunc = none ∨ s.normalized = none) :
    ∃ err, (predict env L checked s).1 = .error err := by
  obtain ⟨cl, kf, li, nm, tx, ty, km0, es⟩ := s
  rcases km0 with _ | u
  · exact ⟨_, rfl⟩
  rcases checked with err | B
  · exact ⟨_, rfl⟩
  rcases kf with _ | k
  · exact ⟨_, rfl⟩
  rcases nm with _ | norm
  · exact ⟨_, rfl⟩
  rcases h with h | h <;> cases h

theorem predict_no_model (L : Learner M Y W P) (checked : Except PyErr (Arr2 X)) (s : Machine K X M Y) {e : Est} (h : s.estimator = some (e, none)) :
    ∃ err, (predict env L checked s).1 = .error err := by
  obtain ⟨cl, kf, li, nm, tx, ty, km0, es⟩ := s
  obtain rfl : es = _ := h
  rcases km0 with _ | u
  · exact ⟨_, rfl⟩
  rcases checked with err | B
  · exact ⟨_, rfl⟩
  rcases kf with _ | k
  · exact ⟨_, rfl⟩
  rcases nm with _ | norm
  · exact ⟨_, rfl⟩
  rcases tx with _ | A
  · exact ⟨_, rfl⟩
  show ∃ err, ((onKM (KMState.attach (arg B) (some (arg A))) >>= _ : PyM (Machine K X M Y) P)
    (⟨cl, some k, li, some norm, some A, ty, some (KMState.init k norm u.clock), some (e, none)⟩ : Machine K X M Y)).1 = _
  rw [bind_run, onKM_run _ rfl]
  rcases KMState.attach (arg B) (some (arg A)) (KMState.init (V := F) k norm u.clock) with ⟨_ | _, t1⟩
  · exact ⟨_, rfl⟩
  show ∃ err, ((onKM (KMState.full env) >>= _ : PyM (Machine K X M Y) P) (⟨cl, some k, li, some norm, some A, ty, some t1, some (e, none)⟩ : Machine K X M Y)).1 = _
  rw [bind_run, onKM_run _ rfl]
  rcases (KMState.full env t1).1 with _ | T
  · exact ⟨_, rfl⟩
  · exact ⟨_, rfl⟩

theorem setParams_run (ps : List (ParamUpdate K)) (s : Machine K X M Y) : setParams ps s = (.ok (), ps.foldl (fun s p => setParam p s) s) := by
  induction ps generalizing s with
  | nil => rfl
  | cons p ps ih => exact ih (setParam p s)

theorem foldl_setParam_km (ps : List (ParamUpdate K)) (s : Machine K X M Y) : (ps.foldl (fun s p => setParam p s) s).km = s.km := by
  induction ps generalizing s with
  | nil => rfl
  | cons p ps ih => exact (ih _).trans (by cases p <;> rfl)

/-- `learner_id` does not matter for `predict` -/
theorem predict_learnerId (L : Learner M Y W P) (checked : Except PyErr (Arr2 X)) (s : Machine K X M Y) (l : Option String) :
    (predict env L checked { s with learnerId := l }).1 = (predict env L checked s).1 := by
  obtain ⟨cl, kf, li, nm, tx, ty, km0, es⟩ := s
  rcases km0 with _ | u
  · rfl
  rcases checked with err | B
  · rfl
  rcases kf with _ | k
  · rfl
  rcases nm with _ | norm
  · rfl
  rcases tx with _ | A
  · rfl
  show ((onKM (KMState.attach (arg B) (some (arg A))) >>= _ : PyM (Machine K X M Y) P)
    (⟨cl, some k, l, some norm, some A, ty, some (KMState.init k norm u.clock), es⟩ : Machine K X M Y)).1 =
    ((onKM (KMState.attach (arg B) (some (arg A))) >>= _ : PyM (Machine K X M Y) P)
    (⟨cl, some k, li, some norm, some A, ty, some (KMState.init k norm u.clock), es⟩ : Machine K X M Y)).1
  rw [bind_run, bind_run, onKM_run _ rfl, onKM_run _ rfl]
  rcases KMState.attach (arg B) (some (arg A)) (KMState.init (V := F) k norm u.clock) with ⟨_ | _, t1⟩
  · rfl
  rcases es with _ | e
  · rfl
  show ((onKM (KMState.full env) >>= _ : PyM (Machine K X M Y) P) (⟨cl, some k, l, some norm, some A, ty, some t1, some e⟩ : Machine K X M Y)).1 =
    ((onKM (KMState.full env) >>= _ : PyM (Machine K X M Y) P) (⟨cl, some k, li, some norm, some A, ty, some t1, some e⟩ : Machine K X M Y)).1
  rw [bind_run, bind_run, onKM_run _ rfl, onKM_run _ rfl]
  rcases (KMState.full env t1).1 with _ | T
  · rfl
  show ((lift (applyModel L e.2 T) >>= _ : PyM (Machine K X M Y) P) _).1 = ((lift (applyModel L e.2 T) >>= _ : PyM (Machine K X M Y) P) _).1
  rcases applyModel L e.2 T with _ | p
  · rfl
  rcases ty with _ | y <;> rfl

end Machine
end KMethods
