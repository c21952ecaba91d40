import Verif.Spec.Params
import Verif.Lemmas.OptMachine
/-!
# Lemmas about the parameters of machines that choose a kernel
-/
namespace KMethods
open PyM
namespace OptMachine
variable {K X M N : Type}

/-- the parameters shown by `get_params` -/
def shown (s : OptMachine K X (SvmParams N) M) : List (NamedParam N) :=
  match s.est with
  | .svr => [.kBucket s.kBucket, .method s.method, .c s.hyper.c, .epsilon s.hyper.epsilon, .shrinking s.hyper.shrinking, .tol s.hyper.tol]
  | .svc => [.kBucket s.kBucket, .method s.method, .c s.hyper.c, .shrinking s.hyper.shrinking, .tol s.hyper.tol]

theorem getNamed_eq (s : OptMachine K X (SvmParams N) M) : getNamed s = (.ok s.shown, s) := by
  rcases s with ⟨_ | _, b, m, h, hp, bk, tx, ty, ok, md⟩ <;> rfl

theorem est_setParam {H : Type} (u : Update H) (s : OptMachine K X H M) : (setParam u s).est = s.est := by cases u <;> rfl

theorem setNamed_eq (ps : List (NamedParam N)) (s : OptMachine K X (SvmParams N) M) :
    setNamed ps s = (.ok (), ps.foldl (fun t p => setParam (toUpdate s.est p) t) s) := by
  show setParams (ps.map (toUpdate s.est)) s = _
  rw [setParams_run, List.foldl_map]

theorem setNamed_cons (p : NamedParam N) (ps : List (NamedParam N)) (s : OptMachine K X (SvmParams N) M) :
    setNamed (p :: ps) s = setNamed ps (setParam (toUpdate s.est p) s) := by
  rw [setNamed_eq, setNamed_eq, est_setParam]
  rfl

theorem valueOf_cons (p : NamedParam N) (ps : List (NamedParam N)) (n : String) : valueOf (p :: ps) n = if p.name = n then some p else valueOf ps n := by
  unfold valueOf
  rw [List.find?_cons]
  by_cases h : p.name = n <;> simp [h]

theorem valueOf_none {ps : List (NamedParam N)} {n : String} (h : n ∉ ps.map NamedParam.name) : valueOf ps n = none := by
  induction ps with
  | nil => rfl
  | cons p ps ih =>
    rw [List.map_cons, List.mem_cons, not_or] at h
    rw [valueOf_cons, if_neg (fun e => h.1 e.symm), ih h.2]

theorem shown_names (s : OptMachine K X (SvmParams N) M) : s.shown.map NamedParam.name = s.est.paramNames := by
  rcases s with ⟨_ | _, b, m, h, hp, bk, tx, ty, ok, md⟩ <;> rfl

theorem names_svr {e : Est} {n : String} (h : n ∈ e.paramNames) : n ∈ Est.paramNames .svr := by
  cases e
  · simp only [Est.paramNames, List.mem_cons, List.not_mem_nil, or_false] at h ⊢
    tauto
  · exact h

/-- a keyword argument sets the parameter of its name, and no other -/
theorem shown_setParam (p : NamedParam N) (s : OptMachine K X (SvmParams N) M) (hp : ∀ m, p = .other m → m ∉ Est.paramNames .svr) {n : String} (hn : n ∈ s.est.paramNames) :
    valueOf (setParam (toUpdate s.est p) s).shown n = if p.name = n then some p else valueOf s.shown n := by
  rcases s with ⟨est, b, m, h, hp', bk, tx, ty, ok, md⟩
  cases p with
  | other m =>
    have : m ≠ n := fun e => hp m rfl (by rw [e]; exact names_svr hn)
    rw [if_neg (by exact this)]
    rfl
  | _ =>
    cases est <;> simp only [Est.paramNames, List.mem_cons, List.not_mem_nil, or_false] at hn <;> rcases hn with rfl | rfl | rfl | rfl | rfl | rfl <;>
      simp [shown, toUpdate, setParam, valueOf_cons, NamedParam.name]

theorem shown_setNamed (ps : List (NamedParam N)) (s : OptMachine K X (SvmParams N) M) (hps : IsKwargs ps) {n : String} (hn : n ∈ s.est.paramNames) :
    valueOf (setNamed ps s).2.shown n = (valueOf ps n).or (valueOf s.shown n) := by
  induction ps generalizing s with
  | nil => rfl
  | cons p ps ih =>
    have hnd := hps.nodup
    rw [List.map_cons, List.nodup_cons] at hnd
    rw [setNamed_cons, ih _ ⟨fun m hm => hps.other m (List.mem_cons_of_mem _ hm), hnd.2⟩ (by rw [est_setParam]; exact hn),
      shown_setParam p s (fun m e => hps.other m (by rw [e]; exact List.mem_cons_self)) hn, valueOf_cons]
    by_cases e : p.name = n
    · rw [if_pos e, if_pos e, valueOf_none (e ▸ hnd.1)]; rfl
    · rw [if_neg e, if_neg e]

/-- what `set_params` leaves alone -/
theorem setNamed_frame (ps : List (NamedParam N)) (s : OptMachine K X (SvmParams N) M) :
    (setNamed ps s).2 = { s with kBucket := (setNamed ps s).2.kBucket, method := (setNamed ps s).2.method, hyper := (setNamed ps s).2.hyper } := by
  induction ps generalizing s with
  | nil => rfl
  | cons p ps ih =>
    rw [setNamed_cons, ih]
    rcases s with ⟨est, b, m, h, hp', bk, tx, ty, ok, md⟩
    cases p <;> cases est <;> rfl

/-! ### `fit` does not look at what earlier calls left behind -/

variable {H W P : Type} {env : Env K X F}

/-- `fitOn` in terms of the objects -/
theorem fitOn_eq (cv : List F → CVScore) (L : SvmLearner H M W P) (A : Arr2 X) (y : List F) (w : W) (s : OptMachine K X H M) {t : KSet} (hb : s.bucket = some t) :
    fitOn env cv L A y w s =
      match findOptimalKernel env (cv y) true (.arr true [A.nrows, A.ncols] A.row) y s.method { estimatorName := some s.est.name } ⟨s.heap, t⟩ with
      | (.error e, u) => (.error e, { s with heap := u.heap, bucket := some u.set })
      | (.ok r, u) => match Heap.full env r u.heap with
        | (.error e, h) => (.error e, { s with heap := h, bucket := some u.set, optKernel := some r })
        | (.ok T, h) => match L.fit s.est svmKernel s.hyper T y w with
          | .error e => (.error e, { s with heap := h, bucket := some u.set, optKernel := some r })
          | .ok m => (.ok (), { s with heap := h, bucket := some u.set, optKernel := some r, model := some m }) := by
  have h0 : searchKernel env cv A y s =
      onBucket (findOptimalKernel env (cv y) true (.arr true [A.nrows, A.ncols] A.row) y s.method { estimatorName := some s.est.name }) s := rfl
  show (searchKernel env cv A y >>= _ : PyM (OptMachine K X H M) Unit) s = _
  rw [bind_run, h0, onBucket_run _ hb]
  rcases findOptimalKernel env (cv y) true (.arr true [A.nrows, A.ncols] A.row) y s.method { estimatorName := some s.est.name } ⟨s.heap, t⟩ with ⟨e | r, u⟩
  · rfl
  · show (onHeap (Heap.full env r) >>= _ : PyM (OptMachine K X H M) Unit) { s with heap := u.heap, bucket := some u.set, optKernel := some r } = _
    rw [bind_run]
    unfold onHeap
    dsimp only
    rcases Heap.full env r u.heap with ⟨e | T, h⟩
    · rfl
    · show (lift (L.fit s.est svmKernel s.hyper T y w) >>= _ : PyM (OptMachine K X H M) Unit) { s with heap := h, bucket := some u.set, optKernel := some r } = _
      dsimp only
      rcases L.fit s.est svmKernel s.hyper T y w with e | m <;> rfl

/-- the same outcome, the same objects, and after success the same machine -/
def SameFit (x x' : Except PyErr Unit × OptMachine K X H M) : Prop := x.1 = x'.1 ∧ x.2.heap = x'.2.heap ∧ (x.1 = .ok () → x.2 = x'.2)

theorem fitOn_same (cv : List F → CVScore) (L : SvmLearner H M W P) (A : Arr2 X) (y : List F) (w : W) (s : OptMachine K X H M) {t : KSet} (hb : s.bucket = some t)
    (ok' : Option Nat) (mo' : Option M) : SameFit (fitOn env cv L A y w s) (fitOn env cv L A y w { s with optKernel := ok', model := mo' }) := by
  rw [fitOn_eq cv L A y w s hb, fitOn_eq cv L A y w { s with optKernel := ok', model := mo' } hb]
  dsimp only
  rcases findOptimalKernel env (cv y) true (.arr true [A.nrows, A.ncols] A.row) y s.method { estimatorName := some s.est.name } ⟨s.heap, t⟩ with ⟨e | r, u⟩
  · exact ⟨rfl, rfl, fun h => by cases h⟩
  dsimp only
  rcases Heap.full env r u.heap with ⟨e | T, h⟩
  · exact ⟨rfl, rfl, fun h => by cases h⟩
  dsimp only
  rcases L.fit s.est svmKernel s.hyper T y w with e | m
  · exact ⟨rfl, rfl, fun h => by cases h⟩
  · exact ⟨rfl, rfl, fun _ => rfl⟩

theorem fit_same (mkB : String → PyM (Heap K X) Bucket) (cv : List F → CVScore) (L : SvmLearner H M W P) (checked : Except PyErr (Arr2 X × List F)) (w : W) (s : OptMachine K X H M)
    (bu : Option KSet) (tx : Option (Arr2 X)) (ty : Option (List F)) (ok' : Option Nat) (mo' : Option M) :
    SameFit (fit env mkB cv L checked w s) (fit env mkB cv L checked w { s with bucket := bu, trainX := tx, trainY := ty, optKernel := ok', model := mo' }) := by
  rw [fit_eq, fit_eq]
  have fin : ∀ (h : Heap K X) (t : KSet), SameFit
      (match checked with
        | .error e => (.error e, { s with heap := h, bucket := some t })
        | .ok d => fitOn env cv L d.1 d.2 w { s with heap := h, bucket := some t, trainX := some d.1, trainY := some d.2 })
      (match checked with
        | .error e => (.error e, { s with heap := h, bucket := some t, trainX := tx, trainY := ty, optKernel := ok', model := mo' })
        | .ok d => fitOn env cv L d.1 d.2 w { s with heap := h, bucket := some t, trainX := some d.1, trainY := some d.2, optKernel := ok', model := mo' }) := by
    intro h t
    rcases checked with e | d
    · exact ⟨rfl, rfl, fun h => by cases h⟩
    · exact fitOn_same cv L d.1 d.2 w { s with heap := h, bucket := some t, trainX := some d.1, trainY := some d.2 } rfl ok' mo'
  obtain ⟨est, kb, me, hy, hp, bu0, tx0, ty0, ok0, mo0⟩ := s
  rcases kb with n | t | _
  · rw [choose_str mkB _ rfl, choose_str mkB _ rfl]
    dsimp only
    rcases mkB n hp with ⟨e | b, h⟩
    · exact ⟨rfl, rfl, fun h => by cases h⟩
    · exact fin h b.set
  · rw [choose_bucket mkB _ rfl, choose_bucket mkB _ rfl]
    dsimp only
    rcases copyBucket t hp with ⟨e | b, h⟩
    · exact ⟨rfl, rfl, fun h => by cases h⟩
    · exact fin h b
  · rw [choose_other mkB _ rfl, choose_other mkB _ rfl]
    exact ⟨rfl, rfl, fun h => by cases h⟩

end OptMachine
end KMethods
