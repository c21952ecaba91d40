import Verif.Model.Threads
import Verif.Lemmas.KMInv
import Mathlib.Tactic.SplitIfs
/-!
# Threads: a thread that runs alone behaves as the sequential model says
-/
namespace KMethods
namespace Prog
variable {σ α β ι : Type}

@[simp] theorem alone_pure (a : α) (s : σ) : alone (pure a : Prog σ α) s = (.ok a, s) := rfl
@[simp] theorem alone_lift (r : Except PyErr α) (s : σ) : alone (lift r : Prog σ α) s = (r, s) := rfl
@[simp] theorem alone_throw (e : PyErr) (s : σ) : alone (throw e : Prog σ α) s = (.error e, s) := rfl
@[simp] theorem alone_atomic (m : PyM σ α) (s : σ) : alone (atomic m) s = m s := rfl
@[simp] theorem alone_read (f : σ → α) (s : σ) : alone (read f) s = (.ok (f s), s) := rfl
@[simp] theorem alone_write (f : σ → σ) (s : σ) : alone (write f) s = (.ok (), f s) := rfl

theorem alone_bind (p : Prog σ α) (f : α → Prog σ β) (s : σ) :
    alone (p >>= f) s = match alone p s with
      | (.ok a, s') => alone (f a) s'
      | (.error e, s') => (.error e, s') := by
  induction p generalizing s with
  | done r => rcases r with e | a <;> rfl
  | step u n ih => exact ih s (u s)

theorem alone_catchAll (e : PyErr) (p : Prog σ α) (s : σ) :
    alone (catchAll e p) s = match alone p s with
      | (.ok a, s') => (.ok a, s')
      | (.error _, s') => (.error e, s') := by
  induction p generalizing s with
  | done r => rcases r with e | a <;> rfl
  | step u n ih => exact ih s (u s)

theorem alone_attempt (p : Prog σ α) (s : σ) :
    alone (attempt p) s = (.ok (alone p s).1, (alone p s).2) := by
  induction p generalizing s with
  | done r => rfl
  | step u n ih => exact ih s (u s)

end Prog

namespace Shared
variable {K X V α β ι : Type}
open Prog

/-- the state with another `_full_km` -/
def withFull (s : KMState K X V) (x : Option (Full V)) : KMState K X V := { s with fullKm := x }
theorem flat_eq (t : Shared K X V) : t.flat = withFull t.km (t.ref.map t.heap) := rfl

/-- from `t`, running `p` alone does what `m` does -/
def SimAt (t : Shared K X V) (p : Prog (Shared K X V) α) (m : PyM (KMState K X V) α) : Prop :=
  ((alone p t).1, (alone p t).2.flat) = m t.flat

/-- running `p` alone does what `m` does -/
def Sim (p : Prog (Shared K X V) α) (m : PyM (KMState K X V) α) : Prop := ∀ t, SimAt t p m

theorem SimAt.bind {t : Shared K X V} {p : Prog (Shared K X V) α} {m : PyM (KMState K X V) α}
    {f : α → Prog (Shared K X V) β} {g : α → PyM (KMState K X V) β} (h : SimAt t p m)
    (hf : ∀ a t', alone p t = (.ok a, t') → SimAt t' (f a) (g a)) : SimAt t (p >>= f) (m >>= g) := by
  unfold SimAt at h ⊢
  rw [PyM.bind_run, alone_bind, ← h]
  rcases he : alone p t with ⟨e | a, t'⟩
  · rfl
  · exact hf a t' he

theorem Sim.bind {p : Prog (Shared K X V) α} {m : PyM (KMState K X V) α}
    {f : α → Prog (Shared K X V) β} {g : α → PyM (KMState K X V) β} (h : Sim p m) (hf : ∀ a, Sim (f a) (g a)) :
    Sim (p >>= f) (m >>= g) := fun t => (h t).bind fun a t' _ => hf a t'

theorem Sim.catchAll {p : Prog (Shared K X V) α} {m : PyM (KMState K X V) α} (e : PyErr) (h : Sim p m) :
    Sim (Prog.catchAll e p) (PyM.catchAll e m) := by
  intro t
  have := h t
  unfold SimAt at this ⊢
  rw [PyM.catchAll_run, alone_catchAll, ← this]
  rcases alone p t with ⟨e | a, t'⟩ <;> rfl

theorem sim_pure (a : α) : Sim (pure a : Prog (Shared K X V) α) (pure a) := fun _ => rfl
theorem sim_throw (e : PyErr) : Sim (Prog.throw e : Prog (Shared K X V) α) (PyM.throw e) := fun _ => rfl
theorem sim_lift (r : Except PyErr α) : Sim (Prog.lift r : Prog (Shared K X V) α) (PyM.lift r) := fun _ => rfl
theorem sim_raiseIf (c : Bool) (e : PyErr) : Sim (Prog.raiseIf c e : Prog (Shared K X V) Unit) (PyM.raiseIf c e) := by
  cases c
  · exact fun _ => rfl
  · exact fun _ => rfl
theorem Sim.when {p : Prog (Shared K X V) Unit} {m : PyM (KMState K X V) Unit} (c : Bool) (h : Sim p m) :
    Sim (Prog.when c p) (PyM.when c m) := by
  cases c
  · exact fun _ => rfl
  · exact h
theorem Sim.ite {p q : Prog (Shared K X V) α} {m n : PyM (KMState K X V) α} (c : Prop) [Decidable c] (h : Sim p m) (h' : Sim q n) :
    Sim (if c then p else q) (if c then m else n) := by
  split <;> assumption
theorem Sim.forEach {f : ι → Prog (Shared K X V) Unit} {g : ι → PyM (KMState K X V) Unit} (h : ∀ i, Sim (f i) (g i)) (l : List ι) :
    Sim (Prog.forEach l f) (PyM.forEach l g) := by
  induction l with
  | nil => exact sim_pure ()
  | cons i l ih => exact (h i).bind fun _ => ih
theorem Sim.mapEach {f : ι → Prog (Shared K X V) β} {g : ι → PyM (KMState K X V) β} (h : ∀ i, Sim (f i) (g i)) (l : List ι) :
    Sim (Prog.mapEach l f) (PyM.mapEach l g) := by
  induction l with
  | nil => exact sim_pure []
  | cons i l ih => exact (h i).bind fun _ => ih.bind fun _ => sim_pure _

theorem sim_wr (f : KMState K X V → KMState K X V) (h : ∀ s x, f (withFull s x) = withFull (f s) x) :
    Sim (wr f) (PyM.modify f) := by
  intro t
  show ((_ : Except PyErr Unit), _) = (_, f (flat t))
  rw [flat_eq t, h]
  rfl
theorem sim_attr (f : KMState K X V → Option α) (h : ∀ s x, f (withFull s x) = f s) : Sim (attr f) (PyM.getAttr f) := by
  intro t
  show ((PyM.getAttr f t.km).1, flat { t with km := (PyM.getAttr f t.km).2 }) = PyM.getAttr f (flat t)
  rw [PyM.getAttr_run, PyM.getAttr_run, flat_eq t, h]
  rcases f t.km with _ | a <;> rfl
theorem sim_onKM {m : PyM (KMState K X V) α} (h : ∀ s x, m (withFull s x) = ((m s).1, withFull (m s).2 x)) :
    Sim (atomic (onKM m)) m := by
  intro t
  show _ = m (flat t)
  rw [flat_eq t, h]
  rfl

theorem sim_get_bind {f : KMState K X V → α} (h : ∀ s x, f (withFull s x) = f s)
    {p : α → Prog (Shared K X V) β} {m : KMState K X V → PyM (KMState K X V) β}
    (hp : ∀ t : Shared K X V, SimAt t (p (f t.flat)) (m t.flat)) : Sim (rd f >>= p) (PyM.get >>= m) := by
  intro t
  have := hp t
  rw [show f t.flat = f t.km from h _ _] at this
  exact this

theorem sim_rowAt (f : KMState K X V → Option (Arr2 X)) (h : ∀ s x, f (withFull s x) = f s) (e : PyErr) (i : Nat) :
    Sim (atomic (onKM (KMState.rowAt f e i)) : Prog (Shared K X V) X) (KMState.rowAt f e i) := by
  refine sim_onKM fun s x => ?_
  unfold KMState.rowAt
  rw [h]
  rcases f s with _ | a
  · rfl
  · simp only; split <;> rfl

theorem sim_evalAt (env : Env K X V) (p : Nat × Nat) : Sim (evalAtP env p) (KMState.evalAt env p) := by
  refine sim_get_bind (fun _ _ => rfl) fun t => ?_
  rcases hc : t.flat.cache.lookup p with _ | v
  · simp only [Option.isSome_none, Bool.false_eq_true, if_false]
    refine ((sim_rowAt _ (fun _ _ => rfl) _ _).bind fun x => (sim_rowAt _ (fun _ _ => rfl) _ _).bind fun y => Sim.bind (sim_onKM fun s x => ?_) fun v => ?_) t
    · unfold KMState.callKernel
      show (if env.fails s.clock s.kernel _ y then _ else _) = _
      split <;> rfl
    · intro t'
      have hl : ((p, v) :: t'.km.cache).lookup p = some v := by simp
      show (let m : PyM (KMState K X V) V := fun s => match s.cache.lookup p with
          | some v => (.ok v, s)
          | none => (.error .keyError, s)
        ((m { t'.km with cache := (p, v) :: t'.km.cache, numKerEval := t'.km.numKerEval + 1 }).1,
          flat { t' with km := (m { t'.km with cache := (p, v) :: t'.km.cache, numKerEval := t'.km.numKerEval + 1 }).2 })) = _
      simp only [hl]
      rfl
  · simp only [Option.isSome_some, if_true]
    have hc' : t.km.cache.lookup p = some v := hc
    show ((match t.km.cache.lookup p with
          | some v => (Except.ok v, t.km)
          | none => (Except.error PyErr.keyError, t.km)).1, flat { t with km := (match t.km.cache.lookup p with
          | some v => (Except.ok v, t.km)
          | none => (Except.error PyErr.keyError, t.km)).2 }) = _
    rw [hc']
    rfl

theorem sim_evalKernel (env : Env K X V) (i j : Nat) : Sim (evalKernelP env i j) (KMState.evalKernel env i j) :=
  Sim.ite _ ((sim_attr _ fun _ _ => rfl).bind fun _ => Sim.ite _ (sim_evalAt _ _) (sim_evalAt _ _)) (sim_evalAt _ _)

theorem flat_poke (t : Shared K X V) (g : Full V → Full V) :
    flat (poke t.ref g t) = { t.flat with fullKm := t.flat.fullKm.map g } := by
  unfold flat poke
  rcases ht : t.ref with _ | r
  · simp
  · simp

theorem flat_alloc (t : Shared K X V) (f : Full V) : flat (alloc f t) = { t.flat with fullKm := some f } := by
  simp [flat, alloc]

theorem sim_fillCells (env : Env K X V) (l : List (Nat × Nat)) : Sim (fillCellsP env l) (KMState.fillCells env l) := by
  refine Sim.forEach (fun p => (sim_evalKernel env _ _).bind fun v => ?_) l
  intro t
  show ((_ : Except PyErr Unit), flat (poke t.ref _ t)) = _
  rw [flat_poke]
  rfl

theorem sim_symmetrize : Sim (symmetrizeP : Prog (Shared K X V) Unit) KMState.symmetrize := by
  intro t
  show ((_ : Except PyErr Unit), flat (poke t.ref _ t)) = _
  rw [flat_poke]
  unfold flat KMState.symmetrize
  rcases ht : t.ref with _ | r
  · rfl
  · simp only [ht]
    rfl

theorem sim_populateUpper (env : Env K X V) (d : Bool) : Sim (populateUpperP env d) (KMState.populateUpper env d) := by
  refine sim_get_bind (fun _ _ => rfl) fun t => ?_
  have hpop : t.flat.populated = t.km.populated := rfl
  have hnone : t.flat.fullKm.isNone = t.ref.isNone := by unfold flat; cases t.ref <;> rfl
  rw [hpop, hnone]
  cases h1 : t.km.populated
  · show SimAt t (read (fun t : Shared K X V => t.ref.isNone) >>= _) (PyM.when t.ref.isNone _)
    show SimAt t (Prog.when t.ref.isNone _) (PyM.when t.ref.isNone _)
    refine Sim.when _ ((sim_attr _ fun _ _ => rfl).bind fun sh => Sim.bind (fun t => ?_) fun _ =>
      ((sim_fillCells env _).catchAll _).bind fun _ => sim_wr _ fun _ _ => rfl) t
    show ((_ : Except PyErr Unit), flat (alloc _ t)) = _
    rw [flat_alloc]
    rfl
  · rfl

theorem sim_populateLower (env : Env K X V) (b : Bool) : Sim (populateLowerP env b) (KMState.populateLower env b) := by
  cases b
  · exact fun _ => rfl
  · refine sim_get_bind (fun _ _ => rfl) fun t => ?_
    show SimAt t _ (PyM.when (true && !t.flat.lowerFilled) _)
    rw [Bool.true_and]
    refine Sim.when _ (Sim.bind (Sim.catchAll _ ((sim_attr _ fun _ _ => rfl).bind fun sh =>
      (sim_attr _ fun _ _ => rfl).bind fun tw => Sim.ite _ sim_symmetrize (sim_fillCells env _))) fun _ =>
      sim_wr _ fun _ _ => rfl) t

theorem alone_load (t : Shared K X V) : alone load t = match t.ref with
    | some r => (.ok r, t)
    | none => (.error .attributeError, t) := rfl

theorem alone_load_bind {t : Shared K X V} {r : Nat} (h : t.ref = some r) (f : Nat → Prog (Shared K X V) β) :
    alone (load >>= f) t = alone (f r) t := by
  rw [alone_bind, alone_load]
  simp only [h]

theorem alone_load_none {t : Shared K X V} (h : t.ref = none) (f : Nat → Prog (Shared K X V) β) :
    alone (load >>= f) t = (.error .attributeError, t) := by
  rw [alone_bind, alone_load]
  simp only [h]

theorem sim_densify (d : Bool) : Sim (densifyP d : Prog (Shared K X V) Unit) (KMState.densify d) := by
  intro t
  unfold SimAt densifyP KMState.densify
  rcases ht : t.ref with _ | r
  · rw [alone_load_none ht, PyM.bind_error (PyM.getAttr_run_none _ _ (by unfold flat; rw [ht]; rfl))]
  · rw [PyM.bind_ok (a := t.heap r) (s' := t.flat) (PyM.getAttr_run_some _ _ _ (by unfold flat; rw [ht]; rfl)),
      alone_load_bind ht, alone_bind, alone_read]
    simp only
    cases hc : ((t.heap r).fmt == Fmt.sparse && d)
    · rfl
    · rw [show ∀ p : Prog (Shared K X V) Unit, when true p = p from fun _ => rfl, alone_load_bind ht]
      show ((_ : Except PyErr Unit), flat (alloc _ t)) = _
      rw [flat_alloc]
      rw [PyM.when_true, PyM.modify_run]
      unfold flat
      rw [ht]
      rfl

theorem alone_attr (f : KMState K X V → Option α) (t : Shared K X V) : alone (attr f) t = match f t.km with
    | some a => (.ok a, t)
    | none => (.error .attributeError, t) := by
  show ((PyM.getAttr f t.km).1, { t with km := (PyM.getAttr f t.km).2 }) = _
  rw [PyM.getAttr_run]
  rcases f t.km with _ | a <;> rfl

theorem sim_fullMat : Sim (fullMatP : Prog (Shared K X V) (Fmt × Mat V)) KMState.fullMat := by
  intro t
  unfold SimAt fullMatP KMState.fullMat
  rcases ht : t.ref with _ | r
  · rw [alone_load_none ht, PyM.bind_error (PyM.getAttr_run_none _ _ (by unfold flat; rw [ht]; rfl))]
  · rw [alone_load_bind ht, PyM.bind_ok (a := t.heap r) (s' := t.flat) (PyM.getAttr_run_some _ _ _ (by unfold flat; rw [ht]; rfl))]
    have hsh : t.flat.shape = t.km.shape := rfl
    rw [alone_bind, PyM.bind_run, PyM.getAttr_run, hsh, alone_attr]
    rcases t.km.shape with _ | sh <;> rfl

theorem sim_warn (env : Env K X V) (M : Mat V) : Sim (warnNonFiniteP env M) (KMState.warnNonFinite env M) :=
  sim_get_bind (fun _ _ => rfl) fun t => sim_raiseIf _ _ t

theorem sim_populateFully (env : Env K X V) (d l : Bool) : Sim (populateFullyP env d l) (KMState.populateFully env d l) :=
  (sim_populateUpper env d).bind fun _ => (sim_populateLower env l).bind fun _ => (sim_densify d).bind fun _ =>
    sim_fullMat.bind fun _ => sim_warn env _

theorem sim_ensure (env : Env K X V) : Sim (ensurePopulatedP env) (KMState.ensurePopulated env) :=
  sim_get_bind (fun _ _ => rfl) fun t => (sim_populateFully env true true).when _ t

theorem sim_diagonal (env : Env K X V) : Sim (diagonalP env) (KMState.diagonal env) :=
  (sim_attr _ fun _ _ => rfl).bind fun _ => Sim.ite _ (sim_throw _) <|
    (sim_attr _ fun _ _ => rfl).bind fun _ => Sim.mapEach (fun _ => sim_evalKernel env _ _) _

theorem alone_privateDiag (env : Env K X V) (l : List Nat) (q : KMState K X V) (t : Shared K X V) :
    alone (privateDiagP env l q) t =
      let r := PyM.mapEach l (fun i => KMState.evalKernel env i i) { q with clock := t.km.clock }
      (r.1, { t with km := { t.km with clock := r.2.clock } }) := by
  induction l generalizing q t with
  | nil => rfl
  | cons i l ih =>
    show alone (atomic (privateEval env i q) >>= _) t = _
    rw [alone_bind, alone_atomic, privateEval]
    show _ = (let r := (KMState.evalKernel env i i >>= fun y => PyM.mapEach l (fun i => KMState.evalKernel env i i) >>=
      fun ys => pure (y :: ys) : PyM (KMState K X V) (List V)) { q with clock := t.km.clock }
      (r.1, { t with km := { t.km with clock := r.2.clock } }))
    rw [PyM.bind_run]
    rcases KMState.evalKernel env i i { q with clock := t.km.clock } with ⟨e | v, q'⟩
    · rfl
    · show alone (privateDiagP env l q' >>= _) { t with km := { t.km with clock := q'.clock } } = _
      rw [alone_bind, ih]
      show _ = (let r := (PyM.mapEach l (fun i => KMState.evalKernel env i i) >>=
        fun ys => pure (v :: ys) : PyM (KMState K X V) (List V)) q'
        (r.1, { t with km := { t.km with clock := r.2.clock } }))
      rw [PyM.bind_run]
      rcases PyM.mapEach l (fun i => KMState.evalKernel env i i) q' with ⟨e | v, q''⟩ <;> rfl

theorem sim_freshDiagonal (env : Env K X V) (f : KMState K X V → Option (Arr2 X)) (h : ∀ s x, f (withFull s x) = f s) :
    Sim (freshDiagonalP env f) (KMState.freshDiagonal env f) := by
  refine (sim_attr f h).bind fun a => fun t => ?_
  show ((alone (privateDiagP env (List.range a.nrows) (KMState.freshOn t.km.kernel a 0)) t).1, flat _) = _
  rw [show alone (rd (fun s : KMState K X V => s.kernel) >>= fun k => privateDiagP env (List.range a.nrows) (KMState.freshOn k a 0)) t
    = alone (privateDiagP env (List.range a.nrows) (KMState.freshOn t.km.kernel a 0)) t from rfl, alone_privateDiag]
  rfl

theorem sim_computeNormed (env : Env K X V) (m : String) : Sim (computeNormedP env m) (KMState.computeNormed env m) :=
  (sim_attr _ fun _ _ => rfl).bind fun _ => Sim.ite _
    (sim_fullMat.bind fun _ => (sim_lift _).bind fun _ => sim_pure _)
    ((sim_freshDiagonal env _ fun _ _ => rfl).bind fun _ => (sim_freshDiagonal env _ fun _ _ => rfl).bind fun _ =>
      sim_fullMat.bind fun _ => (sim_lift _).bind fun _ => sim_pure _)

theorem sim_normalize (env : Env K X V) (m : String) : Sim (normalizeP env m) (KMState.normalize env m) := by
  refine (sim_ensure env).bind fun _ => sim_get_bind (fun _ _ => rfl) fun t => Sim.when _ ((sim_computeNormed env m).bind fun N => ?_) t
  intro t
  exact sim_warn env N.2 { t with km := { t.km with normedKm := some N, isNormed := true } }

theorem sim_normedKmVal (env : Env K X V) : Sim (normedKmValP env) (KMState.normedKmVal env) :=
  sim_get_bind (fun _ _ => rfl) fun t => (((sim_normalize env _).when _).bind fun _ => sim_attr _ fun _ _ => rfl) t

theorem alone_bind_ok {σ : Type} {p : Prog σ α} {f : α → Prog σ β} {s s' : σ} {b : β} :
    alone (p >>= f) s = (.ok b, s') ↔ ∃ a s1, alone p s = (.ok a, s1) ∧ alone (f a) s1 = (.ok b, s') := by
  rw [alone_bind]
  constructor
  · intro h
    rcases hm : alone p s with ⟨e | a, s1⟩
    · rw [hm] at h; simp at h
    · rw [hm] at h; exact ⟨a, s1, rfl, h⟩
  · rintro ⟨a, s1, h1, h2⟩
    rw [h1]; exact h2

theorem populateFully_ref {env : Env K X V} {d l : Bool} {t t' : Shared K X V}
    (h : alone (populateFullyP env d l) t = (.ok (), t')) : ∃ r, t'.ref = some r := by
  obtain ⟨_, _, _, h⟩ := alone_bind_ok.1 h
  obtain ⟨_, _, _, h⟩ := alone_bind_ok.1 h
  obtain ⟨_, t1, _, h⟩ := alone_bind_ok.1 h
  obtain ⟨A, t2, h1, h2⟩ := alone_bind_ok.1 h
  have e1 : t1.ref ≠ none ∧ t2 = t1 := by
    rcases ht : t1.ref with _ | r
    · unfold fullMatP at h1
      rw [alone_load_none ht] at h1
      simp at h1
    · refine ⟨by simp, ?_⟩
      unfold fullMatP at h1
      rw [alone_load_bind ht] at h1
      obtain ⟨sh, t3, h3, h4⟩ := alone_bind_ok.1 h1
      rw [alone_attr] at h3
      rcases hs : t1.km.shape with _ | sh'
      · rw [hs] at h3; simp at h3
      · rw [hs] at h3
        simp only [Prod.mk.injEq] at h3
        rw [alone_read] at h4
        simp only [Prod.mk.injEq] at h4
        rw [← h4.2, ← h3.2]
  have e2 : t' = t2 := by
    obtain ⟨k, t3, h3, h4⟩ := alone_bind_ok.1 h2
    have h3 : (Except.ok t2.km.kernel, t2) = (Except.ok k, t3) := h3
    simp only [Prod.mk.injEq] at h3
    rw [← h3.2] at h4
    unfold raiseIf at h4
    split at h4
    · simp at h4
    · simp at h4; exact h4.symm
  rw [e2, e1.2]
  exact Option.ne_none_iff_exists'.1 e1.1

theorem sim_center (env : Env K X V) : Sim (centerP env) (KMState.center env) := by
  refine (sim_attr _ fun _ _ => rfl).bind fun tw => (sim_raiseIf _ _).bind fun _ => ?_
  show Sim _ (KMState.ensurePopulated env >>= _)
  unfold KMState.ensurePopulated
  rw [PyM.bind_assoc_run]
  refine sim_get_bind (fun _ _ => rfl) fun t => (Sim.bind (Sim.when _ ?_) fun _ =>
    sim_fullMat.bind fun A => (sim_raiseIf _ _).bind fun _ => (sim_lift _).bind fun C => ?_) t
  swap
  · exact fun t => rfl
  intro t
  have h := sim_populateFully env true true t
  unfold SimAt at h ⊢
  rw [← h, alone_bind]
  rcases hp : alone (populateFullyP env true true) t with ⟨e | ⟨⟩, t'⟩
  · rfl
  · obtain ⟨r, hr⟩ := populateFully_ref hp
    simp only
    rw [alone_load_bind hr]
    show ((_ : Except PyErr Unit), flat { t' with ref := some r }) = _
    unfold flat
    rw [hr]
    rfl

theorem sim_full (env : Env K X V) : Sim (fullP env) (KMState.full env) := by
  refine sim_get_bind (fun _ _ => rfl) fun t => ?_
  exact ((sim_raiseIf _ _).bind fun _ => (sim_ensure env).bind fun _ => Sim.ite _ (sim_normedKmVal env) sim_fullMat) t

theorem sim_fullSparse (env : Env K X V) : Sim (fullSparseP env) (KMState.fullSparse env) :=
  sim_get_bind (fun _ _ => rfl) fun t => Sim.ite _ (sim_normedKmVal env) ((sim_populateFully env _ _).bind fun _ => sim_fullMat) t

theorem sim_centered (env : Env K X V) : Sim (centeredP env) (KMState.centered env) :=
  (sim_attr _ fun _ _ => rfl).bind fun _ => (sim_raiseIf _ _).bind fun _ => sim_get_bind (fun _ _ => rfl) fun t =>
    (((sim_center env).when _).bind fun _ => sim_attr _ fun _ _ => rfl) t

theorem sim_frobNorm (env : Env K X V) : Sim (frobNormP env) (KMState.frobNormVal env) :=
  (sim_ensure env).bind fun _ => sim_get_bind (fun _ _ => rfl) fun t =>
    ((Sim.when _ (sim_fullMat.bind fun _ => (sim_lift _).bind fun _ => sim_wr _ fun _ _ => rfl)).bind fun _ => sim_attr _ fun _ _ => rfl) t

theorem sim_compute (env : Env K X V) (one two : List Nat) : Sim (computeP env one two) (KMState.computeForIndexCombinations env one two) :=
  (Sim.mapEach (fun _ => sim_evalKernel env _ _) _).bind fun _ => sim_pure _

theorem sim_readonly {m : PyM (KMState K X V) α} (g : KMState K X V → Except PyErr α) (h : ∀ s, m s = (g s, s))
    (hg : ∀ s x, g (withFull s x) = g s) : Sim (atomic (onKM m)) m :=
  sim_onKM fun s x => by rw [h, h, hg]

theorem sim_keyPair (k : Key) : Sim (atomic (onKM (KMState.keyPair k)) : Prog (Shared K X V) _) (KMState.keyPair k) := by
  cases k with
  | linear k =>
    refine sim_readonly (fun s => match s.shape with
      | none => .error .attributeError
      | some sh => (KMState.unravel k sh.1 sh.2).map fun q => (Idx.int q.1, Idx.int q.2)) (fun s => ?_) fun _ _ => rfl
    show (PyM.getAttr (fun s : KMState K X V => s.shape) >>= _) _ = _
    rw [PyM.bind_run, PyM.getAttr_run]
    rcases s.shape with _ | sh
    · rfl
    · simp only
      rcases KMState.unravel k sh.1 sh.2 with e | q <;> rfl
  | pair a b => exact sim_onKM fun _ _ => rfl
  | other => exact sim_onKM fun _ _ => rfl

theorem sim_size : Sim (sizeP : Prog (Shared K X V) Nat) KMState.size := by
  refine sim_readonly (fun s => match s.twoSamples, s.numSamples with
    | none, _ => .error .attributeError
    | some false, .one n => .ok (n ^ 2)
    | some false, _ => .error .typeError
    | some true, .two n m => .ok (n * m)
    | some true, .one n => .ok n
    | some true, .unset => .error .typeError) (fun s => ?_) fun _ _ => rfl
  show (PyM.getAttr (fun s : KMState K X V => s.twoSamples) >>= _) _ = _
  rw [PyM.bind_run, PyM.getAttr_run]
  rcases s.twoSamples with _ | _ | _
  · rfl
  · show (match s.numSamples with
      | .one n => pure (n ^ 2)
      | _ => PyM.throw .typeError : PyM (KMState K X V) Nat) s = _
    rcases s.numSamples with _ | _ | _ <;> rfl
  · show (match s.numSamples with
      | .two n m => pure (n * m)
      | .one n => pure n
      | .unset => PyM.throw .typeError : PyM (KMState K X V) Nat) s = _
    rcases s.numSamples with _ | _ | _ <;> rfl

theorem sim_getItem (env : Env K X V) (k : Key) : Sim (getItemP env k) (KMState.getItem env k) :=
  (sim_keyPair k).bind fun _ => sim_get_bind (fun _ _ => rfl) fun t =>
    ((sim_lift _).bind fun _ => (sim_lift _).bind fun _ => Sim.ite _
      ((sim_populateFully env _ _).bind fun _ => sim_fullMat) (sim_compute env _ _)) t

theorem attach_fullKm (env : Env K X V) (one : SampleIn X) (two : Option (SampleIn X)) (s : KMState K X V) :
    (KMState.exec env (.attach one two) s).2.fullKm = none ∨ (KMState.exec env (.attach one two) s).2.fullKm = s.fullKm := by
  have : (KMState.exec env (.attach one two) s).2 = (KMState.attach one two s).2 := by
    show ((KMState.attach one two >>= _) s).2 = _
    rw [PyM.bind_run]
    rcases KMState.attach one two s with ⟨_ | _, _⟩ <;> rfl
  rw [this]
  rcases hof : Attachment.ofArgs one two with e | a
  · obtain ⟨x, y, hxy⟩ := KMState.attach_error_state one two s e hof
    rw [hxy]; exact Or.inr rfl
  · rw [KMState.attach_ok one two s a hof]; exact Or.inl rfl

theorem sim_exec (env : Env K X V) (op : KMOp X) : Sim (execP env op) (KMState.exec env op) := by
  cases op with
  | attach one two =>
    intro t
    show (_, flat { t with
      km := (KMState.exec env (.attach one two) t.flat).2
      ref := (KMState.exec env (.attach one two) t.flat).2.fullKm.bind fun _ => t.ref }) = _
    have h := attach_fullKm env one two t.flat
    have hfix : ∀ s : KMState K X V, ∀ x, s.fullKm = x → { s with fullKm := x } = s := by rintro s x rfl; rfl
    refine Prod.ext rfl ?_
    refine hfix _ _ ?_
    rcases h with h | h
    · rw [h]; rfl
    · rw [h]
      unfold flat
      rcases t.ref with _ | r <;> rfl
  | setAttr n v => exact (sim_onKM fun _ _ => rfl).bind fun _ => sim_pure _
  | getAttr n d => exact (sim_onKM fun _ _ => rfl).bind fun _ => sim_pure _
  | attributes => exact fun _ => rfl
  | numSamples => exact fun _ => rfl
  | shape => exact (sim_attr _ fun _ _ => rfl).bind fun _ => sim_pure _
  | size => exact sim_size.bind fun _ => sim_pure _
  | full => exact (sim_full env).bind fun _ => sim_pure _
  | fullSparse => exact (sim_fullSparse env).bind fun _ => sim_pure _
  | center => exact (sim_center env).bind fun _ => sim_pure _
  | centered => exact (sim_centered env).bind fun _ => sim_pure _
  | normalize m => exact (sim_normalize env m).bind fun _ => sim_pure _
  | normedKm => exact (sim_normedKmVal env).bind fun _ => sim_pure _
  | frobNorm => exact (sim_frobNorm env).bind fun _ => sim_pure _
  | diagonal => exact (sim_diagonal env).bind fun _ => sim_pure _
  | getItem k => exact (sim_getItem env k).bind fun _ => sim_pure _

/-- a thread that runs alone makes its calls as the sequential model says -/
theorem alone_calls (env : Env K X V) (ops : List (KMOp X)) (t : Shared K X V) :
    (alone (callsP env ops) t).2.flat = KMState.run env ops t.flat ∧
    ∃ rs, (alone (callsP env ops) t).1 = .ok rs ∧ rs.length = ops.length ∧ ∀ n op r, ops[n]? = some op → rs[n]? = some r →
      r = (KMState.exec env op (KMState.run env (ops.take n) t.flat)).1 := by
  induction ops generalizing t with
  | nil => exact ⟨rfl, [], rfl, rfl, by simp⟩
  | cons op ops ih =>
    have h0 := sim_exec env op t
    unfold SimAt at h0
    show (alone (attempt (execP env op) >>= fun r => callsP env ops >>= fun rs => pure (r :: rs)) t).2.flat = _ ∧ ∃ rs,
      (alone (attempt (execP env op) >>= fun r => callsP env ops >>= fun rs => pure (r :: rs)) t).1 = _ ∧ _
    rw [alone_bind, alone_attempt]
    simp only
    obtain ⟨h1, rs, h2, h3, h4⟩ := ih (alone (execP env op) t).2
    have hs : (alone (execP env op) t).2.flat = (KMState.exec env op t.flat).2 := congrArg Prod.snd h0
    have hr : (alone (execP env op) t).1 = (KMState.exec env op t.flat).1 := congrArg Prod.fst h0
    rw [alone_bind]
    rcases hc : alone (callsP env ops) (alone (execP env op) t).2 with ⟨e | rs', t'⟩
    · rw [hc] at h2; simp at h2
    · rw [hc] at h1 h2
      simp only [Except.ok.injEq] at h2
      subst h2
      refine ⟨?_, (alone (execP env op) t).1 :: rs', rfl, by simp [h3], ?_⟩
      · show t'.flat = KMState.run env ops (KMState.exec env op t.flat).2
        rw [← hs]; exact h1
      · intro n o r hn hr'
        rcases n with _ | n
        · simp at hn hr'
          subst hn; subst hr'
          exact hr
        · simp at hn hr'
          rw [h4 n o r hn hr', hs]
          rfl

end Shared
end KMethods
