import Verif.Lemmas.Fill
import Verif.Lemmas.FaultFreeOn
/-! Which pairs of samples have been evaluated when `_full_km` is complete. -/
namespace KMethods
namespace KMState
variable {K X V α β ι : Type}
open PyM

/-- the pair is memoised -/
def Memo (s : KMState K X V) (p : Nat × Nat) : Prop := (s.cache.lookup p).isSome = true

/-- shape and flags are those of `s0`, nothing memoised is lost -/
structure Unch (s0 s : KMState K X V) : Prop where
  shape : s.shape = s0.shape
  two : s.twoSamples = s0.twoSamples
  pop : s.populated = s0.populated
  low : s.lowerFilled = s0.lowerFilled
  has : ∀ p, Memo s0 p → Memo s p

theorem Unch.refl (s : KMState K X V) : Unch s s := ⟨rfl, rfl, rfl, rfl, fun _ h => h⟩

theorem Unch.trans {s s' s'' : KMState K X V} (h : Unch s s') (h' : Unch s' s'') : Unch s s'' :=
  ⟨h'.shape.trans h.shape, h'.two.trans h.two, h'.pop.trans h.pop, h'.low.trans h.low, fun p hp => h'.has p (h.has p hp)⟩

theorem has_cons {s : KMState K X V} {p q : Nat × Nat} {v : V} {n : Nat} (h : Memo s q) : Memo { s with cache := (p, v) :: s.cache, numKerEval := n } q := by
  show (((p, v) :: s.cache).lookup q).isSome = true
  rw [List.lookup_cons]
  split
  · rfl
  · exact h

variable {env : Env K X V} {a : Attachment X}

theorem unch_rowAt {s0 : KMState K X V} (f : KMState K X V → Option (Arr2 X)) (e : PyErr) (i : Nat) : Holds (Unch s0) (rowAt f e i) fun _ => True := by
  intro s hs
  unfold rowAt
  split
  · exact ⟨hs, fun _ _ => trivial⟩
  · split <;> exact ⟨hs, fun _ _ => trivial⟩

theorem unch_callKernel {s0 : KMState K X V} (p : Nat × Nat) (x y : X) : Holds (Unch s0) (callKernel env p x y) fun _ => True := by
  intro s hs
  unfold callKernel
  split <;> exact ⟨⟨hs.shape, hs.two, hs.pop, hs.low, hs.has⟩, fun _ _ => trivial⟩

theorem unch_evalAt {s0 : KMState K X V} (p : Nat × Nat) : Holds (Unch s0) (evalAt env p) fun _ => True := by
  unfold evalAt
  refine Holds.get.bind fun s hs => ?_
  rcases s.cache.lookup p with _ | v
  · exact (unch_rowAt _ _ _).bind fun x _ => (unch_rowAt _ _ _).bind fun y _ => (unch_callKernel _ _ _).bind fun v _ =>
      Holds.bind (Holds.modify fun s hs => ⟨hs.shape, hs.two, hs.pop, hs.low, fun p hp => has_cons (hs.has p hp)⟩) fun _ _ => Holds.pure trivial
  · exact Holds.pure trivial

theorem unch_attr {s0 : KMState K X V} {f : KMState K X V → Option α} : Holds (Unch s0) (getAttr f) fun _ => True :=
  Holds.getAttr fun _ _ _ _ => trivial

theorem unch_evalKernel {s0 : KMState K X V} (i j : Nat) : Holds (Unch s0) (evalKernel env i j) fun _ => True :=
  Holds.ite (unch_attr.bind fun _ _ => Holds.ite (unch_evalAt _) (unch_evalAt _)) (unch_evalAt _)

theorem unch_setCell {s0 : KMState K X V} (i j : Nat) (v : V) : Holds (Unch s0) (setCell i j v) fun _ => True :=
  Holds.modify fun _ hs => ⟨hs.shape, hs.two, hs.pop, hs.low, hs.has⟩

theorem unch_fillCells {s0 : KMState K X V} (l : List (Nat × Nat)) : Holds (Unch s0) (fillCells env l) fun _ => True :=
  Holds.forEach fun _ => (unch_evalKernel _ _).bind fun _ _ => unch_setCell _ _ _

theorem unch {m : PyM (KMState K X V) α} {R : α → Prop} (h : ∀ s0, Holds (Unch s0) m R) (s : KMState K X V) : Unch s (m s).2 :=
  (h s s (Unch.refl s)).1

theorem evalAt_memo {p : Nat × Nat} {s s' : KMState K X V} {v : V} (h : evalAt env p s = (.ok v, s')) : Memo s' p := by
  unfold evalAt at h
  rw [get_bind_run] at h
  rcases hl : s.cache.lookup p with _ | w
  · rw [hl] at h
    simp only at h
    rw [bind_run] at h
    rcases h1 : rowAt (·.sample) .typeError p.1 s with ⟨e | x, s1⟩
    · rw [h1] at h; simp at h
    rw [h1] at h
    simp only at h
    rw [bind_run] at h
    rcases h2 : rowAt (·.sampleTwo) .attributeError p.2 s1 with ⟨e | y, s2⟩
    · rw [h2] at h; simp at h
    rw [h2] at h
    simp only at h
    rw [bind_run] at h
    rcases h3 : callKernel env p x y s2 with ⟨e | w, s3⟩
    · rw [h3] at h; simp at h
    rw [h3] at h
    have e : s' = { s3 with cache := (p, w) :: s3.cache, numKerEval := s3.numKerEval + 1 } := (congrArg Prod.snd h).symm
    subst e
    show (((p, w) :: s3.cache).lookup p).isSome = true
    rw [List.lookup_cons, beq_self_eq_true]
    rfl
  · rw [hl] at h
    have e : s' = s := (congrArg Prod.snd h).symm
    subst e
    show (s'.cache.lookup p).isSome = true
    rw [hl]
    rfl

theorem evalKernel_memo {i j : Nat} {b : Bool} {s s' : KMState K X V} {v : V} (hb : s.twoSamples = some b) (h : evalKernel env i j s = (.ok v, s')) :
    Memo s' (if j < i ∧ b = false then (j, i) else (i, j)) := by
  unfold evalKernel at h
  by_cases hij : i > j
  · rw [if_pos hij, bind_run, getAttr_run, hb] at h
    cases b with
    | false => rw [if_pos ⟨hij, rfl⟩]; exact evalAt_memo h
    | true => rw [if_neg (by simp)]; exact evalAt_memo h
  · rw [if_neg hij] at h
    rw [if_neg fun h' => hij h'.1]
    exact evalAt_memo h

theorem fill_memo {b : Bool} : ∀ (l : List (Nat × Nat)) {s s' : KMState K X V}, s.twoSamples = some b → fillCells env l s = (.ok (), s') →
    ∀ p ∈ l, Memo s' (if p.2 < p.1 ∧ b = false then (p.2, p.1) else p)
  | [], _, _, _, _ => by simp
  | q :: l, s, s', hb, h => by
    have hbody : ∀ s0, Holds (Unch s0) (evalKernel env q.1 q.2 >>= fun v => setCell q.1 q.2 v) fun _ => True :=
      fun _ => (unch_evalKernel _ _).bind fun _ _ => unch_setCell _ _ _
    change ((evalKernel env q.1 q.2 >>= fun v => setCell q.1 q.2 v) >>= fun _ => fillCells env l) s = _ at h
    have hu := unch hbody s
    rw [bind_run] at h
    rcases h1 : (evalKernel env q.1 q.2 >>= fun v => setCell q.1 q.2 v) s with ⟨e | _, s1⟩
    · rw [h1] at h; simp at h
    rw [h1] at h hu
    change fillCells env l s1 = _ at h
    have hu2 := unch (fun s0 => unch_fillCells (env := env) (s0 := s0) l) s1
    rw [h] at hu2
    have ih := fill_memo l (hu.two.trans hb) h
    intro p hp
    rcases List.mem_cons.1 hp with rfl | hp
    · refine hu2.has _ ?_
      rw [bind_run] at h1
      rcases h2 : evalKernel env p.1 p.2 s with ⟨e | v, s2⟩
      · rw [h2] at h1; simp at h1
      rw [h2] at h1
      have h3 := evalKernel_memo hb h2
      have h4 := unch (fun s0 => unch_setCell (s0 := s0) p.1 p.2 v) s2
      have h5 : (setCell p.1 p.2 v s2).2 = s1 := congrArg Prod.snd h1
      rw [h5] at h4
      exact h4.has _ h3
    · exact ih p hp

variable (a) in
/-- the flags say which pairs have been evaluated -/
structure Counted (s : KMState K X V) : Prop where
  shape : s.shape = some (a.nrows, a.ncols)
  two : s.twoSamples = some a.two.isSome
  pop : s.populated = true → ∀ i j, i < a.nrows → j < a.ncols → i ≤ j → Memo s (i, j)
  low : s.lowerFilled = true → a.two.isSome = true → ∀ i j, i < a.nrows → j < a.ncols → j < i → Memo s (i, j)

theorem Counted.unch {s s' : KMState K X V} (h : Counted a s) (hu : Unch s s') : Counted a s' :=
  ⟨hu.shape.trans h.shape, hu.two.trans h.two, fun hp i j hi hj hij => hu.has _ (h.pop (hu.pop ▸ hp) i j hi hj hij),
    fun hl ht i j hi hj hij => hu.has _ (h.low (hu.low ▸ hl) ht i j hi hj hij)⟩

theorem Holds.counted {m : PyM (KMState K X V) α} {R : α → Prop} (h : ∀ s0, Holds (Unch s0) m R) : Holds (Counted a) m R :=
  fun s hs => ⟨hs.unch (KMState.unch h s), (h s s (Unch.refl s)).2⟩

theorem counted_populateUpper (d : Bool) : Holds (Counted a) (populateUpper env d) fun _ => True := by
  refine Holds.get.bind fun s _ => Holds.when fun s hs => ?_
  refine ⟨?_, fun _ _ => trivial⟩
  rw [bind_run, getAttr_run, hs.shape]
  simp only
  rw [bind_run]
  have hs1 : Counted a (modify (fun s : KMState K X V => { s with
      fullKm := some (if !d then ⟨.sparse, fun _ _ => env.ops.zero⟩ else ⟨.dense, fun _ _ => env.ops.nan⟩) }) s).2 :=
    ⟨hs.shape, hs.two, hs.pop, hs.low⟩
  change Counted a ((catchAll .runtimeError (fillCells env (upperPairs a.nrows a.ncols)) >>= fun _ => modify fun s => { s with populated := true })
    (modify (fun s : KMState K X V => { s with
      fullKm := some (if !d then ⟨.sparse, fun _ _ => env.ops.zero⟩ else ⟨.dense, fun _ _ => env.ops.nan⟩) }) s).2).2
  generalize (modify (fun s : KMState K X V => { s with
      fullKm := some (if !d then ⟨.sparse, fun _ _ => env.ops.zero⟩ else ⟨.dense, fun _ _ => env.ops.nan⟩) }) s).2 = s1 at hs1
  have hu := KMState.unch (fun s0 => unch_fillCells (env := env) (s0 := s0) (upperPairs a.nrows a.ncols)) s1
  rw [bind_run, catchAll_run]
  rcases h1 : fillCells env (upperPairs a.nrows a.ncols) s1 with ⟨e | _, s2⟩
  · rw [h1] at hu; exact hs1.unch hu
  · rw [h1] at hu
    have hs2 := hs1.unch hu
    refine ⟨hs2.shape, hs2.two, fun _ i j hi hj hij => ?_, hs2.low⟩
    have := fill_memo _ hs1.two h1 (i, j) (mem_upperPairs.2 ⟨hi, hj, hij⟩)
    rw [if_neg (fun h => absurd h.1 (not_lt.2 hij))] at this
    exact this

theorem counted_populateLower (l : Bool) : Holds (Counted a) (populateLower env l) fun _ => True := by
  refine Holds.get.bind fun s _ => Holds.when fun s hs => ?_
  refine ⟨?_, fun _ _ => trivial⟩
  rw [bind_run, catchAll_run]
  have e : (do
      let sh ← getAttr (·.shape)
      let two ← getAttr (·.twoSamples)
      if !two && sh.1 == sh.2 then symmetrize
      else fillCells env (lowerPairs sh.1 sh.2) : PyM (KMState K X V) Unit) s =
      (if !a.two.isSome && a.nrows == a.ncols then symmetrize else fillCells env (lowerPairs a.nrows a.ncols) : PyM (KMState K X V) Unit) s := by
    rw [bind_run, getAttr_run, hs.shape]
    simp only
    rw [bind_run, getAttr_run, hs.two]
  rw [e]
  by_cases hc : (!a.two.isSome && a.nrows == a.ncols) = true
  · rw [if_pos hc]
    have ht : a.two.isSome = false := by
      rcases h : a.two.isSome
      · rfl
      · rw [h] at hc; simp at hc
    refine ⟨hs.shape, hs.two, hs.pop, fun _ h => ?_⟩
    rw [ht] at h; cases h
  · rw [if_neg hc]
    have hu := KMState.unch (fun s0 => unch_fillCells (env := env) (s0 := s0) (lowerPairs a.nrows a.ncols)) s
    rcases h1 : fillCells env (lowerPairs a.nrows a.ncols) s with ⟨e | _, s2⟩
    · rw [h1] at hu; exact hs.unch hu
    · rw [h1] at hu
      have hs2 := hs.unch hu
      refine ⟨hs2.shape, hs2.two, hs2.pop, fun _ ht i j hi hj hij => ?_⟩
      have := fill_memo _ hs.two h1 (i, j) (mem_lowerPairs.2 ⟨hi, hj, hij⟩)
      rw [if_neg (fun h => by rw [ht] at h; cases h.2)] at this
      exact this

theorem counted_attr {f : KMState K X V → Option α} : Holds (Counted a) (getAttr f) fun _ => True :=
  Holds.getAttr fun _ _ _ _ => trivial

theorem counted_modify {f : KMState K X V → KMState K X V} (h : ∀ s, Unch s (f s)) : Holds (Counted a) (modify f) fun _ => True :=
  Holds.modify fun s hs => hs.unch (h s)

theorem counted_fullMat : Holds (Counted a) (fullMat : PyM (KMState K X V) _) fun _ => True :=
  counted_attr.bind fun _ _ => counted_attr.bind fun _ _ => Holds.pure trivial

theorem counted_warn (M : Mat V) : Holds (Counted a) (warnNonFinite env M) fun _ => True := Holds.get.bind fun _ _ => Holds.raiseIf

theorem counted_populateFully (d l : Bool) : Holds (Counted a) (populateFully env d l) fun _ => True :=
  (counted_populateUpper d).bind fun _ _ => (counted_populateLower l).bind fun _ _ =>
    Holds.bind (counted_attr.bind fun _ _ => Holds.when (counted_modify fun _ => ⟨rfl, rfl, rfl, rfl, fun _ h => h⟩)) fun _ _ =>
      counted_fullMat.bind fun _ _ => counted_warn _

theorem counted_ensurePopulated : Holds (Counted a) (ensurePopulated env) fun _ => True :=
  Holds.get.bind fun _ _ => Holds.when (counted_populateFully _ _)

theorem counted_freshDiagonal (f : KMState K X V → Option (Arr2 X)) : Holds (Counted a) (freshDiagonal env f) fun _ => True :=
  counted_attr.bind fun _ _ => Holds.get.bind fun _ _ =>
    Holds.bind (counted_modify fun _ => ⟨rfl, rfl, rfl, rfl, fun _ h => h⟩) fun _ _ => Holds.lift

theorem counted_computeNormed (m : String) : Holds (Counted a) (computeNormed env m) fun _ => True :=
  counted_attr.bind fun _ _ => Holds.ite
    (counted_fullMat.bind fun _ _ => Holds.lift.bind fun _ _ => Holds.pure trivial)
    ((counted_freshDiagonal _).bind fun _ _ => (counted_freshDiagonal _).bind fun _ _ =>
      counted_fullMat.bind fun _ _ => Holds.lift.bind fun _ _ => Holds.pure trivial)

theorem counted_normalize (m : String) : Holds (Counted a) (normalize env m) fun _ => True :=
  counted_ensurePopulated.bind fun _ _ => Holds.get.bind fun _ _ => Holds.when <|
    (counted_computeNormed m).bind fun _ _ => Holds.bind (counted_modify fun _ => ⟨rfl, rfl, rfl, rfl, fun _ h => h⟩) fun _ _ => counted_warn _

theorem counted_normedKmVal : Holds (Counted a) (normedKmVal env) fun _ => True :=
  Holds.get.bind fun _ _ => (Holds.when (counted_normalize _)).bind fun _ _ => counted_attr

theorem counted_full : Holds (Counted a) (full env) fun _ => True :=
  Holds.get.bind fun _ _ => Holds.raiseIf.bind fun _ _ => counted_ensurePopulated.bind fun _ _ => Holds.ite counted_normedKmVal counted_fullMat

theorem counted_fullSparse : Holds (Counted a) (fullSparse env) fun _ => True :=
  Holds.get.bind fun _ _ => Holds.ite counted_normedKmVal ((counted_populateFully _ _).bind fun _ _ => counted_fullMat)

theorem counted_center : Holds (Counted a) (center env) fun _ => True :=
  counted_attr.bind fun _ _ => Holds.raiseIf.bind fun _ _ => counted_ensurePopulated.bind fun _ _ =>
    counted_fullMat.bind fun _ _ => Holds.raiseIf.bind fun _ _ => Holds.lift.bind fun _ _ => counted_modify fun _ => ⟨rfl, rfl, rfl, rfl, fun _ h => h⟩

theorem counted_centered : Holds (Counted a) (centered env) fun _ => True :=
  counted_attr.bind fun _ _ => Holds.raiseIf.bind fun _ _ => Holds.get.bind fun _ _ => (Holds.when counted_center).bind fun _ _ => counted_attr

theorem counted_frobNormVal : Holds (Counted a) (frobNormVal env) fun _ => True := by
  refine counted_ensurePopulated.bind fun _ _ => Holds.get.bind fun _ _ => Holds.bind (Holds.when (Q := Counted a) ?_) fun _ _ => counted_attr
  exact counted_fullMat.bind fun _ _ => Holds.lift.bind fun _ _ => counted_modify fun _ => ⟨rfl, rfl, rfl, rfl, fun _ h => h⟩

theorem counted_evalKernel (i j : Nat) : Holds (Counted a) (evalKernel env i j) fun _ => True := Holds.counted fun _ => unch_evalKernel i j

theorem counted_diagonal : Holds (Counted a) (diagonal env) fun _ => True :=
  counted_attr.bind fun _ _ => Holds.ite Holds.throw (counted_attr.bind fun _ _ => Holds.mapEach fun _ => counted_evalKernel _ _)

theorem counted_size : Holds (Counted a) (size : PyM (KMState K X V) _) fun _ => True := by
  refine counted_attr.bind fun b _ => Holds.get.bind fun s _ => ?_
  cases b <;> rcases s.numSamples with _ | _ | _ <;> first | exact Holds.throw | exact Holds.pure trivial

theorem counted_keyPair (key : Key) : Holds (Counted a) (keyPair key : PyM (KMState K X V) _) fun _ => True := by
  cases key with
  | linear q => exact counted_attr.bind fun _ _ => Holds.lift.bind fun _ _ => Holds.pure trivial
  | pair S T => exact Holds.pure trivial
  | other => exact Holds.throw

theorem counted_getItem (key : Key) : Holds (Counted a) (getItem env key) fun _ => True := by
  refine (counted_keyPair key).bind fun q _ => Holds.get.bind fun s hs => Holds.lift.bind fun one _ => Holds.lift.bind fun two _ => Holds.ite ?_ ?_
  · exact (counted_populateFully _ _).bind fun _ _ => counted_fullMat
  · exact Holds.bind (Holds.mapEach fun _ => counted_evalKernel _ _) fun _ _ => Holds.pure trivial

theorem Counted.exec {s : KMState K X V} (h : Counted a s) (op : KMOp X) (ha : op.isAttach = false) : Counted a (exec env op s).2 := by
  have run : ∀ {α : Type} {m : PyM (KMState K X V) α} {R : α → Prop} (f : α → KMOut V),
      Holds (Counted a) m R → Counted a ((m >>= fun x => pure (f x)) s).2 :=
    fun f hm => ((hm.bind (R' := fun _ => True) fun _ _ => Holds.pure trivial) s h).1
  cases op with
  | attach => simp [KMOp.isAttach] at ha
  | setAttr n v => exact h.unch ⟨rfl, rfl, rfl, rfl, fun _ h => h⟩
  | getAttr n d => exact h
  | attributes => exact h
  | numSamples => exact h
  | shape => rw [exec_shape_run]; exact h
  | size => exact run _ counted_size
  | full => exact run _ counted_full
  | fullSparse => exact run _ counted_fullSparse
  | center => exact run _ counted_center
  | centered => exact run _ counted_centered
  | normalize m => exact run _ (counted_normalize m)
  | normedKm => exact run _ counted_normedKmVal
  | frobNorm => exact run _ counted_frobNormVal
  | diagonal => exact run _ counted_diagonal
  | getItem key => exact run _ (counted_getItem key)

theorem Since.counted {k : K} {norm : Bool} {P : KMOp X → Prop} {s : KMState K X V} (h : Since env k norm a P s) : Counted a s := by
  induction h with
  | attached hr ha h =>
    rw [exec_attach_ok ha h]
    exact ⟨(attachedTo_attachedState env _ _ a _ _).shape, (attachedTo_attachedState env _ _ a _ _).two, fun h => by simp [attachedState] at h,
      fun h => by simp [attachedState] at h⟩
  | call op _ ha _ ih => exact ih.exec op ha

/-! ### the flag after `full` -/

theorem populated_normedKmVal : Holds (fun s : KMState K X V => s.populated = true) (normedKmVal env) fun _ => True := by
  have hattr : ∀ {α : Type} {f : KMState K X V → Option α}, Holds (fun s : KMState K X V => s.populated = true) (getAttr f) fun _ => True :=
    Holds.getAttr fun _ _ _ _ => trivial
  have hmat : Holds (fun s : KMState K X V => s.populated = true) fullMat fun _ => True :=
    hattr.bind fun _ _ => hattr.bind fun _ _ => Holds.pure trivial
  have hfresh : ∀ f, Holds (fun s : KMState K X V => s.populated = true) (freshDiagonal env f) fun _ => True := fun f =>
    hattr.bind fun _ _ => Holds.get.bind fun _ _ => Holds.bind (Holds.modify fun _ h => h) fun _ _ => Holds.lift
  refine Holds.get.bind fun _ _ => (Holds.when ?_).bind fun _ _ => hattr
  refine Holds.bind (R := fun _ => True) (Holds.get.bind fun s hs => ?_) fun _ _ => Holds.get.bind fun _ _ => Holds.when ?_
  · rw [hs]
    exact Holds.pure trivial
  · refine Holds.bind (R := fun _ => True) (hattr.bind fun _ _ => Holds.ite ?_ ?_) fun _ _ =>
      Holds.bind (Holds.modify fun _ h => h) fun _ _ => Holds.get.bind fun _ _ => Holds.raiseIf
    · exact hmat.bind fun _ _ => Holds.lift.bind fun _ _ => Holds.pure trivial
    · exact (hfresh _).bind fun _ _ => (hfresh _).bind fun _ _ => hmat.bind fun _ _ => Holds.lift.bind fun _ _ => Holds.pure trivial

theorem populated_full (hf : NoFaults env) {sp : Lv} {s : KMState K X V} (h : Good env a sp s) : (exec env .full s).2.populated = true := by
  have hs : (exec env .full s).2 = (full env s).2 := (exec_state (m := full env) (f := fun A => KMOut.mat A.1 A.2) s).1
  rw [hs]
  unfold full
  rw [get_bind_run, bind_run]
  have hsam : s.sample.isNone = false := by rw [h.att.sample]; rfl
  rw [hsam]
  show ((ensurePopulated env >>= _ : PyM (KMState K X V) _) s).2.populated = true
  obtain ⟨s1, r, e1, e2, e3, e4, e5, e6, hr, hq⟩ := ensurePopulated_ff hf h
  rw [bind_run, e1]
  rcases hr with rfl | rfl
  swap
  · exact e4
  show ((if s.keepNormed then normedKmVal env else fullMat : PyM (KMState K X V) _) s1).2.populated = true
  split
  · exact (populated_normedKmVal s1 e4).1
  · have hmat : Holds (fun s : KMState K X V => s.populated = true) fullMat fun _ => True :=
      Holds.bind (Holds.getAttr (R := fun _ => True) fun _ _ _ _ => trivial) fun _ _ =>
        Holds.bind (Holds.getAttr (R := fun _ => True) fun _ _ _ _ => trivial) fun _ _ => Holds.pure trivial
    exact (hmat s1 e4).1

end KMState

theorem length_ge_of_upper {n : Nat} {l : List (Nat × Nat)} (h : ∀ i j, i ≤ j → j < n → (i, j) ∈ l) : n * (n + 1) ≤ 2 * l.length := by
  have hsub : ((Finset.range n).sigma fun j => Finset.range (j + 1)) ⊆ (l.toFinset.image fun p => (⟨p.2, p.1⟩ : Σ _ : Nat, Nat)) := by
    rintro ⟨j, i⟩ hq
    simp only [Finset.mem_sigma, Finset.mem_range] at hq
    exact Finset.mem_image.2 ⟨(i, j), List.mem_toFinset.2 (h i j (by omega) hq.1), rfl⟩
  have h1 := (Finset.card_le_card hsub).trans (Finset.card_image_le.trans (List.toFinset_card_le l))
  rw [Finset.card_sigma] at h1
  simp only [Finset.card_range] at h1
  have hg := Finset.sum_range_id_mul_two (n + 1)
  rw [Finset.sum_range_succ'] at hg
  simp only [Nat.add_sub_cancel, Nat.add_zero] at hg
  have : n * (n + 1) = (n + 1) * n := Nat.mul_comm _ _
  omega

theorem length_ge_of_range {n m : Nat} {l : List (Nat × Nat)} (h : ∀ i j, i < n → j < m → (i, j) ∈ l) : n * m ≤ l.length := by
  have hsub : Finset.range n ×ˢ Finset.range m ⊆ l.toFinset := by
    rintro ⟨i, j⟩ hq
    simp only [Finset.mem_product, Finset.mem_range] at hq
    exact List.mem_toFinset.2 (h i j hq.1 hq.2)
  have h1 := (Finset.card_le_card hsub).trans (List.toFinset_card_le l)
  simpa using h1

end KMethods
