import Verif.Lemmas.Leaf
import Verif.Lemmas.FaultFreeOn
/-!
# How many kernel calls are made, including those of the objects created by `normalize`
-/
namespace KMethods
namespace KMState
variable {K X V α β ι : Type}
open PyM

/-- calls made by the two objects that `normalize` creates for two samples -/
def selfCalls (a : Attachment X) : Nat := if a.two.isSome then a.nrows + a.ncols else 0

/-- attached to `a`; all calls since `c` (apart from those that have been counted in `c`) were first evaluations of a pair -/
structure Tally (a : Attachment X) (k : K) (c : Nat) (b : Bool) (s : KMState K X V) : Prop where
  sample : s.sample = some a.one
  sampleTwo : s.sampleTwo = some (a.two.getD a.one)
  shape : s.shape = some (a.nrows, a.ncols)
  two : s.twoSamples = some a.two.isSome
  kernel : s.kernel = k
  clock : s.clock = c + s.succ.length
  normed : s.isNormed = b
  full : s.populated = true → s.fullKm.isSome = true

variable {env : Env K X V} {a : Attachment X} {k : K} {c : Nat} {b : Bool}

theorem Tally.congr {s s' : KMState K X V} (h : Tally a k c b s) (h1 : s'.sample = s.sample) (h2 : s'.sampleTwo = s.sampleTwo) (h3 : s'.shape = s.shape)
    (h4 : s'.twoSamples = s.twoSamples) (h5 : s'.kernel = s.kernel) (h6 : s'.clock = s.clock) (h7 : s'.succ = s.succ) (h8 : s'.isNormed = s.isNormed)
    (h9 : s'.populated = true → s'.fullKm.isSome = true) : Tally a k c b s' :=
  ⟨h1.trans h.sample, h2.trans h.sampleTwo, h3.trans h.shape, h4.trans h.two, h5.trans h.kernel, by rw [h6, h7]; exact h.clock, h8.trans h.normed, h9⟩

theorem tally_attr {f : KMState K X V → Option α} : Holds (Tally a k c b) (getAttr f) fun _ => True := Holds.getAttr fun _ _ _ _ => trivial

theorem tally_rowAt (f : KMState K X V → Option (Arr2 X)) (e : PyErr) (i : Nat) : Holds (Tally a k c b) (rowAt f e i) fun _ => True := by
  intro s hs
  unfold rowAt
  split
  · exact ⟨hs, fun _ _ => trivial⟩
  · split <;> exact ⟨hs, fun _ _ => trivial⟩

theorem tally_callKernel (hf : NoFaults env) (p : Nat × Nat) (x y : X) : Holds (Tally a k c b) (callKernel env p x y) fun _ => True := by
  intro s hs
  unfold callKernel
  rw [if_neg (by rw [hf]; simp)]
  exact ⟨⟨hs.sample, hs.sampleTwo, hs.shape, hs.two, hs.kernel, by show s.clock + 1 = c + (s.succ.length + 1); rw [hs.clock]; rfl, hs.normed, hs.full⟩, fun _ _ => trivial⟩

theorem tally_evalAt (hf : NoFaults env) (p : Nat × Nat) : Holds (Tally a k c b) (evalAt env p) fun _ => True := by
  unfold evalAt
  refine Holds.get.bind fun s hs => ?_
  rcases s.cache.lookup p with _ | v
  · exact (tally_rowAt _ _ _).bind fun x _ => (tally_rowAt _ _ _).bind fun y _ => (tally_callKernel hf _ _ _).bind fun v _ =>
      Holds.bind (Holds.modify fun s hs => hs.congr rfl rfl rfl rfl rfl rfl rfl rfl hs.full) fun _ _ => Holds.pure trivial
  · exact Holds.pure trivial

theorem tally_evalKernel (hf : NoFaults env) (i j : Nat) : Holds (Tally a k c b) (evalKernel env i j) fun _ => True :=
  Holds.ite (tally_attr.bind fun _ _ => Holds.ite (tally_evalAt hf _) (tally_evalAt hf _)) (tally_evalAt hf _)

theorem isSome_map {f : Full V → Full V} {s : KMState K X V} (h : s.populated = true → s.fullKm.isSome = true) : s.populated = true → (s.fullKm.map f).isSome = true := by
  rw [Option.isSome_map]; exact h

theorem tally_setCell (i j : Nat) (v : V) : Holds (Tally a k c b) (setCell i j v : PyM (KMState K X V) _) fun _ => True :=
  Holds.modify fun _ hs => hs.congr rfl rfl rfl rfl rfl rfl rfl rfl (isSome_map hs.full)

theorem tally_fillCells (hf : NoFaults env) (l : List (Nat × Nat)) : Holds (Tally a k c b) (fillCells env l) fun _ => True :=
  Holds.forEach fun _ => (tally_evalKernel hf _ _).bind fun _ _ => tally_setCell _ _ _

theorem allocated_fillCells (l : List (Nat × Nat)) : Holds (fun s : KMState K X V => s.fullKm.isSome = true) (fillCells env l) fun _ => True :=
  Holds.forEach fun p => Holds.bind (R := fun _ => True) (fun s hs => ⟨by rw [(evalKernel_same env s p.1 p.2).2]; exact hs, fun _ _ => trivial⟩) fun _ _ =>
    Holds.modify fun s hs => by show (s.fullKm.map _).isSome = true; rw [Option.isSome_map]; exact hs

theorem tally_populateUpper (hf : NoFaults env) (d : Bool) : Holds (Tally a k c b) (populateUpper env d) fun _ => True := by
  intro s hs
  refine ⟨?_, fun _ _ => trivial⟩
  unfold populateUpper
  rw [get_bind_run]
  by_cases hc : (!s.populated && s.fullKm.isNone) = true
  · rw [hc, when_true, bind_ok (getAttr_run_some _ _ _ hs.shape), modify_bind_run]
    have h0 : Tally a k c b { s with fullKm := some (if !d then (⟨.sparse, fun _ _ => env.ops.zero⟩ : Full V) else ⟨.dense, fun _ _ => env.ops.nan⟩) } :=
      hs.congr rfl rfl rfl rfl rfl rfl rfl rfl fun _ => rfl
    have g1 := (Holds.catchAll (e := .runtimeError) (tally_fillCells hf (upperPairs a.nrows a.ncols)) _ h0).1
    have g2 := (Holds.catchAll (e := .runtimeError) (allocated_fillCells (env := env) (upperPairs a.nrows a.ncols))
      { s with fullKm := some (if !d then (⟨.sparse, fun _ _ => env.ops.zero⟩ : Full V) else ⟨.dense, fun _ _ => env.ops.nan⟩) } rfl).1
    rw [bind_run]
    generalize catchAll PyErr.runtimeError (fillCells env (upperPairs a.nrows a.ncols)) _ = r at g1 g2 ⊢
    obtain ⟨e | x, s1⟩ := r
    · exact g1
    · exact g1.congr rfl rfl rfl rfl rfl rfl rfl rfl fun _ => g2
  · rw [Bool.not_eq_true] at hc
    rw [hc, when_false]
    exact hs

theorem tally_populateLower (hf : NoFaults env) (l : Bool) : Holds (Tally a k c b) (populateLower env l) fun _ => True :=
  Holds.get.bind fun _ _ => Holds.when <| Holds.bind (Holds.catchAll (tally_attr.bind fun _ _ => tally_attr.bind fun _ _ =>
    Holds.ite (Holds.modify fun _ hs => hs.congr rfl rfl rfl rfl rfl rfl rfl rfl (isSome_map hs.full)) (tally_fillCells hf _))) fun _ _ =>
    Holds.modify fun _ hs => hs.congr rfl rfl rfl rfl rfl rfl rfl rfl hs.full

theorem tally_densify (d : Bool) : Holds (Tally a k c b) (densify d : PyM (KMState K X V) _) fun _ => True :=
  tally_attr.bind fun _ _ => Holds.when <| Holds.modify fun _ hs => hs.congr rfl rfl rfl rfl rfl rfl rfl rfl (isSome_map hs.full)

theorem tally_populateFully (hf : NoFaults env) (d l : Bool) : Holds (Tally a k c b) (populateFully env d l) fun _ => True :=
  (tally_populateUpper hf d).bind fun _ _ => (tally_populateLower hf l).bind fun _ _ => (tally_densify d).bind fun _ _ => Leaf.fullMat.bind fun _ _ => Leaf.warn _

theorem tally_ensurePopulated (hf : NoFaults env) : Holds (Tally a k c b) (ensurePopulated env) fun _ => True :=
  Holds.get.bind fun _ _ => Holds.when (tally_populateFully hf _ _)

/-- a new object evaluates each self-kernel once -/
theorem freshDiagonal_clock (hf : NoFaults env) {s : KMState K X V} {g : KMState K X V → Option (Arr2 X)} {x : Arr2 X} (hg : g s = some x) :
    freshDiagonal env g s = (.ok (x.selfs (env.kval s.kernel)), { s with clock := s.clock + x.nrows }) := by
  obtain ⟨s', h1, _, _, _⟩ := diagonal_ff hf (attachedTo_freshOn env s.kernel x s.clock) rfl
  have key : ∀ (n : Nat) (f : KMState K X V), f.sample = some x → f.sampleTwo = some x → (∀ i, n ≤ i → f.cache.lookup (i, i) = none) → ∀ m, n + m ≤ x.nrows →
      (mapEach (List.range' n m) (fun i => evalKernel env i i) f).2.clock = f.clock + m := by
    intro n f e1 e2 e3 m
    induction m generalizing n f with
    | zero => exact fun _ => rfl
    | succ m ih =>
      intro hm
      have hn : n < x.nrows := by omega
      have he : evalKernel env n n f = (.ok (env.kval f.kernel (x.row n) (x.row n)),
          { f with clock := f.clock + 1, succ := (n, n) :: f.succ, cache := ((n, n), env.kval f.kernel (x.row n) (x.row n)) :: f.cache, numKerEval := f.numKerEval + 1 }) := by
        unfold evalKernel evalAt
        rw [if_neg (by omega), get_bind_run, e3 n le_rfl]
        simp [bind_run, rowAt, e1, e2, hn, callKernel, hf f.clock f.kernel]
      show ((evalKernel env n n >>= fun y => mapEach (List.range' (n + 1) m) (fun i => evalKernel env i i) >>= fun ys => Pure.pure (y :: ys)) f).2.clock = _
      rw [bind_ok he, bind_run]
      have := ih (n + 1) { f with clock := f.clock + 1, succ := (n, n) :: f.succ, cache := ((n, n), env.kval f.kernel (x.row n) (x.row n)) :: f.cache, numKerEval := f.numKerEval + 1 }
        e1 e2 (by
          intro i hi
          show List.lookup (i, i) (((n, n), _) :: f.cache) = none
          rw [List.lookup_cons, show ((i, i) == (n, n)) = false by simp; omega]
          exact e3 i (by omega)) (by omega)
      generalize mapEach (List.range' (n + 1) m) (fun i => evalKernel env i i) _ = r at this
      obtain ⟨e | ys, r2⟩ := r
      · show r2.clock = _
        rw [show r2.clock = _ from this]; show f.clock + 1 + m = _; omega
      · show r2.clock = _
        rw [show r2.clock = _ from this]; show f.clock + 1 + m = _; omega
  have hclock : (diagonal env (freshOn s.kernel x s.clock : KMState K X V)).2.clock = s.clock + x.nrows := by
    unfold diagonal
    rw [bind_ok (getAttr_run_some (fun s : KMState K X V => s.twoSamples) (freshOn s.kernel x s.clock) false rfl)]
    show ((getAttr (·.shape) >>= fun sh => mapEach (List.range sh.1) fun i => evalKernel env i i) _).2.clock = _
    rw [bind_ok (getAttr_run_some (fun s : KMState K X V => s.shape) (freshOn s.kernel x s.clock) (x.nrows, x.nrows) rfl), List.range_eq_range']
    exact key 0 _ rfl rfl (fun _ _ => rfl) _ (by omega)
  unfold freshDiagonal
  rw [bind_ok (getAttr_run_some g s _ hg), get_bind_run]
  show (PyM.modify _ >>= fun _ => lift _) s = _
  rw [modify_bind_run, hclock, h1]
  rfl

theorem Tally.addClock {s : KMState K X V} (h : Tally a k c b s) (d : Nat) : Tally a k (c + d) b { s with clock := s.clock + d } :=
  ⟨h.sample, h.sampleTwo, h.shape, h.two, h.kernel, by show s.clock + d = c + d + s.succ.length; rw [h.clock]; omega, h.normed, h.full⟩

/-- the normalisation of the matrix, whatever its entries, succeeds -/
def NormOk (env : Env K X V) (a : Attachment X) (k : K) : Prop :=
  ∀ method f, ∃ N, a.normedOf (env.kval k) env.ops method (Mat.ofCells a.nrows a.ncols f) = .ok N

/-- the two-sample normalisation of the matrix, whatever its entries, raises -/
def NormFails (env : Env K X V) (a : Attachment X) (k : K) : Prop :=
  ∀ method f, ∃ e, a.normedOf (env.kval k) env.ops method (Mat.ofCells a.nrows a.ncols f) = .error e

theorem tally_computeNormed (hf : NoFaults env) (m : String) {s : KMState K X V} (h : Tally a k c b s) :
    Tally a k (c + selfCalls a) b (computeNormed env m s).2 ∧ (NormOk env a k → s.fullKm.isSome → ∃ N, (computeNormed env m s).1 = .ok N) ∧
    (NormFails env a k → ∃ e, (computeNormed env m s).1 = .error e) := by
  unfold computeNormed
  rw [bind_ok (getAttr_run_some (·.twoSamples) s _ h.two)]
  have hfm : ∀ (s' : KMState K X V) (g : Fmt × Mat V → PyM (KMState K X V) (Fmt × Mat V)), s'.fullKm = s.fullKm → s'.shape = s.shape →
      (fullMat >>= g) s' = match s.fullKm with
        | none => (.error .attributeError, s')
        | some f => g (f.fmt, Mat.ofCells a.nrows a.ncols f.cell) s' := by
    intro s' g e1 e2
    cases hk : s.fullKm with
    | none =>
      have : fullMat s' = (.error .attributeError, s') := by
        unfold fullMat; rw [bind_run, getAttr_run, e1, hk]
      rw [bind_run, this]
    | some f => rw [bind_ok (fullMat_run (e1.trans hk) (e2.trans h.shape))]
  rcases ht : a.two with _ | y
  · have hx : selfCalls a = 0 := by simp [selfCalls, ht]
    rw [hx]
    show Tally a k c b ((fullMat >>= fun A => lift (env.ops.normalize A.2 m) >>= fun N => Pure.pure (productFmt A.1, N)) s).2 ∧ (_ → _ → ∃ N,
      ((fullMat >>= fun A => lift (env.ops.normalize A.2 m) >>= fun N => Pure.pure (productFmt A.1, N)) s).1 = .ok N) ∧ (_ → ∃ e,
      ((fullMat >>= fun A => lift (env.ops.normalize A.2 m) >>= fun N => Pure.pure (productFmt A.1, N)) s).1 = .error e)
    rw [hfm s _ rfl rfl]
    cases hk : s.fullKm with
    | none => exact ⟨h, fun _ hs => by simp at hs, fun _ => ⟨_, rfl⟩⟩
    | some f =>
      simp only [NormOk, NormFails, Attachment.normedOf, ht]
      rcases hN : env.ops.normalize (Mat.ofCells a.nrows a.ncols f.cell) m with e | N
      · exact ⟨h, fun h' _ => (by obtain ⟨N, h'⟩ := h' m f.cell; rw [hN] at h'; cases h'), fun _ => ⟨_, rfl⟩⟩
      · exact ⟨h, fun _ _ => ⟨_, rfl⟩, fun h' => by obtain ⟨N, h'⟩ := h' m f.cell; rw [hN] at h'; cases h'⟩
  · have hx : selfCalls a = a.one.nrows + y.nrows := by simp [selfCalls, ht, Attachment.nrows, Attachment.ncols]
    rw [hx]
    have e2 : s.sampleTwo = some y := by rw [h.sampleTwo, ht]; rfl
    have hrun : ∀ g : List V → List V → PyM (KMState K X V) (Fmt × Mat V),
        (freshDiagonal env (·.sample) >>= fun dx => freshDiagonal env (·.sampleTwo) >>= fun dy => g dx dy) s =
        g (a.one.selfs (env.kval k)) (y.selfs (env.kval k)) { s with clock := s.clock + (a.one.nrows + y.nrows) } := by
      intro g
      rw [bind_ok (freshDiagonal_clock hf (g := (·.sample)) h.sample),
        bind_ok (freshDiagonal_clock hf (s := { s with clock := s.clock + a.one.nrows }) (g := (·.sampleTwo)) (x := y) e2)]
      show g (a.one.selfs (env.kval s.kernel)) (y.selfs (env.kval s.kernel)) { s with clock := s.clock + a.one.nrows + y.nrows } = _
      rw [h.kernel, Nat.add_assoc]
    show Tally a k _ b ((freshDiagonal env (·.sample) >>= fun dx => freshDiagonal env (·.sampleTwo) >>= fun dy =>
        fullMat >>= fun A => lift (env.ops.normalize2 A.2 dx dy) >>= fun N => Pure.pure (productFmt A.1, N)) s).2 ∧ (_ → _ → ∃ N,
      ((freshDiagonal env (·.sample) >>= fun dx => freshDiagonal env (·.sampleTwo) >>= fun dy =>
        fullMat >>= fun A => lift (env.ops.normalize2 A.2 dx dy) >>= fun N => Pure.pure (productFmt A.1, N)) s).1 = .ok N) ∧ (_ → ∃ e,
      ((freshDiagonal env (·.sample) >>= fun dx => freshDiagonal env (·.sampleTwo) >>= fun dy =>
        fullMat >>= fun A => lift (env.ops.normalize2 A.2 dx dy) >>= fun N => Pure.pure (productFmt A.1, N)) s).1 = .error e)
    rw [hrun]
    have h' := h.addClock (a.one.nrows + y.nrows)
    rw [hfm { s with clock := s.clock + (a.one.nrows + y.nrows) } _ rfl rfl]
    generalize ({ s with clock := s.clock + (a.one.nrows + y.nrows) } : KMState K X V) = s' at h' ⊢
    cases hk : s.fullKm with
    | none => exact ⟨h', fun _ hs => by simp at hs, fun _ => ⟨_, rfl⟩⟩
    | some f =>
      simp only [NormOk, NormFails, Attachment.normedOf, ht]
      rcases hN : env.ops.normalize2 (Mat.ofCells a.nrows a.ncols f.cell) (a.one.selfs (env.kval k)) (y.selfs (env.kval k)) with e | N
      · exact ⟨h', fun h' _ => (by obtain ⟨N, h'⟩ := h' m f.cell; rw [hN] at h'; cases h'), fun _ => ⟨_, rfl⟩⟩
      · exact ⟨h', fun _ _ => ⟨_, rfl⟩, fun h' => by obtain ⟨N, h'⟩ := h' m f.cell; rw [hN] at h'; cases h'⟩

/-- outcome of a call from a state with tally `c` -/
def After (env : Env K X V) (a : Attachment X) (k : K) (c : Nat) (b : Bool) (s : KMState K X V) : Prop :=
  Tally a k c b s ∨ b = false ∧ (Tally a k (c + selfCalls a) true s ∨ ¬ NormOk env a k ∧ Tally a k (c + selfCalls a) false s)

/-- if `ensurePopulated` returned, the matrix has been allocated -/
theorem ensurePopulated_allocated {s s' : KMState K X V} (h : Tally a k c b s) (hr : ensurePopulated env s = (.ok (), s')) : s'.fullKm.isSome = true := by
  unfold ensurePopulated at hr
  rw [get_bind_run] at hr
  rcases hp : s.populated
  · rw [hp, Bool.not_false, when_true] at hr
    unfold populateFully at hr
    obtain ⟨_, s1, h1, hr⟩ := bind_ok_iff.1 hr
    obtain ⟨_, s2, h2, hr⟩ := bind_ok_iff.1 hr
    obtain ⟨_, s3, h3, hr⟩ := bind_ok_iff.1 hr
    obtain ⟨A, s4, h4, hr⟩ := bind_ok_iff.1 hr
    have e5 : s' = s4 := by
      have := congrArg Prod.snd hr
      unfold warnNonFinite at this
      rw [get_bind_run] at this
      unfold raiseIf at this
      split at this <;> exact this.symm
    unfold fullMat at h4
    obtain ⟨f, s5, h5, h4⟩ := bind_ok_iff.1 h4
    obtain ⟨sh, s6, h6, h4⟩ := bind_ok_iff.1 h4
    rw [getAttr_run] at h5 h6
    split at h5 <;> simp at h5
    split at h6 <;> simp at h6
    rename_i e6 _ _ _
    have e4 : s4 = s6 := (congrArg Prod.snd h4).symm
    rw [e5, e4, ← h6.2, ← h5.2, e6]
    rfl
  · rw [hp, Bool.not_true, when_false] at hr
    have := congrArg Prod.snd hr
    simp at this
    rw [← this]
    exact h.full hp

theorem after_normalize (hf : NoFaults env) (m : String) {s : KMState K X V} (h : Tally a k c b s) : After env a k c b (normalize env m s).2 := by
  unfold normalize
  have h1 := (tally_ensurePopulated hf s h).1
  rw [bind_run]
  rcases he : ensurePopulated env s with ⟨e | _, s1⟩
  · rw [he] at h1; exact Or.inl h1
  rw [he] at h1
  have hall := ensurePopulated_allocated h he
  show After env a k c b ((PyM.get >>= _ : PyM (KMState K X V) _) s1).2
  rw [get_bind_run]
  rcases b
  · rw [h1.normed, Bool.not_false, when_true, bind_run]
    obtain ⟨g1, g2, g3⟩ := tally_computeNormed hf m h1
    rcases hc : computeNormed env m s1 with ⟨e | N, s2⟩
    · rw [hc] at g1 g2
      exact Or.inr ⟨rfl, Or.inr ⟨fun hok => (by obtain ⟨N, hN⟩ := g2 hok hall; cases hN), g1⟩⟩
    · rw [hc] at g1
      have g4 : Tally a k (c + selfCalls a) true { s2 with normedKm := some N, isNormed := true } :=
        ⟨g1.sample, g1.sampleTwo, g1.shape, g1.two, g1.kernel, g1.clock, rfl, g1.full⟩
      exact Or.inr ⟨rfl, Or.inl (Leaf.warn (env := env) N.2 _ g4).1⟩
  · rw [h1.normed, Bool.not_true, when_false]
    exact Or.inl h1

theorem After.holds {m : PyM (KMState K X V) α} {R : α → Prop} (hm : ∀ c b, Holds (Tally a k c b) m R) {s : KMState K X V} (h : After env a k c b s) :
    After env a k c b (m s).2 := by
  rcases h with h | ⟨hb, h | ⟨hn, h⟩⟩
  · exact Or.inl (hm _ _ s h).1
  · exact Or.inr ⟨hb, Or.inl (hm _ _ s h).1⟩
  · exact Or.inr ⟨hb, Or.inr ⟨hn, (hm _ _ s h).1⟩⟩

/-- a step that may normalise, followed by one that does not -/
theorem After.bind {m : PyM (KMState K X V) α} {f : α → PyM (KMState K X V) β} {R : β → Prop} {s : KMState K X V} (h : After env a k c b (m s).2)
    (hf : ∀ x c b, Holds (Tally a k c b) (f x) R) : After env a k c b ((m >>= f) s).2 := by
  rw [bind_run]
  rcases hm : m s with ⟨e | x, s1⟩ <;> rw [hm] at h
  · exact h
  · exact h.holds (hf x)

/-- a step that does not normalise, followed by one that may -/
theorem after_bind {m : PyM (KMState K X V) α} {f : α → PyM (KMState K X V) β} {R : α → Prop} {s : KMState K X V} (h : Tally a k c b s)
    (hm : Holds (Tally a k c b) m R) (hf : ∀ x s', R x → Tally a k c b s' → After env a k c b (f x s').2) : After env a k c b ((m >>= f) s).2 := by
  rw [bind_run]
  have h1 := hm s h
  rcases hms : m s with ⟨e | x, s1⟩ <;> rw [hms] at h1
  · exact Or.inl h1.1
  · exact hf x s1 (h1.2 x rfl) h1.1

theorem after_normedKmVal (hf : NoFaults env) {s : KMState K X V} (h : Tally a k c b s) : After env a k c b (normedKmVal env s).2 := by
  unfold normedKmVal
  rw [get_bind_run]
  refine After.bind (R := fun _ => True) ?_ fun _ _ _ => tally_attr
  rcases hn : s.isNormed
  · exact after_normalize hf _ h
  · exact Or.inl h

theorem after_full (hf : NoFaults env) {s : KMState K X V} (h : Tally a k c b s) : After env a k c b (full env s).2 := by
  unfold full
  rw [get_bind_run]
  refine after_bind h (Holds.raiseIf) fun _ s1 _ h1 => after_bind h1 (tally_ensurePopulated hf) fun _ s2 _ h2 => ?_
  split
  · exact after_normedKmVal hf h2
  · exact Or.inl (Leaf.fullMat s2 h2).1

theorem after_fullSparse (hf : NoFaults env) {s : KMState K X V} (h : Tally a k c b s) : After env a k c b (fullSparse env s).2 := by
  unfold fullSparse
  rw [get_bind_run]
  split
  · exact after_normedKmVal hf h
  · exact Or.inl (((tally_populateFully hf false false).bind fun _ _ => Leaf.fullMat) s h).1

theorem tally_center (hf : NoFaults env) : Holds (Tally a k c b) (center env) fun _ => True :=
  tally_attr.bind fun _ _ => Holds.raiseIf.bind fun _ _ => (tally_ensurePopulated hf).bind fun _ _ => Leaf.fullMat.bind fun _ _ =>
    Holds.raiseIf.bind fun _ _ => Holds.lift.bind fun _ _ => Holds.modify fun _ hs => hs.congr rfl rfl rfl rfl rfl rfl rfl rfl hs.full

theorem tally_centered (hf : NoFaults env) : Holds (Tally a k c b) (centered env) fun _ => True :=
  tally_attr.bind fun _ _ => Holds.raiseIf.bind fun _ _ => Holds.get.bind fun _ _ => (Holds.when (tally_center hf)).bind fun _ _ => tally_attr

theorem tally_frobNormVal (hf : NoFaults env) : Holds (Tally a k c b) (frobNormVal env) fun _ => True :=
  (tally_ensurePopulated hf).bind fun _ _ => Holds.get.bind fun _ _ => (Holds.when <| Leaf.fullMat.bind fun _ _ => Holds.lift.bind fun _ _ =>
    Holds.modify fun _ hs => hs.congr rfl rfl rfl rfl rfl rfl rfl rfl hs.full).bind fun _ _ => tally_attr

theorem tally_diagonal (hf : NoFaults env) : Holds (Tally a k c b) (diagonal env) fun _ => True :=
  tally_attr.bind fun _ _ => Holds.ite Holds.throw (tally_attr.bind fun _ _ => Holds.mapEach fun _ => tally_evalKernel hf _ _)

theorem tally_getItem (hf : NoFaults env) (key : Key) : Holds (Tally a k c b) (getItem env key) fun _ => True :=
  (Leaf.keyPair key).bind fun _ _ => Holds.get.bind fun _ _ => Holds.lift.bind fun _ _ => Holds.lift.bind fun _ _ =>
    Holds.ite ((tally_populateFully hf _ _).bind fun _ _ => Leaf.fullMat) (Holds.bind (Holds.mapEach fun _ => tally_evalKernel hf _ _) fun _ _ => Holds.pure trivial)

theorem after_exec (hf : NoFaults env) (op : KMOp X) (ha : op.isAttach = false) {s : KMState K X V} (h : Tally a k c b s) :
    After env a k c b (exec env op s).2 := by
  have run : ∀ {α : Type} {m : PyM (KMState K X V) α} (f : α → KMOut V),
      Holds (Tally a k c b) m (fun _ => True) → After env a k c b ((m >>= fun x => Pure.pure (f x)) s).2 :=
    fun f hm => Or.inl ((hm.bind (R' := fun _ => True) fun _ _ => Holds.pure trivial) s h).1
  have run' : ∀ {α : Type} {m : PyM (KMState K X V) α} (f : α → KMOut V),
      After env a k c b (m s).2 → After env a k c b ((m >>= fun x => Pure.pure (f x)) s).2 :=
    fun f hm => After.bind (R := fun _ => True) hm fun _ _ _ => Holds.pure trivial
  cases op with
  | attach => simp [KMOp.isAttach] at ha
  | setAttr n v => exact Or.inl (h.congr rfl rfl rfl rfl rfl rfl rfl rfl h.full)
  | getAttr n d => exact Or.inl h
  | attributes => exact Or.inl h
  | numSamples => exact Or.inl h
  | shape => rw [exec_shape_run]; exact Or.inl h
  | size => exact run _ Leaf.size
  | full => exact run' _ (after_full hf h)
  | fullSparse => exact run' _ (after_fullSparse hf h)
  | center => exact run _ (tally_center hf)
  | centered => exact run _ (tally_centered hf)
  | normalize m => exact run' _ (after_normalize hf m h)
  | normedKm => exact run' _ (after_normedKmVal hf h)
  | frobNorm => exact run _ (tally_frobNormVal hf)
  | diagonal => exact run _ (tally_diagonal hf)
  | getItem key => exact run _ (tally_getItem hf key)

theorem tally_attachedState (k : K) (norm : Bool) (a : Attachment X) (t : Nat) (o : Option (Fmt × Mat V)) : Tally a k t false (attachedState k norm a t o) :=
  ⟨rfl, rfl, rfl, rfl, rfl, rfl, rfl, fun h => by cases h⟩

/-- `full` from a state that has not been normalised -/
theorem tally_full (hf : NoFaults env) {sp : Lv} {s : KMState K X V} (hg : Good env a sp s) (hq : Quiet env k a) (h : Tally a k c false s) :
    (s.keepNormed = false → Tally a k c false (full env s).2) ∧
    (s.keepNormed = true → ∃ b, Tally a k (c + selfCalls a) b (full env s).2 ∧ (NormOk env a k → b = true) ∧ (NormFails env a k → b = false)) := by
  obtain ⟨s1, r, e1, _, ⟨_, hcore⟩, hp, _, _, _, hr⟩ := ensurePopulated_ff hf hg
  obtain rfl := hr (by rw [h.kernel]; exact hq)
  have h1 : Tally a k c false s1 := by have := (tally_ensurePopulated hf s h).1; rwa [e1] at this
  have hall := ensurePopulated_allocated h e1
  have hrun : full env s = (if s.keepNormed then normedKmVal env else fullMat) s1 := by
    unfold full
    rw [get_bind_run]
    show ((raiseIf s.sample.isNone .valueError : PyM (KMState K X V) Unit) >>= _ : PyM (KMState K X V) _) s = _
    rw [h.sample]
    show (ensurePopulated env >>= _ : PyM (KMState K X V) _) s = _
    rw [bind_ok e1]
  rw [hrun]
  constructor
  · intro hk
    rw [if_neg (by rw [hk]; simp)]
    exact (Leaf.fullMat s1 h1).1
  · intro hk
    rw [if_pos hk]
    have hens : ensurePopulated env s1 = (.ok (), s1) := by
      unfold ensurePopulated
      rw [get_bind_run, hp]
      rfl
    obtain ⟨g1, g2, g3⟩ := tally_computeNormed hf "cosine" h1
    unfold normedKmVal
    rw [get_bind_run, h1.normed, Bool.not_false, when_true, bind_run]
    have hnorm : normalize env "cosine" s1 = (computeNormed env "cosine" >>= fun N => (PyM.modify fun s => { s with normedKm := some N, isNormed := true }) >>= fun _ => warnNonFinite env N.2) s1 := by
      unfold normalize
      rw [bind_ok hens, get_bind_run, h1.normed, Bool.not_false, when_true]
    rcases hc : computeNormed env "cosine" s1 with ⟨e | N, s2⟩
    · rw [hc] at g1 g2
      rw [hnorm, bind_error hc]
      exact ⟨false, g1, fun hok => (by obtain ⟨N, hN⟩ := g2 hok hall; cases hN), fun _ => rfl⟩
    · rw [hc] at g1 g3
      have g4 : Tally a k (c + selfCalls a) true { s2 with normedKm := some N, isNormed := true } :=
        ⟨g1.sample, g1.sampleTwo, g1.shape, g1.two, g1.kernel, g1.clock, rfl, g1.full⟩
      refine ⟨true, ?_, fun _ => rfl, fun hn => by obtain ⟨e, he⟩ := g3 hn; cases he⟩
      have g5 := (Leaf.warn (env := env) N.2 _ g4).1
      rw [hnorm, bind_ok hc, modify_bind_run]
      rcases hw : warnNonFinite env N.2 { s2 with normedKm := some N, isNormed := true } with ⟨e | _, s3⟩ <;> rw [hw] at g5
      · exact g5
      · exact (tally_attr s3 g5).1

/-- any calls, if the normalisation does not raise -/
theorem tally_run (hf : NoFaultsOn env k a) (hn : a.two = none ∨ NormOk env a k) {norm : Bool} (ops : List (KMOp X)) (hops : ∀ op ∈ ops, op.isAttach = false) {s : KMState K X V}
    (hs : SinceAny env k norm a s) (h : Tally a k c false s ∨ Tally a k (c + selfCalls a) true s) :
    SinceAny env k norm a (run env ops s) ∧ (Tally a k c false (run env ops s) ∨ Tally a k (c + selfCalls a) true (run env ops s)) := by
  induction ops generalizing s with
  | nil => exact ⟨hs, h⟩
  | cons op ops ih =>
    have ha := hops op (by simp)
    refine ih (fun o ho => hops o (by simp [ho])) (.call op hs ha trivial) ?_
    show Tally a k c false (exec env op s).2 ∨ Tally a k (c + selfCalls a) true (exec env op s).2
    rw [hs.exec_faultless hf ha]
    rcases h with h | h
    · rcases after_exec (noFaults_faultless env) op ha h with g | ⟨_, g | ⟨g0, g⟩⟩
      · exact Or.inl g
      · exact Or.inr g
      · rcases hn with hn | hn
        · left
          have : selfCalls a = 0 := by simp [selfCalls, hn]
          rwa [this] at g
        · exact absurd hn g0
    · rcases after_exec (noFaults_faultless env) op ha h with g | ⟨g0, _⟩
      · exact Or.inr g
      · cases g0

end KMState
end KMethods
