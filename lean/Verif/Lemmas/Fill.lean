import Verif.Lemmas.Clean
/-!
# With arbitrary kernel failures, cells of cached matrices hold the true value or a fill value
-/
namespace KMethods
namespace KMState
variable {K X V α β ι : Type}
open PyM

/-- `Q` is preserved (also by exceptions) and results satisfy `R` -/
def Holds (Q : KMState K X V → Prop) (m : PyM (KMState K X V) α) (R : α → Prop) : Prop :=
  ∀ s, Q s → Q (m s).2 ∧ ∀ x, (m s).1 = .ok x → R x

section
variable {Q : KMState K X V → Prop}

theorem Holds.bind {m : PyM (KMState K X V) α} {f : α → PyM (KMState K X V) β} {R : α → Prop} {R' : β → Prop}
    (h : Holds Q m R) (hf : ∀ x, R x → Holds Q (f x) R') : Holds Q (m >>= f) R' := by
  intro s hs
  obtain ⟨h1, h2⟩ := h s hs
  rw [bind_run]
  rcases hm : m s with ⟨e | x, s'⟩
  · rw [hm] at h1; exact ⟨h1, by simp⟩
  · rw [hm] at h1 h2; exact hf x (h2 x rfl) s' h1

theorem Holds.pure {x : α} {R : α → Prop} (h : R x) : Holds Q (pure x) R :=
  fun _ hs => ⟨hs, fun y hy => by injection hy with hy; exact hy ▸ h⟩

theorem Holds.throw {e : PyErr} {R : α → Prop} : Holds Q (throw e) R := fun _ hs => ⟨hs, fun y hy => by cases hy⟩

theorem Holds.lift {r : Except PyErr α} : Holds Q (lift r) fun _ => True := fun _ hs => ⟨hs, fun _ _ => trivial⟩

theorem Holds.get : Holds Q (get : PyM (KMState K X V) _) Q :=
  fun s hs => ⟨hs, fun y hy => by injection hy with hy; exact hy ▸ hs⟩

theorem Holds.getAttr {f : KMState K X V → Option α} {R : α → Prop} (h : ∀ s, Q s → ∀ x, f s = some x → R x) :
    Holds Q (getAttr f) R := by
  intro s hs
  rw [getAttr_run]
  rcases hf : f s with _ | x
  · exact ⟨hs, fun y hy => by cases hy⟩
  · exact ⟨hs, fun y hy => by injection hy with hy; exact hy ▸ h s hs x hf⟩

theorem Holds.modify {f : KMState K X V → KMState K X V} (h : ∀ s, Q s → Q (f s)) :
    Holds Q (modify f) fun _ => True := fun s hs => ⟨h s hs, fun _ _ => trivial⟩

theorem Holds.imp {m : PyM (KMState K X V) α} {R R' : α → Prop} (h : Holds Q m R) (hi : ∀ x, R x → R' x) :
    Holds Q m R' := fun s hs => ⟨(h s hs).1, fun x hx => hi x ((h s hs).2 x hx)⟩

theorem Holds.triv {m : PyM (KMState K X V) α} {R : α → Prop} (h : Holds Q m R) : Holds Q m fun _ => True :=
  h.imp fun _ _ => trivial

theorem Holds.catchAll {e : PyErr} {m : PyM (KMState K X V) α} {R : α → Prop} (h : Holds Q m R) :
    Holds Q (catchAll e m) R := by
  intro s hs
  obtain ⟨h1, h2⟩ := h s hs
  rw [catchAll_run]
  rcases hm : m s with ⟨e | x, s'⟩
  · rw [hm] at h1; exact ⟨h1, by simp⟩
  · rw [hm] at h1 h2; exact ⟨h1, h2⟩

theorem Holds.when {c : Bool} {m : PyM (KMState K X V) Unit} (h : Holds Q m fun _ => True) :
    Holds Q (when c m) fun _ => True := by
  cases c
  · exact Holds.pure trivial
  · exact h

theorem Holds.raiseIf {c : Bool} {e : PyErr} : Holds Q (raiseIf c e : PyM (KMState K X V) Unit) fun _ => True := by
  cases c
  · exact Holds.pure trivial
  · exact Holds.throw

theorem Holds.ite {c : Prop} [Decidable c] {m m' : PyM (KMState K X V) α} {R : α → Prop} (h : Holds Q m R)
    (h' : Holds Q m' R) : Holds Q (if c then m else m') R := by
  split
  · exact h
  · exact h'

theorem Holds.forEach {l : List ι} {f : ι → PyM (KMState K X V) Unit} (h : ∀ x, Holds Q (f x) fun _ => True) :
    Holds Q (forEach l f) fun _ => True := by
  induction l with
  | nil => exact Holds.pure trivial
  | cons x l ih => exact (h x).bind fun _ _ => ih

theorem Holds.mapEach {l : List ι} {f : ι → PyM (KMState K X V) β} (h : ∀ x, Holds Q (f x) fun _ => True) :
    Holds Q (mapEach l f) fun _ => True := by
  induction l with
  | nil => exact Holds.pure trivial
  | cons x l ih => exact (h x).bind fun _ _ => ih.bind fun _ _ => Holds.pure trivial

end

variable (env : Env K X V) (k : K) (norm : Bool) (a : Attachment X)

/-- the value is the true entry, or a fill value -/
def TrueOrFill (i j : Nat) (v : V) : Prop :=
  v = a.entry (env.kval k) i j ∨ v = env.ops.nan ∨ v = env.ops.zero

/-- attached to `a`; every cell of `_full_km` holds the true value or a fill value -/
structure CellsOk (s : KMState K X V) : Prop where
  att : AttachedTo env a s
  kernel : s.kernel = k
  keep : s.keepNormed = norm
  cells : ∀ f, s.fullKm = some f → ∀ i j, TrueOrFill env k a i j (f.cell i j)

variable {env k norm a}

theorem CellsOk.congr {s s' : KMState K X V} (h : CellsOk env k norm a s) (h1 : s'.sample = s.sample)
    (h2 : s'.sampleTwo = s.sampleTwo) (h3 : s'.shape = s.shape) (h4 : s'.twoSamples = s.twoSamples)
    (h5 : s'.numSamples = s.numSamples) (h6 : s'.cache = s.cache) (h7 : s'.kernel = s.kernel)
    (h8 : s'.fullKm = s.fullKm) (h9 : s'.keepNormed = s.keepNormed) : CellsOk env k norm a s' :=
  ⟨h.att.congr h1 h2 h3 h4 h5 h6 h7, h7.trans h.kernel, h9.trans h.keep, by rw [h8]; exact h.cells⟩

theorem holds_rowAt (f : KMState K X V → Option (Arr2 X)) (e : PyErr) (i : Nat) (b : Arr2 X)
    (hf : ∀ s, CellsOk env k norm a s → f s = some b) :
    Holds (CellsOk env k norm a) (rowAt f e i) fun x => x = b.row i := by
  intro s hs
  unfold rowAt
  rw [hf s hs]
  by_cases hi : i < b.nrows
  · simp only [if_pos hi]
    exact ⟨hs, fun x hx => by injection hx with hx; exact hx.symm⟩
  · simp only [if_neg hi]
    exact ⟨hs, fun x hx => by cases hx⟩

theorem holds_callKernel (p : Nat × Nat) (x y : X) :
    Holds (CellsOk env k norm a) (callKernel env p x y) fun v => v = env.kval k x y := by
  intro s hs
  unfold callKernel
  split
  · exact ⟨hs.congr rfl rfl rfl rfl rfl rfl rfl rfl rfl, by simp⟩
  · refine ⟨hs.congr rfl rfl rfl rfl rfl rfl rfl rfl rfl, fun v hv => ?_⟩
    injection hv with hv
    rw [← hv, hs.kernel]

theorem holds_evalAt (p : Nat × Nat) :
    Holds (CellsOk env k norm a) (evalAt env p) fun v =>
      v = env.kval k (a.one.row p.1) ((a.two.getD a.one).row p.2) := by
  unfold evalAt
  refine Holds.get.bind fun s hs => ?_
  rcases hl : s.cache.lookup p with _ | v
  · simp only
    refine (holds_rowAt _ _ _ a.one fun s h => h.att.sample).bind fun x hx => ?_
    refine (holds_rowAt _ _ _ (a.two.getD a.one) fun s h => h.att.sampleTwo).bind fun y hy => ?_
    refine (holds_callKernel p x y).bind fun v hv => ?_
    subst hx hy
    refine Holds.bind (Holds.modify fun s hs => ?_) fun _ _ => Holds.pure hv
    refine ⟨⟨hs.att.sample, hs.att.sampleTwo, hs.att.shape, hs.att.two, hs.att.num, ?_⟩, hs.kernel, hs.keep, hs.cells⟩
    intro q w hw
    simp only [List.lookup_cons] at hw
    split at hw
    · rename_i hq
      have hq : q = p := by simpa using hq
      subst hq
      injection hw with hw
      rw [← hw, hv]
      simp only [hs.kernel]
    · exact hs.att.sound q w hw
  · simp only
    refine Holds.pure ?_
    rw [← hs.kernel]; exact hs.att.sound p v hl

theorem holds_evalKernel (i j : Nat) :
    Holds (CellsOk env k norm a) (evalKernel env i j) fun v => v = a.entry (env.kval k) i j := by
  unfold evalKernel
  by_cases hij : i > j
  · rw [if_pos hij]
    refine (Holds.getAttr (R := fun b => b = a.two.isSome) fun s hs x hx => ?_).bind fun b hb => ?_
    · rw [hs.att.two] at hx; injection hx with hx; exact hx.symm
    · subst hb
      rcases ht : a.two with _ | t
      · simp only [Option.isSome_none, Bool.not_false, if_true]
        refine (holds_evalAt _).imp fun v hv => ?_
        rw [hv]
        simp only [Attachment.entry, ht, Option.getD_none]
        rw [Nat.min_eq_right (by omega), Nat.max_eq_left (by omega)]
      · simp only [Option.isSome_some, Bool.not_true, Bool.false_eq_true, if_false]
        refine (holds_evalAt _).imp fun v hv => ?_
        rw [hv]
        simp only [Attachment.entry, ht, Option.getD_some]
  · rw [if_neg hij]
    refine (holds_evalAt _).imp fun v hv => ?_
    rw [hv]
    rcases ht : a.two with _ | t
    · simp only [Attachment.entry, ht, Option.getD_none]
      rw [Nat.min_eq_left (by omega), Nat.max_eq_right (by omega)]
    · simp only [Attachment.entry, ht, Option.getD_some]

theorem holds_setCell (i j : Nat) (v : V) (hv : v = a.entry (env.kval k) i j) :
    Holds (CellsOk env k norm a) (setCell i j v) fun _ => True := by
  refine Holds.modify fun s hs => ⟨hs.att.congr rfl rfl rfl rfl rfl rfl rfl, hs.kernel, hs.keep, ?_⟩
  intro f hf p q
  rcases hs0 : s.fullKm with _ | f0
  · rw [hs0] at hf; simp at hf
  · rw [hs0] at hf
    simp only [Option.map_some, Option.some.injEq] at hf
    subst hf
    simp only
    split
    · rename_i h
      rw [h.1, h.2]
      exact Or.inl hv
    · exact hs.cells f0 hs0 p q

theorem holds_fillCells (l : List (Nat × Nat)) : Holds (CellsOk env k norm a) (fillCells env l) fun _ => True :=
  Holds.forEach fun _ => (holds_evalKernel _ _).bind fun _ hv => holds_setCell _ _ _ hv

theorem holds_symmetrize (hone : a.two = none) : Holds (CellsOk env k norm a) symmetrize fun _ => True := by
  refine Holds.modify fun s hs => ⟨hs.att.congr rfl rfl rfl rfl rfl rfl rfl, hs.kernel, hs.keep, ?_⟩
  intro f hf p q
  rcases hs0 : s.fullKm with _ | f0
  · rw [hs0] at hf; simp at hf
  · rw [hs0] at hf
    simp only [Option.map_some, Option.some.injEq] at hf
    subst hf
    simp only
    split
    · have := hs.cells f0 hs0 q p
      unfold TrueOrFill at *
      rwa [a.entry_symm _ hone]
    · exact hs.cells f0 hs0 p q

theorem holds_shape : Holds (CellsOk env k norm a) (getAttr fun s => s.shape) fun sh => sh = (a.nrows, a.ncols) :=
  Holds.getAttr fun s hs x hx => by rw [hs.att.shape] at hx; injection hx with hx; exact hx.symm

theorem holds_two : Holds (CellsOk env k norm a) (getAttr fun s => s.twoSamples) fun b => b = a.two.isSome :=
  Holds.getAttr fun s hs x hx => by rw [hs.att.two] at hx; injection hx with hx; exact hx.symm

theorem holds_populateUpper (d : Bool) : Holds (CellsOk env k norm a) (populateUpper env d) fun _ => True := by
  refine Holds.get.bind fun s _ => Holds.when <| holds_shape.bind fun sh _ => Holds.bind (Holds.modify fun s hs => ?_)
    fun _ _ => Holds.bind (Holds.catchAll (holds_fillCells _)) fun _ _ =>
      Holds.modify fun s hs => hs.congr rfl rfl rfl rfl rfl rfl rfl rfl rfl
  refine ⟨hs.att.congr rfl rfl rfl rfl rfl rfl rfl, hs.kernel, hs.keep, ?_⟩
  intro f hf i j
  simp only [Option.some.injEq] at hf
  subst hf
  cases d
  · exact Or.inr (Or.inr rfl)
  · exact Or.inr (Or.inl rfl)

theorem holds_populateLower (l : Bool) : Holds (CellsOk env k norm a) (populateLower env l) fun _ => True := by
  refine Holds.get.bind fun s _ => Holds.when <| Holds.bind (Holds.catchAll (R := fun _ => True) ?_) fun _ _ =>
    Holds.modify fun s hs => hs.congr rfl rfl rfl rfl rfl rfl rfl rfl rfl
  refine holds_shape.bind fun sh _ => holds_two.bind fun b hb => ?_
  by_cases hc : (!b && sh.1 == sh.2) = true
  · rw [if_pos hc]
    refine holds_symmetrize ?_
    subst hb
    rcases ht : a.two with _ | t
    · rfl
    · rw [ht] at hc; simp at hc
  · rw [if_neg hc]
    exact holds_fillCells _

theorem holds_densify (d : Bool) : Holds (CellsOk env k norm a) (densify d) fun _ => True := by
  refine Holds.bind (Holds.getAttr (R := fun _ => True) fun _ _ _ _ => trivial) fun f _ => Holds.when <|
    Holds.modify fun s hs => ⟨hs.att.congr rfl rfl rfl rfl rfl rfl rfl, hs.kernel, hs.keep, ?_⟩
  intro f hf p q
  rcases hs0 : s.fullKm with _ | f0
  · rw [hs0] at hf; simp at hf
  · rw [hs0] at hf
    simp only [Option.map_some, Option.some.injEq] at hf
    subst hf
    exact hs.cells f0 hs0 p q

variable (env k a) in
/-- a matrix of the right shape with true values or fill values -/
def FilledMat (A : Fmt × Mat V) : Prop :=
  ∃ c, A.2 = Mat.ofCells a.nrows a.ncols c ∧ ∀ i j, TrueOrFill env k a i j (c i j)

theorem holds_fullMat : Holds (CellsOk env k norm a) fullMat (FilledMat env k a) := by
  refine Holds.bind (Holds.getAttr (R := fun f => ∀ i j, TrueOrFill env k a i j (f.cell i j))
    fun s hs x hx => hs.cells x hx) fun f hf => holds_shape.bind fun sh hsh => Holds.pure ?_
  subst hsh
  exact ⟨f.cell, rfl, hf⟩

theorem holds_warn (M : Mat V) : Holds (CellsOk env k norm a) (warnNonFinite env M) fun _ => True :=
  Holds.get.bind fun _ _ => Holds.raiseIf

theorem holds_populateFully (d l : Bool) : Holds (CellsOk env k norm a) (populateFully env d l) fun _ => True :=
  (holds_populateUpper d).bind fun _ _ => (holds_populateLower l).bind fun _ _ => (holds_densify d).bind fun _ _ =>
    holds_fullMat.bind fun _ _ => holds_warn _

theorem holds_ensurePopulated : Holds (CellsOk env k norm a) (ensurePopulated env) fun _ => True :=
  Holds.get.bind fun _ _ => Holds.when (holds_populateFully _ _)

theorem holds_freshDiagonal (f : KMState K X V → Option (Arr2 X)) :
    Holds (CellsOk env k norm a) (freshDiagonal env f) fun _ => True :=
  Holds.bind (Holds.getAttr (R := fun _ => True) fun _ _ _ _ => trivial) fun _ _ => Holds.get.bind fun _ _ =>
    Holds.bind (Holds.modify fun _ hs => hs.congr rfl rfl rfl rfl rfl rfl rfl rfl rfl) fun _ _ => Holds.lift

theorem holds_computeNormed (m : String) : Holds (CellsOk env k norm a) (computeNormed env m) fun _ => True :=
  holds_two.bind fun _ _ => Holds.ite
    (holds_fullMat.bind fun _ _ => Holds.lift.bind fun _ _ => Holds.pure trivial)
    ((holds_freshDiagonal _).bind fun _ _ => (holds_freshDiagonal _).bind fun _ _ =>
      holds_fullMat.bind fun _ _ => Holds.lift.bind fun _ _ => Holds.pure trivial)

theorem holds_normalize (m : String) : Holds (CellsOk env k norm a) (normalize env m) fun _ => True :=
  holds_ensurePopulated.bind fun _ _ => Holds.get.bind fun _ _ => Holds.when <|
    (holds_computeNormed m).bind fun _ _ =>
      Holds.bind (Holds.modify fun _ hs => hs.congr rfl rfl rfl rfl rfl rfl rfl rfl rfl) fun _ _ => holds_warn _

theorem holds_normedKmVal : Holds (CellsOk env k norm a) (normedKmVal env) fun _ => True :=
  Holds.get.bind fun _ _ => (Holds.when (holds_normalize _)).bind fun _ _ => Holds.getAttr fun _ _ _ _ => trivial

theorem holds_full : Holds (CellsOk env k norm a) (full env) fun A => norm = false → FilledMat env k a A := by
  refine Holds.get.bind fun s hs => Holds.raiseIf.bind fun _ _ => holds_ensurePopulated.bind fun _ _ => ?_
  rw [hs.keep]
  cases norm
  · exact holds_fullMat.imp fun _ h _ => h
  · exact holds_normedKmVal.imp fun _ _ h => by cases h

theorem holds_fullSparse :
    Holds (CellsOk env k norm a) (fullSparse env) fun A => norm = false → FilledMat env k a A := by
  refine Holds.get.bind fun s hs => ?_
  rw [hs.keep]
  cases norm
  · exact (holds_populateFully _ _).bind fun _ _ => holds_fullMat.imp fun _ h _ => h
  · exact holds_normedKmVal.imp fun _ _ h => by cases h

theorem holds_center : Holds (CellsOk env k norm a) (center env) fun _ => True :=
  holds_two.bind fun _ _ => Holds.raiseIf.bind fun _ _ => holds_ensurePopulated.bind fun _ _ =>
    holds_fullMat.bind fun _ _ => Holds.raiseIf.bind fun _ _ => Holds.lift.bind fun _ _ =>
      Holds.modify fun _ hs => hs.congr rfl rfl rfl rfl rfl rfl rfl rfl rfl

theorem holds_centered : Holds (CellsOk env k norm a) (centered env) fun _ => True :=
  holds_two.bind fun _ _ => Holds.raiseIf.bind fun _ _ => Holds.get.bind fun _ _ =>
    (Holds.when holds_center).bind fun _ _ => Holds.getAttr fun _ _ _ _ => trivial

theorem holds_frobNormVal : Holds (CellsOk env k norm a) (frobNormVal env) fun _ => True := by
  refine holds_ensurePopulated.bind fun _ _ => Holds.get.bind fun _ _ =>
    Holds.bind (Holds.when (Q := CellsOk env k norm a) ?_) fun _ _ => Holds.getAttr fun _ _ _ _ => trivial
  exact holds_fullMat.bind fun _ _ => Holds.lift.bind fun _ _ =>
      Holds.modify fun _ hs => hs.congr rfl rfl rfl rfl rfl rfl rfl rfl rfl

theorem holds_diagonal : Holds (CellsOk env k norm a) (diagonal env) fun _ => True :=
  holds_two.bind fun _ _ => Holds.ite Holds.throw (holds_shape.bind fun _ _ =>
    Holds.mapEach fun _ => (holds_evalKernel _ _).triv)

theorem holds_size : Holds (CellsOk env k norm a) size fun _ => True := by
  refine holds_two.bind fun b _ => Holds.get.bind fun s _ => ?_
  cases b <;> rcases s.numSamples with _ | _ | _ <;> first | exact Holds.throw | exact Holds.pure trivial

theorem holds_keyPair (key : Key) : Holds (CellsOk env k norm a) (keyPair key) fun _ => True := by
  cases key with
  | linear q => exact holds_shape.bind fun _ _ => Holds.lift.bind fun _ _ => Holds.pure trivial
  | pair S T => exact Holds.pure trivial
  | other => exact Holds.throw

theorem holds_getItem (key : Key) : Holds (CellsOk env k norm a) (getItem env key) fun _ => True := by
  refine (holds_keyPair key).bind fun q _ => Holds.get.bind fun s hs => Holds.lift.bind fun one _ =>
    Holds.lift.bind fun two _ => Holds.ite ?_ ?_
  · exact (holds_populateFully _ _).bind fun _ _ => holds_fullMat.triv
  · exact Holds.bind (Holds.mapEach fun _ => (holds_evalKernel _ _).triv) fun _ _ => Holds.pure trivial

theorem CellsOk.exec {s : KMState K X V} (h : CellsOk env k norm a s) (op : KMOp X) (ha : op.isAttach = false) :
    CellsOk env k norm a (exec env op s).2 := by
  have run : ∀ {α : Type} {m : PyM (KMState K X V) α} {R : α → Prop} (f : α → KMOut V),
      Holds (CellsOk env k norm a) m R → CellsOk env k norm a ((m >>= fun x => pure (f x)) s).2 :=
    fun f hm => ((hm.bind (R' := fun _ => True) fun _ _ => Holds.pure trivial) s h).1
  cases op with
  | attach => simp [KMOp.isAttach] at ha
  | setAttr n v => exact h.congr rfl rfl rfl rfl rfl rfl rfl rfl rfl
  | getAttr n d => exact h
  | attributes => exact h
  | numSamples => exact h
  | shape => rw [exec_shape_run]; exact h
  | size => exact run _ holds_size
  | full => exact run _ holds_full
  | fullSparse => exact run _ holds_fullSparse
  | center => exact run _ holds_center
  | centered => exact run _ holds_centered
  | normalize m => exact run _ (holds_normalize m)
  | normedKm => exact run _ holds_normedKmVal
  | frobNorm => exact run _ holds_frobNormVal
  | diagonal => exact run _ holds_diagonal
  | getItem key => exact run _ (holds_getItem key)

theorem Since.cellsOk {P : KMOp X → Prop} {s : KMState K X V} (h : Since env k norm a P s) :
    CellsOk env k norm a s := by
  induction h with
  | attached hr ha h =>
    have hk := hr.kernel
    rw [exec_attach_ok ha h]
    exact ⟨attachedTo_attachedState env _ _ a _ _, hk.1, hk.2, fun f hf => by simp [attachedState] at hf⟩
  | call op _ ha _ ih => exact ih.exec op ha

end KMState
end KMethods
