import Verif.Lemmas.Fill
/-!
# If the kernel never raises on the attached samples, everything is as if it never raised at all
-/
namespace KMethods
namespace KMState
variable {K X V α β ι : Type}
open PyM

theorem faultless_ops (env : Env K X V) : env.faultless.ops = env.ops := rfl
theorem faultless_kval (env : Env K X V) : env.faultless.kval = env.kval := rfl

/-- on states satisfying `Q`, the two computations do the same, `Q` is preserved, and results satisfy `R` -/
def AgreeOn (Q : KMState K X V → Prop) (m m0 : PyM (KMState K X V) α) (R : α → Prop) : Prop :=
  ∀ s, Q s → m s = m0 s ∧ Q (m s).2 ∧ ∀ x, (m s).1 = .ok x → R x

section
variable {Q : KMState K X V → Prop}

theorem Holds.agree {m : PyM (KMState K X V) α} {R : α → Prop} (h : Holds Q m R) : AgreeOn Q m m R :=
  fun s hs => ⟨rfl, h s hs⟩

theorem AgreeOn.bind {m m0 : PyM (KMState K X V) α} {f f0 : α → PyM (KMState K X V) β} {R : α → Prop} {R' : β → Prop}
    (h : AgreeOn Q m m0 R) (hf : ∀ x, R x → AgreeOn Q (f x) (f0 x) R') : AgreeOn Q (m >>= f) (m0 >>= f0) R' := by
  intro s hs
  obtain ⟨h0, h1, h2⟩ := h s hs
  rw [bind_run, bind_run, ← h0]
  rcases hm : m s with ⟨e | x, s'⟩
  · rw [hm] at h1; exact ⟨rfl, h1, by simp⟩
  · rw [hm] at h1 h2; exact hf x (h2 x rfl) s' h1

theorem AgreeOn.catchAll {e : PyErr} {m m0 : PyM (KMState K X V) α} {R : α → Prop} (h : AgreeOn Q m m0 R) :
    AgreeOn Q (catchAll e m) (catchAll e m0) R := by
  intro s hs
  obtain ⟨h0, h1, h2⟩ := h s hs
  rw [catchAll_run, catchAll_run, ← h0]
  rcases hm : m s with ⟨e | x, s'⟩
  · rw [hm] at h1; exact ⟨rfl, h1, by simp⟩
  · rw [hm] at h1 h2; exact ⟨rfl, h1, h2⟩

theorem AgreeOn.when {c : Bool} {m m0 : PyM (KMState K X V) Unit} (h : AgreeOn Q m m0 fun _ => True) :
    AgreeOn Q (when c m) (when c m0) fun _ => True := by
  cases c
  · exact (Holds.pure trivial).agree
  · exact h

theorem AgreeOn.ite {c : Prop} [Decidable c] {m m0 m' m0' : PyM (KMState K X V) α} {R : α → Prop} (h : AgreeOn Q m m0 R)
    (h' : AgreeOn Q m' m0' R) : AgreeOn Q (if c then m else m') (if c then m0 else m0') R := by
  split
  · exact h
  · exact h'

theorem AgreeOn.forEach {l : List ι} {f f0 : ι → PyM (KMState K X V) Unit} (h : ∀ x, AgreeOn Q (f x) (f0 x) fun _ => True) :
    AgreeOn Q (forEach l f) (forEach l f0) fun _ => True := by
  induction l with
  | nil => exact (Holds.pure trivial).agree
  | cons x l ih => exact (h x).bind fun _ _ => ih

theorem AgreeOn.mapEach {l : List ι} {f f0 : ι → PyM (KMState K X V) β} (h : ∀ x, AgreeOn Q (f x) (f0 x) fun _ => True) :
    AgreeOn Q (mapEach l f) (mapEach l f0) fun _ => True := by
  induction l with
  | nil => exact (Holds.pure trivial).agree
  | cons x l ih => exact (h x).bind fun _ _ => ih.bind fun _ _ => (Holds.pure trivial).agree

theorem agree_get : AgreeOn Q (get : PyM (KMState K X V) _) get Q := Holds.get.agree
theorem agree_attr {f : KMState K X V → Option α} : AgreeOn Q (getAttr f) (getAttr f) fun _ => True :=
  (Holds.getAttr fun _ _ _ _ => trivial).agree
theorem agree_mod {f : KMState K X V → KMState K X V} (h : ∀ s, Q s → Q (f s)) :
    AgreeOn Q (modify f) (modify f) fun _ => True := (Holds.modify h).agree
theorem agree_pure {x : α} : AgreeOn Q (pure x) (pure x) fun _ => True := (Holds.pure trivial).agree
theorem agree_lift {r : Except PyErr α} : AgreeOn Q (lift r) (lift r) fun _ => True := Holds.lift.agree
theorem agree_throw {e : PyErr} : AgreeOn Q (throw e : PyM (KMState K X V) α) (throw e) fun _ => True := Holds.throw.agree
theorem agree_raiseIf {c : Bool} {e : PyErr} : AgreeOn Q (raiseIf c e : PyM (KMState K X V) Unit) (raiseIf c e) fun _ => True :=
  Holds.raiseIf.agree
end

/-- the object uses kernel `k` on samples whose rows satisfy `S` -/
structure OnRows (k : K) (S : X → Prop) (s : KMState K X V) : Prop where
  kernel : s.kernel = k
  one : ∀ A, s.sample = some A → ∀ i, i < A.nrows → S (A.row i)
  two : ∀ A, s.sampleTwo = some A → ∀ i, i < A.nrows → S (A.row i)

variable {env : Env K X V} {k : K} {S : X → Prop}

theorem agree_rowAt {f : KMState K X V → Option (Arr2 X)}
    (hf : ∀ s, OnRows k S s → ∀ A, f s = some A → ∀ i, i < A.nrows → S (A.row i)) (e : PyErr) (i : Nat) :
    AgreeOn (OnRows k S) (rowAt f e i) (rowAt f e i) S := by
  refine Holds.agree fun s hs => ?_
  unfold rowAt
  rcases h : f s with _ | A
  · exact ⟨hs, fun x hx => by cases hx⟩
  · dsimp only
    split
    · rename_i hi
      exact ⟨hs, fun x hx => by injection hx with hx; exact hx ▸ hf s hs A h i hi⟩
    · exact ⟨hs, fun x hx => by cases hx⟩

theorem agree_callKernel (hS : ∀ t x y, S x → S y → env.fails t k x y = false) (p : Nat × Nat) {x y : X} (hx : S x) (hy : S y) :
    AgreeOn (OnRows k S) (callKernel env p x y) (callKernel env.faultless p x y) fun _ => True := by
  intro s hs
  unfold callKernel
  rw [hs.kernel, hS _ x y hx hy, if_neg (by simp), if_neg (by simp [Env.faultless])]
  exact ⟨rfl, ⟨rfl, hs.one, hs.two⟩, fun _ _ => trivial⟩

section
variable (hS : ∀ t x y, S x → S y → env.fails t k x y = false)
include hS

theorem agree_evalAt (p : Nat × Nat) : AgreeOn (OnRows k S) (evalAt env p) (evalAt env.faultless p) fun _ => True := by
  unfold evalAt
  refine agree_get.bind fun s hs => ?_
  split
  · exact agree_pure
  · refine (agree_rowAt (fun _ hs => hs.one) _ _).bind fun x hx => ?_
    refine (agree_rowAt (fun _ hs => hs.two) _ _).bind fun y hy => ?_
    refine (agree_callKernel hS p hx hy).bind fun v _ => ?_
    exact AgreeOn.bind (agree_mod fun _ hs => ⟨hs.kernel, hs.one, hs.two⟩) fun _ _ => agree_pure

theorem agree_evalKernel (i j : Nat) :
    AgreeOn (OnRows k S) (evalKernel env i j) (evalKernel env.faultless i j) fun _ => True :=
  AgreeOn.ite (agree_attr.bind fun _ _ => AgreeOn.ite (agree_evalAt hS _) (agree_evalAt hS _)) (agree_evalAt hS _)

theorem agree_fillCells (l : List (Nat × Nat)) :
    AgreeOn (OnRows k S) (fillCells env l) (fillCells env.faultless l) fun _ => True :=
  AgreeOn.forEach fun _ => (agree_evalKernel hS _ _).bind fun _ _ => agree_mod fun _ hs => ⟨hs.kernel, hs.one, hs.two⟩

theorem agree_populateUpper (d : Bool) :
    AgreeOn (OnRows k S) (populateUpper env d) (populateUpper env.faultless d) fun _ => True :=
  agree_get.bind fun _ _ => AgreeOn.when <| agree_attr.bind fun _ _ =>
    AgreeOn.bind (agree_mod fun _ hs => ⟨hs.kernel, hs.one, hs.two⟩) fun _ _ =>
    (AgreeOn.catchAll (agree_fillCells hS _)).bind fun _ _ => agree_mod fun _ hs => ⟨hs.kernel, hs.one, hs.two⟩

theorem agree_populateLower (l : Bool) :
    AgreeOn (OnRows k S) (populateLower env l) (populateLower env.faultless l) fun _ => True :=
  agree_get.bind fun _ _ => AgreeOn.when <| AgreeOn.bind (AgreeOn.catchAll <| agree_attr.bind fun _ _ => agree_attr.bind
    fun _ _ => AgreeOn.ite (agree_mod fun _ hs => ⟨hs.kernel, hs.one, hs.two⟩) (agree_fillCells hS _))
    fun _ _ => agree_mod fun _ hs => ⟨hs.kernel, hs.one, hs.two⟩

omit hS in
theorem agree_fullMat : AgreeOn (OnRows k S) (fullMat : PyM (KMState K X V) _) fullMat fun _ => True :=
  agree_attr.bind fun _ _ => agree_attr.bind fun _ _ => agree_pure

omit hS in
theorem agree_warn (M : Mat V) :
    AgreeOn (OnRows k S) (warnNonFinite env M) (warnNonFinite env.faultless M) fun _ => True :=
  agree_get.bind fun _ _ => agree_raiseIf

theorem agree_populateFully (d l : Bool) :
    AgreeOn (OnRows k S) (populateFully env d l) (populateFully env.faultless d l) fun _ => True :=
  (agree_populateUpper hS d).bind fun _ _ => (agree_populateLower hS l).bind fun _ _ =>
    AgreeOn.bind (agree_attr.bind fun _ _ => AgreeOn.when <| agree_mod fun _ hs => ⟨hs.kernel, hs.one, hs.two⟩) fun _ _ =>
      agree_fullMat.bind fun _ _ => agree_warn _

theorem agree_ensurePopulated :
    AgreeOn (OnRows k S) (ensurePopulated env) (ensurePopulated env.faultless) fun _ => True :=
  agree_get.bind fun _ _ => AgreeOn.when (agree_populateFully hS _ _)

theorem agree_diagonal : AgreeOn (OnRows k S) (diagonal env) (diagonal env.faultless) fun _ => True :=
  agree_attr.bind fun _ _ => AgreeOn.ite agree_throw (agree_attr.bind fun _ _ => AgreeOn.mapEach fun _ => agree_evalKernel hS _ _)

theorem agree_freshDiagonal {f : KMState K X V → Option (Arr2 X)}
    (hf : ∀ s, OnRows k S s → ∀ A, f s = some A → ∀ i, i < A.nrows → S (A.row i)) :
    AgreeOn (OnRows k S) (freshDiagonal env f) (freshDiagonal env.faultless f) fun _ => True := by
  refine AgreeOn.bind (Holds.agree (Holds.getAttr (R := fun A => ∀ i, i < A.nrows → S (A.row i)) fun s hs A hA => hf s hs A hA))
    fun A hA => ?_
  intro s hs
  rw [get_bind_run, get_bind_run]
  have hfresh : OnRows k S (freshOn s.kernel A s.clock : KMState K X V) := by
    refine ⟨hs.kernel, ?_, ?_⟩
    · intro B hB; cases hB; exact hA
    · intro B hB; cases hB; exact hA
  have h := (agree_diagonal hS (freshOn s.kernel A s.clock) hfresh).1
  dsimp only
  rw [h]
  refine ⟨rfl, ?_⟩
  rw [modify_bind_run]
  exact ⟨⟨hs.kernel, hs.one, hs.two⟩, fun _ _ => trivial⟩

theorem agree_computeNormed (m : String) :
    AgreeOn (OnRows k S) (computeNormed env m) (computeNormed env.faultless m) fun _ => True :=
  agree_attr.bind fun _ _ => AgreeOn.ite ((agree_fullMat).bind fun _ _ => agree_lift.bind fun _ _ => agree_pure) <|
    (agree_freshDiagonal hS fun _ hs => hs.one).bind fun _ _ => (agree_freshDiagonal hS fun _ hs => hs.two).bind fun _ _ =>
      (agree_fullMat).bind fun _ _ => agree_lift.bind fun _ _ => agree_pure

theorem agree_normalize (m : String) :
    AgreeOn (OnRows k S) (normalize env m) (normalize env.faultless m) fun _ => True :=
  (agree_ensurePopulated hS).bind fun _ _ => agree_get.bind fun _ _ => AgreeOn.when <|
    (agree_computeNormed hS m).bind fun _ _ => AgreeOn.bind (agree_mod fun _ hs => ⟨hs.kernel, hs.one, hs.two⟩) fun _ _ => agree_warn _

theorem agree_normedKmVal : AgreeOn (OnRows k S) (normedKmVal env) (normedKmVal env.faultless) fun _ => True :=
  agree_get.bind fun _ _ => (AgreeOn.when (agree_normalize hS _)).bind fun _ _ => agree_attr

theorem agree_full : AgreeOn (OnRows k S) (full env) (full env.faultless) fun _ => True :=
  agree_get.bind fun _ _ => agree_raiseIf.bind fun _ _ => (agree_ensurePopulated hS).bind fun _ _ =>
    AgreeOn.ite (agree_normedKmVal hS) (agree_fullMat)

theorem agree_fullSparse : AgreeOn (OnRows k S) (fullSparse env) (fullSparse env.faultless) fun _ => True :=
  agree_get.bind fun _ _ => AgreeOn.ite (agree_normedKmVal hS) ((agree_populateFully hS _ _).bind fun _ _ => agree_fullMat)

theorem agree_center : AgreeOn (OnRows k S) (center env) (center env.faultless) fun _ => True :=
  agree_attr.bind fun _ _ => agree_raiseIf.bind fun _ _ => (agree_ensurePopulated hS).bind fun _ _ =>
    (agree_fullMat).bind fun _ _ => agree_raiseIf.bind fun _ _ => agree_lift.bind fun _ _ =>
      agree_mod fun _ hs => ⟨hs.kernel, hs.one, hs.two⟩

theorem agree_centered : AgreeOn (OnRows k S) (centered env) (centered env.faultless) fun _ => True :=
  agree_attr.bind fun _ _ => agree_raiseIf.bind fun _ _ => agree_get.bind fun _ _ =>
    (AgreeOn.when (agree_center hS)).bind fun _ _ => agree_attr

theorem agree_frobNormVal : AgreeOn (OnRows k S) (frobNormVal env) (frobNormVal env.faultless) fun _ => True := by
  refine (agree_ensurePopulated hS).bind fun _ _ => agree_get.bind fun _ _ => AgreeOn.bind (AgreeOn.when ?_) fun _ _ => agree_attr
  exact agree_fullMat.bind fun _ _ => agree_lift.bind fun _ _ => agree_mod fun _ hs => ⟨hs.kernel, hs.one, hs.two⟩

theorem agree_getItem (key : Key) : AgreeOn (OnRows k S) (getItem env key) (getItem env.faultless key) fun _ => True := by
  have hk : AgreeOn (OnRows k S) (keyPair key : PyM (KMState K X V) _) (keyPair key) fun _ => True := by
    cases key with
    | linear n => exact agree_attr.bind fun _ _ => agree_lift.bind fun _ _ => agree_pure
    | pair a b => exact agree_pure
    | other => exact agree_throw
  exact hk.bind fun _ _ => agree_get.bind fun _ _ => agree_lift.bind fun _ _ => agree_lift.bind fun _ _ =>
    AgreeOn.ite ((agree_populateFully hS _ _).bind fun _ _ => agree_fullMat)
      ((AgreeOn.mapEach fun _ => agree_evalKernel hS _ _).bind fun _ _ => agree_pure)

omit hS in
theorem agree_size : AgreeOn (OnRows k S) (size : PyM (KMState K X V) _) size fun _ => True := by
  refine agree_attr.bind fun b _ => agree_get.bind fun s _ => AgreeOn.ite ?_ ?_
  · split
    · exact agree_pure
    · exact agree_throw
  · split
    · exact agree_pure
    · exact agree_pure
    · exact agree_throw

theorem agree_exec (op : KMOp X) (hop : op.isAttach = false) :
    AgreeOn (OnRows k S) (exec env op) (exec env.faultless op) fun _ => True := by
  cases op with
  | attach => simp [KMOp.isAttach] at hop
  | setAttr n v => exact AgreeOn.bind (agree_mod fun _ hs => ⟨hs.kernel, hs.one, hs.two⟩) fun _ _ => agree_pure
  | getAttr n v => exact (agree_get.bind fun _ _ => agree_pure).bind fun _ _ => agree_pure
  | attributes => exact agree_get.bind fun _ _ => agree_pure
  | numSamples => exact agree_get.bind fun _ _ => agree_pure
  | shape => exact agree_attr.bind fun _ _ => agree_pure
  | size => exact (agree_size).bind fun _ _ => agree_pure
  | full => exact (agree_full hS).bind fun _ _ => agree_pure
  | fullSparse => exact (agree_fullSparse hS).bind fun _ _ => agree_pure
  | center => exact (agree_center hS).bind fun _ _ => agree_pure
  | centered => exact (agree_centered hS).bind fun _ _ => agree_pure
  | normalize m => exact (agree_normalize hS m).bind fun _ _ => agree_pure
  | normedKm => exact (agree_normedKmVal hS).bind fun _ _ => agree_pure
  | frobNorm => exact (agree_frobNormVal hS).bind fun _ _ => agree_pure
  | diagonal => exact (agree_diagonal hS).bind fun _ _ => agree_pure
  | getItem key => exact (agree_getItem hS key).bind fun _ _ => agree_pure

end

variable {norm : Bool} {a : Attachment X} {P : KMOp X → Prop} {s : KMState K X V}

theorem NoFaults.on (hf : NoFaults env) (k : K) (a : Attachment X) : NoFaultsOn env k a := fun t x y _ _ => hf t k x y

theorem Since.onRows (h : Since env k norm a P s) : OnRows k a.IsRow s := by
  refine ⟨h.kernel, ?_, ?_⟩
  · intro A hA i hi
    rw [h.attachedTo.sample] at hA
    injection hA with hA
    subst hA
    exact Or.inl ⟨i, hi, rfl⟩
  · intro A hA i hi
    rw [h.attachedTo.sampleTwo] at hA
    injection hA with hA
    subst hA
    rcases h2 : a.two with _ | B
    · rw [h2] at hi; exact Or.inl ⟨i, hi, by rw [Option.getD_none]⟩
    · rw [h2] at hi; exact Or.inr ⟨B, i, h2, hi, by rw [Option.getD_some]⟩

theorem Since.exec_faultless (hf : NoFaultsOn env k a) (h : Since env k norm a P s) {op : KMOp X} (hop : op.isAttach = false) :
    exec env op s = exec env.faultless op s :=
  (agree_exec hf op hop s h.onRows).1

theorem Since.quiet (hq : Quiet env k a) (h : Since env k norm a P s) : Quiet env.faultless s.kernel a := by
  rw [h.kernel]
  exact hq

theorem Since.quietNormed (hq : QuietNormed env k a) (h : Since env k norm a P s) : QuietNormed env.faultless s.kernel a := by
  rw [h.kernel]
  exact hq

theorem Since.goodOn (hf : NoFaultsOn env k a) (h : Since env k norm a P s) (sp : Lv)
    (hsp : sp.sp = false → ∀ op, P op → ¬ op.MayGoSparse norm a.nrows a.ncols)
    (hup : sp.up = false → norm = true ∨ ∀ op, P op → op ≠ .fullSparse) : Good env.faultless a sp s := by
  induction h with
  | attached hr ha h =>
    rw [exec_attach_ok ha h]
    exact good_attachedState _ _ _ a _ _ sp
  | call op hs ha hP ih =>
    rw [hs.exec_faultless hf ha]
    refine ih.exec (noFaults_faultless env) op ha (Lv.Le.refl _) (fun h0 => ?_) fun h0 => ?_
    · rw [hs.keepNormed]; exact hsp h0 op hP
    · rw [hs.keepNormed]
      exact (hup h0).imp id fun h => h op hP

theorem Since.goodOnAny (hf : NoFaultsOn env k a) (h : Since env k norm a P s) : Good env.faultless a ⟨true, true⟩ s :=
  h.goodOn hf _ (by simp) (by simp)

theorem Since.goodOnDense (hf : NoFaultsOn env k a) (h : SinceDense env k norm a s) : Good env.faultless a ⟨false, false⟩ s := by
  refine h.goodOn hf _ (fun _ _ h => h) fun _ => ?_
  cases norm
  · right
    rintro op h rfl
    exact h rfl
  · exact Or.inl rfl

end KMState
end KMethods
