import Verif.Spec.Warnings
import Verif.Lemmas.Leaf
import Verif.Lemmas.Sampling
/-!
# Lemmas on warnings
-/
namespace KMethods

namespace PyM
variable {σ W α β ι : Type}

theorem quietly_bind (m : PyM σ α) (f : α → PyM σ β) : (quietly (m >>= f) : PyM (σ × List W) β) = quietly m >>= fun x => quietly (f x) := by
  funext s
  show _ = (quietly m >>= fun x => quietly (f x)) s
  rw [bind_run]
  unfold quietly
  rw [bind_run]
  rcases m s.1 with ⟨e | x, s'⟩ <;> rfl

/-- without the log, the computation is the given one -/
def Proj (m' : PyM (σ × List W) α) (m : PyM σ α) : Prop := ∀ s w, (m' (s, w)).1 = (m s).1 ∧ (m' (s, w)).2.1 = (m s).2

theorem Proj.quietly (m : PyM σ α) : Proj (quietly m : PyM (σ × List W) α) m := fun _ _ => ⟨rfl, rfl⟩

theorem Proj.bind {m' : PyM (σ × List W) α} {m : PyM σ α} {f' : α → PyM (σ × List W) β} {f : α → PyM σ β} (h : Proj m' m) (hf : ∀ x, Proj (f' x) (f x)) :
    Proj (m' >>= f') (m >>= f) := by
  intro s w
  obtain ⟨h1, h2⟩ := h s w
  rw [bind_run, bind_run]
  rcases e : m' (s, w) with ⟨_ | _, t, w'⟩ <;> rcases e' : m s with ⟨_ | _, t'⟩ <;> rw [e] at h1 h2 <;> rw [e'] at h1 h2
  · simp only at h1 h2; injection h1 with h1; subst h1; subst h2; exact ⟨rfl, rfl⟩
  · cases h1
  · cases h1
  · simp only at h1 h2; injection h1 with h1; subst h1; subst h2; exact hf _ _ _

theorem Proj.get {f' : σ × List W → PyM (σ × List W) α} {f : σ → PyM σ α} (h : ∀ s w, Proj (f' (s, w)) (f s)) : Proj (PyM.get >>= f') (PyM.get >>= f) :=
  fun s w => h s w s w

theorem Proj.pure (x : α) : Proj (Pure.pure x : PyM (σ × List W) α) (Pure.pure x) := fun _ _ => ⟨rfl, rfl⟩

theorem Proj.throw (e : PyErr) : Proj (PyM.throw e : PyM (σ × List W) α) (PyM.throw e) := fun _ _ => ⟨rfl, rfl⟩

theorem Proj.when {c : Bool} {m' : PyM (σ × List W) Unit} {m : PyM σ Unit} (h : Proj m' m) : Proj (when c m') (when c m) := by
  cases c
  · exact Proj.pure _
  · exact h

theorem Proj.ite {c : Prop} [Decidable c] {m' n' : PyM (σ × List W) α} {m n : PyM σ α} (h : Proj m' m) (h' : Proj n' n) :
    Proj (if c then m' else n') (if c then m else n) := by
  split
  · exact h
  · exact h'

theorem Proj.forEach {f' : ι → PyM (σ × List W) Unit} {f : ι → PyM σ Unit} (l : List ι) (h : ∀ x, Proj (f' x) (f x)) : Proj (forEach l f') (forEach l f) := by
  induction l with
  | nil => exact Proj.pure _
  | cons x l ih => exact (h x).bind fun _ => ih

/-- entries added to the log satisfy `P` -/
def Logs (P : W → Prop) (m : PyM (σ × List W) α) : Prop := ∀ s w, ∃ new, (m (s, w)).2.2 = w ++ new ∧ ∀ x ∈ new, P x

theorem Logs.quietly {P : W → Prop} (m : PyM σ α) : Logs P (quietly m) := fun _ w => ⟨[], by simp [PyM.quietly], by simp⟩

theorem Logs.pure {P : W → Prop} (x : α) : Logs P (Pure.pure x : PyM (σ × List W) α) := fun _ w => ⟨[], by show w = _; simp, by simp⟩

theorem Logs.bind {P : W → Prop} {m : PyM (σ × List W) α} {f : α → PyM (σ × List W) β} (h : Logs P m) (hf : ∀ x, Logs P (f x)) : Logs P (m >>= f) := by
  intro s w
  obtain ⟨l, h1, h2⟩ := h s w
  rw [bind_run]
  rcases e : m (s, w) with ⟨_ | x, t, w'⟩ <;> rw [e] at h1
  · exact ⟨l, h1, h2⟩
  · obtain ⟨l', h3, h4⟩ := hf x t w'
    refine ⟨l ++ l', ?_, fun y hy => (List.mem_append.1 hy).elim (h2 y) (h4 y)⟩
    simp only at h1 ⊢
    rw [h3, h1, List.append_assoc]

theorem Logs.get {P : W → Prop} {f : σ × List W → PyM (σ × List W) α} (h : ∀ s, Logs P (f s)) : Logs P (PyM.get >>= f) := fun s w => h (s, w) s w

theorem Logs.when {P : W → Prop} {c : Bool} {m : PyM (σ × List W) Unit} (h : Logs P m) : Logs P (when c m) := by
  cases c
  · exact Logs.pure _
  · exact h

theorem Logs.ite {P : W → Prop} {c : Prop} [Decidable c] {m n : PyM (σ × List W) α} (h : Logs P m) (h' : Logs P n) : Logs P (if c then m else n) := by
  split
  · exact h
  · exact h'

theorem proj_orWarn (m : PyM σ α) (w : W) : Proj (orWarn m w) (ignoreErrors m) := by
  intro s l
  unfold orWarn ignoreErrors
  rcases e : m s with ⟨_ | _, t⟩ <;> simp

end PyM

namespace KMState
variable {K X V α β : Type}
open PyM

section
variable (env : Env K X V)

theorem proj_warn (b : Bool) (M : Mat V) : Proj (warnNonFiniteW env b M) (warnNonFinite env M) := by
  intro s w
  show ((quietly (warnNonFinite env M) >>= _ : PyM (LogSt K X V) Unit) (s, w)).1 = _ ∧ ((quietly (warnNonFinite env M) >>= _ : PyM (LogSt K X V) Unit) (s, w)).2.1 = _
  rw [bind_run]
  unfold quietly
  rcases warnNonFinite env M s with ⟨_ | _, t⟩
  · exact ⟨rfl, rfl⟩
  · rcases env.ops.nonFinite M <;> exact ⟨rfl, rfl⟩

theorem proj_populateFully (d l : Bool) : Proj (populateFullyW env d l) (populateFully env d l) :=
  (Proj.quietly _).bind fun _ => (Proj.quietly _).bind fun _ => (Proj.quietly _).bind fun _ => (Proj.quietly _).bind fun _ => proj_warn env _ _

theorem proj_ensurePopulated : Proj (ensurePopulatedW env) (ensurePopulated env) := Proj.get fun _ _ => Proj.when (proj_populateFully env _ _)

theorem proj_normalize (m : String) : Proj (normalizeW env m) (normalize env m) :=
  (proj_ensurePopulated env).bind fun _ => Proj.get fun _ _ => Proj.when <| (Proj.quietly _).bind fun _ => (Proj.quietly _).bind fun _ => proj_warn env _ _

theorem proj_normedKmVal : Proj (normedKmValW env) (normedKmVal env) :=
  Proj.get fun _ _ => (Proj.when (proj_normalize env _)).bind fun _ => Proj.quietly _

theorem proj_full : Proj (fullW env) (full env) :=
  Proj.get fun _ _ => (Proj.quietly _).bind fun _ => (proj_ensurePopulated env).bind fun _ => Proj.ite (proj_normedKmVal env) (Proj.quietly _)

theorem proj_fullSparse : Proj (fullSparseW env) (fullSparse env) :=
  Proj.get fun _ _ => Proj.ite (proj_normedKmVal env) ((proj_populateFully env _ _).bind fun _ => Proj.quietly _)

theorem proj_center : Proj (centerW env) (center env) :=
  (Proj.quietly _).bind fun _ => (Proj.quietly _).bind fun _ => (proj_ensurePopulated env).bind fun _ => (Proj.quietly _).bind fun _ =>
    (Proj.quietly _).bind fun _ => (Proj.quietly _).bind fun _ => Proj.quietly _

theorem proj_centered : Proj (centeredW env) (centered env) :=
  (Proj.quietly _).bind fun _ => (Proj.quietly _).bind fun _ => Proj.get fun _ _ => (Proj.when (proj_center env)).bind fun _ => Proj.quietly _

theorem proj_frobNormVal : Proj (frobNormValW env) (frobNormVal env) := (proj_ensurePopulated env).bind fun _ => Proj.quietly _

theorem proj_getItem (k : Key) : Proj (getItemW env k) (getItem env k) :=
  (Proj.quietly _).bind fun _ => Proj.get fun _ _ => (Proj.quietly _).bind fun _ => (Proj.quietly _).bind fun _ =>
    Proj.ite ((proj_populateFully env _ _).bind fun _ => Proj.quietly _) (Proj.quietly _)

theorem proj_exec (op : KMOp X) : Proj (execW env op) (exec env op) := by
  cases op with
  | full => exact (proj_full env).bind fun _ => Proj.pure _
  | fullSparse => exact (proj_fullSparse env).bind fun _ => Proj.pure _
  | center => exact (proj_center env).bind fun _ => Proj.pure _
  | centered => exact (proj_centered env).bind fun _ => Proj.pure _
  | normalize m => exact (proj_normalize env m).bind fun _ => Proj.pure _
  | normedKm => exact (proj_normedKmVal env).bind fun _ => Proj.pure _
  | frobNorm => exact (proj_frobNormVal env).bind fun _ => Proj.pure _
  | getItem k => exact (proj_getItem env k).bind fun _ => Proj.pure _
  | _ => exact Proj.quietly _

/-- the announced matrix does contain NaN or infinite values -/
abbrev IsBad (x : Announced V) : Prop := env.ops.nonFinite x.mat = true

theorem logs_warn (b : Bool) (M : Mat V) : Logs (IsBad env) (warnNonFiniteW env b M : PyM (LogSt K X V) Unit) := by
  refine (Logs.quietly _).bind fun _ => ?_
  rcases h : env.ops.nonFinite M
  · exact Logs.pure _
  · exact fun s w => ⟨[⟨b, M⟩], rfl, fun x hx => by rw [List.mem_singleton.1 hx]; exact h⟩

theorem logs_populateFully (d l : Bool) : Logs (IsBad env) (populateFullyW env d l) :=
  (Logs.quietly _).bind fun _ => (Logs.quietly _).bind fun _ => (Logs.quietly _).bind fun _ => (Logs.quietly _).bind fun _ => logs_warn env _ _

theorem logs_ensurePopulated : Logs (IsBad env) (ensurePopulatedW env) := Logs.get fun _ => Logs.when (logs_populateFully env _ _)

theorem logs_normalize (m : String) : Logs (IsBad env) (normalizeW env m) :=
  (logs_ensurePopulated env).bind fun _ => Logs.get fun _ => Logs.when <| (Logs.quietly _).bind fun _ => (Logs.quietly _).bind fun _ => logs_warn env _ _

theorem logs_normedKmVal : Logs (IsBad env) (normedKmValW env) :=
  Logs.get fun _ => (Logs.when (logs_normalize env _)).bind fun _ => Logs.quietly _

theorem logs_center : Logs (IsBad env) (centerW env) :=
  (Logs.quietly _).bind fun _ => (Logs.quietly _).bind fun _ => (logs_ensurePopulated env).bind fun _ => (Logs.quietly _).bind fun _ =>
    (Logs.quietly _).bind fun _ => (Logs.quietly _).bind fun _ => Logs.quietly _

theorem logs_exec (op : KMOp X) : Logs (IsBad env) (execW env op) := by
  cases op with
  | full =>
    exact Logs.bind (Logs.get fun _ => (Logs.quietly _).bind fun _ => (logs_ensurePopulated env).bind fun _ => Logs.ite (logs_normedKmVal env) (Logs.quietly _))
      fun _ => Logs.pure _
  | fullSparse => exact Logs.bind (Logs.get fun _ => Logs.ite (logs_normedKmVal env) ((logs_populateFully env _ _).bind fun _ => Logs.quietly _)) fun _ => Logs.pure _
  | center => exact (logs_center env).bind fun _ => Logs.pure _
  | centered =>
    exact Logs.bind ((Logs.quietly _).bind fun _ => (Logs.quietly _).bind fun _ => Logs.get fun _ => (Logs.when (logs_center env)).bind fun _ => Logs.quietly _)
      fun _ => Logs.pure _
  | normalize m => exact (logs_normalize env m).bind fun _ => Logs.pure _
  | normedKm => exact (logs_normedKmVal env).bind fun _ => Logs.pure _
  | frobNorm => exact Logs.bind ((logs_ensurePopulated env).bind fun _ => Logs.quietly _) fun _ => Logs.pure _
  | getItem k =>
    exact Logs.bind ((Logs.quietly _).bind fun _ => Logs.get fun _ => (Logs.quietly _).bind fun _ => (Logs.quietly _).bind fun _ =>
      Logs.ite ((logs_populateFully env _ _).bind fun _ => Logs.quietly _) (Logs.quietly _)) fun _ => Logs.pure _
  | _ => exact Logs.quietly _

end

/-! ### Without warnings, cached matrices are finite -/

/-- the stored matrix, if any, has no NaN or infinite values -/
def FinFull (env : Env K X V) (s : KMState K X V) : Prop :=
  ∀ f sh, s.fullKm = some f → s.shape = some sh → env.ops.nonFinite (Mat.ofCells sh.1 sh.2 f.cell) = false

/-- the stored normalised matrix, if any, has no NaN or infinite values -/
def FinNormed (env : Env K X V) (s : KMState K X V) : Prop := ∀ N, s.normedKm = some N → env.ops.nonFinite N.2 = false

/-- what does not depend on the stored matrix -/
structure Base (env : Env K X V) (k : K) (a : Attachment X) (s : KMState K X V) : Prop where
  shape : s.shape = some (a.nrows, a.ncols)
  two : s.twoSamples = some a.two.isSome
  kernel : s.kernel = k
  normed : s.isNormed = true → FinNormed env s

/-- what holds in silent histories -/
structure Clear (env : Env K X V) (k : K) (a : Attachment X) (s : KMState K X V) : Prop extends Base env k a s where
  full : s.populated = true → FinFull env s

variable {env : Env K X V} {k : K} {a : Attachment X}

theorem Base.same {s s' : KMState K X V} (h : Base env k a s) (hs : SameBut s s') : Base env k a s' := by
  obtain ⟨c, n, u, t, fk, rfl⟩ := hs
  exact ⟨h.shape, h.two, h.kernel, h.normed⟩

theorem Clear.same {s s' : KMState K X V} (h : Clear env k a s) (hs : SameBut s s') (hf : s'.fullKm = s.fullKm) : Clear env k a s' := by
  refine ⟨h.toBase.same hs, ?_⟩
  obtain ⟨c, n, u, t, fk, rfl⟩ := hs
  obtain rfl : fk = s.fullKm := hf
  exact h.full

theorem clear_eval (i j : Nat) : Holds (Clear env k a) (evalKernel env i j) fun _ => True := fun s hs =>
  ⟨hs.same (evalKernel_same env s i j).1 (evalKernel_same env s i j).2, fun _ _ => trivial⟩

theorem base_fill (b : Bool) (l : List (Nat × Nat)) : Holds (fun s => Base env k a s ∧ s.populated = b) (fillCells env l) fun _ => True := by
  refine Holds.forEach fun p => Holds.bind (R := fun _ => True) (fun s hs => ⟨⟨hs.1.same (evalKernel_same env s _ _).1, ?_⟩, fun _ _ => trivial⟩)
    fun v _ => Holds.modify fun s hs => ⟨⟨hs.1.shape, hs.1.two, hs.1.kernel, hs.1.normed⟩, hs.2⟩
  obtain ⟨c, n, u, t, fk, e⟩ := (evalKernel_same env s p.1 p.2).1
  rw [e]
  exact hs.2

/-- the failure of the computation, as reported with two samples -/
def TwoFail (a : Attachment X) (r : Except PyErr α) : Prop := a.two.isSome = true ∧ r = .error .runtimeError

theorem clear_upper (d : Bool) {s : KMState K X V} (h : Clear env k a s) :
    (∀ e s', populateUpper env d s = (.error e, s') → Clear env k a s') ∧ ∀ s', populateUpper env d s = (.ok (), s') → Base env k a s' := by
  unfold populateUpper
  rw [get_bind_run]
  by_cases hc : (!s.populated && s.fullKm.isNone) = true
  · rw [hc, when_true, bind_ok (getAttr_run_some (fun s : KMState K X V => s.shape) s _ h.shape), modify_bind_run, bind_run, catchAll_run]
    have hp : s.populated = false := by
      rcases hp : s.populated
      · rfl
      · rw [hp] at hc; simp at hc
    set s0 : KMState K X V := { s with fullKm := some (if !d then ⟨.sparse, fun _ _ => env.ops.zero⟩ else ⟨.dense, fun _ _ => env.ops.nan⟩) } with hs0
    have h0 : Base env k a s0 ∧ s0.populated = false := ⟨⟨h.shape, h.two, h.kernel, h.normed⟩, hp⟩
    have h1 := (base_fill false (upperPairs a.nrows a.ncols) s0 h0).1
    rcases hf : fillCells env (upperPairs a.nrows a.ncols) s0 with ⟨e | ⟨⟩, t⟩
    · rw [hf] at h1
      simp only
      refine ⟨fun e s' he => ?_, fun s' he => (by injection he with he; cases he)⟩
      injection he with _ he
      rw [← he]
      exact ⟨h1.1, fun hp' => by rw [h1.2] at hp'; cases hp'⟩
    · rw [hf] at h1
      simp only
      refine ⟨fun e s' he => (by injection he with he; cases he), fun s' he => ?_⟩
      injection he with _ he
      rw [← he]
      exact ⟨h1.1.shape, h1.1.two, h1.1.kernel, h1.1.normed⟩
  · rw [show (!s.populated && s.fullKm.isNone) = false from Bool.eq_false_iff.2 hc, when_false]
    refine ⟨fun e s' he => ?_, fun s' he => ?_⟩
    · injection he with he; cases he
    · injection he with _ he
      rw [← he]; exact h.toBase

theorem base_lower (l : Bool) {s : KMState K X V} (h : Base env k a s) :
    (∀ e s', populateLower env l s = (.error e, s') → TwoFail a (.error e : Except PyErr Unit)) ∧ ∀ s', populateLower env l s = (.ok (), s') → Base env k a s' := by
  unfold populateLower
  rw [get_bind_run]
  by_cases hc : (l && !s.lowerFilled) = true
  · rw [hc, when_true, bind_run, catchAll_run, bind_ok (getAttr_run_some (fun s : KMState K X V => s.shape) s _ h.shape),
      bind_ok (getAttr_run_some (fun s : KMState K X V => s.twoSamples) s _ h.two)]
    rcases ht : a.two with _ | b
    · have hsq : (!(none : Option (Arr2 X)).isSome && a.nrows == a.ncols) = true := by
        simp [Attachment.nrows, Attachment.ncols, ht]
      rw [if_pos hsq]
      refine ⟨fun e s' he => (by injection he with he; cases he), fun s' he => ?_⟩
      injection he with _ he
      rw [← he]
      exact ⟨h.shape, h.two, h.kernel, h.normed⟩
    · have hsq : ¬ (!(some b).isSome && a.nrows == a.ncols) = true := by simp
      rw [if_neg hsq]
      have h1 := (base_fill s.populated (lowerPairs a.nrows a.ncols) s ⟨h, rfl⟩).1
      rcases hf : fillCells env (lowerPairs a.nrows a.ncols) s with ⟨e | ⟨⟩, t⟩
      · simp only
        refine ⟨fun e s' he => ?_, fun s' he => (by injection he with he; cases he)⟩
        injection he with he
        exact ⟨by simp [ht], he.symm⟩
      · rw [hf] at h1
        simp only
        refine ⟨fun e s' he => (by injection he with he; cases he), fun s' he => ?_⟩
        injection he with _ he
        rw [← he]
        exact ⟨h1.1.shape, h1.1.two, h1.1.kernel, h1.1.normed⟩
  · rw [show (l && !s.lowerFilled) = false from Bool.eq_false_iff.2 hc, when_false]
    refine ⟨fun e s' he => (by injection he with he; cases he), fun s' he => ?_⟩
    injection he with _ he
    rw [← he]; exact h

theorem base_densify (d : Bool) {s : KMState K X V} (h : Base env k a s) :
    (∀ e s', densify d s = (.error e, s') → Clear env k a s') ∧ ∀ s', densify d s = (.ok (), s') → Base env k a s' := by
  unfold densify
  rw [bind_run, getAttr_run]
  rcases hf : s.fullKm with _ | f
  · refine ⟨fun e s' he => ?_, fun s' he => (by injection he with he; cases he)⟩
    injection he with _ he
    rw [← he]
    exact ⟨h, fun _ f sh hf' => by rw [hf] at hf'; cases hf'⟩
  · simp only
    rcases (f.fmt == .sparse && d)
    · refine ⟨fun e s' he => (by injection he with he; cases he), fun s' he => ?_⟩
      injection he with _ he
      rw [← he]; exact h
    · refine ⟨fun e s' he => (by injection he with he; cases he), fun s' he => ?_⟩
      injection he with _ he
      rw [← he]
      exact ⟨h.shape, h.two, h.kernel, h.normed⟩

theorem fullMat_cases (s : KMState K X V) :
    (∃ e, fullMat s = (.error e, s) ∧ (s.fullKm = none ∨ s.shape = none)) ∨
    ∃ f sh, s.fullKm = some f ∧ s.shape = some sh ∧ fullMat s = (.ok (f.fmt, Mat.ofCells sh.1 sh.2 f.cell), s) := by
  unfold fullMat
  rw [bind_run, getAttr_run]
  rcases hf : s.fullKm with _ | f
  · exact .inl ⟨_, rfl, .inl rfl⟩
  · simp only
    rw [bind_run, getAttr_run]
    rcases hs : s.shape with _ | sh
    · exact .inl ⟨_, rfl, .inr rfl⟩
    · exact .inr ⟨f, sh, rfl, rfl, rfl⟩

variable (env k a) in
/-- from a clear state, without warnings and without a failure reported for two samples, the state is clear; results satisfy `R` -/
def Tri (P : KMState K X V → Prop) (m : PyM (LogSt K X V) α) (R : α → KMState K X V → Prop) : Prop :=
  ∀ s w, (w = [] → Clear env k a s ∧ P s) → ¬ TwoFail a (m (s, w)).1 → (m (s, w)).2.2 = [] →
    Clear env k a (m (s, w)).2.1 ∧ ∀ x, (m (s, w)).1 = .ok x → R x (m (s, w)).2.1

theorem Tri.bind {P : KMState K X V → Prop} {m : PyM (LogSt K X V) α} {R : α → KMState K X V → Prop} {f : α → PyM (LogSt K X V) β}
    {R' : β → KMState K X V → Prop} (h : Tri env k a P m R) (hf : ∀ x, Tri env k a (R x) (f x) R') : Tri env k a P (m >>= f) R' := by
  intro s w hs h1 h2
  have h0 := h s w hs
  rw [bind_run] at h1 h2 ⊢
  rcases e : m (s, w) with ⟨err | x, t, w'⟩ <;> rw [e] at h0 h1 h2
  · exact ⟨(h0 (show ¬ TwoFail a (.error err) from fun h => h1 ⟨h.1, by injection h.2 with h; rw [h]⟩) h2).1, fun x hx => by cases hx⟩
  · refine hf x t w' (fun hw => ?_) h1 h2
    have := h0 (by rintro ⟨_, h⟩; cases h) hw
    exact ⟨this.1, this.2 x rfl⟩

theorem Tri.quietly {P : KMState K X V → Prop} {m : PyM (KMState K X V) α} {R : α → KMState K X V → Prop}
    (h : ∀ s, Clear env k a s → P s → Clear env k a (m s).2 ∧ ∀ x, (m s).1 = .ok x → R x (m s).2) : Tri env k a P (quietly m) R := by
  intro s w hs _ h2
  obtain ⟨h3, h4⟩ := hs h2
  exact h s h3 h4

theorem Tri.holds {P : KMState K X V → Prop} {m : PyM (KMState K X V) α} {R : α → Prop} (h : Holds (Clear env k a) m R) :
    Tri env k a P (PyM.quietly m) fun x _ => R x := Tri.quietly fun s hs _ => h s hs

theorem Tri.get {P : KMState K X V → Prop} {f : LogSt K X V → PyM (LogSt K X V) α} {R : α → KMState K X V → Prop}
    (h : ∀ s w, Tri env k a (fun t => t = s ∧ P t) (f (s, w)) R) : Tri env k a P (PyM.get >>= f) R :=
  fun s w hs h1 h2 => h s w s w (fun hw => ⟨(hs hw).1, rfl, (hs hw).2⟩) h1 h2

theorem Tri.pure {P : KMState K X V → Prop} {x : α} {R : α → KMState K X V → Prop} (h : ∀ s, Clear env k a s → P s → R x s) :
    Tri env k a P (Pure.pure x) R := by
  intro s w hs _ h2
  obtain ⟨h3, h4⟩ := hs h2
  exact ⟨h3, fun y hy => by injection hy with hy; subst hy; exact h s h3 h4⟩

theorem Tri.weaken {P P' : KMState K X V → Prop} {m : PyM (LogSt K X V) α} {R R' : α → KMState K X V → Prop} (h : Tri env k a P m R)
    (hP : ∀ s, P' s → P s) (hR : ∀ x s, R x s → R' x s) : Tri env k a P' m R' := by
  intro s w hs h1 h2
  obtain ⟨h3, h4⟩ := h s w (fun hw => ⟨(hs hw).1, hP _ (hs hw).2⟩) h1 h2
  exact ⟨h3, fun x hx => hR _ _ (h4 x hx)⟩

theorem Tri.ite {c : Prop} [Decidable c] {P : KMState K X V → Prop} {m m' : PyM (LogSt K X V) α} {R : α → KMState K X V → Prop}
    (h : Tri env k a P m R) (h' : Tri env k a P m' R) : Tri env k a P (if c then m else m') R := by
  split
  · exact h
  · exact h'

theorem warnW_run (hk : env.fmtRaises k = false) (b : Bool) (M : Mat V) (s : KMState K X V) (hs : s.kernel = k) (w : List (Announced V)) :
    warnNonFiniteW env b M (s, w) = (.ok (), (s, if env.ops.nonFinite M = true then w ++ [⟨b, M⟩] else w)) := by
  have e : warnNonFinite env M s = (.ok (), s) := by
    unfold warnNonFinite
    rw [get_bind_run, hs, hk]
    rfl
  show (PyM.quietly (warnNonFinite env M) >>= _ : PyM (LogSt K X V) Unit) (s, w) = _
  rw [bind_ok (show PyM.quietly (warnNonFinite env M) (s, w) = (.ok (), (s, w)) by unfold PyM.quietly; rw [e])]
  rcases env.ops.nonFinite M <;> rfl

theorem tri_populateFully (hk : env.fmtRaises k = false) (d l : Bool) {P : KMState K X V → Prop} :
    Tri env k a P (populateFullyW env d l) fun _ s => FinFull env s := by
  intro s w hs h1 h2
  have hw : w = [] := by
    obtain ⟨new, e, -⟩ := logs_populateFully env d l s w
    rw [h2] at e
    exact (List.append_eq_nil_iff.1 e.symm).1
  subst hw
  have h := (hs rfl).1
  unfold populateFullyW at h1 h2 ⊢
  obtain ⟨a1, a2⟩ := clear_upper d h
  rcases e1 : populateUpper env d s with ⟨e | ⟨⟩, s1⟩
  · rw [bind_error (show PyM.quietly (populateUpper env d) (s, []) = (.error e, (s1, [])) by unfold PyM.quietly; rw [e1])]
    exact ⟨a1 _ _ e1, fun x hx => by cases hx⟩
  have q1 : PyM.quietly (populateUpper env d) (s, []) = (.ok (), (s1, ([] : List (Announced V)))) := by unfold PyM.quietly; rw [e1]
  rw [bind_ok q1] at h1 h2 ⊢
  have b1 := a2 _ e1
  obtain ⟨c1, c2⟩ := base_lower l b1
  rcases e2 : populateLower env l s1 with ⟨e | ⟨⟩, s2⟩
  · rw [bind_error (show PyM.quietly (populateLower env l) (s1, []) = (.error e, (s2, [])) by unfold PyM.quietly; rw [e2])] at h1
    exact absurd (c1 _ _ e2) h1
  have q2 : PyM.quietly (populateLower env l) (s1, []) = (.ok (), (s2, ([] : List (Announced V)))) := by unfold PyM.quietly; rw [e2]
  rw [bind_ok q2] at h1 h2 ⊢
  have b2 := c2 _ e2
  obtain ⟨d1, d2⟩ := base_densify d b2
  rcases e3 : densify d s2 with ⟨e | ⟨⟩, s3⟩
  · rw [bind_error (show PyM.quietly (densify d) (s2, []) = (.error e, (s3, [])) by unfold PyM.quietly; rw [e3])]
    exact ⟨d1 _ _ e3, fun x hx => by cases hx⟩
  have q3 : PyM.quietly (densify d) (s2, []) = (.ok (), (s3, ([] : List (Announced V)))) := by unfold PyM.quietly; rw [e3]
  rw [bind_ok q3] at h1 h2 ⊢
  have b3 := d2 _ e3
  rcases fullMat_cases s3 with ⟨e, e4, hn⟩ | ⟨f, sh, hf, hsh, e4⟩
  · rw [bind_error (show PyM.quietly fullMat (s3, []) = (.error e, (s3, [])) by unfold PyM.quietly; rw [e4])]
    refine ⟨⟨b3, fun _ f sh hf hsh => ?_⟩, fun x hx => by cases hx⟩
    rcases hn with hn | hn
    · rw [hn] at hf; cases hf
    · rw [hn] at hsh; cases hsh
  have q4 : PyM.quietly fullMat (s3, []) = (.ok (f.fmt, Mat.ofCells sh.1 sh.2 f.cell), (s3, ([] : List (Announced V)))) := by unfold PyM.quietly; rw [e4]
  rw [bind_ok q4] at h1 h2 ⊢
  rw [warnW_run hk _ _ _ b3.kernel] at h1 h2 ⊢
  have fin : env.ops.nonFinite (Mat.ofCells sh.1 sh.2 f.cell) = false := by
    rcases hb : env.ops.nonFinite (Mat.ofCells sh.1 sh.2 f.cell)
    · rfl
    · simp [hb] at h2
  have ff : FinFull env s3 := fun f' sh' hf' hsh' => by
    rw [hf] at hf'; rw [hsh] at hsh'
    injection hf' with hf'; injection hsh' with hsh'
    subst hf'; subst hsh'
    exact fin
  exact ⟨⟨b3, fun _ => ff⟩, fun _ _ => ff⟩

section
variable (hk : env.fmtRaises k = false)
include hk

theorem tri_ensurePopulated {P : KMState K X V → Prop} : Tri env k a P (ensurePopulatedW env) fun _ s => FinFull env s := by
  refine Tri.get fun s w => ?_
  rcases hp : s.populated
  · exact tri_populateFully hk true true
  · refine Tri.pure fun t ht hP => ?_
    obtain ⟨rfl, -⟩ := hP
    exact ht.full hp

omit hk in
theorem clear_computeNormed (m : String) : Holds (Clear env k a) (computeNormed env m) fun _ => True := by
  have fm : Holds (Clear env k a) (fullMat : PyM (KMState K X V) _) fun _ => True := Leaf.fullMat
  have fd : ∀ f : KMState K X V → Option (Arr2 X), Holds (Clear env k a) (freshDiagonal env f) fun _ => True := fun f =>
    (Leaf.attr _).bind fun _ _ => Holds.get.bind fun _ _ =>
      (Holds.modify fun _ hs => ⟨⟨hs.shape, hs.two, hs.kernel, hs.normed⟩, hs.full⟩).bind fun _ _ => Holds.lift
  exact (Leaf.attr _).bind fun _ _ => Holds.ite (fm.bind fun _ _ => Holds.lift.bind fun _ _ => Holds.pure trivial)
    ((fd _).bind fun _ _ => (fd _).bind fun _ _ => fm.bind fun _ _ => Holds.lift.bind fun _ _ => Holds.pure trivial)

theorem tri_storeNormed (N : Fmt × Mat V) {P : KMState K X V → Prop} :
    Tri env k a P (PyM.quietly (PyM.modify fun s => { s with normedKm := some N, isNormed := true }) >>= fun _ => warnNonFiniteW env true N.2)
      fun _ s => FinNormed env s := by
  intro s w hs h1 h2
  have q : PyM.quietly (PyM.modify fun s : KMState K X V => { s with normedKm := some N, isNormed := true }) (s, w) =
      (.ok (), ({ s with normedKm := some N, isNormed := true }, w)) := rfl
  have hw : w = [] := by
    obtain ⟨new, e, -⟩ := ((Logs.quietly _).bind fun _ => logs_warn env true N.2 :
      Logs (IsBad env) (PyM.quietly (PyM.modify fun s : KMState K X V => { s with normedKm := some N, isNormed := true }) >>= fun _ => warnNonFiniteW env true N.2)) s w
    rw [h2] at e
    exact (List.append_eq_nil_iff.1 e.symm).1
  have h := (hs hw).1
  rw [bind_ok q, warnW_run hk _ _ { s with normedKm := some N, isNormed := true } h.kernel] at h2 ⊢
  have fin : env.ops.nonFinite N.2 = false := by
    rcases hb : env.ops.nonFinite N.2
    · rfl
    · simp [hb] at h2
  have fn : FinNormed env { s with normedKm := some N, isNormed := true } := fun N' hN' => by
    injection hN' with hN'; subst hN'; exact fin
  exact ⟨⟨⟨h.shape, h.two, h.kernel, fun _ => fn⟩, h.full⟩, fun _ _ => fn⟩

theorem tri_normalize (m : String) {P : KMState K X V → Prop} : Tri env k a P (normalizeW env m) fun _ s => FinNormed env s := by
  refine (tri_ensurePopulated hk).bind fun _ => Tri.get fun s w => ?_
  rcases hp : s.isNormed
  · exact (Tri.holds (clear_computeNormed m)).bind fun N => tri_storeNormed hk N
  · refine Tri.pure fun t ht hP => ?_
    obtain ⟨rfl, -⟩ := hP
    exact ht.normed hp

omit hk in
theorem tri_getNormed : Tri env k a (FinNormed env) (PyM.quietly (PyM.getAttr fun s : KMState K X V => s.normedKm)) fun N _ => env.ops.nonFinite N.2 = false := by
  refine Tri.quietly fun s hs hP => ?_
  rw [getAttr_run]
  rcases hN : s.normedKm with _ | N
  · exact ⟨hs, fun x hx => by cases hx⟩
  · exact ⟨hs, fun x hx => by injection hx with hx; subst hx; exact hP _ hN⟩

theorem tri_normedKmVal {P : KMState K X V → Prop} : Tri env k a P (normedKmValW env) fun N _ => env.ops.nonFinite N.2 = false := by
  refine Tri.get fun s w => Tri.bind (R := fun _ => FinNormed env) ?_ fun _ => tri_getNormed
  rcases hp : s.isNormed
  · exact tri_normalize hk _
  · refine Tri.pure fun t ht hP => ?_
    obtain ⟨rfl, -⟩ := hP
    exact ht.normed hp

omit hk in
theorem tri_fullMat : Tri env k a (FinFull env) (PyM.quietly fullMat) fun M _ => env.ops.nonFinite M.2 = false := by
  refine Tri.quietly fun s hs hP => ?_
  rcases fullMat_cases s with ⟨e, e4, hn⟩ | ⟨f, sh, hf, hsh, e4⟩
  · rw [e4]; exact ⟨hs, fun x hx => by cases hx⟩
  · rw [e4]; exact ⟨hs, fun x hx => by injection hx with hx; subst hx; exact hP _ _ hf hsh⟩

theorem tri_full {P : KMState K X V → Prop} : Tri env k a P (fullW env) fun M _ => env.ops.nonFinite M.2 = false :=
  Tri.get fun _ _ => (Tri.holds Holds.raiseIf).bind fun _ => (tri_ensurePopulated hk).bind fun _ =>
    Tri.ite (tri_normedKmVal hk) tri_fullMat

theorem tri_fullSparse {P : KMState K X V → Prop} : Tri env k a P (fullSparseW env) fun M _ => env.ops.nonFinite M.2 = false :=
  Tri.get fun _ _ => Tri.ite (tri_normedKmVal hk) ((tri_populateFully hk _ _).bind fun _ => tri_fullMat)

theorem tri_center {P : KMState K X V → Prop} : Tri env k a P (centerW env) fun _ _ => True :=
  (Tri.holds (Leaf.attr _)).bind fun _ => (Tri.holds Holds.raiseIf).bind fun _ => (tri_ensurePopulated hk).bind fun _ => (Tri.holds Leaf.fullMat).bind fun _ =>
    (Tri.holds Holds.raiseIf).bind fun _ => (Tri.holds Holds.lift).bind fun _ =>
      Tri.holds (Holds.modify fun _ hs => ⟨⟨hs.shape, hs.two, hs.kernel, hs.normed⟩, hs.full⟩)

theorem tri_centered {P : KMState K X V → Prop} : Tri env k a P (centeredW env) fun _ _ => True :=
  (Tri.holds (Leaf.attr _)).bind fun _ => (Tri.holds Holds.raiseIf).bind fun _ => Tri.get fun s _ => Tri.bind (R := fun _ _ => True) (by
    rcases s.isCentered
    · exact tri_center hk
    · exact Tri.pure fun _ _ _ => trivial) fun _ => Tri.holds (Leaf.attr _)

theorem tri_frobNormVal {P : KMState K X V → Prop} : Tri env k a P (frobNormValW env) fun _ _ => True :=
  (tri_ensurePopulated hk).bind fun _ => Tri.holds <| Holds.get.bind fun _ _ => (Holds.when <| Leaf.fullMat.bind fun _ _ => Holds.lift.bind fun _ _ =>
    Holds.modify fun _ hs => ⟨⟨hs.shape, hs.two, hs.kernel, hs.normed⟩, hs.full⟩).bind fun _ _ => Leaf.attr _

theorem tri_getItem (key : Key) {P : KMState K X V → Prop} : Tri env k a P (getItemW env key) fun M _ => WholeKey a.nrows a.ncols key → env.ops.nonFinite M.2 = false := by
  refine Tri.bind (R := fun q _ => WholeKey a.nrows a.ncols key → WholeKey a.nrows a.ncols (.pair q.1 q.2)) (Tri.quietly fun s hs _ => ?_) fun q =>
    Tri.get fun s _ => ?_
  · refine ⟨(Leaf.keyPair key s hs).1, fun q hq hw => ?_⟩
    cases key with
    | pair S T => injection hq with hq; rw [← hq]; exact hw
    | other => cases hw
    | linear i =>
      have hq' : ((PyM.getAttr fun s : KMState K X V => s.shape) >>= fun sh => PyM.lift (unravel i sh.1 sh.2) >>= fun q => Pure.pure (Idx.int q.1, Idx.int q.2) :
        PyM (KMState K X V) (Idx × Idx)) s = (.ok q, (keyPair (.linear i) s).2) := by rw [← hq]; rfl
      rw [bind_ok (getAttr_run_some (fun s : KMState K X V => s.shape) s _ hs.shape)] at hq'
      obtain ⟨w1, w2⟩ := hw
      rw [w1, w2] at hq' ⊢
      unfold unravel at hq'
      split at hq'
      · injection hq' with hq'; cases hq'
      · rename_i hi
        have : i = 0 := by push_cast at hi; omega
        subst this
        injection hq' with hq' _
        injection hq' with hq'
        rw [← hq']
        constructor
        · intro j hj
          obtain rfl : j = 0 := by omega
          simp [IndexSpec.Selects]
        · intro j hj
          obtain rfl : j = 0 := by omega
          simp [IndexSpec.Selects]
  · refine Tri.bind (R := fun one t => (t = s ∧ (WholeKey a.nrows a.ncols key → WholeKey a.nrows a.ncols (.pair q.1 q.2))) ∧
      getIndicesInSample (some (a.nrows, a.ncols)) q.1 false = .ok one) (Tri.quietly fun t ht hP => ⟨ht, fun x hx => ⟨hP, ?_⟩⟩) fun one =>
      Tri.bind (R := fun two _ => (WholeKey a.nrows a.ncols key → (one.2 && two.2) = true)) (Tri.quietly fun t ht hP => ⟨ht, fun x hx hw => ?_⟩) fun two => ?_
    · obtain ⟨rfl, -⟩ := hP
      rw [← ht.shape]; exact hx
    · obtain ⟨⟨rfl, h1⟩, h2⟩ := hP
      refine flags_of_whole h2 ?_ (h1 hw)
      rw [← ht.shape]; exact hx
    · by_cases hb : (one.2 && two.2) = true
      · rw [if_pos hb]
        exact ((tri_populateFully hk _ _).bind fun _ => tri_fullMat).weaken (P := fun _ => True) (fun _ _ => trivial) fun _ _ h _ => h
      · rw [if_neg hb]
        intro t w ht h1 h2
        obtain ⟨h3, -⟩ := Tri.holds (P := fun _ => True) (Holds.bind (Holds.mapEach fun _ => clear_eval _ _) fun _ _ => Holds.pure trivial :
          Holds (Clear env k a) (computeForIndexCombinations env one.1 two.1) fun _ => True) t w (fun hw => ⟨(ht hw).1, trivial⟩) h1 h2
        exact ⟨h3, fun x hx hw => absurd ((ht h2).2 hw) hb⟩

end

/-- a call that issues no warning -/
theorem Clear.exec (hk : env.fmtRaises k = false) {s : KMState K X V} (h : Clear env k a s) (op : KMOp X) (ha : op.isAttach = false) (hw : warnings env op s = [])
    (h2 : a.two.isSome = true → (KMState.exec env op s).1 ≠ .error .runtimeError) :
    Clear env k a (KMState.exec env op s).2 ∧
    ∀ fmt M, (KMState.exec env op s).1 = .ok (.mat fmt M) → op.ReturnsWhole a.nrows a.ncols → env.ops.nonFinite M = false := by
  obtain ⟨p1, p2⟩ := proj_exec env op s []
  rw [← p1] at h2 ⊢
  rw [← p2]
  have nt : ¬ TwoFail a (execW env op (s, [])).1 := fun h => h2 h.1 h.2
  have run : ∀ {α : Type} {m : PyM (LogSt K X V) α} {R : α → KMState K X V → Prop} (g : α → KMOut V), Tri env k a (fun _ => True) m R →
      execW env op = (m >>= fun x => pure (g x)) →
      Clear env k a (execW env op (s, [])).2.1 ∧ ∀ o, (execW env op (s, [])).1 = .ok o → ∃ x t, R x t ∧ o = g x := by
    intro α m R g hm e
    unfold warnings at hw
    rw [e] at nt hw ⊢
    exact (hm.bind (R' := fun o _ => ∃ x t, R x t ∧ o = g x) fun x => Tri.pure fun t _ hx => ⟨x, t, hx, rfl⟩) s [] (fun _ => ⟨h, trivial⟩) nt hw
  have quiet : execW env op = quietly (KMState.exec env op) → Holds (Clear env k a) (KMState.exec env op) (fun _ => True) →
      Clear env k a (execW env op (s, [])).2.1 := fun e hh => by rw [e]; exact (hh s h).1
  have mat : ∀ {m : PyM (LogSt K X V) (Fmt × Mat V)} {P : Prop}, Tri env k a (fun _ => True) m (fun M _ => P → env.ops.nonFinite M.2 = false) →
      execW env op = (m >>= fun A => pure (.mat A.1 A.2)) →
      Clear env k a (execW env op (s, [])).2.1 ∧ ∀ fmt M, (execW env op (s, [])).1 = .ok (.mat fmt M) → P → env.ops.nonFinite M = false := by
    intro m P hm e
    obtain ⟨a1, a2⟩ := run (fun A => .mat A.1 A.2) hm e
    refine ⟨a1, fun fmt M hM hP => ?_⟩
    obtain ⟨x, t, hx, e⟩ := a2 _ hM
    injection e with _ e
    rw [e]; exact hx hP
  cases op with
  | attach => simp [KMOp.isAttach] at ha
  | full => exact mat (P := True) ((tri_full hk).weaken (fun _ h => h) fun _ _ h _ => h) rfl
  | fullSparse => exact mat (P := True) ((tri_fullSparse hk).weaken (fun _ h => h) fun _ _ h _ => h) rfl
  | normedKm => exact mat (P := True) ((tri_normedKmVal hk).weaken (fun _ h => h) fun _ _ h _ => h) rfl
  | getItem key => exact mat (tri_getItem hk key) rfl
  | center => exact ⟨(run (fun _ => .none) (tri_center hk) rfl).1, fun _ _ _ h => h.elim⟩
  | centered => exact ⟨(run (fun A => .mat A.1 A.2) (tri_centered hk) rfl).1, fun _ _ _ h => h.elim⟩
  | normalize m => exact ⟨(run (fun _ => .none) (tri_normalize hk m) rfl).1, fun _ _ _ h => h.elim⟩
  | frobNorm => exact ⟨(run (fun v => .val v) (tri_frobNormVal hk) rfl).1, fun _ _ _ h => h.elim⟩
  | setAttr n v =>
    exact ⟨quiet rfl (Holds.bind (R := fun _ => True) (Holds.modify fun _ hs => ⟨⟨hs.shape, hs.two, hs.kernel, hs.normed⟩, hs.full⟩) fun _ _ => Holds.pure trivial),
      fun _ _ _ h => h.elim⟩
  | getAttr n d => exact ⟨h, fun _ _ _ h => h.elim⟩
  | attributes => exact ⟨h, fun _ _ _ h => h.elim⟩
  | numSamples => exact ⟨h, fun _ _ _ h => h.elim⟩
  | shape => exact ⟨quiet rfl ((Leaf.attr _).bind fun _ _ => Holds.pure trivial), fun _ _ _ h => h.elim⟩
  | size => exact ⟨quiet rfl (Leaf.size.bind fun _ _ => Holds.pure trivial), fun _ _ _ h => h.elim⟩
  | diagonal =>
    exact ⟨quiet rfl (Holds.bind ((Leaf.attr _).bind fun _ _ => Holds.ite Holds.throw ((Leaf.attr _).bind fun _ _ => Holds.mapEach fun _ => clear_eval _ _))
      fun _ _ => Holds.pure trivial), fun _ _ _ h => h.elim⟩

theorem Silent.clear {norm : Bool} (hk : env.fmtRaises k = false) {s : KMState K X V} (h : Silent env k norm a s) : Clear env k a s := by
  induction h with
  | attached hr ha h =>
    rw [exec_attach_ok ha h]
    exact ⟨⟨rfl, rfl, hr.kernel.1, fun h => by cases h⟩, fun h => by cases h⟩
  | call op _ ha hw h2 ih => exact (ih.exec hk op ha hw h2).1

/-! ### Exactly when `full` announces -/

theorem populateW_run (hk : env.fmtRaises k = false) (d l : Bool) (s : KMState K X V) (hs : s.kernel = k) (w : List (Announced V)) :
    (∃ e t, populateFully env d l s = (.error e, t) ∧ populateFullyW env d l (s, w) = (.error e, (t, w))) ∨
    ∃ f sh t, populateFully env d l s = (.ok (), t) ∧ t.fullKm = some f ∧ t.shape = some sh ∧
      populateFullyW env d l (s, w) = (.ok (), (t, if env.ops.nonFinite (Mat.ofCells sh.1 sh.2 f.cell) = true then w ++ [⟨false, Mat.ofCells sh.1 sh.2 f.cell⟩] else w)) := by
  have kern : ∀ {β : Type} (m : PyM (KMState K X V) β), Holds (fun t : KMState K X V => t.kernel = k) m (fun _ => True) → ∀ t, t.kernel = k → (m t).2.kernel = k :=
    fun m hm t ht => (hm t ht).1
  have kev : ∀ i j, Holds (fun t : KMState K X V => t.kernel = k) (evalKernel env i j) fun _ => True := fun i j s hs => by
    obtain ⟨c, n, u, t, fk, e⟩ := (evalKernel_same env s i j).1
    rw [e]; exact ⟨hs, fun _ _ => trivial⟩
  have kfill : ∀ l, Holds (fun t : KMState K X V => t.kernel = k) (fillCells env l) fun _ => True := fun l =>
    Holds.forEach fun p => (kev _ _).bind fun _ _ => Holds.modify fun _ h => h
  have ku : Holds (fun t : KMState K X V => t.kernel = k) (populateUpper env d) fun _ => True :=
    Holds.get.bind fun _ _ => Holds.when <| (Leaf.attr _).bind fun _ _ => Holds.bind (Holds.modify fun _ h => h) fun _ _ => Holds.bind (Holds.catchAll (kfill _)) fun _ _ =>
      Holds.modify fun _ h => h
  have kl : Holds (fun t : KMState K X V => t.kernel = k) (populateLower env l) fun _ => True :=
    Holds.get.bind fun _ _ => Holds.when <| Holds.bind (Holds.catchAll <| (Leaf.attr _).bind fun _ _ => (Leaf.attr _).bind fun _ _ =>
      Holds.ite (Holds.modify fun _ h => h) (kfill _)) fun _ _ => Holds.modify fun _ h => h
  have kd : Holds (fun t : KMState K X V => t.kernel = k) (densify d) fun _ => True :=
    (Leaf.attr _).bind fun _ _ => Holds.when <| Holds.modify fun _ h => h
  unfold populateFully populateFullyW
  rcases e1 : populateUpper env d s with ⟨e | ⟨⟩, s1⟩
  · exact .inl ⟨e, s1, bind_error e1, bind_error (by unfold PyM.quietly; rw [e1])⟩
  rw [bind_ok e1, bind_ok (show PyM.quietly (populateUpper env d) (s, w) = (.ok (), (s1, w)) by unfold PyM.quietly; rw [e1])]
  have h1 : s1.kernel = k := by have := kern _ ku s hs; rwa [e1] at this
  rcases e2 : populateLower env l s1 with ⟨e | ⟨⟩, s2⟩
  · exact .inl ⟨e, s2, bind_error e2, bind_error (by unfold PyM.quietly; rw [e2])⟩
  rw [bind_ok e2, bind_ok (show PyM.quietly (populateLower env l) (s1, w) = (.ok (), (s2, w)) by unfold PyM.quietly; rw [e2])]
  have h2 : s2.kernel = k := by have := kern _ kl s1 h1; rwa [e2] at this
  rcases e3 : densify d s2 with ⟨e | ⟨⟩, s3⟩
  · exact .inl ⟨e, s3, bind_error e3, bind_error (by unfold PyM.quietly; rw [e3])⟩
  rw [bind_ok e3, bind_ok (show PyM.quietly (densify d) (s2, w) = (.ok (), (s3, w)) by unfold PyM.quietly; rw [e3])]
  have h3 : s3.kernel = k := by have := kern _ kd s2 h2; rwa [e3] at this
  rcases fullMat_cases s3 with ⟨e, e4, hn⟩ | ⟨f, sh, hf, hsh, e4⟩
  · exact .inl ⟨e, s3, bind_error e4, bind_error (by unfold PyM.quietly; rw [e4])⟩
  refine .inr ⟨f, sh, s3, ?_, hf, hsh, ?_⟩
  · rw [bind_ok e4]
    unfold warnNonFinite
    rw [get_bind_run, h3, hk]
    rfl
  · rw [bind_ok (show PyM.quietly fullMat (s3, w) = (.ok (f.fmt, Mat.ofCells sh.1 sh.2 f.cell), (s3, w)) by unfold PyM.quietly; rw [e4]),
      warnW_run hk _ _ _ h3]

end KMState

namespace SetSt
variable {K X V : Type}
open PyM

theorem proj_addParametrized (b : BucketFlags) (cls : KernelClassArg K V) (param : String) (values : ValuesArg V) :
    Proj (addParametrizedW b cls param values : PyM (SetSt K X × List V) Unit) (addParametrized b cls param values) := by
  cases cls with
  | other => exact Proj.throw _
  | cls build =>
    cases values with
    | none => exact Proj.pure _
    | notIterable => exact Proj.throw _
    | unsized => exact Proj.throw _
    | seq l => exact (Proj.quietly _).bind fun _ => Proj.forEach _ fun _ => proj_orWarn _ _

/-- the values that cannot be used for a kernel -/
theorem orWarn_unset (norm : Bool) (build : V → Except PyErr K) (l : List V) (s : SetSt K X) (hs : s.set.numSamples = .unset) (w : List V) :
    (forEach l (fun v => orWarn (appendNew norm (build v)) v) (s, w)).2.2 = w ++ l.filter (fun v => (build v).toOption.isNone) ∧
    (forEach l (fun v => orWarn (appendNew norm (build v)) v) (s, w)).2.1.set.numSamples = .unset ∧
    (forEach l (fun v => orWarn (appendNew norm (build v)) v) (s, w)).2.1.set.members.length + (l.filter (fun v => (build v).toOption.isNone)).length =
      s.set.members.length + l.length := by
  induction l generalizing s w with
  | nil => exact ⟨by show w = _; simp, hs, rfl⟩
  | cons v l ih =>
    have step : forEach (v :: l) (fun v => orWarn (appendNew norm (build v)) v) (s, w) =
        (orWarn (appendNew norm (build v)) v >>= fun _ => forEach l fun v => orWarn (appendNew norm (build v)) v) (s, w) := rfl
    rw [step]
    rcases hb : build v with e | k
    · have e1 : orWarn (appendNew norm (.error e : Except PyErr K)) v (s, w) = (.ok (), (s, w ++ [v])) := by
        unfold orWarn; rw [appendNew_error]
      rw [bind_ok e1]
      obtain ⟨a1, a2, a3⟩ := ih s hs (w ++ [v])
      have hv : List.filter (fun v => (build v).toOption.isNone) (v :: l) = v :: l.filter (fun v => (build v).toOption.isNone) := by
        rw [List.filter_cons_of_pos]; simp [hb, Except.toOption]
      rw [hv]
      refine ⟨?_, a2, ?_⟩
      · rw [a1]; simp
      · simp only [List.length_cons]; omega
    · obtain ⟨b1, b2, -⟩ := appendNew_ok norm k s hs
      have e1 : orWarn (appendNew norm (.ok k : Except PyErr K)) v (s, w) = (.ok (), ((appendNew norm (.ok k) s).2, w)) := by
        unfold orWarn
        rcases hr : appendNew norm (.ok k) s with ⟨e | ⟨⟩, t⟩
        · rw [hr] at b1; cases b1
        · rfl
      rw [bind_ok e1]
      obtain ⟨rs, c1, -, c3, -, -, c6⟩ := b2
      obtain ⟨a1, a2, a3⟩ := ih (appendNew norm (.ok k) s).2 (c6.trans hs) w
      have hv : List.filter (fun v => (build v).toOption.isNone) (v :: l) = l.filter (fun v => (build v).toOption.isNone) := by
        rw [List.filter_cons_of_neg]; simp [hb, Except.toOption]
      rw [hv]
      have hl := c3.length_eq
      rw [c1, List.length_append] at a3
      simp only [List.length_cons, List.length_nil] at hl ⊢
      exact ⟨a1, a2, by omega⟩

theorem orWarn_attached (norm : Bool) (build : V → Except PyErr K) (l : List V) (s : SetSt K X) (hs : s.set.numSamples ≠ .unset) (w : List V) :
    (forEach l (fun v => orWarn (appendNew norm (build v)) v) (s, w)).2.2 = w ++ l ∧
    (forEach l (fun v => orWarn (appendNew norm (build v)) v) (s, w)).2.1.set = s.set := by
  induction l generalizing s w with
  | nil => exact ⟨by show w = _; simp, rfl⟩
  | cons v l ih =>
    have step : forEach (v :: l) (fun v => orWarn (appendNew norm (build v)) v) (s, w) =
        (orWarn (appendNew norm (build v)) v >>= fun _ => forEach l fun v => orWarn (appendNew norm (build v)) v) (s, w) := rfl
    rw [step]
    have key : ∃ t, orWarn (appendNew norm (build v)) v (s, w) = (.ok (), (t, w ++ [v])) ∧ t.set = s.set := by
      unfold orWarn
      rcases hb : build v with e | k
      · exact ⟨s, by rw [appendNew_error], rfl⟩
      · obtain ⟨b1, b2, -⟩ := appendNew_attached norm k s hs
        rcases hr : appendNew norm (.ok k) s with ⟨e | ⟨⟩, t⟩
        · rw [hr] at b2; exact ⟨t, rfl, b2⟩
        · rw [hr] at b1; cases b1
    obtain ⟨t, e1, ht⟩ := key
    rw [bind_ok e1]
    obtain ⟨a1, a2⟩ := ih t (by rw [ht]; exact hs) (w ++ [v])
    exact ⟨by rw [a1]; simp, a2.trans ht⟩

end SetSt
end KMethods
