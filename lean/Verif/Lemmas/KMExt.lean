import Verif.Model.KernelMatrix
import Verif.Lemmas.PyM
/-!
# Every public call other than `attach_to` / `set_attr` only extends the memo table legally

Holds for every environment (every pattern of kernel failures) and every state.
-/
namespace KMethods
namespace KMState
variable {K X V α β ι : Type}
open PyM

/-- the pair under which `_eval_kernel` memoises `(i, j)` -/
def memoKey (two : Option Bool) (i j : Nat) : Nat × Nat :=
  if i > j ∧ two = some false then (j, i) else (i, j)

/-- `s'` arises from `s` by evaluating the kernel on not yet memoised pairs satisfying `T`, storing the
results, and otherwise touching only cached matrices and flags. -/
structure Ext (env : Env K X V) (T : Nat × Nat → Prop) (s s' : KMState K X V) : Prop where
  kernel : s'.kernel = s.kernel
  keepNormed : s'.keepNormed = s.keepNormed
  sample : s'.sample = s.sample
  sampleTwo : s'.sampleTwo = s.sampleTwo
  numSamples : s'.numSamples = s.numSamples
  shape : s'.shape = s.shape
  twoSamples : s'.twoSamples = s.twoSamples
  attrs : s'.attrs = s.attrs
  ext : ∃ new : List ((Nat × Nat) × V),
    s'.cache = new ++ s.cache ∧ s'.succ = new.map Prod.fst ++ s.succ ∧
    s'.numKerEval = s.numKerEval + new.length ∧
    (new.map Prod.fst).Nodup ∧
    ∀ e ∈ new, s.cache.lookup e.1 = none ∧ T e.1 ∧
      ∃ a b, s.sample = some a ∧ s.sampleTwo = some b ∧
        e.1.1 < a.nrows ∧ e.1.2 < b.nrows ∧ e.2 = env.kval s.kernel (a.row e.1.1) (b.row e.1.2)

theorem lookup_append_none {κ ν : Type} [BEq κ] [LawfulBEq κ] (l r : List (κ × ν)) (k : κ)
    (h : (l ++ r).lookup k = none) : l.lookup k = none ∧ r.lookup k = none := by
  induction l with
  | nil => simpa using h
  | cons e l ih =>
    obtain ⟨k', v⟩ := e
    simp only [List.cons_append, List.lookup_cons] at h ⊢
    split at h
    · simp at h
    · exact ih h

theorem lookup_none_not_mem {κ ν : Type} [BEq κ] [LawfulBEq κ] (l : List (κ × ν)) (k : κ)
    (h : l.lookup k = none) : k ∉ l.map Prod.fst := by
  induction l with
  | nil => simp
  | cons e l ih =>
    obtain ⟨k', v⟩ := e
    simp only [List.lookup_cons] at h
    split at h
    · simp at h
    · rename_i hk
      simp only [List.map_cons, List.mem_cons, not_or]
      refine ⟨?_, ih h⟩
      intro hkk; subst hkk; simp at hk

theorem not_mem_lookup_none {κ ν : Type} [BEq κ] [LawfulBEq κ] (l : List (κ × ν)) (k : κ)
    (h : k ∉ l.map Prod.fst) : l.lookup k = none := by
  induction l with
  | nil => simp
  | cons e l ih =>
    obtain ⟨k', v⟩ := e
    simp only [List.map_cons, List.mem_cons, not_or] at h
    simp only [List.lookup_cons]
    have : (k == k') = false := by simpa using h.1
    rw [this]; exact ih h.2

theorem lookup_append_some {κ ν : Type} [BEq κ] [LawfulBEq κ] (l r : List (κ × ν)) (k : κ) (v : ν)
    (h : r.lookup k = some v) (hl : l.lookup k = none) : (l ++ r).lookup k = some v := by
  induction l with
  | nil => simpa using h
  | cons e l ih =>
    obtain ⟨k', v'⟩ := e
    simp only [List.lookup_cons, List.cons_append] at hl ⊢
    split at hl
    · simp at hl
    · rename_i hk; exact ih hl

namespace Ext
variable {env : Env K X V} {T T' : Nat × Nat → Prop} {s s' s'' : KMState K X V}

theorem refl : Ext env T s s :=
  ⟨rfl, rfl, rfl, rfl, rfl, rfl, rfl, rfl, [], by simp⟩

theorem trans (h : Ext env T s s') (h' : Ext env T s' s'') : Ext env T s s'' := by
  refine ⟨h'.kernel.trans h.kernel, h'.keepNormed.trans h.keepNormed, h'.sample.trans h.sample,
    h'.sampleTwo.trans h.sampleTwo, h'.numSamples.trans h.numSamples, h'.shape.trans h.shape,
    h'.twoSamples.trans h.twoSamples, h'.attrs.trans h.attrs, ?_⟩
  obtain ⟨n1, hc1, hs1, hn1, hd1, he1⟩ := h.ext
  obtain ⟨n2, hc2, hs2, hn2, hd2, he2⟩ := h'.ext
  refine ⟨n2 ++ n1, by simp [hc2, hc1], by simp [hs2, hs1], by simp [hn2, hn1]; omega, ?_, ?_⟩
  · rw [List.map_append, List.nodup_append]
    refine ⟨hd2, hd1, ?_⟩
    intro a ha b hb hab
    subst hab
    obtain ⟨e, he, rfl⟩ := List.mem_map.1 ha
    have := (he2 e he).1
    rw [hc1] at this
    exact lookup_none_not_mem _ _ (lookup_append_none _ _ _ this).1 hb
  · intro e he
    rcases List.mem_append.1 he with he | he
    · obtain ⟨h1, h2, a, b, ha, hb, h3, h4, h5⟩ := he2 e he
      rw [hc1] at h1
      refine ⟨(lookup_append_none _ _ _ h1).2, h2, a, b, h.sample ▸ ha, h.sampleTwo ▸ hb, h3, h4, ?_⟩
      rw [h5, h.kernel]
    · exact he1 e he

theorem mono (h : Ext env T s s') (hT : ∀ p, T p → T' p) : Ext env T' s s' := by
  refine ⟨h.kernel, h.keepNormed, h.sample, h.sampleTwo, h.numSamples, h.shape, h.twoSamples, h.attrs, ?_⟩
  obtain ⟨n1, hc1, hs1, hn1, hd1, he1⟩ := h.ext
  refine ⟨n1, hc1, hs1, hn1, hd1, fun e he => ?_⟩
  obtain ⟨h1, h2, h3⟩ := he1 e he
  exact ⟨h1, hT _ h2, h3⟩

/-- memoised values persist -/
theorem lookup (h : Ext env T s s') {p : Nat × Nat} {v : V} (hp : s.cache.lookup p = some v) :
    s'.cache.lookup p = some v := by
  obtain ⟨n1, hc1, hs1, hn1, hd1, he1⟩ := h.ext
  rw [hc1]
  refine lookup_append_some _ _ _ _ hp (not_mem_lookup_none _ _ ?_)
  intro hm
  obtain ⟨e, he, rfl⟩ := List.mem_map.1 hm
  rw [(he1 e he).1] at hp
  simp at hp

end Ext

/-- All runs of `m` from states with the given shape and flag are legal extensions. -/
def PresExt (env : Env K X V) (T : Nat × Nat → Prop) (sh : Option (Nat × Nat)) (tw : Option Bool)
    (m : PyM (KMState K X V) α) : Prop :=
  ∀ s, s.shape = sh → s.twoSamples = tw → Ext env T s (m s).2

section
variable {env : Env K X V} {T T' : Nat × Nat → Prop} {sh : Option (Nat × Nat)} {tw : Option Bool}

theorem PresExt.mono {m : PyM (KMState K X V) α} (h : PresExt env T sh tw m)
    (hT : ∀ p, T p → T' p) : PresExt env T' sh tw m := fun s h1 h2 => (h s h1 h2).mono hT

theorem presExt_pure (a : α) : PresExt env T sh tw (pure a) := fun _ _ _ => Ext.refl
theorem presExt_get : PresExt env T sh tw (get : PyM (KMState K X V) _) := fun _ _ _ => Ext.refl
theorem presExt_throw (e : PyErr) : PresExt env T sh tw (throw e : PyM (KMState K X V) α) :=
  fun _ _ _ => Ext.refl
theorem presExt_lift (r : Except PyErr α) : PresExt env T sh tw (lift r) := fun _ _ _ => Ext.refl
theorem presExt_getAttr (f : KMState K X V → Option α) : PresExt env T sh tw (getAttr f) := by
  intro s _ _
  rw [getAttr_run]
  cases f s <;> exact Ext.refl

theorem presExt_bind {m : PyM (KMState K X V) α} {f : α → PyM (KMState K X V) β}
    (h : PresExt env T sh tw m) (h' : ∀ a, PresExt env T sh tw (f a)) :
    PresExt env T sh tw (m >>= f) := by
  intro s h1 h2
  have := h s h1 h2
  rw [bind_run]
  rcases hm : m s with ⟨_ | a, s'⟩
  · simpa [hm] using this
  · rw [hm] at this
    simp only at this ⊢
    exact this.trans (h' a s' (this.shape.trans h1) (this.twoSamples.trans h2))

/-- bind after a pure read of the state -/
theorem presExt_get_bind {f : KMState K X V → PyM (KMState K X V) β}
    (h : ∀ s0 : KMState K X V, s0.shape = sh → s0.twoSamples = tw → Ext env T s0 (f s0 s0).2) :
    PresExt env T sh tw (get >>= f) := fun s h1 h2 => h s h1 h2

theorem presExt_shape_bind {f : Nat × Nat → PyM (KMState K X V) β}
    (h : ∀ n m, sh = some (n, m) → PresExt env T sh tw (f (n, m))) :
    PresExt env T sh tw (getAttr (·.shape) >>= f) := by
  intro s h1 h2
  rw [bind_run, getAttr_run]
  rcases hs : s.shape with _ | ⟨n, m⟩
  · exact Ext.refl
  · exact h n m (h1 ▸ hs) s h1 h2

theorem presExt_two_bind {f : Bool → PyM (KMState K X V) β}
    (h : ∀ b, tw = some b → PresExt env T sh tw (f b)) :
    PresExt env T sh tw (getAttr (·.twoSamples) >>= f) := by
  intro s h1 h2
  rw [bind_run, getAttr_run]
  rcases hs : s.twoSamples with _ | b
  · exact Ext.refl
  · exact h b (h2 ▸ hs) s h1 h2

theorem presExt_catchAll {m : PyM (KMState K X V) α} (e : PyErr) (h : PresExt env T sh tw m) :
    PresExt env T sh tw (catchAll e m) := by
  intro s h1 h2
  have := h s h1 h2
  rw [catchAll_run]
  rcases hm : m s with ⟨_ | a, s'⟩ <;> simpa [hm] using this

theorem presExt_forEach {l : List ι} {f : ι → PyM (KMState K X V) Unit}
    (h : ∀ x ∈ l, PresExt env T sh tw (f x)) : PresExt env T sh tw (forEach l f) := by
  induction l with
  | nil => exact presExt_pure _
  | cons x l ih =>
    exact presExt_bind (h x (by simp)) fun _ => ih fun y hy => h y (by simp [hy])

theorem presExt_mapEach {l : List ι} {f : ι → PyM (KMState K X V) β}
    (h : ∀ x ∈ l, PresExt env T sh tw (f x)) : PresExt env T sh tw (mapEach l f) := by
  induction l with
  | nil => exact presExt_pure _
  | cons x l ih =>
    exact presExt_bind (h x (by simp)) fun _ =>
      presExt_bind (ih fun y hy => h y (by simp [hy])) fun _ => presExt_pure _

/-- updates that touch only cached matrices, flags and the clock -/
theorem presExt_modify {g : KMState K X V → KMState K X V}
    (h : ∀ s, (g s).kernel = s.kernel ∧ (g s).keepNormed = s.keepNormed ∧ (g s).sample = s.sample ∧
      (g s).sampleTwo = s.sampleTwo ∧ (g s).numSamples = s.numSamples ∧ (g s).shape = s.shape ∧
      (g s).twoSamples = s.twoSamples ∧ (g s).attrs = s.attrs ∧ (g s).cache = s.cache ∧
      (g s).succ = s.succ ∧ (g s).numKerEval = s.numKerEval) :
    PresExt env T sh tw (modify g) := by
  intro s _ _
  obtain ⟨h1, h2, h3, h4, h5, h6, h7, h8, h9, h10, h11⟩ := h s
  exact ⟨h1, h2, h3, h4, h5, h6, h7, h8, [], by simp [h9, h10, h11]⟩

theorem presExt_ite {c : Prop} [Decidable c] {m m' : PyM (KMState K X V) α}
    (h : c → PresExt env T sh tw m) (h' : ¬ c → PresExt env T sh tw m') :
    PresExt env T sh tw (if c then m else m') := by
  split
  · exact h ‹_›
  · exact h' ‹_›

end

section
variable {env : Env K X V} {T : Nat × Nat → Prop} {sh : Option (Nat × Nat)} {tw : Option Bool}
theorem presExt_when {c : Bool} {m : PyM (KMState K X V) Unit}
    (h : c = true → PresExt env T sh tw m) : PresExt env T sh tw (when c m) := by
  cases c
  · exact presExt_pure _
  · exact h rfl
theorem presExt_raiseIf (c : Bool) (e : PyErr) :
    PresExt env T sh tw (raiseIf c e : PyM (KMState K X V) Unit) := by
  cases c
  · exact presExt_pure _
  · exact presExt_throw _
end

/-- one kernel evaluation -/
theorem evalAt_ext (env : Env K X V) (s : KMState K X V) (p : Nat × Nat) :
    Ext env (· = p) s (evalAt env p s).2 := by
  unfold evalAt
  rw [get_bind_run]
  rcases hl : s.cache.lookup p with _ | v
  · rcases hx : s.sample with _ | a
    · simpa [bind_run, rowAt, hx] using Ext.refl
    by_cases ha : p.1 < a.nrows
    swap
    · simpa [bind_run, rowAt, hx, ha] using Ext.refl
    rcases hy : s.sampleTwo with _ | b
    · simpa [bind_run, rowAt, hx, ha, hy] using Ext.refl
    by_cases hb : p.2 < b.nrows
    swap
    · simpa [bind_run, rowAt, hx, ha, hy, hb] using Ext.refl
    by_cases hf : env.fails s.clock s.kernel (a.row p.1) (b.row p.2) = true
    · simp [bind_run, rowAt, hx, ha, hy, hb, callKernel, hf]
      exact ⟨rfl, rfl, hx.symm, hy.symm, rfl, rfl, rfl, rfl, [], by simp⟩
    · simp [bind_run, rowAt, hx, ha, hy, hb, callKernel, hf]
      refine ⟨rfl, rfl, hx.symm, hy.symm, rfl, rfl, rfl, rfl,
        [(p, env.kval s.kernel (a.row p.1) (b.row p.2))], by simp, by simp, by simp, by simp, ?_⟩
      intro e he
      simp only [List.mem_singleton] at he
      subst he
      exact ⟨hl, rfl, a, b, hx, hy, ha, hb, rfl⟩
  · exact Ext.refl

/-- what a successful evaluation returns is what is memoised -/
theorem evalAt_ok {env : Env K X V} {s s' : KMState K X V} {p : Nat × Nat} {v : V}
    (h : evalAt env p s = (.ok v, s')) : s'.cache.lookup p = some v := by
  unfold evalAt at h
  rw [get_bind_run] at h
  rcases hl : s.cache.lookup p with _ | w
  · rw [hl] at h
    rcases hx : s.sample with _ | a
    · simp [bind_run, rowAt, hx] at h
    by_cases ha : p.1 < a.nrows
    swap
    · simp [bind_run, rowAt, hx, ha] at h
    rcases hy : s.sampleTwo with _ | b
    · simp [bind_run, rowAt, hx, ha, hy] at h
    by_cases hb : p.2 < b.nrows
    swap
    · simp [bind_run, rowAt, hx, ha, hy, hb] at h
    by_cases hf : env.fails s.clock s.kernel (a.row p.1) (b.row p.2) = true
    · simp [bind_run, rowAt, hx, ha, hy, hb, callKernel, hf] at h
    · simp [bind_run, rowAt, hx, ha, hy, hb, callKernel, hf] at h
      obtain ⟨rfl, rfl⟩ := h
      simp
  · rw [hl] at h
    injection h with h1 h2
    injection h1 with h1
    subst h1; subst h2; exact hl

theorem evalKernel_run (env : Env K X V) (s : KMState K X V) (i j : Nat) :
    evalKernel env i j s =
      if i > j ∧ s.twoSamples = none then (.error .attributeError, s)
      else evalAt env (memoKey s.twoSamples i j) s := by
  unfold evalKernel memoKey
  by_cases hgt : i > j
  · rcases ht : s.twoSamples with _ | b
    · simp [hgt, bind_run, ht]
    · cases b <;> simp [hgt, bind_run, ht]
  · simp [hgt]

theorem evalKernel_ext (env : Env K X V) (s : KMState K X V) (i j : Nat) :
    Ext env (· = memoKey s.twoSamples i j) s (evalKernel env i j s).2 := by
  rw [evalKernel_run]
  split
  · exact Ext.refl
  · exact evalAt_ext env s _

theorem evalKernel_ok {env : Env K X V} {s s' : KMState K X V} {i j : Nat} {v : V}
    (h : evalKernel env i j s = (.ok v, s')) :
    s'.cache.lookup (memoKey s.twoSamples i j) = some v := by
  rw [evalKernel_run] at h
  split at h
  · simp at h
  · exact evalAt_ok h

/-- index pairs inside the matrix, in the form under which they are memoised -/
def InRange (sh : Option (Nat × Nat)) (tw : Option Bool) (p : Nat × Nat) : Prop :=
  ∃ n m, sh = some (n, m) ∧ p.1 < n ∧ p.2 < m ∧ (tw = some false → p.1 ≤ p.2)

/-- a square shape is required whenever attached to one sample -/
def SquareOk (sh : Option (Nat × Nat)) (tw : Option Bool) : Prop :=
  tw = some false → ∃ n, sh = some (n, n)

section
variable {env : Env K X V} {T : Nat × Nat → Prop} {sh : Option (Nat × Nat)} {tw : Option Bool}

theorem presExt_evalKernel (i j : Nat) (h : T (memoKey tw i j)) :
    PresExt env T sh tw (evalKernel env i j) := by
  intro s _ h2
  refine (evalKernel_ext env s i j).mono ?_
  rintro p rfl
  rw [h2]; exact h

theorem inRange_memoKey (hsq : SquareOk sh tw) {n m i j : Nat} (hs : sh = some (n, m))
    (hi : i < n) (hj : j < m) : InRange sh tw (memoKey tw i j) := by
  unfold memoKey
  split
  · rename_i h
    obtain ⟨n', hn'⟩ := hsq h.2
    rw [hs] at hn'
    simp only [Option.some.injEq, Prod.mk.injEq] at hn'
    obtain ⟨rfl, rfl⟩ := hn'
    exact ⟨_, _, hs, hj, hi, fun _ => by simpa using Nat.le_of_lt h.1⟩
  · rename_i h
    exact ⟨_, _, hs, hi, hj, fun h' => by simp only [gt_iff_lt, not_and] at h; by_contra hc; exact h (by simpa using hc) h'⟩

theorem mem_upperPairs {n m : Nat} {p : Nat × Nat} :
    p ∈ upperPairs n m ↔ p.1 < n ∧ p.2 < m ∧ p.1 ≤ p.2 := by
  obtain ⟨i, j⟩ := p
  simp only [upperPairs, List.mem_flatMap, List.mem_range, List.mem_map, List.mem_range'_1,
    Prod.mk.injEq]
  constructor
  · rintro ⟨i', hi', j', hj', rfl, rfl⟩; omega
  · intro h; exact ⟨i, by omega, j, by omega, rfl, rfl⟩

theorem mem_lowerPairs {n m : Nat} {p : Nat × Nat} :
    p ∈ lowerPairs n m ↔ p.1 < n ∧ p.2 < m ∧ p.2 < p.1 := by
  obtain ⟨i, j⟩ := p
  simp only [lowerPairs, List.mem_flatMap, List.mem_range, List.mem_map, Prod.mk.injEq]
  constructor
  · rintro ⟨i', hi', j', hj', rfl, rfl⟩; omega
  · intro h; exact ⟨i, by omega, j, by omega, rfl, rfl⟩

theorem presExt_setCell (i j : Nat) (v : V) : PresExt env T sh tw (setCell i j v) :=
  presExt_modify fun _ => by simp

theorem presExt_fillCells {l : List (Nat × Nat)} (h : ∀ p ∈ l, T (memoKey tw p.1 p.2)) :
    PresExt env T sh tw (fillCells env l) :=
  presExt_forEach fun p hp => presExt_bind (presExt_evalKernel _ _ (h p hp)) fun _ =>
    presExt_setCell _ _ _

theorem presExt_populateUpper (hsq : SquareOk sh tw) (d : Bool) :
    PresExt env (InRange sh tw) sh tw (populateUpper env d) := by
  unfold populateUpper
  refine presExt_bind presExt_get fun s => presExt_when fun _ => ?_
  refine presExt_shape_bind fun n m hs => ?_
  refine presExt_bind (presExt_modify fun _ => by simp) fun _ => ?_
  refine presExt_bind (presExt_catchAll _ (presExt_fillCells fun p hp => ?_)) fun _ =>
    presExt_modify fun _ => by simp
  obtain ⟨h1, h2, _⟩ := mem_upperPairs.1 hp
  exact inRange_memoKey hsq hs h1 h2

theorem presExt_populateLower (hsq : SquareOk sh tw) (l : Bool) :
    PresExt env (InRange sh tw) sh tw (populateLower env l) := by
  unfold populateLower
  refine presExt_bind presExt_get fun s => presExt_when fun _ => ?_
  refine presExt_bind (presExt_catchAll _ ?_) fun _ => presExt_modify fun _ => by simp
  refine presExt_shape_bind fun n m hs => ?_
  refine presExt_bind (presExt_getAttr _) fun b => ?_
  refine presExt_ite (fun _ => presExt_modify fun _ => by simp) fun _ => ?_
  refine presExt_fillCells fun p hp => ?_
  obtain ⟨h1, h2, _⟩ := mem_lowerPairs.1 hp
  exact inRange_memoKey hsq hs h1 h2

theorem presExt_fullMat : PresExt env T sh tw (fullMat : PyM (KMState K X V) _) :=
  presExt_bind (presExt_getAttr _) fun _ => presExt_bind (presExt_getAttr _) fun _ => presExt_pure _

theorem presExt_warn (M : Mat V) : PresExt env T sh tw (warnNonFinite env M) :=
  presExt_bind presExt_get fun _ => presExt_raiseIf _ _

theorem presExt_populateFully (hsq : SquareOk sh tw) (d l : Bool) :
    PresExt env (InRange sh tw) sh tw (populateFully env d l) := by
  refine presExt_bind (presExt_populateUpper hsq d) fun _ =>
    presExt_bind (presExt_populateLower hsq l) fun _ => ?_
  refine presExt_bind (presExt_bind (presExt_getAttr _) fun f => presExt_when fun _ => presExt_modify fun _ => by simp) fun _ => ?_
  exact presExt_bind presExt_fullMat fun _ => presExt_warn _

theorem presExt_ensurePopulated (hsq : SquareOk sh tw) :
    PresExt env (InRange sh tw) sh tw (ensurePopulated env) :=
  presExt_bind presExt_get fun _ => presExt_when fun _ => presExt_populateFully hsq _ _


theorem presExt_diagonal (hsq : SquareOk sh tw) :
    PresExt env (fun p => InRange sh tw p ∧ p.1 = p.2) sh tw (diagonal env) := by
  unfold diagonal
  refine presExt_two_bind fun b hb => ?_
  refine presExt_ite (fun _ => presExt_throw _) fun h => ?_
  refine presExt_shape_bind fun n m hs => ?_
  simp only [Bool.not_eq_true] at h
  subst h
  obtain ⟨n', hn'⟩ := hsq hb
  rw [hs] at hn'
  simp only [Option.some.injEq, Prod.mk.injEq] at hn'
  obtain ⟨rfl, rfl⟩ := hn'
  refine presExt_mapEach fun i hi => presExt_evalKernel _ _ ?_
  have hi' := List.mem_range.1 hi
  have : memoKey tw i i = (i, i) := by simp [memoKey]
  rw [this]
  exact ⟨⟨_, _, hs, hi', hi', fun _ => Nat.le_refl _⟩, rfl⟩

theorem presExt_freshDiagonal (f : KMState K X V → Option (Arr2 X)) :
    PresExt env T sh tw (freshDiagonal env f) :=
  presExt_bind (presExt_getAttr _) fun _ => presExt_bind presExt_get fun _ =>
    presExt_bind (presExt_modify fun _ => by simp) fun _ => presExt_lift _

theorem presExt_computeNormed (m : String) : PresExt env T sh tw (computeNormed env m) := by
  refine presExt_bind (presExt_getAttr _) fun b => presExt_ite (fun _ => ?_) fun _ => ?_
  · exact presExt_bind presExt_fullMat fun _ => presExt_bind (presExt_lift _) fun _ => presExt_pure _
  · exact presExt_bind (presExt_freshDiagonal _) fun _ => presExt_bind (presExt_freshDiagonal _) fun _ =>
      presExt_bind presExt_fullMat fun _ => presExt_bind (presExt_lift _) fun _ => presExt_pure _

theorem presExt_normalize (hsq : SquareOk sh tw) (m : String) :
    PresExt env (InRange sh tw) sh tw (normalize env m) :=
  presExt_bind (presExt_ensurePopulated hsq) fun _ => presExt_bind presExt_get fun _ =>
    presExt_when fun _ => presExt_bind (presExt_computeNormed m) fun _ => presExt_bind (presExt_modify fun _ => by simp) fun _ => presExt_warn _

theorem presExt_normedKmVal (hsq : SquareOk sh tw) :
    PresExt env (InRange sh tw) sh tw (normedKmVal env) :=
  presExt_bind presExt_get fun _ => presExt_bind (presExt_when fun _ => presExt_normalize hsq _)
    fun _ => presExt_getAttr _

theorem presExt_full (hsq : SquareOk sh tw) : PresExt env (InRange sh tw) sh tw (full env) :=
  presExt_bind presExt_get fun _ => presExt_bind (presExt_raiseIf _ _) fun _ =>
    presExt_bind (presExt_ensurePopulated hsq) fun _ =>
      presExt_ite (fun _ => presExt_normedKmVal hsq) fun _ => presExt_fullMat

theorem presExt_fullSparse (hsq : SquareOk sh tw) :
    PresExt env (InRange sh tw) sh tw (fullSparse env) :=
  presExt_bind presExt_get fun _ => presExt_ite (fun _ => presExt_normedKmVal hsq) fun _ =>
    presExt_bind (presExt_populateFully hsq _ _) fun _ => presExt_fullMat

theorem presExt_center (hsq : SquareOk sh tw) : PresExt env (InRange sh tw) sh tw (center env) :=
  presExt_bind (presExt_getAttr _) fun _ => presExt_bind (presExt_raiseIf _ _) fun _ =>
    presExt_bind (presExt_ensurePopulated hsq) fun _ => presExt_bind presExt_fullMat fun _ =>
      presExt_bind (presExt_raiseIf _ _) fun _ => presExt_bind (presExt_lift _) fun _ =>
        presExt_modify fun _ => by simp

theorem presExt_centered (hsq : SquareOk sh tw) : PresExt env (InRange sh tw) sh tw (centered env) :=
  presExt_bind (presExt_getAttr _) fun _ => presExt_bind (presExt_raiseIf _ _) fun _ =>
    presExt_bind presExt_get fun _ => presExt_bind (presExt_when fun _ => presExt_center hsq) fun _ =>
      presExt_getAttr _

theorem presExt_frobNormVal (hsq : SquareOk sh tw) :
    PresExt env (InRange sh tw) sh tw (frobNormVal env) :=
  presExt_bind (presExt_ensurePopulated hsq) fun _ => presExt_bind presExt_get fun _ =>
    presExt_bind (presExt_when fun _ => presExt_bind presExt_fullMat fun _ =>
      presExt_bind (presExt_lift _) fun _ => presExt_modify fun _ => by simp) fun _ => presExt_getAttr _

theorem presExt_keyPair (k : Key) :
    PresExt env T sh tw (keyPair k : PyM (KMState K X V) (Idx × Idx)) := by
  cases k with
  | linear k => exact presExt_bind (presExt_getAttr _) fun _ => presExt_bind (presExt_lift _) fun _ => presExt_pure _
  | pair a b => exact presExt_pure _
  | other => exact presExt_throw _

theorem presExt_compute {one two : List Nat}
    (h : ∀ i ∈ one, ∀ j ∈ two, T (memoKey tw i j)) :
    PresExt env T sh tw (computeForIndexCombinations env one two) := by
  refine presExt_bind (presExt_mapEach fun p hp => presExt_evalKernel _ _ ?_) fun _ => presExt_pure _
  obtain ⟨i, hi, hp⟩ := List.mem_flatMap.1 hp
  obtain ⟨j, hj, rfl⟩ := List.mem_map.1 hp
  exact h i hi j hj

theorem presExt_size : PresExt env T sh tw (size : PyM (KMState K X V) Nat) := by
  refine presExt_bind (presExt_getAttr _) fun b => presExt_bind presExt_get fun s => ?_
  refine presExt_ite (fun _ => ?_) fun _ => ?_
  · split
    · exact presExt_pure _
    · exact presExt_throw _
  · split
    · exact presExt_pure _
    · exact presExt_pure _
    · exact presExt_throw _

end
end KMState
end KMethods
