import Verif.Spec.History
import Verif.Lemmas.KMExt
import Verif.Lemmas.Index
/-!
# Invariants of `KernelMatrix` over all histories, with arbitrary kernel failures
-/
namespace KMethods

/-- the attachment described by the arguments of `attach_to`, if they are acceptable -/
def Attachment.ofArgs {X : Type} (one : SampleIn X) (two : Option (SampleIn X)) :
    Except PyErr (Attachment X) :=
  match one.to2D, two with
  | .error e, _ => .error e
  | .ok a, none => .ok ⟨a, none⟩
  | .ok a, some t =>
    match t.to2D with
    | .error e => .error e
    | .ok b => if a.ncols = b.ncols then .ok ⟨a, some b⟩ else .error .valueError

namespace KMState
variable {K X V α β ι : Type}
open PyM

/-- the state right after a successful `attach_to` on an object with the given kernel and flag -/
def attachedState (kernel : K) (keep : Bool) (a : Attachment X) (clock : Nat)
    (old : Option (Fmt × Mat V)) : KMState K X V :=
  { kernel := kernel, keepNormed := keep
    sample := some a.one, sampleTwo := some (a.two.getD a.one)
    numSamples := match a.two with
      | none => .one a.one.nrows
      | some b => .two a.one.nrows b.nrows
    shape := some (a.nrows, a.ncols), twoSamples := some a.two.isSome
    populated := false, lowerFilled := false, isCentered := false, isNormed := false
    fullKm := none, normedKm := none, centeredKm := old, frobNorm := none
    cache := [], attrs := [], numKerEval := 0, succ := [], clock := clock }

theorem attach_ok (one : SampleIn X) (two : Option (SampleIn X)) (s : KMState K X V)
    (a : Attachment X) (h : Attachment.ofArgs one two = .ok a) :
    attach one two s = (.ok (), attachedState s.kernel s.keepNormed a s.clock s.centeredKm) := by
  unfold Attachment.ofArgs at h
  unfold attach
  rcases h1 : one.to2D with e | x
  · rw [h1] at h; simp at h
  rw [h1] at h
  cases two with
  | none =>
    simp at h
    subst h
    simp [attachedState, reset, Attachment.nrows, Attachment.ncols]
  | some t =>
    rcases h2 : t.to2D with e | y
    · simp [h2] at h
    · simp only [h2] at h
      split at h
      · rename_i hc
        simp at h
        subst h
        simp [h2, hc, attachedState, reset, Attachment.nrows, Attachment.ncols]
      · simp at h

theorem attach_error (one : SampleIn X) (two : Option (SampleIn X)) (s : KMState K X V)
    (e : PyErr) (h : Attachment.ofArgs one two = .error e) : (attach one two s).1 = .error e := by
  unfold Attachment.ofArgs at h
  unfold attach
  rcases h1 : one.to2D with e | x
  · rw [h1] at h; simp at h; subst h; simp
  rw [h1] at h
  cases two with
  | none => simp at h
  | some t =>
    rcases h2 : t.to2D with e | y
    · simp [h2] at h; subst h; simp [h2]
    · simp only [h2] at h
      split at h
      · simp at h
      · rename_i hc
        simp at h
        subst h
        have hc' : (x.ncols != y.ncols) = true := by simpa using hc
        simp [h2, hc']

theorem attach_iff (one : SampleIn X) (two : Option (SampleIn X)) (s s' : KMState K X V) :
    attach one two s = (.ok (), s') ↔ ∃ a, Attachment.ofArgs one two = .ok a ∧
      s' = attachedState s.kernel s.keepNormed a s.clock s.centeredKm := by
  constructor
  · intro h
    rcases ha : Attachment.ofArgs one two with e | a
    · have := attach_error one two s e ha
      rw [h] at this; simp at this
    · rw [attach_ok one two s a ha] at h
      injection h with _ h
      exact ⟨a, rfl, h.symm⟩
  · rintro ⟨a, ha, rfl⟩
    exact attach_ok one two s a ha

/-- a failed `attach_to` changes nothing but the two sample references -/
theorem attach_error_state (one : SampleIn X) (two : Option (SampleIn X)) (s : KMState K X V)
    (e : PyErr) (h : Attachment.ofArgs one two = .error e) :
    ∃ x y, (attach one two s).2 = { s with sample := x, sampleTwo := y } := by
  unfold Attachment.ofArgs at h
  unfold attach
  rcases h1 : one.to2D with e | x
  · exact ⟨s.sample, s.sampleTwo, by simp⟩
  rw [h1] at h
  cases two with
  | none => simp at h
  | some t =>
    rcases h2 : t.to2D with e | y
    · exact ⟨some x, s.sampleTwo, by simp [h2]⟩
    · simp only [h2] at h
      split at h
      · simp at h
      · rename_i hc
        have hc' : (x.ncols != y.ncols) = true := by simpa using hc
        exact ⟨some x, some y, by simp [h2, hc']⟩

end KMState

namespace KMState
variable {K X V α β ι : Type}
open PyM

theorem presExt_getItem {env : Env K X V} {sh : Option (Nat × Nat)} {tw : Option Bool}
    (hsq : SquareOk sh tw) (k : Key) : PresExt env (InRange sh tw) sh tw (getItem env k) := by
  refine presExt_bind (presExt_keyPair k) fun q => ?_
  refine presExt_get_bind fun s0 h1 h2 => ?_
  refine (?_ : PresExt env (InRange sh tw) sh tw _) s0 h1 h2
  rw [h1]
  rcases sh with _ | ⟨n, m⟩
  · -- unattached: every branch raises before evaluating
    have hno : ∀ (i : Idx) (d : Bool) l b, getIndicesInSample none i d ≠ .ok (l, b) := by
      intro i d l b
      cases i with
      | int k => simp [getIndicesInSample, idxItems, checkIndices, idxInts, dimSize, bind, Except.bind]
      | slice x y z => simp [getIndicesInSample, idxItems, dimSize, bind, Except.bind]
      | other => simp [getIndicesInSample, idxItems, dimSize, bind, Except.bind]
      | iter l =>
        simp only [getIndicesInSample, idxItems, checkIndices, bind, Except.bind, dimSize]
        split <;> simp
    rcases hg : getIndicesInSample none q.1 false with e | ⟨l, b⟩
    · exact presExt_bind (presExt_lift _) fun r => by
        intro s h1 h2
        rcases hg2 : getIndicesInSample none q.2 true with e | ⟨l, b⟩
        · simpa [bind_run] using Ext.refl
        · exact absurd hg2 (hno _ _ _ _)
    · exact absurd hg (hno _ _ _ _)
  · rcases hg : getIndicesInSample (some (n, m)) q.1 false with e | ⟨l, b⟩
    · exact fun _ _ _ => Ext.refl
    rcases hg2 : getIndicesInSample (some (n, m)) q.2 true with e | ⟨l', b'⟩
    · exact fun _ _ _ => Ext.refl
    show PresExt env _ _ _ (if b && b' then _ else _)
    refine presExt_ite (fun _ => ?_) fun _ => ?_
    · exact presExt_bind (presExt_populateFully hsq _ _) fun _ => presExt_fullMat
    · refine presExt_compute fun i hi j hj => ?_
      have hi' : i < n := by
        rcases getIndices_spec n m q.1 false with ⟨_, h⟩ | ⟨_, _, h⟩ | ⟨_, _, l0, b0, h, _, _, h', _⟩
        · rw [hg] at h; simp at h
        · rw [hg] at h; simp at h
        · rw [hg] at h; simp at h; rw [h.1] at hi; simpa [dimOf] using h' i hi
      have hj' : j < m := by
        rcases getIndices_spec n m q.2 true with ⟨_, h⟩ | ⟨_, _, h⟩ | ⟨_, _, l0, b0, h, _, _, h', _⟩
        · rw [hg2] at h; simp at h
        · rw [hg2] at h; simp at h
        · rw [hg2] at h; simp at h; rw [h.1] at hj; simpa [dimOf] using h' j hj
      exact inRange_memoKey hsq rfl hi' hj'

theorem exec_shape_run (env : Env K X V) (s : KMState K X V) :
    exec env .shape s = (match s.shape with
      | none => .error .attributeError
      | some sh => .ok (.shape sh.1 sh.2), s) := by
  show (PyM.getAttr (fun s : KMState K X V => s.shape) >>= fun sh => pure (KMOut.shape sh.1 sh.2 : KMOut V)) s = _
  rw [bind_run, getAttr_run]
  rcases s.shape with _ | sh <;> rfl

/-- every call other than `attach_to` and `set_attr` is a legal extension -/
theorem exec_ext (env : Env K X V) (op : KMOp X) (s : KMState K X V)
    (hsq : SquareOk s.shape s.twoSamples) (ha : op.isAttach = false) (hs : op.isSetAttr = false) :
    Ext env (InRange s.shape s.twoSamples) s (exec env op s).2 := by
  have bindPure : ∀ {α : Type} {m : PyM (KMState K X V) α} (f : α → KMOut V),
      PresExt env (InRange s.shape s.twoSamples) s.shape s.twoSamples m →
      Ext env (InRange s.shape s.twoSamples) s ((m >>= fun a => pure (f a)) s).2 :=
    fun f h => presExt_bind h (fun _ => presExt_pure _) s rfl rfl
  cases op with
  | attach => simp [KMOp.isAttach] at ha
  | setAttr => simp [KMOp.isSetAttr] at hs
  | getAttr n d => exact Ext.refl
  | attributes => exact Ext.refl
  | numSamples => exact Ext.refl
  | shape =>
    rw [exec_shape_run]; exact Ext.refl
  | size => exact bindPure _ presExt_size
  | full => exact bindPure _ (presExt_full hsq)
  | fullSparse => exact bindPure _ (presExt_fullSparse hsq)
  | center => exact bindPure _ (presExt_center hsq)
  | centered => exact bindPure _ (presExt_centered hsq)
  | normalize m => exact bindPure _ (presExt_normalize hsq m)
  | normedKm => exact bindPure _ (presExt_normedKmVal hsq)
  | frobNorm => exact bindPure _ (presExt_frobNormVal hsq)
  | diagonal => exact bindPure _ ((presExt_diagonal hsq).mono fun _ h => h.1)
  | getItem k => exact bindPure _ (presExt_getItem hsq k)

/-- bookkeeping invariant: holds in every reachable state -/
structure WF (s : KMState K X V) : Prop where
  keys : s.cache.map Prod.fst = s.succ
  nodup : s.succ.Nodup
  count : s.numKerEval = s.succ.length
  range : ∀ p ∈ s.succ, InRange s.shape s.twoSamples p
  square : SquareOk s.shape s.twoSamples

theorem WF.ext {env : Env K X V} {s s' : KMState K X V} (h : WF s)
    (he : Ext env (InRange s.shape s.twoSamples) s s') : WF s' := by
  obtain ⟨new, hc, hs, hn, hd, hm⟩ := he.ext
  refine ⟨?_, ?_, ?_, ?_, ?_⟩
  · rw [hc, hs, List.map_append, h.keys]
  · rw [hs, List.nodup_append]
    refine ⟨hd, h.nodup, ?_⟩
    rintro a ha b hb rfl
    obtain ⟨e, he', rfl⟩ := List.mem_map.1 ha
    have := lookup_none_not_mem _ _ (hm e he').1
    rw [h.keys] at this
    exact this hb
  · rw [hn, hs, h.count]; simp; omega
  · intro p hp
    rw [he.shape, he.twoSamples]
    rw [hs] at hp
    rcases List.mem_append.1 hp with hp | hp
    · obtain ⟨e, he', rfl⟩ := List.mem_map.1 hp
      exact (hm e he').2.1
    · exact h.range p hp
  · rw [he.shape, he.twoSamples]; exact h.square

theorem wf_init (k : K) (b : Bool) (c : Nat) : WF (init k b c : KMState K X V) := by
  refine ⟨rfl, by simp [init, reset], rfl, by simp [init, reset], ?_⟩
  intro h; simp [init, reset] at h

theorem wf_attachedState (k : K) (b : Bool) (a : Attachment X) (c : Nat) (o : Option (Fmt × Mat V)) :
    WF (attachedState k b a c o) := by
  refine ⟨rfl, by simp [attachedState], rfl, by simp [attachedState], ?_⟩
  intro h
  refine ⟨a.nrows, ?_⟩
  rcases a with ⟨x, _ | y⟩
  · simp [attachedState, Attachment.nrows, Attachment.ncols]
  · simp [attachedState] at h

theorem WF.exec {env : Env K X V} {s : KMState K X V} (h : WF s) (op : KMOp X) :
    WF (exec env op s).2 := by
  by_cases ha : op.isAttach = true
  · cases op <;> simp [KMOp.isAttach] at ha
    rename_i one two
    rcases hof : Attachment.ofArgs one two with e | a
    · obtain ⟨x, y, hxy⟩ := attach_error_state one two s e hof
      have h1 := attach_error one two s e hof
      have : (KMState.exec env (.attach one two) s).2 = (attach one two s).2 := by
        show ((attach one two >>= _) s).2 = _
        rw [bind_run]
        rcases hr : attach one two s with ⟨_ | _, s'⟩ <;> simp
      rw [this, hxy]
      exact ⟨h.keys, h.nodup, h.count, h.range, h.square⟩
    · have h1 := attach_ok one two s a hof
      have : (KMState.exec env (.attach one two) s).2 = (attach one two s).2 := by
        show ((attach one two >>= _) s).2 = _
        rw [bind_run, h1]; rfl
      rw [this, h1]
      exact wf_attachedState _ _ _ _ _
  · by_cases hs : op.isSetAttr = true
    · cases op <;> simp [KMOp.isSetAttr] at hs
      exact ⟨h.keys, h.nodup, h.count, h.range, h.square⟩
    · exact h.ext (exec_ext env op s h.square (by simpa using ha) (by simpa using hs))

theorem WF.run {env : Env K X V} {s : KMState K X V} (h : WF s) (ops : List (KMOp X)) :
    WF (run env ops s) := by
  induction ops generalizing s with
  | nil => exact h
  | cons op ops ih => exact ih (h.exec op)

/-- attached to `a`, every memoised value being right -/
structure AttachedTo (env : Env K X V) (a : Attachment X) (s : KMState K X V) : Prop where
  sample : s.sample = some a.one
  sampleTwo : s.sampleTwo = some (a.two.getD a.one)
  shape : s.shape = some (a.nrows, a.ncols)
  two : s.twoSamples = some a.two.isSome
  num : s.numSamples = match a.two with
      | none => .one a.one.nrows
      | some b => .two a.one.nrows b.nrows
  sound : ∀ p v, s.cache.lookup p = some v →
    v = env.kval s.kernel (a.one.row p.1) ((a.two.getD a.one).row p.2)

theorem attachedTo_attachedState (env : Env K X V) (k : K) (b : Bool) (a : Attachment X) (c : Nat)
    (o : Option (Fmt × Mat V)) : AttachedTo env a (attachedState k b a c o) :=
  ⟨rfl, rfl, rfl, rfl, rfl, by simp [attachedState]⟩

theorem AttachedTo.squareOk {env : Env K X V} {a : Attachment X} {s : KMState K X V}
    (h : AttachedTo env a s) : SquareOk s.shape s.twoSamples := by
  intro h'
  refine ⟨a.nrows, ?_⟩
  rw [h.two] at h'
  rw [h.shape]
  rcases a with ⟨x, _ | y⟩
  · simp [Attachment.nrows, Attachment.ncols]
  · simp at h'

theorem lookup_mem {κ ν : Type} [BEq κ] [LawfulBEq κ] {l : List (κ × ν)} {k : κ} {v : ν}
    (h : l.lookup k = some v) : (k, v) ∈ l := by
  induction l with
  | nil => simp at h
  | cons e l ih =>
    obtain ⟨k', v'⟩ := e
    simp only [List.lookup_cons] at h
    split at h
    · rename_i hk
      have : k = k' := by simpa using hk
      subst this
      simp at h
      subst h
      simp
    · exact List.mem_cons_of_mem _ (ih h)

theorem lookup_append {κ ν : Type} [BEq κ] [LawfulBEq κ] {l r : List (κ × ν)} {k : κ} {v : ν}
    (h : (l ++ r).lookup k = some v) : (k, v) ∈ l ∨ r.lookup k = some v := by
  induction l with
  | nil => right; simpa using h
  | cons e l ih =>
    obtain ⟨k', v'⟩ := e
    simp only [List.cons_append, List.lookup_cons] at h
    split at h
    · rename_i hk
      have : k = k' := by simpa using hk
      subst this
      simp at h
      subst h
      simp
    · rcases ih h with h | h
      · exact Or.inl (List.mem_cons_of_mem _ h)
      · exact Or.inr h

theorem AttachedTo.ext {env : Env K X V} {a : Attachment X} {s s' : KMState K X V}
    {T : Nat × Nat → Prop} (h : AttachedTo env a s) (he : Ext env T s s') : AttachedTo env a s' := by
  refine ⟨he.sample.trans h.sample, he.sampleTwo.trans h.sampleTwo, he.shape.trans h.shape,
    he.twoSamples.trans h.two, he.numSamples.trans h.num, ?_⟩
  intro p v hv
  obtain ⟨new, hc, hs, hn, hd, hm⟩ := he.ext
  rw [hc] at hv
  rw [he.kernel]
  rcases lookup_append hv with h1 | h1
  · obtain ⟨_, _, x, y, hx, hy, _, _, h2⟩ := hm _ h1
    rw [h.sample] at hx
    rw [h.sampleTwo] at hy
    injection hx with hx
    injection hy with hy
    subst hx; subst hy
    exact h2
  · exact h.sound p v h1

theorem AttachedTo.exec {env : Env K X V} {a : Attachment X} {s : KMState K X V}
    (h : AttachedTo env a s) (op : KMOp X) (ha : op.isAttach = false) :
    AttachedTo env a (exec env op s).2 := by
  by_cases hs : op.isSetAttr = true
  · cases op <;> simp [KMOp.isSetAttr] at hs
    exact ⟨h.sample, h.sampleTwo, h.shape, h.two, h.num, h.sound⟩
  · exact h.ext (exec_ext env op s h.squareOk ha (by simpa using hs))

theorem exec_kernel {env : Env K X V} {s : KMState K X V} (op : KMOp X) (h : WF s) :
    (exec env op s).2.kernel = s.kernel ∧ (exec env op s).2.keepNormed = s.keepNormed := by
  by_cases ha : op.isAttach = true
  · cases op <;> simp [KMOp.isAttach] at ha
    rename_i one two
    have : (KMState.exec env (.attach one two) s).2 = (attach one two s).2 := by
      show ((attach one two >>= _) s).2 = _
      rw [bind_run]
      rcases hr : attach one two s with ⟨_ | _, s'⟩ <;> simp
    rw [this]
    rcases hof : Attachment.ofArgs one two with e | a
    · obtain ⟨x, y, hxy⟩ := attach_error_state one two s e hof
      rw [hxy]; exact ⟨rfl, rfl⟩
    · rw [attach_ok one two s a hof]; exact ⟨rfl, rfl⟩
  · by_cases hs : op.isSetAttr = true
    · cases op <;> simp [KMOp.isSetAttr] at hs
      exact ⟨rfl, rfl⟩
    · have := exec_ext env op s h.square (by simpa using ha) (by simpa using hs)
      exact ⟨this.kernel, this.keepNormed⟩

theorem run_kernel {env : Env K X V} {s : KMState K X V} (ops : List (KMOp X)) (h : WF s) :
    (run env ops s).kernel = s.kernel ∧ (run env ops s).keepNormed = s.keepNormed := by
  induction ops generalizing s with
  | nil => exact ⟨rfl, rfl⟩
  | cons op ops ih =>
    have h1 := ih (h.exec (env := env) op)
    have h2 := exec_kernel (env := env) op h
    exact ⟨h1.1.trans h2.1, h1.2.trans h2.2⟩

theorem AttachedTo.run {env : Env K X V} {a : Attachment X} {s : KMState K X V}
    (h : AttachedTo env a s) (ops : List (KMOp X)) (ha : ∀ op ∈ ops, op.isAttach = false) :
    AttachedTo env a (run env ops s) := by
  induction ops generalizing s with
  | nil => exact h
  | cons op ops ih =>
    exact ih (h.exec op (ha op (by simp))) fun o ho => ha o (by simp [ho])

/-- the value under a key is the matrix entry -/
theorem AttachedTo.entry {env : Env K X V} {a : Attachment X} {s : KMState K X V}
    (h : AttachedTo env a s) {i j : Nat} {v : V}
    (hv : s.cache.lookup (memoKey s.twoSamples i j) = some v) :
    v = a.entry (env.kval s.kernel) i j := by
  have := h.sound _ _ hv
  rw [this, h.two]
  rcases a with ⟨x, _ | y⟩
  · unfold memoKey Attachment.entry
    by_cases hij : i > j
    · have h1 : min i j = j := by omega
      have h2 : max i j = i := by omega
      simp [hij, h1, h2]
    · have h1 : min i j = i := by omega
      have h2 : max i j = j := by omega
      simp [hij, h1, h2]
  · simp [memoKey, Attachment.entry]

end KMState
end KMethods
