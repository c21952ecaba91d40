import Verif.Lemmas.Keyed
import Verif.Lemmas.Fresh
import Verif.Spec.Alias
/-!
# Writes by the caller into shared arrays
-/
namespace KMethods
namespace KMState
variable {K X V α β ι : Type}
open PyM

section
variable {env : Env K X V} {k : K} {norm : Bool} {a : Attachment X} {W : CallerWrite X V → Prop} {s : KMState K X V}

theorem WF.write (h : WF s) (w : CallerWrite X V) : WF (s.write w) := by
  cases w <;> exact ⟨h.keys, h.nodup, h.count, h.range, h.square⟩

theorem write_kernel (w : CallerWrite X V) (s : KMState K X V) : (s.write w).kernel = s.kernel ∧ (s.write w).keepNormed = s.keepNormed := by
  cases w <;> exact ⟨rfl, rfl⟩

theorem write_cache (w : CallerWrite X V) (s : KMState K X V) : (s.write w).cache = s.cache ∧ (s.write w).shape = s.shape ∧
    (s.write w).twoSamples = s.twoSamples := by
  cases w <;> exact ⟨rfl, rfl, rfl⟩

theorem ReachableW.wf (h : ReachableW env k norm s) : WF s := by
  induction h with
  | new t => exact wf_init k norm t
  | call op _ ih => exact ih.exec op
  | write w _ ih => exact ih.write w

theorem ReachableW.kernel (h : ReachableW env k norm s) : s.kernel = k ∧ s.keepNormed = norm := by
  induction h with
  | new t => exact ⟨rfl, rfl⟩
  | call op h ih =>
    have := exec_kernel (env := env) op h.wf
    exact ⟨this.1.trans ih.1, this.2.trans ih.2⟩
  | write w _ ih => exact ⟨(write_kernel w _).1.trans ih.1, (write_kernel w _).2.trans ih.2⟩

theorem SinceW.reachable (h : SinceW env k norm a W s) : ReachableW env k norm s := by
  induction h with
  | attached hr ha h =>
    rename_i s s' one two
    have := ReachableW.call (env := env) (.attach one two) hr
    rw [h] at this
    exact this
  | call op _ _ ih => exact .call op ih
  | write w _ _ ih => exact .write w ih

theorem AttachedTo.write (h : AttachedTo env a s) {w : CallerWrite X V} (hw : w.Matrices) : AttachedTo env a (s.write w) := by
  cases w with
  | samples => exact hw.elim
  | _ => exact ⟨h.sample, h.sampleTwo, h.shape, h.two, h.num, h.sound⟩

theorem SinceW.attachedTo (h : SinceW env k norm a CallerWrite.Matrices s) : AttachedTo env a s := by
  induction h with
  | attached hr ha h =>
    rw [exec_attach_ok ha h]
    exact attachedTo_attachedState env _ _ a _ _
  | call op _ ha ih => exact ih.exec op ha
  | write w _ hw ih => exact ih.write hw

theorem Keyed.write {n m : Nat} {b : Bool} (h : Keyed n m b s) (w : CallerWrite X V) : Keyed n m b (s.write w) := by
  cases w <;> exact h.congr rfl rfl rfl rfl rfl

theorem SinceW.keyed (h : SinceW env k norm a W s) : Keyed a.nrows a.ncols a.two.isSome s := by
  induction h with
  | attached hr ha h =>
    rw [exec_attach_ok ha h]
    exact keyed_attachedState _ _ _ _ _
  | call op _ ha ih => exact (keyed_leaf env _ _ _).exec op ha ih
  | write w _ _ ih => exact ih.write w

/-- what is memoised stays memoised -/
theorem LaterW.lookup {s' : KMState K X V} (h : LaterW env s s') (hw : WF s) :
    WF s' ∧ s'.shape = s.shape ∧ s'.twoSamples = s.twoSamples ∧ ∀ p v, s.cache.lookup p = some v → s'.cache.lookup p = some v := by
  induction h with
  | refl => exact ⟨hw, rfl, rfl, fun _ _ h => h⟩
  | call op _ ha ih =>
    rename_i s' _
    obtain ⟨h1, h2, h3, h4⟩ := ih
    refine ⟨h1.exec op, ?_⟩
    by_cases hs : op.isSetAttr = true
    · cases op <;> simp [KMOp.isSetAttr] at hs
      exact ⟨h2, h3, h4⟩
    · have he := exec_ext env op s' h1.square ha (by simpa using hs)
      exact ⟨he.shape.trans h2, he.twoSamples.trans h3, fun p v hv => he.lookup (h4 p v hv)⟩
  | write w _ ih =>
    obtain ⟨h1, h2, h3, h4⟩ := ih
    obtain ⟨g1, g2, g3⟩ := write_cache w _
    exact ⟨h1.write w, g2.trans h2, g3.trans h3, fun p v hv => by rw [g1]; exact h4 p v hv⟩

theorem evalKernel_cached {i j : Nat} {v : V} (h : s.cache.lookup (memoKey s.twoSamples i j) = some v) (ht : s.twoSamples ≠ none) :
    evalKernel env i j s = (.ok v, s) := by
  rw [evalKernel_run, if_neg fun h => ht h.2]
  unfold evalAt
  rw [get_bind_run, h]
  rfl

theorem mapEach_again (l : List (Nat × Nat)) {s s1 s' : KMState K X V} {vs : List V} (ht : s.twoSamples ≠ none)
    (hr : mapEach l (fun p => evalKernel env p.1 p.2) s = (.ok vs, s1)) (h2 : s'.twoSamples = s.twoSamples)
    (hl : ∀ p v, s1.cache.lookup p = some v → s'.cache.lookup p = some v) :
    mapEach l (fun p => evalKernel env p.1 p.2) s' = (.ok vs, s') := by
  induction l generalizing s vs with
  | nil =>
    simp [mapEach] at hr ⊢
    exact hr.1
  | cons p l ih =>
    obtain ⟨v, t, ws, he, hm, rfl⟩ := mapEach_cons_ok.1 hr
    change evalKernel env p.1 p.2 s = (.ok v, t) at he
    have hext := evalKernel_ext env s p.1 p.2
    rw [he] at hext
    have htw : t.twoSamples = s.twoSamples := hext.twoSamples
    have hrest := presExt_mapEach (env := env) (T := fun _ => True) (sh := t.shape) (tw := t.twoSamples) (l := l) (f := fun p => evalKernel env p.1 p.2)
      (fun p _ => presExt_evalKernel _ _ trivial) t rfl rfl
    rw [hm] at hrest
    refine mapEach_cons_ok.2 ⟨v, s', ws, ?_, ih (htw ▸ ht) hm (h2.trans htw.symm), rfl⟩
    refine evalKernel_cached ?_ (h2 ▸ ht)
    rw [h2]
    exact hl _ _ (hrest.lookup (evalKernel_ok he))

end

/-! ## after the matrix has been computed, the samples are not looked at any more -/

/-- everything that calls other than `attach_to` may need from the samples has been computed -/
structure Settled (n m : Nat) (b : Bool) (s : KMState K X V) : Prop where
  shape : s.shape = some (n, m)
  two : s.twoSamples = some b
  square : b = false → n = m
  populated : s.populated = true
  normed : b = true → s.isNormed = true
  all : ∀ i < n, ∀ j < m, Has s (memoKey (some b) i j)

/-- `m` preserves being settled, its results satisfy `R`, and it does not notice other samples -/
def Comm (n m : Nat) (b : Bool) (f : PyM (KMState K X V) α) (R : α → Prop) : Prop :=
  ∀ s, Settled n m b s → Settled n m b (f s).2 ∧ (∀ x, (f s).1 = .ok x → R x) ∧
    ∀ r r', f (s.write (.samples r r')) = ((f s).1, (f s).2.write (.samples r r'))

section
variable {n m : Nat} {b : Bool}

theorem Settled.congr {s s' : KMState K X V} (h : Settled n m b s) (h1 : s'.shape = s.shape) (h2 : s'.twoSamples = s.twoSamples)
    (h3 : s'.populated = s.populated) (h4 : s'.cache = s.cache) (h5 : s.isNormed = true → s'.isNormed = true) : Settled n m b s' := by
  refine ⟨h1.trans h.shape, h2.trans h.two, h.square, h3.trans h.populated, fun hb => h5 (h.normed hb), fun i hi j hj => ?_⟩
  have := h.all i hi j hj
  unfold Has at *
  rwa [h4]

theorem Comm.bind {f : PyM (KMState K X V) α} {g : α → PyM (KMState K X V) β} {R : α → Prop} {R' : β → Prop}
    (h : Comm n m b f R) (hg : ∀ x, R x → Comm n m b (g x) R') : Comm n m b (f >>= g) R' := by
  intro s hs
  obtain ⟨h1, h2, h3⟩ := h s hs
  rcases hf : f s with ⟨e | x, s'⟩
  · rw [hf] at h1 h3
    rw [bind_error hf]
    exact ⟨h1, (fun x h => by cases h), fun r r' => bind_error (h3 r r')⟩
  · rw [hf] at h1 h2 h3
    rw [bind_ok hf]
    obtain ⟨g1, g2, g3⟩ := hg x (h2 x rfl) s' h1
    exact ⟨g1, g2, fun r r' => (bind_ok (h3 r r')).trans (g3 r r')⟩

theorem Comm.pure {x : α} {R : α → Prop} (h : R x) : Comm n m b (pure x : PyM (KMState K X V) α) R :=
  fun _ hs => ⟨hs, fun y hy => by injection hy with hy; exact hy ▸ h, fun _ _ => rfl⟩

theorem Comm.throw {e : PyErr} {R : α → Prop} : Comm n m b (throw e : PyM (KMState K X V) α) R :=
  fun _ hs => ⟨hs, (fun y hy => by cases hy), fun _ _ => rfl⟩

theorem Comm.lift {r : Except PyErr α} : Comm n m b (lift r : PyM (KMState K X V) α) fun x => r = .ok x :=
  fun _ hs => ⟨hs, fun _ h => h, fun _ _ => rfl⟩

theorem Comm.get {g : KMState K X V → PyM (KMState K X V) β} {R : β → Prop} (hg : ∀ s, Settled n m b s → Comm n m b (g s) R)
    (hw : ∀ s r r', g (s.write (.samples r r')) = g s) : Comm n m b (get >>= g) R := by
  intro s hs
  rw [get_bind_run]
  obtain ⟨h1, h2, h3⟩ := hg s hs s hs
  exact ⟨h1, h2, fun r r' => by rw [get_bind_run, hw, h3]⟩

theorem Comm.getAttr {f : KMState K X V → Option α} {R : α → Prop} (h : ∀ s, Settled n m b s → ∀ x, f s = some x → R x)
    (hw : ∀ s r r', f (s.write (.samples r r')) = f s) : Comm n m b (getAttr f) R := by
  intro s hs
  rw [getAttr_run]
  rcases hf : f s with _ | x
  · exact ⟨hs, (fun y hy => by cases hy), fun r r' => by rw [getAttr_run, hw, hf]⟩
  · exact ⟨hs, fun y hy => by injection hy with hy; exact hy ▸ h s hs x hf, fun r r' => by rw [getAttr_run, hw, hf]⟩

theorem Comm.shape : Comm n m b (PyM.getAttr (fun s : KMState K X V => s.shape)) fun sh => sh = (n, m) :=
  Comm.getAttr (fun s hs x hx => by rw [hs.shape] at hx; injection hx with hx; exact hx.symm) fun _ _ _ => rfl

theorem Comm.two : Comm n m b (PyM.getAttr (fun s : KMState K X V => s.twoSamples)) fun c => c = b :=
  Comm.getAttr (fun s hs x hx => by rw [hs.two] at hx; injection hx with hx; exact hx.symm) fun _ _ _ => rfl

theorem Comm.attr {f : KMState K X V → Option α} (hw : ∀ s r r', f (s.write (.samples r r')) = f s) : Comm n m b (PyM.getAttr f) fun _ => True :=
  Comm.getAttr (fun _ _ _ _ => trivial) hw

theorem Comm.modify {f : KMState K X V → KMState K X V} (h : ∀ s, Settled n m b s → Settled n m b (f s))
    (hw : ∀ s r r', f (s.write (.samples r r')) = (f s).write (.samples r r')) : Comm n m b (modify f) fun _ => True :=
  fun s hs => ⟨h s hs, fun _ _ => trivial, fun r r' => by rw [modify_run, hw]; rfl⟩

theorem Comm.triv {f : PyM (KMState K X V) α} {R : α → Prop} (h : Comm n m b f R) : Comm n m b f fun _ => True :=
  fun s hs => ⟨(h s hs).1, fun _ _ => trivial, (h s hs).2.2⟩

theorem Comm.catchAll {e : PyErr} {f : PyM (KMState K X V) α} {R : α → Prop} (h : Comm n m b f R) : Comm n m b (catchAll e f) R := by
  intro s hs
  obtain ⟨h1, h2, h3⟩ := h s hs
  simp only [catchAll_run]
  rcases hf : f s with ⟨e | x, s'⟩
  · rw [hf] at h1 h3
    exact ⟨h1, (fun x h => by cases h), fun r r' => by rw [h3]⟩
  · rw [hf] at h1 h2 h3
    exact ⟨h1, h2, fun r r' => by rw [h3]⟩

theorem Comm.when {c : Bool} {f : PyM (KMState K X V) Unit} (h : c = true → Comm n m b f fun _ => True) : Comm n m b (when c f) fun _ => True := by
  cases c
  · exact Comm.pure trivial
  · exact h rfl

theorem Comm.raiseIf {c : Bool} {e : PyErr} : Comm n m b (raiseIf c e : PyM (KMState K X V) Unit) fun _ => True := by
  cases c
  · exact Comm.pure trivial
  · exact Comm.throw

theorem Comm.ite {c : Prop} [Decidable c] {f g : PyM (KMState K X V) α} {R : α → Prop} (h : c → Comm n m b f R) (h' : ¬ c → Comm n m b g R) :
    Comm n m b (if c then f else g) R := by
  split
  · exact h ‹_›
  · exact h' ‹_›

theorem Comm.forEach {l : List ι} {f : ι → PyM (KMState K X V) Unit} (h : ∀ x ∈ l, Comm n m b (f x) fun _ => True) :
    Comm n m b (forEach l f) fun _ => True := by
  induction l with
  | nil => exact Comm.pure trivial
  | cons x l ih => exact (h x (by simp)).bind fun _ _ => ih fun y hy => h y (by simp [hy])

theorem Comm.mapEach {l : List ι} {f : ι → PyM (KMState K X V) β} (h : ∀ x ∈ l, Comm n m b (f x) fun _ => True) :
    Comm n m b (mapEach l f) fun _ => True := by
  induction l with
  | nil => exact Comm.pure trivial
  | cons x l ih => exact (h x (by simp)).bind fun _ _ => (ih fun y hy => h y (by simp [hy])).bind fun _ _ => Comm.pure trivial

variable {env : Env K X V}

theorem comm_evalKernel {i j : Nat} (hi : i < n) (hj : j < m) : Comm n m b (evalKernel env i j) fun _ => True := by
  intro s hs
  obtain ⟨v, hv⟩ := hs.all i hi j hj
  have h2 : s.twoSamples ≠ none := by rw [hs.two]; simp
  rw [evalKernel_cached (by rw [hs.two]; exact hv) h2]
  exact ⟨hs, fun _ _ => trivial, fun r r' => evalKernel_cached (s := s.write (.samples r r')) (by
    show s.cache.lookup (memoKey s.twoSamples i j) = _
    rw [hs.two]; exact hv) h2⟩

theorem comm_fillCells {l : List (Nat × Nat)} (h : ∀ p ∈ l, p.1 < n ∧ p.2 < m) : Comm n m b (fillCells env l) fun _ => True :=
  Comm.forEach fun p hp => (comm_evalKernel (h p hp).1 (h p hp).2).bind fun _ _ =>
    Comm.modify (fun _ hs => hs.congr rfl rfl rfl rfl id) fun _ _ _ => rfl

theorem comm_populateUpper (d : Bool) : Comm n m b (populateUpper env d) fun _ => True := by
  refine Comm.get (fun s hs => Comm.when fun h => ?_) fun _ _ _ => rfl
  rw [hs.populated] at h
  cases h

theorem comm_populateLower (l : Bool) : Comm n m b (populateLower env l) fun _ => True := by
  refine Comm.get (fun s hs => Comm.when fun h => ?_) fun _ _ _ => rfl
  refine Comm.bind (Comm.catchAll (R := fun _ => True) (Comm.shape.bind ?_)) fun _ _ => Comm.modify (fun _ hs => hs.congr rfl rfl rfl rfl id) fun _ _ _ => rfl
  rintro _ rfl
  refine Comm.two.bind ?_
  rintro _ rfl
  refine Comm.ite (fun _ => Comm.modify (fun _ hs => hs.congr rfl rfl rfl rfl id) fun _ _ _ => rfl) fun _ => comm_fillCells fun p hp => ?_
  have := mem_lowerPairs.1 hp
  exact ⟨this.1, this.2.1⟩

theorem comm_fullMat : Comm n m b (fullMat : PyM (KMState K X V) _) fun _ => True :=
  (Comm.attr fun _ _ _ => rfl).bind fun _ _ => (Comm.attr fun _ _ _ => rfl).bind fun _ _ => Comm.pure trivial

theorem comm_warn (M : Mat V) : Comm n m b (warnNonFinite env M) fun _ => True :=
  Comm.get (fun _ _ => Comm.raiseIf) fun _ _ _ => rfl

theorem comm_populateFully (d l : Bool) : Comm n m b (populateFully env d l) fun _ => True :=
  (comm_populateUpper d).bind fun _ _ => (comm_populateLower l).bind fun _ _ =>
    Comm.bind ((Comm.attr fun _ _ _ => rfl).bind fun _ _ => Comm.when fun _ => Comm.modify (fun _ hs => hs.congr rfl rfl rfl rfl id) fun _ _ _ => rfl)
      fun _ _ => comm_fullMat.bind fun _ _ => comm_warn _

theorem comm_ensurePopulated : Comm n m b (ensurePopulated env) fun _ => True :=
  Comm.get (fun _ _ => Comm.when fun _ => comm_populateFully _ _) fun _ _ _ => rfl

theorem comm_computeNormed (hb : b = false) (method : String) : Comm n m b (computeNormed env method) fun _ => True := by
  refine Comm.two.bind fun c hc => Comm.ite (fun _ => comm_fullMat.bind fun _ _ => Comm.lift.bind fun _ _ => Comm.pure trivial) fun h => ?_
  rw [hc, hb] at h
  exact absurd rfl h

theorem comm_normalize (method : String) : Comm n m b (normalize env method) fun _ => True := by
  refine comm_ensurePopulated.bind fun _ _ => Comm.get (fun s hs => Comm.when fun h => ?_) fun _ _ _ => rfl
  have hb : b = false := by
    rcases hb : b
    · rfl
    · rw [hs.normed hb] at h; cases h
  exact (comm_computeNormed hb method).bind fun _ _ => Comm.bind (Comm.modify (fun _ hs => hs.congr rfl rfl rfl rfl fun _ => rfl) fun _ _ _ => rfl)
    fun _ _ => comm_warn _

theorem comm_normedKmVal : Comm n m b (normedKmVal env) fun _ => True :=
  Comm.get (fun _ _ => (Comm.when fun _ => comm_normalize _).bind fun _ _ => Comm.attr fun _ _ _ => rfl) fun _ _ _ => rfl

theorem comm_full : Comm n m b (full env) fun _ => True := by
  refine Comm.get (fun _ _ => Comm.raiseIf.bind fun _ _ => comm_ensurePopulated.bind fun _ _ =>
    Comm.ite (fun _ => comm_normedKmVal) fun _ => comm_fullMat) fun s r r' => ?_
  have : (s.write (.samples r r')).sample.isNone = s.sample.isNone := by
    show (s.sample.map _).isNone = _
    cases s.sample <;> rfl
  simp only [this]
  rfl

theorem comm_fullSparse : Comm n m b (fullSparse env) fun _ => True :=
  Comm.get (fun _ _ => Comm.ite (fun _ => comm_normedKmVal) fun _ => (comm_populateFully _ _).bind fun _ _ => comm_fullMat) fun _ _ _ => rfl

theorem comm_center : Comm n m b (center env) fun _ => True :=
  Comm.two.bind fun _ _ => Comm.raiseIf.bind fun _ _ => comm_ensurePopulated.bind fun _ _ => comm_fullMat.bind fun _ _ =>
    Comm.raiseIf.bind fun _ _ => Comm.lift.bind fun _ _ => Comm.modify (fun _ hs => hs.congr rfl rfl rfl rfl id) fun _ _ _ => rfl

theorem comm_centered : Comm n m b (centered env) fun _ => True :=
  Comm.two.bind fun _ _ => Comm.raiseIf.bind fun _ _ => Comm.get (fun _ _ => (Comm.when fun _ => comm_center).bind fun _ _ =>
    Comm.attr fun _ _ _ => rfl) fun _ _ _ => rfl

theorem comm_frobNormVal : Comm n m b (frobNormVal env) fun _ => True :=
  comm_ensurePopulated.bind fun _ _ => Comm.get (fun _ _ => Comm.bind (Comm.when fun _ => comm_fullMat.bind fun _ _ => Comm.lift.bind fun _ _ =>
    Comm.modify (fun _ hs => hs.congr rfl rfl rfl rfl id) fun _ _ _ => rfl) fun _ _ => Comm.attr fun _ _ _ => rfl) fun _ _ _ => rfl

theorem comm_diagonal : Comm n m b (diagonal env) fun _ => True := by
  by_cases hb : b = true
  · refine Comm.two.bind fun c hc => Comm.ite (fun _ => Comm.throw) fun h => ?_
    rw [hc, hb] at h
    exact absurd rfl h
  · intro s hs
    have hnm := hs.square (by simpa using hb)
    refine Comm.bind Comm.two (fun c hc => Comm.ite (fun _ => Comm.throw) fun _ => Comm.shape.bind fun sh hsh => ?_) s hs
    rw [hsh]
    refine Comm.mapEach fun i hi => ?_
    have hi : i < n := by simpa using hi
    exact comm_evalKernel hi (hnm ▸ hi)

theorem comm_size : Comm n m b (size : PyM (KMState K X V) _) fun _ => True := by
  refine Comm.two.bind fun c _ => Comm.get (fun s _ => ?_) fun _ _ _ => rfl
  cases c <;> rcases s.numSamples with _ | _ | _ <;> first | exact Comm.throw | exact Comm.pure trivial

theorem comm_keyPair (key : Key) : Comm n m b (keyPair key : PyM (KMState K X V) _) fun _ => True := by
  cases key with
  | linear q => exact Comm.shape.bind fun _ _ => Comm.lift.bind fun _ _ => Comm.pure trivial
  | pair S T => exact Comm.pure trivial
  | other => exact Comm.throw

theorem lt_of_getIndices {S : Idx} {d : Bool} {one : List Nat × Bool} (h : getIndicesInSample (some (n, m)) S d = .ok one) {i : Nat} (hi : i ∈ one.1) :
    i < if d then m else n := by
  rcases getIndices_spec n m S d with ⟨_, h'⟩ | ⟨_, _, h'⟩ | ⟨_, _, l, c, h', e1, e2, e3, _⟩
  · rw [h] at h'; cases h'
  · rw [h] at h'; cases h'
  · rw [h] at h'
    injection h' with h'
    rw [h'] at hi
    exact e3 i hi

theorem comm_getItem (key : Key) : Comm n m b (getItem env key) fun _ => True := by
  refine (comm_keyPair key).bind fun q _ => Comm.get (fun s hs => ?_) fun _ _ _ => rfl
  rw [hs.shape]
  refine Comm.lift.bind fun one h1 => Comm.lift.bind fun two h2 => Comm.ite (fun _ => (comm_populateFully _ _).bind fun _ _ => comm_fullMat) fun _ => ?_
  refine Comm.bind (Comm.mapEach fun p hp => ?_) fun _ _ => Comm.pure trivial
  obtain ⟨i, hi, hp⟩ := List.mem_flatMap.1 hp
  obtain ⟨j, hj, rfl⟩ := List.mem_map.1 hp
  exact comm_evalKernel (lt_of_getIndices h1 hi) (lt_of_getIndices h2 hj)

theorem comm_exec (op : KMOp X) (ha : op.isAttach = false) : Comm n m b (exec env op) fun _ => True := by
  cases op with
  | attach => simp [KMOp.isAttach] at ha
  | setAttr x v => exact Comm.bind (Comm.modify (fun _ hs => hs.congr rfl rfl rfl rfl id) fun _ _ _ => rfl) fun _ _ => Comm.pure trivial
  | getAttr x d => exact Comm.bind (Comm.get (R := fun _ => True) (fun _ _ => Comm.pure trivial) fun _ _ _ => rfl) fun _ _ => Comm.pure trivial
  | attributes => exact Comm.get (fun _ _ => Comm.pure trivial) fun _ _ _ => rfl
  | numSamples => exact Comm.get (fun _ _ => Comm.pure trivial) fun _ _ _ => rfl
  | shape => exact Comm.shape.bind fun _ _ => Comm.pure trivial
  | size => exact comm_size.bind fun _ _ => Comm.pure trivial
  | full => exact comm_full.bind fun _ _ => Comm.pure trivial
  | fullSparse => exact comm_fullSparse.bind fun _ _ => Comm.pure trivial
  | center => exact comm_center.bind fun _ _ => Comm.pure trivial
  | centered => exact comm_centered.bind fun _ _ => Comm.pure trivial
  | normalize m => exact (comm_normalize m).bind fun _ _ => Comm.pure trivial
  | normedKm => exact comm_normedKmVal.bind fun _ _ => Comm.pure trivial
  | frobNorm => exact comm_frobNormVal.bind fun _ _ => Comm.pure trivial
  | diagonal => exact comm_diagonal.bind fun _ _ => Comm.pure trivial
  | getItem k => exact (comm_getItem k).bind fun _ _ => Comm.pure trivial

theorem write_write (r r' q q' : Nat → X) (s : KMState K X V) : (s.write (.samples r r')).write (.samples q q') = s.write (.samples q q') := by
  rcases s with ⟨_, _, _ | x, _ | y, _⟩ <;> rfl

theorem traceW_settled (l : List (Step X V)) (hl : ∀ x ∈ l, x.SamplesOnly) {s s' : KMState K X V} (h : Settled n m b s)
    (hs : s' = s ∨ ∃ r r', s' = s.write (.samples r r')) : traceW env l s' = trace env (Step.calls l) s := by
  induction l generalizing s s' with
  | nil => rfl
  | cons x l ih =>
    have hl' : ∀ y ∈ l, y.SamplesOnly := fun y hy => hl y (List.mem_cons_of_mem _ hy)
    have hx := hl x List.mem_cons_self
    cases x with
    | call op =>
      obtain ⟨h1, _, h3⟩ := comm_exec (env := env) op hx s h
      show _ :: _ = _ :: _
      rcases hs with rfl | ⟨r, r', rfl⟩
      · rw [ih hl' h1 (Or.inl rfl)]
      · rw [h3]
        exact congrArg _ (ih hl' h1 (Or.inr ⟨r, r', rfl⟩))
    | write w =>
      cases w with
      | samples q q' =>
        refine ih hl' h (Or.inr ⟨q, q', ?_⟩)
        rcases hs with rfl | ⟨r, r', rfl⟩
        · rfl
        · exact write_write _ _ _ _ _
      | _ => exact hx.elim

theorem populated_leaf (env : Env K X V) : Leaf env fun s => s.populated = true where
  eval i j s hs := by
    obtain ⟨⟨c, nn, u, t, fk, h1⟩, _⟩ := evalKernel_same env s i j
    exact ⟨by rw [h1]; exact hs, fun _ _ => trivial⟩
  upper d s hs := by
    rw [populateUpper_done hs]
    exact ⟨hs, fun _ _ => trivial⟩
  lower l := by
    refine Holds.get.bind fun _ _ => Holds.when <| Holds.bind (R := fun _ => True) (Holds.catchAll ?_) fun _ _ => Holds.modify fun _ h => h
    refine (Holds.getAttr fun _ _ _ _ => trivial).bind fun _ _ => (Holds.getAttr fun _ _ _ _ => trivial).bind fun _ _ => Holds.ite (Holds.modify fun _ h => h) ?_
    intro s hs
    obtain ⟨_, ⟨c, nn, u, t, fk, h1⟩, _⟩ := fillCells_spec env (lowerPairs _ _) s
    exact ⟨by rw [h1]; exact hs, fun _ _ => trivial⟩
  dens d := (Holds.getAttr fun _ _ _ _ => trivial).bind fun _ _ => Holds.when <| Holds.modify fun _ hs => hs
  clock _ _ hs := hs
  normed _ _ hs := hs
  centered _ _ hs := hs
  frob _ _ hs := hs
  attrs _ _ hs := hs

theorem normedKmVal_flag {s s1 : KMState K X V} {A : Fmt × Mat V} (hf : NoFaults env) {a : Attachment X} {sp : Lv} (hg : Good env a sp s)
    (h : normedKmVal env s = (.ok A, s1)) : s1.isNormed = true := by
  unfold normedKmVal at h
  rw [get_bind_run] at h
  rcases hn : s.isNormed
  · rw [hn] at h
    obtain ⟨_, s2, h1, h2⟩ := bind_ok_iff.1 h
    have := (normalize_ff hf hg "cosine").2.2.2.2.2.1
    simp only [Bool.not_false, when_true] at h1
    rw [h1] at this
    have h3 := this rfl
    rw [getAttr_run] at h2
    rcases hq : s2.normedKm with _ | N
    · rw [hq] at h2; cases h2
    · rw [hq] at h2
      injection h2 with _ h2
      rw [← h2]; exact h3
  · rw [hn] at h
    obtain ⟨_, s2, h1, h2⟩ := bind_ok_iff.1 h
    injection h1 with _ h1
    rw [← h1, getAttr_run] at h2
    rcases hq : s.normedKm with _ | N
    · rw [hq] at h2; cases h2
    · rw [hq] at h2
      injection h2 with _ h2
      rw [← h2]; exact hn

theorem settled_after_full {k : K} {norm : Bool} {a : Attachment X} {P : KMOp X → Prop} {s s1 : KMState K X V} (h : SinceClean env k norm a P s)
    (hone : a.two = none ∨ norm = true) {out : KMOut V} (hr : exec env .full s = (.ok out, s1)) :
    Settled a.nrows a.ncols a.two.isSome s1 := by
  have hnf : ¬ Failed (exec env .full s).1 := by rw [hr]; rintro (h | h) <;> cases h
  have h0 : Since env k norm a (fun _ => True) s := by
    clear hr hnf
    induction h with
    | attached hr ha h => exact .attached hr ha h
    | call op _ ha _ _ ih => exact .call op ih ha trivial
  have h1 : Since env k norm a (fun _ => True) s1 := by
    have := h0.call .full rfl trivial
    rwa [hr] at this
  have hk := h1.keyed
  have hkn := h0.keepNormed
  have hg : Good env.faultless a ⟨true, true⟩ s := h.good _ (by simp) (by simp)
  rw [exec_faultless .full hnf] at hr
  have hg1 : Good env.faultless a ⟨true, true⟩ s1 := by
    have := (full_ff (noFaults_faultless env) hg).1
    rw [exec_full_run] at hr
    injection hr with _ hr
    rwa [hr] at this
  obtain ⟨s2, r, e1, e2, e3, e4, _⟩ := ensurePopulated_ff (noFaults_faultless env) hg
  rw [exec_full_run] at hr
  injection hr with hr1 hr2
  rcases hful : full env.faultless s with ⟨e | A, t⟩
  · rw [hful] at hr1; cases hr1
  obtain rfl : t = s1 := by rw [hful] at hr2; exact hr2
  unfold full at hful
  rw [get_bind_run] at hful
  obtain ⟨_, s3, f1, f2⟩ := bind_ok_iff.1 hful
  obtain rfl : s3 = s := by
    rcases hb : s.sample.isNone <;> rw [hb] at f1
    · injection f1 with _ f1; exact f1.symm
    · cases f1
  obtain ⟨_, s4, f3, f4⟩ := bind_ok_iff.1 f2
  obtain rfl : s4 = s2 := by rw [f3] at e1; injection e1
  have hpop : t.populated = true := by
    rcases hb : s3.keepNormed <;> rw [hb] at f4
    · have := (Leaf.fullMat (Q := fun s : KMState K X V => s.populated = true) s4 e4).1
      change fullMat s4 = _ at f4
      rwa [f4] at this
    · have := ((populated_leaf env.faultless).normedKmVal s4 e4).1
      change normedKmVal env.faultless s4 = _ at f4
      rwa [f4] at this
  have hnormed : norm = true → t.isNormed = true := by
    intro hn
    rw [hkn, hn] at f4
    exact normedKmVal_flag (noFaults_faultless env) e2 f4
  refine ⟨hk.shape, hk.two, hk.square, hpop, fun hb => ?_, fun i hi j hj => ?_⟩
  · rcases hone with h | h
    · rw [h] at hb; cases hb
    · exact hnormed h
  · by_cases hij : i ≤ j
    · exact hk.upper hpop (i, j) (mem_upperPairs.2 ⟨hi, hj, hij⟩)
    · rcases ha : a.two with _ | B
      · have hsq : a.nrows = a.ncols := hk.square (by rw [ha]; rfl)
        have := hk.upper hpop (j, i) (mem_upperPairs.2 ⟨by omega, by omega, by omega⟩)
        rw [ha] at this
        simpa [memoKey, hij, show ¬ i < j by omega, show ¬ j > i by omega, show i > j by omega] using this
      · have hl : t.lowerFilled = true := by
          rcases hg1.full with ⟨_, h, _⟩ | ⟨f, _, _, _, _, _, h6, _⟩
          · rw [hpop] at h; cases h
          · refine h6 (Or.inl ?_)
            rw [h1.keepNormed]
            rcases hone with h | h
            · rw [ha] at h; cases h
            · exact h
        exact ha ▸ hk.lower (by rw [ha]; rfl) hl (i, j) (mem_lowerPairs.2 ⟨hi, hj, by omega⟩)

theorem complete_after_full {k : K} {a : Attachment X} {P : KMOp X → Prop} {s s1 : KMState K X V} (h : SinceClean env k false a P s) {A : Mat V}
    (hr : exec env .full s = (.ok (.mat .dense A), s1)) :
    ∃ f : Full V, f.fmt = .dense ∧ A = Mat.ofCells a.nrows a.ncols f.cell ∧ s1.populated = true ∧ s1.lowerFilled = true ∧ s1.fullKm = some f := by
  have hnf : ¬ Failed (exec env .full s).1 := by rw [hr]; rintro (h | h) <;> cases h
  have h0 : Since env k false a (fun _ => True) s := by
    clear hr hnf
    induction h with
    | attached hr ha h => exact .attached hr ha h
    | call op _ ha _ _ ih => exact .call op ih ha trivial
  have hkn := h0.keepNormed
  have hg : Good env.faultless a ⟨true, true⟩ s := h.good _ (by simp) (by simp)
  rw [exec_faultless .full hnf, exec_full_run] at hr
  obtain ⟨s2, r, e1, e2, e3, e4, _⟩ := ensurePopulated_ff (noFaults_faultless env) hg
  injection hr with hr1 hr2
  rcases hful : full env.faultless s with ⟨e | B, t⟩
  · rw [hful] at hr1; cases hr1
  obtain rfl : t = s1 := by rw [hful] at hr2; exact hr2
  rw [hful] at hr1
  unfold full at hful
  rw [get_bind_run] at hful
  obtain ⟨_, s3, f1, f2⟩ := bind_ok_iff.1 hful
  obtain rfl : s3 = s := by
    rcases hb : s.sample.isNone <;> rw [hb] at f1
    · injection f1 with _ f1; exact f1.symm
    · cases f1
  obtain ⟨_, s4, f3, f4⟩ := bind_ok_iff.1 f2
  obtain rfl : s4 = s2 := by rw [f3] at e1; injection e1
  rw [hkn] at f4
  change fullMat s4 = _ at f4
  rcases e2.full with ⟨_, h, _⟩ | ⟨f, g1, g2, g3, g4, g5, _⟩
  · rw [e4] at h; cases h
  rw [fullMat_run g1 e2.att.shape] at f4
  injection f4 with f5 f6
  injection f5 with f5
  subst f6
  change Except.ok (KMOut.mat B.1 B.2) = _ at hr1
  injection hr1 with hr1
  injection hr1 with q1 q2
  have hd : f.fmt = .dense := by rw [← q1, ← f5]
  exact ⟨f, hd, by rw [← q2, ← f5], e4, g5 hd, g1⟩

/-- a matrix that is complete is not written to any more -/
theorem complete_leaf (env : Env K X V) (f : Full V) (hf : f.fmt = .dense) :
    Leaf env fun s => s.populated = true ∧ s.lowerFilled = true ∧ s.fullKm = some f where
  eval i j s hs := by
    obtain ⟨⟨c, nn, u, t, fk, h1⟩, h2⟩ := evalKernel_same env s i j
    exact ⟨⟨by rw [h1]; exact hs.1, by rw [h1]; exact hs.2.1, h2.trans hs.2.2⟩, fun _ _ => trivial⟩
  upper d s hs := by
    rw [populateUpper_done hs.1]
    exact ⟨hs, fun _ _ => trivial⟩
  lower l s hs := by
    rw [populateLower_skip (Or.inr hs.2.1)]
    exact ⟨hs, fun _ _ => trivial⟩
  dens d s hs := by
    rw [densify_skip hs.2.2 (Or.inr hf)]
    exact ⟨hs, fun _ _ => trivial⟩
  clock _ _ hs := hs
  normed _ _ hs := hs
  centered _ _ hs := hs
  frob _ _ hs := hs
  attrs _ _ hs := hs

end
end KMState
end KMethods
