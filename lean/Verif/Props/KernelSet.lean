import Verif.Lemmas.World
import Verif.Spec.DemoSet
/-!
# C36-C39: `KernelSet`
-/
namespace KMethods
open PyM
variable {K X : Type}

/-- **C36** (append) A kernel matrix is added at the end if it agrees with the set in the number of samples, or the set is new, and then
the set has the number of samples of the added object. -/
theorem C36_append_compatible {s : SetSt K X} {r : Nat} {n : NumSamples} (hr : s.heap.numSamples r = .ok n) (h : s.set.Accepts n) :
    (SetSt.append (.ref r) s).1 = .ok () ∧ (SetSt.append (.ref r) s).2.heap = s.heap ∧
    (SetSt.append (.ref r) s).2.set.members = s.set.members ++ [r] ∧ (SetSt.append (.ref r) s).2.set.numSamples = n ∧
    ∀ n', (SetSt.append (.ref r) s).2.set.Accepts n' → n' = n := by
  have := SetSt.appendRef_ok hr h
  show (SetSt.appendRef r s).1 = _ ∧ (SetSt.appendRef r s).2.heap = _ ∧ (SetSt.appendRef r s).2.set.members = _ ∧
    (SetSt.appendRef r s).2.set.numSamples = _ ∧ ∀ n', (SetSt.appendRef r s).2.set.Accepts n' → n' = n
  rw [this]
  refine ⟨rfl, rfl, rfl, rfl, ?_⟩
  rintro n' (h' | ⟨h1, h2⟩)
  · exact h'.symm
  · exfalso
    have h1' : (s.set.isInit || s.set.numSamples == .unset) = false := h1
    obtain rfl : n = .unset := h2
    rw [Bool.or_eq_false_iff] at h1'
    rcases h with h | h
    · rw [h] at h1'; simp at h1'
    · rw [h.2] at h1'; simp at h1'

/-- a set with known size, and a new set -/
example : Demo.setStA.heap.numSamples 1 = .ok (.one 3) ∧ Demo.setStA.set.Accepts (.one 3) ∧ (KSet.new .unset).Accepts (.one 3) :=
  ⟨rfl, .inl rfl, .inr ⟨rfl, rfl⟩⟩

/-- **C36** (append) An incompatible kernel matrix is rejected with `KMSetAdditionError`, and nothing changes. -/
theorem C36_append_incompatible {s : SetSt K X} {r : Nat} {n : NumSamples} (hr : s.heap.numSamples r = .ok n) (h : ¬ s.set.Accepts n) :
    SetSt.append (.ref r) s = (.error .kmSetAddition, s) := SetSt.appendRef_reject hr h

/-- a kernel matrix that is not attached does not fit into a set of attached ones -/
example : Demo.setStA.heap.numSamples 3 = .ok .unset ∧ ¬ Demo.setStA.set.Accepts .unset := by
  refine ⟨rfl, ?_⟩
  rintro (h | h)
  · cases h
  · cases h.1

/-- **C36** (constructor) A set created without members has none; created with `num_samples` it accepts objects of exactly that size, else of any size. Anything that is neither `None`, nor a
kernel matrix, nor iterable is a `TypeError`. -/
theorem C36_new_set (num : NumSamples) (h : Heap K X) :
    (∃ t, mkSet .none num h = (.ok t, h) ∧ t.members = [] ∧ (num ≠ .unset → ∀ n, t.Accepts n ↔ n = num) ∧ (num = .unset → ∀ n, t.Accepts n)) ∧
    mkSet .other num h = (.error .typeError, h) := by
  refine ⟨⟨_, rfl, rfl, fun hn n => ⟨?_, fun hn' => .inl hn'.symm⟩, fun hn n => .inr ⟨?_, hn⟩⟩, rfl⟩
  · rintro (h1 | h1)
    · exact h1.symm
    · exact absurd h1.2 hn
  · show (num != .unset) = false
    rw [hn]
    rfl

/-- **C36** (constructor) With one kernel matrix and `num_samples`: the object is rejected with `KMSetAdditionError` unless it has that size; without `num_samples` the set takes the size of the
object. Once the set has a member, only objects of the same size are accepted. -/
theorem C36_new_set_one (num : NumSamples) {h : Heap K X} {r : Nat} {n : NumSamples} (hr : h.numSamples r = .ok n) :
    (num = .unset ∨ num = n → ∃ t, mkSet (.one (.ref r)) num h = (.ok t, h) ∧ t.members = [r] ∧ ∀ n', t.Accepts n' → n' = n) ∧
    (num ≠ .unset → num ≠ n → mkSet (.one (.ref r)) num h = (.error .kmSetAddition, h)) := by
  obtain ⟨⟨t, ht, hm, h1, h2⟩, -⟩ := C36_new_set num h
  obtain rfl : KSet.new num = t := Except.ok.inj (Prod.mk.inj ht).1
  constructor
  · intro hn
    have ha : (KSet.new num).Accepts n := by
      rcases eq_or_ne num .unset with hu | hu
      · exact h2 hu n
      · exact (h1 hu n).2 (hn.resolve_left hu).symm
    obtain ⟨e1, e2, e3, -, e4⟩ := C36_append_compatible (s := ⟨h, KSet.new num⟩) hr ha
    refine ⟨_, Prod.ext (congrArg (Except.map _) e1) e2, e3, e4⟩
  · intro hu hn
    have ha : ¬ (KSet.new num).Accepts n := fun ha => hn ((h1 hu n).1 ha).symm
    have := C36_append_incompatible (s := ⟨h, KSet.new num⟩) hr ha
    show (Except.map _ (SetSt.append (.ref r) ⟨h, KSet.new num⟩).1, _) = _
    rw [this]
    rfl

example : Demo.setStA.heap.numSamples 1 = .ok (.one 3) ∧ NumSamples.one 2 ≠ .unset ∧ NumSamples.one 2 ≠ .one 3 := ⟨rfl, by simp, by simp⟩

/-- **C36** (append) A matrix is turned into a `KernelMatrixPrecomputed`, whose size is compared with the set. -/
theorem C36_append_matrix {env : Env K X F} {s : SetSt K X} (hs : Heap.Ok env s.heap) {x : PreIn} {p : Precomputed} (hx : mkPrecomputed x = .ok p) :
    (s.set.Accepts (.one p.numSamples) → ∃ h', SetSt.append (.other x) s =
        (.ok (), ⟨h', ⟨s.set.members ++ [s.heap.next], .one p.numSamples, s.set.isInit || s.set.numSamples == .unset⟩⟩) ∧
        h'.objs s.heap.next = some (.pre p) ∧ ∀ r o, s.heap.objs r = some o → h'.objs r = some o) ∧
    (¬ s.set.Accepts (.one p.numSamples) →
      (SetSt.append (.other x) s).1 = .error .kmSetAddition ∧ (SetSt.append (.other x) s).2.set = s.set) := by
  rw [append_other_run, hx]
  simp only
  have hn : (Heap.alloc (.pre p) s.heap).2.numSamples s.heap.next = .ok (.one p.numSamples) := by
    unfold Heap.numSamples
    rw [show (Heap.alloc (.pre p) s.heap).2.objs s.heap.next = some (.pre p) from Function.update_self ..]
  constructor
  · intro h
    refine ⟨_, SetSt.appendRef_ok (s := ⟨(Heap.alloc (.pre p) s.heap).2, s.set⟩) hn h, Function.update_self .., ?_⟩
    intro r o ho
    have : r ≠ s.heap.next := by
      rintro rfl
      rw [hs.1 _ (Nat.le_refl _)] at ho; cases ho
    rw [← ho]; exact Function.update_of_ne this _ _
  · intro h
    rw [SetSt.appendRef_reject (s := ⟨(Heap.alloc (.pre p) s.heap).2, s.set⟩) hn h]
    exact ⟨rfl, rfl⟩

/-- a 0x0 matrix, added to a new set -/
example : Heap.Ok Demo.renv Demo.setSt.heap ∧ ∃ p, mkPrecomputed (.real ⟨0, 0, fun i => i.elim0⟩) = .ok p := by
  refine ⟨⟨fun r hr => if_neg (Nat.not_lt.2 hr), fun r s hr => ?_⟩, ?_⟩
  · have hr' : (if r < 3 then some (Obj.km (KMState.init () false 0)) else none) = some (Obj.km s) := hr
    split at hr'
    · injection hr' with hr'; injection hr' with hr'; subst hr'; exact ⟨(), false, .new 0⟩
    · cases hr'
  · have hsym : notSymmetric (⟨0, 0, fun i => i.elim0⟩ : Mat F) = .ok false := by
      rcases h : notSymmetric (⟨0, 0, fun i => i.elim0⟩ : Mat F) with e | b
      · exfalso; revert h; simp [notSymmetric, Mat.transpose, bcastDim, bind, Except.bind, pure, Except.pure]
      · congr 1
        revert h
        simp [notSymmetric, Mat.transpose, bcastDim, bind, Except.bind, pure, Except.pure]
    simp [mkPrecomputed, hsym, bind, Except.bind]

/-- **C36** (append) Whatever is appended, if `append` raises, the members and the size of the set stay the same. -/
theorem C36_failed_append {s : SetSt K X} {a : AppendArg} {e : PyErr} (h : (SetSt.append a s).1 = .error e) :
    (SetSt.append a s).2.set = s.set := by
  have key : ∀ (s : SetSt K X) r, (SetSt.appendRef r s).1 = .error e → (SetSt.appendRef r s).2.set = s.set := by
    intro s r h
    rcases SetSt.appendRef_cases s r with ⟨n, -, -, hr⟩ | ⟨e, hr⟩
    · rw [hr] at h; cases h
    · rw [hr]
  cases a with
  | ref r => exact key s r h
  | kernelFunc => rfl
  | other x =>
    rw [append_other_run] at h ⊢
    rcases hp : mkPrecomputed x with e | p
    · rfl
    · rw [hp] at h; exact key _ _ h

/-- appending a kernel function always raises: it has no number of samples (`AttributeError`) -/
example (s : SetSt K X) : (SetSt.append .kernelFunc s).1 = .error .attributeError := rfl

/-- **C36** (agreement) In every program using any number of sets (sharing members or not), objects and operations in any order, failing or not, all
members of a set agree with it in the number of samples, provided no member of a set is attached behind its back (by itself, or through
another set whose size was not yet known). -/
theorem C36_members_agree {env : Env K X F} {w : World K X} (h : World.Orderly env w) {t : KSet} (ht : t ∈ w.sets) {r : Nat} (hr : r ∈ t.members) :
    w.heap.numSamples r = .ok t.numSamples := (h.inv.2 t ht).1 r hr

/-- a program with two sets sharing a kernel matrix, of which the first is attached -/
example : World.Orderly Demo.renv (World.run Demo.renv
    [.newKM () false 0, .newSet .none .unset, .append 0 (.ref 0), .attach 0 Demo.sample3 none, .take 0 (.ints [0, 0]),
      .attach 0 Demo.sample3 none] .empty) := by
  refine .step _ (.step _ (.step _ (.step _ (.step _ (.step _ .empty trivial) trivial) trivial) ?_) trivial) ?_
  · intro t _
    refine .inr fun j u hj hu => ?_
    exfalso
    rcases j with _ | j
    · exact hj rfl
    · cases hu
  · intro t ht
    refine .inl ?_
    have : t = ⟨[0], .one 3, true⟩ := by
      have h2 : some (⟨[0], .one 3, true⟩ : KSet) = some t := ht
      injection h2 with h2; exact h2.symm
    rw [this]; intro h; cases h

/-- The proviso is needed: two sets share an unattached kernel matrix and the first set is attached. -/
theorem C36_sharing_breaks_agreement : ∃ (w : World Unit ℝ), World.Reachable Demo.renv w ∧
    ∃ t ∈ w.sets, ∃ r ∈ t.members, w.heap.numSamples r ≠ .ok t.numSamples := by
  refine ⟨World.run Demo.renv [.newKM () false 0, .newSet .none .unset, .append 0 (.ref 0), .take 0 (.ints [0]),
    .attach 0 Demo.sample3 none] .empty, .step _ (.step _ (.step _ (.step _ (.step _ .empty)))), ⟨[0], .unset, true⟩, ?_, 0, by simp, ?_⟩
  · show _ ∈ [(⟨[0], .one 3, true⟩ : KSet), ⟨[0], .unset, true⟩]
    simp
  · show Except.ok (NumSamples.one 3) ≠ .ok .unset
    intro h; injection h with h; cases h

/-- **C37** `len`, iteration and indexing agree: iteration gives a list of `len` references, `ks[i]` is its entry number `i` for
`0 <= i < len`, and raises `IndexError` for other integers; indices that are no integers raise `ValueError` (lists of integers `TypeError`). Nothing
is changed. -/
theorem C37_sequence (s : SetSt K X) : ∃ l : List Nat, SetSt.iter s = (.ok l, s) ∧ SetSt.size s = (.ok l.length, s) ∧
    (∀ i : Nat, ∀ r, l[i]? = some r → SetSt.getItem (.int i) s = (.ok r, s)) ∧
    (∀ i : Int, i < 0 ∨ l.length ≤ i → SetSt.getItem (.int i) s = (.error .indexError, s)) ∧
    SetSt.getItem .other s = (.error .valueError, s) ∧ SetSt.getItem .intList s = (.error .typeError, s) := by
  refine ⟨s.set.members, rfl, rfl, ?_, ?_, rfl, rfl⟩
  · intro i r hr
    show (raiseIf (decide ((i : Int) < 0) || decide ((i : Int) ≥ (s.set.members.length : Int))) .indexError >>= fun _ => _ : PyM (SetSt K X) Nat) s = _
    obtain ⟨hlt, hr'⟩ := List.getElem?_eq_some_iff.1 hr
    rw [show (decide ((i : Int) < 0) || decide ((i : Int) ≥ (s.set.members.length : Int))) = false by
      simp only [Bool.or_eq_false_iff, decide_eq_false_iff_not]; omega]
    show (Except.ok (s.set.members.getD (i : Int).toNat 0), s) = _
    rw [Int.toNat_natCast, List.getD_eq_getElem?_getD, hr]; rfl
  · intro i hi
    show (raiseIf (decide (i < 0) || decide (i ≥ (s.set.members.length : Int))) .indexError >>= fun _ => _ : PyM (SetSt K X) Nat) s = _
    rw [show (decide (i < 0) || decide (i ≥ (s.set.members.length : Int))) = true by
      simp only [Bool.or_eq_true, decide_eq_true_eq]; omega]
    rfl

example : (SetSt.iter Demo.setSt).1 = .ok [2, 0] := rfl

/-- **C37** Kernel matrices are kept in the order in which they were appended: appending (in a program that goes on after exceptions) any
references to a set of known size leaves the old members in front, followed by those of the new ones that have this number of samples. -/
theorem C37_appends_in_order {s : SetSt K X} (h : s.set.isInit = true ∨ s.set.numSamples ≠ .unset) (refs : List Nat) :
    (refs.foldl (fun s r => (SetSt.append (.ref r) s).2) s).set.members =
      s.set.members ++ refs.filter fun r => match s.heap.numSamples r with
        | .ok n => n = s.set.numSamples
        | .error _ => false := by
  induction refs generalizing s with
  | nil => simp
  | cons r refs ih =>
    rw [List.foldl_cons]
    have hinit : s.set.isInit = true ∨ s.set.numSamples ≠ .unset → (s.set.isInit || s.set.numSamples == .unset) = s.set.isInit := by
      rintro (h | h) <;> simp [h]
    rcases hn : s.heap.numSamples r with e | n
    · have hr : (SetSt.append (.ref r) s) = (.error e, s) := SetSt.appendRef_dangling hn
      rw [hr, ih h, List.filter_cons]
      simp [hn]
    · by_cases ha : n = s.set.numSamples
      · have hr : (SetSt.append (.ref r) s) = _ := SetSt.appendRef_ok hn (.inl ha.symm)
        rw [hr, ih (by rw [hinit h, ha]; exact h), List.filter_cons]
        simp [hn, ha]
      · have hr : (SetSt.append (.ref r) s) = _ := SetSt.appendRef_reject hn (by
          rintro (h1 | h1)
          · exact ha h1.symm
          · rcases h with h | h
            · rw [h1.1] at h; cases h
            · exact h h1.2)
        rw [hr, ih h, List.filter_cons]
        simp [hn, ha]

/-- appending the four objects to a set of known size: three fit -/
example : ((List.range 4).foldl (fun s r => (SetSt.append (.ref r) s).2) Demo.setStA).set.members = [2, 0, 0, 1, 2] := rfl

/-- **C37** `extend` appends the members of the other set in order. -/
theorem C37_extend {s : SetSt K X} {t : KSet} (hn : t.numSamples = s.set.numSamples) (hi : s.set.isInit = true ∨ s.set.numSamples ≠ .unset)
    (ht : ∀ r ∈ t.members, s.heap.numSamples r = .ok t.numSamples) :
    SetSt.extend (some t) s = (.ok (), ⟨s.heap, { s.set with members := s.set.members ++ t.members }⟩) := by
  show (raiseIf (t.numSamples != s.set.numSamples) .kmSetAddition >>= fun _ => forEach t.members SetSt.appendRef : PyM (SetSt K X) Unit) s = _
  rw [show (t.numSamples != s.set.numSamples) = false by simp [hn]]
  show forEach t.members SetSt.appendRef s = _
  rw [SetSt.forEach_appendRef (n := s.set.numSamples) rfl hi (by rw [← hn]; exact ht)]

/-- **C37** a set extended by itself is doubled -/
theorem C37_extend_self {s : SetSt K X} (hi : s.set.isInit = true ∨ s.set.numSamples ≠ .unset)
    (ht : ∀ r ∈ s.set.members, s.heap.numSamples r = .ok s.set.numSamples) :
    SetSt.extend (some s.set) s = (.ok (), ⟨s.heap, { s.set with members := s.set.members ++ s.set.members }⟩) :=
  C37_extend rfl hi ht

/-- **C37** a new set without samples is extended by a new set without samples: it becomes a copy -/
theorem C37_extend_new {s : SetSt K X} {t : KSet} (hs : s.set = .new .unset) (hn : t.numSamples = .unset) (hne : t.members ≠ [])
    (ht : ∀ r ∈ t.members, s.heap.numSamples r = .ok t.numSamples) :
    SetSt.extend (some t) s = (.ok (), ⟨s.heap, ⟨t.members, .unset, true⟩⟩) := by
  obtain ⟨h, u⟩ := s
  obtain rfl : u = .new .unset := hs
  show (raiseIf (t.numSamples != NumSamples.unset) .kmSetAddition >>= fun _ => forEach t.members SetSt.appendRef : PyM (SetSt K X) Unit) _ = _
  rw [show (t.numSamples != .unset) = false by simp [hn]]
  show forEach t.members SetSt.appendRef _ = _
  rw [hn] at ht
  exact SetSt.forEach_appendRef_new hne ht

/-- **C37** `extend` with a set of another size, or something that is no set, raises `KMSetAdditionError` and changes nothing. -/
theorem C37_extend_incompatible {s : SetSt K X} {t : Option KSet} (hn : ∀ u, t = some u → u.numSamples ≠ s.set.numSamples) :
    SetSt.extend t s = (.error .kmSetAddition, s) := by
  cases t with
  | none => rfl
  | some t =>
    show (raiseIf (t.numSamples != s.set.numSamples) .kmSetAddition >>= fun _ => forEach t.members SetSt.appendRef : PyM (SetSt K X) Unit) s = _
    rw [show (t.numSamples != s.set.numSamples) = true by simpa using hn t rfl]
    rfl

/-- **C37** in every case `extend` keeps the old members in front, adds nothing but members of the other set in order, and touches no object -/
theorem C37_extend_only_adds (s : SetSt K X) (t : KSet) :
    (SetSt.extend (some t) s).2.heap = s.heap ∧
    ∃ p, p <+: t.members ∧ (SetSt.extend (some t) s).2.set.members = s.set.members ++ p := by
  have hr : SetSt.extend (some t) s = (raiseIf (t.numSamples != s.set.numSamples) .kmSetAddition >>= fun _ =>
      forEach t.members SetSt.appendRef) s := rfl
  rw [hr]
  rcases hb : (t.numSamples != s.set.numSamples) with _ | _
  · obtain ⟨h1, p, h2, h3, -⟩ := SetSt.forEach_appendRef_prefix t.members s
    exact ⟨h1, p, h2, h3⟩
  · exact ⟨rfl, [], by simp, by simp [bind_run]⟩

example : (Demo.setStA.set.isInit = true ∨ Demo.setStA.set.numSamples ≠ .unset) ∧
    (∀ r ∈ Demo.setStA.set.members, Demo.setStA.heap.numSamples r = .ok Demo.setStA.set.numSamples) ∧
    (SetSt.extend (some Demo.setStA.set) Demo.setStA).2.set.members = [2, 0, 2, 0] := by
  refine ⟨.inl rfl, ?_, rfl⟩
  intro r hr
  have : r = 2 ∨ r = 0 := by simpa [Demo.setStA] using hr
  rcases this with rfl | rfl <;> rfl

/-- **C37** `take` returns the requested members in the requested order, repetitions kept (the members being of one size, see C36), and leaves the set
unchanged. -/
theorem C37_take {s : SetSt K X} {n : NumSamples} {l : List Nat} (hne : l ≠ []) (hl : ∀ i ∈ l, i < s.set.members.length)
    (hu : ∀ i ∈ l, s.heap.numSamples (s.set.members.getD i 0) = .ok n) :
    SetSt.take (.ints (l.map Int.ofNat)) s = (.ok ⟨l.map fun i => s.set.members.getD i 0, n, true⟩, s) := by
  have hc : SetSt.checkIdx s.set.members.length (.ints (l.map Int.ofNat)) = .ok l := by
    have h1 : ((l.map Int.ofNat).any fun i => decide (i < 0) || decide (i ≥ (s.set.members.length : Int))) = false := by
      rw [List.any_eq_false]
      intro x hx
      obtain ⟨i, hi, rfl⟩ := List.mem_map.1 hx
      have h1 := hl i hi
      simpa using h1
    show (if _ then _ else _) = _
    rw [h1, if_neg (by simp), List.map_map]
    congr 1
    have : (Int.toNat ∘ Int.ofNat) = id := by funext i; simp
    rw [this, List.map_id]
  rw [take_run, hc]
  simp only [Except.bind]
  rw [SetSt.forEach_appendRef_new (n := n) (by simpa using hne) (by
    intro r hr
    obtain ⟨i, hi, rfl⟩ := List.mem_map.1 hr
    exact hu i hi)]
  rfl

/-- the members 1, 0, 1 of the set -/
example : SetSt.take (.ints [1, 0, 1]) Demo.setStA = (.ok ⟨[0, 2, 0], .one 3, true⟩, Demo.setStA) := rfl

/-- **C37** nothing requested: a new empty set -/
theorem C37_take_nothing (s : SetSt K X) : SetSt.take (.ints []) s = (.ok (.new .unset), s) := rfl

/-- **C37** `take` never changes the set, and raises `IndexError` if an index is out of range. -/
theorem C37_take_out_of_range {s : SetSt K X} {l : List Int} (h : ∃ i ∈ l, i < 0 ∨ (s.set.members.length : Int) ≤ i) :
    SetSt.take (.ints l) s = (.error .indexError, s) := by
  have hc : SetSt.checkIdx s.set.members.length (.ints l) = .error .indexError := by
    have h1 : (l.any fun i => decide (i < 0) || decide (i ≥ (s.set.members.length : Int))) = true := by
      rw [List.any_eq_true]
      obtain ⟨i, hi, h⟩ := h
      exact ⟨i, hi, by simpa using h⟩
    show (if _ then _ else _) = _
    rw [h1, if_pos rfl]
  rw [take_run, hc]
  rfl

theorem C37_take_keeps_source (s : SetSt K X) (idx : IndicesArg) : (SetSt.take idx s).2 = s := by rw [take_run]

/-- **C37** (`get_kernel_funcs`) the kernel functions of the requested members, in the requested order -/
theorem C37_kernel_funcs {env : Env K X F} {s : SetSt K X} {l : List Nat} {ks : List K} (hl : ∀ i ∈ l, i < s.set.members.length)
    (hk : List.Forall₂ (fun i k => ∃ norm, s.heap.IsKM env (s.set.members.getD i 0) k norm) l ks) :
    SetSt.kernelFuncs (.ints (l.map Int.ofNat)) s = (.ok ks, s) := by
  have hc : SetSt.checkIdx s.set.members.length (.ints (l.map Int.ofNat)) = .ok l := by
    have h1 : ((l.map Int.ofNat).any fun i => decide (i < 0) || decide (i ≥ (s.set.members.length : Int))) = false := by
      rw [List.any_eq_false]
      intro x hx
      obtain ⟨i, hi, rfl⟩ := List.mem_map.1 hx
      have h1 := hl i hi
      simpa using h1
    show (if _ then _ else _) = _
    rw [h1, if_neg (by simp), List.map_map]
    congr 1
    have : (Int.toNat ∘ Int.ofNat) = id := by funext i; simp
    rw [this, List.map_id]
  show (lift (SetSt.checkIdx s.set.members.length _) >>= _ : PyM (SetSt K X) (List K)) s = _
  rw [hc]
  show mapEach (l.map fun i => s.set.members.getD i 0) _ s = _
  clear hc hl
  induction hk with
  | nil => rfl
  | @cons i k l ks hik _ ih =>
    obtain ⟨norm, t, ht, hre⟩ := hik
    rw [List.map_cons, mapEach_cons_ok]
    refine ⟨k, s, ks, ?_, ih, rfl⟩
    unfold SetSt.onHeap
    rw [Heap.call_km _ ht]
    show (Except.ok t.kernel, (⟨⟨Function.update s.heap.objs _ (some (.km t)), s.heap.next⟩, s.set⟩ : SetSt K X)) = _
    rw [hre.kernel.1, ← ht, Function.update_eq_self]

example : List.Forall₂ (fun i k => ∃ norm, Demo.setSt.heap.IsKM Demo.renv (Demo.setSt.set.members.getD i 0) k norm) [1, 1] [(), ()] :=
  .cons ⟨false, Demo.isKM_heap3 (by simp [Demo.setSt])⟩ (.cons ⟨false, Demo.isKM_heap3 (by simp [Demo.setSt])⟩ .nil)

/-- **C38** A sample of another size raises `ValueError`, and nothing changes. -/
theorem C38_wrong_size {s : SetSt K X} {n m k : Nat} {row : Nat → X} (attr : Option (String × String))
    (h : s.set.numSamples ≠ .unset) (hn : s.set.numSamples ≠ .one n) :
    SetSt.attach (.arr true (n :: m :: List.replicate k 1) row) attr s = (.error .valueError, s) := by
  have hc : (SetSample.arr true (n :: m :: List.replicate k 1) row).check = .ok n := by
    show (ensureShape2D _ >>= _) = _
    rw [(ensureShape2D_iff _ n m).2 ⟨k, rfl⟩]
    rfl
  rw [attach_run, hc]
  simp only
  rw [if_neg (by simp [h, hn])]

example : Demo.setStA.set.numSamples ≠ .unset ∧ Demo.setStA.set.numSamples ≠ .one 4 := by simp [Demo.setStA]

/-- **C38** Samples that are no 2-D numeric arrays raise, and nothing changes. (This includes arrays of strings, which a single `KernelMatrix`
accepts.) -/
theorem C38_bad_sample {s : SetSt K X} {sample : SetSample X} (attr : Option (String × String))
    (h : ∀ n m k row, sample ≠ .arr true (n :: m :: List.replicate k 1) row) :
    ∃ e, SetSt.attach sample attr s = (.error e, s) ∧ (e = .valueError ∨ e = .attributeError) := by
  rcases hc : sample.check with e | n
  · refine ⟨e, by rw [attach_run, hc], ?_⟩
    cases sample with
    | noDtype c => cases c <;> (injection hc with hc; subst hc; simp)
    | arr numeric shape row =>
      have h' : (ensureShape2D shape >>= fun sh => if numeric then pure sh.1 else .error .valueError) = .error e := hc
      rcases hs : ensureShape2D shape with e' | ⟨a, b⟩
      · rw [hs] at h'
        have h' : Except.error e' = (Except.error e : Except PyErr Nat) := h'
        injection h' with h'; subst h'
        exact .inl (ensureShape2D_error _ _ hs)
      · rw [hs] at h'
        cases numeric with
        | false =>
          have h' : Except.error PyErr.valueError = (Except.error e : Except PyErr Nat) := h'
          injection h' with h'; exact .inl h'.symm
        | true => cases h'
  · exfalso
    cases sample with
    | noDtype c => cases c <;> cases hc
    | arr numeric shape row =>
      have h' : (ensureShape2D shape >>= fun sh => if numeric then pure sh.1 else .error .valueError) = .ok n := hc
      rcases hs : ensureShape2D shape with e' | ⟨a, b⟩
      · rw [hs] at h'; cases h'
      · obtain ⟨k, rfl⟩ := (ensureShape2D_iff _ _ _).1 hs
        cases numeric with
        | false => rw [hs] at h'; cases h'
        | true => exact h a b k row rfl

/-- an array of strings -/
example : ∀ n m k row, (SetSample.arr false [3, 1] (fun _ => (0 : ℝ))) ≠ .arr true (n :: m :: List.replicate k 1) row := by
  intro n m k row h; injection h with h; cases h

open KMState in
/-- **C38** Attaching a set of kernel matrices with arbitrary histories to a sample of matching size (or any size, if the set has none yet)
attaches each of them to this sample: each is in a state after a successful `attach_to` with this sample only, with no attributes except the given
one. Other objects are not touched. -/
theorem C38_attach {env : Env K X F} {s : SetSt K X} {A : Arr2 X} (j : Nat) (attr : Option (String × String))
    (hn : s.set.numSamples = .unset ∨ s.set.numSamples = .one A.nrows)
    (hkm : ∀ r ∈ s.set.members, ∃ k norm, s.heap.IsKM env r k norm) :
    ∃ h', SetSt.attach (.arr true (A.nrows :: A.ncols :: List.replicate j 1) A.row) attr s =
        (.ok (), ⟨h', { s.set with numSamples := .one A.nrows }⟩) ∧
      (∀ r, r ∉ s.set.members → h'.objs r = s.heap.objs r) ∧
      ∀ r k norm, r ∈ s.set.members → s.heap.IsKM env r k norm →
        ∃ t, h'.objs r = some (.km t) ∧
          Since env k norm ⟨A, none⟩ (fun op => ∃ a, attr = some a ∧ op = .setAttr a.1 a.2) t ∧
          ∀ name default, (exec env (.getAttr name default) t).1 = .ok (.str (match attr with
            | some a => if a.1 = name then a.2 else default
            | none => default)) := by
  have hA : Attaches (.arr (A.nrows :: A.ncols :: List.replicate j 1) A.row) none ⟨A, none⟩ := ⟨⟨j, rfl⟩, trivial⟩
  have hof := (ofArgs_iff _ _ _).2 hA
  have hc : (SetSample.arr true (A.nrows :: A.ncols :: List.replicate j 1) A.row).check = .ok A.nrows := by
    show (ensureShape2D _ >>= _) = _
    rw [(ensureShape2D_iff _ A.nrows A.ncols).2 ⟨j, rfl⟩]
    rfl
  obtain ⟨h', e1, -, o1, m1⟩ := attach_ok_run hc attr s hn (fun r hr => by
    obtain ⟨k, norm, t, ht, -⟩ := hkm r hr
    exact ⟨t, ht⟩)
  refine ⟨h', e1, o1, ?_⟩
  rintro r k norm hr ⟨t, ht, hre⟩
  refine ⟨_, m1 r t hr ht, ?_, ?_⟩
  · have hat : ∀ P, Since env k norm ⟨A, none⟩ P (KMState.attach (.arr (A.nrows :: A.ncols :: List.replicate j 1) A.row) none t).2 := by
      intro P
      refine .attached (one := .arr (A.nrows :: A.ncols :: List.replicate j 1) A.row) (two := none) hre hA ?_
      rw [exec_attach_run, attach_ok _ _ t _ hof]
      rfl
    cases attr with
    | none => exact hat _
    | some a => exact .call (.setAttr a.1 a.2) (hat _) rfl ⟨a, rfl, rfl⟩
  · intro name default
    show Except.ok (KMOut.str ((List.lookup name _).getD default)) = _
    have hempty : (KMState.attach (.arr (A.nrows :: A.ncols :: List.replicate j 1) A.row) none t).2.attrs = [] := by
      rw [attach_ok _ _ t _ hof]; rfl
    cases attr with
    | none =>
      show Except.ok (KMOut.str ((List.lookup name (KMState.attach (.arr _ A.row) none t).2.attrs).getD default)) = _
      rw [hempty]
      rfl
    | some a =>
      show Except.ok (KMOut.str ((List.lookup name (assocSet a.1 a.2 (KMState.attach (.arr _ A.row) none t).2.attrs)).getD default)) = _
      rw [hempty, assocSet_lookup]
      by_cases h : name = a.1
      · subst h; simp
      · simp [h, Ne.symm h]

example : (Demo.setSt.set.numSamples = .unset ∨ Demo.setSt.set.numSamples = .one Demo.rA.nrows) ∧
    ∀ r ∈ Demo.setSt.set.members, ∃ k norm, Demo.setSt.heap.IsKM Demo.renv r k norm := by
  refine ⟨.inl rfl, fun r hr => ⟨(), false, Demo.isKM_heap3 ?_⟩⟩
  have : r = 2 ∨ r = 0 := by simpa [Demo.setSt] using hr
  omega

/-- **C38** A member that is not a `KernelMatrix` (a precomputed one) makes `attach_to` fail with `AttributeError`. -/
theorem C38_precomputed_member {s : SetSt K X} {n m k : Nat} {row : Nat → X} (attr : Option (String × String))
    (hn : s.set.numSamples = .unset ∨ s.set.numSamples = .one n)
    {r : Nat} (hr : r ∈ s.set.members) {p : Precomputed} (hp : s.heap.objs r = some (.pre p)) :
    (SetSt.attach (.arr true (n :: m :: List.replicate k 1) row) attr s).1 = .error .attributeError := by
  have hc : (SetSample.arr true (n :: m :: List.replicate k 1) row).check = .ok n := by
    show (ensureShape2D _ >>= _) = _
    rw [(ensureShape2D_iff _ n m).2 ⟨k, rfl⟩]
    rfl
  rw [attach_run, hc]
  simp only
  rw [if_pos hn]
  have key : ∀ (l : List Nat) (h : Heap K X), r ∈ l → h.objs r = some (.pre p) →
      (forEach l (fun r => Heap.call r (KMState.attach (SetSample.arr true (n :: m :: List.replicate k 1) row).toSampleIn none)) h).1 = .error .attributeError := by
    intro l
    induction l with
    | nil => intro h hr; cases hr
    | cons x l ih =>
      intro h hr hp
      have hrun : ∀ f : Nat → PyM (Heap K X) Unit, forEach (x :: l) f h = (f x >>= fun _ => forEach l f) h := fun _ => rfl
      rw [hrun]
      rcases Heap.call_cases h x (KMState.attach (SetSample.arr true (n :: m :: List.replicate k 1) row).toSampleIn none) with ⟨t, ht, hcall⟩ | ⟨-, hcall⟩
      · have hxr : r ≠ x := by rintro rfl; rw [hp] at ht; cases ht
        rw [(attach_idem _ hc t).1] at hcall
        rw [bind_ok hcall]
        refine ih _ (by simpa [hxr] using hr) ?_
        rw [← hp]; exact Function.update_of_ne hxr _ _
      · rw [bind_error hcall]
  have := key s.set.members s.heap hr hp
  rw [bind_run, SetSt.forEach_onHeap]
  rcases he : forEach s.set.members (fun r => Heap.call r (KMState.attach (SetSample.arr true (n :: m :: List.replicate k 1) row).toSampleIn none)) s.heap with ⟨e | u, h'⟩
  · rw [he] at this; exact this
  · rw [he] at this; cases this

example : ∃ (s : SetSt Unit ℝ) (p : Precomputed), 0 ∈ s.set.members ∧ s.heap.objs 0 = some (.pre p) ∧ s.set.numSamples = .one 2 :=
  ⟨⟨⟨fun _ => some (.pre ⟨⟨2, 2, fun _ _ => .real 1⟩, 2⟩), 1⟩, ⟨[0], .one 2, true⟩⟩, ⟨⟨2, 2, fun _ _ => .real 1⟩, 2⟩, by simp, rfl, rfl⟩

open KMState in
/-- **C39** (scalar) `set_attr(name, v)` gives every member the value `v`; nothing else changes. -/
theorem C39_set_scalar {s : SetSt K X} (name v : String) (hkm : ∀ r ∈ s.set.members, ∃ t, s.heap.objs r = some (.km t)) :
    ∃ h', SetSt.setAttr name (.scalar v) s = (.ok (), ⟨h', s.set⟩) ∧ (∀ r, r ∉ s.set.members → h'.objs r = s.heap.objs r) ∧
      (∀ r t, s.heap.objs r = some (.km t) →
        ∃ as, h'.objs r = some (.km { t with attrs := as }) ∧ ∀ x, x ≠ name → as.lookup x = t.attrs.lookup x) ∧
      ∀ r ∈ s.set.members, h'.attr r name = some v := by
  have hidem : ∀ t : KMState K X F, (KMState.setAttr name v (KMState.setAttr name v t).2).2 = (KMState.setAttr name v t).2 := by
    intro t
    have : ∀ l, assocSet name v (assocSet name v l) = assocSet name v l := by
      intro l
      induction l with
      | nil => simp [assocSet]
      | cons e l ih =>
        obtain ⟨x, y⟩ := e
        by_cases hx : x = name
        · simp [assocSet, hx]
        · rw [assocSet, if_neg hx, assocSet, if_neg hx, ih]
    show ({ t with attrs := assocSet name v (assocSet name v t.attrs) } : KMState K X F) = { t with attrs := assocSet name v t.attrs }
    rw [this]
  obtain ⟨h', e1, -, o1, m1⟩ := Heap.forEach_call (m := KMState.setAttr name v) hkm (fun _ => rfl) hidem
  refine ⟨h', ?_, o1, ?_, ?_⟩
  · rw [setAttr_run]
    simp only
    rw [SetSt.forEach_onHeap, e1]
  · intro r t ht
    by_cases hr : r ∈ s.set.members
    · exact ⟨_, m1 r t hr ht, fun x hx => by rw [assocSet_lookup, if_neg hx]⟩
    · exact ⟨t.attrs, by rw [o1 r hr]; exact ht, fun _ _ => rfl⟩
  · intro r hr
    obtain ⟨t, ht⟩ := hkm r hr
    unfold Heap.attr
    rw [m1 r t hr ht]
    show (assocSet name v t.attrs).lookup name = _
    rw [assocSet_lookup, if_pos rfl]

/-- **C39** (sequence) `set_attr(name, values)` with as many values as members gives member `i` the value number `i` (for an object occurring several
times in the set, the last of its values remains); nothing else changes. -/
theorem C39_set_sequence {s : SetSt K X} (name : String) {l : List String} (hl : l.length = s.set.members.length)
    (hkm : ∀ r ∈ s.set.members, ∃ t, s.heap.objs r = some (.km t)) :
    ∃ h', SetSt.setAttr name (.seq l) s = (.ok (), ⟨h', s.set⟩) ∧ (∀ r, r ∉ s.set.members → h'.objs r = s.heap.objs r) ∧
      (∀ r t, s.heap.objs r = some (.km t) →
        ∃ as, h'.objs r = some (.km { t with attrs := as }) ∧ ∀ x, x ≠ name → as.lookup x = t.attrs.lookup x) ∧
      ∀ (i : Nat) r v, s.set.members[i]? = some r → l[i]? = some v → (∀ j : Nat, i < j → s.set.members[j]? ≠ some r) →
        h'.attr r name = some v := by
  obtain ⟨h', e1, o1, k1, a1⟩ := setAttrs_run name (s.set.members.zip l) s.heap (fun p hp => hkm p.1 (List.of_mem_zip hp).1)
  refine ⟨h', ?_, ?_, k1, ?_⟩
  · rw [setAttr_run]
    simp only
    rw [if_pos hl, SetSt.forEach_onHeap, e1]
  · intro r hr
    exact o1 r fun p hp h => hr (h ▸ (List.of_mem_zip hp).1)
  · intro i r v hr hv hlast
    refine a1 i (r, v) (by rw [List.getElem?_zip_eq_some]; exact ⟨hr, hv⟩) fun j q hj hq h => ?_
    rw [List.getElem?_zip_eq_some] at hq
    exact hlast j hj (by rw [hq.1, h])

/-- **C39** Any other number of values raises `ValueError`, and no member changes. -/
theorem C39_set_wrong_length (s : SetSt K X) (name : String) {l : List String} (hl : l.length ≠ s.set.members.length) :
    SetSt.setAttr name (.seq l) s = (.error .valueError, s) := by
  rw [setAttr_run]
  simp only
  rw [if_neg hl]

/-- **C39** `get_attr` returns the values of the members in order (the default for members without the attribute), changing nothing. -/
theorem C39_get {s : SetSt K X} (name default : String) (hkm : ∀ r ∈ s.set.members, ∃ t, s.heap.objs r = some (.km t)) :
    SetSt.getAttr name default s = (.ok (s.set.members.map fun r => (s.heap.attr r name).getD default), s) := by
  show mapEach s.set.members _ s = _
  generalize hm : s.set.members = l at *
  clear hm
  induction l with
  | nil => rfl
  | cons r l ih =>
    obtain ⟨t, ht⟩ := hkm r (by simp)
    rw [mapEach_cons_ok]
    refine ⟨(s.heap.attr r name).getD default, s, _, ?_, ih fun x hx => hkm x (by simp [hx]), rfl⟩
    unfold SetSt.onHeap
    rw [Heap.call_km _ ht]
    show (Except.ok ((t.attrs.lookup name).getD default), (⟨⟨Function.update s.heap.objs r (some (.km t)), s.heap.next⟩, s.set⟩ : SetSt K X)) = _
    rw [← ht, Function.update_eq_self]
    unfold Heap.attr
    rw [ht]

example : (∀ r ∈ Demo.setSt.set.members, ∃ t, Demo.setSt.heap.objs r = some (.km t)) ∧
    ["a", "b"].length = Demo.setSt.set.members.length ∧ ["a"].length ≠ Demo.setSt.set.members.length := by
  refine ⟨?_, rfl, by simp [Demo.setSt]⟩
  intro r hr
  have : r = 2 ∨ r = 0 := by simpa [Demo.setSt] using hr
  rcases this with rfl | rfl <;> exact ⟨_, rfl⟩

/-- the values given to the two members come back in order -/
example : (SetSt.getAttr "x" "?" (SetSt.setAttr "x" (.seq ["a", "b"]) Demo.setSt).2).1 = .ok ["a", "b"] := rfl

end KMethods
