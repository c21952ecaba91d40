import Verif.Lemmas.Access
import Verif.Spec.Demo
/-!
# C01-C07: element access of `KernelMatrix`
-/
namespace KMethods
open KMState IndexSpec
variable {K X V : Type}

/-- **C01** After a successful `attach_to`, whatever was called since and whatever kernel calls failed, `km[S, T]` not
selecting the whole matrix either raises or returns exactly the kernel values on the selected rows and columns. -/
theorem C01_element_access {env : Env K X V} {k : K} {norm : Bool} {a : Attachment X} {s : KMState K X V}
    (h : SinceAny env k norm a s) {S T : Idx} (hw : ¬ WholeKey a.nrows a.ncols (.pair S T)) {out : KMOut V}
    (hok : (exec env (.getItem (.pair S T)) s).1 = .ok out) :
    ∃ rows cols, IsSelection a.nrows S rows ∧ IsSelection a.ncols T cols ∧
      out = .mat .dense (a.sub (env.kval k) rows cols) := by
  rw [← h.kernel]
  exact getItem_attached h.attachedTo hw hok

/-- after a failing `full` (third kernel call raises) `km[2, [0, 1]]` is `k(x₀, x₂), k(x₁, x₂)` -/
example : Demo.entries (exec (Demo.faulty 2) (.getItem (.pair (.int 2) (.iter [.int 0, .int 1])))
    (exec (Demo.faulty 2) .full (Demo.stF 2)).2).1 = some (.dense, [[13, 23]]) ∧
    SinceAny (Demo.faulty 2) () false Demo.one (exec (Demo.faulty 2) .full (Demo.stF 2)).2 ∧
    ¬ WholeKey Demo.one.nrows Demo.one.ncols (.pair (.int 2) (.iter [.int 0, .int 1])) := by
  refine ⟨by decide +kernel, .call _ (Demo.since_faulty 2 _) rfl trivial, fun h => ?_⟩
  have := h.1 0 (by decide)
  simp [Selects] at this

/-- **C02** Since the last successful attachment every pair of samples has been successfully evaluated at most once
(`succ` is the log of completed kernel calls); the counter equals the number of evaluated pairs and of memoised values;
in the one-sample case only pairs `i ≤ j` are evaluated, so it is at most `n (n + 1) / 2`, in general at most `n * m`. -/
theorem C02_evaluated_at_most_once {env : Env K X V} {k : K} {norm : Bool} {a : Attachment X} {s : KMState K X V}
    (h : SinceAny env k norm a s) :
    s.succ.Nodup ∧ s.numKerEval = s.succ.length ∧ s.cache.length = s.succ.length ∧
    s.numKerEval ≤ a.nrows * a.ncols ∧
    (a.two = none → (∀ p ∈ s.succ, p.1 ≤ p.2) ∧ 2 * s.numKerEval ≤ a.nrows * (a.nrows + 1)) := by
  have hwf := h.reachable.wf
  have hatt := h.attachedTo
  refine ⟨hwf.nodup, hwf.count, by rw [← hwf.keys, List.length_map], ?_, fun ht => ⟨?_, ?_⟩⟩
  · rw [hwf.count]
    refine length_le_of_range hwf.nodup fun p hp => ?_
    obtain ⟨n, m, hs, h1, h2, _⟩ := hwf.range p hp
    rw [hatt.shape] at hs
    simp only [Option.some.injEq, Prod.mk.injEq] at hs
    omega
  · intro p hp
    obtain ⟨n, m, hs, h1, h2, h3⟩ := hwf.range p hp
    exact h3 (by rw [hatt.two, ht]; rfl)
  · rw [hwf.count]
    refine length_le_of_upper hwf.nodup fun p hp => ?_
    obtain ⟨n, m, hs, h1, h2, h3⟩ := hwf.range p hp
    rw [hatt.shape] at hs
    have hcols : a.ncols = a.nrows := by unfold Attachment.ncols Attachment.nrows; rw [ht]
    simp only [Option.some.injEq, Prod.mk.injEq] at hs
    exact ⟨h3 (by rw [hatt.two, ht]; rfl), by omega⟩

/-- **C02**, in time: no call other than `attach_to` removes anything from the log, and the values already memoised are not
computed again: the pairs evaluated by the call are new. -/
theorem C02_evaluations_only_accumulate {env : Env K X V} {k : K} {norm : Bool} {a : Attachment X} {s : KMState K X V}
    (h : SinceAny env k norm a s) (op : KMOp X) (hop : op.isAttach = false) :
    ∃ new, (exec env op s).2.succ = new ++ s.succ ∧ ∀ p ∈ new, p ∉ s.succ := by
  have hnd := (h.call op hop trivial).reachable.wf.nodup
  by_cases hs : op.isSetAttr = true
  · refine ⟨[], ?_, by simp⟩
    cases op <;> simp [KMOp.isSetAttr] at hs
    rfl
  · obtain ⟨new, _, hsucc, _⟩ := (exec_ext env op s h.attachedTo.squareOk hop (by simpa using hs)).ext
    refine ⟨_, hsucc, fun p hp hp' => ?_⟩
    rw [hsucc] at hnd
    exact (List.nodup_append.1 hnd).2.2 p hp p hp' rfl

/-- after `full`, then `km[0, 1]`, then `full` again there are exactly 6 evaluations for 3 samples -/
example : let s := run Demo.env [.full, .getItem (.pair (.int 0) (.int 1)), .full] (Demo.st1 false)
    s.numKerEval = 6 ∧ s.succ.length = 6 := by decide +kernel

/-- **C03** `km[S, T]` not selecting everything evaluates the kernel only on requested cells (up to symmetry in
the one-sample case), whether or not it raises. -/
theorem C03_getitem_is_lazy {env : Env K X V} {k : K} {norm : Bool} {a : Attachment X} {s : KMState K X V}
    (h : SinceAny env k norm a s) {S T : Idx} (hw : ¬ WholeKey a.nrows a.ncols (.pair S T)) :
    ∀ p ∈ (exec env (.getItem (.pair S T)) s).2.succ, p ∈ s.succ ∨
      ∃ i j, Selects a.nrows S i ∧ Selects a.ncols T j ∧ (p = (i, j) ∨ (a.two = none ∧ p = (j, i))) := by
  have hatt := h.attachedTo
  rw [exec_getItem_run, getItem_run_pair hatt.shape]
  rcases h1 : getIndicesInSample (some (a.nrows, a.ncols)) S false with e | one
  · exact fun p hp => Or.inl hp
  rcases h2 : getIndicesInSample (some (a.nrows, a.ncols)) T true with e | two
  · exact fun p hp => Or.inl hp
  simp only
  rcases hb : (one.2 && two.2)
  swap
  · exact absurd (whole_of_flags h1 h2 hb) hw
  simp only [Bool.false_eq_true, if_false]
  have he := presExt_compute (env := env) (sh := s.shape) (tw := s.twoSamples)
    (T := fun p => ∃ i ∈ one.1, ∃ j ∈ two.1, p = memoKey s.twoSamples i j)
    (one := one.1) (two := two.1) (fun i hi j hj => ⟨i, hi, j, hj, rfl⟩) s rfl rfl
  obtain ⟨new, _, hsucc, _, _, hnew⟩ := he.ext
  intro p hp
  rw [hsucc] at hp
  rcases List.mem_append.1 hp with hp | hp
  swap
  · exact Or.inl hp
  right
  obtain ⟨e, he, rfl⟩ := List.mem_map.1 hp
  obtain ⟨_, ⟨i, hi, j, hj, hij⟩, _⟩ := hnew e he
  refine ⟨i, j, (mem_of_getIndices h1 i).1 hi, (mem_of_getIndices h2 j).1 hj, ?_⟩
  rw [hij, memoKey, hatt.two]
  split
  · rename_i hc
    right
    refine ⟨?_, rfl⟩
    have h0 := hc.2
    rcases ht : a.two with _ | b
    · rfl
    · rw [ht] at h0; simp at h0
  · exact Or.inl rfl

/-- **C03** `diagonal()` evaluates the kernel only on pairs `(i, i)`. -/
theorem C03_diagonal_is_lazy {env : Env K X V} {k : K} {norm : Bool} {a : Attachment X} {s : KMState K X V}
    (h : SinceAny env k norm a s) :
    ∀ p ∈ (exec env .diagonal s).2.succ, p ∈ s.succ ∨ (p.1 = p.2 ∧ p.1 < a.nrows) := by
  have hatt := h.attachedTo
  have he := presExt_diagonal (env := env) hatt.squareOk s rfl rfl
  have hst : (exec env .diagonal s).2 = (diagonal env s).2 := (exec_state s).1
  rw [hst]
  obtain ⟨new, _, hsucc, _, _, hnew⟩ := he.ext
  intro p hp
  rw [hsucc] at hp
  rcases List.mem_append.1 hp with hp | hp
  · right
    obtain ⟨e, he, rfl⟩ := List.mem_map.1 hp
    obtain ⟨_, ⟨⟨n, m, hs, hn, _⟩, heq⟩, _⟩ := hnew e he
    rw [hatt.shape] at hs
    simp only [Option.some.injEq, Prod.mk.injEq] at hs
    exact ⟨heq, by omega⟩
  · exact Or.inl hp

/-- `km[2, 0]` on a fresh object evaluates exactly the pair `(0, 2)`; `diagonal()` then the three diagonal pairs -/
example : (exec Demo.env (.getItem (.pair (.int 2) (.int 0))) (Demo.st1 false)).2.succ = [(0, 2)] ∧
    (run Demo.env [.getItem (.pair (.int 2) (.int 0)), .diagonal] (Demo.st1 false)).succ =
      [(2, 2), (1, 1), (0, 0), (0, 2)] := by decide +kernel

/-- **C04** Without kernel failures (and failing warnings, see C60), `km[S, T]` with acceptable selections returns the kernel values over the distinct
selected rows and columns in increasing order; in dense format unless the whole matrix was selected. -/
theorem C04_selection_semantics {env : Env K X V} {k : K} {norm : Bool} {a : Attachment X} {s : KMState K X V}
    (hf : NoFaultsOn env k a) (hq : Quiet env k a) (h : SinceAny env k norm a s) {S T : Idx}
    (hS : ¬ ZeroStep S ∧ ¬ Invalid a.nrows S) (hT : ¬ ZeroStep T ∧ ¬ Invalid a.ncols T) :
    ∃ rows cols fmt, IsSelection a.nrows S rows ∧ IsSelection a.ncols T cols ∧ rows ≠ [] ∧ cols ≠ [] ∧
      (exec env (.getItem (.pair S T)) s).1 = .ok (.mat fmt (a.sub (env.kval k) rows cols)) ∧
      (¬ WholeKey a.nrows a.ncols (.pair S T) → fmt = .dense) := by
  have hg := h.goodOnAny hf
  obtain ⟨one, h1, s1, n1⟩ := getIndices_of_valid (n := a.nrows) (m := a.ncols) (dim := false) hS.1 hS.2
  obtain ⟨two, h2, s2, n2⟩ := getIndices_of_valid (n := a.nrows) (m := a.ncols) (dim := true) hT.1 hT.2
  obtain ⟨_, hgi⟩ := getItem_ff (noFaults_faultless env) hg S T h1 h2
  obtain ⟨fmt, hr, hd⟩ := hgi (h.quiet hq)
  refine ⟨one.1, two.1, fmt, s1, s2, n1, n2, ?_, fun hw => hd ?_⟩
  · rw [h.exec_faultless hf rfl, exec_getItem_run, hr, h.kernel]; rfl
  · rcases hb : (one.2 && two.2)
    · rfl
    · exact absurd (whole_of_flags h1 h2 hb) hw

/-- **C04**, for strictly increasing lists of valid positions: entry `(p, q)` is the kernel between `l[p]` and `r[q]`. -/
theorem C04_increasing_lists {env : Env K X V} {k : K} {norm : Bool} {a : Attachment X} {s : KMState K X V}
    (hf : NoFaultsOn env k a) (hq : Quiet env k a) (h : SinceAny env k norm a s) {l r : List Nat} (hl : l.Pairwise (· < ·)) (hr : r.Pairwise (· < ·))
    (hl0 : l ≠ []) (hr0 : r ≠ []) (hln : ∀ i ∈ l, i < a.nrows) (hrm : ∀ j ∈ r, j < a.ncols) :
    ∃ fmt, (exec env (.getItem (.pair (.iter (l.map fun i : Nat => .int i)) (.iter (r.map fun j : Nat => .int j)))) s).1 =
      .ok (.mat fmt (a.sub (env.kval k) l r)) := by
  obtain ⟨rows, cols, fmt, h1, h2, _, _, h3, _⟩ := C04_selection_semantics hf hq h
    (S := .iter (l.map fun i : Nat => .int i)) (T := .iter (r.map fun j : Nat => .int j))
    ⟨by rintro ⟨_, _, h⟩; simp at h, valid_iter_map hl0 hln⟩ ⟨by rintro ⟨_, _, h⟩; simp at h, valid_iter_map hr0 hrm⟩
  refine ⟨fmt, ?_⟩
  rw [h3, isSelection_iter_map hl hln h1, isSelection_iter_map hr hrm h2]

/-- `km[[2, 0, 2], 1:]` over the sample `1, 2, 3` -/
example : Demo.entries (exec Demo.env (.getItem (.pair (.iter [.int 2, .int 0, .int 2]) (.slice (some 1) none none)))
    (Demo.st1 false)).1 = some (.dense, [[12, 13], [23, 33]]) ∧ NoFaultsOn Demo.env () Demo.one ∧
    SinceAny Demo.env () false Demo.one (Demo.st1 false) :=
  ⟨by decide +kernel, Demo.noFaults.on _ _, Demo.since_one _ _⟩

/-- **C05** An unacceptable index makes `km[S, T]` raise `KMAccessError` and leaves the object completely unchanged. -/
theorem C05_invalid_access {env : Env K X V} {k : K} {norm : Bool} {a : Attachment X} {s : KMState K X V}
    (h : SinceAny env k norm a s) {S T : Idx} (hS : ¬ ZeroStep S) (hT : ¬ ZeroStep T)
    (hbad : Invalid a.nrows S ∨ Invalid a.ncols T) :
    exec env (.getItem (.pair S T)) s = (.error .kmAccess, s) := by
  rw [exec_getItem_run, getItem_run_pair h.attachedTo.shape]
  rcases getIndices_spec a.nrows a.ncols S false with ⟨hz, _⟩ | ⟨_, _, h1⟩ | ⟨_, hv, l, b, h1, _⟩
  · exact absurd hz hS
  · rw [h1]; rfl
  rcases getIndices_spec a.nrows a.ncols T true with ⟨hz, _⟩ | ⟨_, _, h2⟩ | ⟨_, hv2, _⟩
  · exact absurd hz hT
  · rw [h1, h2]; rfl
  · rcases hbad with hb | hb
    · exact absurd hb hv
    · exact absurd hb hv2

/-- **C05**, for index objects that are neither an integer nor a pair -/
theorem C05_invalid_key (env : Env K X V) (s : KMState K X V) :
    exec env (.getItem .other) s = (.error .kmAccess, s) := rfl

/-- `km[-1, 0]`, `km[0, [1, 'x']]`, `km[2:1, 0]`, `km[[], 0]` -/
example : Invalid 3 (.int (-1)) ∧ Invalid 3 (.iter [.int 1, .other]) ∧ Invalid 3 (.slice (some 2) (some 1) none) ∧
    Invalid 3 (.iter []) := by
  refine ⟨Or.inl (by decide), Or.inr (Or.inl (by simp)), ⟨by simp, ?_⟩, Or.inl rfl⟩
  intro i hi
  simp [SliceSelects, eff] at hi
  omega

/-- **C06** `km[k]` is `km[k // ncols, k % ncols]` for `0 ≤ k < size` and raises `ValueError` otherwise. -/
theorem C06_linear_indexing {env : Env K X V} {k : K} {norm : Bool} {a : Attachment X} {s : KMState K X V}
    (h : SinceAny env k norm a s) (t : Int) :
    exec env (.getItem (.linear t)) s =
      if 0 ≤ t ∧ t < a.nrows * a.ncols then
        exec env (.getItem (.pair (.int (t / a.ncols)) (.int (t % a.ncols)))) s
      else (.error .valueError, s) := by
  rw [exec_getItem_run, exec_getItem_run, getItem_linear h.attachedTo.shape]
  by_cases ht : 0 ≤ t ∧ t < a.nrows * a.ncols
  · have h1 : ¬ (t < 0 ∨ ((a.nrows * a.ncols : Nat) : Int) ≤ t) := by push_cast; omega
    obtain ⟨u, rfl⟩ := Int.eq_ofNat_of_zero_le ht.1
    rw [if_pos ht, if_neg h1]
    rfl
  · rw [if_neg ht, if_pos (by push_cast; omega)]
    rfl

/-- `km[5]` of a 3x3 matrix is `km[1, 2]` -/
example : Demo.entries (exec Demo.env (.getItem (.linear 5)) (Demo.st1 false)).1 = some (.dense, [[23]]) ∧
    (exec Demo.env (.getItem (.linear 9)) (Demo.st1 false)).1.toOption.isNone = true := by decide +kernel

/-- **C07** A slice in row (column) position selects exactly the positions that Python selects (`SliceSelects`); a slice
selecting nothing raises `KMAccessError`, one with step 0 `ValueError`. -/
theorem C07_slices (n m : Nat) (start stop step : Option Int) (dim : Bool) :
    let N := if dim then m else n
    (step = some 0 → getIndicesInSample (some (n, m)) (.slice start stop step) dim = .error .valueError) ∧
    (step ≠ some 0 → (∀ i : Nat, ¬ SliceSelects start stop step N i) →
      getIndicesInSample (some (n, m)) (.slice start stop step) dim = .error .kmAccess) ∧
    (step ≠ some 0 → (∃ i : Nat, SliceSelects start stop step N i) → ∃ l b,
      getIndicesInSample (some (n, m)) (.slice start stop step) dim = .ok (l, b) ∧ l.Pairwise (· < ·) ∧
      ∀ i : Nat, i ∈ l ↔ SliceSelects start stop step N i) := by
  intro N
  have hN : dimOf n m dim = N := rfl
  rcases getIndices_spec n m (.slice start stop step) dim with ⟨hz, h⟩ | ⟨hz, hi, h⟩ | ⟨hz, hi, l, b, h, e1, e2, e3, e4, e5⟩
  · obtain ⟨_, _, hz⟩ := hz
    simp only [Idx.slice.injEq] at hz
    obtain ⟨_, _, rfl⟩ := hz
    exact ⟨fun _ => h, fun h => absurd rfl h, fun h => absurd rfl h⟩
  · have h0 : step ≠ some 0 := by rintro rfl; exact hz ⟨_, _, rfl⟩
    refine ⟨fun h => absurd h h0, fun _ _ => h, fun _ hx => ?_⟩
    obtain ⟨i, hx⟩ := hx
    exact absurd hx (hi.2 i)
  · have h0 : step ≠ some 0 := by rintro rfl; exact hz ⟨_, _, rfl⟩
    refine ⟨fun h => absurd h h0, fun _ hx => ?_, fun _ _ => ⟨l, b, h, e1, e4⟩⟩
    exact absurd ⟨h0, hx⟩ hi

/-- **C07** at the API: `km[a:b:0, T]` raises `ValueError` and changes nothing. -/
theorem C07_zero_step {env : Env K X V} {k : K} {norm : Bool} {a : Attachment X} {s : KMState K X V}
    (h : SinceAny env k norm a s) (b c : Option Int) (T : Idx) :
    exec env (.getItem (.pair (.slice b c (some 0)) T)) s = (.error .valueError, s) := by
  rw [exec_getItem_run, getItem_run_pair h.attachedTo.shape,
    (C07_slices a.nrows a.ncols b c (some 0) false).1 rfl]
  rfl

/-- the meaning of `SliceSelects` in the usual cases: `[:]`, `[b:c]` within range, `[::-1]`, `[-1:]` -/
theorem C07_usual_slices (n : Nat) (i : Nat) :
    (SliceSelects none none none n i ↔ i < n) ∧
    (∀ b c : Nat, c ≤ n → (SliceSelects (some b) (some c) none n i ↔ b ≤ i ∧ i < c)) ∧
    (SliceSelects none none (some (-1)) n i ↔ i < n) ∧
    (0 < n → (SliceSelects (some (-1)) none none n i ↔ i = n - 1)) := by
  refine ⟨?_, fun b c hc => ?_, ?_, fun hn => ?_⟩
  · simp [SliceSelects]
  · simp [SliceSelects, eff]; omega
  · simp [SliceSelects]; omega
  · simp [SliceSelects, eff]; omega

/-- `km[-2:, ::-2]` -/
example : Demo.entries (exec Demo.env (.getItem (.pair (.slice (some (-2)) none none) (.slice none none (some (-2)))))
    (Demo.st1 false)).1 = some (.dense, [[12, 23], [13, 33]]) := by decide +kernel

end KMethods
