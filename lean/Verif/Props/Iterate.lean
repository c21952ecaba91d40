import Verif.Lemmas.Iterate
/-!
# C89: iterating over kernel matrices

`for v in km` should visit the elements of the matrix (its rows, for a `KernelMatrixPrecomputed`) and end. It visits them and then raises.
-/
namespace KMethods
open PyM KMState
variable {K X V : Type}

/-- **C89** (partial: the loop should end normally) If the kernel function does not fail, `for v in km` visits the elements of the kernel matrix row by row, and then raises `ValueError`.
There is no other outcome. -/
theorem C89_loop_partial {env : Env K X V} {k : K} {norm : Bool} {a : Attachment X} {s : KMState K X V} (hf : NoFaultsOn env k a) (hq : Quiet env k a) (h : SinceAny env k norm a s) (b : Bool) :
    (∃ l s', Loop (isIndexError b) (kmAt env) 0 s l (.error .valueError) s') ∧
    ∀ l r s', Loop (isIndexError b) (kmAt env) 0 s l r s' → a.AreElements (env.kval k) l ∧ r = .error .valueError ∧ SinceAny env k norm a s' := by
  obtain ⟨l, s', hl, h', hlen, hel⟩ := loop_clean (norm := norm) (isIndexError b) rfl hf hq (a.nrows * a.ncols) 0 s h (by omega)
  refine ⟨⟨l, s', hl⟩, fun l2 r2 s2 h2 => ?_⟩
  obtain ⟨rfl, rfl, rfl⟩ := hl.unique h2
  refine ⟨⟨hlen, fun t ht => ?_⟩, rfl, h'⟩
  have := hel t ht
  rwa [Nat.zero_add] at this

/-- **C89** Whatever was called before and whichever kernel calls fail, the values seen by the loop are the elements of the kernel matrix, row by row, from the first one on.
(For a 1×1 matrix see C10, C11: `km[0]` is the whole matrix.) -/
theorem C89_elements {env : Env K X V} {k : K} {norm : Bool} {a : Attachment X} {s s' : KMState K X V} {b : Bool} {l : List (KMOut V)} {r : Except PyErr Unit}
    (h : SinceAny env k norm a s) (h1 : ¬ (a.nrows = 1 ∧ a.ncols = 1)) (hl : Loop (isIndexError b) (kmAt env) 0 s l r s') :
    l.length ≤ a.nrows * a.ncols ∧ ∀ (t : Nat) (h : t < l.length), a.IsElement (env.kval k) t l[t] := by
  obtain ⟨h2, h3⟩ := loop_elements hl h h1
  refine ⟨?_, fun t ht => ?_⟩
  · rcases h2 with rfl | h2
    · exact Nat.zero_le _
    · omega
  · have := h3 t ht
    rwa [Nat.zero_add] at this

/-- **C89**, negated: on no attached object, whatever was called before, does `for v in km` end normally, unless the kernel function raises `IndexError` -/
theorem C89_violated {env : Env K X V} {k : K} {norm : Bool} {a : Attachment X} {s s' : KMState K X V} {l : List (KMOut V)} (h : SinceAny env k norm a s) :
    ¬ Loop (isIndexError false) (kmAt env) 0 s l (.ok ()) s' :=
  fun hl => Bool.false_ne_true (loop_not_ok hl h rfl)

/-- **C89**, negated: if the kernel function raises `IndexError`, the loop ends normally, without the remaining elements. Here on the fourth call; five of nine elements are missing. -/
theorem C89_truncated : SinceAny (Demo.faulty 3) () false Demo.one (Demo.stF 3) ∧
    ∃ l s', Loop (isIndexError true) (kmAt (Demo.faulty 3)) 0 (Demo.stF 3) l (.ok ()) s' ∧ l.length = 4 := by
  refine ⟨Demo.since_faulty 3 _, _, _, .next rfl (.next rfl (.next rfl (.next rfl (.stop (e := .kernelFault) rfl rfl)))), rfl⟩

/-- **C89** (partial: absence should be reported as `False`) If the kernel function does not fail, `w in km` is `True` if some element equals `w`, and otherwise raises `ValueError`. -/
theorem C89_contains_partial {env : Env K X V} {k : K} {norm : Bool} {a : Attachment X} {s : KMState K X V} (hf : NoFaultsOn env k a) (hq : Quiet env k a) (h : SinceAny env k norm a s)
    (b : Bool) {eq : KMOut V → Bool} {p : V → Bool} (hp : ∀ fmt v, eq (.mat fmt ⟨1, 1, fun _ _ => v⟩) = p v) :
    (∃ r s', Finds (isIndexError b) (kmAt env) eq 0 s r s') ∧
    ∀ r s', Finds (isIndexError b) (kmAt env) eq 0 s r s' →
      (r = .ok true ↔ ∃ i < a.nrows, ∃ j < a.ncols, p (a.entry (env.kval k) i j) = true) ∧
      (r = .error .valueError ↔ ¬ ∃ i < a.nrows, ∃ j < a.ncols, p (a.entry (env.kval k) i j) = true) := by
  obtain ⟨r, s', hl, -, hr⟩ := finds_clean (norm := norm) (isIndexError b) rfl hf hq hp (a.nrows * a.ncols) 0 s h (by omega)
  refine ⟨⟨r, s', hl⟩, fun r2 s2 h2 => ?_⟩
  obtain ⟨rfl, rfl⟩ := hl.unique h2
  rcases hr with ⟨rfl, t, -, ht, hv⟩ | ⟨rfl, hn⟩
  · have hx : ∃ i < a.nrows, ∃ j < a.ncols, p (a.entry (env.kval k) i j) = true := ⟨_, (pos_lt ht).1, _, (pos_lt ht).2, hv⟩
    exact ⟨⟨fun _ => hx, fun _ => rfl⟩, ⟨fun h => (by cases h), fun h => absurd hx h⟩⟩
  · have hx : ¬ ∃ i < a.nrows, ∃ j < a.ncols, p (a.entry (env.kval k) i j) = true := by
      rintro ⟨i, hi, j, hj, hv⟩
      have h0 := hn (i * a.ncols + j) (Nat.zero_le _) (by
        calc i * a.ncols + j < i * a.ncols + a.ncols := by omega
          _ = (i + 1) * a.ncols := by rw [Nat.add_mul, Nat.one_mul]
          _ ≤ a.nrows * a.ncols := Nat.mul_le_mul_right _ hi)
      have hd : (i * a.ncols + j) / a.ncols = i := by
        rw [Nat.mul_comm, Nat.mul_add_div (by omega), Nat.div_eq_of_lt hj, Nat.add_zero]
      have hm : (i * a.ncols + j) % a.ncols = j := by
        rw [Nat.mul_comm, Nat.mul_add_mod, Nat.mod_eq_of_lt hj]
      rw [hd, hm, hv] at h0
      cases h0
    exact ⟨⟨fun h => (by cases h), fun h => absurd h hx⟩, ⟨fun _ => hx, fun _ => rfl⟩⟩

/-- **C89** If the kernel function does not fail, `for v in reversed(km)` visits the elements from the last one to the first one, and ends normally. -/
theorem C89_reversed {env : Env K X V} {k : K} {norm : Bool} {a : Attachment X} {s : KMState K X V} (hf : NoFaultsOn env k a) (hq : Quiet env k a) (h : SinceAny env k norm a s)
    (stops : PyErr → Bool) :
    (kmReversed stops env s).2.1 = .ok () ∧ a.AreElements (env.kval k) (kmReversed stops env s).1.reverse ∧ SinceAny env k norm a (kmReversed stops env s).2.2 := by
  have hsz : size s = (.ok (a.nrows * a.ncols), s) := by
    have ha := h.attachedTo
    unfold size
    rw [PyM.bind_ok (PyM.getAttr_run_some _ _ _ ha.two), PyM.get_bind_run, ha.num]
    obtain ⟨A, two⟩ := a
    rcases two with _ | B
    · show (Except.ok (A.nrows ^ 2), s) = _
      rw [pow_two]; rfl
    · rfl
  have hk : kmReversed stops env s = backwards stops (kmAt env) (a.nrows * a.ncols) s := by
    unfold kmReversed; rw [hsz]
  obtain ⟨h1, h2, h3, h4⟩ := backwards_clean (norm := norm) stops hf hq (a.nrows * a.ncols) s h (le_refl _)
  rw [hk]
  refine ⟨h1, ⟨by rw [List.length_reverse, h3], fun t ht => ?_⟩, h2⟩
  rw [List.length_reverse] at ht
  rw [List.getElem_reverse]
  have := h4 ((backwards stops (kmAt env) (a.nrows * a.ncols) s).1.length - 1 - t) (by omega)
  rw [show a.nrows * a.ncols - 1 - ((backwards stops (kmAt env) (a.nrows * a.ncols) s).1.length - 1 - t) = t by rw [h3] at ht ⊢; omega] at this
  exact this

/-- **C89**, negated: on no attached object, whatever was called before, is `w in km` ever `False`, unless the kernel function raises `IndexError` -/
theorem C89_contains_violated {env : Env K X V} {k : K} {norm : Bool} {a : Attachment X} {s s' : KMState K X V} {eq : KMOut V → Bool} (h : SinceAny env k norm a s) :
    ¬ Finds (isIndexError false) (kmAt env) eq 0 s (.ok false) s' :=
  fun hl => Bool.false_ne_true (finds_not_absent hl h rfl)

/-- **C89**, negated: if the kernel function raises `IndexError`, `w in km` is `False` even for elements of the matrix. Here 33, its last element -/
theorem C89_contains_truncated : SinceAny (Demo.faulty 3) () false Demo.one (Demo.stF 3) ∧ Demo.one.entry ((Demo.faulty 3).kval ()) 2 2 = 33 ∧
    ∃ s', Finds (isIndexError true) (kmAt (Demo.faulty 3)) (fun o => Demo.entries (.ok o) == some (.dense, [[33]])) 0 (Demo.stF 3) (.ok false) s' := by
  refine ⟨Demo.since_faulty 3 _, rfl, _, .next rfl rfl (.next rfl rfl (.next rfl rfl (.next rfl rfl (.absent (e := .kernelFault) rfl rfl))))⟩

/-- **C89**, negated: if the kernel function raises `IndexError`, `for v in reversed(km)` ends normally too, without the remaining elements. Here four of
nine elements are visited; any other exception is passed on; an `IndexError` never is. -/
theorem C89_reversed_truncated :
    (SinceAny (Demo.faulty 3) () false Demo.one (Demo.stF 3) ∧ (kmReversed (isIndexError true) (Demo.faulty 3) (Demo.stF 3)).2.1 = .ok () ∧
      (kmReversed (isIndexError true) (Demo.faulty 3) (Demo.stF 3)).1.length = 4) ∧
    (kmReversed (isIndexError false) (Demo.faulty 3) (Demo.stF 3)).2.1 = .error .kernelFault ∧
    ∀ (env : Env K X V) (k : K) (norm : Bool) (a : Attachment X) (s : KMState K X V), SinceAny env k norm a s → (kmReversed (isIndexError true) env s).2.1 ≠ .error .kernelFault := by
  refine ⟨⟨Demo.since_faulty 3 _, by decide +kernel, by decide +kernel⟩, by decide +kernel, fun env k norm a s h he => ?_⟩
  have ha := h.attachedTo
  have hsz : ∃ n, size s = (.ok n, s) := by
    unfold size
    rw [PyM.bind_ok (PyM.getAttr_run_some _ _ _ ha.two), PyM.get_bind_run, ha.num]
    obtain ⟨A, two⟩ := a
    rcases two with _ | B <;> exact ⟨_, rfl⟩
  obtain ⟨n, hn⟩ := hsz
  unfold kmReversed at he
  rw [hn] at he
  cases backwards_error n he

/-- **C89** Before samples are attached, every loop fails at once and the object is unchanged. -/
theorem C89_unattached (env : Env K X V) (k : K) (norm : Bool) (c : Nat) (b : Bool) :
    (∀ l r s', Loop (isIndexError b) (kmAt env) 0 (init k norm c) l r s' ↔ l = [] ∧ r = .error .attributeError ∧ s' = init k norm c) ∧
    kmReversed (isIndexError b) env (init k norm c) = ([], .error .attributeError, init k norm c) := by
  refine ⟨fun l r s' => ⟨fun h => ?_, ?_⟩, rfl⟩
  · obtain ⟨rfl, rfl, rfl⟩ := h.unique (.fail (e := .attributeError) (s1 := init k norm c) rfl rfl)
    exact ⟨rfl, rfl, rfl⟩
  · rintro ⟨rfl, rfl, rfl⟩
    exact .fail rfl rfl

/-- **C89** (partial: the loop should end normally) `for v in p` over a `KernelMatrixPrecomputed` visits its rows, and then raises `KMAccessError`. There is no other outcome. -/
theorem C89_precomputed_partial (p : Precomputed) (b : Bool) :
    ∃ l, l.length = p.full.nrows ∧ (∀ (i : Nat) (h : i < l.length) (hi : i < p.full.nrows), l[i] = .vec (List.ofFn (p.full.get ⟨i, hi⟩))) ∧
      Loop (isIndexError b) (preAt p) 0 () l (.error .kmAccess) () ∧ ∀ l' r u, Loop (isIndexError b) (preAt p) 0 () l' r u → l' = l ∧ r = .error .kmAccess := by
  obtain ⟨l, hl, hlen, hel⟩ := pre_loop (isIndexError b) rfl p p.mat.nrows 0 (by omega)
  refine ⟨l, hlen, fun i h hi => ?_, hl, fun l' r u h' => ?_⟩
  · have := hel i h (by rw [Nat.zero_add]; exact hi)
    simp only [Nat.zero_add] at this
    exact this
  · obtain ⟨rfl, rfl, _⟩ := hl.unique h'
    exact ⟨rfl, rfl⟩

/-- **C89** `for v in reversed(p)` visits the rows from the last one to the first one, and ends normally. -/
theorem C89_precomputed_reversed (p : Precomputed) (stops : PyErr → Bool) :
    (preReversed stops p).2.1 = .ok () ∧ (preReversed stops p).1.reverse = List.ofFn fun i => NpOut.vec (List.ofFn (p.full.get i)) := by
  obtain ⟨h1, h2, h3⟩ := pre_backwards stops p p.mat.nrows (le_refl _)
  refine ⟨h1, List.ext_getElem (by rw [List.length_reverse, List.length_ofFn]; exact h2) fun t h4 h5 => ?_⟩
  rw [List.length_ofFn] at h5
  have h5 : t < p.mat.nrows := h5
  rw [List.getElem_reverse, List.getElem_ofFn]
  have h6 : (preReversed stops p).1.length = p.mat.nrows := h2
  have := h3 ((preReversed stops p).1.length - 1 - t) (by rw [h2, h6]; omega) (by rw [h6]; omega)
  have e : p.mat.nrows - 1 - ((preReversed stops p).1.length - 1 - t) = t := by rw [h6]; omega
  simp only [e] at this
  exact this

/-- **C89**, negated: iterating over a `ConstantKernelMatrix` raises `KMAccessError` at once, in both directions (unless it has no samples, backwards) -/
theorem C89_constant_violated (s : ConstState V) (b : Bool) :
    (∀ l r s', Loop (isIndexError b) constAt 0 s l r s' ↔ l = [] ∧ r = .error .kmAccess ∧ s' = s) ∧
    constReversed (isIndexError b) s = ([], if s.numSamples = 0 then .ok () else .error .kmAccess, s) := by
  refine ⟨fun l r s' => ⟨fun h => ?_, ?_⟩, ?_⟩
  · obtain ⟨rfl, rfl, rfl⟩ := h.unique (.fail (e := .kmAccess) (s1 := s) rfl rfl)
    exact ⟨rfl, rfl, rfl⟩
  · rintro ⟨rfl, rfl, rfl⟩
    exact .fail rfl rfl
  · unfold constReversed
    rcases s.numSamples with _ | n <;> rfl

/-- the hypotheses hold for a kernel matrix of three samples after an element access -/
example : NoFaultsOn Demo.env () Demo.one ∧ Quiet Demo.env () Demo.one ∧ SinceAny Demo.env () true Demo.one (exec Demo.env (.getItem (.pair (.int 2) (.int 0))) (Demo.st1 true)).2 :=
  ⟨Demo.noFaults.on _ _, fun h => (by cases h), .call _ (Demo.since_one _ _) rfl trivial⟩

/-- the elements of a matrix between three and two samples, from the last to the first: 38, 37, 28, 27, 18, 17 -/
example : (kmReversed (isIndexError false) Demo.env (Demo.st2 false)).1.map (fun o => Demo.entries (.ok o)) = [38, 37, 28, 27, 18, 17].map fun v => some (.dense, [[v]]) := by decide +kernel

/-- comparison with the number 23, by which `23 in km` is `True`, and with 24, by which it raises -/
example : let eq (w : Int) : KMOut Int → Bool := fun o => match o with
      | .mat _ A => if h : 0 < A.nrows ∧ 0 < A.ncols then A.get ⟨0, h.1⟩ ⟨0, h.2⟩ == w else false
      | _ => false
    (∀ w fmt v, eq w (.mat fmt ⟨1, 1, fun _ _ => v⟩) = (v == w)) ∧
      (∃ i < Demo.one.nrows, ∃ j < Demo.one.ncols, (Demo.one.entry (Demo.env.kval ()) i j == 23) = true) ∧
      ¬ ∃ i < Demo.one.nrows, ∃ j < Demo.one.ncols, (Demo.one.entry (Demo.env.kval ()) i j == 24) = true :=
  ⟨fun _ _ _ => rfl, by decide +kernel, by decide +kernel⟩

end KMethods
