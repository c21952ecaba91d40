import Verif.Lemmas.Sampling
import Verif.Props.Composite
import Mathlib.LinearAlgebra.Matrix.Rank
/-!
# C40-C43: kernel buckets, pairwise similarity, the ideal kernel
-/
namespace KMethods
open PyM
variable {K X V : Type} {env : Env K X F}

/-! ## C40 -/

/-- **C40** `KernelBucket(...)`: the linear kernel first, then one kernel per value, in order, leaving out exactly the values for which the construction of the
kernel raises; `None` adds nothing. All members are new objects, not attached, with the requested normalisation. For every library of kernel classes. -/
theorem C40_contents (lib : KernelLib K V) (norm skip : Bool) (vals : BucketValues V) {pd rs lg sg so : List V}
    (h1 : vals.polyDegree.Lists pd) (h2 : vals.rbfSigma.Lists rs) (h3 : vals.laplaceGamma.Lists lg) (h4 : vals.sigmoidGamma.Lists sg)
    (h5 : vals.sigmoidOffset.Lists so) (h : Heap K X) :
    ∃ b h', mkBucket lib (some norm) (some skip) vals h = (.ok b, h') ∧ b.set.numSamples = .unset ∧ b.flags = ⟨norm, skip⟩ ∧
      SetSt.Grown ⟨h, ⟨[], .unset, true⟩⟩ ⟨h', b.set⟩ norm
        (lib.linear :: (built (lib.poly skip "degree") pd ++ built (lib.gaussian skip "sigma") rs ++ built (lib.laplacian skip "gamma") lg ++
          built (lib.sigmoid skip "gamma") sg ++ built (lib.sigmoid skip "offset") so)) := by
  obtain ⟨a1, a2, a3⟩ := SetSt.appendNew_ok norm lib.linear (⟨h, .new .unset⟩ : SetSt K X) rfl
  set s1 := (SetSt.appendNew norm (.ok lib.linear) (⟨h, .new .unset⟩ : SetSt K X)).2 with hs1
  have n1 : s1.set.numSamples = .unset := by obtain ⟨-, -, -, -, -, -, h6⟩ := a2; exact h6
  have e1 : SetSt.appendNew norm (.ok lib.linear) (⟨h, .new .unset⟩ : SetSt K X) = (.ok (), s1) := by rw [← a1]
  set s2 : SetSt K X := ⟨s1.heap, { s1.set with numSamples := .unset }⟩ with hs2
  have g2 : SetSt.Grown ⟨h, ⟨[], .unset, true⟩⟩ s2 norm [lib.linear] := by
    obtain ⟨l, b1, b2, b3, b4, b5, -⟩ := a2
    exact ⟨l, b1, b2, b3, b4, b5, rfl⟩
  have step : ∀ (s : SetSt K X) (build : Bool → String → V → Except PyErr K) (param : String) (a : ValuesArg V) (l : List V), a.Lists l →
      s.set.numSamples = .unset → ∃ s', SetSt.addParametrized ⟨norm, skip⟩ (.cls build) param a s = (.ok (), s') ∧
        s.Grown s' norm (built (build skip param) l) ∧ s'.set.numSamples = .unset := by
    intro s build param a l ha hn
    obtain ⟨x, y⟩ := SetSt.addParametrized_lists (b := ⟨norm, skip⟩) (build := build) (param := param) ha s hn
    refine ⟨_, Prod.ext x rfl, y, ?_⟩
    obtain ⟨-, -, -, -, -, -, h6⟩ := y
    exact h6.trans hn
  obtain ⟨s3, e3, g3, n3⟩ := step s2 lib.poly "degree" _ pd h1 rfl
  obtain ⟨s4, e4, g4, n4⟩ := step s3 lib.gaussian "sigma" _ rs h2 n3
  obtain ⟨s5, e5, g5, n5⟩ := step s4 lib.laplacian "gamma" _ lg h3 n4
  obtain ⟨s6, e6, g6, n6⟩ := step s5 lib.sigmoid "gamma" _ sg h4 n5
  obtain ⟨s7, e7, g7, n7⟩ := step s6 lib.sigmoid "offset" _ so h5 n6
  have hrun : bucketBody lib ⟨norm, skip⟩ vals (⟨h, .new .unset⟩ : SetSt K X) = (.ok (), s7) := by
    show (SetSt.appendNew norm (.ok lib.linear) >>= _ : PyM (SetSt K X) Unit) _ = _
    rw [bind_ok e1]
    show addAll lib ⟨norm, skip⟩ vals s2 = _
    show (SetSt.addParametrized ⟨norm, skip⟩ (.cls lib.poly) "degree" vals.polyDegree >>= _ : PyM (SetSt K X) Unit) _ = _
    rw [bind_ok e3, bind_ok e4, bind_ok e5, bind_ok e6, e7]
  refine ⟨⟨s7.set, ⟨norm, skip⟩⟩, s7.heap, ?_, n7, rfl, ?_⟩
  · show ((bucketBody lib ⟨norm, skip⟩ vals (⟨h, .new .unset⟩ : SetSt K X)).1.map _, _) = _
    rw [hrun]; rfl
  · have := ((((g2.trans g3).trans g4).trans g5).trans g6).trans g7
    simpa [List.append_assoc] using this

/-- **C40** A value argument that is not iterable, is a string or is empty: `ValueError` (when no argument is an iterable without length, for which `len`
raises `TypeError`). -/
theorem C40_bad_values (lib : KernelLib K V) (norm skip : Bool) (vals : BucketValues V) (h : Heap K X)
    (hbad : ∃ a ∈ [vals.polyDegree, vals.rbfSigma, vals.laplaceGamma, vals.sigmoidGamma, vals.sigmoidOffset], a.Bad)
    (hno : ∀ a ∈ [vals.polyDegree, vals.rbfSigma, vals.laplaceGamma, vals.sigmoidGamma, vals.sigmoidOffset], a ≠ .unsized) :
    (mkBucket lib (some norm) (some skip) vals h).1 = .error .valueError := by
  obtain ⟨a1, a2, a3⟩ := SetSt.appendNew_ok norm lib.linear (⟨h, .new .unset⟩ : SetSt K X) rfl
  set s1 := (SetSt.appendNew norm (.ok lib.linear) (⟨h, .new .unset⟩ : SetSt K X)).2 with hs1
  have e1 : SetSt.appendNew norm (.ok lib.linear) (⟨h, .new .unset⟩ : SetSt K X) = (.ok (), s1) := by rw [← a1]
  -- each argument adds kernels or is rejected
  have step : ∀ (build : Bool → String → V → Except PyErr K) (param : String) (a : ValuesArg V), a ≠ .unsized → ∀ s : SetSt K X, s.set.numSamples = .unset →
      (¬ a.Bad ∧ ∃ s', SetSt.addParametrized ⟨norm, skip⟩ (.cls build) param a s = (.ok (), s') ∧ s'.set.numSamples = .unset) ∨
      ∃ s', SetSt.addParametrized ⟨norm, skip⟩ (.cls build) param a s = (.error .valueError, s') := by
    intro build param a ha s hn
    by_cases hb : a.Bad
    · exact .inr ⟨s, SetSt.addParametrized_bad hb s⟩
    · left
      refine ⟨hb, ?_⟩
      have hl : ∃ l, a.Lists l := by
        cases a with
        | none => exact ⟨[], .inl ⟨rfl, rfl⟩⟩
        | notIterable => exact (hb (.inl rfl)).elim
        | unsized => exact (ha rfl).elim
        | seq l => exact ⟨l, .inr ⟨rfl, fun h => hb (.inr (by rw [h]))⟩⟩
      obtain ⟨l, hl⟩ := hl
      obtain ⟨x, y⟩ := SetSt.addParametrized_lists (b := ⟨norm, skip⟩) (build := build) (param := param) hl s hn
      refine ⟨_, Prod.ext x rfl, ?_⟩
      obtain ⟨-, -, -, -, -, -, h6⟩ := y
      exact h6.trans hn
  have hall : ∀ s : SetSt K X, s.set.numSamples = .unset → ∃ s', addAll lib ⟨norm, skip⟩ vals s = (.error .valueError, s') := by
    intro s hn
    simp only [List.mem_cons, List.not_mem_nil, or_false, forall_eq_or_imp, forall_eq] at hno
    obtain ⟨n1, n2, n3, n4, n5⟩ := hno
    show ∃ s', (SetSt.addParametrized ⟨norm, skip⟩ (.cls lib.poly) "degree" vals.polyDegree >>= _ : PyM (SetSt K X) Unit) _ = _
    rcases step lib.poly "degree" _ n1 s hn with ⟨b1, t1, e1, m1⟩ | ⟨t1, e1⟩
    swap
    · exact ⟨t1, bind_error e1⟩
    rw [bind_ok e1]
    rcases step lib.gaussian "sigma" _ n2 t1 m1 with ⟨b2, t2, e2, m2⟩ | ⟨t2, e2⟩
    swap
    · exact ⟨t2, bind_error e2⟩
    rw [bind_ok e2]
    rcases step lib.laplacian "gamma" _ n3 t2 m2 with ⟨b3, t3, e3, m3⟩ | ⟨t3, e3⟩
    swap
    · exact ⟨t3, bind_error e3⟩
    rw [bind_ok e3]
    rcases step lib.sigmoid "gamma" _ n4 t3 m3 with ⟨b4, t4, e4, m4⟩ | ⟨t4, e4⟩
    swap
    · exact ⟨t4, bind_error e4⟩
    rw [bind_ok e4]
    rcases step lib.sigmoid "offset" _ n5 t4 m4 with ⟨b5, t5, e5, m5⟩ | ⟨t5, e5⟩
    swap
    · exact ⟨t5, e5⟩
    exfalso
    obtain ⟨a, ha, hb⟩ := hbad
    simp only [List.mem_cons, List.not_mem_nil, or_false] at ha
    rcases ha with rfl | rfl | rfl | rfl | rfl <;> contradiction
  obtain ⟨s', e⟩ := hall ⟨s1.heap, { s1.set with numSamples := .unset }⟩ rfl
  have hrun : bucketBody lib ⟨norm, skip⟩ vals (⟨h, .new .unset⟩ : SetSt K X) = (.error .valueError, s') := by
    show (SetSt.appendNew norm (.ok lib.linear) >>= _ : PyM (SetSt K X) Unit) _ = _
    rw [bind_ok e1]
    exact e
  show (bucketBody lib ⟨norm, skip⟩ vals (⟨h, .new .unset⟩ : SetSt K X)).1.map _ = _
  rw [hrun]; rfl

/-- **C40** Flags that are not booleans: `TypeError`, before anything is created. -/
theorem C40_bad_flags (lib : KernelLib K V) (norm skip : Option Bool) (vals : BucketValues V) (h : Heap K X) (hb : norm = none ∨ skip = none) :
    mkBucket lib norm skip vals h = (.error .typeError, h) := by
  rcases hb with rfl | rfl
  · rfl
  · cases norm <;> rfl

/-- **C40** `add_parametrized_kernels`: `None` does nothing; an empty or non-iterable `values` is a `ValueError`; something that is not a kernel class is a
`KernelMethodsException`. Nothing changes in these cases, on any bucket. -/
theorem C40_add_rejects (b : BucketFlags) (build : Bool → String → V → Except PyErr K) (param : String) (s : SetSt K X) :
    SetSt.addParametrized b (.cls build) param .none s = (.ok (), s) ∧
    (∀ a : ValuesArg V, a.Bad → SetSt.addParametrized b (.cls build) param a s = (.error .valueError, s)) ∧
    ∀ a : ValuesArg V, SetSt.addParametrized b (.other : KernelClassArg K V) param a s = (.error .kernelMethods, s) :=
  ⟨rfl, fun _ ha => SetSt.addParametrized_bad ha s, fun _ => rfl⟩

/-- a class that only accepts even numbers, given 1, 2, 3, 4: the kernels for 2 and 4 are added -/
example : ∃ b h', mkBucket (X := ℝ) (V := Nat)
    ⟨100, fun _ _ v => if v % 2 = 0 then .ok v else .error .valueError, fun _ _ v => .ok v, fun _ _ v => .ok v, fun _ _ v => .ok v⟩ (some true) (some false)
    ⟨.seq [1, 2, 3, 4], .none, .none, .none, .none⟩ ⟨fun _ => none, 0⟩ = (.ok b, h') ∧
    SetSt.Grown ⟨⟨fun _ => none, 0⟩, ⟨[], .unset, true⟩⟩ ⟨h', b.set⟩ true [100, 2, 4] := by
  obtain ⟨b, h', e, -, -, g⟩ := C40_contents (X := ℝ) (V := Nat)
    ⟨100, fun _ _ v => if v % 2 = 0 then .ok v else .error .valueError, fun _ _ v => .ok v, fun _ _ v => .ok v, fun _ _ v => .ok v⟩ true false
    ⟨.seq [1, 2, 3, 4], .none, .none, .none, .none⟩ (.inr ⟨rfl, by simp⟩) (.inl ⟨rfl, rfl⟩) (.inl ⟨rfl, rfl⟩) (.inl ⟨rfl, rfl⟩) (.inl ⟨rfl, rfl⟩)
    ⟨fun _ => none, 0⟩
  exact ⟨b, h', e, g⟩

example : (ValuesArg.seq ([] : List Nat)).Bad := .inr rfl

theorem built_map {α : Type} (build : V → Except PyErr K) (f : α → V) (g : α → K) (hfg : ∀ a, build (f a) = .ok (g a)) (l : List α) :
    built build (l.map f) = l.map g := by
  induction l with
  | nil => rfl
  | cons a l ih => rw [List.map_cons, SetSt.built_cons, hfg, ih]; rfl

/-- contents of a bucket built from non-empty lists of numbers -/
theorem numeric_bucket {X : Type} (norm skip : Bool) (ds sigma laplace sigmoid : List ℤ) (offsets : List ℝ) (h0 : ds ≠ []) (h1 : sigma ≠ []) (h2 : laplace ≠ [])
    (h3 : sigmoid ≠ []) (h4 : offsets ≠ []) (h : Heap LibKernel X) :
    ∃ b h' ks, mkBucket numericLib (some norm) (some skip)
        ⟨.seq (ds.map .int), .seq (sigma.map fun e => .real ((2:ℝ) ^ e)), .seq (laplace.map fun e => .real ((2:ℝ) ^ e)), .seq (sigmoid.map fun e => .real ((2:ℝ) ^ e)),
          .seq (offsets.map .real)⟩ h = (.ok b, h') ∧ b.set.numSamples = .unset ∧ SetSt.Grown ⟨h, ⟨[], .unset, true⟩⟩ ⟨h', b.set⟩ norm ks ∧
      ks.map (·.kernel) = strategyKernels ds sigma laplace sigmoid offsets ∧ ∀ k ∈ ks.tail, k.skip = skip := by
  obtain ⟨b, h', e, hn, -, g⟩ := C40_contents (X := X) numericLib norm skip
    ⟨.seq (ds.map .int), .seq (sigma.map fun e => .real ((2:ℝ) ^ e)), .seq (laplace.map fun e => .real ((2:ℝ) ^ e)), .seq (sigmoid.map fun e => .real ((2:ℝ) ^ e)),
          .seq (offsets.map .real)⟩
    (.inr ⟨rfl, by simpa using h0⟩) (.inr ⟨rfl, by simpa using h1⟩) (.inr ⟨rfl, by simpa using h2⟩) (.inr ⟨rfl, by simpa using h3⟩) (.inr ⟨rfl, by simpa using h4⟩) h
  rw [built_map (numericLib.poly skip "degree") NumVal.int (fun d => ⟨.poly d 1 1, skip⟩) (fun _ => rfl),
    built_map (numericLib.gaussian skip "sigma") (fun e : ℤ => NumVal.real ((2:ℝ) ^ e)) (fun e => ⟨mkGaussian (2 ^ e), skip⟩) (fun _ => rfl),
    built_map (numericLib.laplacian skip "gamma") (fun e : ℤ => NumVal.real ((2:ℝ) ^ e)) (fun e => ⟨.laplacian (2 ^ e), skip⟩) (fun _ => rfl),
    built_map (numericLib.sigmoid skip "gamma") (fun e : ℤ => NumVal.real ((2:ℝ) ^ e)) (fun e => ⟨.sigmoid (2 ^ e) 1, skip⟩) (fun _ => rfl),
    built_map (numericLib.sigmoid skip "offset") NumVal.real (fun o => ⟨.sigmoid 1 o, skip⟩) (fun _ => rfl)] at g
  refine ⟨b, h', _, e, hn, g, ?_, ?_⟩
  · simp only [List.map_cons, List.map_append, List.map_map, strategyKernels]
    rfl
  · intro k hk
    simp only [List.tail_cons, List.mem_append, List.mem_map] at hk
    rcases hk with (((⟨_, -, rfl⟩ | ⟨_, -, rfl⟩) | ⟨_, -, rfl⟩) | ⟨_, -, rfl⟩) | ⟨_, -, rfl⟩ <;> rfl

/-- **C40** 'exhaustive' (in any capitalisation) gives 25 kernels: the linear one, polynomial ones of degree 2, 3, 4, Gaussian, Laplacian and sigmoid ones for powers of
two, and sigmoid ones with three offsets. -/
theorem C40_exhaustive {X : Type} (s : String) (hs : s.toLower = "exhaustive") (norm skip : Bool) (h : Heap LibKernel X) :
    ∃ b h' ks, makeKernelBucket (.str s) (some norm) (some skip) h = (.ok b, h') ∧ b.set.members.length = 25 ∧ b.set.numSamples = .unset ∧
      SetSt.Grown ⟨h, ⟨[], .unset, true⟩⟩ ⟨h', b.set⟩ norm ks ∧
      ks.map (·.kernel) = strategyKernels [2, 3, 4] [-5, -3, -1, 1, 3, 5] [-5, -3, -1, 1, 3, 5] [-5, -3, -1, 1, 3, 5] [-2, 1, 2] ∧
      ∀ k ∈ ks.tail, k.skip = skip := by
  obtain ⟨b, h', ks, e, hn, g, hk, hsk⟩ := numeric_bucket (X := X) norm skip [2, 3, 4] [-5, -3, -1, 1, 3, 5] [-5, -3, -1, 1, 3, 5] [-5, -3, -1, 1, 3, 5] [-2, 1, 2]
    (by simp) (by simp) (by simp) (by simp) (by simp) h
  refine ⟨b, h', ks, ?_, ?_, hn, g, hk, hsk⟩
  · show (lift (strategyValues s) >>= _ : PyM (Heap LibKernel X) Bucket) h = _
    rw [strategyValues, if_pos hs]
    exact e
  · obtain ⟨rs, h1, -, h2, -⟩ := g
    have : b.set.members = rs := h1
    rw [this, h2.length_eq, ← List.length_map (f := fun k : LibKernel => k.kernel), hk]
    rfl

/-- **C40** 'light': 15 kernels -/
theorem C40_light {X : Type} (s : String) (hs : s.toLower = "light") (norm skip : Bool) (h : Heap LibKernel X) :
    ∃ b h' ks, makeKernelBucket (.str s) (some norm) (some skip) h = (.ok b, h') ∧ b.set.members.length = 15 ∧ b.set.numSamples = .unset ∧
      SetSt.Grown ⟨h, ⟨[], .unset, true⟩⟩ ⟨h', b.set⟩ norm ks ∧
      ks.map (·.kernel) = strategyKernels [2, 3] [-3, -1, 1] [-3, -1, 1] [-3, -1, 1, 3, 5] [1] ∧ ∀ k ∈ ks.tail, k.skip = skip := by
  obtain ⟨b, h', ks, e, hn, g, hk, hsk⟩ := numeric_bucket (X := X) norm skip [2, 3] [-3, -1, 1] [-3, -1, 1] [-3, -1, 1, 3, 5] [1]
    (by simp) (by simp) (by simp) (by simp) (by simp) h
  refine ⟨b, h', ks, ?_, ?_, hn, g, hk, hsk⟩
  · show (lift (strategyValues s) >>= _ : PyM (Heap LibKernel X) Bucket) h = _
    rw [strategyValues, if_neg (by rw [hs]; decide), if_pos hs]
    exact e
  · obtain ⟨rs, h1, -, h2, -⟩ := g
    have : b.set.members = rs := h1
    rw [this, h2.length_eq, ← List.length_map (f := fun k : LibKernel => k.kernel), hk]
    rfl

/-- **C40** 'linear_only': the linear kernel only -/
theorem C40_linear_only {X : Type} (s : String) (hs : s.toLower = "linear_only") (norm skip : Bool) (h : Heap LibKernel X) :
    ∃ b h', makeKernelBucket (.str s) (some norm) (some skip) h = (.ok b, h') ∧ b.set.members.length = 1 ∧ b.set.numSamples = .unset ∧
      SetSt.Grown ⟨h, ⟨[], .unset, true⟩⟩ ⟨h', b.set⟩ norm [⟨.linear, false⟩] := by
  obtain ⟨b, h', e, hn, -, g⟩ := C40_contents (X := X) numericLib norm skip linearOnlyValues (.inl ⟨rfl, rfl⟩) (.inl ⟨rfl, rfl⟩) (.inl ⟨rfl, rfl⟩) (.inl ⟨rfl, rfl⟩)
    (.inl ⟨rfl, rfl⟩) h
  refine ⟨b, h', ?_, ?_, hn, g⟩
  · show (lift (strategyValues s) >>= _ : PyM (Heap LibKernel X) Bucket) h = _
    rw [strategyValues, if_neg (by rw [hs]; decide), if_neg (by rw [hs]; decide), if_pos hs]
    exact e
  · obtain ⟨rs, h1, -, h2, -⟩ := g
    have : b.set.members = rs := h1
    rw [this, h2.length_eq]
    rfl

/-- **C40** Any other string is a `ValueError`; an existing set is returned as it is. -/
theorem C40_other_strategy {X : Type} (norm skip : Option Bool) (h : Heap LibKernel X) :
    (∀ s : String, s.toLower ∉ ["exhaustive", "light", "linear_only"] → makeKernelBucket (.str s) norm skip h = (.error .valueError, h)) ∧
    ∀ b, makeKernelBucket (.existing b) norm skip h = (.ok b, h) := by
  refine ⟨fun s hs => ?_, fun _ => rfl⟩
  simp only [List.mem_cons, List.not_mem_nil, or_false, not_or] at hs
  show (lift (strategyValues s) >>= _ : PyM (Heap LibKernel X) Bucket) h = _
  rw [strategyValues, if_neg hs.1, if_neg hs.2.1, if_neg hs.2.2]
  rfl

example : "Exhaustive".toLower = "exhaustive" ∧ "LIGHT".toLower = "light" ∧ "linear_Only".toLower = "linear_only" ∧
    "heavy".toLower ∉ ["exhaustive", "light", "linear_only"] := by decide +kernel

/-! ## C41 -/

/-- **C41** (for buckets that have not been attached) `add_parametrized_kernels` adds one kernel per value for which the construction succeeds. For attached buckets
this is false: see `C41_violated`. -/
theorem C41_unattached_partial (b : BucketFlags) (build : Bool → String → V → Except PyErr K) (param : String) {l : List V} (hl : l ≠ []) (s : SetSt K X)
    (hs : s.set.numSamples = .unset) :
    ∃ s', SetSt.addParametrized b (.cls build) param (.seq l) s = (.ok (), s') ∧ s.Grown s' b.norm (built (build b.skip param) l) := by
  obtain ⟨x, y⟩ := SetSt.addParametrized_lists (b := b) (build := build) (param := param) (.inr ⟨rfl, hl⟩) s hs
  exact ⟨_, Prod.ext x rfl, y⟩

/-- the bucket made of the linear kernel only, not attached -/
example : (⟨[0], .unset, true⟩ : KSet).numSamples = .unset ∧ built (fun v : Nat => if v = 1 then .error .valueError else .ok v) [1, 2] = [2] := ⟨rfl, rfl⟩

/-- What happens on an attached bucket: nothing is added, whatever the values, and no exception is raised. -/
theorem C41_attached_adds_nothing (b : BucketFlags) (build : Bool → String → V → Except PyErr K) (param : String) (l : List V) (hl : l ≠ []) (s : SetSt K X)
    (hs : s.set.numSamples ≠ .unset) :
    ∃ s', SetSt.addParametrized b (.cls build) param (.seq l) s = (.ok (), s') ∧ s'.set = s.set := by
  have hrun : SetSt.addParametrized b (.cls build) param (.seq l) s = forEach l (fun v => ignoreErrors (SetSt.appendNew b.norm (build b.skip param v))) s := by
    show (raiseIf (decide (l.length < 1)) .valueError >>= _ : PyM (SetSt K X) Unit) s = _
    rw [show decide (l.length < 1) = false from by simpa [Nat.lt_one_iff] using hl]
    rfl
  obtain ⟨h1, h2, -⟩ := SetSt.addLoop_attached b.norm (build b.skip param) l s hs
  exact ⟨_, by rw [hrun]; exact Prod.ext h1 rfl, h2⟩

/-- **C41** is violated: a bucket of `make_kernel_bucket('linear_only')`, attached to a sample, then asked for a Gaussian kernel: no exception, nothing added. -/
theorem C41_violated : ∃ (b : Bucket) (h h' : Heap LibKernel ℝ) (s : SetSt LibKernel ℝ),
    makeKernelBucket (.str "linear_only") (some true) (some false) ⟨fun _ => none, 0⟩ = (.ok b, h) ∧
    SetSt.attach Demo.sample3 none ⟨h, b.set⟩ = (.ok (), s) ∧
    SetSt.addParametrized b.flags (.cls numericLib.gaussian) "sigma" (.seq [.int 2]) s = (.ok (), ⟨h', s.set⟩) ∧
    numericLib.gaussian b.flags.skip "sigma" (.int 2) = .ok ⟨mkGaussian 2, false⟩ := by
  refine ⟨⟨⟨[0], .unset, true⟩, ⟨true, false⟩⟩, (mkBucket numericLib (some true) (some false) linearOnlyValues ⟨fun _ => none, 0⟩).2, _, _, ?_, rfl, rfl, ?_⟩
  · show (lift (strategyValues "linear_only") >>= _ : PyM (Heap LibKernel ℝ) Bucket) _ = _
    rw [strategyValues, if_neg (by decide +kernel), if_neg (by decide +kernel), if_pos (by decide +kernel)]
    rfl
  · show Except.ok (LibKernel.mk (mkGaussian ((2 : ℤ) : ℝ)) false) = _
    norm_num

/-! ## C42 -/

/-- **C42** unknown metrics: `KeyError`, nothing changes -/
theorem C42_unknown_metric (t : KSet) (metric : String) (hm : metric ≠ "corr" ∧ metric ≠ "align") (h : Heap K X) :
    pairwiseSimilarity env t metric h = (.error .keyError, h) := by
  show (lift (metricFunc metric) >>= _ : PyM (Heap K X) (Mat F)) h = _
  rw [metricFunc, if_neg hm.1, if_neg hm.2]
  rfl

/-- **C42** Whenever a matrix is returned, it is square, with one row per member, and symmetric. (Any members, any metric.) -/
theorem C42_symmetric (t : KSet) (metric : String) (h h' : Heap K X) (M : Mat F) (hr : pairwiseSimilarity env t metric h = (.ok M, h')) :
    ∃ f : Fin t.members.length → Fin t.members.length → F, M = ⟨t.members.length, t.members.length, f⟩ ∧ ∀ i j, f i j = f j i := by
  obtain ⟨est, s1, -, hr⟩ := bind_ok_iff.1 hr
  obtain ⟨acc, s2, -, hr⟩ := bind_ok_iff.1 hr
  obtain ⟨e, -⟩ := Prod.mk.inj hr
  refine ⟨_, (Except.ok.inj e).symm, fun i j => ?_⟩
  rcases lt_trichotomy i j with hij | rfl | hij
  · rw [if_neg (not_le.2 hij), if_pos hij.le]
  · rfl
  · rw [if_pos hij.le, if_neg (not_le.2 hij)]

/-- the matrix returned, for a metric with finite values on the kernel matrices of the members -/
theorem pairwise_run {n m : Nat} {P : Fmt → Prop} {t : KSet} {h : Heap K X} {Ks : List (Matrix (Fin n) (Fin m) ℝ)} {metric : String}
    {est : Fmt × Mat F → Fmt × Mat F → Except PyErr F} {v : Matrix (Fin n) (Fin m) ℝ → Matrix (Fin n) (Fin m) ℝ → ℝ} (hm : metricFunc metric = .ok est)
    (hest : ∀ f g A B, P f → P g → A ∈ Ks → B ∈ Ks → est (f, Mat.ofReal A) (g, Mat.ofReal B) = .ok (.real (v A B)))
    (hg : h.GivesAll env P t.members Ks) :
    ∃ h', ∃ A : Matrix (Fin t.members.length) (Fin t.members.length) ℝ, pairwiseSimilarity env t metric h = (.ok (Mat.ofReal A), h') ∧
      h'.GivesAll env P t.members Ks ∧
      ∀ (i j : Fin t.members.length) K L, Ks[min (i : Nat) j]? = some K → Ks[max (i : Nat) j]? = some L → A i j = v K L := by
  obtain ⟨acc, h', e, hg', ha⟩ := pairLoop_run hest (loopPairs t.members.length) (fun p hp => by
    obtain ⟨a, b⟩ := p
    have := mem_loopPairs.1 hp
    constructor <;> simp only <;> omega) (fun _ _ => .nan) h hg
  refine ⟨h', fun i j => v (nth Ks (min i j : Nat)) (nth Ks (max i j : Nat)), ?_, hg', ?_⟩
  · show (lift (metricFunc metric) >>= _ : PyM (Heap K X) (Mat F)) h = _
    rw [hm]
    show (pairLoop env est t.members (loopPairs t.members.length) _ >>= _ : PyM (Heap K X) (Mat F)) h = _
    rw [bind_ok e]
    show (Except.ok (Mat.mk _ _ _), h') = _
    congr 3
    funext i j
    rw [ha, ha]
    rcases le_total i j with hij | hij
    · rw [if_pos (mem_loopPairs.2 ⟨hij, j.2⟩)]
      show _ = F.real (v (nth Ks (min (i:Nat) j)) (nth Ks (max (i:Nat) j)))
      rw [min_eq_left (by exact hij), max_eq_right (by exact hij)]
      split
      · rename_i h2
        obtain rfl : i = j := le_antisymm hij h2
        rw [if_pos (mem_loopPairs.2 ⟨le_rfl, i.2⟩)]
      · rfl
    · rw [if_pos hij, if_pos (mem_loopPairs.2 ⟨hij, i.2⟩)]
      show _ = F.real (v (nth Ks (min (i:Nat) j)) (nth Ks (max (i:Nat) j)))
      rw [min_eq_right (by exact hij), max_eq_left (by exact hij)]
  · intro i j K L hK hL
    simp only [nth, List.getD, hK, hL, Option.getD_some]

/-- **C42** (for members not stored as sparse matrices) With `metric='align'` entry (i, j) is the centered alignment of the kernel matrices number min(i,j) and max(i,j); it is in [-1, 1]. With
sparse members there is an exception: `C42_violated`. -/
theorem C42_align_partial {n : Nat} {t : KSet} {h : Heap K X} {Ks : List (Matrix (Fin n) (Fin n) ℝ)} (hg : h.GivesAll env (· ≠ .sparse) t.members Ks) :
    ∃ h', ∃ A : Matrix (Fin t.members.length) (Fin t.members.length) ℝ, pairwiseSimilarity env t "align" h = (.ok (Mat.ofReal A), h') ∧
      (∀ (i j : Fin t.members.length) K L, Ks[min (i : Nat) j]? = some K → Ks[max (i : Nat) j]? = some L → A i j = calign K L) ∧ ∀ i j, -1 ≤ A i j ∧ A i j ≤ 1 := by
  obtain ⟨h', A, e, -, hA⟩ := pairwise_run (metric := "align") (v := calign) rfl (fun f g A B hf hg _ _ => alignMetric_real hf hg A B) hg
  refine ⟨h', A, e, hA, fun i j => ?_⟩
  have hl : Ks.length = t.members.length := hg.length_eq.symm
  rw [hA i j _ _ (List.getElem?_eq_getElem (by rw [hl]; exact (min_lt_iff.2 (.inl i.2)))) (List.getElem?_eq_getElem (by rw [hl]; exact (max_lt i.2 j.2)))]
  exact calign_range _ _

/-- **C42** (for members stored as ndarrays, none of them constant) With `metric='corr'` entry (i, j) is the Pearson correlation of the entries of the kernel matrices number min(i,j) and
max(i,j); it is in [-1, 1], and 1 on the diagonal. -/
theorem C42_corr_partial {n m : Nat} {t : KSet} {h : Heap K X} {Ks : List (Matrix (Fin n) (Fin m) ℝ)} (hg : h.GivesAll env IsDense t.members Ks)
    (hc : ∀ A ∈ Ks, NonConstant A) :
    ∃ h', ∃ A : Matrix (Fin t.members.length) (Fin t.members.length) ℝ, pairwiseSimilarity env t "corr" h = (.ok (Mat.ofReal A), h') ∧
      (∀ (i j : Fin t.members.length) K L, Ks[min (i : Nat) j]? = some K → Ks[max (i : Nat) j]? = some L → A i j = entryCorr K L) ∧ (∀ i j, -1 ≤ A i j ∧ A i j ≤ 1) ∧ ∀ i, A i i = 1 := by
  obtain ⟨h', A, e, -, hA⟩ := pairwise_run (metric := "corr") (v := entryCorr) rfl (fun f g A B hf hg hA hB => by
    obtain rfl : f = .dense := hf
    obtain rfl : g = .dense := hg
    exact correlationKm_real (hc A hA) (hc B hB)) hg
  have hl : Ks.length = t.members.length := hg.length_eq.symm
  refine ⟨h', A, e, hA, fun i j => ?_, fun i => ?_⟩
  · rw [hA i j _ _ (List.getElem?_eq_getElem (by rw [hl]; exact (min_lt_iff.2 (.inl i.2)))) (List.getElem?_eq_getElem (by rw [hl]; exact (max_lt i.2 j.2)))]
    exact entryCorr_range (hc _ (List.getElem_mem _)) (hc _ (List.getElem_mem _))
  · have hi : Ks[(i : Nat)]? = some Ks[(i:Nat)] := List.getElem?_eq_getElem (by rw [hl]; exact i.2)
    rw [hA i i _ _ (by rw [min_self]; exact hi) (by rw [max_self]; exact hi)]
    exact corr_self (hc _ (List.getElem_mem _))

/-- members that are ndarrays: two kernel matrices `x y` on the sample 1, 2, 3 -/
example : Demo.heapA.GivesAll Demo.renv IsDense [2, 0] [Demo.rA.gramR (· * ·), Demo.rA.gramR (· * ·)] ∧ NonConstant (Demo.rA.gramR (· * ·)) := by
  have hg : ∀ r, r < 3 → Demo.heapA.Gives Demo.renv IsDense r (Mat.ofReal (Demo.rA.gramR (· * ·))) := by
    intro r hr
    unfold Heap.Gives
    rw [show Demo.heapA.objs r = some (.km (Demo.rst false)) from if_pos hr]
    exact givesFull_dense rfl (fun _ _ _ _ _ => rfl) (fun _ _ _ _ => rfl) (Demo.since_rst false _)
  refine ⟨.cons (hg 2 (by decide)) (.cons (hg 0 (by decide)) .nil), (0 : Fin 3), (0 : Fin 3), (0 : Fin 3), (1 : Fin 3), ?_⟩
  show ((min 0 0 : Nat) + 1 : ℝ) * ((max 0 0 : Nat) + 1) ≠ ((min 0 1 : Nat) + 1 : ℝ) * ((max 0 1 : Nat) + 1)
  norm_num

/-- **C42** `correlation_km` raises `AttributeError` exactly if one of the matrices is stored as sparse matrix; otherwise `ValueError` exactly if one is a `np.matrix`, or their numbers of entries
differ or are less than two. -/
theorem C42_correlation_raises (a b : Fmt × Mat F) :
    (correlationKm a b = .error .attributeError ↔ a.1 = .sparse ∨ b.1 = .sparse) ∧
    (correlationKm a b = .error .valueError ↔ a.1 ≠ .sparse ∧ b.1 ≠ .sparse ∧
      (a.1 = .npMatrix ∨ b.1 = .npMatrix ∨ a.2.ravel.length ≠ b.2.ravel.length ∨ a.2.ravel.length < 2)) ∧
    ∀ e, correlationKm a b = .error e → e = .attributeError ∨ e = .valueError := by
  unfold correlationKm pearsonr
  by_cases h1 : a.1 = .sparse ∨ b.1 = .sparse
  · rw [if_pos h1]
    refine ⟨by simp [h1], ?_, ?_⟩
    · simp only [Except.error.injEq, reduceCtorEq, false_iff]
      tauto
    · rintro e ⟨⟩; exact .inl rfl
  rw [if_neg h1]
  by_cases h2 : a.1 = .npMatrix ∨ b.1 = .npMatrix
  · rw [if_pos h2]
    refine ⟨by simp [h1], ?_, ?_⟩
    · simp only [true_iff]
      tauto
    · rintro e ⟨⟩; exact .inr rfl
  rw [if_neg h2]
  by_cases h3 : a.2.ravel.length ≠ b.2.ravel.length ∨ a.2.ravel.length < 2
  · rw [if_pos h3]
    refine ⟨by simp [h1], ?_, ?_⟩
    · simp only [true_iff]
      tauto
    · rintro e ⟨⟩; exact .inr rfl
  · rw [if_neg h3]
    refine ⟨by simp [h1], ?_, by simp⟩
    simp only [reduceCtorEq, false_iff]
    tauto

/-- one matrix stored as sparse matrix, the other not -/
example (A : Mat F) : (Fmt.sparse, A).1 = Fmt.sparse ∨ (Fmt.dense, A).1 = Fmt.sparse := .inl rfl

/-- **C42** does not hold for members in sparse storage (such as after `km[:, :]`): both metrics raise. -/
theorem C42_violated : ¬ ∀ (K X : Type) (env : Env K X F) (n : Nat) (h : Heap K X) (t : KSet) (Ks : List (Matrix (Fin n) (Fin n) ℝ)) (metric : String),
    metric = "corr" ∨ metric = "align" → h.GivesAll env AnyFmt t.members Ks → ∃ M, (pairwiseSimilarity env t metric h).1 = .ok M := by
  intro h
  have hg : ∀ r, r < 2 → Demo.heapS.Gives Demo.renv AnyFmt r (Mat.ofReal (Demo.rB.gramR (· * ·))) := by
    intro r hr
    unfold Heap.Gives
    rw [show Demo.heapS.objs r = some (.km Demo.spr) from if_pos hr]
    exact givesFull_any rfl (fun _ _ _ _ _ => rfl) (fun _ _ _ _ => rfl) Demo.since_spr
  obtain ⟨M, hM⟩ := h Unit ℝ Demo.renv 2 Demo.heapS ⟨[0, 1], .one 2, true⟩ [Demo.rB.gramR (· * ·), Demo.rB.gramR (· * ·)] "align" (.inr rfl)
    (.cons (hg 0 (by decide)) (.cons (hg 1 (by decide)) .nil))
  have e := Heap.full_fix (env := Demo.renv) (h := Demo.heapS) (r := 0) (show Demo.heapS.objs 0 = some (.km Demo.spr) from rfl) Demo.full_spr
  rw [(pairwise_sparse (t := ⟨[0, 1], .one 2, true⟩) rfl e e).2] at hM
  exact nomatch hM

/-! ## C43 -/

/-- **C43** `ideal_kernel(y)` is the matrix `y_i y_j`; it is symmetric and positive semidefinite, of rank at most one, and of rank one unless `y = 0`. -/
theorem C43_ideal (y : List ℝ) :
    ∃ A : Matrix (Fin y.length) (Fin y.length) ℝ, idealKernel (y.map .real) = Mat.ofReal A ∧ (∀ i j, A i j = y[i] * y[j]) ∧ IsPSD A ∧ A.rank ≤ 1 ∧
      ((∃ x ∈ y, x ≠ 0) → A.rank = 1) := by
  obtain ⟨v, hv⟩ : ∃ v : Fin y.length → ℝ, ∀ i, v i = y[i] := ⟨fun i => y[i], fun _ => rfl⟩
  have hle : (Matrix.vecMulVec v v).rank ≤ 1 := Matrix.rank_vecMulVec_le _ _
  refine ⟨Matrix.vecMulVec v v, ?_, fun i j => by rw [Matrix.vecMulVec_apply, hv, hv], ⟨fun i j => mul_comm _ _, fun x => ?_⟩, hle, ?_⟩
  · unfold idealKernel Mat.ofReal Mat.ofCells
    rw [List.length_map]
    congr 1
    funext i j
    beta_reduce
    rw [Matrix.vecMulVec_apply, hv, hv, getD_lt _ _ (by rw [List.length_map]; exact i.2), getD_lt _ _ (by rw [List.length_map]; exact j.2), List.getElem_map,
      List.getElem_map]
    rfl
  · have : ∑ i, ∑ j, x i * (Matrix.vecMulVec v v i j) * x j = (∑ i, x i * v i) * ∑ j, x j * v j := by
      rw [Finset.sum_mul_sum]
      refine Finset.sum_congr rfl fun i _ => Finset.sum_congr rfl fun j _ => ?_
      simp only [Matrix.vecMulVec_apply]
      ring
    rw [this]
    exact mul_self_nonneg _
  · rintro ⟨x, hx, h0⟩
    refine le_antisymm hle (Nat.one_le_iff_ne_zero.2 fun hr => ?_)
    obtain ⟨i, hi, rfl⟩ := List.mem_iff_getElem.1 hx
    have hz : (Matrix.vecMulVec v v).mulVecLin = 0 := LinearMap.range_eq_bot.1 (Submodule.finrank_eq_zero.1 hr)
    have := congrFun (LinearMap.congr_fun hz (Pi.single ⟨i, hi⟩ 1)) ⟨i, hi⟩
    rw [Matrix.mulVecLin_apply, Matrix.mulVec_single_one, LinearMap.zero_apply, Pi.zero_apply, Matrix.col_apply, Matrix.vecMulVec_apply, hv] at this
    exact h0 (mul_self_eq_zero.1 this)

/-- targets 1, -1, 1 -/
example : ∃ x ∈ ([1, -1, 1] : List ℝ), x ≠ 0 := ⟨1, by simp, by norm_num⟩

end KMethods
