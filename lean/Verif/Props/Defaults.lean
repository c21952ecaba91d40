import Verif.Lemmas.Defaults
/-!
# C63: what `find_optimal_kernel` chooses from the buckets of the three strategies

The bucket comes from `make_kernel_bucket(strategy)`, and the kernel functions are those of `numeric_kernels.py`. The samples are arrays of numbers: all rows of `A` have
length `A.ncols`.
-/
namespace KMethods
open PyM KMState
variable {K X : Type} {env : Env K X F}

/-- **C63** 'light': for every sample without rows of (nearly) zero length and all real targets, the chosen kernel is the first one, in the order of the bucket, whose
(normalised) matrix has the largest centered alignment with the targets. Without normalisation rows may be zero. -/
theorem C63_light (strategy : String) (hs : strategy.toLower = "light") (norm skip : Bool) (h : Heap LibKernel (List ℝ)) (A : Arr2 (List ℝ))
    (hA : ∀ i, i < A.nrows → (A.row i).length = A.ncols) (hrow : norm = true → ∀ i : Fin A.nrows, 1e-8 < A.sqNorm i)
    (cv : CVScore) (y : Fin A.nrows → ℝ) (method : String) (hm : method.toLower = "align/corr") :
    ∃ b h' i r k s', makeKernelBucket (.str strategy) (some norm) (some skip) h = (.ok b, h') ∧
      findOptimalKernel (libEnv realOps) cv true (sampleArg A) ((List.ofFn y).map .real) method {} ⟨h', b.set⟩ = (.ok r, s') ∧ b.set.members[i]? = some r ∧
      s'.heap.AttachedTo (libEnv realOps) r k norm A ∧ (strategyKernels [2, 3] [-3, -1, 1] [-3, -1, 1] [-3, -1, 1, 3, 5] [1])[i]? = some k.kernel ∧
      FirstBest ((strategyKernels [2, 3] [-3, -1, 1] [-3, -1, 1] [-3, -1, 1, 3, 5] [1]).map fun k => calign (k.matrixOf norm A) (outerR A.nrows y)) i := by
  obtain ⟨b, h', ks, e, -, hn, g, hk, -⟩ := C40_light strategy hs norm skip h
  have hne : ks ≠ [] := by rintro rfl; cases hk
  obtain ⟨i, r, k, s', e', hr, hki, hat, hb⟩ := fresh_align hne (g.fresh rfl) hn hA (fun k hks => strategy_good (by decide)
    (fun o ho => .inl (by simp at ho; rw [ho])) hrow (hk ▸ List.mem_map_of_mem (f := fun k : LibKernel => k.kernel) hks)) cv y hm
  rw [hk] at hb
  exact ⟨b, h', i, r, k, s', e, e', hr, hat, by rw [← hk, List.getElem?_map, hki]; rfl, hb⟩

/-- **C63** 'exhaustive': the same, if moreover every row has squared length greater than 2, by a margin (when normalising). Without this hypothesis it is false:
`C63_nan_chosen`. -/
theorem C63_exhaustive_partial (strategy : String) (hs : strategy.toLower = "exhaustive") (norm skip : Bool) (h : Heap LibKernel (List ℝ)) (A : Arr2 (List ℝ))
    (hA : ∀ i, i < A.nrows → (A.row i).length = A.ncols) (hrow : norm = true → ∀ i : Fin A.nrows, 1e-8 < Real.tanh (A.sqNorm i - 2))
    (cv : CVScore) (y : Fin A.nrows → ℝ) (method : String) (hm : method.toLower = "align/corr") :
    ∃ b h' i r k s', makeKernelBucket (.str strategy) (some norm) (some skip) h = (.ok b, h') ∧
      findOptimalKernel (libEnv realOps) cv true (sampleArg A) ((List.ofFn y).map .real) method {} ⟨h', b.set⟩ = (.ok r, s') ∧ b.set.members[i]? = some r ∧
      s'.heap.AttachedTo (libEnv realOps) r k norm A ∧
      (strategyKernels [2, 3, 4] [-5, -3, -1, 1, 3, 5] [-5, -3, -1, 1, 3, 5] [-5, -3, -1, 1, 3, 5] [-2, 1, 2])[i]? = some k.kernel ∧
      FirstBest ((strategyKernels [2, 3, 4] [-5, -3, -1, 1, 3, 5] [-5, -3, -1, 1, 3, 5] [-5, -3, -1, 1, 3, 5] [-2, 1, 2]).map
        fun k => calign (k.matrixOf norm A) (outerR A.nrows y)) i := by
  obtain ⟨b, h', ks, e, -, hn, g, hk, -⟩ := C40_exhaustive strategy hs norm skip h
  have hne : ks ≠ [] := by rintro rfl; cases hk
  have hlong : norm = true → ∀ i : Fin A.nrows, 1e-8 < A.sqNorm i := by
    intro hnorm i
    have h1 : (0:ℝ) < Real.tanh (A.sqNorm i - 2) := lt_trans (by norm_num) (hrow hnorm i)
    have h2 : 0 < A.sqNorm i - 2 := tanh_pos_iff'.1 h1
    linarith
  obtain ⟨i, r, k, s', e', hr, hki, hat, hb⟩ := fresh_align hne (g.fresh rfl) hn hA (fun k hks => strategy_good (by decide)
    (fun o ho => by
      simp only [List.mem_cons, List.not_mem_nil, or_false] at ho
      rcases ho with rfl | rfl | rfl
      · exact .inr fun hnorm i => by rw [show (-2 + A.sqNorm i : ℝ) = A.sqNorm i - 2 by ring]; exact hrow hnorm i
      · exact .inl le_rfl
      · exact .inl (by norm_num)) hlong (hk ▸ List.mem_map_of_mem (f := fun k : LibKernel => k.kernel) hks)) cv y hm
  rw [hk] at hb
  exact ⟨b, h', i, r, k, s', e, e', hr, hat, by rw [← hk, List.getElem?_map, hki]; rfl, hb⟩

/-- **C63** For every bucket and all kernel functions: if the matrix of some member contains NaN, the first such member is chosen, whatever the alignment of the others
(for targets whose centered matrix is not nearly zero). -/
theorem C63_first_nan {s : SetSt K X} {A : Arr2 X} (cv : CVScore) (y : Fin A.nrows → ℝ) {method : String} (hm : method.toLower = "align/corr")
    (hn : s.set.numSamples = .unset ∨ s.set.numSamples = .one A.nrows)
    {G : Nat → Fin A.nrows → Fin A.nrows → F} (hG : ∀ r ∈ s.set.members, s.heap.MatrixOn env r A ⟨A.nrows, A.nrows, G r⟩)
    (hy : ¬ NearZero (Real.sqrt (frobInner (centered (outerR A.nrows y)) (centered (outerR A.nrows y)))))
    {i r : Nat} (hr : s.set.members[i]? = some r) (hnan : ∃ a b, G r a b = .nan)
    (hfin : ∀ j < i, ∀ q, s.set.members[j]? = some q → ∀ a b, G q a b ≠ .nan) :
    ∃ s', findOptimalKernel env cv true (sampleArg A) ((List.ofFn y).map .real) method {} s = (.ok r, s') ∧ s.NowAttached env s' A :=
  first_nan cv y hm hn hG hy hr hnan hfin

/-- **C63** The default, 'exhaustive' with normalisation: if some row has squared length below 2, the chosen kernel is the sigmoid kernel with offset -2, and its matrix
contains NaN in every row and column that belongs to such a row. (No row is nearly zero, no self-kernel is nearly zero and the targets are not constant.) -/
theorem C63_nan_chosen (strategy : String) (hs : strategy.toLower = "exhaustive") (skip : Bool) (h : Heap LibKernel (List ℝ)) (A : Arr2 (List ℝ))
    (hA : ∀ i, i < A.nrows → (A.row i).length = A.ncols) (hrow : ∀ i : Fin A.nrows, 1e-8 < A.sqNorm i)
    (htanh : ∀ i : Fin A.nrows, 1e-8 < |Real.tanh (A.sqNorm i - 2)|) (hshort : ∃ i : Fin A.nrows, A.sqNorm i < 2)
    (cv : CVScore) (y : Fin A.nrows → ℝ) (hy : ¬ NearZero (Real.sqrt (frobInner (centered (outerR A.nrows y)) (centered (outerR A.nrows y)))))
    (method : String) (hm : method.toLower = "align/corr") :
    ∃ b h' r k s', makeKernelBucket (.str strategy) (some true) (some skip) h = (.ok b, h') ∧
      findOptimalKernel (libEnv realOps) cv true (sampleArg A) ((List.ofFn y).map .real) method {} ⟨h', b.set⟩ = (.ok r, s') ∧ b.set.members[22]? = some r ∧
      s'.heap.AttachedTo (libEnv realOps) r k true A ∧ k.kernel = .sigmoid 1 (-2) ∧
      ∃ N : Fin A.nrows → Fin A.nrows → F, (Heap.full (libEnv realOps) r s'.heap).1 = .ok (.dense, ⟨A.nrows, A.nrows, N⟩) ∧
        ∀ i j : Fin A.nrows, A.sqNorm i < 2 ∨ A.sqNorm j < 2 → N i j = .nan := by
  classical
  obtain ⟨b, h', ks, e, hlen, hn, g, hk, -⟩ := C40_exhaustive strategy hs true skip h
  have gf := g.fresh rfl
  set L := strategyKernels [2, 3, 4] [-5, -3, -1, 1, 3, 5] [-5, -3, -1, 1, 3, 5] [-5, -3, -1, 1, 3, 5] [-2, 1, 2] with hL
  have hself : ∀ i : Nat, (NumKernel.sigmoid 1 (-2)).formula (A.row i) (A.row i) = Real.tanh (A.sqNorm i - 2) := fun i => by
    rw [(formula_self _ A i).2.2.2.2.2 (-2) rfl]; congr 1; ring
  -- its matrix
  obtain ⟨N, hN, hNv⟩ := C20_negative_diagonal ((NumKernel.sigmoid 1 (-2)).matrixOn A) (method := "cosine") (by decide +kernel) (fun i => by
    show ¬ |(NumKernel.sigmoid 1 (-2)).formula (A.row i) (A.row i)| ≤ _
    rw [hself, not_le]; exact htanh i)
  have hneg : ∀ i : Fin A.nrows, A.sqNorm i < 2 → (NumKernel.sigmoid 1 (-2)).matrixOn A i i < 0 := by
    intro i hi
    show (NumKernel.sigmoid 1 (-2)).formula (A.row i) (A.row i) < 0
    rw [hself]
    exact tanh_neg_iff'.2 (by linarith)
  -- the matrices of all members
  set G : Nat → Fin A.nrows → Fin A.nrows → F := fun r =>
    if (Heap.kernelAt h' r ⟨.linear, false⟩).kernel = .sigmoid 1 (-2) then N
    else fun i j => .real ((Heap.kernelAt h' r ⟨.linear, false⟩).kernel.matrixOf true A i j) with hGdef
  have hG : ∀ r ∈ b.set.members, Heap.MatrixOn (libEnv realOps) h' r A ⟨A.nrows, A.nrows, G r⟩ := by
    intro r hr
    obtain ⟨k, hks, ek⟩ := fresh_mem gf hr
    have hkL : k.kernel ∈ L := hk ▸ List.mem_map_of_mem (f := fun k : LibKernel => k.kernel) hks
    simp only [hGdef, kernelAt_new ek]
    by_cases hkk : k.kernel = .sigmoid 1 (-2)
    · rw [if_pos hkk]
      refine ⟨k, true, ⟨_, ek, .new 0⟩, fun t ht => ?_⟩
      rw [lib_full_normed hA (by rw [hkk]; trivial) (Since.mono (fun _ _ => trivial) ht), hkk, hN]
      rfl
    · rw [if_neg hkk]
      refine Heap.KernelOn.matrixOn (M := k.kernel.matrixOf true A) rfl ⟨k, true, ⟨_, ek, .new 0⟩, lib_isMatrix1 hA ?_ ?_⟩
      all_goals
        have hkL' : k.kernel ∈ strategyKernels [2, 3, 4] [-5, -3, -1, 1, 3, 5] [-5, -3, -1, 1, 3, 5] [-5, -3, -1, 1, 3, 5] [1, 2] := by
          simp only [hL, strategyKernels, List.mem_cons, List.mem_append, List.mem_map] at hkL ⊢
          rcases hkL with hkL | hkL | ⟨o, rfl | ho, ho'⟩
          · exact .inl hkL
          · exact .inr (.inl hkL)
          · exact (hkk ho'.symm).elim
          · exact .inr (.inr ⟨o, ho, ho'⟩)
        have := strategy_good (A := A) (norm := true) (by decide) (fun o ho => .inl (by
          simp only [List.mem_cons, List.not_mem_nil, or_false] at ho
          rcases ho with rfl | rfl <;> norm_num)) (fun _ => hrow) hkL'
      · exact this.1
      · exact this.2
  have h22 : 22 < b.set.members.length := by rw [hlen]; norm_num
  obtain ⟨k, hk22, ek⟩ := fresh_get gf (List.getElem?_eq_getElem h22)
  have hkk : k.kernel = .sigmoid 1 (-2) := by
    have h1 : (ks.map fun k : LibKernel => k.kernel)[22]? = some k.kernel := by rw [List.getElem?_map, hk22]; rfl
    rw [hk] at h1
    have h2 : L[22]? = some (.sigmoid 1 (-2)) := rfl
    exact Option.some.inj (h1.symm.trans h2)
  have hpre : ∀ j < 22, ∀ k, L[j]? = some k → k ≠ .sigmoid 1 (-2) := by
    intro j hj k hkj
    have hmem : k ∈ L.take 22 := by
      refine List.mem_of_getElem? (i := j) ?_
      rw [List.getElem?_take, if_pos hj]; exact hkj
    have : L.take 22 = .linear :: ([2, 3, 4].map (fun d : ℤ => .poly d 1 1) ++ [-5, -3, -1, 1, 3, 5].map (fun e : ℤ => mkGaussian (2 ^ e)) ++
      [-5, -3, -1, 1, 3, 5].map (fun e : ℤ => .laplacian (2 ^ e)) ++ [-5, -3, -1, 1, 3, 5].map (fun e : ℤ => .sigmoid (2 ^ e) 1)) := rfl
    rw [this] at hmem
    simp only [List.mem_cons, List.mem_append, List.mem_map] at hmem
    rcases hmem with rfl | ((⟨d, -, rfl⟩ | ⟨e, -, rfl⟩) | ⟨e, -, rfl⟩) | ⟨e, -, rfl⟩ <;> intro hc
    · cases hc
    · cases hc
    · cases hc
    · cases hc
    · have := (NumKernel.sigmoid.inj hc).2
      norm_num at this
  have hGk : G (b.set.members[22]) = N := by simp only [hGdef, kernelAt_new ek]; rw [if_pos hkk]
  have hr : b.set.members[22]? = some b.set.members[22] := List.getElem?_eq_getElem h22
  have hmem : b.set.members[22] ∈ b.set.members := List.getElem_mem _
  obtain ⟨s', e', hat⟩ := first_nan (env := libEnv realOps) (s := ⟨h', b.set⟩) cv y hm (.inl hn) hG hy hr (by
    obtain ⟨i, hi⟩ := hshort
    exact ⟨i, i, by rw [hGk]; exact (hNv i i).1 (.inl (hneg i hi))⟩) (by
    intro j hj q hq a c
    obtain ⟨k', hkj, ek'⟩ := fresh_get gf hq
    have hLj : L[j]? = some k'.kernel := by rw [← hk, List.getElem?_map, hkj]; rfl
    simp only [hGdef, kernelAt_new ek']
    rw [if_neg (hpre j hj _ hLj)]
    exact fun hc => by cases hc)
  obtain ⟨s'', e'', -⟩ := NowAttached.fullF hat hmem (hG _ hmem)
  refine ⟨b, h', _, k, s', e, e', hr, hat.2.2 _ k true hmem ⟨_, ek, .new 0⟩, hkk, N, ?_, fun i j hij => (hNv i j).1 (hij.imp (hneg i) (hneg j))⟩
  have h1 : (SetSt.onHeap (Heap.full (libEnv realOps) b.set.members[22]) s').1 = .ok (.dense, ⟨A.nrows, A.nrows, G b.set.members[22]⟩) := by rw [e'']
  rw [hGk] at h1
  exact h1

/-- **C63** With normalisation and a row that is (nearly) zero, `find_optimal_kernel` raises `KMNormError` for the buckets of all three strategies: the linear kernel, a
member of all of them, cannot be normalised. -/
theorem C63_zero_row (strategy : String) (hs : strategy.toLower ∈ ["exhaustive", "light", "linear_only"]) (skip : Bool) (h : Heap LibKernel (List ℝ)) (A : Arr2 (List ℝ))
    (hA : ∀ i, i < A.nrows → (A.row i).length = A.ncols) (hz : ∃ i : Fin A.nrows, A.sqNorm i ≤ 1e-8) (cv : CVScore) (targets : List F) (method : String)
    (hm : method.toLower = "align/corr") (p : MethodParams) :
    ∃ b h', makeKernelBucket (.str strategy) (some true) (some skip) h = (.ok b, h') ∧
      (findOptimalKernel (libEnv realOps) cv true (sampleArg A) targets method p ⟨h', b.set⟩).1 = .error .kmNorm := by
  obtain ⟨i, hi⟩ := hz
  have key : ∀ (b : Bucket) (h' : Heap LibKernel (List ℝ)) (ks : List LibKernel) (rest : List NumKernel), b.set.numSamples = .unset →
      SetSt.Grown ⟨h, ⟨[], .unset, true⟩⟩ ⟨h', b.set⟩ true ks → ks.map (·.kernel) = .linear :: rest →
      (findOptimalKernel (libEnv realOps) cv true (sampleArg A) targets method p ⟨h', b.set⟩).1 = .error .kmNorm := by
    intro b h' ks rest hn g hk
    rcases ks with _ | ⟨⟨k, sk⟩, ks⟩
    · cases hk
    obtain rfl : k = .linear := (List.cons.inj hk).1
    exact fresh_zero_row (g.fresh rfl) hn hA i.2 hi cv targets hm p
  simp only [List.mem_cons, List.not_mem_nil, or_false] at hs
  rcases hs with hs | hs | hs
  · obtain ⟨b, h', ks, e, -, hn, g, hk, -⟩ := C40_exhaustive strategy hs true skip h
    exact ⟨b, h', e, key b h' ks _ hn g hk⟩
  · obtain ⟨b, h', ks, e, -, hn, g, hk, -⟩ := C40_light strategy hs true skip h
    exact ⟨b, h', e, key b h' ks _ hn g hk⟩
  · obtain ⟨b, h', e, -, hn, g⟩ := C40_linear_only strategy hs true skip h
    exact ⟨b, h', e, key b h' _ [] hn g rfl⟩

namespace Demo
/-- two samples of one number, 1 and -1 -/
def pm : Arr2 (List ℝ) := ⟨2, 1, fun i => if i = 0 then [1] else [-1]⟩
/-- the targets 1 and -1 -/
def pmY : Fin pm.nrows → ℝ := fun i => if (i : Nat) = 0 then 1 else -1

theorem pm_lengths : ∀ i, i < pm.nrows → (pm.row i).length = pm.ncols := by
  intro i _
  show (if i = 0 then [(1:ℝ)] else [-1]).length = 1
  split <;> rfl

theorem pm_sqNorm (i : Nat) : pm.sqNorm i = 1 := by
  show (((if i = 0 then [(1:ℝ)] else [-1]) : List ℝ).map fun a => a ^ 2).sum = 1
  split <;> norm_num

theorem pm_outer : centered (outerR pm.nrows pmY) = outerR pm.nrows pmY := by
  funext i j
  show centered (n := 2) (fun i j => pmY i * pmY j) i j = _
  have hs : ∀ c : ℝ, ∑ k : Fin 2, c * pmY k = 0 := by
    intro c
    rw [Fin.sum_univ_two]
    show c * pmY (0 : Fin 2) + c * pmY (1 : Fin 2) = 0
    simp [pmY]
  have hs' : ∀ c : ℝ, ∑ k : Fin 2, pmY k * c = 0 := by
    intro c
    simp only [mul_comm _ c]
    exact hs c
  simp [centered, hs, hs', outerR]

theorem pm_frob : frobInner (outerR pm.nrows pmY) (outerR pm.nrows pmY) = 4 := by
  show ∑ i : Fin 2, ∑ j : Fin 2, (pmY i * pmY j) * (pmY i * pmY j) = 4
  simp only [Fin.sum_univ_two]
  simp [pmY]
  norm_num

theorem pm_targets : ¬ NearZero (Real.sqrt (frobInner (centered (outerR pm.nrows pmY)) (centered (outerR pm.nrows pmY)))) := by
  rw [pm_outer, pm_frob, show (4:ℝ) = 2 ^ 2 by norm_num, Real.sqrt_sq (by norm_num)]
  unfold NearZero
  norm_num

theorem pm_tanh (i : Nat) : 1e-8 < |Real.tanh (pm.sqNorm i - 2)| := by
  rw [pm_sqNorm, show (1:ℝ) - 2 = -1 by norm_num, Real.tanh_neg, abs_neg]
  exact lt_of_lt_of_le (lt_trans (by norm_num) (tanh_ge le_rfl)) (le_abs_self _)

/-- the linear kernel fits the targets perfectly -/
theorem pm_linear : NumKernel.linear.matrixOf true pm = outerR pm.nrows pmY := by
  funext i j
  show cosNorm (NumKernel.linear.matrixOn pm) i j = _
  unfold cosNorm
  have h1 : ∀ i : Fin pm.nrows, NumKernel.linear.matrixOn pm i i = 1 := fun i =>
    ((formula_self .linear pm i).1 rfl).trans (pm_sqNorm i)
  rw [h1, h1, mul_one, Real.sqrt_one, div_one]
  show (List.zipWith (· * ·) (if (i : Nat) = 0 then [(1:ℝ)] else [-1]) (if (j : Nat) = 0 then [(1:ℝ)] else [-1])).sum =
    (if (i : Nat) = 0 then 1 else -1) * (if (j : Nat) = 0 then 1 else -1)
  by_cases hi : (i : Nat) = 0 <;> by_cases hj : (j : Nat) = 0 <;> simp [hi, hj]
end Demo

/-- **C63** is false for the default strategy 'exhaustive' (with the default normalisation): for the samples 1 and -1 with targets 1 and -1 the linear kernel has alignment 1
with the targets, which is the largest possible value, but the kernel that is returned has a matrix of NaN only. -/
theorem C63_violated : ¬ ∀ (skip : Bool) (h : Heap LibKernel (List ℝ)) (A : Arr2 (List ℝ)), (∀ i, i < A.nrows → (A.row i).length = A.ncols) →
    (∀ i : Fin A.nrows, 1e-8 < A.sqNorm i) → ∀ (cv : CVScore) (y : Fin A.nrows → ℝ) (b : Bucket) (h' : Heap LibKernel (List ℝ)) (r : Nat) (s' : SetSt LibKernel (List ℝ)),
    makeKernelBucket (.str "exhaustive") (some true) (some skip) h = (.ok b, h') →
    findOptimalKernel (libEnv realOps) cv true (sampleArg A) ((List.ofFn y).map .real) "align/corr" {} ⟨h', b.set⟩ = (.ok r, s') →
    ∃ M : Matrix (Fin A.nrows) (Fin A.nrows) ℝ, (Heap.full (libEnv realOps) r s'.heap).1 = .ok (.dense, Mat.ofReal M) ∧
      calign (NumKernel.linear.matrixOf true A) (outerR A.nrows y) ≤ calign M (outerR A.nrows y) := by
  intro H
  obtain ⟨b, h', r, k, s', e, e', -, -, -, N, hN, hNv⟩ := C63_nan_chosen "exhaustive" (by decide +kernel) false ⟨fun _ => none, 0⟩ Demo.pm Demo.pm_lengths
    (fun i => by rw [Demo.pm_sqNorm]; norm_num) (fun i => Demo.pm_tanh i) ⟨⟨0, by decide⟩, by rw [Demo.pm_sqNorm]; norm_num⟩ (fun _ _ _ => .ok .nan) Demo.pmY
    Demo.pm_targets "align/corr" (by decide +kernel)
  obtain ⟨M, hM, -⟩ := H false ⟨fun _ => none, 0⟩ Demo.pm Demo.pm_lengths (fun i => by rw [Demo.pm_sqNorm]; norm_num) _ Demo.pmY b h' r s' e e'
  rw [hN] at hM
  have hNM : (⟨Demo.pm.nrows, Demo.pm.nrows, N⟩ : Mat F) = Mat.ofReal M := (Prod.mk.inj (Except.ok.inj hM)).2
  have h0 := hNv ⟨0, by decide⟩ ⟨0, by decide⟩ (.inl (by rw [Demo.pm_sqNorm]; norm_num))
  have : N = fun i j => .real (M i j) := by injection hNM
  rw [this] at h0
  cases h0

/-- alignment 1 of the linear kernel on these samples -/
theorem C63_violated_best : calign (NumKernel.linear.matrixOf true Demo.pm) (outerR Demo.pm.nrows Demo.pmY) = 1 := by
  rw [Demo.pm_linear]
  have h := Demo.pm_targets
  unfold calign
  rw [if_neg (not_or.2 ⟨h, h⟩), Demo.pm_outer, Demo.pm_frob, show (4:ℝ) = 2 ^ 2 by norm_num, Real.sqrt_sq (by norm_num)]
  norm_num

/-- the hypotheses of `C63_light`, on the same samples -/
example : "light".toLower = "light" ∧ (∀ i, i < Demo.pm.nrows → (Demo.pm.row i).length = Demo.pm.ncols) ∧ ∀ i : Fin Demo.pm.nrows, 1e-8 < Demo.pm.sqNorm i :=
  ⟨by decide +kernel, Demo.pm_lengths, fun i => by rw [Demo.pm_sqNorm]; norm_num⟩

/-- the hypotheses of `C63_exhaustive_partial`: rows of squared length 5 -/
example : ∀ i : Fin 2, 1e-8 < Real.tanh ((⟨2, 2, fun i => if i = 0 then [1, 2] else [2, -1]⟩ : Arr2 (List ℝ)).sqNorm i - 2) := by
  intro i
  have : (⟨2, 2, fun i => if i = 0 then [1, 2] else [2, -1]⟩ : Arr2 (List ℝ)).sqNorm i = 5 := by
    show (((if (i : Nat) = 0 then [(1:ℝ), 2] else [2, -1]) : List ℝ).map fun a => a ^ 2).sum = 5
    split <;> norm_num
  rw [this]
  exact lt_trans (by norm_num) (tanh_ge (by norm_num))

/-- the hypothesis of `C63_zero_row`: a zero row -/
example : (⟨1, 2, fun _ => [0, 0]⟩ : Arr2 (List ℝ)).sqNorm 0 ≤ 1e-8 := by
  show (([0, 0] : List ℝ).map fun a => a ^ 2).sum ≤ 1e-8
  norm_num

end KMethods
