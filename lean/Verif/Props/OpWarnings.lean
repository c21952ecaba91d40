import Verif.Lemmas.OpWarnings
import Verif.Props.Operations
import Verif.Props.Ranking
/-!
# Warnings of `operations.py`, of rankings and of `make_kernel_bucket`
-/
namespace KMethods
open PyM F

/-- **C93** Warnings have no effect: with the log, each function returns (or raises) the same, whatever was logged before, and what was logged before stays. -/
theorem C93_no_effect :
    (∀ a tol, (isPSDW a tol).Gives (isPSD a tol)) ∧
    (∀ K method, (normalizeKmW K method).Gives (normalizeKm K method)) ∧
    (∀ K dx dy method, (normalizeKm2W K dx dy method).Gives (normalizeKm2 K dx dy method)) ∧
    (∀ a b zd already, (alignmentCenteredAnyW a b zd already).Gives (alignmentCenteredAny a b zd already)) ∧
    (∀ {K X : Type} (env : Env K X F) cv isBucket sample targets method p (s : SetSt K X) w,
      (findOptimalKernelW env cv isBucket sample targets method p (s, w)).1 = (findOptimalKernel env cv isBucket sample targets method p s).1 ∧
      (findOptimalKernelW env cv isBucket sample targets method p (s, w)).2.1 = (findOptimalKernel env cv isBucket sample targets method p s).2) ∧
    (∀ {X : Type} strategy normalize skip (h : Heap LibKernel X) w,
      (makeKernelBucketW strategy normalize skip (h, w)).1 = (makeKernelBucket strategy normalize skip h).1 ∧
      (makeKernelBucketW strategy normalize skip (h, w)).2.1 = (makeKernelBucket strategy normalize skip h).2) := by
  refine ⟨isPSDW_does, normalizeKmW_gives, fun K dx dy method => (Logged.does_lift _).gives, alignmentAnyW_gives, ?_, ?_⟩
  · intro K X env cv isBucket sample targets method p
    exact proj_findOptimal env cv isBucket sample targets method p
  · intro X strategy normalize skip h w
    rcases strategy with b | s | _ <;> exact ⟨rfl, rfl⟩

/-- **C93** `is_PSD` warns exactly when it answers `False` without looking at the eigenvalues: a matrix that is not square, and a matrix with an entry that is not finite or
too far from the one opposite. -/
theorem C93_psd (tol : ℝ) :
    (∀ sh, (isPSDW (.other sh) tol).warnings = []) ∧
    (∀ K : Mat F, K.nrows ≠ K.ncols → isPSDW (.arr K) tol [] = (.ok false, [.notSquare])) ∧
    (∀ (n : Nat) (K : Fin n → Fin n → F) i j, ¬ (K i j).isFinite ∨ 1e-8 + 1e-5 * |(K j i).val| < |(K i j).val - (K j i).val| →
      isPSDW (.arr ⟨n, n, K⟩) tol [] = (.ok false, [.notSymmetric])) ∧
    (∀ (n : Nat) (R : Matrix (Fin n) (Fin n) ℝ), (∀ i j, |R i j - R j i| ≤ 1e-8 + 1e-5 * |R j i|) → (isPSDW (.arr (Mat.ofReal R)) tol).warnings = []) := by
  refine ⟨fun _ => rfl, fun K h => ?_, fun n K i j h => ?_, fun n R h => ?_⟩
  · rw [isPSDW, dif_neg h]
    rfl
  · rw [isPSDW, dif_pos rfl, if_neg]
    · rfl
    · intro hall
      have := hall i j
      simp only [Fin.cast_eq_self] at this
      rcases hij : K i j with x | _
      · rcases hji : K j i with y | _
        · rw [hij, hji] at h this
          rcases h with h | h
          · exact h trivial
          · exact absurd (show |x - y| ≤ _ from this) (not_le.2 h)
        · rw [hij, hji] at this; exact this
      · rw [hij] at this; exact this
  · have e : isPSDW (.arr (Mat.ofReal R)) tol = pure (decide (∀ l, ¬ (lowerSym_isHermitian fun i j : Fin n => ((Mat.ofReal R).get i (Fin.cast rfl j)).val).eigenvalues l < -tol)) := by
      rw [isPSDW, dif_pos (show (Mat.ofReal R).nrows = (Mat.ofReal R).ncols from rfl), if_pos]
      · rfl
      · exact fun i j => h i j
    rw [e]
    rfl

/-- **C93** A silent `False` of `is_PSD` is a genuine one: the matrix is real, square and (nearly) symmetric, and for some `x` the quadratic form of the symmetric matrix
given by its lower triangle is below `-tolerance·|x|²`. -/
theorem C93_psd_silent {K : Mat F} {tol : ℝ} (h : isPSDW (.arr K) tol [] = (.ok false, [])) :
    ∃ (n : Nat) (R : Matrix (Fin n) (Fin n) ℝ), K = Mat.ofReal R ∧ (∀ i j, |R i j - R j i| ≤ 1e-8 + 1e-5 * |R j i|) ∧
      ∃ x : Fin n → ℝ, ∑ i, ∑ j, x i * R (max i j) (min i j) * x j < -tol * ∑ i, x i * x i := by
  rcases K with ⟨n, m, g⟩
  by_cases hsq : n = m
  swap
  · rw [(C93_psd tol).2.1 _ hsq] at h
    cases h
  subst hsq
  by_cases hbad : ∃ i j, ¬ (g i j).isFinite ∨ 1e-8 + 1e-5 * |(g j i).val| < |(g i j).val - (g j i).val|
  · obtain ⟨i, j, hb⟩ := hbad
    rw [(C93_psd tol).2.2.1 n g i j hb] at h
    cases h
  push Not at hbad
  have hre : ∀ i j, g i j = .real (g i j).val := by
    intro i j
    have := (hbad i j).1
    rcases hg : g i j with x | _
    · rfl
    · rw [hg] at this
      exact False.elim this
  have e : (⟨n, n, g⟩ : Mat F) = Mat.ofReal fun i j => (g i j).val := by
    unfold Mat.ofReal
    congr 1
    funext i j
    exact hre i j
  refine ⟨n, fun i j => (g i j).val, e, fun i j => (hbad i j).2, ?_⟩
  have hp : isPSD (.arr (⟨n, n, g⟩ : Mat F)) tol = .ok false := by
    have := C93_no_effect.1 (.arr (⟨n, n, g⟩ : Mat F)) tol []
    rw [h] at this
    exact (Prod.mk.inj this).1.symm
  rw [isPSD, dif_pos rfl, if_pos] at hp
  · injection hp with hp
    rw [decide_eq_false_iff_not] at hp
    by_contra hx
    push Not at hx
    apply hp
    simp only [not_lt]
    refine (eigen_ge_iff (lowerSym_isHermitian _) (-tol)).2 fun x => (hx x).trans (le_of_eq ?_)
    refine Finset.sum_congr rfl fun i _ => Finset.sum_congr rfl fun j _ => ?_
    simp only [lowerSym, Fin.cast_eq_self]
    split
    · rename_i hij
      rw [max_eq_left hij, min_eq_right hij]
    · rename_i hij
      rw [max_eq_right (not_le.1 hij).le, min_eq_left (not_le.1 hij).le]
  · intro i j
    simp only [Fin.cast_eq_self]
    rw [hre i j, hre j i]
    exact (hbad i j).2

/-- the matrix with rows (0, 1), (1, 0) and tolerance 1/2: `False`, silently -/
example : isPSDW (.arr (Mat.ofReal !![(0:ℝ), 1; 1, 0])) (1/2) [] = (.ok false, []) := by
  have h1 := C93_no_effect.1 (.arr (Mat.ofReal !![(0:ℝ), 1; 1, 0])) (1/2) []
  have h2 := (C93_psd (1/2)).2.2.2 2 !![(0:ℝ), 1; 1, 0] (by intro i j; fin_cases i <;> fin_cases j <;> norm_num)
  rw [h2] at h1
  rw [h1]
  obtain ⟨b, hb, h⟩ := C25_decides !![(0:ℝ), 1; 1, 0] (by intro i j; fin_cases i <;> fin_cases j <;> rfl) (1/2)
  rw [hb]
  cases b
  · rfl
  · have := h.1 rfl ![1, -1]
    simp [Fin.sum_univ_two] at this
    norm_num at this

/-- **C93** Exactly which warnings `normalize_km` issues, by its outcome: none with `ValueError` (not square) or `KMNormError` (a diagonal entry near zero), one with
`NotImplementedError` (unknown method), and one with a result that contains NaN or infinite values. There are no other outcomes. -/
theorem C93_normalise (K : Mat F) (method : String) :
    (normalizeKm K method = .error .valueError ∧ (normalizeKmW K method).warnings = []) ∨
    (normalizeKm K method = .error .kmNorm ∧ (normalizeKmW K method).warnings = []) ∨
    (normalizeKm K method = .error .notImplemented ∧ (normalizeKmW K method).warnings = [.cannotNormalize]) ∨
    (∃ N, normalizeKm K method = .ok N ∧ N.Finite ∧ (normalizeKmW K method).warnings = []) ∨
    (∃ N, normalizeKm K method = .ok N ∧ ¬ N.Finite ∧ (normalizeKmW K method).warnings = [.normedNonFinite]) := by
  by_cases hsq : K.nrows = K.ncols
  swap
  · exact .inl ⟨(C20_errors K method).1 hsq, by unfold normalizeKmW; rw [dif_neg hsq]; rfl⟩
  have hW : normalizeKmW K method = announceNormed (normalizeKm K method) := by
    unfold normalizeKmW normalizeKm
    rw [dif_pos hsq, dif_pos hsq]
  rw [hW]
  by_cases hm : method.toLower = "cosine"
  swap
  · have := (C20_errors K method).2.1 hsq hm
    rw [this]
    exact .inr (.inr (.inl ⟨rfl, (announce_error (by decide)).warnings⟩))
  obtain ⟨h1, h2⟩ := (C20_errors K method).2.2 hsq hm
  by_cases hz : ∃ i x, K.get i (Fin.cast hsq i) = .real x ∧ |x| ≤ 1e-8
  · rw [h1 hz]
    exact .inr (.inl ⟨rfl, announce_kmNorm.warnings⟩)
  · obtain ⟨N, hN, -⟩ := h2 hz
    rw [hN, (announce_ok N).warnings]
    by_cases hf : N.Finite
    · rw [(containsNanInf_iff N).2 hf]
      exact .inr (.inr (.inr (.inl ⟨N, rfl, hf, rfl⟩)))
    · have : containsNanInf N = true := by
        rw [← Bool.not_eq_false, containsNanInf_iff]
        exact hf
      rw [this]
      exact .inr (.inr (.inr (.inr ⟨N, rfl, hf, rfl⟩)))

/-- **C93** On a matrix of finite numbers without diagonal entries near zero, `normalize_km` warns exactly when a diagonal entry is negative. -/
theorem C93_normalise_negative {n : Nat} (K : Matrix (Fin n) (Fin n) ℝ) {method : String} (hm : method.toLower = "cosine") (hz : ∀ i, ¬ |K i i| ≤ 1e-8) :
    (normalizeKmW (Mat.ofReal K) method).warnings = [.normedNonFinite] ∧ (∃ i, K i i < 0) ∨
    (normalizeKmW (Mat.ofReal K) method).warnings = [] ∧ ∀ i, 0 < K i i := by
  obtain ⟨N, hN, h⟩ := C20_negative_diagonal K hm hz
  have hcase := C93_normalise (Mat.ofReal K) method
  rw [hN] at hcase
  rcases hcase with ⟨h0, -⟩ | ⟨h0, -⟩ | ⟨h0, -⟩ | ⟨M, h0, hf, hw⟩ | ⟨M, h0, hf, hw⟩
  · cases h0
  · cases h0
  · cases h0
  · right
    refine ⟨hw, fun i => ?_⟩
    injection h0 with h0
    subst h0
    by_contra hi
    have hneg : K i i < 0 := lt_of_le_of_ne (not_lt.1 hi) fun e => hz i (by rw [e]; norm_num)
    obtain ⟨R, e⟩ := hf
    have := (h i i).1 (.inl hneg)
    have e2 : N = fun i j => F.real (R i j) := by injection e
    rw [e2] at this
    cases this
  · left
    refine ⟨hw, ?_⟩
    injection h0 with h0
    subst h0
    by_contra hneg
    push Not at hneg
    apply hf
    refine ⟨fun i j => K i j / Real.sqrt (K i i * K j j), ?_⟩
    unfold Mat.ofReal
    congr 1
    funext i j
    exact (h i j).2 (by rw [not_or, not_lt, not_lt]; exact ⟨hneg i, hneg j⟩)

/-- diagonal 4, -1 and diagonal 4, 1 -/
example : (∀ i, ¬ |(!![4, 2; 2, -1] : Matrix (Fin 2) (Fin 2) ℝ) i i| ≤ 1e-8) ∧ (∃ i, (!![4, 2; 2, -1] : Matrix (Fin 2) (Fin 2) ℝ) i i < 0) ∧
    (∀ i, ¬ |(!![4, 2; 2, 1] : Matrix (Fin 2) (Fin 2) ℝ) i i| ≤ 1e-8) := by
  refine ⟨?_, ⟨1, by norm_num⟩, ?_⟩ <;> intro i <;> fin_cases i <;> norm_num

/-- **C93** `normalize_km_2sample` never warns. For finite numbers, its result is finite exactly when no self-kernel is negative.

Partial: the full statement says, as for `normalize_km`, that a result without a warning is finite; see `C93_normalise2_violated`. -/
theorem C93_normalise2_partial {n m : Nat} (K : Matrix (Fin n) (Fin m) ℝ) (dx : Fin n → ℝ) (dy : Fin m → ℝ) {method : String} (hm : method.toLower = "cosine")
    (hx : ∀ i, ¬ |dx i| ≤ 1e-8) (hy : ∀ j, ¬ |dy j| ≤ 1e-8) :
    ∃ N : Fin n → Fin m → F, normalizeKm2W (Mat.ofReal K) (List.ofFn fun i => .real (dx i)) (List.ofFn fun j => .real (dy j)) method [] = (.ok ⟨n, m, N⟩, []) ∧
      ∀ i j, (N i j).isFinite ↔ 0 < dx i ∧ 0 < dy j := by
  have hx0 : ∀ i, dx i ≠ 0 := fun i e => hx i (by rw [e]; norm_num)
  have hy0 : ∀ j, dy j ≠ 0 := fun i e => hy i (by rw [e]; norm_num)
  refine ⟨matmul (matmul (invSqrtDiag fun i => .real (dx i)) fun i j => .real (K i j)) (invSqrtDiag fun j => .real (dy j)), ?_, fun i j => ?_⟩
  · have e : normalizeKm2 (Mat.ofReal K) (List.ofFn fun i => .real (dx i)) (List.ofFn fun j => .real (dy j)) method =
        .ok ⟨n, m, matmul (matmul (invSqrtDiag fun i => .real (dx i)) fun i j => .real (K i j)) (invSqrtDiag fun j => .real (dy j))⟩ := by
      unfold normalizeKm2
      rw [if_neg (by simp [Mat.ofReal]), if_pos hm, if_neg]
      · have e1 : (invSqrtDiag fun i : Fin n => (List.ofFn fun i => F.real (dx i)).getD i 0) = invSqrtDiag fun i => .real (dx i) := by
          congr 1; funext i; simp
        have e2 : (invSqrtDiag fun i : Fin m => (List.ofFn fun i => F.real (dy i)).getD i 0) = invSqrtDiag fun i => .real (dy i) := by
          congr 1; funext i; simp
        show Except.ok (Mat.mk n m (matmul (matmul (invSqrtDiag fun i : Fin n => (List.ofFn fun i => F.real (dx i)).getD i 0) _)
          (invSqrtDiag fun i : Fin m => (List.ofFn fun i => F.real (dy i)).getD i 0))) = _
        rw [e1, e2]
        rfl
      · rintro (⟨d, hd, hc⟩ | ⟨d, hd, hc⟩)
        · obtain ⟨i, rfl⟩ := (List.mem_ofFn' _ _).1 hd
          exact hx i ((isClose_zero _).1 hc)
        · obtain ⟨i, rfl⟩ := (List.mem_ofFn' _ _).1 hd
          exact hy i ((isClose_zero _).1 hc)
    rw [normalizeKm2W, e]
    rfl
  · rw [scaled_nan dx dy K hx0 hy0]
    by_cases h : dx i < 0 ∨ dy j < 0
    · rw [if_pos h]
      refine ⟨fun hf => hf.elim, fun hp => ?_⟩
      rcases h with h | h
      · exact absurd hp.1 (not_lt.2 h.le)
      · exact absurd hp.2 (not_lt.2 h.le)
    · rw [if_neg h]
      rw [not_or, not_lt, not_lt] at h
      exact ⟨fun _ => ⟨lt_of_le_of_ne h.1 (hx0 i).symm, lt_of_le_of_ne h.2 (hy0 j).symm⟩, fun _ => trivial⟩

/-- **C93** The code violates the full statement: with a self-kernel of -1 (as sigmoid kernels have), the result is NaN, and there is no warning. -/
theorem C93_normalise2_violated : ∃ N, normalizeKm2W (Mat.ofReal !![(1:ℝ)]) [.real (-1)] [.real 1] "cosine" [] = (.ok N, []) ∧ ¬ N.Finite := by
  obtain ⟨N, e, h⟩ := C93_normalise2_partial !![(1:ℝ)] ![-1] ![1] (method := "cosine") (by decide +kernel) (by intro i; fin_cases i; norm_num) (by intro i; fin_cases i; norm_num)
  refine ⟨_, e, ?_⟩
  rintro ⟨R, hR⟩
  have h0 := (h 0 0).not.2 (by norm_num)
  apply h0
  have : N = fun i j => F.real (R i j) := by
    injection hR
  rw [this]
  trivial

/-- **C93** `alignment_centered` on any objects: either there is no warning, and then the argument `value_if_zero_division` does not matter for the outcome; or there is
one warning, the value given is returned, and without a value the call would raise `ValueError`. -/
theorem C93_align (a b : NdArg) (zd : ZeroDiv) (already : Bool) :
    (alignmentCenteredAnyW a b zd already).warnings = [] ∧ alignmentCenteredAny a b zd already = alignmentCenteredAny a b .raise already ∨
    ∃ v, zd = .value v ∧ (alignmentCenteredAnyW a b zd already).warnings = [.zeroNorm] ∧ alignmentCenteredAny a b zd already = .ok v ∧
      alignmentCenteredAny a b .raise already = .error .valueError := by
  rcases alignmentAnyW_does a b zd already with ⟨h, h'⟩ | ⟨v, h1, h2, h3⟩
  · exact .inl ⟨h.warnings, h'⟩
  · exact .inr ⟨v, h1, h2.warnings, h3⟩

/-- **C93** For two square matrices of finite numbers: a silent result is their alignment, and there is a warning exactly when they have none. -/
theorem C93_align_real {n : Nat} (A B : Matrix (Fin n) (Fin n) ℝ) (v : F) (already : Bool) :
    (∃ x, AlignmentIs A B already x ∧ alignmentCenteredAnyW (.arr (Mat.ofReal A)) (.arr (Mat.ofReal B)) (.value v) already [] = (.ok (.real x), [])) ∨
    (∀ x, ¬ AlignmentIs A B already x) ∧ alignmentCenteredAnyW (.arr (Mat.ofReal A)) (.arr (Mat.ofReal B)) (.value v) already [] = (.ok v, [.zeroNorm]) := by
  rcases align_real_does A B v already with ⟨x, hx, h⟩ | ⟨hn, h⟩
  · exact .inl ⟨x, hx, h []⟩
  · exact .inr ⟨hn, h []⟩

/-- the matrix of ones has no alignment with anything; the identity has one with itself -/
example : (∀ x, ¬ AlignmentIs !![(1:ℝ), 0; 0, 1] !![1, 1; 1, 1] false x) ∧ ∃ x, AlignmentIs !![(1:ℝ), 0; 0, 1] !![1, 0; 0, 1] false x := by
  constructor
  · have := no_alignment_const !![(1:ℝ), 0; 0, 1] (y := fun _ => 1) fun _ _ => rfl
    have e : outerR 2 (fun _ => 1) = !![1, 1; 1, 1] := by
      funext i j
      fin_cases i <;> fin_cases j <;> norm_num [outerR]
    rwa [e] at this
  · refine ⟨_, AlignmentIs.iff.2 ⟨?_, ?_, rfl⟩⟩ <;>
    · intro h
      have h1 : frobInner (centered !![(1:ℝ), 0; 0, 1]) (centered !![(1:ℝ), 0; 0, 1]) = 1 := by
        norm_num [frobInner, centered, Fin.sum_univ_two]
      change NearZero (Real.sqrt (frobInner (centered !![(1:ℝ), 0; 0, 1]) (centered !![(1:ℝ), 0; 0, 1]))) at h
      rw [h1, Real.sqrt_one] at h
      exact not_nearZero_one h

section
variable {K X : Type} {env : Env K X F}

/-- **C93** The choice of a kernel by alignment issues one warning for each member of the bucket whose matrix has no alignment with the targets. -/
theorem C93_choice (hops : env.ops = realOps) {s : SetSt K X} {A : Arr2 X} (cv : CVScore) (y : Fin A.nrows → ℝ) {method : String} (hm : method.toLower = "align/corr")
    (hn : s.set.numSamples = .unset ∨ s.set.numSamples = .one A.nrows) (hne : s.set.members ≠ [])
    {G : Nat → Matrix (Fin A.nrows) (Fin A.nrows) ℝ} (hG : ∀ r ∈ s.set.members, s.heap.KernelOn env r A (G r)) (p : Nat → Bool)
    (hp : ∀ r, p r = true ↔ ∀ x, ¬ AlignmentIs (G r) (outerR A.nrows y) false x) :
    ∃ r s', findOptimalKernelW env cv true (sampleArg A) ((List.ofFn y).map .real) method {} (s, []) = (.ok r, (s', List.replicate (s.set.members.countP p) .zeroNorm)) := by
  obtain ⟨s1, e1, h1⟩ := attach_nowAttached (env := env) hn fun r hr => (hG r hr).isKM
  obtain ⟨s2, e2, h2⟩ := alignRankingW_run hops h1 y hG p hp
  obtain ⟨i, e3, hi⟩ := argmaxF_real (xs := s.set.members.map fun r => calign (G r) (outerR A.nrows y)) (by simpa using hne)
  obtain ⟨r, hr⟩ := hi.member
  refine ⟨r, s2, ?_⟩
  have hv : validMethod method = true := by simp [validMethod, hm]
  have e1' : quietly (SetSt.attach (sampleArg A) none) (s, ([] : List OpWarning)) = (.ok (), (s1, [])) := by unfold quietly; rw [e1]
  have e2' : rankKernelsW env cv ((List.ofFn y).map .real) method {} (s1, []) =
      (.ok ((s.set.members.map fun r => calign (G r) (outerR A.nrows y)).map .real), (s2, List.replicate (s.set.members.countP p) .zeroNorm)) := by
    show (quietly (raiseIf (!validMethod method) .notImplemented) >>= fun _ => _ : PyM (SetSt K X × List OpWarning) (List F)) (s1, []) = _
    rw [hv]
    show (if method.toLower = "align/corr" then alignRankingW env ((List.ofFn y).map .real) {} else quietly (cvRanking env cv {})) (s1, []) = _
    rw [if_pos hm]
    exact e2
  show (quietly (raiseIf (!validMethod method) .notImplemented) >>= fun _ => _ : PyM (SetSt K X × List OpWarning) Nat) (s, []) = _
  rw [hv]
  show (quietly (SetSt.attach (sampleArg A) none) >>= _ : PyM (SetSt K X × List OpWarning) Nat) (s, []) = _
  rw [bind_ok e1']
  show (rankKernelsW env cv ((List.ofFn y).map .real) method {} >>= _ : PyM (SetSt K X × List OpWarning) Nat) (s1, []) = _
  rw [bind_ok e2']
  show (quietly (lift (argmaxF _)) >>= _ : PyM (SetSt K X × List OpWarning) Nat) (s2, _) = _
  rw [e3]
  show quietly (SetSt.getItem (.int i)) (s2, _) = _
  unfold quietly
  rw [getItem_member s2 (by rw [h2.1]; exact hr)]

/-- **C93** A choice without warnings is a genuine one: every member has an alignment with the targets, and no member has a larger one than the kernel returned. -/
theorem C93_choice_silent (hops : env.ops = realOps) {s : SetSt K X} {A : Arr2 X} {cv : CVScore} {y : Fin A.nrows → ℝ} {method : String} (hm : method.toLower = "align/corr")
    (hn : s.set.numSamples = .unset ∨ s.set.numSamples = .one A.nrows) (hne : s.set.members ≠ [])
    {G : Nat → Matrix (Fin A.nrows) (Fin A.nrows) ℝ} (hG : ∀ r ∈ s.set.members, s.heap.KernelOn env r A (G r))
    (hw : (findOptimalKernelW env cv true (sampleArg A) ((List.ofFn y).map .real) method {} (s, [])).2.2 = []) :
    ∃ r ∈ s.set.members, (findOptimalKernelW env cv true (sampleArg A) ((List.ofFn y).map .real) method {} (s, [])).1 = .ok r ∧
      ∃ x, AlignmentIs (G r) (outerR A.nrows y) false x ∧ ∀ q ∈ s.set.members, ∃ z, AlignmentIs (G q) (outerR A.nrows y) false z ∧ z ≤ x := by
  classical
  obtain ⟨r', s', e⟩ := C93_choice hops cv y hm hn hne hG (fun r => decide (∀ x, ¬ AlignmentIs (G r) (outerR A.nrows y) false x)) fun r => decide_eq_true_iff
  rw [e] at hw
  have h0 : s.set.members.countP (fun r => decide (∀ x, ¬ AlignmentIs (G r) (outerR A.nrows y) false x)) = 0 := by
    have := congrArg List.length hw
    simpa using this
  rw [List.countP_eq_zero] at h0
  have hall : ∀ q ∈ s.set.members, ∃ z, AlignmentIs (G q) (outerR A.nrows y) false z := by
    intro q hq
    have := h0 q hq
    rw [decide_eq_true_iff] at this
    push Not at this
    exact this
  obtain ⟨i, r, s'', e', -, hi, hb⟩ := C45_align hops cv y hm hn hne hG
  have hr : r ∈ s.set.members := List.mem_of_getElem? hi
  refine ⟨r, hr, ?_, ?_⟩
  · have := (C93_no_effect.2.2.2.2.1 env cv true (sampleArg A) ((List.ofFn y).map .real) method {} s []).1
    rw [this, e']
  · obtain ⟨x, hx, h1, -⟩ := hb
    rw [List.getElem?_map, hi, Option.map_some] at hx
    injection hx with hx
    obtain ⟨x', hx'⟩ := hall r hr
    rw [calign_of hx'] at hx
    subst hx
    refine ⟨x', hx', fun q hq => ?_⟩
    obtain ⟨z, hz⟩ := hall q hq
    refine ⟨z, hz, ?_⟩
    rw [← calign_of hz]
    exact h1 _ (List.mem_map.2 ⟨q, hq, rfl⟩)

/-- **C93** With constant targets every member is announced, and the first member of the bucket is returned. -/
theorem C93_choice_constant (hops : env.ops = realOps) {s : SetSt K X} {A : Arr2 X} (cv : CVScore) {y : Fin A.nrows → ℝ} (hy : ∀ i j, y i = y j) {method : String}
    (hm : method.toLower = "align/corr") (hn : s.set.numSamples = .unset ∨ s.set.numSamples = .one A.nrows) {r0 : Nat} {l : List Nat} (hl : s.set.members = r0 :: l)
    {G : Nat → Matrix (Fin A.nrows) (Fin A.nrows) ℝ} (hG : ∀ r ∈ s.set.members, s.heap.KernelOn env r A (G r)) :
    ∃ s', findOptimalKernelW env cv true (sampleArg A) ((List.ofFn y).map .real) method {} (s, []) = (.ok r0, (s', List.replicate s.set.members.length .zeroNorm)) := by
  have hne : s.set.members ≠ [] := by rw [hl]; simp
  have hnone : ∀ r x, ¬ AlignmentIs (G r) (outerR A.nrows y) false x := fun r => no_alignment_const (G r) hy
  obtain ⟨r', s', e⟩ := C93_choice hops cv y hm hn hne hG (fun _ => true) fun r => ⟨fun _ => hnone r, fun _ => rfl⟩
  rw [List.countP_true] at e
  refine ⟨s', ?_⟩
  rw [e]
  obtain ⟨i, r, s'', e', -, hi, hb⟩ := C45_align hops cv y hm hn hne hG
  have h1 := (C93_no_effect.2.2.2.2.1 env cv true (sampleArg A) ((List.ofFn y).map .real) method {} s []).1
  rw [e, e'] at h1
  injection h1 with h1
  subst h1
  have hc : (s.set.members.map fun r => calign (G r) (outerR A.nrows y)) = (s.set.members.map fun _ => (0:ℝ)).map fun _ => (0:ℝ) := by
    rw [List.map_map]
    exact List.map_congr_left fun r _ => calign_of_not (hnone r)
  rw [hc] at hb
  obtain rfl := hb.const
  rw [hl] at hi
  injection hi with hi
  rw [hi]

/-- the hypotheses are met by the bucket `Demo.bucket2` and targets 0, 0, 1 or 1, 1, 1 -/
example : Demo.env2.ops = realOps ∧ Demo.bucket2.set.numSamples = .unset ∧ Demo.bucket2.set.members = [0, 1] ∧
    ∀ r ∈ Demo.bucket2.set.members, Demo.bucket2.heap.KernelOn Demo.env2 r Demo.rA (Demo.G2 r) := ⟨rfl, rfl, rfl, Demo.kernelOn2⟩

end

/-- **C93** `make_kernel_bucket` warns exactly when it is given a bucket (or a set), and then it creates nothing and returns that object. -/
theorem C93_bucket {X : Type} (strategy : StrategyArg Bucket) (normalize skip : Option Bool) (h : Heap LibKernel X) :
    (∃ b, strategy = .existing b ∧ makeKernelBucketW strategy normalize skip (h, []) = (.ok b, (h, [.alreadyBucket]))) ∨
    (∀ b, strategy ≠ .existing b) ∧ (makeKernelBucketW strategy normalize skip (h, [])).2.2 = [] := by
  rcases strategy with b | s | _
  · exact .inl ⟨b, rfl, rfl⟩
  · exact .inr ⟨fun _ => (by simp), rfl⟩
  · exact .inr ⟨fun _ => (by simp), rfl⟩

end KMethods
