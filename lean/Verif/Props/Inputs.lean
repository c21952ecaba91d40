import Verif.Lemmas.Inputs
import Verif.Props.Utils
import Verif.Props.Kernels
/-!
# C30 (continued): what the kernel functions accept
-/
namespace KMethods

/-- **C30** With input checks, every numeric kernel accepts exactly two arrays of shapes `(n, 1, …, 1)` with the same `n` whose entries are or can
be converted to numbers, and then returns (or raises) what it does on the values themselves -/
theorem C30_call_accepts (k : NumKernel) (x y : NdArray ℝ) {n i j : Nat} (hx : x.shape = n :: List.replicate i 1)
    (hy : y.shape = n :: List.replicate j 1) (hdx : x.dtype ≠ .str false ∧ x.dtype ≠ .object false)
    (hdy : y.dtype ≠ .str false ∧ y.dtype ≠ .object false) : k.call false x y = k.call true x y := by
  have cast : ∀ d : DType, d ≠ .str false ∧ d ≠ .object false → d.castable = true := by
    intro d hd
    rcases d with _ | _ | _ | _ | _ | _ | c | c <;> try rfl
    · cases c
      · exact (hd.1 rfl).elim
      · rfl
    · cases c
      · exact (hd.2 rfl).elim
      · rfl
  have h := (C52_check_input_arrays x y k.wantDType ⟨castTo k.wantDType x.dtype, [n], x.data⟩ ⟨castTo k.wantDType y.dtype, [n], y.data⟩).2
    ⟨n, (C52_1D _ _ _).2 ⟨n, i, hx, Or.inr (cast _ hdx), rfl⟩, (C52_1D _ _ _).2 ⟨n, j, hy, Or.inr (cast _ hdy), rfl⟩, rfl, rfl⟩
  unfold NumKernel.call
  rw [if_neg (by simp), if_pos rfl, h]
  rfl

/-- **C30** everything else raises `ValueError` -/
theorem C30_call_rejects (k : NumKernel) (x y : NdArray ℝ)
    (h : ¬ ((∃ n i j, x.shape = n :: List.replicate i 1 ∧ y.shape = n :: List.replicate j 1) ∧
      (x.dtype ≠ .str false ∧ x.dtype ≠ .object false) ∧ (y.dtype ≠ .str false ∧ y.dtype ≠ .object false))) :
    k.call false x y = .error .valueError := by
  have good : ∀ d : DType, k.wantDType.satisfiedBy d = true ∨ d.castable = true → d ≠ .str false ∧ d ≠ .object false := by
    intro d hd
    refine ⟨?_, ?_⟩ <;> rintro rfl <;> cases k <;> simp [NumKernel.wantDType, WantDType.satisfiedBy, DType.isNumber, DType.castable] at hd
  have herr : checkInputArrays x y k.wantDType = .error .valueError := by
    rcases hc : checkInputArrays x y k.wantDType with e | ⟨p, q⟩
    · rw [checkInputArrays_error hc]
    · obtain ⟨n, h1, h2, h3, h4⟩ := (C52_check_input_arrays x y _ p q).1 hc
      obtain ⟨n1, i, hx, hdx, rfl⟩ := (C52_1D _ _ _).1 h1
      obtain ⟨n2, j, hy, hdy, rfl⟩ := (C52_1D _ _ _).1 h2
      obtain rfl : n1 = n := by simpa using h3
      obtain rfl : n2 = n1 := by simpa using h4
      exact (h ⟨⟨n2, i, j, hx, hy⟩, good _ hdx, good _ hdy⟩).elim
  unfold NumKernel.call
  rw [if_neg (by simp), herr]
  rfl

/-- accepted: a row of ints and a column of shape `(2, 1)`; rejected: a row of shape `(1, 2)`, and words -/
example : NumKernel.linear.call false ⟨.int, [2], [1, 2]⟩ ⟨.float64, [2, 1], [3, 4]⟩ = .ok (.real 11) ∧
    NumKernel.linear.call false ⟨.int, [2], [1, 2]⟩ ⟨.float64, [1, 2], [3, 4]⟩ = .error .valueError ∧
    NumKernel.linear.call false ⟨.str false, [2], [1, 2]⟩ ⟨.float64, [2], [3, 4]⟩ = .error .valueError := by
  refine ⟨?_, ?_, ?_⟩
  · rw [C30_call_accepts (n := 2) (i := 0) (j := 1) _ _ _ rfl rfl ⟨by decide, by decide⟩ ⟨by decide, by decide⟩]
    show Except.ok (F.real (dot [1, 2] [3, 4])) = _
    norm_num [dot, sumZip]
  · refine C30_call_rejects _ _ _ ?_
    rintro ⟨⟨n, i, j, h1, h2⟩, -⟩
    simp at h1 h2
    omega
  · exact C30_call_rejects _ _ _ fun h => h.2.1.1 rfl

/-- **C30** `MatchCountKernel` accepts exactly two vectors of the same length; their entries must be strings (else `TypeError`), and the result is
the number (or share) of coordinates that agree -/
theorem C30_match_accepts (perc : Bool) (x y : CatArray) {n : Nat} (hx : x.IsVec n) (hy : y.IsVec n) :
    (x.isStr = true → y.isStr = true → matchCall perc x y =
      .ok (if perc then .real (matchCount x.data y.data) / .real y.data.length else .real (matchCount x.data y.data))) ∧
    (x.isStr = false ∨ y.isStr = false → matchCall perc x y = .error .typeError) := by
  have hc : checkCategoricalArrays x y = .ok () := by
    unfold checkCategoricalArrays
    rw [ensureTypeSize_ok.2 ⟨n, hx, rfl⟩, ensureTypeSize_ok.2 ⟨n, hy, rfl⟩]
    exact if_neg fun h => h rfl
  unfold matchCall
  rw [hc]
  refine ⟨fun h1 h2 => ?_, fun h => ?_⟩
  · show (if ¬ (x.isStr = true ∧ y.isStr = true) then _ else _) = _
    rw [if_neg (not_not.2 ⟨h1, h2⟩)]
    cases perc <;> rfl
  · refine if_pos ?_
    rintro ⟨h1, h2⟩
    rcases h with h | h
    · rw [h] at h1; cases h1
    · rw [h] at h2; cases h2

/-- **C30** everything else raises `ValueError` -/
theorem C30_match_rejects (perc : Bool) (x y : CatArray) (h : ¬ ∃ n, x.IsVec n ∧ y.IsVec n) : matchCall perc x y = .error .valueError := by
  have hc : checkCategoricalArrays x y = .error .valueError := by
    unfold checkCategoricalArrays
    rcases h1 : ensureTypeSize x with e | sx
    · rw [ensureTypeSize_error h1]; rfl
    · rcases h2 : ensureTypeSize y with e | sy
      · rw [ensureTypeSize_error h2]; rfl
      · obtain ⟨n, hn, rfl⟩ := ensureTypeSize_ok.1 h1
        obtain ⟨m, hm, rfl⟩ := ensureTypeSize_ok.1 h2
        refine if_pos ?_
        simp only [List.prod_cons, List.prod_nil, Nat.mul_one]
        rintro rfl
        exact h ⟨n, hn, hm⟩
  unfold matchCall
  rw [hc]
  rfl

/-- a list of two words against an array of two words; an array of shape `(2, 1)` is rejected, a list of that shape is not; a list of one word is
rejected, an array with one word is not -/
example : matchCall false ⟨false, true, [2], ["a", "b"]⟩ ⟨true, true, [2], ["a", "c"]⟩ = .ok (.real 1) ∧
    matchCall false ⟨true, true, [2, 1], ["a", "b"]⟩ ⟨true, true, [2], ["a", "c"]⟩ = .error .valueError ∧
    matchCall false ⟨false, true, [2, 1], ["a", "b"]⟩ ⟨true, true, [2], ["a", "c"]⟩ = .ok (.real 1) ∧
    matchCall false ⟨false, true, [1], ["a"]⟩ ⟨true, true, [1], ["a"]⟩ = .error .valueError ∧
    matchCall false ⟨true, false, [1], ["1"]⟩ ⟨true, true, [1], ["a"]⟩ = .error .typeError := by
  have one : matchCount ["a", "b"] ["a", "c"] = 1 := by decide +kernel
  refine ⟨?_, ?_, ?_, ?_, ?_⟩
  · rw [(C30_match_accepts false ⟨false, true, [2], ["a", "b"]⟩ ⟨true, true, [2], ["a", "c"]⟩ (n := 2) ⟨by decide, 0, 0, rfl⟩ rfl).1 rfl rfl]
    simp only [one, Bool.false_eq_true, if_false, Nat.cast_one]
  · exact C30_match_rejects _ _ _ fun ⟨n, h, _⟩ => by cases h
  · rw [(C30_match_accepts false ⟨false, true, [2, 1], ["a", "b"]⟩ ⟨true, true, [2], ["a", "c"]⟩ (n := 2) ⟨by decide, 0, 1, rfl⟩ rfl).1 rfl rfl]
    simp only [one, Bool.false_eq_true, if_false, Nat.cast_one]
  · refine C30_match_rejects _ _ _ fun ⟨n, h, h'⟩ => ?_
    have : n = 1 := by
      have h'' : [1] = [n] := h'
      simpa using h''.symm
    exact h.1 this
  · exact (C30_match_accepts false ⟨true, false, [1], ["1"]⟩ ⟨true, true, [1], ["a"]⟩ (n := 1) rfl rfl).2 (Or.inl rfl)

/-! ### C62 small validators -/

/-- **C62** `check_operation_kernel_matrix`: what it returns is one of the three operations and is accepted again unchanged; spelling is compared
without regard to case, and anything else raises `ValueError` -/
theorem C62_operation (s : String) :
    (∀ o, checkOperationKernelMatrix s = .ok o → (o = "sum" ∨ o = "product" ∨ o = "average") ∧ o = s.toLower ∧ checkOperationKernelMatrix o = .ok o) ∧
    (∀ t, t.toLower = s.toLower → checkOperationKernelMatrix t = checkOperationKernelMatrix s) ∧
    (∀ e, checkOperationKernelMatrix s = .error e → e = .valueError ∧ s.toLower ∉ ["sum", "product", "average"]) := by
  refine ⟨fun o h => ?_, fun t h => by unfold checkOperationKernelMatrix; rw [h], fun e h => ?_⟩
  · unfold checkOperationKernelMatrix at h
    dsimp only at h
    split at h
    · rename_i hm
      have ho := Except.ok.inj h
      rw [ho] at hm
      have hm' : o = "sum" ∨ o = "product" ∨ o = "average" := by simpa [validKernelMatrixOps] using hm
      refine ⟨hm', ho.symm, ?_⟩
      rcases hm' with rfl | rfl | rfl <;> decide +kernel
    · cases h
  · unfold checkOperationKernelMatrix at h
    dsimp only at h
    split at h
    · cases h
    · rename_i hm
      exact ⟨(Except.error.inj h).symm, hm⟩

example : checkOperationKernelMatrix "SuM" = .ok "sum" ∧ checkOperationKernelMatrix "max" = .error .valueError := by decide +kernel

/-- **C62** `is_iterable_but_not_str` holds exactly for iterables other than strings that have at least the given number of elements -/
theorem C62_iterable (x : IterInfo) (m : Nat) : isIterableButNotStr x m = true ↔ ∃ n, m ≤ n ∧ x = .iterable n := by
  unfold isIterableButNotStr
  rcases x with _ | n | _
  · simp
  · by_cases h : n < m
    · simp [h]
    · simp [h, Nat.le_of_not_lt h]
  · simp

/-- **C62** the names of the kernels are different for different classes, and for the two variants of the match kernel -/
theorem C62_names (k l : NumKernel) (p q : Bool) :
    (k.name = l.name ↔ ∃ (α α' γ γ' b b' σ σ' : ℝ) (d d' : ℤ), (k = .hadamard α ∧ l = .hadamard α') ∨ (k = .poly d γ b ∧ l = .poly d' γ' b') ∨
      (k = .gaussian σ γ ∧ l = .gaussian σ' γ') ∨ (k = .laplacian γ ∧ l = .laplacian γ') ∨ (k = .chi2 γ ∧ l = .chi2 γ') ∨
      (k = .sigmoid γ b ∧ l = .sigmoid γ' b') ∨ (k = .linear ∧ l = .linear)) ∧
    k.name ≠ matchName p ∧ (matchName p = matchName q ↔ p = q) := by
  refine ⟨?_, ?_, ?_⟩
  · cases k <;> cases l <;> simp [NumKernel.name]
  · cases k <;> cases p <;> simp [NumKernel.name, matchName]
  · cases p <;> cases q <;> simp [matchName]

end KMethods
