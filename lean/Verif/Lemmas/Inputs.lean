import Verif.Spec.Kernels
import Verif.Lemmas.Shape
import Verif.Lemmas.Coerce
/-! # Helper lemmas about the inputs of kernel functions -/
namespace KMethods

theorem filter_ne_one_singleton {l : List Nat} {n : Nat} :
    l.filter (· ≠ 1) = [n] ↔ n ≠ 1 ∧ ∃ i j, l = List.replicate i 1 ++ n :: List.replicate j 1 := by
  constructor
  · intro h
    have hn : n ≠ 1 := by
      have : n ∈ l.filter (· ≠ 1) := by rw [h]; simp
      simpa using (List.mem_filter.1 this).2
    refine ⟨hn, ?_⟩
    induction l with
    | nil => cases h
    | cons a l ih =>
      by_cases ha : a = 1
      · subst ha
        rw [List.filter_cons_of_neg (by simp)] at h
        obtain ⟨i, j, rfl⟩ := ih h
        exact ⟨i + 1, j, by rw [List.replicate_succ]; rfl⟩
      · rw [List.filter_cons_of_pos (by simpa using ha)] at h
        injection h with h1 h2
        subst h1
        obtain ⟨j, rfl⟩ := filter_ne_one_nil.1 h2
        exact ⟨0, j, rfl⟩
  · rintro ⟨hn, i, j, rfl⟩
    rw [List.filter_append, filter_ne_one_nil.2 ⟨i, rfl⟩, List.filter_cons_of_pos (by simpa using hn), filter_ne_one_nil.2 ⟨j, rfl⟩]
    rfl

theorem ensureTypeSize_ok {a : CatArray} {s : List Nat} : ensureTypeSize a = .ok s ↔ ∃ n, a.IsVec n ∧ s = [n] := by
  unfold ensureTypeSize ensureNdim CatArray.IsVec
  rcases a.isNdarray
  · simp only [Bool.false_eq_true, if_false]
    constructor
    · intro h
      by_cases hl : (a.shape.filter (· ≠ 1)).length ≠ 1
      · rw [if_pos hl] at h; cases h
      · rw [if_neg hl] at h
        obtain ⟨n, hn⟩ := List.length_eq_one_iff.1 (not_not.1 hl)
        refine ⟨n, filter_ne_one_singleton.1 hn, ?_⟩
        rw [← hn]; exact (Except.ok.inj h).symm
    · rintro ⟨n, h, rfl⟩
      rw [filter_ne_one_singleton.2 h, if_neg (by simp)]
  · simp only [if_true]
    constructor
    · intro h
      by_cases hl : a.shape.length ≠ 1
      · rw [if_pos hl] at h; cases h
      · rw [if_neg hl] at h
        obtain ⟨n, hn⟩ := List.length_eq_one_iff.1 (not_not.1 hl)
        exact ⟨n, hn, by rw [← hn]; exact (Except.ok.inj h).symm⟩
    · rintro ⟨n, h, rfl⟩
      rw [h, if_neg (by simp)]

theorem checkInputArrays_error {α : Type} {x y : NdArray α} {w : WantDType} {e : PyErr} (h : checkInputArrays x y w = .error e) :
    e = .valueError := by
  unfold checkInputArrays at h
  rcases hx : ensureNdarray1D x w with e' | x'
  · rw [hx] at h
    rw [← Except.error.inj h]
    exact ensureNdarraySize_error hx
  · rw [hx] at h
    rcases hy : ensureNdarray1D y w with e' | y'
    · rw [hy] at h
      rw [← Except.error.inj h]
      exact ensureNdarraySize_error hy
    · rw [hy] at h
      change (if _ then _ else _) = _ at h
      split at h
      · exact (Except.error.inj h).symm
      · cases h

end KMethods
