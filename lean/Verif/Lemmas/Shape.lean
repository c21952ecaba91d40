import Verif.Model.Utils
import Verif.Lemmas.PyM
/-! Shapes accepted by the array coercions. -/
namespace KMethods

theorem filter_high {k : Nat} (l : List Nat) (d : Nat) (hd : k < d) :
    (((l.zipIdx d).filter fun p => !(p.1 == 1 && decide (p.2 > k))).map (·.1)) = l.filter (· ≠ 1) := by
  induction l generalizing d with
  | nil => rfl
  | cons x l ih =>
    rw [List.zipIdx_cons, List.filter_cons, List.filter_cons]
    by_cases hx : x = 1
    · simp [hx, hd]
      simpa using ih (d+1) (by omega)
    · simp [hx]
      simpa using ih (d+1) (by omega)

theorem squeezeAbove_zero (x : Nat) (l : List Nat) : squeezeAbove 0 (x :: l) = x :: l.filter (· ≠ 1) := by
  unfold squeezeAbove
  rw [List.zipIdx_cons, List.filter_cons]
  simp only [gt_iff_lt, Nat.lt_irrefl, decide_false, Bool.and_false, Bool.not_false, if_true, List.map_cons]
  congr 1
  exact filter_high l _ (by omega)

theorem squeezeAbove_one (x y : Nat) (l : List Nat) :
    squeezeAbove 1 (x :: y :: l) = x :: y :: l.filter (· ≠ 1) := by
  unfold squeezeAbove
  rw [List.zipIdx_cons, List.filter_cons, List.zipIdx_cons, List.filter_cons]
  simp only [gt_iff_lt, Nat.lt_irrefl, decide_false, Bool.and_false, Bool.not_false, if_true, List.map_cons,
    Nat.zero_add, show ¬ (1 : Nat) < 0 by omega]
  congr 2
  exact filter_high l _ (by omega)

theorem filter_ne_one_nil {l : List Nat} : l.filter (· ≠ 1) = [] ↔ ∃ k, l = List.replicate k 1 := by
  rw [List.filter_eq_nil_iff]
  constructor
  · intro h
    exact ⟨l.length, List.eq_replicate_iff.2 ⟨rfl, fun b hb => by simpa using h b hb⟩⟩
  · rintro ⟨k, rfl⟩ a ha
    simp [List.eq_of_mem_replicate ha]

/-- outcome of the 2-D shape coercion -/
theorem ensureShape2D_iff (shape : List Nat) (n m : Nat) :
    ensureShape2D shape = .ok (n, m) ↔ ∃ k, shape = n :: m :: List.replicate k 1 := by
  unfold ensureShape2D ensureNdim
  rcases shape with _ | ⟨x, _ | ⟨y, l⟩⟩
  · simp [squeezeAbove, bind, Except.bind]
  · simp [squeezeAbove, bind, Except.bind]
  · rw [squeezeAbove_one]
    rcases hl : l.filter (· ≠ 1) with _ | ⟨z, l'⟩
    · obtain ⟨k, rfl⟩ := filter_ne_one_nil.1 hl
      simp [bind, Except.bind, pure, Except.pure]
    · rw [hl, if_pos (by simp)]
      constructor
      · intro h; simp [bind, Except.bind] at h
      · rintro ⟨k, h⟩
        injection h with h1 h2
        injection h2 with h2 h3
        subst h3
        rw [filter_ne_one_nil.2 ⟨k, rfl⟩] at hl
        simp at hl

theorem ensureShape2D_error (shape : List Nat) (e : PyErr) :
    ensureShape2D shape = .error e → e = .valueError := by
  unfold ensureShape2D ensureNdim
  split
  · intro h; simpa [bind, Except.bind, eq_comm] using h
  · simp only [bind, Except.bind]
    split
    · simp [pure, Except.pure]
    · intro h; simpa [eq_comm] using h

end KMethods
