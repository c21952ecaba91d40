import Verif.Lemmas.Shape
import Verif.Spec.Coerce
/-! Lemmas on the array coercions. -/
namespace KMethods

theorem ensureNdarraySize_iff {α : Type} (a r : NdArray α) (w : WantDType) (d : Nat) :
    ensureNdarraySize a w d = .ok r ↔
      a.shape.length = d ∧ (w.satisfiedBy a.dtype = true ∨ a.dtype.castable = true) ∧ r = ⟨castTo w a.dtype, a.shape, a.data⟩ := by
  unfold ensureNdarraySize ensureNdim castTo
  by_cases h : a.shape.length = d
  · rw [if_neg (not_not.2 h)]
    show (if _ then _ else _) = _ ↔ _
    by_cases h1 : w.satisfiedBy a.dtype = true
    · rw [if_pos h1, if_pos h1]
      exact ⟨fun h' => ⟨h, .inl h1, (Except.ok.inj h').symm⟩, fun h' => by rw [h'.2.2]; rfl⟩
    · rw [if_neg h1, if_neg h1]
      by_cases h2 : a.dtype.castable = true
      · rw [if_pos h2]
        exact ⟨fun h' => ⟨h, .inr h2, (Except.ok.inj h').symm⟩, fun h' => by rw [h'.2.2]; rfl⟩
      · rw [if_neg h2]
        simp [h1, h2]
  · rw [if_pos h]
    simp [h, bind, Except.bind]

theorem ensureNdarraySize_error {α : Type} {a : NdArray α} {w : WantDType} {d : Nat} {e : PyErr}
    (h : ensureNdarraySize a w d = .error e) : e = .valueError := by
  unfold ensureNdarraySize ensureNdim at h
  by_cases h0 : a.shape.length = d
  · rw [if_neg (not_not.2 h0)] at h
    change (if _ then _ else _) = _ at h
    split_ifs at h
    · cases h
    · cases h
    · exact (Except.error.inj h).symm
  · rw [if_pos h0] at h
    exact (Except.error.inj h).symm

theorem squeezeAbove_zero_length (shape : List Nat) :
    (squeezeAbove 0 shape).length = 1 ↔ ∃ n k, shape = n :: List.replicate k 1 := by
  cases shape with
  | nil => simp [squeezeAbove]
  | cons x l =>
    rw [squeezeAbove_zero, List.length_cons, Nat.add_eq_right, List.length_eq_zero_iff, filter_ne_one_nil]
    constructor
    · rintro ⟨k, rfl⟩; exact ⟨x, k, rfl⟩
    · rintro ⟨n, k, h⟩; exact ⟨k, (List.cons.inj h).2⟩

theorem squeezeAbove_one_length (shape : List Nat) :
    (squeezeAbove 1 shape).length = 2 ↔ ∃ n m k, shape = n :: m :: List.replicate k 1 := by
  rcases shape with _ | ⟨x, _ | ⟨y, l⟩⟩
  · simp [squeezeAbove]
  · simp [squeezeAbove]
  · rw [squeezeAbove_one, List.length_cons, List.length_cons]
    rw [show (List.filter (fun x => decide (x ≠ 1)) l).length + 1 + 1 = 2 ↔ (List.filter (fun x => decide (x ≠ 1)) l).length = 0 by omega,
      List.length_eq_zero_iff, filter_ne_one_nil]
    constructor
    · rintro ⟨k, rfl⟩; exact ⟨x, y, k, rfl⟩
    · rintro ⟨n, m, k, h⟩; exact ⟨k, (List.cons.inj (List.cons.inj h).2).2⟩

end KMethods
