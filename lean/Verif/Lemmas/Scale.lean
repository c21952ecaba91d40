import Verif.Model.Scale
import Verif.Lemmas.Operations
/-! Lemmas on `min_max_scale`. -/
namespace KMethods
open F

theorem foldl_min_real (x : ℝ) (l : List ℝ) :
    ∃ m, (l.map F.real).foldl F.min (.real x) = .real m ∧ m ∈ x :: l ∧ ∀ a ∈ x :: l, m ≤ a := by
  induction l generalizing x with
  | nil => exact ⟨x, rfl, by simp, by simp⟩
  | cons y l ih =>
    obtain ⟨m, h1, h2, h3⟩ := ih (min x y)
    refine ⟨m, h1, ?_, ?_⟩
    · rcases List.mem_cons.1 h2 with rfl | h
      · rcases min_choice x y with h | h <;> simp [h]
      · simp [h]
    · intro a ha
      have h0 := h3 (min x y) (by simp)
      simp only [List.mem_cons] at ha
      rcases ha with rfl | rfl | ha
      · exact h0.trans (min_le_left _ _)
      · exact h0.trans (min_le_right _ _)
      · exact h3 a (by simp [ha])

theorem foldl_max_real (x : ℝ) (l : List ℝ) :
    ∃ m, (l.map F.real).foldl F.max (.real x) = .real m ∧ m ∈ x :: l ∧ ∀ a ∈ x :: l, a ≤ m := by
  induction l generalizing x with
  | nil => exact ⟨x, rfl, by simp, by simp⟩
  | cons y l ih =>
    obtain ⟨m, h1, h2, h3⟩ := ih (max x y)
    refine ⟨m, h1, ?_, ?_⟩
    · rcases List.mem_cons.1 h2 with rfl | h
      · rcases max_choice x y with h | h <;> simp [h]
      · simp [h]
    · intro a ha
      have h0 := h3 (max x y) (by simp)
      simp only [List.mem_cons] at ha
      rcases ha with rfl | rfl | ha
      · exact (le_max_left _ _).trans h0
      · exact (le_max_right _ _).trans h0
      · exact h3 a (by simp [ha])

theorem foldl_min_nan (x : F) (l : List F) (h : .nan ∈ x :: l) : l.foldl F.min x = .nan := by
  induction l generalizing x with
  | nil => exact (List.mem_singleton.1 h).symm
  | cons y l ih =>
    apply ih
    simp only [List.mem_cons] at h
    rcases h with rfl | rfl | h
    · simp [F.min, lift2]
    · cases x <;> simp [F.min, lift2]
    · simp [h]

theorem minMaxScale_real {xs : List ℝ} (h : xs ≠ []) :
    ∃ m M, m ∈ xs ∧ M ∈ xs ∧ (∀ a ∈ xs, m ≤ a ∧ a ≤ M) ∧
      ((M - m ≤ 1e-8 ∧ minMaxScale (xs.map .real) = .ok (xs.map fun _ => 0)) ∨
       (1e-8 < M - m ∧ minMaxScale (xs.map .real) = .ok (xs.map fun v => .real ((v - m) / (M - m))))) := by
  cases xs with
  | nil => exact (h rfl).elim
  | cons x l =>
    obtain ⟨m, h1, h2, h3⟩ := foldl_min_real x l
    obtain ⟨M, g1, g2, g3⟩ := foldl_max_real x l
    refine ⟨m, M, h2, g2, fun a ha => ⟨h3 a ha, g3 a ha⟩, ?_⟩
    have hmM : m ≤ M := h3 M g2
    rw [List.map_cons, minMaxScale]
    simp only [h1, g1]
    have hs : (F.real M - F.real m : F) = .real (M - m) := rfl
    rw [hs]
    by_cases hc : M - m ≤ 1e-8
    · left
      refine ⟨hc, ?_⟩
      rw [if_pos ((isClose_zero _).2 (by unfold NearZero; rw [abs_of_nonneg (sub_nonneg.2 hmM)]; exact hc))]
      simp [Function.comp_def]
    · right
      refine ⟨not_le.1 hc, ?_⟩
      rw [if_neg (fun h => hc (by have := (isClose_zero _).1 h; unfold NearZero at this; rwa [abs_of_nonneg (sub_nonneg.2 hmM)] at this))]
      have hne : M - m ≠ 0 := fun h0 => hc (by rw [h0]; norm_num)
      have hd : ∀ v : ℝ, (F.real v - F.real m) / F.real (M - m) = .real ((v - m) / (M - m)) := by
        intro v
        show (if M - m = 0 then F.nan else F.real ((v - m) / (M - m))) = _
        rw [if_neg hne]
      simp only [List.map_cons, List.map_map, Function.comp_def, hd]

end KMethods
