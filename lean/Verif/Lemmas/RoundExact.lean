import Verif.Lemmas.BinaryFloat
import Verif.Lemmas.RoundAlign
/-! # Sums without rounding errors -/
namespace KMethods
open F Rounding Finset

/-- numbers with a significand of at most `p` bits are not changed by rounding -/
theorem nearest_repr {p : Nat} (m e : ℤ) (hm : |m| < 2 ^ p) : nearest p (m * 2 ^ e) = m * 2 ^ e := by
  have pos : ∀ m : ℤ, 0 < m → m < 2 ^ p → nearest p (m * 2 ^ e) = m * 2 ^ e := by
    intro m h0 hm
    have h0' : (0 : ℝ) < m := by exact_mod_cast h0
    have hy : (0 : ℝ) < m * 2 ^ e := by positivity
    rw [nearest_nonneg hy.le]
    obtain ⟨h1, -⟩ := lastExp_bounds (p := p) hy
    have hlt : (m : ℝ) * 2 ^ e < 2 ^ (e + p) := by
      rw [add_comm, zpow_add₀ two_ne_zero, zpow_natCast]
      exact mul_lt_mul_of_pos_right (by exact_mod_cast hm) (by positivity)
    have h2 := (zpow_lt_zpow_iff_right₀ (by norm_num : (1 : ℝ) < 2)).1 (h1.trans_lt hlt)
    unfold roundBits
    set l := lastExp p (m * 2 ^ e) with hl
    have e1 : (m : ℝ) * 2 ^ e / 2 ^ l = ((m * 2 ^ (e - l).toNat : ℤ) : ℝ) := by
      push_cast
      rw [mul_div_assoc, ← zpow_sub₀ two_ne_zero, ← zpow_natCast, Int.toNat_of_nonneg (by omega)]
    rw [e1, round_intCast, ← e1, div_mul_cancel₀ _ (by positivity)]
  rcases lt_trichotomy m 0 with h | rfl | h
  · have := pos (-m) (by omega) (by rw [abs_of_neg h] at hm; exact hm)
    push_cast at this
    rw [neg_mul, nearest_neg] at this
    linarith
  · simp [nearest, roundBits_zero]
  · exact pos m h (by rw [abs_of_pos h] at hm; exact hm)

/-- the nearest number with a significand of `p` bits, ties away from zero -/
theorem nearest_tie {p : Nat} {y : ℝ} {e m : ℤ} (h1 : (2 : ℝ) ^ (e + p - 1) ≤ y) (h2 : y < (2 : ℝ) ^ (e + p))
    (hm : (m * 2 ^ e - 2 ^ e / 2 : ℝ) ≤ y) (hm' : y < m * 2 ^ e + 2 ^ e / 2) : nearest p y = m * 2 ^ e := by
  rw [nearest_nonneg (le_trans (by positivity) h1)]
  have he := lastExp_eq h1 h2
  unfold roundBits
  rw [he]
  have hpos : (0 : ℝ) < 2 ^ e := by positivity
  congr 2
  rw [round_eq, Int.floor_eq_iff]
  constructor
  · have : (m : ℝ) - 1 / 2 ≤ y / 2 ^ e := by rw [le_div_iff₀ hpos]; linarith
    linarith
  · have : y / 2 ^ e < m + 1 / 2 := by rw [div_lt_iff₀ hpos]; linarith
    linarith

variable {R : Rounding} {n : Nat}

/-- if all partial sums are representable, the order of summation does not matter -/
theorem SumTree.dotR_exact {a b : Fin n → ℝ} (h : ∀ S : Finset (Fin n), R.fl (∑ i ∈ S, a i * b i) = ∑ i ∈ S, a i * b i) (t : SumTree n)
    (ht : t.leaves.Nodup) : t.dotR R a b = ∑ i ∈ t.leaves.toFinset, a i * b i := by
  induction t with
  | zero => simp [SumTree.dotR, SumTree.leaves]
  | leaf i => simpa [SumTree.dotR, SumTree.leaves] using h {i}
  | node l r hl hr =>
    rw [SumTree.leaves, List.nodup_append'] at ht
    obtain ⟨h1, h2, h3⟩ := ht
    have hd : Disjoint l.leaves.toFinset r.leaves.toFinset := by rwa [List.disjoint_toFinset_iff_disjoint]
    rw [SumTree.dotR, hl h1, hr h2, ← sum_union hd, h, SumTree.leaves, List.toFinset_append]
  | fma i t hi =>
    rw [SumTree.leaves, List.nodup_cons] at ht
    rw [SumTree.dotR, hi ht.2, SumTree.leaves, List.toFinset_cons, ← sum_insert (f := fun i => a i * b i) (a := i) (s := t.leaves.toFinset) (by rw [List.mem_toFinset]; exact ht.1), h]

theorem SumTree.Complete.dotR_exact {a b : Fin n → ℝ} (h : ∀ S : Finset (Fin n), R.fl (∑ i ∈ S, a i * b i) = ∑ i ∈ S, a i * b i) {t : SumTree n}
    (ht : t.Complete) : t.dotR R a b = ∑ i, a i * b i := by
  rw [SumTree.dotR_exact h t (ht.nodup_iff.2 (List.nodup_finRange n))]
  congr 1
  ext i
  simp [ht.mem_iff]

end KMethods
