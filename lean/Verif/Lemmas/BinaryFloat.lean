import Verif.Spec.BinaryFloat
import Verif.Lemmas.Rounding
import Mathlib.Tactic.NormNum.Pow
/-! # Binary floating point numbers satisfy the standard model -/
namespace KMethods

theorem lastExp_bounds {p : Nat} {y : ℝ} (hy : 0 < y) :
    (2 : ℝ) ^ (lastExp p y + p - 1) ≤ y ∧ y < (2 : ℝ) ^ (lastExp p y + p) := by
  have h1 := Int.zpow_log_le_self (b := 2) (by norm_num) hy
  have h2 := Int.lt_zpow_succ_log_self (b := 2) (by norm_num) y
  unfold lastExp
  rw [show Int.log 2 y + 1 - (p : ℤ) + p - 1 = Int.log 2 y by ring, show Int.log 2 y + 1 - (p : ℤ) + p = Int.log 2 y + 1 by ring]
  exact ⟨by exact_mod_cast h1, by exact_mod_cast h2⟩

theorem lastExp_eq {p : Nat} {y : ℝ} {e : ℤ} (h1 : (2 : ℝ) ^ (e + p - 1) ≤ y) (h2 : y < (2 : ℝ) ^ (e + p)) : lastExp p y = e := by
  have hy : 0 < y := lt_of_lt_of_le (by positivity) h1
  obtain ⟨h3, h4⟩ := lastExp_bounds (p := p) hy
  have h5 := (zpow_lt_zpow_iff_right₀ (by norm_num : (1 : ℝ) < 2)).1 (h1.trans_lt h4)
  have h6 := (zpow_lt_zpow_iff_right₀ (by norm_num : (1 : ℝ) < 2)).1 (h3.trans_lt h2)
  omega

theorem roundBits_of_int {p : Nat} {y : ℝ} {e : ℤ} {m : ℤ} (h1 : (2 : ℝ) ^ (e + p - 1) ≤ y) (h2 : y < (2 : ℝ) ^ (e + p))
    (hm : |y - m * 2 ^ e| < 2 ^ e / 2) : roundBits p y = m * 2 ^ e := by
  have he := lastExp_eq h1 h2
  unfold roundBits
  rw [he]
  have hpos : (0 : ℝ) < 2 ^ e := by positivity
  congr 2
  rw [round_eq, Int.floor_eq_iff]
  have h3 := abs_lt.1 hm
  constructor
  · have : (m : ℝ) - 1 / 2 ≤ y / 2 ^ e := by rw [le_div_iff₀ hpos]; nlinarith
    linarith
  · have : y / 2 ^ e < m + 1 / 2 := by rw [div_lt_iff₀ hpos]; nlinarith
    linarith

theorem roundBits_exact {p : Nat} {e m : ℤ} (h1 : (2 : ℝ) ^ (e + p - 1) ≤ m * 2 ^ e) (h2 : (m : ℝ) * 2 ^ e < (2 : ℝ) ^ (e + p)) :
    roundBits p (m * 2 ^ e) = m * 2 ^ e :=
  roundBits_of_int h1 h2 (by rw [sub_self, abs_zero]; positivity)

theorem roundBits_zero (p : Nat) : roundBits p 0 = 0 := by simp [roundBits]

theorem roundBits_err {p : Nat} {y : ℝ} (hy : 0 ≤ y) : |roundBits p y - y| ≤ 2⁻¹ ^ p * y := by
  rcases hy.eq_or_lt with rfl | hy
  · simp [roundBits_zero]
  obtain ⟨h1, -⟩ := lastExp_bounds (p := p) hy
  unfold roundBits
  set e := lastExp p y
  have hpos : (0 : ℝ) < 2 ^ e := by positivity
  have h2 := abs_sub_round (y / (2 : ℝ) ^ e)
  have e1 : (round (y / (2 : ℝ) ^ e) : ℝ) * 2 ^ e - y = -((y / 2 ^ e - round (y / (2 : ℝ) ^ e)) * 2 ^ e) := by
    field_simp; ring
  rw [e1, abs_neg, abs_mul, abs_of_pos hpos]
  have h3 : (2 : ℝ) ^ (e + p - 1) = 2 ^ e * 2 ^ p / 2 := by
    rw [zpow_sub₀ two_ne_zero, zpow_add₀ two_ne_zero, zpow_natCast, zpow_one]
  rw [h3] at h1
  have h4 : (2 : ℝ)⁻¹ ^ p * 2 ^ p = 1 := by rw [← mul_pow]; norm_num
  have h5 : (0 : ℝ) < 2⁻¹ ^ p := by positivity
  have h6 := mul_le_mul_of_nonneg_left h1 h5.le
  have h7 : (2 : ℝ)⁻¹ ^ p * (2 ^ e * 2 ^ p / 2) = 2 ^ e / 2 := by
    rw [show (2 : ℝ)⁻¹ ^ p * (2 ^ e * 2 ^ p / 2) = (2⁻¹ ^ p * 2 ^ p) * (2 ^ e / 2) by ring, h4, one_mul]
  rw [h7] at h6
  nlinarith

theorem roundBits_nonneg {p : Nat} {y : ℝ} (hy : 0 ≤ y) : 0 ≤ roundBits p y := by
  unfold roundBits
  have h : (0 : ℝ) ≤ y / 2 ^ lastExp p y := by positivity
  have : (0 : ℤ) ≤ round (y / (2 : ℝ) ^ lastExp p y) := by
    rw [round_eq]
    exact Int.floor_nonneg.2 (by linarith)
  have : (0 : ℝ) ≤ (round (y / (2 : ℝ) ^ lastExp p y) : ℤ) := by exact_mod_cast this
  positivity

theorem roundBits_idem {p : Nat} (hp : 1 ≤ p) {y : ℝ} (hy : 0 ≤ y) : roundBits p (roundBits p y) = roundBits p y := by
  rcases hy.eq_or_lt with rfl | hy
  · simp [roundBits_zero]
  obtain ⟨h1, h2⟩ := lastExp_bounds (p := p) hy
  have hdef : roundBits p y = (round (y / 2 ^ lastExp p y) : ℤ) * 2 ^ lastExp p y := rfl
  rw [hdef]
  set e := lastExp p y
  set m := round (y / (2 : ℝ) ^ e) with hm
  have hpos : (0 : ℝ) < 2 ^ e := by positivity
  have e1 : (2 : ℝ) ^ (e + p - 1) = ((2 ^ (p - 1) : ℕ) : ℤ) * 2 ^ e := by
    push_cast
    rw [show e + (p : ℤ) - 1 = ((p - 1 : ℕ) : ℤ) + e by omega, zpow_add₀ two_ne_zero, zpow_natCast]
  have e2 : (2 : ℝ) ^ (e + p) = ((2 ^ p : ℕ) : ℤ) * 2 ^ e := by
    push_cast
    rw [add_comm, zpow_add₀ two_ne_zero, zpow_natCast]
  have hlo : ((2 ^ (p - 1) : ℕ) : ℤ) ≤ m := by
    rw [hm, round_eq, Int.le_floor]
    rw [e1] at h1
    have : (((2 ^ (p - 1) : ℕ) : ℤ) : ℝ) ≤ y / 2 ^ e := by rwa [le_div_iff₀ hpos]
    linarith
  have hhi : m ≤ ((2 ^ p : ℕ) : ℤ) := by
    have h3 : m < ((2 ^ p : ℕ) : ℤ) + 1 := by
      rw [hm, round_eq, Int.floor_lt]
      rw [e2] at h2
      have : y / 2 ^ e < (((2 ^ p : ℕ) : ℤ) : ℝ) := by rwa [div_lt_iff₀ hpos]
      push_cast at this ⊢
      linarith
    omega
  rcases hhi.eq_or_lt with h | h
  · -- rounded up to a power of two
    have e3 : (m : ℝ) * 2 ^ e = ((2 ^ (p - 1) : ℕ) : ℤ) * 2 ^ (e + 1) := by
      rw [h, zpow_add₀ two_ne_zero, zpow_one]
      have : (2 ^ p : ℕ) = 2 ^ (p - 1) * 2 := by rw [← pow_succ]; congr 1; omega
      rw [this]
      push_cast
      ring
    rw [e3]
    have e4 : (2 : ℝ) ^ (e + 1 + p - 1) = ((2 ^ (p - 1) : ℕ) : ℤ) * 2 ^ (e + 1) := by
      push_cast
      rw [show e + 1 + (p : ℤ) - 1 = ((p - 1 : ℕ) : ℤ) + (e + 1) by omega, zpow_add₀ two_ne_zero, zpow_natCast]
    apply roundBits_exact
    · rw [e4]
    · rw [← e4]
      exact zpow_lt_zpow_right₀ (by norm_num) (by omega)
  · apply roundBits_exact
    · rw [e1]
      exact mul_le_mul_of_nonneg_right (by exact_mod_cast hlo) hpos.le
    · rw [e2]
      exact mul_lt_mul_of_pos_right (by exact_mod_cast h) hpos

theorem nearest_nonneg {p : Nat} {x : ℝ} (h : 0 ≤ x) : nearest p x = roundBits p x := if_pos h
theorem nearest_neg {p : Nat} (x : ℝ) : nearest p (-x) = -nearest p x := by
  unfold nearest
  rcases lt_trichotomy x 0 with h | rfl | h
  · rw [if_pos (by linarith), if_neg (by linarith), neg_neg]
  · simp [roundBits_zero]
  · rw [if_neg (by linarith), if_pos h.le, neg_neg]

theorem nearest_one {p : Nat} (hp : 1 ≤ p) : nearest p 1 = 1 := by
  rw [nearest_nonneg zero_le_one]
  have e : (1 : ℝ) = ((2 ^ (p - 1) : ℕ) : ℤ) * 2 ^ (-((p - 1 : ℕ) : ℤ)) := by
    push_cast
    rw [zpow_neg, zpow_natCast, mul_inv_cancel₀ (by positivity)]
  have := roundBits_exact (p := p) (e := -((p - 1 : ℕ) : ℤ)) (m := ((2 ^ (p - 1) : ℕ) : ℤ))
    (by rw [← e, show -((p - 1 : ℕ) : ℤ) + p - 1 = 0 by omega, zpow_zero])
    (by rw [← e, show -((p - 1 : ℕ) : ℤ) + p = 1 by omega, zpow_one]; norm_num)
  rwa [← e] at this

/-- Arithmetic with numbers of `p` bits, rounding to nearest; `exp` is rounded correctly. -/
noncomputable def binary (p : Nat) (hp : 1 ≤ p) : Rounding where
  fl := nearest p
  u := 2⁻¹ ^ p
  u_nonneg := by positivity
  u_lt := pow_lt_one₀ (by norm_num) (by norm_num) (by omega)
  err x := by
    unfold nearest
    split
    · rename_i h
      rw [abs_of_nonneg h]; exact roundBits_err h
    · rename_i h
      have := roundBits_err (p := p) (y := -x) (by linarith)
      rw [abs_of_neg (not_le.1 h), ← abs_neg, show -(-roundBits p (-x) - x) = roundBits p (-x) - -x by ring]
      exact this
  idem x := by
    rcases le_total 0 x with h | h
    · rw [nearest_nonneg h, nearest_nonneg (roundBits_nonneg h), roundBits_idem hp h]
    · have h' : 0 ≤ -x := by linarith
      rw [← neg_neg x, nearest_neg, nearest_neg, nearest_nonneg h', nearest_nonneg (roundBits_nonneg h'), roundBits_idem hp h']
  odd := nearest_neg
  exp x := nearest p (Real.exp x)
  exp_zero := by rw [Real.exp_zero, nearest_one hp]
  exp_err x hx := by
    rw [nearest_nonneg (Real.exp_pos x).le]
    refine (roundBits_err (Real.exp_pos x).le).trans ?_
    exact mul_le_of_le_one_right (by positivity) (Real.exp_le_one_iff.2 hx)

end KMethods
