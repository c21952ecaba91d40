import Verif.Spec.Rounding
import Verif.Lemmas.Operations2
import Mathlib.Algebra.Order.Ring.Pow
import Mathlib.Tactic.GCongr
/-! # Rounding errors -/
namespace KMethods
namespace Rounding
variable (R : Rounding)

/-- `1 / (1 - u)`: one rounding changes a number by a factor between `1/w` and `w` -/
noncomputable def w : ℝ := (1 - R.u)⁻¹

theorem one_sub_pos : 0 < 1 - R.u := by linarith [R.u_lt]
theorem w_pos : 0 < R.w := inv_pos.2 R.one_sub_pos
theorem one_add_le_w : 1 + R.u ≤ R.w := by
  rw [w, le_inv_comm₀ (by linarith [R.u_nonneg]) R.one_sub_pos, inv_eq_one_div, le_div_iff₀ (by linarith [R.u_nonneg])]
  nlinarith [R.u_nonneg]
theorem one_le_w : 1 ≤ R.w := by linarith [R.one_add_le_w, R.u_nonneg]
theorem w_inv : R.w⁻¹ = 1 - R.u := inv_inv _

theorem fl_zero : R.fl 0 = 0 := by
  have := R.err 0
  simpa using this

/-- `a` is `b` up to `m` roundings -/
def Rel (m : Nat) (a b : ℝ) : Prop := ∃ c, (R.w ^ m)⁻¹ ≤ c ∧ c ≤ R.w ^ m ∧ a = b * c

variable {R}

theorem pow_w_pos (m : Nat) : 0 < R.w ^ m := pow_pos R.w_pos m
theorem one_le_pow_w (m : Nat) : 1 ≤ R.w ^ m := one_le_pow₀ R.one_le_w

theorem Near.rel {r x : ℝ} (h : R.Near r x) : R.Rel 1 r x := by
  unfold Near at h
  by_cases hx : x = 0
  · subst hx
    refine ⟨1, inv_le_one_of_one_le₀ (one_le_pow_w 1), one_le_pow_w 1, ?_⟩
    simpa using h
  · refine ⟨r / x, ?_, ?_, by field_simp⟩
    all_goals
      have h1 : |r / x - 1| ≤ R.u := by
        rw [show r / x - 1 = (r - x) / x by field_simp, abs_div, div_le_iff₀ (abs_pos.2 hx)]
        exact h
      rw [abs_le] at h1
      rw [pow_one]
    · rw [w_inv]; linarith
    · linarith [R.one_add_le_w]

theorem rel_fl (x : ℝ) : R.Rel 1 (R.fl x) x := Near.rel (R.err x)

theorem Rel.refl (a : ℝ) : R.Rel 0 a a := ⟨1, by simp, by simp, by simp⟩

theorem Rel.mono {m n : Nat} {a b : ℝ} (h : R.Rel m a b) (hmn : m ≤ n) : R.Rel n a b := by
  obtain ⟨c, h1, h2, h3⟩ := h
  have := pow_le_pow_right₀ R.one_le_w hmn
  exact ⟨c, (inv_anti₀ (pow_w_pos m) this).trans h1, h2.trans this, h3⟩

theorem Rel.trans {m n : Nat} {a b c : ℝ} (h : R.Rel m a b) (h' : R.Rel n b c) : R.Rel (m + n) a c := by
  obtain ⟨p, h1, h2, rfl⟩ := h
  obtain ⟨q, h1', h2', rfl⟩ := h'
  refine ⟨q * p, ?_, ?_, by ring⟩
  · rw [pow_add, mul_inv, mul_comm]
    exact mul_le_mul h1' h1 (inv_pos.2 (pow_w_pos m)).le ((inv_pos.2 (pow_w_pos n)).le.trans h1')
  · rw [pow_add, mul_comm]
    exact mul_le_mul h2 h2' ((inv_pos.2 (pow_w_pos n)).le.trans h1') (pow_w_pos m).le

theorem Rel.fl {m : Nat} {a b : ℝ} (h : R.Rel m a b) : R.Rel (m + 1) (R.fl a) b := by
  rw [add_comm]; exact (rel_fl a).trans h

theorem Rel.near {m : Nat} {r a b : ℝ} (h' : R.Near r a) (h : R.Rel m a b) : R.Rel (m + 1) r b := by
  rw [add_comm]; exact h'.rel.trans h

theorem Rel.mul {m n : Nat} {a b a' b' : ℝ} (h : R.Rel m a b) (h' : R.Rel n a' b') : R.Rel (m + n) (a * a') (b * b') := by
  obtain ⟨p, h1, h2, rfl⟩ := h
  obtain ⟨q, h1', h2', rfl⟩ := h'
  refine ⟨p * q, ?_, ?_, by ring⟩
  · rw [pow_add, mul_inv]
    exact mul_le_mul h1 h1' (inv_pos.2 (pow_w_pos n)).le ((inv_pos.2 (pow_w_pos m)).le.trans h1)
  · rw [pow_add]
    exact mul_le_mul h2 h2' ((inv_pos.2 (pow_w_pos n)).le.trans h1') (pow_w_pos m).le

theorem Rel.inv {m : Nat} {a b : ℝ} (h : R.Rel m a b) : R.Rel m a⁻¹ b⁻¹ := by
  obtain ⟨p, h1, h2, rfl⟩ := h
  have hp : 0 < p := (inv_pos.2 (pow_w_pos m)).trans_le h1
  refine ⟨p⁻¹, inv_anti₀ hp h2, ?_, mul_inv _ _⟩
  rw [inv_le_comm₀ hp (pow_w_pos m)]
  exact h1

theorem Rel.div {m n : Nat} {a b a' b' : ℝ} (h : R.Rel m a b) (h' : R.Rel n a' b') : R.Rel (m + n) (a / a') (b / b') := by
  rw [div_eq_mul_inv, div_eq_mul_inv]
  exact h.mul h'.inv

theorem Rel.const_mul {m : Nat} {a b : ℝ} (h : R.Rel m a b) (c : ℝ) : R.Rel m (c * a) (c * b) := by
  have := (Rel.refl c).mul h
  rwa [zero_add] at this

theorem Rel.pow {m : Nat} {a b : ℝ} (h : R.Rel m a b) (k : Nat) : R.Rel (k * m) (a ^ k) (b ^ k) := by
  induction k with
  | zero => simpa using Rel.refl (1 : ℝ)
  | succ k ih =>
    rw [pow_succ, pow_succ, Nat.succ_mul]
    exact ih.mul h

theorem Rel.abs {m : Nat} {a b : ℝ} (h : R.Rel m a b) : R.Rel m |a| |b| := by
  obtain ⟨p, h1, h2, rfl⟩ := h
  exact ⟨p, h1, h2, by rw [abs_mul, abs_of_pos ((inv_pos.2 (pow_w_pos m)).trans_le h1)]⟩

theorem Rel.sqrt {m : Nat} {a b : ℝ} (h : R.Rel m a b) : R.Rel m (Real.sqrt a) (Real.sqrt b) := by
  obtain ⟨p, h1, h2, rfl⟩ := h
  have hp : 0 < p := (inv_pos.2 (pow_w_pos m)).trans_le h1
  refine ⟨Real.sqrt p, ?_, ?_, Real.sqrt_mul' b hp.le⟩
  · apply Real.le_sqrt_of_sq_le
    refine le_trans ?_ h1
    rw [sq]
    exact mul_le_of_le_one_left (inv_pos.2 (pow_w_pos m)).le (inv_le_one_of_one_le₀ (one_le_pow_w m))
  · rw [Real.sqrt_le_left (pow_w_pos m).le, sq]
    exact h2.trans (le_mul_of_one_le_left (pow_w_pos m).le (one_le_pow_w m))

/-- sums of non-negative numbers -/
theorem Rel.add {m : Nat} {a b a' b' : ℝ} (h : R.Rel m a b) (h' : R.Rel m a' b') (hb : 0 ≤ b) (hb' : 0 ≤ b') :
    R.Rel m (a + a') (b + b') := by
  obtain ⟨p, h1, h2, rfl⟩ := h
  obtain ⟨q, h1', h2', rfl⟩ := h'
  rcases (add_nonneg hb hb').eq_or_lt with h0 | h0
  · have e : b = 0 := by linarith
    have e' : b' = 0 := by linarith
    subst e e'
    exact ⟨1, inv_le_one_of_one_le₀ (one_le_pow_w m), one_le_pow_w m, by simp⟩
  · refine ⟨(b * p + b' * q) / (b + b'), ?_, ?_, by field_simp⟩
    · rw [le_div_iff₀ h0]
      nlinarith [mul_le_mul_of_nonneg_left h1 hb, mul_le_mul_of_nonneg_left h1' hb']
    · rw [div_le_iff₀ h0]
      nlinarith [mul_le_mul_of_nonneg_left h2 hb, mul_le_mul_of_nonneg_left h2' hb']

theorem Rel.err {m : Nat} {a b : ℝ} (h : R.Rel m a b) : |a - b| ≤ (R.w ^ m - 1) * |b| := by
  obtain ⟨p, h1, h2, rfl⟩ := h
  have h3 : 1 - (R.w ^ m)⁻¹ ≤ R.w ^ m - 1 := by
    have := pow_w_pos (R := R) m
    rw [sub_le_sub_iff, inv_eq_one_div]
    have h4 : 2 * R.w ^ m ≤ R.w ^ m * R.w ^ m + 1 := by nlinarith [sq_nonneg (R.w ^ m - 1)]
    have h5 : 1 / R.w ^ m * R.w ^ m = 1 := by field_simp
    nlinarith
  rw [show b * p - b = (p - 1) * b by ring, abs_mul]
  apply mul_le_mul_of_nonneg_right _ (abs_nonneg b)
  rw [abs_le]
  constructor <;> linarith

theorem Rel.le {m : Nat} {a b : ℝ} (h : R.Rel m a b) : |a| ≤ R.w ^ m * |b| := by
  have := h.err
  have h2 := abs_sub_abs_le_abs_sub a b
  linarith

theorem Rel.symm {m : Nat} {a b : ℝ} (h : R.Rel m a b) : R.Rel m b a := by
  obtain ⟨p, h1, h2, rfl⟩ := h
  have hp : 0 < p := (inv_pos.2 (pow_w_pos m)).trans_le h1
  refine ⟨p⁻¹, inv_anti₀ hp h2, ?_, by field_simp⟩
  rw [inv_le_comm₀ hp (pow_w_pos m)]
  exact h1

theorem pow_w_le (m : Nat) (h : m * R.u < 1) : R.w ^ m - 1 ≤ R.gamma m := by
  have h1 : 1 - m * R.u ≤ (1 - R.u) ^ m := by
    have := one_add_mul_le_pow (a := -R.u) (by linarith [R.u_lt]) m
    have e : (1 : ℝ) + m * -R.u = 1 - m * R.u := by ring
    have e' : (1 : ℝ) + -R.u = 1 - R.u := by ring
    rwa [e, e'] at this
  rw [gamma, w, inv_pow, sub_le_iff_le_add]
  have h2 : 0 < 1 - m * R.u := by linarith
  rw [show m * R.u / (1 - m * R.u) + 1 = (1 - m * R.u)⁻¹ by field_simp; ring]
  exact inv_anti₀ h2 h1

theorem gamma_nonneg {m : Nat} (h : m * R.u < 1) : 0 ≤ R.gamma m :=
  div_nonneg (mul_nonneg (Nat.cast_nonneg m) R.u_nonneg) (by linarith)

theorem Rel.err_gamma {m : Nat} {a b : ℝ} (h : R.Rel m a b) (hm : m * R.u < 1) : |a - b| ≤ R.gamma m * |b| :=
  h.err.trans (mul_le_mul_of_nonneg_right (pow_w_le m hm) (abs_nonneg b))

theorem fl_abs (x : ℝ) (h : R.fl x = x) : R.fl |x| = |x| := by
  rcases abs_cases x with ⟨e, _⟩ | ⟨e, _⟩
  · rw [e, h]
  · rw [e, R.odd, h]

end Rounding

namespace SumTree
open Rounding
variable {R : Rounding} {n : Nat}

/-- a sum over the leaves -/
def total (p : Fin n → ℝ) (t : SumTree n) : ℝ := (t.leaves.map p).sum

theorem Complete.total {t : SumTree n} (h : t.Complete) (p : Fin n → ℝ) : t.total p = ∑ i, p i := by
  unfold SumTree.total
  rw [(h.map p).sum_eq, ← List.ofFn_eq_map, List.sum_ofFn]

theorem Complete.length {t : SumTree n} (h : t.Complete) : t.leaves.length = n := by
  rw [h.length_eq, List.length_finRange]

theorem total_zero (p : Fin n → ℝ) : (zero : SumTree n).total p = 0 := rfl
theorem total_leaf (p : Fin n → ℝ) (i : Fin n) : (leaf i).total p = p i := by simp [total, leaves]
theorem total_node (p : Fin n → ℝ) (l r : SumTree n) : (node l r).total p = l.total p + r.total p := by
  simp [total, leaves]
theorem total_fma (p : Fin n → ℝ) (i : Fin n) (t : SumTree n) : (fma i t).total p = p i + t.total p := by
  simp [total, leaves]
theorem total_empty (p : Fin n → ℝ) {t : SumTree n} (h : t.leaves = []) : t.total p = 0 := by simp [total, h]
theorem total_nonneg {p : Fin n → ℝ} (hp : ∀ i, 0 ≤ p i) (t : SumTree n) : 0 ≤ t.total p :=
  List.sum_nonneg fun x hx => by
    obtain ⟨i, _, rfl⟩ := List.mem_map.1 hx
    exact hp i

/-! ### sums -/

theorem sum_fixed {a : Fin n → ℝ} (ha : ∀ i, R.fl (a i) = a i) (t : SumTree n) : R.fl (t.sum R a) = t.sum R a := by
  cases t with
  | zero => exact R.fl_zero
  | leaf i => exact ha i
  | node l r => exact R.idem _
  | fma i t => exact R.idem _

theorem sum_empty {a : Fin n → ℝ} {t : SumTree n} (h : t.leaves = []) : t.sum R a = 0 := by
  induction t with
  | zero => rfl
  | leaf i => simp [leaves] at h
  | node l r ihl ihr =>
    rw [leaves, List.append_eq_nil_iff] at h
    rw [sum, ihl h.1, ihr h.2, add_zero, R.fl_zero]
  | fma i t => simp [leaves] at h

theorem leaves_pos {t : SumTree n} (h : t.leaves ≠ []) : 1 ≤ t.leaves.length := List.length_pos_iff.2 h

theorem sum_rel {a : Fin n → ℝ} (ha : ∀ i, R.fl (a i) = a i) (h0 : ∀ i, 0 ≤ a i) (t : SumTree n) :
    R.Rel t.leaves.length (t.sum R a) (t.total a) := by
  induction t with
  | zero => exact Rel.refl 0
  | leaf i => rw [total_leaf]; exact (Rel.refl _).mono (Nat.zero_le _)
  | node l r ihl ihr =>
    rw [total_node, leaves, List.length_append, sum]
    by_cases hl : l.leaves = []
    · rw [sum_empty hl, zero_add, sum_fixed ha, total_empty _ hl, zero_add]
      exact ihr.mono (Nat.le_add_left _ _)
    by_cases hr : r.leaves = []
    · rw [sum_empty hr, add_zero, sum_fixed ha, total_empty _ hr, add_zero]
      exact ihl.mono (Nat.le_add_right _ _)
    have h1 := leaves_pos hl
    have h2 := leaves_pos hr
    refine (((ihl.mono (le_max_left _ r.leaves.length)).add (ihr.mono (le_max_right l.leaves.length _)) (total_nonneg h0 l)
      (total_nonneg h0 r)).fl).mono ?_
    omega
  | fma i t ih =>
    rw [total_fma, leaves, List.length_cons, sum]
    by_cases ht : t.leaves = []
    · rw [sum_empty ht, add_zero, ha, total, ht]
      simpa using (Rel.refl (a i)).mono (Nat.zero_le _)
    · exact (((Rel.refl (a i)).mono (Nat.zero_le _)).add ih (h0 i) (total_nonneg h0 t)).fl

/-! ### dot products -/

theorem dotR_fixed (a b : Fin n → ℝ) (t : SumTree n) : R.fl (t.dotR R a b) = t.dotR R a b := by
  cases t with
  | zero => exact R.fl_zero
  | leaf i => exact R.idem _
  | node l r => exact R.idem _
  | fma i t => exact R.idem _

theorem dotR_empty {a b : Fin n → ℝ} {t : SumTree n} (h : t.leaves = []) : t.dotR R a b = 0 := by
  induction t with
  | zero => rfl
  | leaf i => simp [leaves] at h
  | node l r ihl ihr =>
    rw [leaves, List.append_eq_nil_iff] at h
    rw [dotR, ihl h.1, ihr h.2, add_zero, R.fl_zero]
  | fma i t => simp [leaves] at h

theorem dotR_rel {a b : Fin n → ℝ} (h0 : ∀ i, 0 ≤ a i * b i) (t : SumTree n) :
    R.Rel t.leaves.length (t.dotR R a b) (t.total fun i => a i * b i) := by
  induction t with
  | zero => exact Rel.refl 0
  | leaf i => rw [total_leaf]; exact rel_fl _
  | node l r ihl ihr =>
    rw [total_node, leaves, List.length_append, dotR]
    by_cases hl : l.leaves = []
    · rw [dotR_empty hl, zero_add, dotR_fixed, total_empty _ hl, zero_add]
      exact ihr.mono (Nat.le_add_left _ _)
    by_cases hr : r.leaves = []
    · rw [dotR_empty hr, add_zero, dotR_fixed, total_empty _ hr, add_zero]
      exact ihl.mono (Nat.le_add_right _ _)
    have h1 := leaves_pos hl
    have h2 := leaves_pos hr
    refine (((ihl.mono (le_max_left _ r.leaves.length)).add (ihr.mono (le_max_right l.leaves.length _)) (total_nonneg h0 l)
      (total_nonneg h0 r)).fl).mono ?_
    omega
  | fma i t ih =>
    rw [total_fma, leaves, List.length_cons, dotR]
    exact (((Rel.refl (a i * b i)).mono (Nat.zero_le _)).add ih (h0 i) (total_nonneg h0 t)).fl

theorem abs_total_le (p : Fin n → ℝ) (t : SumTree n) : |t.total p| ≤ t.total fun i => |p i| := by
  induction t with
  | zero => simp [total_zero]
  | leaf i => simp [total_leaf]
  | node l r ihl ihr => rw [total_node, total_node]; exact (abs_add_le _ _).trans (add_le_add ihl ihr)
  | fma i t ih => rw [total_fma, total_fma]; exact (abs_add_le _ _).trans (add_le_add le_rfl ih)

/-- one rounding of a sum with error `g` -/
theorem near_step {k : Nat} {r x S T : ℝ} (hr : R.Near r x) (h : |x - S| ≤ (R.w ^ k - 1) * T) (hS : |S| ≤ T) :
    |r - S| ≤ (R.w ^ (k + 1) - 1) * T := by
  have hT : 0 ≤ T := (abs_nonneg S).trans hS
  have hx : |x| ≤ R.w ^ k * T := by
    have := abs_sub_abs_le_abs_sub x S
    linarith
  have h1 : |r - x| ≤ R.u * |x| := hr
  have h2 : |r - S| ≤ |r - x| + |x - S| := abs_sub_le _ _ _
  have h3 : R.u * |x| ≤ R.u * (R.w ^ k * T) := mul_le_mul_of_nonneg_left hx R.u_nonneg
  have h4 : (1 + R.u) * (R.w ^ k * T) ≤ R.w * (R.w ^ k * T) :=
    mul_le_mul_of_nonneg_right R.one_add_le_w (mul_nonneg (pow_w_pos k).le hT)
  rw [pow_succ]
  nlinarith

theorem fl_step {k : Nat} {x S T : ℝ} (h : |x - S| ≤ (R.w ^ k - 1) * T) (hS : |S| ≤ T) :
    |R.fl x - S| ≤ (R.w ^ (k + 1) - 1) * T := near_step (R.err x) h hS

theorem dotR_err (a b : Fin n → ℝ) (t : SumTree n) :
    |t.dotR R a b - t.total fun i => a i * b i| ≤ (R.w ^ t.leaves.length - 1) * t.total fun i => |a i * b i| := by
  have hnn : ∀ s : SumTree n, 0 ≤ s.total fun i => |a i * b i| := total_nonneg fun i => abs_nonneg _
  have mono : ∀ {k m : Nat} {T : ℝ}, k ≤ m → 0 ≤ T → (R.w ^ k - 1) * T ≤ (R.w ^ m - 1) * T := fun h hT =>
    mul_le_mul_of_nonneg_right (sub_le_sub_right (pow_le_pow_right₀ R.one_le_w h) 1) hT
  induction t with
  | zero => simp [dotR, total_zero]
  | leaf i =>
    rw [total_leaf, total_leaf]
    exact (rel_fl (R := R) (a i * b i)).err
  | node l r ihl ihr =>
    rw [total_node, total_node, leaves, List.length_append, dotR]
    by_cases hl : l.leaves = []
    · rw [dotR_empty hl, zero_add, dotR_fixed, total_empty _ hl, zero_add, total_empty _ hl, zero_add]
      exact ihr.trans (mono (Nat.le_add_left _ _) (hnn r))
    by_cases hr : r.leaves = []
    · rw [dotR_empty hr, add_zero, dotR_fixed, total_empty _ hr, add_zero, total_empty _ hr, add_zero]
      exact ihl.trans (mono (Nat.le_add_right _ _) (hnn l))
    have h1 := leaves_pos hl
    have h2 := leaves_pos hr
    have hl' := ihl.trans (mono (le_max_left l.leaves.length r.leaves.length) (hnn l))
    have hr' := ihr.trans (mono (le_max_right l.leaves.length r.leaves.length) (hnn r))
    refine (fl_step (k := max l.leaves.length r.leaves.length) (T := (l.total fun i => |a i * b i|) + r.total fun i => |a i * b i|) ?_
      ((abs_add_le _ _).trans (add_le_add (abs_total_le _ l) (abs_total_le _ r)))).trans (mono (by omega) (add_nonneg (hnn l) (hnn r)))
    rw [add_sub_add_comm]
    refine (abs_add_le _ _).trans ?_
    rw [mul_add]
    exact add_le_add hl' hr'
  | fma i t ih =>
    rw [total_fma, total_fma, leaves, List.length_cons, dotR]
    refine fl_step ?_ ((abs_add_le _ _).trans (add_le_add le_rfl (abs_total_le _ t)))
    rw [add_sub_add_left_eq_sub]
    refine ih.trans (mul_le_mul_of_nonneg_left ?_ (sub_nonneg.2 (one_le_pow_w _)))
    exact le_add_of_nonneg_left (abs_nonneg _)

/-- products that vanish leave no trace -/
theorem dotR_all_zero {a b : Fin n → ℝ} {t : SumTree n} (h : ∀ i ∈ t.leaves, a i * b i = 0) : t.dotR R a b = 0 := by
  induction t with
  | zero => rfl
  | leaf i => rw [dotR, h i (by simp [leaves]), R.fl_zero]
  | node l r ihl ihr =>
    rw [dotR, ihl fun i hi => h i (by simp [leaves, hi]), ihr fun i hi => h i (by simp [leaves, hi]), add_zero, R.fl_zero]
  | fma i t ih => rw [dotR, h i (by simp [leaves]), ih fun j hj => h j (by simp [leaves, hj]), add_zero, R.fl_zero]

theorem dotR_single {a b : Fin n → ℝ} {t : SumTree n} {i : Fin n} (hn : t.leaves.Nodup) (hi : i ∈ t.leaves)
    (h : ∀ j, j ≠ i → a j * b j = 0) : t.dotR R a b = R.fl (a i * b i) := by
  induction t with
  | zero => simp [leaves] at hi
  | leaf j =>
    simp only [leaves, List.mem_singleton] at hi
    subst hi
    rfl
  | node l r ihl ihr =>
    rw [leaves, List.nodup_append] at hn
    rw [leaves, List.mem_append] at hi
    rw [dotR]
    rcases hi with hi | hi
    · rw [ihl hn.1 hi, dotR_all_zero (t := r) fun j hj => h j fun e => hn.2.2 i hi j hj e.symm, add_zero, R.idem]
    · rw [ihr hn.2.1 hi, dotR_all_zero (t := l) fun j hj => h j fun e => hn.2.2 j hj i hi e, zero_add, R.idem]
  | fma j t ih =>
    rw [leaves, List.nodup_cons] at hn
    rw [leaves, List.mem_cons] at hi
    rw [dotR]
    rcases hi with rfl | hi
    · rw [dotR_all_zero (t := t) fun k hk => h k fun e => hn.1 (e ▸ hk), add_zero]
    · rw [h j fun e => hn.1 (e ▸ hi), zero_add, ih hn.2 hi, R.idem]

theorem Complete.single {a b : Fin n → ℝ} {t : SumTree n} (ht : t.Complete) (i : Fin n) (h : ∀ j, j ≠ i → a j * b j = 0) :
    t.dotR R a b = R.fl (a i * b i) :=
  dotR_single (ht.nodup_iff.2 (List.nodup_finRange n)) (ht.mem_iff.2 (List.mem_finRange i)) h

theorem dot_real (a b : Fin n → ℝ) (t : SumTree n) : (t.dot R (fun i => .real (a i)) fun i => .real (b i)) = .real (t.dotR R a b) := by
  induction t with
  | zero => rfl
  | leaf i => rfl
  | node l r ihl ihr => rw [dot, ihl, ihr]; rfl
  | fma i t ih => rw [dot, ih]; rfl

end SumTree
end KMethods
