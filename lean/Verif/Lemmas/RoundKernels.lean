import Verif.Lemmas.RoundOps
import Verif.Lemmas.Kernels
import Verif.Lemmas.KernelPSD
/-! # Rounding errors of kernel values -/
namespace KMethods
open Rounding Finset

variable {R : Rounding} {d : Nat}

theorem Rounding.Rel.nonneg {m : Nat} {a b : ℝ} (h : R.Rel m a b) (hb : 0 ≤ b) : 0 ≤ a := by
  obtain ⟨c, h1, -, rfl⟩ := h
  exact mul_nonneg hb ((inv_pos.2 (pow_w_pos m)).le.trans h1)

theorem Rounding.Rel.finset_sum {ι : Type} (s : Finset ι) {m : Nat} {a b : ι → ℝ} (h : ∀ i ∈ s, R.Rel m (a i) (b i))
    (hb : ∀ i ∈ s, 0 ≤ b i) : R.Rel m (∑ i ∈ s, a i) (∑ i ∈ s, b i) := by
  classical
  induction s using Finset.induction_on with
  | empty => simpa using (Rel.refl (R := R) 0).mono (Nat.zero_le m)
  | insert i s hi ih =>
    rw [sum_insert hi, sum_insert hi]
    exact (h i (mem_insert_self i s)).add (ih (fun j hj => h j (mem_insert_of_mem hj)) fun j hj => hb j (mem_insert_of_mem hj))
      (hb i (mem_insert_self i s)) (sum_nonneg fun j hj => hb j (mem_insert_of_mem hj))

theorem SumTree.Complete.sum_rel {t : SumTree d} (ht : t.Complete) {m : Nat} {a b : Fin d → ℝ} (ha : ∀ i, R.fl (a i) = a i)
    (h : ∀ i, R.Rel m (a i) (b i)) (hb : ∀ i, 0 ≤ b i) : R.Rel (d + m) (t.sum R a) (∑ i, b i) := by
  have h1 := SumTree.sum_rel (R := R) ha (fun i => (h i).nonneg (hb i)) t
  rw [ht.length, ht.total] at h1
  exact h1.trans (Rel.finset_sum _ (fun i _ => h i) fun i _ => hb i)

/-! ### exponentials -/

theorem exp_scale_aux {t c : ℝ} (ht : 0 ≤ t) (hc : 1 ≤ c) : |Real.exp (-(t * c)) - Real.exp (-t)| ≤ c - 1 := by
  have h1 : Real.exp (-(t * c)) ≤ Real.exp (-t) := Real.exp_le_exp.2 (by nlinarith)
  rw [abs_sub_comm, abs_of_nonneg (sub_nonneg.2 h1)]
  have h2 : Real.exp (-(t * c)) = Real.exp (-t) * Real.exp (-(t * (c - 1))) := by rw [← Real.exp_add]; congr 1; ring
  have h3 : 1 - t * (c - 1) ≤ Real.exp (-(t * (c - 1))) := by
    have := Real.add_one_le_exp (-(t * (c - 1)))
    linarith
  have h4 : Real.exp (-t) * t ≤ 1 := by
    have h5 := Real.add_one_le_exp t
    have h6 : Real.exp (-t) * Real.exp t = 1 := by rw [← Real.exp_add]; simp
    nlinarith [Real.exp_pos (-t)]
  rw [h2]
  have h7 := mul_le_mul_of_nonneg_left h3 (Real.exp_pos (-t)).le
  nlinarith [mul_le_mul_of_nonneg_right h4 (sub_nonneg.2 hc)]

theorem Rounding.Rel.exp {m : Nat} {a t : ℝ} (h : R.Rel m a t) (ht : 0 ≤ t) : |Real.exp (-a) - Real.exp (-t)| ≤ R.w ^ m - 1 := by
  obtain ⟨c, h1, h2, rfl⟩ := h
  have hc : 0 < c := (inv_pos.2 (pow_w_pos m)).trans_le h1
  rcases le_total 1 c with h | h
  · exact (exp_scale_aux ht h).trans (sub_le_sub_right h2 1)
  · have h3 := exp_scale_aux (mul_nonneg ht hc.le) (one_le_inv_iff₀.2 ⟨hc, h⟩)
    rw [mul_assoc, mul_inv_cancel₀ hc.ne', mul_one, abs_sub_comm] at h3
    refine h3.trans (sub_le_sub_right ?_ 1)
    rw [inv_le_comm₀ hc (pow_w_pos m)]
    exact h1

theorem Rounding.exp_rel {m : Nat} {a t γ : ℝ} (h : R.Rel m a t) (ht : 0 ≤ t) (hγ : 0 ≤ γ) :
    |R.exp (R.fl (-γ * a)) - Real.exp (-γ * t)| ≤ R.w ^ (m + 2) - 1 := by
  have h1 : R.Rel (m + 1) (R.fl (γ * a)) (γ * t) := (h.const_mul γ).fl
  have h0 := mul_nonneg hγ ht
  have hneg : R.fl (-γ * a) = -R.fl (γ * a) := by rw [neg_mul, R.odd]
  have h2 := h1.exp h0
  have h3 := R.exp_err (-R.fl (γ * a)) (neg_nonpos.2 (h1.nonneg h0))
  rw [hneg, neg_mul]
  refine (abs_sub_le _ (Real.exp (-R.fl (γ * a))) _).trans ((add_le_add h3 h2).trans ?_)
  have h4 := one_le_pow_w (R := R) (m + 1)
  have h5 := R.one_add_le_w
  rw [pow_succ R.w (m + 1)]
  nlinarith [R.u_nonneg]

/-! ### products and powers with errors relative to an upper bound -/

theorem Rounding.mul_step {k l : Nat} {a b X Y S T : ℝ} (ha : |a - X| ≤ (R.w ^ k - 1) * S) (hX : |X| ≤ S)
    (hb : |b - Y| ≤ (R.w ^ l - 1) * T) (hY : |Y| ≤ T) : |a * b - X * Y| ≤ (R.w ^ (k + l) - 1) * (S * T) := by
  have hS : 0 ≤ S := (abs_nonneg X).trans hX
  have hT : 0 ≤ T := (abs_nonneg Y).trans hY
  have haS : |a| ≤ R.w ^ k * S := by
    have := abs_sub_abs_le_abs_sub a X
    linarith
  have e : a * b - X * Y = a * (b - Y) + (a - X) * Y := by ring
  have h1 : |a * b - X * Y| ≤ |a| * |b - Y| + |a - X| * |Y| := by
    rw [e]
    refine (abs_add_le _ _).trans ?_
    rw [abs_mul, abs_mul]
  have h2 : |a| * |b - Y| ≤ R.w ^ k * S * ((R.w ^ l - 1) * T) := mul_le_mul haS hb (abs_nonneg _) (mul_nonneg (pow_w_pos k).le hS)
  have h3 : |a - X| * |Y| ≤ (R.w ^ k - 1) * S * T :=
    mul_le_mul ha hY (abs_nonneg _) (mul_nonneg (sub_nonneg.2 (one_le_pow_w k)) hS)
  rw [pow_add]
  nlinarith

theorem Rounding.pow_step {k : Nat} {a X S : ℝ} (ha : |a - X| ≤ (R.w ^ k - 1) * S) (hX : |X| ≤ S) (p : Nat) :
    |a ^ p - X ^ p| ≤ (R.w ^ (p * k) - 1) * S ^ p := by
  induction p with
  | zero => simp
  | succ p ih =>
    rw [pow_succ, pow_succ, pow_succ S, Nat.succ_mul]
    refine mul_step ih ?_ ha hX
    rw [abs_pow]
    exact pow_le_pow_left₀ (abs_nonneg X) hX p

theorem sum_abs_mul_le (x y : Fin d → ℝ) : ∑ i, |x i * y i| ≤ Real.sqrt (∑ i, x i * x i) * Real.sqrt (∑ i, y i * y i) := by
  have h : (∑ i, |x i| * |y i|) ^ 2 ≤ (∑ i, |x i| ^ 2) * ∑ i, |y i| ^ 2 := Finset.sum_mul_sq_le_sq_mul_sq _ _ _
  simp only [sq_abs] at h
  simp only [abs_mul, ← sq]
  rw [← Real.sqrt_mul (sum_nonneg fun i _ => sq_nonneg _)]
  exact Real.le_sqrt_of_sq_le h

theorem SumTree.Complete.dotR_err {t : SumTree d} (ht : t.Complete) (x y : Fin d → ℝ) :
    |t.dotR R x y - ∑ i, x i * y i| ≤ (R.w ^ d - 1) * ∑ i, |x i * y i| := by
  have := SumTree.dotR_err (R := R) x y t
  rwa [ht.length, ht.total, ht.total] at this

/-- every kernel except the sigmoid: the error of a computed value is at most `(w^m - 1) √(k(x,x) k(y,y))` -/
theorem computes_err {k : NumKernel} {x y : Fin d → ℝ} (hx : k.ValidAt x) (hy : k.ValidAt y) {v : ℝ} (h : R.Computes k x y v) :
    ∃ c a b, k.on x y = .ok (.real c) ∧ k.on x x = .ok (.real a) ∧ k.on y y = .ok (.real b) ∧ 0 ≤ a ∧ 0 ≤ b ∧
      |v - c| ≤ (R.w ^ k.roundings d - 1) * (Real.sqrt a * Real.sqrt b) := by
  cases k with
  | linear =>
    obtain ⟨t, ht, rfl⟩ := h
    refine ⟨_, _, _, on_linear x y, on_linear x x, on_linear y y, sum_nonneg fun i _ => mul_self_nonneg _, sum_nonneg fun i _ => mul_self_nonneg _,
      (ht.dotR_err x y).trans ?_⟩
    exact mul_le_mul_of_nonneg_left (sum_abs_mul_le x y) (sub_nonneg.2 (one_le_pow_w _))
  | poly deg γ b =>
    obtain ⟨hdeg, hγ, hb⟩ : 0 ≤ deg ∧ 0 ≤ γ ∧ 0 ≤ b := hx
    lift deg to ℕ using hdeg
    obtain ⟨t, ht, h⟩ := h
    rw [zpow_natCast] at h
    have hxx : 0 ≤ ∑ i, x i * x i := sum_nonneg fun i _ => mul_self_nonneg _
    have hyy : 0 ≤ ∑ i, y i * y i := sum_nonneg fun i _ => mul_self_nonneg _
    refine ⟨_, _, _, on_poly deg γ b x y, on_poly deg γ b x x, on_poly deg γ b y y, by positivity, by positivity, ?_⟩
    have hT : 0 ≤ ∑ i, |x i * y i| := sum_nonneg fun i _ => abs_nonneg _
    have h1 : |γ * t.dotR R x y - γ * ∑ i, x i * y i| ≤ (R.w ^ d - 1) * (γ * ∑ i, |x i * y i|) := by
      rw [← mul_sub, abs_mul, abs_of_nonneg hγ]
      have := mul_le_mul_of_nonneg_left (ht.dotR_err (R := R) x y) hγ
      linarith
    have hS1 : |γ * ∑ i, x i * y i| ≤ γ * ∑ i, |x i * y i| := by
      rw [abs_mul, abs_of_nonneg hγ]
      exact mul_le_mul_of_nonneg_left (abs_sum_le_sum_abs _ _) hγ
    have h2 := SumTree.fl_step h1 hS1
    have h3 : |b + R.fl (γ * t.dotR R x y) - (b + γ * ∑ i, x i * y i)| ≤ (R.w ^ (d + 1) - 1) * (b + γ * ∑ i, |x i * y i|) := by
      rw [add_sub_add_left_eq_sub]
      refine h2.trans (mul_le_mul_of_nonneg_left ?_ (sub_nonneg.2 (one_le_pow_w _)))
      linarith
    have hS2 : |b + γ * ∑ i, x i * y i| ≤ b + γ * ∑ i, |x i * y i| := by
      refine (abs_add_le _ _).trans ?_
      rw [abs_of_nonneg hb]
      linarith
    have h4 := SumTree.fl_step h3 hS2
    have h5 := pow_step h4 hS2 deg
    have hS3 : |(b + γ * ∑ i, x i * y i) ^ deg| ≤ (b + γ * ∑ i, |x i * y i|) ^ deg := by
      rw [abs_pow]; exact pow_le_pow_left₀ (abs_nonneg _) hS2 deg
    have h6 := SumTree.near_step h h5 hS3
    refine h6.trans (mul_le_mul_of_nonneg_left ?_ (sub_nonneg.2 (one_le_pow_w _)))
    rw [← Real.sqrt_mul (by positivity), ← mul_pow]
    apply Real.le_sqrt_of_sq_le
    rw [← pow_mul, mul_comm deg 2, pow_mul]
    apply pow_le_pow_left₀ (by positivity)
    set A := ∑ i, x i * x i
    set B := ∑ i, y i * y i
    have hq : b + γ * ∑ i, |x i * y i| ≤ b + γ * (Real.sqrt A * Real.sqrt B) := by
      have := mul_le_mul_of_nonneg_left (sum_abs_mul_le x y) hγ
      linarith
    refine (pow_le_pow_left₀ (by positivity) hq 2).trans ?_
    have eA := Real.sq_sqrt hxx
    have eB := Real.sq_sqrt hyy
    have : (b + γ * A) * (b + γ * B) - (b + γ * (Real.sqrt A * Real.sqrt B)) ^ 2 = b * γ * (Real.sqrt A - Real.sqrt B) ^ 2 := by
      rw [← eA, ← eB, Real.sqrt_sq (Real.sqrt_nonneg A), Real.sqrt_sq (Real.sqrt_nonneg B)]
      ring
    have h7 : 0 ≤ b * γ * (Real.sqrt A - Real.sqrt B) ^ 2 := by positivity
    linarith
  | gaussian σ γ =>
    obtain ⟨t, q, ht, hq, rfl⟩ := h
    have hz : ∀ i, R.Rel 2 (R.fl (x i - y i) * R.fl (x i - y i)) ((x i - y i) ^ 2) := fun i => by
      rw [sq]; exact (rel_fl _).mul (rel_fl _)
    have h1 := SumTree.dotR_rel (R := R) (a := fun i => R.fl (x i - y i)) (b := fun i => R.fl (x i - y i)) (fun i => mul_self_nonneg _) t
    rw [ht.length, ht.total] at h1
    have h2 := h1.trans (Rel.finset_sum univ (fun i _ => hz i) fun i _ => sq_nonneg _)
    have hS : 0 ≤ ∑ i, (x i - y i) ^ 2 := sum_nonneg fun i _ => sq_nonneg _
    have h3 := (rel_fl (R := R) (Real.sqrt (t.dotR R (fun i => R.fl (x i - y i)) fun i => R.fl (x i - y i)))).pow 2
    rw [Real.sq_sqrt (h2.nonneg hS)] at h3
    have h4 := Rel.near hq (h3.trans h2)
    have h5 := exp_rel (h4.mono (show 2 * 1 + (d + 2) + 1 ≤ d + 5 by omega)) hS (show 0 ≤ γ from hx)
    refine ⟨_, 1, 1, on_gaussian σ γ x y, ?_, ?_, zero_le_one, zero_le_one, ?_⟩
    · rw [on_gaussian]; simp
    · rw [on_gaussian]; simp
    · rw [Real.sqrt_one, mul_one, mul_one]; exact h5
  | laplacian γ =>
    obtain ⟨t, ht, rfl⟩ := h
    have h1 := ht.sum_rel (R := R) (a := fun i => |R.fl (x i - y i)|) (b := fun i => |x i - y i|)
      (fun i => fl_abs _ (R.idem _)) (fun i => (rel_fl (R := R) (x i - y i)).abs) fun i => abs_nonneg _
    have h5 := exp_rel h1 (sum_nonneg fun i _ => abs_nonneg _) (show 0 ≤ γ from hx)
    refine ⟨_, 1, 1, on_laplacian γ x y, ?_, ?_, zero_le_one, zero_le_one, ?_⟩
    · rw [on_laplacian]; simp
    · rw [on_laplacian]; simp
    · rw [Real.sqrt_one, mul_one, mul_one]; exact h5
  | chi2 γ =>
    obtain ⟨hγ, hx⟩ : 0 ≤ γ ∧ ∀ i, 0 ≤ x i := hx
    obtain ⟨-, hy⟩ : 0 ≤ γ ∧ ∀ i, 0 ≤ y i := hy
    obtain ⟨t, q, ht, hq, rfl⟩ := h
    have h1 := ht.sum_rel (R := R) (m := 5) (a := fun i => if R.fl (x i + y i) = 0 then 0 else R.fl (q i / R.fl (x i + y i)))
      (b := fun i => (x i - y i) ^ 2 / (x i + y i)) (fun i => by
        split
        · exact R.fl_zero
        · exact R.idem _) (fun i => by
        split
        · rename_i h0
          have : x i + y i = 0 := by
            by_contra hne
            exact fl_ne_zero hne h0
          rw [this, div_zero]
          exact (Rel.refl 0).mono (Nat.zero_le _)
        · exact ((Rel.near (hq i) ((rel_fl (R := R) (x i - y i)).pow 2)).div (rel_fl (R := R) (x i + y i))).fl)
      fun i => div_nonneg (sq_nonneg _) (add_nonneg (hx i) (hy i))
    have h5 := exp_rel h1 (sum_nonneg fun i _ => div_nonneg (sq_nonneg _) (add_nonneg (hx i) (hy i))) hγ
    refine ⟨_, 1, 1, on_chi2 γ hx hy, ?_, ?_, zero_le_one, zero_le_one, ?_⟩
    · rw [on_chi2 γ hx hx]; simp
    · rw [on_chi2 γ hy hy]; simp
    · rw [Real.sqrt_one, mul_one, mul_one]; exact h5
  | sigmoid γ o => exact h.elim
  | hadamard α =>
    obtain ⟨a, b, t, ht, ha, hb, rfl⟩ := h
    have hxy : 0 < α ∨ (∀ k, x k ≠ 0) ∧ ∀ k, y k ≠ 0 := by
      rcases hx with h | h
      · exact .inl h
      · rcases hy with h' | h'
        · exact .inl h'
        · exact .inr ⟨h, h'⟩
    have hA : ∀ i, 0 ≤ |x i| ^ α := fun i => Real.rpow_nonneg (abs_nonneg _) _
    have hB : ∀ i, 0 ≤ |y i| ^ α := fun i => Real.rpow_nonneg (abs_nonneg _) _
    have hterm : ∀ i, 0 ≤ 1 / 2 * (|x i| ^ α * |y i| ^ α / (|x i| ^ α + |y i| ^ α)) := fun i =>
      mul_nonneg (by norm_num) (div_nonneg (mul_nonneg (hA i) (hB i)) (add_nonneg (hA i) (hB i)))
    have hden : ∀ i, R.Rel 3 (R.fl (2 * R.fl (a i + b i))) (2 * (|x i| ^ α + |y i| ^ α)) := fun i =>
      ((((ha i).rel.add (hb i).rel (hA i) (hB i)).fl).const_mul 2).fl
    have h1 := ht.sum_rel (R := R) (m := 7)
      (a := fun i => if 0 < R.fl (2 * R.fl (a i + b i)) then R.fl (R.fl (a i * b i) / R.fl (2 * R.fl (a i + b i))) else 0)
      (b := fun i => 1 / 2 * (|x i| ^ α * |y i| ^ α / (|x i| ^ α + |y i| ^ α))) (fun i => by
        split
        · exact R.idem _
        · exact R.fl_zero) (fun i => by
        split
        · have := ((((ha i).rel.mul (hb i).rel).fl).div (hden i)).fl
          rw [show |x i| ^ α * |y i| ^ α / (2 * (|x i| ^ α + |y i| ^ α)) = 1 / 2 * (|x i| ^ α * |y i| ^ α / (|x i| ^ α + |y i| ^ α)) by
            rw [mul_comm 2, ← div_div]; ring] at this
          exact this
        · rename_i h0
          have h2 : |x i| ^ α + |y i| ^ α = 0 := by
            rcases (add_nonneg (hA i) (hB i)).eq_or_lt with e | hlt
            · exact e.symm
            · refine absurd ?_ h0
              obtain ⟨c, hc, -, e⟩ := hden i
              rw [e]
              exact mul_pos (by linarith) ((inv_pos.2 (pow_w_pos 3)).trans_le hc)
          rw [h2, div_zero, mul_zero]
          exact (Rel.refl 0).mono (Nat.zero_le _)) hterm
    have hself : ∀ z : Fin d → ℝ, 0 ≤ ∑ k, 1 / 2 * (|z k| ^ α * |z k| ^ α / (|z k| ^ α + |z k| ^ α)) := fun z =>
      sum_nonneg fun i _ => by
        have := Real.rpow_nonneg (abs_nonneg (z i)) α
        positivity
    refine ⟨_, _, _, on_hadamard hxy, on_hadamard (hx.imp id fun h => ⟨h, h⟩), on_hadamard (hy.imp id fun h => ⟨h, h⟩), hself x, hself y,
      h1.err.trans ?_⟩
    refine mul_le_mul_of_nonneg_left ?_ (sub_nonneg.2 (one_le_pow_w _))
    rw [← Real.sqrt_mul (hself x)]
    apply Real.le_sqrt_of_sq_le
    rw [sq_abs]
    have hp := isPSD_finset_sum Finset.univ (A := fun k (i j : Fin 2) => 1 / 2 * (|(![x, y] i) k| ^ α * |(![x, y] j) k| ^ α / (|(![x, y] i) k| ^ α + |(![x, y] j) k| ^ α)))
      fun k _ => (isPSD_harmonic (fun i => |(![x, y] i) k| ^ α) fun i => Real.rpow_nonneg (abs_nonneg _) _).smul (by norm_num)
    exact hp.sq_le 0 1

end KMethods
