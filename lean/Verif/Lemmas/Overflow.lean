import Verif.Model.Overflow
import Verif.Spec.Overflow
import Verif.Lemmas.RoundKernels
import Verif.Lemmas.FloatEnv
/-! # Overflow in kernel values -/
namespace KMethods
open Rounding Finset

variable {Φ : FloatFormat} {d : Nat}

namespace FloatFormat

theorem clip_of_le {r : ℝ} (h : |r| ≤ Φ.max) : Φ.clip r = .fin r := if_pos h

theorem clip_fin {r v : ℝ} (h : Φ.clip r = .fin v) : v = r := by
  unfold clip at h
  split at h
  · exact (Dbl.fin.inj h).symm
  · cases h

theorem max_pos : 0 < Φ.max := by linarith [Φ.four_le]

theorem clip_of_lt {r : ℝ} (h : Φ.max < r) : Φ.clip r = .inf false := by
  have h0 := Φ.max_pos
  unfold clip
  rw [if_neg (by rw [abs_of_pos (h0.trans h)]; exact not_le.2 h), decide_eq_false (not_lt.2 (h0.trans h).le)]

theorem clip_of_lt_neg {r : ℝ} (h : r < -Φ.max) : Φ.clip r = .inf true := by
  have h0 := Φ.max_pos
  have h1 : r < 0 := by linarith
  unfold clip
  rw [if_neg (by rw [abs_of_neg h1]; linarith), decide_eq_true h1]

theorem rnd_fin {e : Dbl} {v : ℝ} (h : Φ.rnd e = .fin v) : ∃ x, e = .fin x ∧ v = Φ.R.fl x := by
  cases e with
  | fin x => exact ⟨x, rfl, clip_fin h⟩
  | inf s => cases h
  | nan => cases h

/-- nonnegative results: a number, or `inf` -/
theorem clip_nonneg {r : ℝ} (h : 0 ≤ r) : Φ.clip r = .fin r ∨ Φ.clip r = .inf false ∧ Φ.max ≤ r := by
  rcases le_or_gt r Φ.max with h1 | h1
  · exact .inl (clip_of_le (by rwa [abs_of_nonneg h]))
  · exact .inr ⟨clip_of_lt h1, h1.le⟩

end FloatFormat
open FloatFormat

theorem Dbl.addX_fin {a b : Dbl} {v : ℝ} (h : a.addX b = .fin v) : ∃ x y, a = .fin x ∧ b = .fin y ∧ v = x + y := by
  cases a <;> cases b <;> simp only [Dbl.addX] at h
  · exact ⟨_, _, rfl, rfl, (Dbl.fin.inj h).symm⟩
  all_goals first | (split at h <;> cases h) | cases h

theorem Dbl.mulX_fin {a b : Dbl} {v : ℝ} (h : a.mulX b = .fin v) : ∃ x y, a = .fin x ∧ b = .fin y ∧ v = x * y := by
  cases a <;> cases b <;> simp only [Dbl.mulX] at h
  · exact ⟨_, _, rfl, rfl, (Dbl.fin.inj h).symm⟩
  all_goals first | (split at h <;> cases h) | cases h

namespace FloatFormat

theorem dot_fin {a b : Fin d → ℝ} {t : SumTree d} {v : ℝ} (h : Φ.dot (fun i => .fin (a i)) (fun i => .fin (b i)) t = .fin v) :
    v = t.dotR Φ.R a b := by
  induction t generalizing v with
  | zero => exact (Dbl.fin.inj h).symm
  | leaf i => exact clip_fin h
  | node l r ihl ihr =>
    obtain ⟨e, h1, rfl⟩ := rnd_fin h
    obtain ⟨p, q, hp, hq, rfl⟩ := Dbl.addX_fin h1
    rw [SumTree.dotR, ← ihl hp, ← ihr hq]
  | fma i t ih =>
    obtain ⟨e, h1, rfl⟩ := rnd_fin h
    obtain ⟨p, q, hp, hq, rfl⟩ := Dbl.addX_fin h1
    rw [SumTree.dotR, ← ih hq, ← Dbl.fin.inj hp]

theorem rnd_le {e : Dbl} {v : ℝ} (h : Φ.rnd e = .fin v) : |v| ≤ Φ.max := by
  obtain ⟨x, rfl, -⟩ := rnd_fin h
  have h : Φ.clip _ = Dbl.fin v := h
  unfold clip at h
  split at h
  · cases h; assumption
  · cases h

/-- results of operations are at most `max` -/
theorem dot_le {a b : Fin d → Dbl} {t : SumTree d} {v : ℝ} (h : Φ.dot a b t = .fin v) : |v| ≤ Φ.max := by
  cases t with
  | zero =>
    cases h
    rw [abs_zero]
    exact Φ.max_pos.le
  | leaf i => exact rnd_le h
  | node l r => exact rnd_le h
  | fma i t => exact rnd_le h

theorem Lib.fin {v x : ℝ} (h : Φ.Lib (.fin v) x) : Φ.R.Near v x := by
  obtain ⟨r, h1, h2⟩ := h
  rwa [clip_fin h2.symm]

/-- linear and polynomial kernel: a finite result has been computed without overflow -/
theorem computes_linear {x y : Fin d → ℝ} {v : ℝ} (h : Φ.Computes .linear (fun i => .fin (x i)) (fun i => .fin (y i)) (.fin v)) :
    Φ.R.Computes .linear x y v := by
  obtain ⟨t, ht, h⟩ := h
  exact ⟨t, ht, dot_fin h.symm⟩

theorem computes_poly {deg : ℤ} (hdeg : 0 ≤ deg) {γ b : ℝ} {x y : Fin d → ℝ} {v : ℝ}
    (h : Φ.Computes (.poly deg γ b) (fun i => .fin (x i)) (fun i => .fin (y i)) (.fin v)) : Φ.R.Computes (.poly deg γ b) x y v := by
  obtain ⟨t, ht, h⟩ := h
  refine ⟨t, ht, ?_⟩
  generalize hs : Φ.rnd _ = s at h
  cases s with
  | fin a =>
    obtain ⟨e, h1, rfl⟩ := rnd_fin hs
    obtain ⟨p, q, hp, hq, rfl⟩ := Dbl.addX_fin h1
    obtain ⟨e, h2, rfl⟩ := rnd_fin hq
    obtain ⟨p', q', hp', hq', rfl⟩ := Dbl.mulX_fin h2
    cases hp
    cases hp'
    rw [dot_fin hq'] at h
    rw [PowInt, if_neg (by omega)] at h
    exact h.fin
  | inf s =>
    have h : Dbl.fin v = if deg = 0 then .fin 1 else if deg < 0 then .fin 0 else .inf (s && decide (deg % 2 = 1)) := h
    split at h
    · rename_i h0
      cases h
      rw [h0, zpow_zero]
      exact near_self 1
    · rw [if_neg (by omega)] at h
      cases h
  | nan =>
    have h : Dbl.fin v = if deg = 0 then .fin 1 else .nan := h
    split at h
    · rename_i h0
      cases h
      rw [h0, zpow_zero]
      exact near_self 1
    · cases h

/-! ### distances: a number computed without overflow, or `inf`, if the exact distance is huge -/

theorem rnd_nonneg {e : ℝ} {m : Nat} {D : ℝ} (h : Φ.R.Rel m (Φ.R.fl e) D) (hD : 0 ≤ D) :
    Φ.rnd (.fin e) = .fin (Φ.R.fl e) ∨ Φ.rnd (.fin e) = .inf false ∧ Φ.max ≤ Φ.R.w ^ m * D := by
  refine (clip_nonneg (h.nonneg hD)).imp_right fun ⟨h1, h2⟩ => ⟨h1, h2.trans ?_⟩
  have := h.le
  rw [abs_of_nonneg hD] at this
  exact (le_abs_self _).trans this

theorem le_trans_pow {m n : Nat} (h : m ≤ n) {C D E : ℝ} (h1 : C ≤ Φ.R.w ^ m * D) (hD : 0 ≤ D) (hE : D ≤ E) : C ≤ Φ.R.w ^ n * E :=
  h1.trans (mul_le_mul (pow_le_pow_right₀ Φ.R.one_le_w h) hE hD (pow_w_pos n).le)

/-- a sum of non-negative numbers, computed (`S`) in relation to exact (`D`) -/
def Huge (Φ : FloatFormat) (m : Nat) (v : Dbl) (r D : ℝ) : Prop := v = .fin r ∨ v = .inf false ∧ Φ.max ≤ Φ.R.w ^ m * D

theorem Huge.add {m n k : Nat} {v v' : Dbl} {r r' D D' : ℝ} (h : Φ.Huge m v r D) (h' : Φ.Huge n v' r' D') (hD : 0 ≤ D) (hD' : 0 ≤ D')
    (hm : m ≤ k) (hn : n ≤ k) (hr : Φ.R.Rel k (Φ.R.fl (r + r')) (D + D')) : Φ.Huge k (Φ.rnd (v.addX v')) (Φ.R.fl (r + r')) (D + D') := by
  rcases h with rfl | ⟨rfl, h⟩
  · rcases h' with rfl | ⟨rfl, h'⟩
    · exact rnd_nonneg hr (add_nonneg hD hD')
    · exact .inr ⟨rfl, le_trans_pow hn h' hD' (by linarith)⟩
  · refine .inr ⟨?_, le_trans_pow hm h hD (by linarith)⟩
    rcases h' with rfl | ⟨rfl, -⟩ <;> rfl

theorem Huge.mono {m n : Nat} {v : Dbl} {r D : ℝ} (h : Φ.Huge m v r D) (hmn : m ≤ n) (hD : 0 ≤ D) : Φ.Huge n v r D :=
  h.imp_right fun ⟨h1, h2⟩ => ⟨h1, le_trans_pow hmn h2 hD le_rfl⟩

/-- `x_i - y_i` -/
theorem sub_cases (x y : ℝ) : Φ.rnd ((Dbl.fin x).addX (Dbl.fin y).neg) = .fin (Φ.R.fl (x - y)) ∨
    ∃ s, Φ.rnd ((Dbl.fin x).addX (Dbl.fin y).neg) = .inf s ∧ Φ.max ≤ Φ.R.w * |x - y| := by
  have e : Φ.rnd ((Dbl.fin x).addX (Dbl.fin y).neg) = Φ.clip (Φ.R.fl (x - y)) := by rw [sub_eq_add_neg]; rfl
  rw [e, clip]
  split
  · exact .inl rfl
  · rename_i h
    refine .inr ⟨_, rfl, (not_le.1 h).le.trans ?_⟩
    have := (rel_fl (R := Φ.R) (x - y)).le
    rwa [pow_one] at this

theorem sq_huge {x y : ℝ} (h : Φ.max ≤ Φ.R.w * |x - y|) : Φ.max ≤ Φ.R.w ^ 2 * (x - y) ^ 2 := by
  have h1 : Φ.max * Φ.max ≤ (Φ.R.w * |x - y|) * (Φ.R.w * |x - y|) := mul_self_le_mul_self Φ.max_pos.le h
  have h2 : (Φ.R.w * |x - y|) * (Φ.R.w * |x - y|) = Φ.R.w ^ 2 * (x - y) ^ 2 := by rw [← sq_abs (x - y)]; ring
  have := Φ.four_le
  nlinarith

/-- the square of `x_i - y_i`, not rounded -/
theorem sq_cases (x y : ℝ) : Φ.Huge 2 ((Φ.rnd ((Dbl.fin x).addX (Dbl.fin y).neg)).mulX (Φ.rnd ((Dbl.fin x).addX (Dbl.fin y).neg)))
    (Φ.R.fl (x - y) * Φ.R.fl (x - y)) ((x - y) ^ 2) := by
  rcases sub_cases (Φ := Φ) x y with h | ⟨s, h, h'⟩
  · rw [h]; exact .inl rfl
  · rw [h]
    exact .inr ⟨by cases s <;> rfl, sq_huge h'⟩

theorem sq_rel (x y : ℝ) : Φ.R.Rel 2 (Φ.R.fl (x - y) * Φ.R.fl (x - y)) ((x - y) ^ 2) := by
  rw [sq]
  exact (rel_fl _).mul (rel_fl _)

theorem total_rel {m : Nat} {a b : Fin d → ℝ} (h : ∀ i, Φ.R.Rel m (a i) (b i)) (hb : ∀ i, 0 ≤ b i) (t : SumTree d) :
    Φ.R.Rel m (t.total a) (t.total b) := by
  induction t with
  | zero => exact (Rel.refl 0).mono (Nat.zero_le m)
  | leaf i => rw [SumTree.total_leaf, SumTree.total_leaf]; exact h i
  | node l r ihl ihr =>
    rw [SumTree.total_node, SumTree.total_node]
    exact ihl.add ihr (SumTree.total_nonneg hb l) (SumTree.total_nonneg hb r)
  | fma i t ih =>
    rw [SumTree.total_fma, SumTree.total_fma]
    exact (h i).add ih (hb i) (SumTree.total_nonneg hb t)

theorem dot_sq_rel (x y : Fin d → ℝ) (t : SumTree d) : Φ.R.Rel (t.leaves.length + 2)
    (t.dotR Φ.R (fun i => Φ.R.fl (x i - y i)) fun i => Φ.R.fl (x i - y i)) (t.total fun i => (x i - y i) ^ 2) :=
  (SumTree.dotR_rel (fun _ => mul_self_nonneg _) t).trans (total_rel (fun _ => sq_rel _ _) (fun _ => sq_nonneg _) t)

/-- the squared distance -/
theorem dot_sq (x y : Fin d → ℝ) (t : SumTree d) :
    Φ.Huge (t.leaves.length + 2)
      (Φ.dot (fun i => Φ.rnd ((Dbl.fin (x i)).addX (Dbl.fin (y i)).neg)) (fun i => Φ.rnd ((Dbl.fin (x i)).addX (Dbl.fin (y i)).neg)) t)
      (t.dotR Φ.R (fun i => Φ.R.fl (x i - y i)) fun i => Φ.R.fl (x i - y i)) (t.total fun i => (x i - y i) ^ 2) := by
  have nn : ∀ s : SumTree d, 0 ≤ s.total fun i => (x i - y i) ^ 2 := SumTree.total_nonneg fun i => sq_nonneg _
  induction t with
  | zero => exact .inl rfl
  | leaf i =>
    have h2 := dot_sq_rel (Φ := Φ) x y (.leaf i)
    rcases sq_cases (Φ := Φ) (x i) (y i) with h | ⟨h, h'⟩
    · rw [dot, h]
      exact rnd_nonneg h2 (nn _)
    · rw [dot, h]
      rw [← SumTree.total_leaf (fun i => (x i - y i) ^ 2) i] at h'
      exact .inr ⟨rfl, le_trans_pow (by omega) h' (nn (.leaf i)) le_rfl⟩
  | node l r ihl ihr =>
    have h2 := dot_sq_rel (Φ := Φ) x y (.node l r)
    rw [SumTree.total_node] at h2 ⊢
    refine Huge.add ihl ihr (nn l) (nn r) ?_ ?_ h2 <;> rw [SumTree.leaves, List.length_append] <;> omega
  | fma i t ih =>
    have h2 := dot_sq_rel (Φ := Φ) x y (.fma i t)
    rw [SumTree.total_fma] at h2 ⊢
    refine Huge.add (sq_cases (x i) (y i)) ih (sq_nonneg _) (nn t) ?_ ?_ h2 <;> rw [SumTree.leaves, List.length_cons] <;> omega

/-- `|x_i - y_i|` -/
theorem abs_cases (x y : ℝ) : Φ.Huge 1 (Φ.rnd ((Dbl.fin x).addX (Dbl.fin y).neg)).abs |Φ.R.fl (x - y)| |x - y| := by
  rcases sub_cases (Φ := Φ) x y with h | ⟨s, h, h'⟩
  · rw [h]; exact .inl rfl
  · rw [h]
    exact .inr ⟨rfl, by rwa [pow_one]⟩

theorem sum_abs_rel (x y : Fin d → ℝ) (t : SumTree d) : Φ.R.Rel (t.leaves.length + 1)
    (t.sum Φ.R fun i => |Φ.R.fl (x i - y i)|) (t.total fun i => |x i - y i|) :=
  (SumTree.sum_rel (fun _ => fl_abs _ (Φ.R.idem _)) (fun _ => abs_nonneg _) t).trans
    (total_rel (fun _ => (rel_fl _).abs) (fun _ => abs_nonneg _) t)

/-- a sum of numbers that are not negative -/
theorem sum_huge {m : Nat} {a : Fin d → Dbl} {r D : Fin d → ℝ} (h : ∀ i, Φ.Huge m (a i) (r i) (D i)) (hD : ∀ i, 0 ≤ D i)
    (hr : ∀ i, Φ.R.fl (r i) = r i) (hrel : ∀ i, Φ.R.Rel m (r i) (D i)) (t : SumTree d) :
    Φ.Huge (t.leaves.length + m) (Φ.sum a t) (t.sum Φ.R r) (t.total D) := by
  have nn : ∀ s : SumTree d, 0 ≤ s.total D := SumTree.total_nonneg hD
  have rel : ∀ s : SumTree d, Φ.R.Rel (s.leaves.length + m) (s.sum Φ.R r) (s.total D) := fun s =>
    (SumTree.sum_rel hr (fun i => (hrel i).nonneg (hD i)) s).trans (total_rel hrel hD s)
  induction t with
  | zero => exact .inl rfl
  | leaf i =>
    rw [SumTree.total_leaf]
    exact (h i).mono (by omega) (hD i)
  | node l r ihl ihr =>
    have h2 := rel (.node l r)
    rw [SumTree.total_node] at h2 ⊢
    refine Huge.add ihl ihr (nn l) (nn r) ?_ ?_ h2 <;> rw [SumTree.leaves, List.length_append] <;> omega
  | fma i t ih =>
    have h2 := rel (.fma i t)
    rw [SumTree.total_fma] at h2 ⊢
    refine Huge.add (h i) ih (hD i) (nn t) ?_ ?_ h2 <;> rw [SumTree.leaves, List.length_cons] <;> omega

/-! ### `exp(-γ * distance)` -/

theorem exp_fin {a : ℝ} (ha : a ≤ 0) : Φ.exp (.fin a) = .fin (Φ.R.exp a) := by
  apply clip_of_le
  have h1 := Φ.R.exp_err a ha
  have h2 := Real.exp_le_one_iff.2 ha
  have h3 := Real.exp_pos a
  have h4 := Φ.R.u_lt
  have h5 := Φ.four_le
  rw [abs_le] at h1 ⊢
  constructor <;> linarith

/-- the exponential of a finite distance -/
theorem exp_of_fin {m : Nat} {r D γ : ℝ} (hD : 0 ≤ D) (hrel : Φ.R.Rel m r D) (hγ : 0 ≤ γ) :
    Φ.exp (Φ.rnd ((Dbl.fin (-γ)).mulX (.fin r))) = .fin (Φ.R.exp (Φ.R.fl (-γ * r))) ∨
      Φ.exp (Φ.rnd ((Dbl.fin (-γ)).mulX (.fin r))) = .fin 0 ∧ Φ.max ≤ Φ.R.w ^ (m + 1) * (γ * D) := by
  have e : Φ.rnd ((Dbl.fin (-γ)).mulX (.fin r)) = Φ.clip (Φ.R.fl (-γ * r)) := rfl
  have h1 : Φ.R.Rel (m + 1) (Φ.R.fl (γ * r)) (γ * D) := (hrel.const_mul γ).fl
  have hnn := h1.nonneg (mul_nonneg hγ hD)
  have hneg : Φ.R.fl (-γ * r) = -Φ.R.fl (γ * r) := by rw [neg_mul, Φ.R.odd]
  by_cases hle : |Φ.R.fl (-γ * r)| ≤ Φ.max
  · rw [e, clip_of_le hle]
    exact .inl (exp_fin (by rw [hneg]; linarith))
  · right
    rw [hneg, abs_neg, abs_of_nonneg hnn, not_le] at hle
    rw [e, hneg, clip_of_lt_neg (by linarith)]
    refine ⟨rfl, hle.le.trans ?_⟩
    have := h1.le
    rwa [abs_of_nonneg hnn, abs_of_nonneg (mul_nonneg hγ hD)] at this

/-- the exponential of a distance: computed without overflow, or 0 if the exact distance is huge -/
theorem exp_huge {m : Nat} {v : Dbl} {r D γ : ℝ} (h : Φ.Huge m v r D) (hD : 0 ≤ D) (hrel : Φ.R.Rel m r D) (hγ : 0 < γ) :
    Φ.exp (Φ.rnd ((Dbl.fin (-γ)).mulX v)) = .fin (Φ.R.exp (Φ.R.fl (-γ * r))) ∨
      Φ.exp (Φ.rnd ((Dbl.fin (-γ)).mulX v)) = .fin 0 ∧ (Φ.max ≤ Φ.R.w ^ (m + 1) * D ∨ Φ.max ≤ Φ.R.w ^ (m + 1) * (γ * D)) := by
  rcases h with rfl | ⟨rfl, h⟩
  · exact (exp_of_fin hD hrel hγ.le).imp_right fun h => ⟨h.1, .inr h.2⟩
  · right
    have e : (Dbl.fin (-γ)).mulX (.inf false) = .inf true := by
      simp only [Dbl.mulX]
      rw [if_neg (by linarith), decide_eq_true (by linarith)]
      rfl
    rw [e]
    exact ⟨rfl, .inl (le_trans_pow (by omega) h hD le_rfl)⟩

/-- the exponential of a distance that is not huge -/
theorem exp_moderate {m : Nat} {v : Dbl} {r D γ : ℝ} (h : Φ.Huge m v r D) (hD : 0 ≤ D) (hrel : Φ.R.Rel m r D) (hγ : 0 ≤ γ)
    (h1 : Φ.R.w ^ (m + 1) * D < Φ.max) (h2 : Φ.R.w ^ (m + 1) * (γ * D) < Φ.max) :
    Φ.exp (Φ.rnd ((Dbl.fin (-γ)).mulX v)) = .fin (Φ.R.exp (Φ.R.fl (-γ * r))) := by
  rcases h with rfl | ⟨rfl, h⟩
  · rcases exp_of_fin hD hrel hγ with h | ⟨-, h⟩
    · exact h
    · exact absurd h2 (not_lt.2 h)
  · exact absurd h1 (not_lt.2 (le_trans_pow (by omega) h hD le_rfl))

theorem sqrt_fin {s : ℝ} (h0 : 0 ≤ s) (hs : s ≤ Φ.max) : Φ.rnd (Dbl.sqrtX (.fin s)) = .fin (Φ.R.fl (Real.sqrt s)) := by
  have e : Φ.rnd (Dbl.sqrtX (.fin s)) = Φ.clip (Φ.R.fl (Real.sqrt s)) := by
    simp only [Dbl.sqrtX]
    rw [if_neg (not_lt.2 h0)]
    rfl
  rw [e]
  apply clip_of_le
  have h1 := Φ.R.err (Real.sqrt s)
  have h2 : Real.sqrt s ≤ Real.sqrt Φ.max := Real.sqrt_le_sqrt hs
  have h3 : 2 * Real.sqrt Φ.max ≤ Φ.max := by
    have h4 := Real.mul_self_sqrt Φ.max_pos.le
    have h5 : 2 ≤ Real.sqrt Φ.max := Real.le_sqrt_of_sq_le (by linarith [Φ.four_le])
    nlinarith
  have h6 := Real.sqrt_nonneg s
  rw [abs_of_nonneg h6, abs_le] at h1
  have h7 : Φ.R.u * Real.sqrt s ≤ Real.sqrt s := mul_le_of_le_one_left h6 Φ.R.u_lt.le
  rw [abs_le]
  constructor <;> linarith

/-- the square of the norm -/
theorem norm_sq {x y : Fin d → ℝ} {t : SumTree d} (ht : t.Complete) {q : Dbl}
    (hq : Φ.PowInt 2 (Φ.rnd (.sqrtX (Φ.dot (fun i => Φ.rnd ((Dbl.fin (x i)).addX (Dbl.fin (y i)).neg))
      (fun i => Φ.rnd ((Dbl.fin (x i)).addX (Dbl.fin (y i)).neg)) t))) q) :
    ∃ r, Φ.R.Near r (Φ.R.fl (Real.sqrt (t.dotR Φ.R (fun i => Φ.R.fl (x i - y i)) fun i => Φ.R.fl (x i - y i))) ^ 2) ∧
      Φ.R.Rel (d + 5) r (∑ i, (x i - y i) ^ 2) ∧ Φ.Huge (d + 5) q r (∑ i, (x i - y i) ^ 2) := by
  have h1 := dot_sq (Φ := Φ) x y t
  have h2 := dot_sq_rel (Φ := Φ) x y t
  rw [ht.length, ht.total] at h1 h2
  have nn : 0 ≤ ∑ i, (x i - y i) ^ 2 := sum_nonneg fun i _ => sq_nonneg _
  have hs0 := h2.nonneg nn
  have rel : ∀ r, Φ.R.Near r (Φ.R.fl (Real.sqrt (t.dotR Φ.R (fun i => Φ.R.fl (x i - y i)) fun i => Φ.R.fl (x i - y i))) ^ 2) →
      Φ.R.Rel (d + 5) r (∑ i, (x i - y i) ^ 2) := fun r hr => by
    have h3 := (rel_fl (R := Φ.R) (Real.sqrt (t.dotR Φ.R (fun i => Φ.R.fl (x i - y i)) fun i => Φ.R.fl (x i - y i)))).pow 2
    rw [Real.sq_sqrt hs0] at h3
    exact (Rel.near hr (h3.trans h2)).mono (by omega)
  rcases h1 with h1 | ⟨h1, h1'⟩
  · have hmax := dot_le h1
    rw [abs_of_nonneg hs0] at hmax
    rw [h1, sqrt_fin hs0 hmax, PowInt, if_neg (by omega)] at hq
    obtain ⟨r, hr, rfl⟩ := hq
    rw [show (2 : ℤ) = ((2 : ℕ) : ℤ) from rfl, zpow_natCast] at hr
    refine ⟨r, hr, rel r hr, ?_⟩
    refine (clip_nonneg ((rel r hr).nonneg nn)).imp_right fun ⟨h1, h2⟩ => ⟨h1, h2.trans ?_⟩
    have := (rel r hr).le
    rw [abs_of_nonneg nn] at this
    exact (le_abs_self _).trans this
  · refine ⟨_, near_self _, rel _ (near_self _), .inr ⟨?_, le_trans_pow (by omega) h1' nn le_rfl⟩⟩
    rw [h1] at hq
    exact hq

/-- the Gaussian kernel: computed without overflow, or 0 because of overflow for an exact distance that is huge -/
theorem computes_gaussian {σ γ : ℝ} (hγ : 0 < γ) {x y : Fin d → ℝ} {v : Dbl}
    (h : Φ.Computes (.gaussian σ γ) (fun i => .fin (x i)) (fun i => .fin (y i)) v) :
    ∃ r, v = .fin r ∧ (Φ.R.Computes (.gaussian σ γ) x y r ∨ r = 0 ∧ (Φ.max ≤ Φ.R.w ^ (d + 6) * ∑ i, (x i - y i) ^ 2 ∨
      Φ.max ≤ Φ.R.w ^ (d + 6) * (γ * ∑ i, (x i - y i) ^ 2))) := by
  obtain ⟨t, q, ht, hq, rfl⟩ := h
  obtain ⟨r, hr, rel, hq'⟩ := norm_sq ht hq
  rcases exp_huge hq' (sum_nonneg fun i _ => sq_nonneg _) rel hγ with e | ⟨e, h⟩
  · exact ⟨_, e, .inl ⟨t, r, ht, hr, rfl⟩⟩
  · exact ⟨_, e, .inr ⟨rfl, h⟩⟩

/-- the Laplacian kernel -/
theorem computes_laplacian {γ : ℝ} (hγ : 0 < γ) {x y : Fin d → ℝ} {v : Dbl}
    (h : Φ.Computes (.laplacian γ) (fun i => .fin (x i)) (fun i => .fin (y i)) v) :
    ∃ r, v = .fin r ∧ (Φ.R.Computes (.laplacian γ) x y r ∨ r = 0 ∧ (Φ.max ≤ Φ.R.w ^ (d + 2) * ∑ i, |x i - y i| ∨
      Φ.max ≤ Φ.R.w ^ (d + 2) * (γ * ∑ i, |x i - y i|))) := by
  obtain ⟨t, ht, rfl⟩ := h
  have h1 := sum_huge (fun i => abs_cases (Φ := Φ) (x i) (y i)) (fun _ => abs_nonneg _) (fun _ => fl_abs _ (Φ.R.idem _)) (fun i => (rel_fl _).abs) t
  have h2 := sum_abs_rel (Φ := Φ) x y t
  rw [ht.length, ht.total] at h1 h2
  rcases exp_huge h1 (sum_nonneg fun i _ => abs_nonneg _) h2 hγ with e | ⟨e, h⟩
  · exact ⟨_, e, .inl ⟨t, ht, rfl⟩⟩
  · exact ⟨_, e, .inr ⟨rfl, h⟩⟩

/-! ### data without overflow -/

theorem abs_dotR_le (a b : Fin d → ℝ) (t : SumTree d) :
    |t.dotR Φ.R a b| ≤ Φ.R.w ^ t.leaves.length * t.total fun i => |a i * b i| := by
  have h1 := SumTree.dotR_err (R := Φ.R) a b t
  have h2 := SumTree.abs_total_le (fun i => a i * b i) t
  have h3 := abs_sub_abs_le_abs_sub (t.dotR Φ.R a b) (t.total fun i => a i * b i)
  linarith

theorem dot_moderate {a b : Fin d → ℝ} {t : SumTree d} (h : Φ.R.w ^ t.leaves.length * (t.total fun i => |a i * b i|) ≤ Φ.max) :
    Φ.dot (fun i => .fin (a i)) (fun i => .fin (b i)) t = .fin (t.dotR Φ.R a b) := by
  have nn : ∀ s : SumTree d, 0 ≤ s.total fun i => |a i * b i| := SumTree.total_nonneg fun i => abs_nonneg _
  have hle := (abs_dotR_le (Φ := Φ) a b t).trans h
  induction t with
  | zero => rfl
  | leaf i => exact clip_of_le hle
  | node l r ihl ihr =>
    rw [SumTree.total_node, SumTree.leaves, List.length_append] at h
    have h1 : Φ.R.w ^ l.leaves.length * (l.total fun i => |a i * b i|) ≤ Φ.max :=
      (le_trans_pow (by omega) le_rfl (nn l) (le_add_of_nonneg_right (nn r))).trans h
    have h2 : Φ.R.w ^ r.leaves.length * (r.total fun i => |a i * b i|) ≤ Φ.max :=
      (le_trans_pow (by omega) le_rfl (nn r) (le_add_of_nonneg_left (nn l))).trans h
    rw [dot, ihl h1 ((abs_dotR_le a b l).trans h1), ihr h2 ((abs_dotR_le a b r).trans h2)]
    exact clip_of_le hle
  | fma i t ih =>
    rw [SumTree.total_fma, SumTree.leaves, List.length_cons] at h
    have h2 : Φ.R.w ^ t.leaves.length * (t.total fun i => |a i * b i|) ≤ Φ.max :=
      (le_trans_pow (by omega) le_rfl (nn t) (le_add_of_nonneg_left (abs_nonneg _))).trans h
    rw [dot, ih h2 ((abs_dotR_le a b t).trans h2)]
    exact clip_of_le hle

theorem abs_fl_le {x T : ℝ} {m : Nat} (h : |x| ≤ Φ.R.w ^ m * T) : |Φ.R.fl x| ≤ Φ.R.w ^ (m + 1) * T := by
  have h1 := (rel_fl (R := Φ.R) x).le
  rw [pow_one] at h1
  rw [pow_succ, mul_comm (Φ.R.w ^ m), mul_assoc]
  exact h1.trans (mul_le_mul_of_nonneg_left h Φ.R.w_pos.le)

/-- a value related to an exact one that is not too large -/
theorem clip_rel {m n : Nat} (h : m ≤ n) {r D M : ℝ} (hr : Φ.R.Rel m r D) (hD : |D| ≤ M) (hM : Φ.R.w ^ n * M < Φ.max) : Φ.clip r = .fin r :=
  clip_of_le ((hr.le.trans (le_trans_pow h le_rfl (abs_nonneg D) hD)).trans hM.le)

theorem moderate_linear {M : ℝ} {x y : Fin d → ℝ} (hM : ∑ i, |x i * y i| ≤ M) (hmax : Φ.R.w ^ d * M < Φ.max) {v : Dbl}
    (h : Φ.Computes .linear (fun i => .fin (x i)) (fun i => .fin (y i)) v) : ∃ r, v = .fin r ∧ Φ.R.Computes .linear x y r := by
  obtain ⟨t, ht, rfl⟩ := h
  refine ⟨_, dot_moderate ?_, t, ht, rfl⟩
  rw [ht.length, ht.total]
  exact (mul_le_mul_of_nonneg_left hM (pow_w_pos d).le).trans hmax.le

theorem moderate_poly {M : ℝ} {deg : ℕ} {γ b : ℝ} {x y : Fin d → ℝ} (hM : (NumKernel.poly deg γ b).Moderate M x y)
    (hmax : Φ.R.w ^ (deg * (d + 2) + 1) * M < Φ.max) {v : Dbl}
    (h : Φ.Computes (.poly deg γ b) (fun i => .fin (x i)) (fun i => .fin (y i)) v) : ∃ r, v = .fin r := by
  obtain ⟨t, ht, h⟩ := h
  obtain ⟨h1, h2, h3⟩ : ∑ i, |x i * y i| ≤ M ∧ |b| + |γ| * ∑ i, |x i * y i| ≤ M ∧ (|b| + |γ| * ∑ i, |x i * y i|) ^ deg ≤ M := hM
  have nn : 0 ≤ ∑ i, |x i * y i| := sum_nonneg fun i _ => abs_nonneg _
  have pn : ∀ {a : ℝ} {v : Dbl}, Φ.PowInt deg (.fin a) v → Φ.Lib v (a ^ deg) := fun {a v} h => by
    rw [PowInt, if_neg (by omega)] at h
    rwa [zpow_natCast] at h
  rcases Nat.eq_zero_or_pos deg with rfl | hdeg
  · generalize Φ.rnd _ = s at h
    cases s with
    | fin a =>
      obtain ⟨r, hr, rfl⟩ := pn h
      refine ⟨r, clip_of_le ?_⟩
      unfold Near at hr
      rw [pow_zero, abs_one, abs_le] at hr
      have := Φ.R.u_lt
      have := Φ.four_le
      rw [abs_le]
      constructor <;> linarith
    | inf s => exact ⟨1, h⟩
    | nan => exact ⟨1, h⟩
  · have hle : d + 2 ≤ deg * (d + 2) + 1 := by nlinarith
    have hM0 : 0 ≤ M := nn.trans h1
    have hm : ∀ {n : Nat}, n ≤ d + 2 → Φ.R.w ^ n * M ≤ Φ.max := fun hn =>
      (le_trans_pow (hn.trans hle) le_rfl hM0 le_rfl).trans hmax.le
    have e1 : Φ.dot (fun i => .fin (x i)) (fun i => .fin (y i)) t = .fin (t.dotR Φ.R x y) := by
      apply dot_moderate
      rw [ht.length, ht.total]
      exact (mul_le_mul_of_nonneg_left h1 (pow_w_pos d).le).trans (hm (by omega))
    have b1 := abs_dotR_le (Φ := Φ) x y t
    rw [ht.length, ht.total] at b1
    have b2 : |γ * t.dotR Φ.R x y| ≤ Φ.R.w ^ d * (|γ| * ∑ i, |x i * y i|) := by
      rw [abs_mul]
      have := mul_le_mul_of_nonneg_left b1 (abs_nonneg γ)
      linarith
    have b3 := abs_fl_le b2
    have e2 : Φ.rnd ((Dbl.fin γ).mulX (.fin (t.dotR Φ.R x y))) = .fin (Φ.R.fl (γ * t.dotR Φ.R x y)) := by
      apply clip_of_le
      refine b3.trans ((mul_le_mul_of_nonneg_left ?_ (pow_w_pos _).le).trans (hm (show d + 1 ≤ d + 2 by omega)))
      linarith [abs_nonneg b]
    have b4 : |b + Φ.R.fl (γ * t.dotR Φ.R x y)| ≤ Φ.R.w ^ (d + 1) * (|b| + |γ| * ∑ i, |x i * y i|) := by
      refine (abs_add_le _ _).trans ?_
      rw [mul_add]
      exact add_le_add (le_mul_of_one_le_left (abs_nonneg b) (one_le_pow_w _)) b3
    have b5 := abs_fl_le b4
    have e3 : Φ.rnd ((Dbl.fin b).addX (.fin (Φ.R.fl (γ * t.dotR Φ.R x y)))) = .fin (Φ.R.fl (b + Φ.R.fl (γ * t.dotR Φ.R x y))) :=
      clip_of_le (b5.trans ((mul_le_mul_of_nonneg_left h2 (pow_w_pos _).le).trans (hm le_rfl)))
    rw [e1, e2, e3] at h
    obtain ⟨r, hr, rfl⟩ := pn h
    refine ⟨r, clip_of_le ?_⟩
    have b6 := (Rel.near hr (Rel.refl (R := Φ.R) _)).le
    rw [abs_pow, zero_add, pow_one] at b6
    have b7 := pow_le_pow_left₀ (abs_nonneg _) b5 deg
    have e4 : Φ.R.w * (Φ.R.w ^ (d + 1 + 1) * (|b| + |γ| * ∑ i, |x i * y i|)) ^ deg =
        Φ.R.w ^ (deg * (d + 2) + 1) * (|b| + |γ| * ∑ i, |x i * y i|) ^ deg := by
      rw [mul_pow, ← pow_mul, mul_comm (d + 1 + 1) deg]
      ring
    exact (b6.trans (mul_le_mul_of_nonneg_left b7 Φ.R.w_pos.le)).trans
      ((e4.le.trans (mul_le_mul_of_nonneg_left h3 (pow_w_pos _).le)).trans hmax.le)

theorem Rel.zero_of {m : Nat} {a : ℝ} (h : Φ.R.Rel m a 0) : a = 0 := by
  obtain ⟨c, -, -, rfl⟩ := h
  exact zero_mul c

theorem sq_div_le {a b : ℝ} (ha : 0 ≤ a) (hb : 0 ≤ b) : (a - b) ^ 2 / (a + b) ≤ a + b := by
  rcases (add_nonneg ha hb).eq_or_lt with h | h
  · rw [← h, div_zero]
  · rw [div_le_iff₀ h]
    nlinarith [mul_nonneg ha hb]

theorem moderate_chi2 {M γ : ℝ} (hγ : 0 ≤ γ) {x y : Fin d → ℝ} (hx : ∀ i, 0 ≤ x i) (hy : ∀ i, 0 ≤ y i)
    (hM : (NumKernel.chi2 γ).Moderate M x y) (hmax : Φ.R.w ^ (d + 7) * M < Φ.max) {v : Dbl}
    (h : Φ.Computes (.chi2 γ) (fun i => .fin (x i)) (fun i => .fin (y i)) v) : ∃ r, v = .fin r ∧ Φ.R.Computes (.chi2 γ) x y r := by
  obtain ⟨-, t, q, ht, hq, rfl⟩ := h
  obtain ⟨h1, h2, h3⟩ : (∀ i, (x i - y i) ^ 2 ≤ M) ∧ ∑ i, (x i + y i) ≤ M ∧ γ * ∑ i, (x i + y i) ≤ M := hM
  have hxy : ∀ i, 0 ≤ x i + y i := fun i => add_nonneg (hx i) (hy i)
  have hle : ∀ i, x i + y i ≤ M := fun i => (single_le_sum (f := fun i => x i + y i) (fun j _ => hxy j) (mem_univ i)).trans h2
  have hle' : ∀ i, |x i - y i| ≤ M := fun i => by
    rw [abs_le]
    constructor <;> linarith [hle i, hx i, hy i]
  -- the terms
  have hz : ∀ i, Φ.rnd ((Dbl.fin (x i)).addX (Dbl.fin (y i)).neg) = .fin (Φ.R.fl (x i - y i)) := fun i => by
    rw [sub_eq_add_neg]
    refine clip_rel (show 1 ≤ d + 7 by omega) (rel_fl _) ?_ hmax
    rw [← sub_eq_add_neg]
    exact hle' i
  have hq' : ∀ i, ∃ r, Φ.R.Near r (Φ.R.fl (x i - y i) ^ 2) ∧ q i = .fin r := fun i => by
    have : Φ.PowInt 2 (Φ.rnd ((Dbl.fin (x i)).addX (Dbl.fin (y i)).neg)) (q i) := hq i
    rw [hz, PowInt, if_neg (by omega)] at this
    obtain ⟨r, hr, e⟩ := this
    rw [show (2 : ℤ) = ((2 : ℕ) : ℤ) from rfl, zpow_natCast] at hr
    refine ⟨r, hr, e.trans (clip_rel (show 3 ≤ d + 7 by omega) (Rel.near hr ((rel_fl _).pow 2)) ?_ hmax)⟩
    rw [abs_of_nonneg (sq_nonneg _)]
    exact h1 i
  choose p hp hqp using hq'
  have prel : ∀ i, Φ.R.Rel 3 (p i) ((x i - y i) ^ 2) := fun i => Rel.near (hp i) ((rel_fl _).pow 2)
  have hs : ∀ i, Φ.rnd ((Dbl.fin (x i)).addX (.fin (y i))) = .fin (Φ.R.fl (x i + y i)) := fun i =>
    clip_rel (show 1 ≤ d + 7 by omega) (rel_fl _) (by rw [abs_of_nonneg (hxy i)]; exact hle i) hmax
  have hD : ∀ i, 0 ≤ (x i - y i) ^ 2 / (x i + y i) := fun i => div_nonneg (sq_nonneg _) (hxy i)
  have hrel : ∀ i, Φ.R.Rel 5 (if Φ.R.fl (x i + y i) = 0 then 0 else Φ.R.fl (p i / Φ.R.fl (x i + y i))) ((x i - y i) ^ 2 / (x i + y i)) := fun i => by
    split
    · rename_i h
      have h0 : x i + y i = 0 := by
        have h4 := (rel_fl (R := Φ.R) (x i + y i)).symm
        rw [h] at h4
        exact Rel.zero_of h4
      rw [h0, div_zero]
      exact (Rel.refl 0).mono (by omega)
    · exact ((prel i).div (rel_fl (x i + y i))).fl
  have hterm : ∀ i, Φ.Huge 5 (Dbl.nanToZero (Φ.rnd ((q i).divX (Φ.rnd ((Dbl.fin (x i)).addX (.fin (y i)))))))
      (if Φ.R.fl (x i + y i) = 0 then 0 else Φ.R.fl (p i / Φ.R.fl (x i + y i))) ((x i - y i) ^ 2 / (x i + y i)) := fun i => by
    rw [hs, hqp]
    by_cases h0 : Φ.R.fl (x i + y i) = 0
    · left
      have h4 := (rel_fl (R := Φ.R) (x i + y i)).symm
      rw [h0] at h4
      have h5 := Rel.zero_of h4
      have h6 : x i - y i = 0 := by linarith [hx i, hy i]
      have h7 := prel i
      rw [h6, sq, mul_zero] at h7
      simp only [Dbl.divX]
      rw [if_pos h0, if_pos h0, if_pos (Rel.zero_of h7)]
      rfl
    · left
      have h8 := hrel i
      simp only [Dbl.divX]
      rw [if_neg h0] at h8
      rw [if_neg h0, if_neg h0]
      have : Φ.rnd (.fin (p i / Φ.R.fl (x i + y i))) = .fin (Φ.R.fl (p i / Φ.R.fl (x i + y i))) :=
        clip_rel (show 5 ≤ d + 7 by omega) h8 (by rw [abs_of_nonneg (hD i)]; exact (sq_div_le (hx i) (hy i)).trans (hle i)) hmax
      rw [this]
      rfl
  have hfix : ∀ i, Φ.R.fl (if Φ.R.fl (x i + y i) = 0 then 0 else Φ.R.fl (p i / Φ.R.fl (x i + y i))) =
      if Φ.R.fl (x i + y i) = 0 then 0 else Φ.R.fl (p i / Φ.R.fl (x i + y i)) := fun i => by
    split
    · exact Φ.R.fl_zero
    · exact Φ.R.idem _
  have h4 := sum_huge hterm hD hfix hrel t
  have h5 := ht.sum_rel hfix hrel hD
  rw [ht.length, ht.total] at h4
  have h6 : ∑ i, (x i - y i) ^ 2 / (x i + y i) ≤ ∑ i, (x i + y i) := sum_le_sum fun i _ => sq_div_le (hx i) (hy i)
  have h0 : 0 ≤ ∑ i, (x i - y i) ^ 2 / (x i + y i) := sum_nonneg fun i _ => hD i
  refine ⟨_, exp_moderate h4 h0 h5 hγ ?_ ?_, t, p, ht, hp, ?_⟩
  · exact (le_trans_pow (by omega) le_rfl h0 (h6.trans h2)).trans_lt hmax
  · exact (le_trans_pow (by omega) le_rfl (mul_nonneg hγ h0) ((mul_le_mul_of_nonneg_left h6 hγ).trans h3)).trans_lt hmax
  · rfl

theorem harmonic_le {a b : ℝ} (ha : 0 ≤ a) (hb : 0 ≤ b) : a * b / (2 * (a + b)) ≤ a := by
  rcases (add_nonneg ha hb).eq_or_lt with h | h
  · rw [← h, mul_zero, div_zero]; exact ha
  · rw [div_le_iff₀ (by linarith)]
    nlinarith [mul_nonneg ha hb, mul_nonneg ha ha]

theorem moderate_hadamard {M α : ℝ} {x y : Fin d → ℝ} (hx : (NumKernel.hadamard α).ValidAt x) (hy : (NumKernel.hadamard α).ValidAt y)
    (hM : (NumKernel.hadamard α).Moderate M x y) (hmax : Φ.R.w ^ (d + 7) * M < Φ.max) {v : Dbl}
    (h : Φ.Computes (.hadamard α) (fun i => .fin (x i)) (fun i => .fin (y i)) v) :
    ∃ r, v = .fin r ∧ Φ.R.Computes (.hadamard α) x y r := by
  obtain ⟨a, b, t, ht, ha, hb, rfl⟩ := h
  obtain ⟨h1, h2⟩ : (∀ i, 2 * (|x i| ^ α + |y i| ^ α) ≤ M ∧ |x i| ^ α * |y i| ^ α ≤ M) ∧ ∑ i, |x i| ^ α ≤ M := hM
  have nx : ∀ i, 0 ≤ |x i| ^ α := fun i => Real.rpow_nonneg (abs_nonneg _) _
  have ny : ∀ i, 0 ≤ |y i| ^ α := fun i => Real.rpow_nonneg (abs_nonneg _) _
  have pw : ∀ {x : Fin d → ℝ} {a : Fin d → Dbl} (_ : (NumKernel.hadamard α).ValidAt x) (_ : ∀ i, Φ.PowAbs α (Dbl.fin (x i)).abs (a i))
      (_ : ∀ i, |x i| ^ α ≤ M), ∀ i, ∃ r, Φ.R.Near r (|x i| ^ α) ∧ a i = .fin r := fun {x a} hx ha hm i => by
    have := ha i
    have e : ¬ (α < 0 ∧ |x i| = 0) := fun ⟨h, h'⟩ => by
      rcases hx with hx | hx
      · linarith
      · exact hx i (abs_eq_zero.1 h')
    rw [Dbl.abs, PowAbs, if_neg e] at this
    obtain ⟨r, hr, e⟩ := this
    refine ⟨r, hr, e.trans (clip_rel (show 1 ≤ d + 7 by omega) hr.rel ?_ hmax)⟩
    rw [abs_of_nonneg (Real.rpow_nonneg (abs_nonneg _) _)]
    exact hm i
  have hxM : ∀ i, |x i| ^ α ≤ M := fun i => by linarith [(h1 i).1, nx i, ny i]
  have hyM : ∀ i, |y i| ^ α ≤ M := fun i => by linarith [(h1 i).1, nx i, ny i]
  choose p hp hpa using pw hx ha hxM
  choose q hq hqb using pw hy hb hyM
  obtain rfl : a = fun i => .fin (p i) := funext hpa
  obtain rfl : b = fun i => .fin (q i) := funext hqb
  have hs : ∀ i, Φ.R.Rel 2 (Φ.R.fl (p i + q i)) (|x i| ^ α + |y i| ^ α) := fun i => ((hp i).rel.add (hq i).rel (nx i) (ny i)).fl
  have hden : ∀ i, Φ.R.Rel 3 (Φ.R.fl (2 * Φ.R.fl (p i + q i))) (2 * (|x i| ^ α + |y i| ^ α)) := fun i => ((hs i).const_mul 2).fl
  have hnum : ∀ i, Φ.R.Rel 3 (Φ.R.fl (p i * q i)) (|x i| ^ α * |y i| ^ α) := fun i => ((hp i).rel.mul (hq i).rel).fl
  have nd : ∀ i, 0 ≤ 2 * (|x i| ^ α + |y i| ^ α) := fun i => by linarith [nx i, ny i]
  have hD : ∀ i, 0 ≤ |x i| ^ α * |y i| ^ α / (2 * (|x i| ^ α + |y i| ^ α)) := fun i => div_nonneg (mul_nonneg (nx i) (ny i)) (nd i)
  have e1 : ∀ i, Φ.rnd ((Dbl.fin (p i)).addX (.fin (q i))) = .fin (Φ.R.fl (p i + q i)) := fun i =>
    clip_rel (show 2 ≤ d + 7 by omega) (hs i) (by rw [abs_of_nonneg (by linarith [nx i, ny i])]; linarith [(h1 i).1, nx i, ny i]) hmax
  have e2 : ∀ i, Φ.rnd ((Dbl.fin 2).mulX (.fin (Φ.R.fl (p i + q i)))) = .fin (Φ.R.fl (2 * Φ.R.fl (p i + q i))) := fun i =>
    clip_rel (show 3 ≤ d + 7 by omega) (hden i) (by rw [abs_of_nonneg (nd i)]; exact (h1 i).1) hmax
  have e3 : ∀ i, Φ.rnd ((Dbl.fin (p i)).mulX (.fin (q i))) = .fin (Φ.R.fl (p i * q i)) := fun i =>
    clip_rel (show 3 ≤ d + 7 by omega) (hnum i) (by rw [abs_of_nonneg (mul_nonneg (nx i) (ny i))]; exact (h1 i).2) hmax
  have hrel : ∀ i, Φ.R.Rel 7 (if 0 < Φ.R.fl (2 * Φ.R.fl (p i + q i)) then Φ.R.fl (Φ.R.fl (p i * q i) / Φ.R.fl (2 * Φ.R.fl (p i + q i))) else 0)
      (|x i| ^ α * |y i| ^ α / (2 * (|x i| ^ α + |y i| ^ α))) := fun i => by
    split
    · exact ((hnum i).div (hden i)).fl
    · rename_i h
      have h3 := (hden i).nonneg (nd i)
      have h4 : Φ.R.fl (2 * Φ.R.fl (p i + q i)) = 0 := le_antisymm (not_lt.1 h) h3
      have h5 := (hden i).symm
      rw [h4] at h5
      rw [Rel.zero_of h5, div_zero]
      exact (Rel.refl 0).mono (by omega)
  classical
  have hterm : ∀ i, Φ.Huge 7 (if (Φ.rnd ((Dbl.fin 2).mulX (Φ.rnd ((Dbl.fin (p i)).addX (.fin (q i)))))).Pos then
        Φ.rnd ((Φ.rnd ((Dbl.fin (p i)).mulX (.fin (q i)))).divX (Φ.rnd ((Dbl.fin 2).mulX (Φ.rnd ((Dbl.fin (p i)).addX (.fin (q i))))))) else .fin 0)
      (if 0 < Φ.R.fl (2 * Φ.R.fl (p i + q i)) then Φ.R.fl (Φ.R.fl (p i * q i) / Φ.R.fl (2 * Φ.R.fl (p i + q i))) else 0)
      (|x i| ^ α * |y i| ^ α / (2 * (|x i| ^ α + |y i| ^ α))) := fun i => by
    rw [e1, e2, e3]
    left
    have h8 := hrel i
    by_cases h : 0 < Φ.R.fl (2 * Φ.R.fl (p i + q i))
    · rw [if_pos h] at h8
      rw [if_pos h, if_pos (show (Dbl.fin _).Pos from h)]
      simp only [Dbl.divX]
      rw [if_neg h.ne']
      exact clip_rel (show 7 ≤ d + 7 by omega) h8 (by rw [abs_of_nonneg (hD i)]; exact (harmonic_le (nx i) (ny i)).trans (hxM i)) hmax
    · rw [if_neg h, if_neg (show ¬ (Dbl.fin _).Pos from h)]
  have hfix : ∀ i, Φ.R.fl (if 0 < Φ.R.fl (2 * Φ.R.fl (p i + q i)) then Φ.R.fl (Φ.R.fl (p i * q i) / Φ.R.fl (2 * Φ.R.fl (p i + q i))) else 0) =
      if 0 < Φ.R.fl (2 * Φ.R.fl (p i + q i)) then Φ.R.fl (Φ.R.fl (p i * q i) / Φ.R.fl (2 * Φ.R.fl (p i + q i))) else 0 := fun i => by
    split
    · exact Φ.R.idem _
    · exact Φ.R.fl_zero
  have h4 := sum_huge hterm hD hfix hrel t
  rw [ht.length, ht.total] at h4
  have h6 : ∑ i, |x i| ^ α * |y i| ^ α / (2 * (|x i| ^ α + |y i| ^ α)) ≤ ∑ i, |x i| ^ α := sum_le_sum fun i _ => harmonic_le (nx i) (ny i)
  rcases h4 with h4 | ⟨-, h4⟩
  · refine ⟨_, ?_, p, q, t, ht, hp, hq, rfl⟩
    convert h4
  · exact absurd hmax (not_lt.2 (le_trans_pow le_rfl h4 (sum_nonneg fun i _ => hD i) (h6.trans h2)))

/-- Data that are not too large: no overflow, in any order of evaluation. -/
theorem computes_moderate {k : NumKernel} {M : ℝ} {x y : Fin d → ℝ} (hx : k.ValidAt x) (hy : k.ValidAt y) (hM : k.Moderate M x y)
    (hmax : Φ.R.w ^ k.roundings d * M < Φ.max) {v : Dbl} (h : Φ.Computes k (fun i => .fin (x i)) (fun i => .fin (y i)) v) :
    ∃ r, v = .fin r ∧ Φ.R.Computes k x y r := by
  cases k with
  | linear => exact moderate_linear hM hmax h
  | poly deg γ b =>
    obtain ⟨hdeg, -, -⟩ : 0 ≤ deg ∧ 0 ≤ γ ∧ 0 ≤ b := hx
    lift deg to ℕ using hdeg
    obtain ⟨r, rfl⟩ := moderate_poly hM hmax h
    exact ⟨r, rfl, computes_poly (Int.natCast_nonneg deg) h⟩
  | gaussian σ γ =>
    have hγ : 0 ≤ γ := hx
    obtain ⟨h1, h2⟩ : ∑ i, (x i - y i) ^ 2 ≤ M ∧ γ * ∑ i, (x i - y i) ^ 2 ≤ M := hM
    have hmax : Φ.R.w ^ (d + 7) * M < Φ.max := hmax
    have nn : 0 ≤ ∑ i, (x i - y i) ^ 2 := sum_nonneg fun i _ => sq_nonneg _
    obtain ⟨t, q, ht, hq, rfl⟩ := h
    obtain ⟨r, hr, rel, hq'⟩ := norm_sq ht hq
    exact ⟨_, exp_moderate hq' nn rel hγ ((le_trans_pow (by omega) le_rfl nn h1).trans_lt hmax)
      ((le_trans_pow (by omega) le_rfl (mul_nonneg hγ nn) h2).trans_lt hmax), t, r, ht, hr, rfl⟩
  | laplacian γ =>
    have hγ : 0 ≤ γ := hx
    obtain ⟨h1, h2⟩ : ∑ i, |x i - y i| ≤ M ∧ γ * ∑ i, |x i - y i| ≤ M := hM
    have hmax : Φ.R.w ^ (d + 3) * M < Φ.max := hmax
    have nn : 0 ≤ ∑ i, |x i - y i| := sum_nonneg fun i _ => abs_nonneg _
    obtain ⟨t, ht, rfl⟩ := h
    have h3 := sum_huge (fun i => abs_cases (Φ := Φ) (x i) (y i)) (fun _ => abs_nonneg _) (fun _ => fl_abs _ (Φ.R.idem _)) (fun i => (rel_fl _).abs) t
    have h4 := sum_abs_rel (Φ := Φ) x y t
    rw [ht.length, ht.total] at h3 h4
    exact ⟨_, exp_moderate h3 nn h4 hγ ((le_trans_pow (by omega) le_rfl nn h1).trans_lt hmax)
      ((le_trans_pow (by omega) le_rfl (mul_nonneg hγ nn) h2).trans_lt hmax), t, ht, rfl⟩
  | chi2 γ => exact moderate_chi2 hx.1 hx.2 hy.2 hM hmax h
  | sigmoid γ c => exact hx.elim
  | hadamard α => exact moderate_hadamard hx hy hM hmax h

end FloatFormat
end KMethods
