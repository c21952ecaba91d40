import Verif.Lemmas.Overflow
import Verif.Lemmas.BinaryFloat
import Verif.Lemmas.MissingKM
/-! # Overflow: examples, infinite entries, kernel matrices -/
namespace KMethods
open Rounding Finset

/-- Python floats, with round to nearest: 53 bits, up to `(2 - 2⁻⁵²) 2¹⁰²³` -/
noncomputable def FloatFormat.double : FloatFormat where
  R := binary 53 (by norm_num)
  max := (2 - 2⁻¹ ^ 52) * 2 ^ 1023
  four_le := by
    have h : (4 : ℝ) ≤ 2 ^ 1023 := le_trans (by norm_num) (pow_le_pow_right₀ one_le_two (show 2 ≤ 1023 by norm_num))
    exact h.trans (le_mul_of_one_le_left (by positivity) (by norm_num))

variable {Φ : FloatFormat} {d : Nat}

namespace FloatFormat

theorem double_u : double.R.u = 2⁻¹ ^ 53 := rfl
theorem double_max : (2 : ℝ) ^ 1023 ≤ double.max := by
  show (2 : ℝ) ^ 1023 ≤ (2 - 2⁻¹ ^ 52) * 2 ^ 1023
  exact le_mul_of_one_le_left (by positivity) (by norm_num)

/-! ### existence of computed values -/

theorem exists_lib (x : ℝ) : ∃ v, Φ.Lib v x := ⟨_, x, near_self x, rfl⟩

theorem exists_powInt (n : ℤ) (x : Dbl) : ∃ v, Φ.PowInt n x v := by
  cases x with
  | fin a =>
    unfold PowInt
    by_cases h : n < 0 ∧ a = 0
    · exact ⟨_, by dsimp only; rw [if_pos h]⟩
    · obtain ⟨v, hv⟩ := exists_lib (Φ := Φ) (a ^ n)
      exact ⟨v, by dsimp only; rwa [if_neg h]⟩
  | inf s => exact ⟨_, rfl⟩
  | nan => exact ⟨_, rfl⟩

theorem exists_powAbs (α : ℝ) (x : Dbl) : ∃ v, Φ.PowAbs α x v := by
  cases x with
  | fin a =>
    unfold PowAbs
    by_cases h : α < 0 ∧ a = 0
    · exact ⟨_, by dsimp only; rw [if_pos h]⟩
    · obtain ⟨v, hv⟩ := exists_lib (Φ := Φ) (a ^ α)
      exact ⟨v, by dsimp only; rwa [if_neg h]⟩
  | inf s => exact ⟨_, rfl⟩
  | nan => exact ⟨_, rfl⟩

theorem exists_tanh (x : Dbl) : ∃ v, Φ.Tanh x v := by
  cases x with
  | fin a => exact exists_lib _
  | inf s => exact ⟨_, rfl⟩
  | nan => exact ⟨_, rfl⟩

theorem exists_computes (k : NumKernel) {x y : Fin d → Dbl} (h : ∀ γ, k = .chi2 γ → ∀ i, ¬ (x i).Neg ∧ ¬ (y i).Neg) : ∃ v, Φ.Computes k x y v := by
  cases k with
  | hadamard α =>
    choose a ha using fun i => exists_powAbs (Φ := Φ) α (x i).abs
    choose b hb using fun i => exists_powAbs (Φ := Φ) α (y i).abs
    exact ⟨_, a, b, _, SumTree.all_complete d, ha, hb, rfl⟩
  | poly deg γ b =>
    obtain ⟨v, hv⟩ := exists_powInt (Φ := Φ) deg (Φ.rnd (.addX (.fin b) (Φ.rnd (.mulX (.fin γ) (Φ.dot x y (.all d))))))
    exact ⟨v, _, SumTree.all_complete d, hv⟩
  | gaussian σ γ =>
    obtain ⟨q, hq⟩ := exists_powInt (Φ := Φ) 2 (Φ.rnd (.sqrtX (Φ.dot (fun i => Φ.rnd (.addX (x i) (.neg (y i)))) (fun i => Φ.rnd (.addX (x i) (.neg (y i)))) (.all d))))
    exact ⟨_, _, q, SumTree.all_complete d, hq, rfl⟩
  | laplacian γ => exact ⟨_, _, SumTree.all_complete d, rfl⟩
  | chi2 γ =>
    choose q hq using fun i => exists_powInt (Φ := Φ) 2 (Φ.rnd (.addX (x i) (.neg (y i))))
    exact ⟨_, h γ rfl, _, q, SumTree.all_complete d, hq, rfl⟩
  | sigmoid γ o =>
    obtain ⟨v, hv⟩ := exists_tanh (Φ := Φ) (Φ.rnd (.addX (.fin o) (Φ.rnd (.mulX (.fin γ) (Φ.dot x y (.all d))))))
    exact ⟨v, _, SumTree.all_complete d, hv⟩
  | linear => exact ⟨_, _, SumTree.all_complete d, rfl⟩

/-! ### sums with one term -/

theorem sum_const_zero {a : Fin d → Dbl} (h : ∀ i, a i = .fin 0) (t : SumTree d) : Φ.sum a t = .fin 0 := by
  have e : Φ.rnd ((Dbl.fin 0).addX (.fin 0)) = .fin 0 := by
    show Φ.clip (Φ.R.fl (0 + 0)) = _
    rw [add_zero, Φ.R.fl_zero]
    exact clip_of_le (by rw [abs_zero]; exact Φ.max_pos.le)
  induction t with
  | zero => rfl
  | leaf i => exact h i
  | node l r ihl ihr => rw [sum, ihl, ihr, e]
  | fma i t ih => rw [sum, ih, h i, e]

/-- a sum that is finite has finite terms -/
theorem sum_fin {a : Fin d → Dbl} {t : SumTree d} {v : ℝ} (h : Φ.sum a t = .fin v) : ∀ i ∈ t.leaves, ∃ r, a i = .fin r := by
  induction t generalizing v with
  | zero => intro i hi; simp [SumTree.leaves] at hi
  | leaf j =>
    intro i hi
    obtain rfl : i = j := by simpa [SumTree.leaves] using hi
    exact ⟨v, h⟩
  | node l r ihl ihr =>
    intro i hi
    obtain ⟨e, h1, -⟩ := rnd_fin h
    obtain ⟨p, q, hp, hq, -⟩ := Dbl.addX_fin h1
    rw [SumTree.leaves, List.mem_append] at hi
    exact hi.elim (ihl hp i) (ihr hq i)
  | fma j t ih =>
    intro i hi
    obtain ⟨e, h1, -⟩ := rnd_fin h
    obtain ⟨p, q, hp, hq, -⟩ := Dbl.addX_fin h1
    rw [SumTree.leaves, List.mem_cons] at hi
    rcases hi with rfl | hi
    · exact ⟨p, hp⟩
    · exact ih hq i hi

theorem dot_fin_terms {a b : Fin d → Dbl} {t : SumTree d} {v : ℝ} (h : Φ.dot a b t = .fin v) : ∀ i ∈ t.leaves, (∃ r, a i = .fin r) ∧ ∃ r, b i = .fin r := by
  induction t generalizing v with
  | zero => intro i hi; simp [SumTree.leaves] at hi
  | leaf j =>
    intro i hi
    obtain rfl : i = j := by simpa [SumTree.leaves] using hi
    obtain ⟨e, h1, -⟩ := rnd_fin h
    obtain ⟨p, q, hp, hq, -⟩ := Dbl.mulX_fin h1
    exact ⟨⟨p, hp⟩, q, hq⟩
  | node l r ihl ihr =>
    intro i hi
    obtain ⟨e, h1, -⟩ := rnd_fin h
    obtain ⟨p, q, hp, hq, -⟩ := Dbl.addX_fin h1
    rw [SumTree.leaves, List.mem_append] at hi
    exact hi.elim (ihl hp i) (ihr hq i)
  | fma j t ih =>
    intro i hi
    obtain ⟨e, h1, -⟩ := rnd_fin h
    obtain ⟨p, q, hp, hq, -⟩ := Dbl.addX_fin h1
    rw [SumTree.leaves, List.mem_cons] at hi
    rcases hi with rfl | hi
    · obtain ⟨p, q, hp, hq, -⟩ := Dbl.mulX_fin hp
      exact ⟨⟨p, hp⟩, q, hq⟩
    · exact ih hq i hi

theorem Complete.mem {t : SumTree d} (h : t.Complete) (i : Fin d) : i ∈ t.leaves := h.mem_iff.2 (List.mem_finRange i)

/-- NaN in a sum -/
theorem sum_nan {a : Fin d → Dbl} {t : SumTree d} {i : Fin d} (hi : i ∈ t.leaves) (h : a i = .nan) : Φ.sum a t = .nan := by
  have e1 : ∀ x : Dbl, Φ.rnd (x.addX .nan) = .nan := fun x => by cases x <;> rfl
  have e2 : ∀ x : Dbl, Φ.rnd (Dbl.nan.addX x) = .nan := fun x => by cases x <;> rfl
  induction t with
  | zero => simp [SumTree.leaves] at hi
  | leaf j =>
    obtain rfl : i = j := by simpa [SumTree.leaves] using hi
    exact h
  | node l r ihl ihr =>
    rw [SumTree.leaves, List.mem_append] at hi
    rw [sum]
    rcases hi with hi | hi
    · rw [ihl hi, e2]
    · rw [ihr hi, e1]
  | fma j t ih =>
    rw [SumTree.leaves, List.mem_cons] at hi
    rw [sum]
    rcases hi with rfl | hi
    · rw [h, e2]
    · rw [ih hi, e1]

theorem dot_nan {a b : Fin d → Dbl} {t : SumTree d} {i : Fin d} (hi : i ∈ t.leaves) (h : a i = .nan) : Φ.dot a b t = .nan := by
  have e1 : ∀ x : Dbl, Φ.rnd (x.addX .nan) = .nan := fun x => by cases x <;> rfl
  have e2 : ∀ x : Dbl, Φ.rnd (Dbl.nan.addX x) = .nan := fun x => by cases x <;> rfl
  have e3 : ∀ x : Dbl, Dbl.nan.mulX x = .nan := fun x => by cases x <;> rfl
  induction t with
  | zero => simp [SumTree.leaves] at hi
  | leaf j =>
    obtain rfl : i = j := by simpa [SumTree.leaves] using hi
    rw [dot, h, e3]
    rfl
  | node l r ihl ihr =>
    rw [SumTree.leaves, List.mem_append] at hi
    rw [dot]
    rcases hi with hi | hi
    · rw [ihl hi, e2]
    · rw [ihr hi, e1]
  | fma j t ih =>
    rw [SumTree.leaves, List.mem_cons] at hi
    rw [dot]
    rcases hi with rfl | hi
    · rw [h, e3, e2]
    · rw [ih hi, e1]

theorem sub_self_inf {x : Dbl} (h : x.Infinite) : Φ.rnd (x.addX x.neg) = .nan := by
  cases x with
  | inf s => cases s <;> rfl
  | fin a => exact h.elim
  | nan => exact h.elim

/-! ### infinite entries -/

theorem not_finite_of_ne {v : Dbl} (h : ∀ r, v ≠ .fin r) : ¬ v.Finite := by
  cases v with
  | fin r => exact absurd rfl (h r)
  | inf s => exact id
  | nan => exact id

theorem propagating {k : NumKernel} (hk : k.Propagating) {x y : Fin d → Dbl} (hn : ∀ i, x i ≠ .nan ∧ y i ≠ .nan) (h : ∃ i, (x i).Infinite ∨ (y i).Infinite) {v : Dbl}
    (hv : Φ.Computes k x y v) : ¬ v.Finite := by
  obtain ⟨i, hi⟩ := h
  have dotne : ∀ {t : SumTree d}, t.Complete → ∀ r, Φ.dot x y t ≠ .fin r := fun {t} ht r e => by
    obtain ⟨⟨p, hp⟩, q, hq⟩ := dot_fin_terms e i (Complete.mem ht i)
    rw [hp, hq] at hi
    exact hi.elim id id
  cases k with
  | linear =>
    obtain ⟨t, ht, rfl⟩ := hv
    exact not_finite_of_ne (dotne ht)
  | poly deg γ b =>
    have hdeg : 1 ≤ deg := hk
    obtain ⟨t, ht, hv⟩ := hv
    generalize hs : Φ.rnd _ = s at hv
    cases s with
    | fin a =>
      obtain ⟨e, h1, -⟩ := rnd_fin hs
      obtain ⟨p, q, -, hq, -⟩ := Dbl.addX_fin h1
      obtain ⟨e, h2, -⟩ := rnd_fin hq
      obtain ⟨p', q', -, hq', -⟩ := Dbl.mulX_fin h2
      exact (dotne ht q' hq').elim
    | inf s =>
      have hv : v = if deg = 0 then .fin 1 else if deg < 0 then .fin 0 else .inf (s && decide (deg % 2 = 1)) := hv
      rw [if_neg (by omega), if_neg (by omega)] at hv
      rw [hv]
      exact id
    | nan =>
      have hv : v = if deg = 0 then .fin 1 else .nan := hv
      rw [if_neg (by omega)] at hv
      rw [hv]
      exact id
  | hadamard α =>
    have hα : 0 < α := hk
    obtain ⟨a, b, t, ht, ha, hb, rfl⟩ := hv
    apply not_finite_of_ne
    intro r e
    obtain ⟨q, hq⟩ := sum_fin e i (Complete.mem ht i)
    dsimp only at hq
    -- one of the two powers is infinite
    have inf : ∀ {x : Dbl} {a : Dbl}, x.Infinite → Φ.PowAbs α x.abs a → a = .inf false := fun {x a} hx ha => by
      cases x with
      | inf s =>
        have ha : a = if α = 0 then .fin 1 else if 0 < α then .inf false else .fin 0 := ha
        rwa [if_neg hα.ne', if_pos hα] at ha
      | fin _ => exact hx.elim
      | nan => exact hx.elim
    -- the others are not negative
    have nn : ∀ {x : Dbl} {a : Dbl}, x ≠ .nan → Φ.PowAbs α x.abs a → a = .inf false ∨ ∃ r, 0 ≤ r ∧ a = .fin r := fun {x a} hx ha => by
      cases x with
      | fin c =>
        have ha : if α < 0 ∧ |c| = 0 then a = .inf false else Φ.Lib a (|c| ^ α) := ha
        rw [if_neg (by rintro ⟨h, -⟩; linarith)] at ha
        obtain ⟨r, hr, rfl⟩ := ha
        have h0 := hr.rel.nonneg (Real.rpow_nonneg (abs_nonneg c) α)
        rcases clip_nonneg (Φ := Φ) h0 with h | ⟨h, -⟩
        · exact .inr ⟨r, h0, h⟩
        · exact .inl h
      | inf s => exact .inl (inf (x := .inf s) trivial ha)
      | nan => exact (hx rfl).elim
    have key : ∀ {p q : Dbl}, (p = .inf false ∨ q = .inf false) → (p = .inf false ∨ ∃ r, 0 ≤ r ∧ p = .fin r) → (q = .inf false ∨ ∃ r, 0 ≤ r ∧ q = .fin r) →
        Φ.rnd ((Dbl.fin 2).mulX (Φ.rnd (p.addX q))) = .inf false ∧ Φ.rnd ((Φ.rnd (p.mulX q)).divX (.inf false)) = .nan := by
      have two : Φ.rnd ((Dbl.fin 2).mulX (.inf false)) = .inf false := by
        simp only [Dbl.mulX]
        rw [if_neg (by norm_num), decide_eq_false (by norm_num)]
        rfl
      have prod : ∀ r : ℝ, Φ.rnd ((Φ.rnd ((Dbl.fin r).mulX (.inf false))).divX (.inf false)) = .nan ∧
          Φ.rnd ((Φ.rnd ((Dbl.inf false).mulX (.fin r))).divX (.inf false)) = .nan := fun r => by
        simp only [Dbl.mulX]
        by_cases h : r = 0
        · rw [if_pos h]; exact ⟨rfl, rfl⟩
        · rw [if_neg h]; exact ⟨rfl, rfl⟩
      rintro p q h (rfl | ⟨r, -, rfl⟩) (rfl | ⟨r', -, rfl⟩)
      · exact ⟨two, rfl⟩
      · exact ⟨two, (prod r').2⟩
      · exact ⟨two, (prod r).1⟩
      · rcases h with h | h <;> cases h
    obtain ⟨k1, k2⟩ := key (hi.imp (fun h => inf h (ha i)) fun h => inf h (hb i)) (nn (hn i).1 (ha i)) (nn (hn i).2 (hb i))
    rw [k1, if_pos (show (Dbl.inf false).Pos from rfl), k2] at hq
    cases hq
  | gaussian σ γ => exact hk.elim
  | laplacian γ => exact hk.elim
  | chi2 γ => exact hk.elim
  | sigmoid γ o => exact hk.elim

/-- a sample with an infinite number and itself -/
theorem shows {k : NumKernel} (hk : k.Shows) {x : Fin d → Dbl} (hn : ∀ i, x i ≠ .nan) (h : ∃ i, (x i).Infinite) {v : Dbl}
    (hv : Φ.Computes k x x v) : ¬ v.Finite := by
  have mulnan : ∀ c : ℝ, Φ.exp (Φ.rnd ((Dbl.fin c).mulX .nan)) = .nan := fun c => rfl
  cases k with
  | gaussian σ γ =>
    obtain ⟨i, hi⟩ := h
    obtain ⟨t, q, ht, hq, rfl⟩ := hv
    rw [dot_nan (Complete.mem ht i) (sub_self_inf hi)] at hq
    have hq : q = if (2 : ℤ) = 0 then .fin 1 else .nan := hq
    rw [if_neg (by norm_num)] at hq
    rw [hq, mulnan]
    exact id
  | laplacian γ =>
    obtain ⟨i, hi⟩ := h
    obtain ⟨t, ht, rfl⟩ := hv
    rw [sum_nan (Complete.mem ht i) (by dsimp only; rw [sub_self_inf hi]; rfl), mulnan]
    exact id
  | chi2 γ => exact hk.elim
  | sigmoid γ o => exact hk.elim
  | linear => exact propagating (k := .linear) trivial (fun i => ⟨hn i, hn i⟩) (h.imp fun i hi => .inl hi) hv
  | poly deg γ b => exact propagating (k := .poly deg γ b) hk (fun i => ⟨hn i, hn i⟩) (h.imp fun i hi => .inl hi) hv
  | hadamard α => exact propagating (k := .hadamard α) hk (fun i => ⟨hn i, hn i⟩) (h.imp fun i hi => .inl hi) hv

/-- an infinite number as a missing value -/
def _root_.KMethods.Dbl.infToNan : Dbl → Dbl
  | .inf _ => .nan
  | x => x

/-- the term of the chi² kernel at one coordinate -/
theorem chi2_term {x y q : Dbl} (h : x.Infinite ∨ y.Infinite) (hx : ¬ x.Neg) (hy : ¬ y.Neg) (hq : Φ.PowInt 2 (Φ.rnd (x.addX y.neg)) q) :
    Dbl.nanToZero (Φ.rnd (q.divX (Φ.rnd (x.addX y)))) = .fin 0 := by
  have divnan : ∀ b : Dbl, Dbl.nan.divX b = .nan := fun b => by cases b <;> rfl
  have qinf : ∀ {s}, Φ.PowInt 2 (.inf s) q → ∃ s', q = .inf s' := fun {s} h => by
    have h : q = if (2 : ℤ) = 0 then .fin 1 else if (2 : ℤ) < 0 then .fin 0 else .inf (s && decide ((2 : ℤ) % 2 = 1)) := h
    rw [if_neg (by norm_num), if_neg (by norm_num)] at h
    exact ⟨_, h⟩
  have qnan : Φ.PowInt 2 .nan q → q = .nan := fun h => by
    have h : q = if (2 : ℤ) = 0 then .fin 1 else .nan := h
    rwa [if_neg (by norm_num)] at h
  cases x with
  | nan =>
    rw [show Φ.rnd (Dbl.nan.addX y.neg) = .nan by cases y <;> rfl] at hq
    rw [qnan hq, divnan]
    rfl
  | fin a =>
    cases y with
    | inf s =>
      obtain ⟨s', rfl⟩ := qinf hq
      rfl
    | _ => exact (h.elim id id).elim
  | inf s =>
    cases y with
    | nan =>
      rw [qnan hq, divnan]
      rfl
    | fin b =>
      obtain ⟨s', rfl⟩ := qinf hq
      rfl
    | inf s' =>
      obtain rfl : s = false := by cases s; rfl; exact (hx rfl).elim
      obtain rfl : s' = false := by cases s'; rfl; exact (hy rfl).elim
      rw [qnan hq, divnan]
      rfl

theorem chi2_term_nan {x y q : Dbl} (h : x = .nan ∨ y = .nan) (hq : Φ.PowInt 2 (Φ.rnd (x.addX y.neg)) q) :
    Dbl.nanToZero (Φ.rnd (q.divX (Φ.rnd (x.addX y)))) = .fin 0 := by
  have hz : Φ.rnd (x.addX y.neg) = .nan := by rcases h with rfl | rfl <;> [cases y; cases x] <;> rfl
  rw [hz] at hq
  have hq : q = if (2 : ℤ) = 0 then .fin 1 else .nan := hq
  rw [if_neg (by norm_num)] at hq
  subst hq
  rcases h with rfl | rfl <;> [cases y; cases x] <;> rfl

/-- the chi² kernel: infinite numbers count as missing -/
theorem chi2_missing (γ : ℝ) {x y : Fin d → Dbl} (hx : ∀ i, ¬ (x i).Neg) (hy : ∀ i, ¬ (y i).Neg) (v : Dbl) :
    Φ.Computes (.chi2 γ) x y v ↔ Φ.Computes (.chi2 γ) (fun i => (x i).infToNan) (fun i => (y i).infToNan) v := by
  have hne : ∀ {a : Dbl}, ¬ a.Neg → ¬ a.infToNan.Neg := fun {a} h => by
    cases a
    · exact h
    · exact id
    · exact id
  have e : ∀ {a : Dbl}, ¬ a.Infinite → a.infToNan = a := fun {a} h => by
    cases a
    · rfl
    · exact (h trivial).elim
    · rfl
  -- the terms agree
  have key : ∀ (i : Fin d) {q q' : Dbl}, Φ.PowInt 2 (Φ.rnd ((x i).addX (y i).neg)) q →
      Φ.PowInt 2 (Φ.rnd ((x i).infToNan.addX (y i).infToNan.neg)) q' → ((¬ (x i).Infinite ∧ ¬ (y i).Infinite) → q = q') →
      Dbl.nanToZero (Φ.rnd (q.divX (Φ.rnd ((x i).addX (y i))))) =
        Dbl.nanToZero (Φ.rnd (q'.divX (Φ.rnd ((x i).infToNan.addX (y i).infToNan)))) := fun i q q' hq hq' he => by
    by_cases h : (x i).Infinite ∨ (y i).Infinite
    · rw [chi2_term h (hx i) (hy i) hq, chi2_term_nan _ hq']
      rcases h with h | h
      · left; cases hxi : x i <;> rw [hxi] at h <;> first | rfl | exact h.elim
      · right; cases hyi : y i <;> rw [hyi] at h <;> first | rfl | exact h.elim
    · rw [not_or] at h
      rw [he h]
      rw [e h.1, e h.2]
  classical
  constructor
  · rintro ⟨-, t, q, ht, hq, rfl⟩
    choose q'' hq'' using fun i => exists_powInt (Φ := Φ) 2 (Φ.rnd ((x i).infToNan.addX (y i).infToNan.neg))
    have hp : ∀ i, Φ.PowInt 2 (Φ.rnd ((x i).infToNan.addX (y i).infToNan.neg)) (if ¬ (x i).Infinite ∧ ¬ (y i).Infinite then q i else q'' i) := fun i => by
      split
      · rename_i h
        rw [e h.1, e h.2]
        exact hq i
      · exact hq'' i
    refine ⟨fun i => ⟨hne (hx i), hne (hy i)⟩, t, _, ht, hp, ?_⟩
    congr 4
    funext i
    exact key i (hq i) (hp i) fun h => (if_pos h).symm
  · rintro ⟨-, t, q, ht, hq, rfl⟩
    choose q'' hq'' using fun i => exists_powInt (Φ := Φ) 2 (Φ.rnd ((x i).addX (y i).neg))
    have hp : ∀ i, Φ.PowInt 2 (Φ.rnd ((x i).addX (y i).neg)) (if ¬ (x i).Infinite ∧ ¬ (y i).Infinite then q i else q'' i) := fun i => by
      split
      · rename_i h
        have := hq i
        dsimp only at this
        rwa [e h.1, e h.2] at this
      · exact hq'' i
    refine ⟨fun i => ⟨hx i, hy i⟩, t, _, ht, hp, ?_⟩
    congr 4
    funext i
    exact (key i (hp i) (hq i) fun h => if_pos h).symm

/-- not negative, not NaN -/
def _root_.KMethods.Dbl.NN (v : Dbl) : Prop := (∃ a : ℝ, 0 ≤ a ∧ v = .fin a) ∨ v = .inf false

theorem clip_nn {r : ℝ} (h : 0 ≤ r) : (Φ.clip r).NN := by
  rcases clip_nonneg (Φ := Φ) h with e | ⟨e, -⟩ <;> rw [e]
  · exact .inl ⟨r, h, rfl⟩
  · exact .inr rfl

theorem fl_nonneg {x : ℝ} (h : 0 ≤ x) : 0 ≤ Φ.R.fl x := (rel_fl x).nonneg h

theorem rnd_nn {v : Dbl} (h : v.NN) : (Φ.rnd v).NN := by
  rcases h with ⟨a, ha, rfl⟩ | rfl
  · exact clip_nn (fl_nonneg ha)
  · exact .inr rfl

theorem addX_nn {v w : Dbl} (hv : v.NN) (hw : w.NN) : (v.addX w).NN := by
  rcases hv with ⟨a, ha, rfl⟩ | rfl <;> rcases hw with ⟨b, hb, rfl⟩ | rfl
  · exact .inl ⟨a + b, add_nonneg ha hb, rfl⟩
  all_goals exact .inr rfl

theorem addX_inf_left {w : Dbl} (hw : w.NN) : (Dbl.inf false).addX w = .inf false := by
  rcases hw with ⟨b, -, rfl⟩ | rfl <;> rfl

theorem addX_inf_right {w : Dbl} (hw : w.NN) : w.addX (.inf false) = .inf false := by
  rcases hw with ⟨b, -, rfl⟩ | rfl <;> rfl

theorem sum_nn {a : Fin d → Dbl} (h : ∀ i, (a i).NN) (t : SumTree d) : (Φ.sum a t).NN := by
  induction t with
  | zero => exact .inl ⟨0, le_rfl, rfl⟩
  | leaf i => exact h i
  | node l r ihl ihr => exact rnd_nn (addX_nn ihl ihr)
  | fma i t ih => exact rnd_nn (addX_nn (h i) ih)

/-- `inf` in a sum without negative summands -/
theorem sum_inf {a : Fin d → Dbl} (h : ∀ i, (a i).NN) {t : SumTree d} {i : Fin d} (hi : i ∈ t.leaves) (he : a i = .inf false) : Φ.sum a t = .inf false := by
  induction t with
  | zero => simp [SumTree.leaves] at hi
  | leaf j =>
    obtain rfl : i = j := by simpa [SumTree.leaves] using hi
    exact he
  | node l r ihl ihr =>
    rw [SumTree.leaves, List.mem_append] at hi
    rw [sum]
    rcases hi with hi | hi
    · rw [ihl hi, addX_inf_left (sum_nn h r)]; rfl
    · rw [ihr hi, addX_inf_right (sum_nn h l)]; rfl
  | fma j t ih =>
    rw [SumTree.leaves, List.mem_cons] at hi
    rw [sum]
    rcases hi with rfl | hi
    · rw [he, addX_inf_left (sum_nn h t)]; rfl
    · rw [ih hi, addX_inf_right (h j)]; rfl

/-- the square of a difference -/
theorem powInt_two_nn {v q : Dbl} (hv : v ≠ .nan) (h : Φ.PowInt 2 v q) : q.NN := by
  cases v with
  | nan => exact (hv rfl).elim
  | inf s =>
    have h : q = if (2 : ℤ) = 0 then .fin 1 else if (2 : ℤ) < 0 then .fin 0 else .inf (s && decide ((2 : ℤ) % 2 = 1)) := h
    rw [if_neg (by norm_num), if_neg (by norm_num)] at h
    subst h
    right
    cases s <;> rfl
  | fin a =>
    rw [PowInt, if_neg (by norm_num)] at h
    obtain ⟨r, hr, rfl⟩ := h
    rw [show (2 : ℤ) = ((2 : ℕ) : ℤ) from rfl, zpow_natCast] at hr
    exact clip_nn (hr.rel.nonneg (sq_nonneg a))

theorem chi2_term_nn {q w : Dbl} (hq : q.NN) (hw : w.NN) : (Dbl.nanToZero (Φ.rnd (q.divX w))).NN := by
  have key : ∀ {v : Dbl}, v.NN → v.nanToZero.NN := fun {v} h => by rcases h with ⟨a, ha, rfl⟩ | rfl; exacts [.inl ⟨a, ha, rfl⟩, .inr rfl]
  have zero : (Dbl.fin 0).NN := .inl ⟨0, le_rfl, rfl⟩
  rcases hq with ⟨a, ha, rfl⟩ | rfl <;> rcases hw with ⟨b, hb, rfl⟩ | rfl
  · rw [Dbl.divX]
    split
    · split
      · exact zero
      · rw [decide_eq_false (not_lt.2 ha)]
        exact .inr rfl
    · exact key (rnd_nn (.inl ⟨_, div_nonneg ha hb, rfl⟩))
  · exact key (rnd_nn zero)
  · rw [Dbl.divX, decide_eq_false (not_lt.2 hb)]
    exact .inr rfl
  · exact zero

/-- a term whose numerator alone overflows -/
theorem chi2_term_inf {x y : ℝ} {q : Dbl} (hu : Φ.R.u ≤ 1 / 4) (hx : 0 ≤ x) (hy : 0 ≤ y) (hd : 4 * Φ.max < (x - y) ^ 2) (hs : x + y ≤ Φ.max / 2)
    (hq : Φ.PowInt 2 (Φ.rnd ((Dbl.fin x).addX (Dbl.fin y).neg)) q) :
    Dbl.nanToZero (Φ.rnd (q.divX (Φ.rnd ((Dbl.fin x).addX (.fin y))))) = .inf false := by
  have h0 := Φ.max_pos
  have hsum : Φ.rnd ((Dbl.fin x).addX (.fin y)) = .fin (Φ.R.fl (x + y)) := by
    apply clip_of_le
    have := abs_le.1 (Φ.R.err (x + y))
    rw [abs_of_nonneg (by linarith)] at this
    have h2 := mul_le_mul_of_nonneg_right hu (show 0 ≤ x + y by linarith)
    rw [abs_of_nonneg (fl_nonneg (by linarith))]
    linarith
  have hq' : q = .inf false := by
    have hqn : q.NN := powInt_two_nn (by
      show Φ.clip _ ≠ _
      unfold clip
      split <;> simp) hq
    rcases hqn with ⟨a, ha, rfl⟩ | e
    · exfalso
      have hle : |x - y| ≤ x + y := by rw [abs_le]; constructor <;> linarith
      have herr := Φ.R.err (x - y)
      have h2 := mul_le_mul_of_nonneg_right hu (abs_nonneg (x - y))
      have hfl : |Φ.R.fl (x - y)| ≤ Φ.max := by
        have := abs_sub_abs_le_abs_sub (Φ.R.fl (x - y)) (x - y)
        linarith
      have hge : 3 / 4 * |x - y| ≤ |Φ.R.fl (x - y)| := by
        have := abs_sub_abs_le_abs_sub (x - y) (Φ.R.fl (x - y))
        rw [abs_sub_comm (x - y)] at this
        linarith
      have hdiff : Φ.rnd ((Dbl.fin x).addX (Dbl.fin y).neg) = .fin (Φ.R.fl (x - y)) := by
        rw [sub_eq_add_neg]
        rw [sub_eq_add_neg] at hfl
        exact clip_of_le hfl
      rw [hdiff, PowInt, if_neg (by norm_num)] at hq
      obtain ⟨r, hr, e⟩ := hq
      rw [show (2 : ℤ) = ((2 : ℕ) : ℤ) from rfl, zpow_natCast] at hr
      have hr := abs_le.1 hr
      rw [abs_of_nonneg (sq_nonneg _)] at hr
      have h3 := mul_le_mul_of_nonneg_right hu (sq_nonneg (Φ.R.fl (x - y)))
      have h4 : 9 / 16 * (x - y) ^ 2 ≤ Φ.R.fl (x - y) ^ 2 := by
        have := mul_self_le_mul_self (by positivity) hge
        rw [← sq_abs (x - y), ← sq_abs (Φ.R.fl (x - y))]
        nlinarith
      rw [clip_of_lt (by linarith)] at e
      cases e
    · exact e
  rw [hsum, hq', Dbl.divX, decide_eq_false (not_lt.2 (fl_nonneg (by linarith)))]
  rfl

/-- the chi² kernel on a sample and itself -/
theorem chi2_self {γ : ℝ} {x : Fin d → Dbl} {v : Dbl} (hv : Φ.Computes (.chi2 γ) x x v) : v = .fin 1 := by
  obtain ⟨hx, t, q, ht, hq, rfl⟩ := hv
  have h0 : Φ.clip 0 = .fin 0 := clip_of_le (by rw [abs_zero]; exact Φ.max_pos.le)
  rw [sum_const_zero]
  · show Φ.exp (Φ.clip (Φ.R.fl (-γ * 0))) = _
    rw [mul_zero, Φ.R.fl_zero, h0, exp_fin le_rfl, Φ.R.exp_zero]
  · intro i
    have hq := hq i
    have hx := (hx i).1
    dsimp only at hq ⊢
    generalize x i = a at hq hx ⊢
    cases a with
    | inf s => exact chi2_term (.inl trivial) hx hx hq
    | nan => exact chi2_term_nan (.inl rfl) hq
    | fin a =>
      have e : Φ.rnd ((Dbl.fin a).addX (Dbl.fin a).neg) = .fin 0 := by
        show Φ.clip (Φ.R.fl (a + -a)) = _
        rw [add_neg_cancel, Φ.R.fl_zero, h0]
      rw [e, PowInt, if_neg (by norm_num)] at hq
      obtain ⟨r, hr, hqr⟩ := hq
      have hr : r = 0 := by
        unfold Near at hr
        simpa using hr
      rw [hqr, hr, h0]
      have hs : Φ.rnd ((Dbl.fin a).addX (.fin a)) = .inf false ∨ ∃ s, Φ.rnd ((Dbl.fin a).addX (.fin a)) = .fin s := by
        have ha : 0 ≤ a := not_lt.1 hx
        exact (clip_nonneg (Φ := Φ) ((rel_fl (R := Φ.R) (a + a)).nonneg (add_nonneg ha ha))).symm.imp (fun h => h.1) fun h => ⟨_, h⟩
      rcases hs with hs | ⟨s, hs⟩
      · rw [hs]
        show Dbl.nanToZero (Φ.clip (Φ.R.fl 0)) = _
        rw [Φ.R.fl_zero, h0]
        rfl
      · rw [hs]
        simp only [Dbl.divX]
        split
        · rw [if_pos trivial]
          rfl
        · rw [zero_div]
          show Dbl.nanToZero (Φ.clip (Φ.R.fl 0)) = _
          rw [Φ.R.fl_zero, h0]
          rfl

/-- a sum of squares with an infinite number -/
theorem dot_self_inf {x : Fin d → Dbl} (hn : ∀ i, x i ≠ .nan) {t : SumTree d} {i : Fin d} (hi : i ∈ t.leaves) (h : (x i).Infinite) :
    Φ.dot x x t = .inf false := by
  -- sums of squares are not negative and not NaN
  have sq : ∀ j, (x j).mulX (x j) = .inf false ∨ ∃ r, 0 ≤ r ∧ (x j).mulX (x j) = .fin r := fun j => by
    have := hn j
    generalize x j = a at this ⊢
    cases a with
    | fin a => exact .inr ⟨a * a, mul_self_nonneg a, rfl⟩
    | inf s => left; cases s <;> rfl
    | nan => exact (this rfl).elim
  have sqi : ∀ {j}, (x j).Infinite → (x j).mulX (x j) = .inf false := fun {j} h => by
    generalize x j = a at h ⊢
    cases a with
    | inf s => cases s <;> rfl
    | fin a => exact h.elim
    | nan => exact h.elim
  have rn : ∀ {e : Dbl}, (e = .inf false ∨ ∃ r, 0 ≤ r ∧ e = .fin r) → Φ.rnd e = .inf false ∨ ∃ r, 0 ≤ r ∧ Φ.rnd e = .fin r := by
    rintro e (rfl | ⟨r, hr, rfl⟩)
    · exact .inl rfl
    · have h0 := (rel_fl (R := Φ.R) r).nonneg hr
      exact (clip_nonneg h0).symm.imp (fun h => h.1) fun h => ⟨_, h0, h⟩
  have ad : ∀ {e f : Dbl}, (e = .inf false ∨ ∃ r, 0 ≤ r ∧ e = .fin r) → (f = .inf false ∨ ∃ r, 0 ≤ r ∧ f = .fin r) →
      (e.addX f = .inf false ∨ ∃ r, 0 ≤ r ∧ e.addX f = .fin r) ∧ (e = .inf false ∨ f = .inf false → e.addX f = .inf false) := by
    rintro e f (rfl | ⟨r, hr, rfl⟩) (rfl | ⟨s, hs, rfl⟩)
    · exact ⟨.inl rfl, fun _ => rfl⟩
    · exact ⟨.inl rfl, fun _ => rfl⟩
    · exact ⟨.inl rfl, fun _ => rfl⟩
    · exact ⟨.inr ⟨_, add_nonneg hr hs, rfl⟩, fun h => by rcases h with h | h <;> cases h⟩
  have nn : ∀ s : SumTree d, Φ.dot x x s = .inf false ∨ ∃ r, 0 ≤ r ∧ Φ.dot x x s = .fin r := fun s => by
    induction s with
    | zero => exact .inr ⟨0, le_rfl, rfl⟩
    | leaf j => exact rn (sq j)
    | node l r ihl ihr => exact rn (ad ihl ihr).1
    | fma j s ih => exact rn (ad (sq j) ih).1
  have ri : ∀ {e : Dbl}, e = .inf false → Φ.rnd e = .inf false := by rintro _ rfl; rfl
  induction t with
  | zero => simp [SumTree.leaves] at hi
  | leaf j =>
    obtain rfl : i = j := by simpa [SumTree.leaves] using hi
    exact ri (sqi h)
  | node l r ihl ihr =>
    rw [SumTree.leaves, List.mem_append] at hi
    exact ri ((ad (nn l) (nn r)).2 (hi.imp ihl ihr))
  | fma j t ih =>
    rw [SumTree.leaves, List.mem_cons] at hi
    exact ri ((ad (sq j) (nn t)).2 (hi.imp (fun e => by subst e; exact sqi h) ih))

/-! ### errors -/

theorem exp_lost {γ D : ℝ} (hγ : 0 < γ) (hD : 0 ≤ D) {m n : Nat} (hmn : n ≤ m) (hm : m * Φ.R.u < 1)
    (h : Φ.max ≤ Φ.R.w ^ n * D ∨ Φ.max ≤ Φ.R.w ^ n * (γ * D)) : |0 - Real.exp (-γ * D)| ≤ Real.exp (-(min γ 1 * Φ.max / (1 + Φ.R.gamma m))) := by
  have hw : Φ.R.w ^ n ≤ 1 + Φ.R.gamma m := by
    have h1 := pow_w_le m hm
    have h2 := pow_le_pow_right₀ Φ.R.one_le_w hmn
    linarith
  have hg : 0 < 1 + Φ.R.gamma m := by linarith [gamma_nonneg hm]
  rw [zero_sub, abs_neg, abs_of_pos (Real.exp_pos _), Real.exp_le_exp, neg_mul, neg_le_neg_iff, div_le_iff₀ hg]
  have hmin : 0 < min γ 1 := lt_min hγ one_pos
  have key : min γ 1 * Φ.max ≤ γ * D * Φ.R.w ^ n := by
    rcases h with h | h
    · calc min γ 1 * Φ.max ≤ γ * (Φ.R.w ^ n * D) := mul_le_mul (min_le_left _ _) h Φ.max_pos.le hγ.le
        _ = γ * D * Φ.R.w ^ n := by ring
    · calc min γ 1 * Φ.max ≤ 1 * (Φ.R.w ^ n * (γ * D)) := mul_le_mul (min_le_right _ _) h Φ.max_pos.le one_pos.le
        _ = γ * D * Φ.R.w ^ n := by ring
  exact key.trans (mul_le_mul_of_nonneg_left hw (mul_nonneg hγ.le hD))

theorem lost_nonneg (k : NumKernel) (m : Nat) : 0 ≤ Φ.lost k m := by
  unfold lost
  split
  · exact (Real.exp_pos _).le
  · exact (Real.exp_pos _).le
  · exact le_rfl

/-- a finite value has been computed without overflow, or is 0 instead of a tiny number -/
theorem detects {k : NumKernel} (hk : k.Detects) {x y : Fin d → ℝ} (hx : k.ValidAt x) (hm : k.roundings d * Φ.R.u < 1) {v : ℝ}
    (h : Φ.Computes k (fun i => .fin (x i)) (fun i => .fin (y i)) (.fin v)) :
    Φ.R.Computes k x y v ∨ ∃ c, k.on x y = .ok (.real c) ∧ |v - c| ≤ Φ.lost k (k.roundings d) := by
  cases k with
  | linear => exact .inl (computes_linear h)
  | poly deg γ b => exact .inl (computes_poly hx.1 h)
  | gaussian σ γ =>
    obtain ⟨r, hr, h1⟩ := computes_gaussian hk h
    obtain rfl := Dbl.fin.inj hr
    refine h1.imp_right fun ⟨h2, h3⟩ => ⟨_, on_gaussian σ γ x y, ?_⟩
    subst h2
    exact exp_lost hk (sum_nonneg fun i _ => sq_nonneg _) (show d + 6 ≤ d + 7 by omega) hm h3
  | laplacian γ =>
    obtain ⟨r, hr, h1⟩ := computes_laplacian hk h
    obtain rfl := Dbl.fin.inj hr
    refine h1.imp_right fun ⟨h2, h3⟩ => ⟨_, on_laplacian γ x y, ?_⟩
    subst h2
    exact exp_lost hk (sum_nonneg fun i _ => abs_nonneg _) (show d + 2 ≤ d + 3 by omega) hm h3
  | chi2 γ => exact hk.elim
  | sigmoid γ o => exact hk.elim
  | hadamard α => exact hk.elim

/-! ### kernel matrices -/

/-- the entry of the kernel matrix -/
theorem overflow_entry {env : Env NumKernel (List Dbl) F} (he : OverflowEnv Φ env) {k : NumKernel} {l l' : List Dbl} {n : Nat} (hl : l.length = n) (hl' : l'.length = n)
    (hc : ∀ γ, k = .chi2 γ → ∀ a ∈ l ++ l', ¬ a.Neg) :
    (∀ t, env.fails t k l l' = false) ∧ ∃ v : Dbl, env.kval k l l' = v.toF ∧
      Φ.Computes k (fun i : Fin n => l.get (i.cast hl.symm)) (fun i : Fin n => l'.get (i.cast hl'.symm)) v := by
  subst hl
  have e1 : l = List.ofFn fun i : Fin l.length => l.get (i.cast rfl) := by simp
  have e2 : l' = List.ofFn fun i : Fin l.length => l'.get (i.cast hl'.symm) := by
    apply List.ext_get
    · simp [hl']
    · intro m h1 h2
      simp
  have := he.call k (fun i : Fin l.length => l.get (i.cast rfl)) (fun i : Fin l.length => l'.get (i.cast hl'.symm)) fun γ e i =>
    ⟨hc γ e _ (by simp), hc γ e _ (by simp)⟩
  rw [← e1, ← e2] at this
  exact this

end FloatFormat

namespace KMState
open FloatFormat

theorem overflow_quiet {env : Env NumKernel (List Dbl) F} (he : OverflowEnv Φ env) (k : NumKernel) (a : Attachment (List Dbl)) : Quiet env k a := fun h => by
  rw [he.fmt] at h
  cases h

theorem overflow_noFaultsOn {env : Env NumKernel (List Dbl) F} (he : OverflowEnv Φ env) {k : NumKernel} {A : Arr2 (List Dbl)} (hA : A.Rectangular)
    (hc : ∀ γ, k = .chi2 γ → ∀ i, i < A.nrows → ∀ a ∈ A.row i, ¬ a.Neg) : NoFaultsOn env k ⟨A, none⟩ := by
  intro t x y hx hy
  obtain ⟨i, rfl⟩ := isRow_none hx
  obtain ⟨j, rfl⟩ := isRow_none hy
  refine (overflow_entry he (hA i i.2) (hA j j.2) fun γ e a ha => ?_).1 t
  rcases List.mem_append.1 ha with ha | ha
  · exact hc γ e i i.2 a ha
  · exact hc γ e j j.2 a ha

end KMState

/-! ### an environment -/

open Classical in
/-- `KernelMatrix` on the numeric kernels, each computed in one of the possible ways -/
noncomputable def overflowEnv (Φ : FloatFormat) : Env NumKernel (List Dbl) F where
  kval k x y :=
    if h : ∃ v : Dbl, ∃ d, ∃ a b : Fin d → Dbl, x = List.ofFn a ∧ y = List.ofFn b ∧ Φ.Computes k a b v then (Classical.choose h).toF else .nan
  fails := fun _ _ _ _ => false
  ops := realOps
  fmtRaises := fun _ => false

theorem overflowEnv_ok (Φ : FloatFormat) : OverflowEnv Φ (overflowEnv Φ) where
  fmt _ := rfl
  call := by
    intro d k x y hk
    refine ⟨fun _ => rfl, ?_⟩
    obtain ⟨w, hw⟩ := FloatFormat.exists_computes (Φ := Φ) k hk
    have h : ∃ v : Dbl, ∃ d', ∃ a b : Fin d' → Dbl, List.ofFn x = List.ofFn a ∧ List.ofFn y = List.ofFn b ∧ Φ.Computes k a b v :=
      ⟨w, d, x, y, rfl, rfl, hw⟩
    refine ⟨Classical.choose h, dif_pos h, ?_⟩
    have hs := Classical.choose_spec h
    revert hs
    generalize Classical.choose h = v
    rintro ⟨d', a, b, ha, hb, hc⟩
    have hd : d = d' := by simpa using congrArg List.length ha
    subst hd
    rw [List.ofFn_injective ha, List.ofFn_injective hb]
    exact hc

end KMethods
