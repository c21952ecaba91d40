import Verif.Spec.OverflowAlign
import Verif.Lemmas.OverflowNorm
import Verif.Lemmas.RoundAlign
/-! # Centering and alignment with overflow -/
namespace KMethods
open Rounding

variable {Φ : FloatFormat} {n m : Nat}

namespace FloatFormat

theorem dot_fin_real {d : Nat} {a b : Fin d → Dbl} {t : SumTree d} (ht : t.Complete) {v : ℝ} (h : Φ.dot a b t = .fin v) :
    ∃ a' b' : Fin d → ℝ, (∀ i, a i = .fin (a' i)) ∧ (∀ i, b i = .fin (b' i)) ∧ v = t.dotR Φ.R a' b' := by
  choose A hA using fun i => (dot_fin_terms h i (Complete.mem ht i)).1
  choose B hB using fun i => (dot_fin_terms h i (Complete.mem ht i)).2
  obtain rfl : a = fun i => .fin (A i) := funext hA
  obtain rfl : b = fun i => .fin (B i) := funext hB
  exact ⟨A, B, hA, hB, dot_fin h⟩

theorem centeringMatrix_fin {i j : Fin n} {v : ℝ} (h : Φ.centeringMatrix n i j = .fin v) : v = Φ.R.cen n i j := by
  have hn : (n : ℝ) ≠ 0 := by exact_mod_cast i.pos.ne'
  obtain ⟨x, hx, rfl⟩ := rnd_fin h
  obtain ⟨a, b, ha, hb, rfl⟩ := Dbl.addX_fin hx
  generalize hq : Φ.rnd (Dbl.divX (.fin 1) (.fin (n : ℝ))) = q at hb
  cases q with
  | fin q =>
    simp only [Dbl.divX, if_neg hn] at hq
    have hq' : Φ.clip (Φ.R.fl (1 / n)) = .fin q := hq
    have hb' : -q = b := Dbl.fin.inj hb
    rw [← hb', ← Dbl.fin.inj ha, clip_fin hq', ← sub_eq_add_neg]
    rfl
  | inf s => cases hb
  | nan => cases hb

theorem center_fin {o o' : SumOrder} {K : Fin n → Fin n → Dbl} {i j : Fin n} {v : ℝ}
    (h : Φ.matmul o' (Φ.matmul o (Φ.centeringMatrix n) K) (Φ.centeringMatrix n) i j = .fin v) :
    ∃ K' : Matrix (Fin n) (Fin n) ℝ, (K = fun i j => .fin (K' i j)) ∧ v = Φ.R.centeredFl o o' K' i j := by
  obtain ⟨P, Q, hP, hQ, rfl⟩ := dot_fin_real (o'.complete n i j) h
  choose A B hA hB hAB using fun l : Fin n => dot_fin_real (o.complete n i l) (hP l)
  refine ⟨fun r l => B l r, funext fun r => funext fun l => hB l r, ?_⟩
  have h1 : ∀ l, A l = Φ.R.cen n i := fun l => funext fun r => centeringMatrix_fin (hA l r)
  have h2 : Q = fun l => Φ.R.cen n l j := funext fun l => centeringMatrix_fin (hQ l)
  have h3 : P = fun l : Fin n => (o.tree n i l).dotR Φ.R (Φ.R.cen n i) fun r => B l r := funext fun l => by rw [hAB l, h1 l]
  rw [h2, h3]
  rfl

theorem centerKm_square (o o' : SumOrder) (K : Fin n → Fin n → Dbl) :
    Φ.centerKm o o' ⟨n, n, K⟩ = .ok ⟨n, n, Φ.matmul o' (Φ.matmul o (Φ.centeringMatrix n) K) (Φ.centeringMatrix n)⟩ := if_pos rfl

/-! ### no overflow -/

theorem abs_cen_le (i j : Fin n) : |Φ.R.cen n i j| ≤ Φ.R.w ^ 2 * cenT n i j := by
  have h1 := cen_err (R := Φ.R) i j
  have h2 := cen_abs i j
  have h3 := abs_sub_abs_le_abs_sub (Φ.R.cen n i j) ((if i = j then 1 else 0) - 1 / n : ℝ)
  nlinarith

theorem cenT_nonneg (i j : Fin n) : 0 ≤ cenT n i j := (abs_nonneg _).trans (cen_abs i j)

theorem cenT_le (i j : Fin n) : cenT n i j ≤ 2 := by
  have hn : (1 : ℝ) ≤ n := by exact_mod_cast i.pos
  have : (1 : ℝ) / n ≤ 1 := by rw [div_le_one (by linarith)]; exact hn
  unfold cenT
  split <;> linarith

theorem w_pow_le_two {k : Nat} (hu : 2 * (k * Φ.R.u) ≤ 1) : Φ.R.w ^ k ≤ 2 := by
  have h1 : (k : ℝ) * Φ.R.u < 1 := by linarith
  have h2 := pow_w_le (R := Φ.R) k h1
  have h3 : Φ.R.gamma k ≤ 1 := by
    unfold Rounding.gamma
    rw [div_le_one (by linarith)]
    linarith
  linarith

theorem centeringMatrix_ok (hw : Φ.R.w ^ 2 ≤ 2) : Φ.centeringMatrix n = fun i j => .fin (Φ.R.cen n i j) := by
  funext i j
  have hn : (n : ℝ) ≠ 0 := by exact_mod_cast i.pos.ne'
  have hn1 : (1 : ℝ) ≤ n := by exact_mod_cast i.pos
  have h4 := Φ.four_le
  have e : Φ.rnd (Dbl.divX (.fin 1) (.fin (n : ℝ))) = .fin (Φ.R.fl (1 / n)) := by
    simp only [Dbl.divX, if_neg hn]
    refine clip_of_le ((rel_fl (R := Φ.R) _).le.trans ?_)
    rw [pow_one, abs_of_nonneg (by positivity)]
    have : (1 : ℝ) / n ≤ 1 := by rw [div_le_one (by linarith)]; exact hn1
    have := Φ.R.one_le_w
    nlinarith
  unfold centeringMatrix
  rw [e]
  show Φ.clip (Φ.R.fl (_ + -_)) = _
  rw [← sub_eq_add_neg]
  refine clip_of_le ((abs_cen_le (Φ := Φ) i j).trans ?_)
  have := cenT_le i j
  have := cenT_nonneg i j
  have := Φ.R.one_le_w
  nlinarith [sq_nonneg Φ.R.w]

theorem total_complete {d : Nat} {t : SumTree d} (ht : t.Complete) (f : Fin d → ℝ) : t.total f = ∑ i, f i := by
  exact ht.total f

theorem center_moderate (o o' : SumOrder) {K : Matrix (Fin n) (Fin n) ℝ} {M : ℝ} (hM : ∀ i j, |K i j| ≤ M) (hu : 2 * ((2 * n + 4 : Nat) * Φ.R.u) ≤ 1)
    (hmax : 8 * M ≤ Φ.max) : Φ.matmul o' (Φ.matmul o (Φ.centeringMatrix n) fun i j => .fin (K i j)) (Φ.centeringMatrix n) = fun i j => .fin (Φ.R.centeredFl o o' K i j) := by
  have hw := w_pow_le_two hu
  have hw2 : Φ.R.w ^ 2 ≤ 2 := (pow_le_pow_right₀ Φ.R.one_le_w (by omega)).trans hw
  rw [centeringMatrix_ok hw2]
  have hrow : ∀ i : Fin n, ∑ k, cenT n i k = 2 := fun i => by
    have hn : (n : ℝ) ≠ 0 := by exact_mod_cast i.pos.ne'
    have := cenT_row (fun _ => 1) i
    simp only [mul_one, Finset.sum_const, Finset.card_univ, Fintype.card_fin, nsmul_eq_mul, div_self hn] at this
    linarith
  have hcol : ∀ j : Fin n, ∑ k, cenT n k j = 2 := fun j => by
    have hn : (n : ℝ) ≠ 0 := by exact_mod_cast j.pos.ne'
    have := cenT_col (fun _ => 1) j
    simp only [one_mul, mul_one, Finset.sum_const, Finset.card_univ, Fintype.card_fin, nsmul_eq_mul, div_self hn] at this
    linarith
  have hM0 : ∀ _ : Fin n, 0 ≤ M := fun i => (abs_nonneg _).trans (hM i i)
  have hwp : ∀ k, 0 < Φ.R.w ^ k := fun k => pow_w_pos k
  have h1 : ∀ i l : Fin n, Φ.R.w ^ (o.tree n i l).leaves.length * (o.tree n i l).total (fun r => |Φ.R.cen n i r * K r l|) ≤ Φ.R.w ^ (n + 2) * (2 * M) := fun i l => by
    rw [total_complete (o.complete n i l), (o.complete n i l).length_eq, List.length_finRange, pow_add, mul_assoc]
    refine mul_le_mul_of_nonneg_left ?_ (hwp n).le
    calc ∑ r, |Φ.R.cen n i r * K r l| ≤ ∑ r, Φ.R.w ^ 2 * cenT n i r * M := Finset.sum_le_sum fun r _ => by
          rw [abs_mul]
          exact mul_le_mul (abs_cen_le i r) (hM r l) (abs_nonneg _) (mul_nonneg (hwp 2).le (cenT_nonneg i r))
      _ = Φ.R.w ^ 2 * (2 * M) := by
          rw [← Finset.sum_mul, ← Finset.mul_sum, hrow i]
          ring
  have hP : ∀ i l : Fin n, |(o.tree n i l).dotR Φ.R (Φ.R.cen n i) fun r => K r l| ≤ Φ.R.w ^ (n + 2) * (2 * M) := fun i l => (abs_dotR_le _ _ _).trans (h1 i l)
  have e1 : (Φ.matmul o (fun i j => .fin (Φ.R.cen n i j)) fun i j => .fin (K i j)) = fun i l => .fin ((o.tree n i l).dotR Φ.R (Φ.R.cen n i) fun r => K r l) := by
    funext i l
    refine dot_moderate ((h1 i l).trans (le_trans ?_ hmax))
    have : Φ.R.w ^ (n + 2) ≤ 2 := (pow_le_pow_right₀ Φ.R.one_le_w (by omega)).trans hw
    nlinarith [hM0 i]
  rw [e1]
  funext i j
  refine dot_moderate ?_
  rw [total_complete (o'.complete n i j), (o'.complete n i j).length_eq, List.length_finRange]
  have h2 : ∑ l : Fin n, |(o.tree n i l).dotR Φ.R (Φ.R.cen n i) (fun r => K r l) * Φ.R.cen n l j| ≤ Φ.R.w ^ (n + 4) * (4 * M) :=
    calc _ ≤ ∑ l, Φ.R.w ^ (n + 2) * (2 * M) * (Φ.R.w ^ 2 * cenT n l j) := Finset.sum_le_sum fun l _ => by
          rw [abs_mul]
          exact mul_le_mul (hP i l) (abs_cen_le l j) (abs_nonneg _) (mul_nonneg (hwp _).le (by linarith [hM0 i]))
      _ = _ := by
          rw [← Finset.mul_sum, ← Finset.mul_sum, hcol j]
          ring
  have h3 : Φ.R.w ^ n * (Φ.R.w ^ (n + 4) * (4 * M)) = Φ.R.w ^ (2 * n + 4) * (4 * M) := by ring
  refine (mul_le_mul_of_nonneg_left h2 (hwp n).le).trans ?_
  rw [h3]
  nlinarith [hM0 i]

/-! ### Frobenius products -/

theorem frobeniusProduct_same (t : FlatOrder) (A B : Fin n → Fin m → Dbl) :
    Φ.frobeniusProduct t ⟨n, m, A⟩ ⟨n, m, B⟩ = .ok (Φ.dot (fun p => A p.divNat p.modNat) (fun p => B p.divNat p.modNat) (t.tree (n * m))) := dif_pos ⟨rfl, rfl⟩

theorem frob_fin {t : FlatOrder} {A B : Fin n → Fin m → Dbl} {v : ℝ}
    (h : Φ.dot (fun p => A p.divNat p.modNat) (fun p => B p.divNat p.modNat) (t.tree (n * m)) = .fin v) :
    ∃ A' B' : Matrix (Fin n) (Fin m) ℝ, (A = fun i j => .fin (A' i j)) ∧ (B = fun i j => .fin (B' i j)) ∧ v = Φ.R.frobFl t A' B' := by
  obtain ⟨a, b, ha, hb, rfl⟩ := dot_fin_real (t.complete (n * m)) h
  have hd : ∀ (i : Fin n) (j : Fin m), (finProdFinEquiv (i, j)).divNat = i ∧ (finProdFinEquiv (i, j)).modNat = j := fun i j => by
    have := finProdFinEquiv.symm_apply_apply (i, j)
    exact ⟨congrArg Prod.fst this, congrArg Prod.snd this⟩
  have hc : ∀ p : Fin (n * m), finProdFinEquiv (p.divNat, p.modNat) = p := fun p => finProdFinEquiv.apply_symm_apply p
  refine ⟨fun i j => a (finProdFinEquiv (i, j)), fun i j => b (finProdFinEquiv (i, j)), ?_, ?_, ?_⟩
  · funext i j
    rw [← ha, (hd i j).1, (hd i j).2]
  · funext i j
    rw [← hb, (hd i j).1, (hd i j).2]
  · unfold Rounding.frobFl
    congr 1
    · funext p; exact (congrArg a (hc p)).symm
    · funext p; exact (congrArg b (hc p)).symm

theorem frob_moderate (t : FlatOrder) {A B : Matrix (Fin n) (Fin m) ℝ} (h : Φ.R.w ^ (n * m) * ∑ i, ∑ j, |A i j * B i j| ≤ Φ.max) :
    Φ.dot (fun p => .fin (A p.divNat p.modNat)) (fun p => .fin (B p.divNat p.modNat)) (t.tree (n * m)) = .fin (Φ.R.frobFl t A B) := by
  refine dot_moderate ?_
  rwa [total_complete (t.complete _), (t.complete _).length_eq, List.length_finRange, sum_flat fun i j => |A i j * B i j|]

theorem sum_self (A : Matrix (Fin n) (Fin m) ℝ) : ∑ i, ∑ j, |A i j * A i j| = frobInner A A :=
  Finset.sum_congr rfl fun _ _ => Finset.sum_congr rfl fun _ _ => abs_of_nonneg (mul_self_nonneg _)

/-- the norm is finite unless the sum of squares is too large -/
theorem norm_cases (t : FlatOrder) (A : Matrix (Fin n) (Fin m) ℝ) :
    Φ.rnd (.sqrtX (Φ.dot (fun p => .fin (A p.divNat p.modNat)) (fun p => .fin (A p.divNat p.modNat)) (t.tree (n * m)))) = .fin (Φ.R.normFl t A) ∨
      Φ.max < Φ.R.w ^ (n * m) * frobInner A A := by
  rcases le_or_gt (Φ.R.w ^ (n * m) * frobInner A A) Φ.max with h | h
  · left
    have e := frob_moderate t (A := A) (B := A) (by rwa [sum_self])
    rw [e, sqrt_fin ((frobFl_self t A).nonneg (frobInner_self_nonneg A)) ((le_abs_self _).trans (dot_le e))]
    rfl
  · exact .inr h

theorem norm_fin {t : FlatOrder} {A : Matrix (Fin n) (Fin m) ℝ} {v : ℝ}
    (h : Φ.rnd (.sqrtX (Φ.dot (fun p => .fin (A p.divNat p.modNat)) (fun p => .fin (A p.divNat p.modNat)) (t.tree (n * m)))) = .fin v) : v = Φ.R.normFl t A := by
  obtain ⟨x, hx, rfl⟩ := rnd_fin h
  generalize hs : Φ.dot (fun p : Fin (n * m) => Dbl.fin (A p.divNat p.modNat)) (fun p => .fin (A p.divNat p.modNat)) (t.tree (n * m)) = s at hx
  cases s with
  | fin s =>
    have e := dot_fin hs
    have h0 : 0 ≤ s := by rw [e]; exact (frobFl_self t A).nonneg (frobInner_self_nonneg A)
    simp only [Dbl.sqrtX, if_neg (not_lt.2 h0)] at hx
    rw [← Dbl.fin.inj hx, e]
    rfl
  | inf s => cases s <;> cases hx
  | nan => cases hx

/-! ### alignment -/

theorem alignmentOf_same (o : AlignOrders) (A B : Fin n → Fin m → Dbl) (zd : Option Dbl) :
    Φ.alignmentOf o ⟨n, m, A⟩ ⟨n, m, B⟩ zd =
      open Classical in
      if (Φ.rnd (.sqrtX (Φ.dot (fun p => A p.divNat p.modNat) (fun p => A p.divNat p.modNat) (o.na.tree (n * m))))).CloseToZero ∨
          (Φ.rnd (.sqrtX (Φ.dot (fun p => B p.divNat p.modNat) (fun p => B p.divNat p.modNat) (o.nb.tree (n * m))))).CloseToZero then
        match zd with
        | none => .error .valueError
        | some v => .ok v
      else .ok (Φ.rnd (.divX (Φ.dot (fun p => A p.divNat p.modNat) (fun p => B p.divNat p.modNat) (o.p.tree (n * m)))
        (Φ.rnd (.mulX (Φ.rnd (.sqrtX (Φ.dot (fun p => A p.divNat p.modNat) (fun p => A p.divNat p.modNat) (o.na.tree (n * m)))))
          (Φ.rnd (.sqrtX (Φ.dot (fun p => B p.divNat p.modNat) (fun p => B p.divNat p.modNat) (o.nb.tree (n * m))))))))) := by
  unfold alignmentOf frobeniusNorm
  rw [frobeniusProduct_same, frobeniusProduct_same, frobeniusProduct_same]
  rfl

theorem norm_pos {t : FlatOrder} {A : Matrix (Fin n) (Fin m) ℝ} (h : ¬ NearZero (Φ.R.normFl t A)) : 0 < Real.sqrt (frobInner A A) := by
  refine (Real.sqrt_nonneg _).lt_of_ne fun e => h ?_
  have := (normFl_rel (R := Φ.R) t A).le
  rw [← e, abs_zero, mul_zero] at this
  exact this.trans (by norm_num)

theorem max_le_left {k l : Nat} (hk : k ≤ l) {a b M : ℝ} (ha : 0 ≤ a) (h : M < Φ.R.w ^ k * a) : M < Φ.R.w ^ l * (a ⊔ b) :=
  h.trans_le (mul_le_mul (pow_le_pow_right₀ Φ.R.one_le_w hk) (le_max_left a b) ha (pow_w_pos l).le)

theorem sqrt_mul_sqrt_le {a b : ℝ} (ha : 0 ≤ a) : Real.sqrt a * Real.sqrt b ≤ a ⊔ b := by
  have h1 := Real.sqrt_le_sqrt (le_max_left a b)
  have h2 := Real.sqrt_le_sqrt (le_max_right a b)
  have h3 := Real.mul_self_sqrt (ha.trans (le_max_left a b))
  exact (mul_le_mul h1 h2 (Real.sqrt_nonneg _) (Real.sqrt_nonneg _)).trans h3.le

theorem divX_fin {a b : Dbl} {v : ℝ} (h : a.divX b = .fin v) : ∃ x, a = .fin x ∧ ((∃ y, b = .fin y ∧ y ≠ 0 ∧ v = x / y) ∨ (∃ s, b = .inf s) ∧ v = 0) := by
  cases a <;> cases b <;> simp only [Dbl.divX] at h
  · split at h
    · split at h <;> cases h
    · rename_i x y hy
      exact ⟨x, rfl, .inl ⟨y, rfl, hy, (Dbl.fin.inj h).symm⟩⟩
  · exact ⟨_, rfl, .inr ⟨⟨_, rfl⟩, (Dbl.fin.inj h).symm⟩⟩
  all_goals cases h

/-- a finite alignment is the result of a computation without overflow, or 0 because the norms are too large -/
theorem align_cases {o : AlignOrders} {A B : Fin n → Fin m → Dbl} {v : ℝ} (h : Φ.alignmentOf o ⟨n, m, A⟩ ⟨n, m, B⟩ none = .ok (.fin v)) :
    ∃ A' B' : Matrix (Fin n) (Fin m) ℝ, (A = fun i j => .fin (A' i j)) ∧ (B = fun i j => .fin (B' i j)) ∧
      ((v = Φ.R.alignFl o A' B' ∧ 0 < Real.sqrt (frobInner A' A') ∧ 0 < Real.sqrt (frobInner B' B')) ∨
        v = 0 ∧ Φ.max < Φ.R.w ^ (2 * (n * m) + 3) * (frobInner A' A' ⊔ frobInner B' B')) := by
  rw [alignmentOf_same] at h
  split at h
  · cases h
  rename_i hz
  injection h with h
  obtain ⟨x, hx, rfl⟩ := rnd_fin h
  obtain ⟨p, hp, hq⟩ := divX_fin hx
  obtain ⟨A', B', rfl, rfl, rfl⟩ := frob_fin hp
  refine ⟨A', B', rfl, rfl, ?_⟩
  rcases hq with ⟨q, hq, hq0, rfl⟩ | ⟨⟨s, hq⟩, rfl⟩
  · obtain ⟨r, hr, rfl⟩ := rnd_fin hq
    obtain ⟨a, b, ha, hb, rfl⟩ := Dbl.mulX_fin hr
    rw [ha, hb] at hz
    obtain rfl := norm_fin ha
    obtain rfl := norm_fin hb
    push Not at hz
    exact .inl ⟨rfl, norm_pos hz.1, norm_pos hz.2⟩
  · right
    refine ⟨Φ.R.fl_zero, ?_⟩
    have hA0 := frobInner_self_nonneg A'
    have hB0 := frobInner_self_nonneg B'
    rcases norm_cases (Φ := Φ) o.na A' with hA | hA
    · rcases norm_cases (Φ := Φ) o.nb B' with hB | hB
      · rw [hA, hB] at hq
        have hq' : Φ.max < |Φ.R.fl (Φ.R.normFl o.na A' * Φ.R.normFl o.nb B')| := by
          by_contra hc
          have e : Φ.rnd (Dbl.mulX (.fin (Φ.R.normFl o.na A')) (.fin (Φ.R.normFl o.nb B'))) = .fin (Φ.R.fl (Φ.R.normFl o.na A' * Φ.R.normFl o.nb B')) :=
            clip_of_le (not_lt.1 hc)
          rw [e] at hq
          cases hq
        have h1 := (((normFl_rel (R := Φ.R) o.na A').mul (normFl_rel (R := Φ.R) o.nb B')).fl).le
        have h2 : 0 ≤ Real.sqrt (frobInner A' A') * Real.sqrt (frobInner B' B') := by positivity
        rw [abs_of_nonneg h2] at h1
        exact (hq'.trans_le h1).trans_le (mul_le_mul (pow_le_pow_right₀ Φ.R.one_le_w (by omega)) (sqrt_mul_sqrt_le hA0) h2 (pow_w_pos _).le)
      · have h1 := max_le_left (b := frobInner A' A') (show n * m ≤ 2 * (n * m) + 3 by omega) hB0 hB
        rwa [max_comm] at h1
    · exact max_le_left (show n * m ≤ 2 * (n * m) + 3 by omega) hA0 hA

/-- an alignment without overflow -/
theorem align_moderate (o : AlignOrders) {A B : Matrix (Fin n) (Fin m) ℝ} (hw : Φ.R.w ^ (3 * (n * m) + 4) ≤ 2) (hA : 2 * frobInner A A ≤ Φ.max) (hB : 2 * frobInner B B ≤ Φ.max)
    (zd : Option Dbl) :
    ((NearZero (Φ.R.normFl o.na A) ∨ NearZero (Φ.R.normFl o.nb B)) → Φ.alignmentOf o (Mat.floats A) (Mat.floats B) zd =
      match zd with
      | none => .error .valueError
      | some v => .ok v) ∧
    (¬ (NearZero (Φ.R.normFl o.na A) ∨ NearZero (Φ.R.normFl o.nb B)) → Φ.alignmentOf o (Mat.floats A) (Mat.floats B) zd = .ok (.fin (Φ.R.alignFl o A B))) := by
  have hwk : ∀ k, k ≤ 3 * (n * m) + 4 → Φ.R.w ^ k ≤ 2 := fun k hk => (pow_le_pow_right₀ Φ.R.one_le_w hk).trans hw
  have hA0 := frobInner_self_nonneg A
  have hB0 := frobInner_self_nonneg B
  have eA := (norm_cases (Φ := Φ) o.na A).resolve_right (not_lt.2 ((mul_le_mul_of_nonneg_right (hwk (n * m) (by omega)) hA0).trans hA))
  have eB := (norm_cases (Φ := Φ) o.nb B).resolve_right (not_lt.2 ((mul_le_mul_of_nonneg_right (hwk (n * m) (by omega)) hB0).trans hB))
  have hM : 2 * (frobInner A A ⊔ frobInner B B) ≤ Φ.max := by
    rcases max_choice (frobInner A A) (frobInner B B) with e | e <;> rw [e] <;> assumption
  have h2 : 0 ≤ Real.sqrt (frobInner A A) * Real.sqrt (frobInner B B) := by positivity
  have h3 := sqrt_mul_sqrt_le (b := frobInner B B) hA0
  unfold Mat.floats
  rw [alignmentOf_same, eA, eB]
  refine ⟨fun h => if_pos h, fun h => ?_⟩
  refine (if_neg h).trans ?_
  push Not at h
  have hA1 := norm_pos (Φ := Φ) h.1
  have hB1 := norm_pos (Φ := Φ) h.2
  have e1 : Φ.rnd (Dbl.mulX (.fin (Φ.R.normFl o.na A)) (.fin (Φ.R.normFl o.nb B))) = .fin (Φ.R.fl (Φ.R.normFl o.na A * Φ.R.normFl o.nb B)) := by
    refine clip_of_le ?_
    have h1 := (((normFl_rel (R := Φ.R) o.na A).mul (normFl_rel (R := Φ.R) o.nb B)).fl).le
    rw [abs_of_nonneg h2] at h1
    exact h1.trans ((mul_le_mul (hwk _ (by omega)) h3 h2 (by norm_num)).trans hM)
  have e2 : Φ.dot (fun p : Fin (n * m) => .fin (A p.divNat p.modNat)) (fun p => .fin (B p.divNat p.modNat)) (o.p.tree (n * m)) = .fin (Φ.R.frobFl o.p A B) := by
    refine frob_moderate o.p (le_trans (mul_le_mul (hwk _ (by omega)) ?_ ?_ (by norm_num)) hM)
    · refine le_trans ?_ h3
      have := frobInner_abs_le (fun i j => |A i j|) fun i j => |B i j|
      simp only [frobInner, abs_mul_abs_self] at this
      unfold frobInner
      refine le_trans (le_abs_self _) (le_trans (le_of_eq ?_) this)
      simp only [abs_mul]
    · exact Finset.sum_nonneg fun _ _ => Finset.sum_nonneg fun _ _ => abs_nonneg _
  have h0 : Φ.R.fl (Φ.R.normFl o.na A * Φ.R.normFl o.nb B) ≠ 0 := by
    have z : ∀ {x : ℝ}, ¬ NearZero x → x ≠ 0 := fun {x} hx e => hx (by rw [e, NearZero, abs_zero]; norm_num)
    exact fl_ne_zero (mul_ne_zero (z h.1) (z h.2))
  rw [e1, e2]
  simp only [Dbl.divX, if_neg h0]
  have h5 := alignFl_err (R := Φ.R) o hA1 hB1
  have h6 : |frobInner A B / (Real.sqrt (frobInner A A) * Real.sqrt (frobInner B B))| ≤ 1 := by
    rw [abs_div, abs_of_pos (mul_pos hA1 hB1), div_le_one (mul_pos hA1 hB1)]
    exact frobInner_abs_le A B
  have h7 := abs_sub_abs_le_abs_sub (Φ.R.alignFl o A B) (frobInner A B / (Real.sqrt (frobInner A A) * Real.sqrt (frobInner B B)))
  have h8 := Φ.four_le
  exact congrArg Except.ok (clip_of_le (show |Φ.R.alignFl o A B| ≤ Φ.max by linarith))

/-- if only the norm of one matrix overflows, the alignment is 0 -/
theorem align_overflow (o : AlignOrders) {A B : Matrix (Fin n) (Fin m) ℝ} (hw : Φ.R.w ^ (n * m + 1) ≤ 2) (hA : 2 * Φ.max < frobInner A A)
    (hAB : 2 * ∑ i, ∑ j, |A i j * B i j| ≤ Φ.max) (hB : 2 * frobInner B B ≤ Φ.max) (hB0 : 1e-7 ≤ Real.sqrt (frobInner B B)) (zd : Option Dbl) :
    Φ.alignmentOf o (Mat.floats A) (Mat.floats B) zd = .ok (.fin 0) := by
  have hwk : Φ.R.w ^ (n * m) ≤ 2 := (pow_le_pow_right₀ Φ.R.one_le_w (by omega)).trans hw
  have eA : Φ.dot (fun p : Fin (n * m) => .fin (A p.divNat p.modNat)) (fun p => .fin (A p.divNat p.modNat)) (o.na.tree (n * m)) = .inf false := by
    refine dot_overflow (fun _ => mul_self_nonneg _) ?_
    obtain ⟨c, h1, -, h3⟩ := frobFl_self (R := Φ.R) o.na A
    show Φ.max < Φ.R.frobFl o.na A A
    rw [h3]
    have h4 : 1 / 2 ≤ c := le_trans (by rw [one_div]; exact inv_anti₀ (pow_w_pos _) hwk) h1
    nlinarith [Φ.max_pos]
  have eB := (norm_cases (Φ := Φ) o.nb B).resolve_right (not_lt.2 ((mul_le_mul_of_nonneg_right hwk (frobInner_self_nonneg B)).trans hB))
  have e2 := frob_moderate (Φ := Φ) o.p (A := A) (B := B)
    ((mul_le_mul_of_nonneg_right hwk (Finset.sum_nonneg fun _ _ => Finset.sum_nonneg fun _ _ => abs_nonneg _)).trans hAB)
  obtain ⟨c, h1, -, h3⟩ := normFl_rel (R := Φ.R) o.nb B
  have h4 : 1 / 2 ≤ c := le_trans (by rw [one_div]; exact inv_anti₀ (pow_w_pos _) hw) h1
  have h5 : 1e-8 < Φ.R.normFl o.nb B := by
    rw [h3]
    norm_num at hB0 ⊢
    nlinarith
  unfold Mat.floats
  rw [alignmentOf_same, eA, eB, e2]
  refine (if_neg ?_).trans ?_
  · rintro (h | h)
    · exact h
    · exact absurd ((le_abs_self _).trans h) (not_le.2 h5)
  · have h6 : Φ.R.normFl o.nb B ≠ 0 := (lt_trans (by norm_num) h5).ne'
    simp only [Dbl.sqrtX, rnd, Dbl.mulX, if_neg h6, Bool.false_eq_true, if_false, Dbl.divX]
    rw [Φ.R.fl_zero]
    exact congrArg Except.ok (clip_of_le (by rw [abs_zero]; exact Φ.max_pos.le))

theorem alignmentCentered_false (o : AlignOrders) (A B : Fin n → Fin n → Dbl) (zd : Option Dbl) :
    Φ.alignmentCentered o ⟨n, n, A⟩ ⟨n, n, B⟩ zd false =
      Φ.alignmentOf o ⟨n, n, Φ.matmul o.a₂ (Φ.matmul o.a₁ (Φ.centeringMatrix n) A) (Φ.centeringMatrix n)⟩
        ⟨n, n, Φ.matmul o.b₂ (Φ.matmul o.b₁ (Φ.centeringMatrix n) B) (Φ.centeringMatrix n)⟩ zd := by
  unfold alignmentCentered centerUnless
  rw [if_neg (by rintro (h | h) <;> exact h rfl)]
  simp only [Bool.false_eq_true, if_false]
  rw [centerKm_square, centerKm_square]
  rfl

theorem alignmentCentered_true (o : AlignOrders) (A B : Fin n → Fin m → Dbl) (zd : Option Dbl) :
    Φ.alignmentCentered o ⟨n, m, A⟩ ⟨n, m, B⟩ zd true = Φ.alignmentOf o ⟨n, m, A⟩ ⟨n, m, B⟩ zd := by
  unfold alignmentCentered centerUnless
  rw [if_neg (by rintro (h | h) <;> exact h rfl)]
  rfl

/-- the centered matrix is finite only if the matrix is -/
theorem center_all {o o' : SumOrder} {K : Fin n → Fin n → Dbl} {C : Matrix (Fin n) (Fin n) ℝ}
    (h : Φ.matmul o' (Φ.matmul o (Φ.centeringMatrix n) K) (Φ.centeringMatrix n) = fun i j => .fin (C i j)) :
    ∃ K' : Matrix (Fin n) (Fin n) ℝ, (K = fun i j => .fin (K' i j)) ∧ C = Φ.R.centeredFl o o' K' := by
  rcases Nat.eq_zero_or_pos n with rfl | hn
  · exact ⟨fun i => i.elim0, funext fun i => i.elim0, funext fun i => i.elim0⟩
  · have h' := fun i j => center_fin (congrFun (congrFun h i) j)
    obtain ⟨K', hK, -⟩ := h' ⟨0, hn⟩ ⟨0, hn⟩
    refine ⟨K', hK, funext fun i => funext fun j => ?_⟩
    obtain ⟨K2, hK2, e⟩ := h' i j
    obtain rfl : K' = K2 := funext fun r => funext fun l => by
      have := congrFun (congrFun (hK.symm.trans hK2) r) l
      exact Dbl.fin.inj this
    exact e

end FloatFormat
/-- the matrix ((c, −c), (−c, c)): the linear kernel of the points `√c` and `−√c` -/
def opposite (c : ℝ) : Matrix (Fin 2) (Fin 2) ℝ := fun i j => if i = j then c else -c

theorem opposite_centered (c : ℝ) : centered (opposite c) = opposite c := by
  funext i j
  fin_cases i <;> fin_cases j <;> simp [centered, opposite, Fin.sum_univ_two]

theorem opposite_psd {c : ℝ} (hc : 0 ≤ c) : IsPSD (opposite c) := by
  refine ⟨fun i j => by simp only [opposite, eq_comm], fun x => ?_⟩
  have : ∑ i, ∑ j, x i * opposite c i j * x j = c * (x 0 - x 1) ^ 2 := by
    simp [Fin.sum_univ_two, opposite]
    ring
  rw [this]
  positivity

theorem opposite_frob (a b : ℝ) : frobInner (opposite a) (opposite b) = 4 * (a * b) := by
  simp [frobInner, Fin.sum_univ_two, opposite]
  ring

theorem opposite_fl {R : Rounding} (o o' : SumOrder) {c : ℝ} (hc : 0 ≤ c) (hu : R.w ^ 8 ≤ 9 / 8) (i j : Fin 2) :
    c / 2 ≤ |R.centeredFl o o' (opposite c) i j| ∧ |R.centeredFl o o' (opposite c) i j| ≤ 3 * c / 2 := by
  have hsq := Real.mul_self_sqrt hc
  have habs : ∀ i j, |opposite c i j| = c := fun i j => by
    unfold opposite
    split_ifs
    · exact abs_of_nonneg hc
    · rw [abs_neg, abs_of_nonneg hc]
  have h := centeredFl_err (R := R) o o' (K := opposite c) (s := fun _ => Real.sqrt c) (fun i j => by rw [habs, hsq]) i j
  rw [opposite_centered] at h
  simp only [Fin.sum_univ_two] at h
  have e : ((Real.sqrt c + (Real.sqrt c + Real.sqrt c) / (2 : Nat)) * (Real.sqrt c + (Real.sqrt c + Real.sqrt c) / (2 : Nat))) = 4 * c := by
    push_cast
    nlinarith
  rw [e] at h
  have h2 : (R.w ^ (2 * 2 + 4) - 1) * (4 * c) ≤ c / 2 := by
    norm_num
    nlinarith
  have h3 := h.trans h2
  have h4 := abs_sub_abs_le_abs_sub (R.centeredFl o o' (opposite c) i j) (opposite c i j)
  have h5 := abs_sub_abs_le_abs_sub (opposite c i j) (R.centeredFl o o' (opposite c) i j)
  rw [abs_sub_comm, habs] at h5
  rw [habs] at h4
  constructor <;> linarith

open Rounding FloatFormat in
/-- the norm of the first matrix overflows -/
theorem opposite_align_zero (o : AlignOrders) {d : ℝ} (hd : 1 / 2 ≤ d) (hd2 : d ≤ 2) (zd : Option Dbl) :
    double.alignmentCentered o (Mat.floats (opposite (2 ^ 600))) (Mat.floats (opposite d)) zd false = .ok (.fin 0) := by
  have hu : ∀ k : Nat, k ≤ 64 → (k : ℝ) * double.R.u ≤ 1 / 16 := fun k hk => by
    have h1 : (k : ℝ) ≤ 64 := by exact_mod_cast hk
    have h2 : (64 : ℝ) * double.R.u ≤ 1 / 16 := by rw [double_u]; norm_num
    exact (mul_le_mul_of_nonneg_right h1 double.R.u_nonneg).trans h2
  have hw8 : double.R.w ^ 8 ≤ 9 / 8 := by
    have h1 := pow_w_le (R := double.R) 8 (lt_of_le_of_lt (hu 8 (by norm_num)) (by norm_num))
    have h2 : double.R.gamma 8 ≤ 1 / 8 := by
      show (8 : Nat) * double.R.u / (1 - (8 : Nat) * double.R.u) ≤ 1 / 8
      have h3 := hu 8 (by norm_num)
      generalize ((8 : Nat) : ℝ) * double.R.u = x at h3
      rw [div_le_iff₀ (by linarith)]
      linarith
    linarith
  have hmax := double_max
  have hlt : double.max < 2 ^ 1024 := by
    show (2 - 2⁻¹ ^ 52 : ℝ) * 2 ^ 1023 < 2 ^ 1024
    rw [show (2 : ℝ) ^ 1024 = 2 * 2 ^ 1023 by rw [← pow_succ']]
    exact mul_lt_mul_of_pos_right (by norm_num) (by positivity)
  have hbig : (2 : ℝ) ^ 600 * 1024 ≤ double.max := by
    refine le_trans ?_ hmax
    rw [show (1024 : ℝ) = 2 ^ 10 by norm_num, ← pow_add]
    exact pow_le_pow_right₀ (by norm_num) (by norm_num)
  have hbig2 : 8 * double.max ≤ (2 : ℝ) ^ 600 * 2 ^ 600 := by
    rw [← pow_add]
    refine (mul_le_mul_of_nonneg_left hlt.le (by norm_num)).trans ?_
    rw [show (8 : ℝ) = 2 ^ 3 by norm_num, ← pow_add]
    exact pow_le_pow_right₀ (by norm_num) (by norm_num)
  have hone : (1 : ℝ) ≤ 2 ^ 600 := one_le_pow₀ (by norm_num)
  generalize hc : (2 : ℝ) ^ 600 = c at hbig hbig2 hone ⊢
  clear hmax hlt hc
  have hu8 : 2 * ((2 * 2 + 4 : Nat) * double.R.u) ≤ 1 := by
    have := hu (2 * 2 + 4) (by norm_num)
    generalize ((2 * 2 + 4 : Nat) : ℝ) * double.R.u = x at this ⊢
    linarith
  have hc0 : 0 ≤ c := zero_le_one.trans hone
  have hd0 : 0 ≤ d := le_trans (by norm_num) hd
  have habs : ∀ {c : ℝ}, 0 ≤ c → ∀ i j, |opposite c i j| ≤ c := fun {c} hc i j => by
    unfold opposite
    split_ifs
    · exact (abs_of_nonneg hc).le
    · rw [abs_neg, abs_of_nonneg hc]
  unfold Mat.floats
  rw [alignmentCentered_false, center_moderate o.a₁ o.a₂ (habs hc0) hu8 (by linarith),
    center_moderate o.b₁ o.b₂ (habs hd0) hu8 (by linarith)]
  have hC := opposite_fl (R := double.R) o.a₁ o.a₂ hc0 hw8
  have hD := opposite_fl (R := double.R) o.b₁ o.b₂ hd0 hw8
  generalize double.R.centeredFl o.a₁ o.a₂ (opposite c) = C at hC
  generalize double.R.centeredFl o.b₁ o.b₂ (opposite d) = D at hD
  have hsq : ∀ i j, c * c / 4 ≤ C i j * C i j := fun i j => by
    rw [← abs_mul_abs_self (C i j)]
    have := mul_self_le_mul_self (by linarith) (hC i j).1
    linarith
  have hDl : ∀ i j, 1 / 16 ≤ D i j * D i j := fun i j => by
    rw [← abs_mul_abs_self (D i j)]
    have := mul_self_le_mul_self (by norm_num : (0 : ℝ) ≤ 1 / 4) (show 1 / 4 ≤ |D i j| by linarith [(hD i j).1])
    linarith
  have hDu : ∀ i j, D i j * D i j ≤ 9 := fun i j => by
    rw [← abs_mul_abs_self (D i j)]
    have := mul_self_le_mul_self (abs_nonneg _) (show |D i j| ≤ 3 by linarith [(hD i j).2])
    linarith
  have hCD : ∀ i j, |C i j * D i j| ≤ 9 / 2 * c := fun i j => by
    rw [abs_mul]
    have := mul_le_mul (hC i j).2 (show |D i j| ≤ 3 by linarith [(hD i j).2]) (abs_nonneg _) (by linarith)
    linarith
  refine align_overflow o ((pow_le_pow_right₀ double.R.one_le_w (by norm_num)).trans (hw8.trans (by norm_num))) ?_ ?_ ?_ ?_ zd
  · simp only [frobInner, Fin.sum_univ_two]
    linarith [hsq 0 0, hsq 0 1, hsq 1 0, hsq 1 1, double.max_pos]
  · simp only [Fin.sum_univ_two]
    linarith [hCD 0 0, hCD 0 1, hCD 1 0, hCD 1 1]
  · simp only [frobInner, Fin.sum_univ_two]
    linarith [hDu 0 0, hDu 0 1, hDu 1 0, hDu 1 1]
  · refine Real.le_sqrt_of_sq_le ?_
    simp only [frobInner, Fin.sum_univ_two]
    norm_num
    linarith [hDl 0 0, hDl 0 1, hDl 1 0, hDl 1 1]

end KMethods
