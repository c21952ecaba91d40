import Verif.Spec.OverflowNorm
import Verif.Lemmas.OverflowKM
import Verif.Lemmas.RoundPipeline
/-! # Normalisation with overflow -/
namespace KMethods
open Rounding

variable {Φ : FloatFormat} {n m d : Nat}

namespace FloatFormat

theorem rnd_zero : Φ.rnd (.fin 0) = .fin 0 := by
  show Φ.clip (Φ.R.fl 0) = _
  rw [Φ.R.fl_zero]
  exact clip_of_le (by rw [abs_zero]; exact Φ.max_pos.le)

/-- the factor `1/√d`, if it is finite: `d` is finite and positive, or infinite and the factor is 0 -/
theorem invSqrt_fin {d : Dbl} (hd : Φ.InRange d) {D : ℝ} (h : Φ.invSqrt d = .fin D) :
    (d = .inf false ∧ D = 0) ∨ ∃ x, d = .fin x ∧ 0 < x ∧ D = Φ.R.invSqrt x := by
  cases d with
  | nan => cases h
  | inf s =>
    cases s with
    | true => cases h
    | false =>
      left
      have : Φ.rnd (.fin 0) = .fin D := h
      rw [rnd_zero] at this
      exact ⟨rfl, (Dbl.fin.inj this).symm⟩
  | fin x =>
    right
    refine ⟨x, rfl, ?_⟩
    rcases lt_or_ge x 0 with hx | hx
    · exfalso
      have : Φ.invSqrt (.fin x) = .nan := by
        simp only [invSqrt, Dbl.sqrtX, if_pos hx, rnd, Dbl.divX]
      rw [this] at h
      cases h
    · rw [invSqrt, sqrt_fin hx ((le_abs_self x).trans (hd x rfl))] at h
      have hx0 : x ≠ 0 := by
        rintro rfl
        rw [Real.sqrt_zero, Φ.R.fl_zero] at h
        simp [Dbl.divX, rnd] at h
      have hs : Φ.R.fl (Real.sqrt x) ≠ 0 := fl_ne_zero (Real.sqrt_pos.2 (hx.lt_of_ne' hx0)).ne'
      refine ⟨hx.lt_of_ne' hx0, ?_⟩
      simp only [Dbl.divX, if_neg hs] at h
      exact clip_fin h

theorem w_le (hu : Φ.R.u ≤ 1 / 16) : Φ.R.w ≤ 16 / 15 := by
  rw [Rounding.w, inv_le_comm₀ Φ.R.one_sub_pos (by norm_num)]
  linarith

theorem w_pow_le (hu : Φ.R.u ≤ 1 / 16) {m : Nat} (hm : m ≤ 6) : Φ.R.w ^ m ≤ 3 / 2 :=
  (pow_le_pow_right₀ Φ.R.one_le_w hm).trans ((pow_le_pow_left₀ Φ.R.w_pos.le (w_le hu) 6).trans (by norm_num))

theorem invSqrt_le {x : ℝ} (hu : Φ.R.u ≤ 1 / 16) (hmax : 1e5 ≤ Φ.max) (h : 1e-8 < x) (hx : x ≤ Φ.max) : Φ.invSqrt (.fin x) = .fin (Φ.R.invSqrt x) := by
  have h0 : 0 < x := lt_trans (by norm_num) h
  rw [invSqrt, sqrt_fin h0.le hx]
  have hs : Φ.R.fl (Real.sqrt x) ≠ 0 := fl_ne_zero (Real.sqrt_pos.2 h0).ne'
  simp only [Dbl.divX, if_neg hs]
  refine clip_of_le ?_
  have h1 := (invSqrt_rel (R := Φ.R) x).le
  have h2 : 1e-4 ≤ Real.sqrt x := Real.le_sqrt_of_sq_le (by norm_num at h ⊢; linarith)
  have h3 : |1 / Real.sqrt x| ≤ 1e4 := by
    rw [abs_of_nonneg (by positivity), div_le_iff₀ (lt_of_lt_of_le (by norm_num) h2)]
    norm_num at h2 ⊢
    linarith
  have h4 := mul_le_mul (w_pow_le hu (show 2 ≤ 6 by norm_num)) h3 (abs_nonneg _) (by norm_num)
  refine h1.trans (h4.trans (le_trans (by norm_num) hmax))

theorem matmul_fin {o o' : SumOrder} {dx : Fin n → Dbl} {dy : Fin m → Dbl} {K : Fin n → Fin m → Dbl} {i : Fin n} {j : Fin m} {v : ℝ}
    (h : Φ.matmul o' (Φ.matmul o (Φ.invSqrtDiag dx) K) (Φ.invSqrtDiag dy) i j = .fin v) :
    (∀ r l, (K r l).Finite) ∧ ∃ D k E, Φ.invSqrt (dx i) = .fin D ∧ K i j = .fin k ∧ Φ.invSqrt (dy j) = .fin E ∧ v = Φ.R.fl (Φ.R.fl (D * k) * E) := by
  have h1 := fun l => dot_fin_terms h l (Complete.mem (o'.complete m i j) l)
  have h2 := fun l => (h1 l).1
  choose P hP using h2
  have h3 := fun l r => dot_fin_terms (hP l) r (Complete.mem (o.complete n i l) r)
  choose Q hQ using fun l => (h1 l).2
  choose A hA using fun l r => (h3 l r).1
  choose B hB using fun l r => (h3 l r).2
  have hAi : ∀ l r, r ≠ i → A l r = 0 := fun l r hr => by
    have := hA l r
    rw [invSqrtDiag, if_neg hr.symm] at this
    exact (Dbl.fin.inj this).symm
  have hQj : ∀ l, l ≠ j → Q l = 0 := fun l hl => by
    have := hQ l
    rw [invSqrtDiag, if_neg hl] at this
    exact (Dbl.fin.inj this).symm
  have hv : v = Φ.R.fl (P j * Q j) := by
    have e : Φ.dot (fun l => .fin (P l)) (fun l => .fin (Q l)) (o'.tree m i j) = .fin v := by
      rw [← h]
      unfold matmul
      congr 1
      · funext l; exact (hP l).symm
      · funext l; exact (hQ l).symm
    rw [dot_fin e, (o'.complete m i j).single j fun l hl => by rw [hQj l hl, mul_zero]]
  have hp : P j = Φ.R.fl (A j i * B j i) := by
    have e : Φ.dot (fun r => .fin (A j r)) (fun r => .fin (B j r)) (o.tree n i j) = .fin (P j) := by
      rw [← hP j]
      unfold matmul
      congr 1
      · funext r; exact (hA j r).symm
      · funext r; exact (hB j r).symm
    rw [dot_fin e, (o.complete n i j).single i fun r hr => by rw [hAi j r hr, zero_mul]]
  refine ⟨fun r l => by rw [hB l r]; trivial, A j i, B j i, Q j, ?_, hB j i, ?_, by rw [hv, hp]⟩
  · have := hA j i
    rwa [invSqrtDiag, if_pos rfl] at this
  · have := hQ j
    rwa [invSqrtDiag, if_pos rfl] at this

theorem dot_all_zero {a b : Fin d → ℝ} {t : SumTree d} (h : ∀ j ∈ t.leaves, a j * b j = 0) : Φ.dot (fun j => .fin (a j)) (fun j => .fin (b j)) t = .fin 0 := by
  induction t with
  | zero => rfl
  | leaf i =>
    show Φ.rnd (.fin (a i * b i)) = _
    rw [h i (by simp [SumTree.leaves]), rnd_zero]
  | node l r ihl ihr =>
    rw [dot, ihl fun j hj => h j (by simp [SumTree.leaves, hj]), ihr fun j hj => h j (by simp [SumTree.leaves, hj])]
    show Φ.rnd (.fin (0 + 0)) = _
    rw [add_zero, rnd_zero]
  | fma i t ih =>
    rw [dot, ih fun j hj => h j (by simp [SumTree.leaves, hj])]
    show Φ.rnd (.fin (a i * b i + 0)) = _
    rw [h i (by simp [SumTree.leaves]), add_zero, rnd_zero]

/-- a sum with a single product that is not zero does not overflow if the product does not -/
theorem dot_single {a b : Fin d → ℝ} {t : SumTree d} {i : Fin d} (hn : t.leaves.Nodup) (hi : i ∈ t.leaves) (h : ∀ j, j ≠ i → a j * b j = 0)
    (hle : |Φ.R.fl (a i * b i)| ≤ Φ.max) : Φ.dot (fun j => .fin (a j)) (fun j => .fin (b j)) t = .fin (Φ.R.fl (a i * b i)) := by
  have again : Φ.rnd (.fin (Φ.R.fl (a i * b i))) = .fin (Φ.R.fl (a i * b i)) := by
    show Φ.clip (Φ.R.fl (Φ.R.fl _)) = _
    rw [Φ.R.idem]
    exact clip_of_le hle
  induction t with
  | zero => simp [SumTree.leaves] at hi
  | leaf j =>
    simp only [SumTree.leaves, List.mem_singleton] at hi
    subst hi
    exact clip_of_le hle
  | node l r ihl ihr =>
    rw [SumTree.leaves, List.nodup_append] at hn
    rw [SumTree.leaves, List.mem_append] at hi
    rw [dot]
    rcases hi with hi | hi
    · rw [ihl hn.1 hi, dot_all_zero (t := r) fun j hj => h j fun e => hn.2.2 i hi j hj e.symm]
      show Φ.rnd (.fin (_ + 0)) = _
      rw [add_zero, again]
    · rw [ihr hn.2.1 hi, dot_all_zero (t := l) fun j hj => h j fun e => hn.2.2 j hj i hi e]
      show Φ.rnd (.fin (0 + _)) = _
      rw [zero_add, again]
  | fma j t ih =>
    rw [SumTree.leaves, List.nodup_cons] at hn
    rw [SumTree.leaves, List.mem_cons] at hi
    rw [dot]
    rcases hi with rfl | hi
    · rw [dot_all_zero (t := t) fun k hk => h k fun e => hn.1 (e ▸ hk)]
      show Φ.rnd (.fin (_ + 0)) = _
      rw [add_zero]
      exact clip_of_le hle
    · rw [ih hn.2 hi]
      show Φ.rnd (.fin (a j * b j + _)) = _
      rw [h j fun e => hn.1 (e ▸ hi), zero_add, again]

theorem invSqrtDiag_fin {a : Fin n → ℝ} (hu : Φ.R.u ≤ 1 / 16) (hmax : 1e5 ≤ Φ.max) (h : ∀ i, 1e-8 < a i ∧ a i ≤ Φ.max) :
    (Φ.invSqrtDiag fun i => .fin (a i)) = fun i j => .fin (Matrix.diagonal (fun i => Φ.R.invSqrt (a i)) i j) := by
  funext i j
  unfold invSqrtDiag
  by_cases hij : i = j
  · subst hij
    rw [if_pos rfl, invSqrt_le hu hmax (h i).1 (h i).2, Matrix.diagonal_apply_eq]
  · rw [if_neg hij, Matrix.diagonal_apply_ne _ hij]

/-- normalisation without overflow -/
theorem matmul_total {o o' : SumOrder} {a : Fin n → ℝ} {b : Fin m → ℝ} {K : Matrix (Fin n) (Fin m) ℝ} (hu : Φ.R.u ≤ 1 / 16) (hmax : 1e5 ≤ Φ.max)
    (ha : ∀ i, 1e-8 < a i ∧ a i ≤ Φ.max) (hb : ∀ j, 1e-8 < b j ∧ b j ≤ Φ.max) (hK : ∀ i j, |K i j| ≤ 2 * (Real.sqrt (a i) * Real.sqrt (b j))) :
    Φ.matmul o' (Φ.matmul o (Φ.invSqrtDiag fun i => .fin (a i)) fun i j => .fin (K i j)) (Φ.invSqrtDiag fun j => .fin (b j)) =
      fun i j => .fin (Φ.R.normEntry (a i) (b j) (K i j)) := by
  rw [invSqrtDiag_fin hu hmax ha, invSqrtDiag_fin hu hmax hb]
  have ha0 : ∀ i, 0 < Real.sqrt (a i) := fun i => Real.sqrt_pos.2 (lt_trans (by norm_num) (ha i).1)
  have hb0 : ∀ j, 0 < Real.sqrt (b j) := fun j => Real.sqrt_pos.2 (lt_trans (by norm_num) (hb j).1)
  have h1 : ∀ i l, |Φ.R.fl (Φ.R.invSqrt (a i) * K i l)| ≤ Φ.max := fun i l => by
    have h2 := (((invSqrt_rel (R := Φ.R) (a i)).mul (Rel.refl (R := Φ.R) (K i l))).fl).le
    have h3 : |1 / Real.sqrt (a i) * K i l| ≤ 2 * Real.sqrt (b l) := by
      rw [abs_mul, abs_of_pos (one_div_pos.2 (ha0 i)), one_div, inv_mul_le_iff₀ (ha0 i)]
      exact (hK i l).trans (le_of_eq (by ring))
    have h4 := mul_le_mul (w_pow_le hu (show 2 + 0 + 1 ≤ 6 by norm_num)) h3 (abs_nonneg _) (by norm_num)
    have h5 : Real.sqrt (b l) ≤ Real.sqrt Φ.max := Real.sqrt_le_sqrt (hb l).2
    have h6 : 3 ≤ Real.sqrt Φ.max := Real.le_sqrt_of_sq_le (le_trans (by norm_num) hmax)
    have h7 := Real.mul_self_sqrt Φ.max_pos.le
    refine h2.trans (h4.trans ?_)
    nlinarith
  have h2 : ∀ i j, |Φ.R.normEntry (a i) (b j) (K i j)| ≤ Φ.max := fun i j => by
    have h2 := (normEntry_rel (R := Φ.R) (le_trans (by norm_num) (ha i).1.le) (b j) (K i j)).le
    have h3 : |K i j / Real.sqrt (a i * b j)| ≤ 2 := by
      rw [Real.sqrt_mul (le_trans (by norm_num) (ha i).1.le), abs_div, abs_of_pos (mul_pos (ha0 i) (hb0 j)), div_le_iff₀ (mul_pos (ha0 i) (hb0 j))]
      exact hK i j
    have h4 := mul_le_mul (w_pow_le hu (le_refl 6)) h3 (abs_nonneg _) (by norm_num)
    exact h2.trans (h4.trans (le_trans (by norm_num) hmax))
  have e1 : (Φ.matmul o (fun i j => .fin (Matrix.diagonal (fun i => Φ.R.invSqrt (a i)) i j)) fun i j => .fin (K i j)) =
      fun i l => .fin (Φ.R.fl (Φ.R.invSqrt (a i) * K i l)) := by
    funext i l
    have e := dot_single (Φ := Φ) (a := fun r => Matrix.diagonal (fun i => Φ.R.invSqrt (a i)) i r) (b := fun r => K r l) (t := o.tree n i l) (i := i)
      ((o.complete n i l).nodup_iff.2 (List.nodup_finRange n)) (Complete.mem (o.complete n i l) i)
      (fun r hr => by rw [Matrix.diagonal_apply_ne' _ hr, zero_mul]) (by rw [Matrix.diagonal_apply_eq]; exact h1 i l)
    rw [Matrix.diagonal_apply_eq] at e
    exact e
  rw [e1]
  funext i j
  have e := dot_single (Φ := Φ) (a := fun l => Φ.R.fl (Φ.R.invSqrt (a i) * K i l)) (b := fun l => Matrix.diagonal (fun j => Φ.R.invSqrt (b j)) l j) (t := o'.tree m i j) (i := j)
    ((o'.complete m i j).nodup_iff.2 (List.nodup_finRange m)) (Complete.mem (o'.complete m i j) j)
    (fun l hl => by rw [Matrix.diagonal_apply_ne _ hl, mul_zero]) (by rw [Matrix.diagonal_apply_eq]; exact h2 i j)
  rw [Matrix.diagonal_apply_eq] at e
  exact e

/-- finite kernel values are at most `max` -/
theorem computes_inRange {k : NumKernel} (hk : k.Detects) {x y : Fin d → Dbl} {v : Dbl} (h : Φ.Computes k x y v) : Φ.InRange v := by
  have hclip : ∀ {r v : ℝ}, Φ.clip r = .fin v → |v| ≤ Φ.max := fun {r v} h => by
    unfold clip at h
    split at h
    · cases h; assumption
    · cases h
  have hexp : ∀ {a : Dbl} {v : ℝ}, Φ.exp a = .fin v → |v| ≤ Φ.max := fun {a v} h => by
    cases a with
    | fin a => exact hclip h
    | inf s =>
      cases s
      · cases h
      · obtain rfl : (0 : ℝ) = v := Dbl.fin.inj h
        rw [abs_zero]
        exact Φ.max_pos.le
    | nan => cases h
  rintro v rfl
  cases k with
  | linear =>
    obtain ⟨t, -, h⟩ := h
    exact dot_le h.symm
  | poly deg γ b =>
    obtain ⟨t, -, h⟩ := h
    have h1 : |(1 : ℝ)| ≤ Φ.max := by rw [abs_one]; linarith [Φ.four_le]
    have h0 : |(0 : ℝ)| ≤ Φ.max := by rw [abs_zero]; linarith [Φ.four_le]
    unfold PowInt at h
    split at h
    · split at h
      · cases h
      · obtain ⟨r, -, h⟩ := h
        exact hclip h.symm
    · split at h
      · rwa [Dbl.fin.inj h]
      · split at h
        · rwa [Dbl.fin.inj h]
        · cases h
    · split at h
      · rwa [Dbl.fin.inj h]
      · cases h
  | gaussian σ γ =>
    obtain ⟨t, q, -, -, h⟩ := h
    exact hexp h.symm
  | laplacian γ =>
    obtain ⟨t, -, h⟩ := h
    exact hexp h.symm
  | chi2 γ => exact hk.elim
  | sigmoid γ o => exact hk.elim
  | hadamard α => exact hk.elim

/-- error of a finite kernel value -/
theorem computes_kernelErr {k : NumKernel} (hk : k.Detects) {x y : Fin d → ℝ} (hx : k.ValidAt x) (hy : k.ValidAt y) (hm : k.roundings d * Φ.R.u < 1) {c a b : ℝ}
    (hc : k.on x y = .ok (.real c)) (ha : k.on x x = .ok (.real a)) (hb : k.on y y = .ok (.real b)) {v : ℝ}
    (h : Φ.Computes k (fun i => .fin (x i)) (fun i => .fin (y i)) (.fin v)) : |v - c| ≤ Φ.kernelErr k d * (Real.sqrt a * Real.sqrt b) := by
  have hs : 0 ≤ Real.sqrt a * Real.sqrt b := by positivity
  rcases detects hk hx hm h with h | ⟨c', hc', hle⟩
  · obtain ⟨c', a', b', e1, e2, e3, -, -, herr⟩ := computes_err hx hy h
    rw [hc] at e1; rw [ha] at e2; rw [hb] at e3
    injection e1 with e1; injection e1 with e1
    injection e2 with e2; injection e2 with e2
    injection e3 with e3; injection e3 with e3
    subst e1 e2 e3
    exact herr.trans (mul_le_mul_of_nonneg_right ((pow_w_le _ hm).trans (le_add_of_nonneg_right (lost_nonneg k _))) hs)
  · rw [hc] at hc'
    injection hc' with e1; injection e1 with e1
    subst e1
    refine hle.trans ?_
    have key : Φ.lost k (k.roundings d) ≤ Φ.lost k (k.roundings d) * (Real.sqrt a * Real.sqrt b) := by
      have one : (∃ σ γ, k = .gaussian σ γ) ∨ (∃ γ, k = .laplacian γ) ∨ (∃ γ, k = .chi2 γ) → Φ.lost k (k.roundings d) ≤ Φ.lost k (k.roundings d) * (Real.sqrt a * Real.sqrt b) := fun h1 => by
        rw [self_one h1 ha, self_one h1 hb, Real.sqrt_one, mul_one, mul_one]
      cases k with
      | linear => simp [lost]
      | poly deg γ b => simp [lost]
      | gaussian σ γ => exact one (.inl ⟨_, _, rfl⟩)
      | laplacian γ => exact one (.inr (.inl ⟨_, rfl⟩))
      | chi2 γ => exact hk.elim
      | sigmoid γ o => exact hk.elim
      | hadamard α => exact hk.elim
    refine key.trans (mul_le_mul_of_nonneg_right ?_ hs)
    exact le_add_of_nonneg_left (gamma_nonneg hm)

theorem normalizeKm_square (o o' : SumOrder) (K : Fin n → Fin n → Dbl) {method : String} (hm : method.toLower = "cosine") :
    ((∃ i, (K i i).CloseToZero) → Φ.normalizeKm o o' ⟨n, n, K⟩ method = .error .kmNorm) ∧
    ((¬ ∃ i, (K i i).CloseToZero) → Φ.normalizeKm o o' ⟨n, n, K⟩ method =
      .ok ⟨n, n, Φ.matmul o' (Φ.matmul o (Φ.invSqrtDiag fun i => K i i) K) (Φ.invSqrtDiag fun i => K i i)⟩) := by
  unfold normalizeKm
  rw [dif_pos rfl, if_pos hm]
  exact ⟨fun h => if_pos h, fun h => if_neg h⟩

theorem normalizeKm_ok {o o' : SumOrder} {K N : Fin n → Fin n → Dbl} {method : String} (h : Φ.normalizeKm o o' ⟨n, n, K⟩ method = .ok ⟨n, n, N⟩) :
    (∀ i, ¬ (K i i).CloseToZero) ∧ N = Φ.matmul o' (Φ.matmul o (Φ.invSqrtDiag fun i => K i i) K) (Φ.invSqrtDiag fun i => K i i) := by
  by_cases hm : method.toLower = "cosine"
  · by_cases hz : ∃ i, (K i i).CloseToZero
    · rw [(normalizeKm_square o o' K hm).1 hz] at h
      cases h
    · rw [(normalizeKm_square o o' K hm).2 hz] at h
      injection h with h
      injection h with _ _ h
      exact ⟨fun i hi => hz ⟨i, hi⟩, h.symm⟩
  · unfold normalizeKm at h
    rw [dif_pos rfl, if_neg hm] at h
    cases h

theorem normalizeKm2_lists (o o' : SumOrder) (K : Fin n → Fin m → Dbl) (dx : Fin n → Dbl) (dy : Fin m → Dbl) {method : String} (hm : method.toLower = "cosine") :
    ((∃ i, (dx i).CloseToZero) ∨ (∃ j, (dy j).CloseToZero) → Φ.normalizeKm2 o o' ⟨n, m, K⟩ (List.ofFn dx) (List.ofFn dy) method = .error .kmNorm) ∧
    (¬ ((∃ i, (dx i).CloseToZero) ∨ (∃ j, (dy j).CloseToZero)) → Φ.normalizeKm2 o o' ⟨n, m, K⟩ (List.ofFn dx) (List.ofFn dy) method =
      .ok ⟨n, m, Φ.matmul o' (Φ.matmul o (Φ.invSqrtDiag dx) K) (Φ.invSqrtDiag dy)⟩) := by
  unfold normalizeKm2
  rw [if_neg (by simp), if_pos hm]
  have hiff : ((∃ d ∈ List.ofFn dx, d.CloseToZero) ∨ ∃ d ∈ List.ofFn dy, d.CloseToZero) ↔ ((∃ i, (dx i).CloseToZero) ∨ ∃ j, (dy j).CloseToZero) := by
    simp only [List.mem_ofFn', Set.mem_range, exists_exists_eq_and]
  refine ⟨fun h => if_pos (hiff.2 h), fun h => ?_⟩
  rw [if_neg (mt hiff.1 h)]
  have e : ∀ {l : Nat} (f : Fin l → Dbl), (fun i : Fin l => (List.ofFn f).getD i (.fin 0)) = f := fun f => by
    funext i
    simp
  show Except.ok (⟨n, m, Φ.matmul o' (Φ.matmul o (Φ.invSqrtDiag fun i : Fin n => (List.ofFn dx).getD i (.fin 0)) K) (Φ.invSqrtDiag fun j : Fin m => (List.ofFn dy).getD j (.fin 0))⟩ : Mat Dbl) = _
  rw [e, e]

theorem normalizeKm2_ok {o o' : SumOrder} {K N : Fin n → Fin m → Dbl} {dx : Fin n → Dbl} {dy : Fin m → Dbl} {method : String}
    (h : Φ.normalizeKm2 o o' ⟨n, m, K⟩ (List.ofFn dx) (List.ofFn dy) method = .ok ⟨n, m, N⟩) :
    (∀ i, ¬ (dx i).CloseToZero) ∧ (∀ j, ¬ (dy j).CloseToZero) ∧ N = Φ.matmul o' (Φ.matmul o (Φ.invSqrtDiag dx) K) (Φ.invSqrtDiag dy) := by
  by_cases hm : method.toLower = "cosine"
  · by_cases hz : (∃ i, (dx i).CloseToZero) ∨ ∃ j, (dy j).CloseToZero
    · rw [(normalizeKm2_lists o o' K dx dy hm).1 hz] at h
      cases h
    · rw [(normalizeKm2_lists o o' K dx dy hm).2 hz] at h
      injection h with h
      injection h with _ _ h
      exact ⟨fun i hi => hz (.inl ⟨i, hi⟩), fun i hi => hz (.inr ⟨i, hi⟩), h.symm⟩
  · unfold normalizeKm2 at h
    rw [if_neg (by simp), if_neg hm] at h
    cases h

/-- a sum of products of non-negative numbers is not negative -/
theorem dot_nn {a b : Fin d → ℝ} (h : ∀ i, 0 ≤ a i * b i) (t : SumTree d) : (Φ.dot (fun i => .fin (a i)) (fun i => .fin (b i)) t).NN := by
  induction t with
  | zero => exact .inl ⟨0, le_rfl, rfl⟩
  | leaf i => exact rnd_nn (.inl ⟨_, h i, rfl⟩)
  | node l r ihl ihr => exact rnd_nn (addX_nn ihl ihr)
  | fma i t ih => exact rnd_nn (addX_nn (.inl ⟨_, h i, rfl⟩) ih)

theorem dot_overflow {a b : Fin d → ℝ} (h : ∀ i, 0 ≤ a i * b i) {t : SumTree d} (hmax : Φ.max < t.dotR Φ.R a b) : Φ.dot (fun i => .fin (a i)) (fun i => .fin (b i)) t = .inf false := by
  have h1 := dot_nn (Φ := Φ) h t
  generalize e : Φ.dot (fun i => .fin (a i)) (fun i => .fin (b i)) t = v at h1
  cases v with
  | fin v =>
    have h2 := dot_le e
    rw [dot_fin e] at h2
    exact absurd ((le_abs_self _).trans h2) (not_le.2 hmax)
  | inf s =>
    rcases h1 with ⟨_, -, h1⟩ | h1
    · cases h1
    · exact h1
  | nan => rcases h1 with ⟨_, -, h1⟩ | h1 <;> cases h1

end FloatFormat

/-! ### kernel matrices -/

open KMState FloatFormat

theorem DoubleEnv.opsOk {env : Env NumKernel (List Dbl) Dbl} (h : DoubleEnv Φ env) : OpsOk env.ops := by
  obtain ⟨o, o', ho⟩ := h.normalize
  intro A m N h
  rw [ho] at h ⊢
  unfold FloatFormat.normalizeKm at *
  split at h
  · rename_i hsq
    rw [dif_pos hsq, if_pos toLower_cosine]
    by_cases hm : m.toLower = "cosine"
    · rw [if_pos hm] at h; exact h
    · rw [if_neg hm] at h; simp at h
  · simp at h

theorem DoubleEnv.full_normed {env : Env NumKernel (List Dbl) Dbl} (h : DoubleEnv Φ env) {k : NumKernel} {a : Attachment (List Dbl)}
    (hf : NoFaultsOn env k a) {s : KMState NumKernel (List Dbl) Dbl} (hs : SinceAny env k true a s) :
    (exec env .full s).1 = (a.normed (env.kval k) env.ops "cosine").map (KMOut.mat .dense) := by
  have hg := hs.goodOnAny hf
  have hq : Quiet env k a := fun hr => by rw [h.fmt] at hr; cases hr
  have hn : QuietNormed env k a := fun hr => by rw [h.fmt] at hr; cases hr
  have := (full_ff (noFaults_faultless env) hg).2.1 (hs.quiet hq) (hs.quietNormed hn) (by rw [faultless_ops]; exact h.opsOk) hs.keepNormed
  rw [hs.exec_faultless hf rfl]
  unfold exec
  rw [(exec_state s).2, this, hs.kernel, faultless_ops, faultless_kval]
  rcases a.normed (env.kval k) env.ops "cosine" with e | N <;> rfl

/-- rows as functions -/
theorem row_ofFn {k : NumKernel} {A : Arr2 (List ℝ)} (hv : k.ValidOn A) : ∃ x : Fin A.nrows → Fin A.ncols → ℝ, (∀ i : Fin A.nrows, A.row i = List.ofFn (x i)) ∧
    (∀ i : Fin A.nrows, A.floats.row i = List.ofFn fun c => .fin (x i c)) ∧ ∀ i, k.ValidAt (x i) := by
  obtain ⟨hlen, hv⟩ := hv
  let x : Fin A.nrows → Fin A.ncols → ℝ := fun i c => (A.row i).getD c 0
  have hx : ∀ i : Fin A.nrows, A.row i = List.ofFn (x i) := by
    intro i
    apply List.ext_getElem
    · simp [hlen i i.2]
    · intro c h1 h2; simp [x, h1]
  have hmem : ∀ (i : Fin A.nrows) c, x i c ∈ A.row i := fun i c => by rw [hx]; exact (List.mem_ofFn' _ _).2 ⟨c, rfl⟩
  refine ⟨x, hx, fun i => ?_, fun i => ?_⟩
  · show (A.row i).map Dbl.fin = _
    rw [hx i, List.map_ofFn]
    rfl
  · cases k with
    | hadamard α => exact hv.imp id fun h c => h i i.2 _ (hmem i c)
    | poly deg γ b => exact hv
    | gaussian σ γ => exact hv
    | laplacian γ => exact hv
    | chi2 γ => exact ⟨hv.1, fun c => hv.2 i i.2 _ (hmem i c)⟩
    | sigmoid => exact hv.elim
    | linear => trivial

/-- the exact matrix, the computed one, and the error of the finite entries -/
theorem DoubleEnv.gram {env : Env NumKernel (List Dbl) Dbl} (he : DoubleEnv Φ env) {k : NumKernel} (hk : k.Detects) {A : Arr2 (List ℝ)} (hv : k.ValidOn A)
    (hm : k.roundings A.ncols * Φ.R.u < 1) :
    ∃ (K : Matrix (Fin A.nrows) (Fin A.nrows) ℝ) (H : Fin A.nrows → Fin A.nrows → Dbl), k.IsGram A K ∧ IsPSD K ∧
      Attachment.gram ⟨A.floats, none⟩ (env.kval k) = ⟨A.nrows, A.nrows, H⟩ ∧ NoFaultsOn env k ⟨A.floats, none⟩ ∧ (∀ i j, Φ.InRange (H i j)) ∧
      (∀ i j, ∃ p q : Fin A.nrows, H i j = env.kval k (A.floats.row p) (A.floats.row q)) ∧ (∀ i, H i i = env.kval k (A.floats.row i) (A.floats.row i)) ∧
      ∀ i j v, H i j = .fin v → |v - K i j| ≤ Φ.kernelErr k A.ncols * (Real.sqrt (K i i) * Real.sqrt (K j j)) := by
  obtain ⟨K, hK, hg⟩ := psdOn_of_validOn hv
  obtain ⟨x, hx, hx', hval⟩ := row_ofFn hv
  have hc : ∀ i j γ, k = .chi2 γ → ∀ l, ¬ (Dbl.fin (x i l)).Neg ∧ ¬ (Dbl.fin (x j l)).Neg := by
    rintro i j γ rfl
    exact hk.elim
  have hon : ∀ i j, k.on (x i) (x j) = .ok (.real (K i j)) := fun i j => by
    have := hg i j
    rwa [hx i, hx j] at this
  have hcall := fun i j => he.call k (fun l => .fin (x i l)) (fun l => .fin (x j l)) (hc i j)
  have hent : ∀ i j : Fin A.nrows, Φ.InRange (env.kval k (A.floats.row i) (A.floats.row j)) ∧ ∀ v, env.kval k (A.floats.row i) (A.floats.row j) = .fin v →
      |v - K i j| ≤ Φ.kernelErr k A.ncols * (Real.sqrt (K i i) * Real.sqrt (K j j)) := fun i j => by
    rw [hx' i, hx' j]
    refine ⟨computes_inRange hk (hcall i j).2, fun v hv => ?_⟩
    exact computes_kernelErr hk (hval i) (hval j) hm (hon i j) (hon i i) (hon j j) (hv ▸ (hcall i j).2)
  refine ⟨K, fun i j => env.kval k (A.floats.row (min (i : Nat) j)) (A.floats.row (max (i : Nat) j)), hg, hK, rfl, ?_, fun i j => ?_, fun i j => ?_, fun i => ?_, fun i j v => ?_⟩
  · intro t a b ha hb
    obtain ⟨i, rfl⟩ := isRow_none ha
    obtain ⟨j, rfl⟩ := isRow_none hb
    rw [hx' i, hx' j]
    exact (hcall i j).1 t
  · dsimp only
    rcases le_total (i : Nat) j with hij | hij
    · rw [Nat.min_eq_left hij, Nat.max_eq_right hij]; exact (hent i j).1
    · rw [Nat.min_eq_right hij, Nat.max_eq_left hij]; exact (hent j i).1
  · exact ⟨⟨min i j, by omega⟩, ⟨max i j, by omega⟩, rfl⟩
  · dsimp only
    rw [min_self, max_self]
  · dsimp only
    rcases le_total (i : Nat) j with hij | hij
    · rw [Nat.min_eq_left hij, Nat.max_eq_right hij]; exact (hent i j).2 v
    · rw [Nat.min_eq_right hij, Nat.max_eq_left hij, hK.1 i j, _root_.mul_comm (Real.sqrt (K i i))]; exact (hent j i).2 v

theorem kernelErr_nonneg {k : NumKernel} (hm : k.roundings d * Φ.R.u < 1) : 0 ≤ Φ.kernelErr k d := add_nonneg (gamma_nonneg hm) (lost_nonneg k _)

/-- an entry of the normalised matrix, from values with a relative error of at most 1/4 -/
theorem norm_one {s t c a b v η : ℝ} (hs : 0 ≤ s) (ht : 0 ≤ t) (h0 : 0 ≤ η) (hη : η ≤ 1 / 4) (hc : |c| ≤ Real.sqrt s * Real.sqrt t) (ha : |a - s| ≤ η * s) (hb : |b - t| ≤ η * t)
    (hv : |v - c| ≤ η * (Real.sqrt s * Real.sqrt t)) (ha0 : ¬ |a| ≤ 1e-8) (hb0 : ¬ |b| ≤ 1e-8) (hu : Φ.R.u ≤ 1 / 16) :
    1e-8 < a ∧ 1e-8 < b ∧ |v| ≤ 2 * (Real.sqrt a * Real.sqrt b) ∧ |Φ.R.normEntry a b v - c / Real.sqrt (s * t)| ≤ Φ.R.normErr η := by
  have pos : ∀ {x y : ℝ}, 0 ≤ y → |x - y| ≤ η * y → ¬ |x| ≤ 1e-8 → 1e-8 < x ∧ 0 < y ∧ 3 / 4 * y ≤ x := fun {x y} hy hxy hx => by
    have h1 := abs_le.1 hxy
    have h2 : η * y ≤ 1 / 4 * y := mul_le_mul_of_nonneg_right hη hy
    have h3 : 0 ≤ x := by linarith
    rw [abs_of_nonneg h3, not_le] at hx
    refine ⟨hx, hy.lt_of_ne' ?_, by linarith⟩
    rintro rfl
    norm_num at hx
    linarith
  obtain ⟨a1, s1, a2⟩ := pos hs ha ha0
  obtain ⟨b1, t1, b2⟩ := pos ht hb hb0
  have hst : 0 ≤ Real.sqrt s * Real.sqrt t := by positivity
  refine ⟨a1, b1, ?_, ?_⟩
  · have h1 : |v| ≤ 5 / 4 * (Real.sqrt s * Real.sqrt t) := by
      have h2 : |v| ≤ |v - c| + |c| := by simpa using abs_add_le (v - c) c
      have := mul_le_mul_of_nonneg_right hη hst
      linarith
    have h2 : 3 / 4 * (Real.sqrt s * Real.sqrt t) ≤ Real.sqrt a * Real.sqrt b := by
      rw [← Real.sqrt_mul hs, ← Real.sqrt_mul (show 0 ≤ a by linarith)]
      apply Real.le_sqrt_of_sq_le
      rw [mul_pow, Real.sq_sqrt (mul_nonneg hs ht)]
      have := mul_le_mul a2 b2 (by linarith) (by linarith)
      linarith
    linarith
  · rw [Real.sqrt_mul hs]
    refine normEntry_err (Real.sqrt_pos.2 s1) (Real.sqrt_pos.2 t1) hc h0 (by linarith) (by linarith) ?_ ?_ hv
    · rw [Real.sq_sqrt hs, Real.mul_self_sqrt hs]
      exact ha
    · rw [Real.sq_sqrt ht, Real.mul_self_sqrt ht]
      exact hb

theorem normed_err {k : NumKernel} {K V : Matrix (Fin n) (Fin n) ℝ} (hK : IsPSD K) (hη : Φ.kernelErr k d ≤ 1 / 4)
    (herr : ∀ i j, |V i j - K i j| ≤ Φ.kernelErr k d * (Real.sqrt (K i i) * Real.sqrt (K j j))) (hz : ∀ i, ¬ |V i i| ≤ 1e-8) (hm : k.roundings d * Φ.R.u < 1) (hu : Φ.R.u ≤ 1 / 16) :
    (∀ i, 1e-8 < V i i) ∧ (∀ i j, |V i j| ≤ 2 * (Real.sqrt (V i i) * Real.sqrt (V j j))) ∧
      ∀ i j, |Φ.R.normEntry (V i i) (V j j) (V i j) - cosNorm K i j| ≤ Φ.R.normErr (Φ.kernelErr k d) := by
  have hd : ∀ i, |V i i - K i i| ≤ Φ.kernelErr k d * K i i := fun i => by
    have := herr i i
    rwa [Real.mul_self_sqrt (hK.diag_nonneg i)] at this
  have key := fun i j => norm_one (Φ := Φ) (hK.diag_nonneg i) (hK.diag_nonneg j) (kernelErr_nonneg hm) hη (c := K i j)
    (by rw [← Real.sqrt_mul (hK.diag_nonneg i)]; exact Real.abs_le_sqrt (hK.sq_le i j)) (hd i) (hd j) (herr i j) (hz i) (hz j) hu
  exact ⟨fun i => (key i i).1, fun i j => (key i j).2.2.1, fun i j => (key i j).2.2.2⟩

theorem abs_on_le {k : NumKernel} (hk : k.Detects) {x y : Fin d → ℝ} (hx : k.ValidAt x) {c a b : ℝ}
    (hc : k.on x y = .ok (.real c)) (ha : k.on x x = .ok (.real a)) (hb : k.on y y = .ok (.real b)) : 0 ≤ a ∧ 0 ≤ b ∧ |c| ≤ Real.sqrt a * Real.sqrt b := by
  have hv : k.ValidOn ⟨2, d, fun i => if i = 0 then List.ofFn x else List.ofFn y⟩ := by
    refine ⟨fun i _ => ?_, ?_⟩
    · dsimp only
      split <;> simp
    · cases k with
      | poly deg γ b => exact hx
      | gaussian σ γ => exact hx
      | laplacian γ => exact hx
      | linear => trivial
      | chi2 γ => exact hk.elim
      | sigmoid γ o => exact hk.elim
      | hadamard α => exact hk.elim
  obtain ⟨K, hK, hg⟩ := psdOn_of_validOn hv
  have e1 := (hg 0 1).symm.trans hc
  have e2 := (hg 0 0).symm.trans ha
  have e3 := (hg 1 1).symm.trans hb
  injection e1 with e1; injection e1 with e1
  injection e2 with e2; injection e2 with e2
  injection e3 with e3; injection e3 with e3
  subst e1 e2 e3
  refine ⟨hK.diag_nonneg 0, hK.diag_nonneg 1, ?_⟩
  rw [← Real.sqrt_mul (hK.diag_nonneg 0)]
  exact Real.abs_le_sqrt (hK.sq_le 0 1)

/-- two samples: the computed matrix and self-kernels, and what is known about them -/
theorem DoubleEnv.gram_two {env : Env NumKernel (List Dbl) Dbl} (he : DoubleEnv Φ env) {k : NumKernel} (hk : k.Detects) {A B : Arr2 (List ℝ)} (hA : k.ValidOn A) (hB : k.ValidOn B)
    (hAB : A.ncols = B.ncols) (hm : k.roundings A.ncols * Φ.R.u < 1) :
    ∃ (H : Fin A.nrows → Fin B.nrows → Dbl), Attachment.gram ⟨A.floats, some B.floats⟩ (env.kval k) = ⟨A.nrows, B.nrows, H⟩ ∧ NoFaultsOn env k ⟨A.floats, some B.floats⟩ ∧
      (∀ i j, H i j = env.kval k (A.floats.row i) (B.floats.row j)) ∧
      (∀ i : Fin A.nrows, Φ.InRange (env.kval k (A.floats.row i) (A.floats.row i))) ∧ (∀ j : Fin B.nrows, Φ.InRange (env.kval k (B.floats.row j) (B.floats.row j))) ∧
      ∀ (i : Fin A.nrows) (j : Fin B.nrows), ∃ c a b, k.call false (.vec (A.row i)) (.vec (B.row j)) = .ok (.real c) ∧ k.call false (.vec (A.row i)) (.vec (A.row i)) = .ok (.real a) ∧
        k.call false (.vec (B.row j)) (.vec (B.row j)) = .ok (.real b) ∧ 0 ≤ a ∧ 0 ≤ b ∧ |c| ≤ Real.sqrt a * Real.sqrt b ∧
        (∀ v, H i j = .fin v → |v - c| ≤ Φ.kernelErr k A.ncols * (Real.sqrt a * Real.sqrt b)) ∧
        (∀ v, env.kval k (A.floats.row i) (A.floats.row i) = .fin v → |v - a| ≤ Φ.kernelErr k A.ncols * a) ∧
        ∀ v, env.kval k (B.floats.row j) (B.floats.row j) = .fin v → |v - b| ≤ Φ.kernelErr k A.ncols * b := by
  obtain ⟨x, hx, hx', hxv⟩ := row_ofFn hA
  obtain ⟨y, hy, hy', hyv⟩ := row_ofFn hB
  revert y
  rw [← hAB]
  intro y hy hy' hyv
  have hc : ∀ {x y : Fin A.ncols → Dbl} γ, k = .chi2 γ → ∀ l, ¬ (x l).Neg ∧ ¬ (y l).Neg := by
    rintro _ _ γ rfl
    exact hk.elim
  have hcall := fun u v : Fin A.ncols → ℝ => he.call k (fun l => .fin (u l)) (fun l => .fin (v l)) hc
  refine ⟨fun i j => env.kval k (A.floats.row i) (B.floats.row j), rfl, ?_, fun _ _ => rfl, fun i => ?_, fun j => ?_, fun i j => ?_⟩
  · have hrow : ∀ {r}, Attachment.IsRow ⟨A.floats, some B.floats⟩ r → ∃ u : Fin A.ncols → ℝ, r = List.ofFn fun l => .fin (u l) := by
      rintro r (⟨i, hi, rfl⟩ | ⟨B', i, hB', hi, rfl⟩)
      · exact ⟨x ⟨i, hi⟩, hx' ⟨i, hi⟩⟩
      · obtain rfl := Option.some.inj hB'
        exact ⟨y ⟨i, hi⟩, hy' ⟨i, hi⟩⟩
    intro t a b ha hb
    obtain ⟨u, rfl⟩ := hrow ha
    obtain ⟨v, rfl⟩ := hrow hb
    exact (hcall u v).1 t
  · rw [hx' i]
    exact computes_inRange hk (hcall (x i) (x i)).2
  · rw [hy' j]
    exact computes_inRange hk (hcall (y j) (y j)).2
  · obtain ⟨v', hv'⟩ := Rounding.exists_computes (R := Φ.R) k (by rintro γ o rfl; exact hk.elim) (x i) (y j)
    obtain ⟨c, a, b, ec, ea, eb, -, -, -⟩ := computes_err (hxv i) (hyv j) hv'
    obtain ⟨ha0, hb0, hcs⟩ := abs_on_le hk (hxv i) ec ea eb
    refine ⟨c, a, b, by rw [hx i, hy j]; exact ec, by rw [hx i]; exact ea, by rw [hy j]; exact eb, ha0, hb0, hcs, fun v hv => ?_, fun v hv => ?_, fun v hv => ?_⟩
    · dsimp only at hv
      rw [hx' i, hy' j] at hv
      exact computes_kernelErr hk (hxv i) (hyv j) hm ec ea eb (hv ▸ (hcall (x i) (y j)).2)
    · rw [hx' i] at hv
      have := computes_kernelErr hk (hxv i) (hxv i) hm ea ea ea (hv ▸ (hcall (x i) (x i)).2)
      rwa [Real.mul_self_sqrt ha0] at this
    · rw [hy' j] at hv
      have := computes_kernelErr hk (hyv j) (hyv j) hm eb eb eb (hv ▸ (hcall (y j) (y j)).2)
      rwa [Real.mul_self_sqrt hb0] at this

/-! ### an environment -/

open Classical in
/-- `KernelMatrix` on the numeric kernels, each computed in one of the possible ways, sums from left to right -/
noncomputable def doubleEnv (Φ : FloatFormat) : Env NumKernel (List Dbl) Dbl where
  kval k x y := if h : ∃ v : Dbl, ∃ d, ∃ a b : Fin d → Dbl, x = List.ofFn a ∧ y = List.ofFn b ∧ Φ.Computes k a b v then Classical.choose h else .nan
  fails := fun _ _ _ _ => false
  ops :=
    { nan := .nan
      zero := .fin 0
      normalize := Φ.normalizeKm ⟨fun n _ _ => .all n, fun n _ _ => SumTree.all_complete n⟩ ⟨fun n _ _ => .all n, fun n _ _ => SumTree.all_complete n⟩
      normalize2 := fun K dx dy => Φ.normalizeKm2 ⟨fun n _ _ => .all n, fun n _ _ => SumTree.all_complete n⟩ ⟨fun n _ _ => .all n, fun n _ _ => SumTree.all_complete n⟩ K dx dy "cosine"
      center := fun _ => .error .notImplemented
      frob := fun _ => .error .notImplemented
      frobSparse := fun _ => .error .notImplemented
      nonFinite := fun M => decide (∃ i j, ¬ (M.get i j).Finite) }
  fmtRaises := fun _ => false

theorem doubleEnv_ok (Φ : FloatFormat) : DoubleEnv Φ (doubleEnv Φ) where
  normalize := ⟨_, _, rfl⟩
  normalize2 := ⟨_, _, fun _ _ _ => rfl⟩
  fmt _ := rfl
  call := by
    intro d k x y hk
    refine ⟨fun _ => rfl, ?_⟩
    obtain ⟨w, hw⟩ := FloatFormat.exists_computes (Φ := Φ) k hk
    have h : ∃ v : Dbl, ∃ d', ∃ a b : Fin d' → Dbl, List.ofFn x = List.ofFn a ∧ List.ofFn y = List.ofFn b ∧ Φ.Computes k a b v :=
      ⟨w, d, x, y, rfl, rfl, hw⟩
    have e : (doubleEnv Φ).kval k (List.ofFn x) (List.ofFn y) = Classical.choose h := dif_pos h
    rw [e]
    have hs := Classical.choose_spec h
    revert hs
    generalize Classical.choose h = v
    rintro ⟨d', a, b, ha, hb, hc⟩
    have hd : d = d' := by simpa using congrArg List.length ha
    subst hd
    rw [List.ofFn_injective ha, List.ofFn_injective hb]
    exact hc

end KMethods
