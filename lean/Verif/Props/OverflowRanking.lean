import Verif.Lemmas.OverflowRanking
import Verif.Lemmas.RoundExact
/-!
# C98: overflow and the choice of a kernel

`find_optimal_kernel` should choose a kernel whose score is the largest, and not one whose matrix or score is broken. If nothing overflows it does, up to rounding errors; otherwise it prefers broken kernels.
-/
namespace KMethods
open Rounding FloatFormat
variable {Φ : FloatFormat} {n : Nat}

/-! ## alignment -/

/-- **C98** If nothing is too large or too close to zero, the kernel chosen by `find_optimal_kernel(method='align/corr')` has the largest exact alignment with `y yᵀ`, up to twice the bound `δ` of the errors. -/
theorem C98_best_partial (o : (Fin n → Fin n → Dbl) → AlignOrders) {Ks : List (Matrix (Fin n) (Fin n) ℝ)} {y : Fin n → ℝ} {s : Matrix (Fin n) (Fin n) ℝ → Fin n → ℝ} {δ : ℝ} (zd : Option Dbl)
    (hne : Ks ≠ []) (hu : 2 * ((3 * (n * n) + 2 * n + 4 : Nat) * Φ.R.u) ≤ 1)
    (hs : ∀ K ∈ Ks, ∀ i j, |K i j| ≤ s K i * s K j) (hK : ∀ K ∈ Ks, ∀ i j, |K i j| ≤ Φ.max / 8) (hy : ∀ i j, |y i * y j| ≤ Φ.max / 16)
    (hKc : ∀ K ∈ Ks, Φ.R.ClearlyNonzero n (Φ.errOf (s K)) (cnorm K)) (hyc : Φ.R.ClearlyNonzero n (Φ.targetErr y) (cnorm (outerR n y)))
    (hKf : ∀ K ∈ Ks, 2 * (cnorm K + Φ.errOf (s K)) ^ 2 ≤ Φ.max) (hyf : 2 * (cnorm (outerR n y) + Φ.targetErr y) ^ 2 ≤ Φ.max)
    (hδ : ∀ K ∈ Ks, Φ.R.alignErr n (Φ.errOf (s K)) (cnorm K) (Φ.targetErr y) (cnorm (outerR n y)) ≤ δ) :
    ∃ i, Φ.chooseByAlignment o (fun i => .fin (y i)) zd (Ks.map fun K i j => .fin (K i j)) = .ok i ∧
      ∃ K, Ks[i]? = some K ∧ ∀ L ∈ Ks, calign L (outerR n y) ≤ calign K (outerR n y) + 2 * δ := by
  have hv : ∀ K ∈ Ks, ∃ v, Φ.alignmentScore (o fun i j => .fin (K i j)) (fun i => .fin (y i)) zd (fun i j => .fin (K i j)) = .ok (.fin v) ∧ |v - calign K (outerR n y)| ≤ δ :=
    fun K h => by
      obtain ⟨v, e, hv⟩ := score_moderate (o fun i j => .fin (K i j)) hu (hs K h) (hK K h) hy (hKc K h) hyc (hKf K h) hyf zd
      exact ⟨v, e, hv.trans (hδ K h)⟩
  choose! f hf using hv
  obtain ⟨i, e, hi⟩ := argmax_fin (xs := Ks.map f) (by simpa using hne)
  obtain ⟨K, hK, hb⟩ := best_of_inexact (fun K h => (hf K h).2) hi
  refine ⟨i, ?_, K, hK, hb⟩
  have e1 : Φ.alignmentRanking o (fun i => .fin (y i)) zd (Ks.map fun K i j => .fin (K i j)) = .ok ((Ks.map f).map .fin) := by
    unfold FloatFormat.alignmentRanking
    rw [List.mapM_map, mapM_ok (g := fun K => .fin (f K)) fun K h => (hf K h).1, List.map_map]
    rfl
  unfold FloatFormat.chooseByAlignment
  rw [e1]
  exact e

/-- **C98** Partial: if all scores are finite, then all matrices are, and the chosen kernel `K` is the best one, up to `2 δ`, among those whose norms do not overflow — unless the norm of `K` overflows: then the alignment
of all of them is at most `δ`. (Norms that overflow have the score 0.) -/
theorem C98_finite_scores_partial (o : (Fin n → Fin n → Dbl) → AlignOrders) {Ks : List (Fin n → Fin n → Dbl)} {y : Fin n → ℝ} {xs : List ℝ} (hne : Ks ≠ [])
    (hu : (3 * (n * n) + 2 * n + 4 : Nat) * Φ.R.u < 1) (hyc : Φ.R.ClearlyNonzero n (Φ.targetErr y) (cnorm (outerR n y))) (hyf : Φ.Fits (outerR n y) (Φ.targetErr y))
    (h : Φ.alignmentRanking o (fun i => .fin (y i)) (some (.fin 0)) Ks = .ok (xs.map .fin)) :
    ∃ Hs : List (Matrix (Fin n) (Fin n) ℝ), (Ks = Hs.map fun H i j => .fin (H i j)) ∧
      ∃ i, Φ.chooseByAlignment o (fun i => .fin (y i)) (some (.fin 0)) Ks = .ok i ∧ ∃ K, Hs[i]? = some K ∧
        ∀ (s : Matrix (Fin n) (Fin n) ℝ → Fin n → ℝ) (δ : ℝ), (∀ H ∈ Hs, ∀ i j, |H i j| ≤ s H i * s H j) → (∀ H ∈ Hs, Φ.R.ClearlyNonzero n (Φ.errOf (s H)) (cnorm H)) →
          (∀ H ∈ Hs, Φ.R.alignErr n (Φ.errOf (s H)) (cnorm H) (Φ.targetErr y) (cnorm (outerR n y)) ≤ δ) →
          ∀ L ∈ Hs, Φ.Fits L (Φ.errOf (s L)) → calign L (outerR n y) ≤ calign K (outerR n y) + 2 * δ ∨ ¬ Φ.Fits K (Φ.errOf (s K)) ∧ calign L (outerR n y) ≤ δ := by
  obtain ⟨g, hg⟩ : ∃ g : (Fin n → Fin n → Dbl) → Dbl, ∀ K, Φ.alignmentScore (o K) (fun i => .fin (y i)) (some (.fin 0)) K = .ok (g K) := by
    have : ∀ K, ∃ x, Φ.alignmentScore (o K) (fun i => .fin (y i)) (some (.fin 0)) K = .ok x := fun K => by
      unfold FloatFormat.alignmentScore
      rw [alignmentCentered_false]
      exact score_some _ _ _ _
    choose g hg using this
    exact ⟨g, hg⟩
  have hm : Ks.map g = xs.map .fin := by
    have := mapM_ok (f := fun K => Φ.alignmentScore (o K) (fun i => .fin (y i)) (some (.fin 0)) K) (g := g) (l := Ks) fun K _ => hg K
    unfold FloatFormat.alignmentRanking at h
    rw [this] at h
    exact Except.ok.inj h
  have hfin : ∀ K ∈ Ks, (g K).Finite := fun K hK => by
    have : g K ∈ xs.map Dbl.fin := hm ▸ List.mem_map_of_mem hK
    obtain ⟨x, -, e⟩ := List.mem_map.1 this
    rw [← e]
    exact trivial
  have hc := fun K (hK : K ∈ Ks) => score_cases (o K) hu ((hg K).trans (congrArg Except.ok (hfin K hK).eq)) hyc
  have hval : xs = Ks.map fun K => (g K).val := by
    have := congrArg (List.map Dbl.val) hm
    rw [List.map_map, List.map_map] at this
    rw [show (fun K => (g K).val) = Dbl.val ∘ g from rfl, this]
    exact (List.map_id _).symm
  have hxs : xs ≠ [] := by rw [hval]; simpa using hne
  obtain ⟨i, e, hi⟩ := argmax_fin hxs
  obtain ⟨V, hV⟩ : ∃ V : (Fin n → Fin n → Dbl) → Matrix (Fin n) (Fin n) ℝ, ∀ H : Matrix (Fin n) (Fin n) ℝ, V (fun i j => .fin (H i j)) = H :=
    ⟨fun K i j => (K i j).val, fun _ => rfl⟩
  have hKs : Ks = (Ks.map V).map fun (H : Matrix (Fin n) (Fin n) ℝ) i j => Dbl.fin (H i j) := by
    rw [List.map_map]
    refine (List.map_id Ks).symm.trans (List.map_congr_left fun K hK => ?_)
    obtain ⟨K', e, -⟩ := hc K hK
    subst e
    show _ = fun i j => Dbl.fin (V (fun i j => .fin (K' i j)) i j)
    rw [hV]
    rfl
  obtain ⟨x, hx, hx1, -⟩ := hi
  rw [hval, List.getElem?_map, Option.map_eq_some_iff] at hx
  obtain ⟨K, hK, rfl⟩ := hx
  have hKm := List.mem_of_getElem? hK
  refine ⟨_, hKs, i, ?_, V K, ?_, fun s δ hs hcl hδ L hL hLf => ?_⟩
  · unfold FloatFormat.chooseByAlignment
    rw [h]
    exact e
  · rw [List.getElem?_map, hK]
    rfl
  · obtain ⟨L, hLm, rfl⟩ := List.mem_map.1 hL
    have acc : ∀ K ∈ Ks, |(g K).val - calign (V K) (outerR n y)| ≤ δ ∨ (g K).val = 0 ∧ ¬ Φ.Fits (V K) (Φ.errOf (s (V K))) := fun K hK => by
      obtain ⟨K', e, h⟩ := hc K hK
      have hmem : V K ∈ Ks.map V := List.mem_map_of_mem hK
      have e' : K' = V K := by rw [e, hV]
      subst e'
      rcases h _ (hs _ hmem) (hcl _ hmem) with h | ⟨h, h2 | h2⟩
      · exact .inl (h.trans (hδ _ hmem))
      · exact .inr ⟨h, h2⟩
      · exact absurd hyf h2
    have hle : (g L).val ≤ (g K).val := hx1 _ (by rw [hval]; exact List.mem_map_of_mem hLm)
    rcases acc L hLm with hL1 | ⟨-, hL1⟩
    · have hL2 := abs_le.1 hL1
      rcases acc K hKm with hK1 | ⟨hK0, hK1⟩
      · have hK2 := abs_le.1 hK1
        left
        linarith [hL2.1, hL2.2, hK2.1, hK2.2]
      · right
        exact ⟨hK1, by linarith [hL2.1]⟩
    · exact absurd hLf hL1

/-- **C98** (violated) A kernel matrix with an entry that is infinite or NaN has the score NaN, and `np.argmax` prefers NaN: if there is such a kernel, a kernel with score NaN is chosen, however good the others are.
All this for targets whose centered matrix is clearly not 0. -/
theorem C98_nan_violated (o : (Fin n → Fin n → Dbl) → AlignOrders) {Ks : List (Fin n → Fin n → Dbl)} {y : Fin n → ℝ} {K : Fin n → Fin n → Dbl} {j : Nat} (v : Dbl)
    (hu : (3 * (n * n) + 2 * n + 4 : Nat) * Φ.R.u < 1) (hyc : Φ.R.ClearlyNonzero n (Φ.targetErr y) (cnorm (outerR n y))) (hj : Ks[j]? = some K) (hK : ∃ i l, ¬ (K i l).Finite) :
    (∀ o zd, Φ.alignmentScore o (fun i => .fin (y i)) zd K = .ok .nan) ∧
    ∃ i, Φ.chooseByAlignment o (fun i => .fin (y i)) (some v) Ks = .ok i ∧ i ≤ j ∧
      (∃ L, Ks[i]? = some L ∧ Φ.alignmentScore (o L) (fun i => .fin (y i)) (some v) L = .ok .nan) ∧
      ((∀ L ∈ Ks.take j, Φ.alignmentScore (o L) (fun i => .fin (y i)) (some v) L ≠ .ok .nan) → i = j) := by
  have hle : ∀ k : Nat, k ≤ 3 * (n * n) + 2 * n + 4 → (k : ℝ) * Φ.R.u < 1 := fun k hk =>
    (mul_le_mul_of_nonneg_right (by exact_mod_cast hk) Φ.R.u_nonneg).trans_lt hu
  have hnan : ∀ o zd, Φ.alignmentScore o (fun i => .fin (y i)) zd K = .ok .nan := fun o zd => by
    unfold FloatFormat.alignmentScore
    rw [alignmentCentered_false]
    exact align_nan o (center_not_finite hK) (target_not_close o (hle _ (by omega)) (hle _ (by nlinarith)) hyc) zd
  refine ⟨hnan, ?_⟩
  have : ∀ L, ∃ x, Φ.alignmentScore (o L) (fun i => .fin (y i)) (some v) L = .ok x := fun L => by
    unfold FloatFormat.alignmentScore
    rw [alignmentCentered_false]
    exact score_some _ _ _ _
  choose g hg using this
  have hm : Φ.alignmentRanking o (fun i => .fin (y i)) (some v) Ks = .ok (Ks.map g) := mapM_ok fun L _ => hg L
  have hgK : g K = .nan := by
    have := (hg K).symm.trans (hnan (o K) (some v))
    exact Except.ok.inj this
  obtain ⟨i, e, hij, hi, -⟩ := argmax_nan (l := Ks.map g) (j := j) (by rw [List.getElem?_map, hj]; exact congrArg some hgK)
  rw [List.getElem?_map, Option.map_eq_some_iff] at hi
  obtain ⟨L, hL, hgL⟩ := hi
  refine ⟨i, ?_, hij, ⟨L, hL, (hg L).trans (congrArg Except.ok hgL)⟩, fun hb => ?_⟩
  · unfold FloatFormat.chooseByAlignment
    rw [hm]
    exact e
  · by_contra hne
    refine hb L ?_ ((hg L).trans (congrArg Except.ok hgL))
    refine List.mem_of_getElem? (i := i) ?_
    rw [List.getElem?_take, if_pos (by omega)]
    exact hL

/-- the constant kernel matrix -/
private def ones : Matrix (Fin 2) (Fin 2) ℝ := fun _ _ => 1

private theorem ones_centered : centered ones = 0 := by
  ext i j
  simp only [centered, Fin.sum_univ_two, ones, Matrix.zero_apply]
  norm_num

private theorem outer_opposite : outerR 2 ![1, -1] = opposite 1 := by
  ext i j
  fin_cases i <;> fin_cases j <;> norm_num [outerR, opposite]

private theorem outer_cnorm : cnorm (outerR 2 ![1, -1]) = 2 := by
  rw [cnorm, outer_opposite, opposite_centered, opposite_frob, show (4 : ℝ) * (1 * 1) = 2 ^ 2 by norm_num, Real.sqrt_sq (by norm_num)]

private theorem ones_cnorm : cnorm ones = 0 := by
  rw [cnorm, ones_centered]
  simp [frobInner]

private theorem double_gamma (k : Nat) : double.R.gamma k = (k * 2⁻¹ ^ 53) / (1 - k * 2⁻¹ ^ 53) := by
  rw [Rounding.gamma, double_u]

private theorem double_pow {k : Nat} (hk : k ≤ 1023) {x : ℝ} (hx : x ≤ 2 ^ k) : x ≤ double.max :=
  hx.trans ((pow_le_pow_right₀ (by norm_num) hk).trans double_max)

/-- the hypotheses of the theorems above, for the target values 1 and -1 -/
example : (3 * (2 * 2) + 2 * 2 + 4 : Nat) * double.R.u < 1 ∧ double.R.ClearlyNonzero 2 (double.targetErr ![1, -1]) (cnorm (outerR 2 ![1, -1])) ∧ double.Fits (outerR 2 ![1, -1]) (double.targetErr ![1, -1]) ∧
    2 * (cnorm (outerR 2 ![1, -1]) + double.targetErr ![1, -1]) ^ 2 ≤ double.max := by
  have ht : double.targetErr ![1, -1] ≤ 1e-10 := by
    simp only [FloatFormat.targetErr, Rounding.centerErr, double_gamma, double_u, Fin.sum_univ_two]
    norm_num
  have ht0 : 0 ≤ double.targetErr ![1, -1] := targetErr_nonneg (by rw [double_u]; norm_num)
  rw [FloatFormat.Fits, Rounding.ClearlyNonzero, outer_cnorm]
  generalize double.targetErr ![1, -1] = t at ht ht0
  rw [double_gamma]
  norm_num at ht
  have h2 : (2 + t) ^ 2 ≤ 5 := by nlinarith
  refine ⟨by rw [double_u]; norm_num, ?_, ?_, double_pow (k := 10) (by norm_num) (by norm_num; linarith)⟩
  · norm_num [double_gamma]
    linarith
  · refine double_pow (k := 10) (by norm_num) ?_
    rw [double_gamma]
    norm_num
    nlinarith

/-- **C98** (violated) All matrices are finite, but the norm of the second one overflows: the constant kernel, with alignment 0, is chosen over a kernel that is proportional to `y yᵀ`, with alignment 1. -/
theorem C98_violated : ∃ (A B : Matrix (Fin 2) (Fin 2) ℝ) (y : Fin 2 → ℝ), IsPSD A ∧ IsPSD B ∧ centered A = 0 ∧ cosine (centered B) (centered (outerR 2 y)) = 1 ∧
    ∀ o, double.chooseByAlignment o (fun i => .fin (y i)) (some (.fin 0)) [fun i j => .fin (A i j), fun i j => .fin (B i j)] = .ok 0 := by
  have hB : centered (opposite (2 ^ 600)) = opposite (2 ^ 600) := opposite_centered _
  refine ⟨ones, opposite (2 ^ 600), ![1, -1], ⟨fun _ _ => rfl, fun x => ?_⟩, opposite_psd (by positivity), ones_centered, ?_, fun o => ?_⟩
  · have : ∑ i, ∑ j, x i * ones i j * x j = (x 0 + x 1) ^ 2 := by
      simp only [Fin.sum_univ_two, ones]
      ring
    rw [this]
    positivity
  · rw [outer_opposite, hB, opposite_centered]
    generalize hc : (2 : ℝ) ^ 600 = c
    have hc0 : 0 < c := by rw [← hc]; positivity
    unfold cosine
    rw [opposite_frob, opposite_frob, opposite_frob]
    rw [show 4 * (c * c) = (2 * c) * (2 * c) by ring, show (4 : ℝ) * (1 * 1) = 2 * 2 by norm_num, Real.sqrt_mul_self (by positivity), Real.sqrt_mul_self (by norm_num)]
    field_simp
    norm_num
  · have h1 : |double.R.fl 1 - 1| ≤ 1 / 2 := (double.R.err 1).trans (by rw [double_u]; norm_num)
    have h2 := abs_le.1 h1
    have hT : double.targetKernel (fun i => .fin ((![1, -1] : Fin 2 → ℝ) i)) = fun i j => .fin (opposite (double.R.fl 1) i j) := by
      have e1 : double.clip (double.R.fl 1) = .fin (double.R.fl 1) := clip_of_le (by
        rw [abs_of_nonneg (by linarith [h2.1])]
        exact double_pow (k := 1) (by norm_num) (by linarith [h2.2]))
      have e2 : double.clip (double.R.fl (-1)) = .fin (-double.R.fl 1) := by
        rw [double.R.odd]
        exact clip_of_le (by
          rw [abs_neg, abs_of_nonneg (by linarith [h2.1])]
          exact double_pow (k := 1) (by norm_num) (by linarith [h2.2]))
      funext i j
      rw [target_eq]
      fin_cases i <;> fin_cases j <;> simp [opposite, e1, e2]
    have sA : ∀ o, double.alignmentScore o (fun i => .fin ((![1, -1] : Fin 2 → ℝ) i)) (some (.fin 0)) (fun i j => .fin (ones i j)) = .ok (.fin 0) := fun o => by
      unfold FloatFormat.alignmentScore
      rw [hT]
      refine score_close o (K := ones) (T := opposite (double.R.fl 1)) (s := fun _ => 1) (by rw [double_u]; norm_num) (fun i j => by norm_num [ones]) (fun i j => ?_) ?_
      · have := double_pow (k := 3) (by norm_num) (le_refl _)
        norm_num at this
        rw [show ones i j = 1 from rfl, abs_one]
        linarith
      · rw [ones_cnorm]
        simp only [FloatFormat.errOf, Rounding.centerErr, double_gamma, Fin.sum_univ_two]
        norm_num
    have sB : ∀ o, double.alignmentScore o (fun i => .fin ((![1, -1] : Fin 2 → ℝ) i)) (some (.fin 0)) (fun i j => .fin (opposite (2 ^ 600) i j)) = .ok (.fin 0) := fun o => by
      unfold FloatFormat.alignmentScore
      rw [hT]
      exact opposite_align_zero o (by linarith [h2.1]) (by linarith [h2.2]) _
    generalize (fun i j => Dbl.fin (opposite (2 ^ 600) i j)) = B at sB ⊢
    generalize (fun i j => Dbl.fin (ones i j)) = A at sA ⊢
    have e : double.alignmentRanking o (fun i => .fin ((![1, -1] : Fin 2 → ℝ) i)) (some (.fin 0)) [A, B] = .ok ([(0:ℝ), 0].map .fin) := by
      unfold FloatFormat.alignmentRanking
      rw [List.mapM_cons, sA, List.mapM_cons, sB]
      rfl
    obtain ⟨i, e', x, hx, -, hfirst⟩ := argmax_fin (xs := [(0:ℝ), 0]) (by simp)
    have hi : i = 0 := by
      by_contra hi
      have h0 : (0:ℝ) < x := hfirst 0 (by
        obtain ⟨k, rfl⟩ := Nat.exists_eq_succ_of_ne_zero hi
        match k, hx with
        | 0, _ => simp)
      have : x ∈ [(0:ℝ), 0] := List.mem_of_getElem? hx
      have : x = 0 := by simpa using this
      linarith
    unfold FloatFormat.chooseByAlignment
    rw [e]
    exact e'.trans (by rw [hi])

/-! ## cross-validation -/

/-- **C98** Finite scores of a cross-validation whose differences do not overflow: the score of the chosen kernel is the largest one up to rounding errors, or the first kernel is chosen and all scores are nearly equal. -/
theorem C98_cv {xs : List ℝ} {D : ℝ} (hne : xs ≠ []) (hu : 2 * ((8 : Nat) * Φ.R.u) ≤ 1) (hbig : 1000 ≤ Φ.max) (hD : ∀ a ∈ xs, ∀ b ∈ xs, a - b ≤ D) (hmax : 2 * D ≤ Φ.max) :
    ∃ i, Φ.chooseByCV (xs.map .fin) = .ok i ∧ ∃ x, xs[i]? = some x ∧
      ((∀ b ∈ xs, b ≤ x + Φ.R.gamma 6 * D) ∨ i = 0 ∧ ∀ a ∈ xs, ∀ b ∈ xs, a - b ≤ 2e-8) := by
  rcases cvRanking_fin (Φ := Φ) hne hu hbig fun a ha b hb => by linarith [hD a ha b hb] with ⟨e, h⟩ | ⟨m, hm, S, hS, f, hle, e, hf⟩
  · obtain ⟨i, e', x, hx, -, hfirst⟩ := argmax_fin (xs := xs.map fun _ => 0) (by simpa using hne)
    have hi : i = 0 := by
      by_contra hi
      cases xs with
      | nil => exact hne rfl
      | cons a l =>
        obtain ⟨k, rfl⟩ := Nat.exists_eq_succ_of_ne_zero hi
        have h0 := hfirst 0 (by simp)
        have hx0 : x = 0 := by
          rw [List.getElem?_map, Option.map_eq_some_iff] at hx
          obtain ⟨_, -, rfl⟩ := hx
          rfl
        exact lt_irrefl _ (hx0 ▸ h0)
    subst hi
    refine ⟨0, ?_, ?_⟩
    · unfold FloatFormat.chooseByCV
      rw [e]
      rw [List.map_map] at e'
      exact e'
    · cases xs with
      | nil => exact (hne rfl).elim
      | cons a l => exact ⟨a, rfl, .inr ⟨rfl, h⟩⟩
  · obtain ⟨i, e', z, hz, hbest, -⟩ := argmax_fin (xs := xs.map f) (by simpa using hne)
    rw [List.getElem?_map, Option.map_eq_some_iff] at hz
    obtain ⟨x, hx, rfl⟩ := hz
    have hxm := List.mem_of_getElem? hx
    refine ⟨i, ?_, x, hx, .inl fun b hb => ?_⟩
    · unfold FloatFormat.chooseByCV
      rw [e]
      rw [List.map_map] at e'
      exact e'
    · have h1 := hbest (f b) (List.mem_map_of_mem hb)
      obtain ⟨c, hc1, -, ec⟩ := hf b hb
      obtain ⟨d, -, hd2, ed⟩ := hf x hxm
      rw [ec, ed] at h1
      have hb0 : 0 ≤ b - m := sub_nonneg.2 (hle b hb)
      have hx0 : 0 ≤ x - m := sub_nonneg.2 (hle x hxm)
      have hw3 := pow_w_pos (R := Φ.R) 3
      have h2 : (b - m) * c ≤ (x - m) * d := by
        have h3 : 100 * ((b - m) / S) * c = (100 / S) * ((b - m) * c) := by ring
        have h4 : 100 * ((x - m) / S) * d = (100 / S) * ((x - m) * d) := by ring
        rw [h3, h4] at h1
        exact le_of_mul_le_mul_left h1 (by positivity)
      have h3 : (b - m) * (Φ.R.w ^ 3)⁻¹ ≤ (x - m) * Φ.R.w ^ 3 :=
        (mul_le_mul_of_nonneg_left hc1 hb0).trans (h2.trans (mul_le_mul_of_nonneg_left hd2 hx0))
      have h4 : b - m ≤ (x - m) * Φ.R.w ^ 6 := by
        have := mul_le_mul_of_nonneg_right h3 hw3.le
        rw [mul_assoc, inv_mul_cancel₀ hw3.ne', mul_one, mul_assoc, ← pow_add] at this
        exact this
      have h5 := pow_w_le (R := Φ.R) 6 (by push_cast at hu ⊢; linarith [Φ.R.u_nonneg])
      have h6 : 0 ≤ Φ.R.w ^ 6 - 1 := sub_nonneg.2 (one_le_pow₀ Φ.R.one_le_w)
      have h7 : (x - m) * (Φ.R.w ^ 6 - 1) ≤ D * Φ.R.gamma 6 := mul_le_mul (hD x hxm m hm) h5 h6 (hx0.trans (hD x hxm m hm))
      nlinarith

/-- **C98** (violated) If one of the scores of a cross-validation is NaN or `-inf`, the first kernel of the bucket is chosen, whatever the scores are. -/
theorem C98_cv_violated {l : List Dbl} (h : ∃ v ∈ l, v = .nan ∨ v = .inf true) : Φ.cvRanking l = .ok (l.map fun _ => .nan) ∧ Φ.chooseByCV l = .ok 0 := by
  have hne : l ≠ [] := by
    rintro rfl
    obtain ⟨v, hv, -⟩ := h
    cases hv
  refine ⟨cvRanking_low h, ?_⟩
  unfold FloatFormat.chooseByCV
  rw [cvRanking_low h]
  exact argmax_all_nan (by simpa using hne) fun x hx => by
    obtain ⟨_, -, rfl⟩ := List.mem_map.1 hx
    rfl

/-- scores meeting the hypotheses of `C98_cv`, and scores whose best kernel is not chosen -/
example : (∀ a ∈ [(0.5:ℝ), 0.9, 0.7], ∀ b ∈ [(0.5:ℝ), 0.9, 0.7], a - b ≤ 1) ∧ 2 * ((8 : Nat) * double.R.u) ≤ 1 ∧ (1000 : ℝ) ≤ double.max ∧
    double.chooseByCV [.inf true, .fin 1] = .ok 0 ∧ double.chooseByCV [.fin 0, .fin 1, .nan] = .ok 0 := by
  refine ⟨fun a ha b hb => ?_, by rw [double_u]; norm_num, double_pow (k := 10) (by norm_num) (by norm_num), (C98_cv_violated ⟨_, by simp, .inr rfl⟩).2, (C98_cv_violated ⟨.nan, by simp, .inl rfl⟩).2⟩
  simp only [List.mem_cons, List.not_mem_nil, or_false] at ha hb
  rcases ha with rfl | rfl | rfl <;> rcases hb with rfl | rfl | rfl <;> norm_num

/-- **C98** An empty bucket is an error, in the ranking by cross-validation already. -/
theorem C98_empty (o : (Fin n → Fin n → Dbl) → AlignOrders) (y : Fin n → Dbl) (zd : Option Dbl) :
    Φ.chooseByAlignment o y zd [] = .error .valueError ∧ Φ.cvRanking [] = .error .valueError ∧ Φ.chooseByCV [] = .error .valueError :=
  ⟨by unfold FloatFormat.chooseByAlignment FloatFormat.alignmentRanking; rw [List.mapM_nil]; show Dbl.argmax [] = _; exact if_pos rfl, rfl, rfl⟩

end KMethods
