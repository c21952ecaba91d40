import Verif.Lemmas.Lipschitz
import Verif.Props.Separate
/-!
# C86: small changes of the data change kernel values and kernel matrices little
-/
namespace KMethods
open F KMState
variable {d : Nat} {k : NumKernel}

/-- **C86** All numeric kernels, all vectors: both values are finite and differ by at most the allowed change. -/
theorem C86_kernel {x y x' y' : Fin d → ℝ} (hx : k.MeantFor x) (hy : k.MeantFor y) (hx' : k.MeantFor x') (hy' : k.MeantFor y') :
    ∃ v v', k.on x y = .ok (.real v) ∧ k.on x' y' = .ok (.real v') ∧ |v - v'| ≤ k.change x y x' y' :=
  kernel_change hx hy hx' hy'

/-- **C86** Hence every numeric kernel is continuous, also where it divides zero by zero: for any tolerance, all arguments close enough give values within the tolerance. -/
theorem C86_continuous {x y : Fin d → ℝ} (hx : k.MeantFor x) (hy : k.MeantFor y) {ε : ℝ} (hε : 0 < ε) :
    ∃ v, k.on x y = .ok (.real v) ∧ ∃ δ > 0, ∀ x' y' : Fin d → ℝ, k.MeantFor x' → k.MeantFor y' → Within δ x x' → Within δ y y' →
      ∃ v', k.on x' y' = .ok (.real v') ∧ |v - v'| < ε := by
  obtain ⟨v, -, hv, -⟩ := kernel_change hx hy hx hy
  refine ⟨v, hv, ?_⟩
  have hc := change_continuous k (fun α e => by subst e; exact hx) x y
  obtain ⟨δ, hδ, h⟩ := Metric.continuous_iff.1 hc (x, y) ε hε
  refine ⟨δ / 2, by positivity, fun x' y' hx' hy' h1 h2 => ?_⟩
  obtain ⟨w, v', hw, hv', hb⟩ := kernel_change hx hy hx' hy'
  rw [hv] at hw
  injection hw with hw
  injection hw with hw
  subst hw
  refine ⟨v', hv', hb.trans_lt ?_⟩
  have hd : ∀ {x x' : Fin d → ℝ}, Within (δ / 2) x x' → dist x' x ≤ δ / 2 := fun h => by
    refine (dist_pi_le_iff (by positivity)).2 fun i => ?_
    rw [Real.dist_eq, abs_sub_comm]; exact h i
  have := h (x', y') (by rw [Prod.dist_eq]; exact (max_le (hd h1) (hd h2)).trans_lt (by linarith))
  simp only [change_self, Real.dist_eq, sub_zero] at this
  exact (le_abs_self _).trans_lt this

/-- **C86** Gaussian, Laplacian and chi² kernels: if no coordinate changes by more than `δ`, the value changes by at most a multiple of `δ` that does not depend on the data. -/
theorem C86_uniform {x y x' y' : Fin d → ℝ} {δ : ℝ} (hδ : 0 ≤ δ) (hx : k.MeantFor x) (hy : k.MeantFor y) (hx' : k.MeantFor x') (hy' : k.MeantFor y')
    (h1 : Within δ x x') (h2 : Within δ y y') :
    ∃ v v', k.on x y = .ok (.real v) ∧ k.on x' y' = .ok (.real v') ∧
      (∀ σ γ, k = .gaussian σ γ → |v - v'| ≤ 2 * Real.sqrt (γ * d) * δ) ∧
      (∀ γ, k = .laplacian γ → |v - v'| ≤ 2 * γ * d * δ) ∧ (∀ γ, k = .chi2 γ → |v - v'| ≤ 6 * γ * d * δ) := by
  have hd1 : ∀ {x x' : Fin d → ℝ}, Within δ x x' → dist1 x x' ≤ d * δ := fun h => by
    refine (Finset.sum_le_sum fun i _ => h i).trans ?_
    simp
  have hd2 : ∀ {x x' : Fin d → ℝ}, Within δ x x' → dist2 x x' ≤ Real.sqrt d * δ := fun h => by
    have : Real.sqrt d * δ = Real.sqrt (∑ _k : Fin d, δ ^ 2) := by
      rw [Finset.sum_const, Finset.card_univ, Fintype.card_fin, nsmul_eq_mul, Real.sqrt_mul (Nat.cast_nonneg _), Real.sqrt_sq hδ]
    rw [this]
    refine Real.sqrt_le_sqrt (Finset.sum_le_sum fun i _ => ?_)
    rw [← sq_abs]
    exact pow_le_pow_left₀ (abs_nonneg _) (h i) 2
  obtain ⟨v, v', e1, e2, hb⟩ := kernel_change hx hy hx' hy'
  refine ⟨v, v', e1, e2, fun σ γ e => hb.trans ?_, fun γ e => hb.trans ?_, fun γ e => hb.trans ?_⟩ <;> subst e
  · have h3 := hd2 h1
    have h4 := hd2 h2
    have h5 := Real.sqrt_nonneg γ
    rw [NumKernel.change, Real.sqrt_mul hx]
    nlinarith
  · have h3 := hd1 h1
    have h4 := hd1 h2
    have h5 : 0 ≤ γ := hx
    rw [NumKernel.change]
    nlinarith
  · have h3 := hd1 h1
    have h4 := hd1 h2
    have h5 : 0 ≤ γ := hx.1
    rw [NumKernel.change]
    nlinarith

/-- chi² kernel, moving away from a coordinate where both vectors are zero -/
example : (NumKernel.chi2 1).MeantFor (![0, 2] : Fin 2 → ℝ) ∧ (NumKernel.chi2 1).MeantFor (![0, 1] : Fin 2 → ℝ) ∧ (NumKernel.chi2 1).MeantFor (![1 / 100, 2] : Fin 2 → ℝ) ∧
    Within (1 / 100) (![0, 2] : Fin 2 → ℝ) ![1 / 100, 2] ∧ (NumKernel.chi2 1).change (![0, 2] : Fin 2 → ℝ) ![0, 1] ![1 / 100, 2] ![0, 1] = 3 / 100 := by
  refine ⟨⟨zero_le_one, ?_⟩, ⟨zero_le_one, ?_⟩, ⟨zero_le_one, ?_⟩, ?_, ?_⟩
  · intro i; fin_cases i <;> norm_num
  · intro i; fin_cases i <;> norm_num
  · intro i; fin_cases i <;> norm_num
  · intro i; fin_cases i <;> norm_num [abs_of_pos]
  · norm_num [NumKernel.change, dist1, Fin.sum_univ_two, abs_of_pos]

/-! ## kernel matrices -/

variable {n : Nat} {row row' : Nat → List ℝ}

/-- the matrix of kernel values, for all kernels -/
theorem gram_of_meant {A : Arr2 (List ℝ)} (hA : ∀ i, i < A.nrows → (A.row i).length = A.ncols) (hm : ∀ i, k.MeantFor (A.vec i)) :
    ∃ K, k.IsGram A K ∧ (∀ i j, K i j = K j i) ∧ ∀ i j, k.on (A.vec i) (A.vec j) = .ok (.real (K i j)) := by
  have h : ∀ i j, ∃ v, k.on (A.vec i) (A.vec j) = .ok (.real v) := fun i j =>
    let ⟨v, _, hv, _⟩ := kernel_change (hm i) (hm j) (hm i) (hm j)
    ⟨v, hv⟩
  choose K hK using h
  refine ⟨K, fun i j => ?_, fun i j => ?_, hK⟩
  · rw [row_eq_vec hA, row_eq_vec hA]; exact hK i j
  · have h1 := hK i j
    rw [on_eq, eval_comm, ← on_eq, hK j i] at h1
    injection h1 with h1
    injection h1 with h1
    exact h1.symm

/-- **C86** Two samples of the same shape, each attached to an object with the same kernel, not normalising, after any calls not requesting sparse storage:
the two full matrices differ, entry by entry, at most by the allowed change between the rows. -/
theorem C86_full (hA : ∀ i, i < n → (row i).length = d) (hA' : ∀ i, i < n → (row' i).length = d)
    (hm : ∀ i, k.MeantFor ((⟨n, d, row⟩ : Arr2 (List ℝ)).vec i)) (hm' : ∀ i, k.MeantFor ((⟨n, d, row'⟩ : Arr2 (List ℝ)).vec i))
    {s t : KMState NumKernel (List ℝ) F} (h : SinceDense (numEnv realOps) k false ⟨⟨n, d, row⟩, none⟩ s)
    (h' : SinceDense (numEnv realOps) k false ⟨⟨n, d, row'⟩, none⟩ t) :
    ∃ K K' : Matrix (Fin n) (Fin n) ℝ, (exec (numEnv realOps) .full s).1 = .ok (.mat .dense (Mat.ofReal K)) ∧
      (exec (numEnv realOps) .full t).1 = .ok (.mat .dense (Mat.ofReal K')) ∧
      ∀ i j, |K i j - K' i j| ≤ k.change ((⟨n, d, row⟩ : Arr2 (List ℝ)).vec i) ((⟨n, d, row⟩ : Arr2 (List ℝ)).vec j)
        ((⟨n, d, row'⟩ : Arr2 (List ℝ)).vec i) ((⟨n, d, row'⟩ : Arr2 (List ℝ)).vec j) := by
  obtain ⟨K, hg, hs, hv⟩ := gram_of_meant (A := ⟨n, d, row⟩) hA hm
  obtain ⟨K', hg', hs', hv'⟩ := gram_of_meant (A := ⟨n, d, row'⟩) hA' hm'
  refine ⟨K, K', ?_, ?_, fun i j => ?_⟩
  · rw [C08_full_is_gram (hg.noFaultsOn realOps) (quiet_of_real rfl (hg.realOn realOps)) h, gram_ofReal (hg.realOn realOps), hg.gramR realOps hs]
  · rw [C08_full_is_gram (hg'.noFaultsOn realOps) (quiet_of_real rfl (hg'.realOn realOps)) h', gram_ofReal (hg'.realOn realOps), hg'.gramR realOps hs']
  · obtain ⟨v, v', e, e', hb⟩ := kernel_change (hm i) (hm j) (hm' i) (hm' j)
    rw [hv i j] at e
    rw [hv' i j] at e'
    injection e with e; injection e with e
    injection e' with e'; injection e' with e'
    rwa [e, e']

/-- **C86** the same for normalising objects with a Gaussian, Laplacian or chi² kernel, after any calls -/
theorem C86_full_normalised (hk : k.Separating) (hv : k.ValidOn ⟨n, d, row⟩) (hv' : k.ValidOn ⟨n, d, row'⟩)
    {s t : KMState NumKernel (List ℝ) F} (h : SinceAny (numEnv realOps) k true ⟨⟨n, d, row⟩, none⟩ s)
    (h' : SinceAny (numEnv realOps) k true ⟨⟨n, d, row'⟩, none⟩ t) :
    ∃ K K' : Matrix (Fin n) (Fin n) ℝ, (exec (numEnv realOps) .full s).1 = .ok (.mat .dense (Mat.ofReal K)) ∧
      (exec (numEnv realOps) .full t).1 = .ok (.mat .dense (Mat.ofReal K')) ∧
      ∀ i j, |K i j - K' i j| ≤ k.change ((⟨n, d, row⟩ : Arr2 (List ℝ)).vec i) ((⟨n, d, row⟩ : Arr2 (List ℝ)).vec j)
        ((⟨n, d, row'⟩ : Arr2 (List ℝ)).vec i) ((⟨n, d, row'⟩ : Arr2 (List ℝ)).vec j) := by
  have hm : ∀ {row : Nat → List ℝ}, k.ValidOn ⟨n, d, row⟩ → ∀ i, k.MeantFor ((⟨n, d, row⟩ : Arr2 (List ℝ)).vec i) := fun {row} hv i => by
    cases k with
    | gaussian => exact hv.2
    | laplacian => exact hv.2
    | chi2 => exact ⟨hv.2.1, fun c => hv.2.2 i i.2 _ (vec_mem hv.1 i c)⟩
    | _ => exact hk.elim
  obtain ⟨K, hg, -, e⟩ := C53_unit_diagonal hv (Separating.unit hk) h
  obtain ⟨K', hg', -, e'⟩ := C53_unit_diagonal hv' (Separating.unit hk) h'
  refine ⟨K, K', e, e', fun i j => ?_⟩
  obtain ⟨v, v', e, e', hb⟩ := kernel_change (hm hv i) (hm hv j) (hm hv' i) (hm hv' j)
  have h1 := hg i j
  have h2 := hg' i j
  rw [row_eq_vec hv.1, row_eq_vec hv.1] at h1
  rw [row_eq_vec hv'.1, row_eq_vec hv'.1] at h2
  have h3 := h1.symm.trans e
  have h4 := h2.symm.trans e'
  injection h3 with h3; injection h3 with h3
  injection h4 with h4; injection h4 with h4
  rwa [h3, h4]

/-- **C86** Centering at most quadruples the largest difference between the entries of two matrices, so the centred matrices of the two samples are close as well. -/
theorem C86_centered (hA : ∀ i, i < n → (row i).length = d) (hA' : ∀ i, i < n → (row' i).length = d)
    (hm : ∀ i, k.MeantFor ((⟨n, d, row⟩ : Arr2 (List ℝ)).vec i)) (hm' : ∀ i, k.MeantFor ((⟨n, d, row'⟩ : Arr2 (List ℝ)).vec i))
    {norm norm' : Bool} {s t : KMState NumKernel (List ℝ) F} (h : SinceDense (numEnv realOps) k norm ⟨⟨n, d, row⟩, none⟩ s)
    (h' : SinceDense (numEnv realOps) k norm' ⟨⟨n, d, row'⟩, none⟩ t) {ε : ℝ}
    (hε : ∀ i j, k.change ((⟨n, d, row⟩ : Arr2 (List ℝ)).vec i) ((⟨n, d, row⟩ : Arr2 (List ℝ)).vec j)
        ((⟨n, d, row'⟩ : Arr2 (List ℝ)).vec i) ((⟨n, d, row'⟩ : Arr2 (List ℝ)).vec j) ≤ ε) :
    ∃ C C' : Matrix (Fin n) (Fin n) ℝ, (exec (numEnv realOps) .centered s).1 = .ok (.mat .dense (Mat.ofReal C)) ∧
      (exec (numEnv realOps) .centered t).1 = .ok (.mat .dense (Mat.ofReal C')) ∧ ∀ i j, |C i j - C' i j| ≤ 4 * ε := by
  obtain ⟨K, hg, hs, hv⟩ := gram_of_meant (A := ⟨n, d, row⟩) hA hm
  obtain ⟨K', hg', hs', hv'⟩ := gram_of_meant (A := ⟨n, d, row'⟩) hA' hm'
  refine ⟨centered K, centered K', ?_, ?_, ?_⟩
  · rw [C16_centered rfl (hg.noFaultsOn realOps) (hg.realOn realOps) h, hg.gramR realOps hs]
  · rw [C16_centered rfl (hg'.noFaultsOn realOps) (hg'.realOn realOps) h', hg'.gramR realOps hs']
  · refine centered_close fun i j => le_trans ?_ (hε i j)
    obtain ⟨v, v', e, e', hb⟩ := kernel_change (hm i) (hm j) (hm' i) (hm' j)
    rw [hv i j] at e
    rw [hv' i j] at e'
    injection e with e; injection e with e
    injection e' with e'; injection e' with e'
    rwa [e, e']

/-- three points of the line and the sigmoid kernel, one of them moved; any histories -/
example : (∀ i, (NumKernel.sigmoid 1 1).MeantFor ((⟨3, 1, fun i => [(i:ℝ)]⟩ : Arr2 (List ℝ)).vec i)) ∧
    (∀ i, i < 3 → ([(i:ℝ)]).length = 1) ∧
    SinceDense (numEnv realOps) (.sigmoid 1 1) false ⟨⟨3, 1, fun i => [(i:ℝ)]⟩, none⟩
      (exec (numEnv realOps) (.attach (.arr [3, 1] fun i => [(i:ℝ)]) none) (init (.sigmoid 1 1) false 0)).2 :=
  ⟨fun _ => trivial, fun _ _ => rfl, .attached (.new 0) (two := none) ⟨⟨0, rfl⟩, trivial⟩ rfl⟩

/-! ## parameters and data that are excluded -/

/-- **C86** The constructors also accept negative exponents: the Hadamard kernel is then NaN at zero, though it is finite, and bounded, at all other points
near zero; the same for the polynomial kernel, whose values have no bound near its zeros. -/
theorem C86_negative_powers : mkHadamard (-1) = .ok (.hadamard (-1)) ∧ (NumKernel.hadamard (-1)).on (fun _ : Fin 1 => 0) (fun _ => 1) = .ok .nan ∧
    (∀ t : ℝ, t ≠ 0 → ∃ v, (NumKernel.hadamard (-1)).on (fun _ : Fin 1 => t) (fun _ => 1) = .ok (.real v) ∧ 0 ≤ v ∧ v ≤ 1 / 2) ∧
    (NumKernel.poly (-1) 1 0).on (fun _ : Fin 1 => 0) (fun _ => 1) = .ok .nan ∧
    ∀ t : ℝ, t ≠ 0 → (NumKernel.poly (-1) 1 0).on (fun _ : Fin 1 => t) (fun _ => 1) = .ok (.real t⁻¹) := by
  refine ⟨?_, ?_, fun t ht => ?_, ?_, fun t ht => ?_⟩
  · rw [mkHadamard, if_neg]
    simp [F.isClose]
    norm_num
  · rw [on_eq, NumKernel.eval, if_pos]
    exact ⟨by norm_num, .inl (by simp)⟩
  · refine ⟨_, on_hadamard (.inr ⟨fun _ => ht, fun _ => one_ne_zero⟩), ?_, ?_⟩
    · positivity
    · have h1 : 0 < |t| := abs_pos.2 ht
      have h2 : 0 < |t| ^ (-1:ℝ) := Real.rpow_pos_of_pos h1 _
      simp only [Finset.univ_unique, Finset.sum_const, Finset.card_singleton, one_smul, abs_one, Real.one_rpow, mul_one]
      have : |t| ^ (-1:ℝ) / (|t| ^ (-1:ℝ) + 1) ≤ 1 := (div_le_one (by linarith)).2 (by linarith)
      linarith
  · rw [on_eq, NumKernel.eval]
    simp [dot, sumZip, intPow]
  · rw [on_eq, NumKernel.eval]
    simp [dot, sumZip, intPow, ht]

/-- **C86** Negative entries, however small, make the chi² kernel raise. -/
theorem C86_chi2_edge (γ : ℝ) {δ : ℝ} (hδ : 0 < δ) :
    (∃ v, (NumKernel.chi2 γ).on (fun _ : Fin 1 => 0) (fun _ => 1) = .ok (.real v)) ∧
    (NumKernel.chi2 γ).on (fun _ : Fin 1 => -δ) (fun _ => 1) = .error .chi2Negative := by
  refine ⟨⟨_, on_chi2 γ (fun _ => le_rfl) fun _ => zero_le_one⟩, ?_⟩
  rw [on_eq, NumKernel.eval, if_pos]
  exact .inl ⟨-δ, by simp, by linarith⟩

end KMethods
