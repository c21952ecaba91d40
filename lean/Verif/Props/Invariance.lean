import Verif.Lemmas.Invariance
import Verif.Props.FullMatrix
import Verif.Props.Kernels
/-!
# C66: changes of the data that do not matter
-/
namespace KMethods
open F KMState

/-! ## kernel functions -/

section
variable {d : Nat}

/-- **C66** Reordering the features of both arguments changes neither the value of a numeric kernel nor whether it raises. -/
theorem C66_feature_order (k : NumKernel) (π : Equiv.Perm (Fin d)) (x y : Fin d → ℝ) : k.on (x ∘ π) (y ∘ π) = k.on x y := by
  rw [on_eq, on_eq, eval_perm]

/-- **C66** nor the value of a match kernel -/
theorem C66_match_feature_order (p : Bool) (π : Equiv.Perm (Fin d)) (x y : Fin d → String) :
    matchCall p (.vec (x ∘ π)) (.vec (y ∘ π)) = matchCall p (.vec x) (.vec y) := by
  have : agreement (x ∘ π) (y ∘ π) = agreement x y := by
    unfold agreement
    rw [Finset.card_filter, Finset.card_filter]
    exact Equiv.sum_comp π fun k => if x k = y k then 1 else 0
  rw [matchCall_vec, matchCall_vec, this]

/-- **C66** A feature that is zero in both arguments has no effect (for the Hadamard kernel: with a positive exponent). -/
theorem C66_zero_feature (k : NumKernel) (hk : ∀ α, k = .hadamard α → 0 < α) (x y : Fin d → ℝ) :
    k.on (Fin.snoc x 0 : Fin (d + 1) → ℝ) (Fin.snoc y 0 : Fin (d + 1) → ℝ) = k.on x y := by
  rw [on_eq, on_eq, ofFn_snoc, ofFn_snoc, eval_append_zero k hk (by simp)]

/-- **C66** With a negative exponent the Hadamard kernel turns such a feature into NaN. -/
theorem C66_zero_feature_hadamard {α : ℝ} (hα : α < 0) (x y : Fin d → ℝ) :
    (NumKernel.hadamard α).on (Fin.snoc x 0 : Fin (d + 1) → ℝ) (Fin.snoc y 0 : Fin (d + 1) → ℝ) = .ok .nan := by
  rw [on_eq, ofFn_snoc, ofFn_snoc, NumKernel.eval, if_pos]
  exact ⟨hα, Or.inl (by simp)⟩

/-- **C66** The Gaussian and the Laplacian kernel do not see a common shift of both arguments. -/
theorem C66_shift (k : NumKernel) (hk : (∃ σ γ, k = .gaussian σ γ) ∨ ∃ γ, k = .laplacian γ) (c x y : Fin d → ℝ) :
    k.on (fun i => x i + c i) (fun i => y i + c i) = k.on x y := by
  rcases hk with ⟨σ, γ, rfl⟩ | ⟨γ, rfl⟩
  · simp only [on_gaussian, add_sub_add_right_eq_sub]
  · simp only [on_laplacian, add_sub_add_right_eq_sub]

/-- **C66** Rescaling both arguments by `c`: the linear kernel gets a factor `c²`, the Hadamard kernel a factor `|c|^α`, the others another parameter. -/
theorem C66_scale {c : ℝ} (hc : c ≠ 0) (x y : Fin d → ℝ) :
    (∃ v, NumKernel.linear.on x y = .ok (.real v) ∧ NumKernel.linear.on (fun i => c * x i) (fun i => c * y i) = .ok (.real (c ^ 2 * v))) ∧
    (∀ α > 0, ∃ v, (NumKernel.hadamard α).on x y = .ok (.real v) ∧
      (NumKernel.hadamard α).on (fun i => c * x i) (fun i => c * y i) = .ok (.real (|c| ^ α * v))) ∧
    (∀ (deg : Nat) (γ b : ℝ), (NumKernel.poly deg γ b).on (fun i => c * x i) (fun i => c * y i) = (NumKernel.poly deg (γ * c ^ 2) b).on x y) ∧
    (∀ γ o, (NumKernel.sigmoid γ o).on (fun i => c * x i) (fun i => c * y i) = (NumKernel.sigmoid (γ * c ^ 2) o).on x y) ∧
    (∀ σ γ, (NumKernel.gaussian σ γ).on (fun i => c * x i) (fun i => c * y i) = (NumKernel.gaussian σ (γ * c ^ 2)).on x y) ∧
    (∀ γ, (NumKernel.laplacian γ).on (fun i => c * x i) (fun i => c * y i) = (NumKernel.laplacian (γ * |c|)).on x y) ∧
    (∀ γ, 0 < c → (∀ i, 0 ≤ x i) → (∀ i, 0 ≤ y i) →
      (NumKernel.chi2 γ).on (fun i => c * x i) (fun i => c * y i) = (NumKernel.chi2 (γ * c)).on x y) := by
  have hdot : ∑ i, c * x i * (c * y i) = c ^ 2 * ∑ i, x i * y i := by
    rw [Finset.mul_sum]; exact Finset.sum_congr rfl fun i _ => by ring
  refine ⟨⟨_, on_linear x y, ?_⟩, fun α hα => ⟨_, on_hadamard (Or.inl hα), ?_⟩, fun deg γ b => ?_, fun γ o => ?_, fun σ γ => ?_, fun γ => ?_, fun γ h0 hx hy => ?_⟩
  · rw [on_linear, hdot]
  · rw [on_hadamard (Or.inl hα), Finset.mul_sum]
    congr 3
    funext i
    have hp : 0 < |c| ^ α := Real.rpow_pos_of_pos (abs_pos.2 hc) α
    rw [abs_mul, abs_mul, Real.mul_rpow (abs_nonneg _) (abs_nonneg _), Real.mul_rpow (abs_nonneg _) (abs_nonneg _)]
    rw [show |c| ^ α * |x i| ^ α * (|c| ^ α * |y i| ^ α) = |c| ^ α * (|c| ^ α * (|x i| ^ α * |y i| ^ α)) by ring,
      ← mul_add, mul_div_mul_left _ _ hp.ne', mul_div_assoc]
    ring
  · rw [on_poly, on_poly, hdot, mul_assoc]
  · rw [on_sigmoid, on_sigmoid, hdot, mul_assoc]
  · rw [on_gaussian, on_gaussian]
    have : ∑ i, (c * x i - c * y i) ^ 2 = c ^ 2 * ∑ i, (x i - y i) ^ 2 := by
      rw [Finset.mul_sum]; exact Finset.sum_congr rfl fun i _ => by ring
    rw [this, show -γ * (c ^ 2 * ∑ i, (x i - y i) ^ 2) = -(γ * c ^ 2) * ∑ i, (x i - y i) ^ 2 by ring]
  · rw [on_laplacian, on_laplacian]
    have : ∑ i, |c * x i - c * y i| = |c| * ∑ i, |x i - y i| := by
      rw [Finset.mul_sum]; exact Finset.sum_congr rfl fun i _ => by rw [← mul_sub, abs_mul]
    rw [this, show -γ * (|c| * ∑ i, |x i - y i|) = -(γ * |c|) * ∑ i, |x i - y i| by ring]
  · rw [on_chi2 _ (fun i => mul_nonneg h0.le (hx i)) (fun i => mul_nonneg h0.le (hy i)), on_chi2 _ hx hy]
    have : ∑ i, (c * x i - c * y i) ^ 2 / (c * x i + c * y i) = c * ∑ i, (x i - y i) ^ 2 / (x i + y i) := by
      rw [Finset.mul_sum]
      refine Finset.sum_congr rfl fun i _ => ?_
      rw [← mul_sub, ← mul_add, mul_pow, sq c, mul_assoc, mul_div_mul_left _ _ hc, mul_div_assoc]
    rw [this, show -γ * (c * ∑ i, (x i - y i) ^ 2 / (x i + y i)) = -(γ * c) * ∑ i, (x i - y i) ^ 2 / (x i + y i) by ring]

/-- **C66** Measuring in other units: a Gaussian kernel whose width is rescaled with the data gives the same values. -/
theorem C66_gaussian_units {c σ : ℝ} (hc : 0 < c) (h1 : 2⁻¹ ^ 52 ≤ σ) (h2 : σ ≤ 2 ^ 25) (h1' : 2⁻¹ ^ 52 ≤ c * σ) (h2' : c * σ ≤ 2 ^ 25) (x y : Fin d → ℝ) :
    (mkGaussian (c * σ)).on (fun i => c * x i) (fun i => c * y i) = (mkGaussian σ).on x y := by
  rw [C55_gaussian h1 h2, C55_gaussian h1' h2']
  have : ∑ i, (c * x i - c * y i) ^ 2 = c ^ 2 * ∑ i, (x i - y i) ^ 2 := by
    rw [Finset.mul_sum]; exact Finset.sum_congr rfl fun i _ => by ring
  have hσ : 0 < σ := lt_of_lt_of_le (by positivity) h1
  rw [this]
  congr 3
  field_simp

/-- **C66** On two groups of features the linear, Hadamard and match-count kernels add up, the Gaussian, Laplacian and chi² kernels multiply. -/
theorem C66_feature_groups {e : Nat} (x y : Fin d → ℝ) (u v : Fin e → ℝ) (s t : Fin d → String) (p q : Fin e → String) :
    (∃ a b, NumKernel.linear.on x y = .ok (.real a) ∧ NumKernel.linear.on u v = .ok (.real b) ∧
      NumKernel.linear.on (Fin.append x u) (Fin.append y v) = .ok (.real (a + b))) ∧
    (∀ α > 0, ∃ a b, (NumKernel.hadamard α).on x y = .ok (.real a) ∧ (NumKernel.hadamard α).on u v = .ok (.real b) ∧
      (NumKernel.hadamard α).on (Fin.append x u) (Fin.append y v) = .ok (.real (a + b))) ∧
    (∃ a b, matchCall false (.vec s) (.vec t) = .ok (.real a) ∧ matchCall false (.vec p) (.vec q) = .ok (.real b) ∧
      matchCall false (.vec (Fin.append s p)) (.vec (Fin.append t q)) = .ok (.real (a + b))) ∧
    (∀ σ γ, ∃ a b, (NumKernel.gaussian σ γ).on x y = .ok (.real a) ∧ (NumKernel.gaussian σ γ).on u v = .ok (.real b) ∧
      (NumKernel.gaussian σ γ).on (Fin.append x u) (Fin.append y v) = .ok (.real (a * b))) ∧
    (∀ γ, ∃ a b, (NumKernel.laplacian γ).on x y = .ok (.real a) ∧ (NumKernel.laplacian γ).on u v = .ok (.real b) ∧
      (NumKernel.laplacian γ).on (Fin.append x u) (Fin.append y v) = .ok (.real (a * b))) ∧
    (∀ γ, (∀ i, 0 ≤ x i) → (∀ i, 0 ≤ y i) → (∀ i, 0 ≤ u i) → (∀ i, 0 ≤ v i) →
      ∃ a b, (NumKernel.chi2 γ).on x y = .ok (.real a) ∧ (NumKernel.chi2 γ).on u v = .ok (.real b) ∧
        (NumKernel.chi2 γ).on (Fin.append x u) (Fin.append y v) = .ok (.real (a * b))) := by
  have happ : ∀ {x : Fin d → ℝ} {u : Fin e → ℝ}, (∀ i, 0 ≤ x i) → (∀ i, 0 ≤ u i) → ∀ i, 0 ≤ Fin.append x u i := fun hx hu i => by
    refine Fin.addCases (fun i => ?_) (fun i => ?_) i
    · rw [Fin.append_left]; exact hx i
    · rw [Fin.append_right]; exact hu i
  refine ⟨⟨_, _, on_linear _ _, on_linear _ _, ?_⟩, fun α hα => ⟨_, _, on_hadamard (Or.inl hα), on_hadamard (Or.inl hα), ?_⟩,
    ⟨_, _, matchCall_vec false s t, matchCall_vec false p q, ?_⟩, fun σ γ => ⟨_, _, on_gaussian _ _ _ _, on_gaussian _ _ _ _, ?_⟩,
    fun γ => ⟨_, _, on_laplacian _ _ _, on_laplacian _ _ _, ?_⟩, fun γ hx hy hu hv => ⟨_, _, on_chi2 _ hx hy, on_chi2 _ hu hv, ?_⟩⟩
  · rw [on_linear, Fin.sum_univ_add]; simp only [Fin.append_left, Fin.append_right]
  · rw [on_hadamard (Or.inl hα), Fin.sum_univ_add]; simp only [Fin.append_left, Fin.append_right]
  · rw [matchCall_vec]
    have : agreement (Fin.append s p) (Fin.append t q) = agreement s t + agreement p q := by
      unfold agreement
      simp only [Finset.card_filter]
      rw [Fin.sum_univ_add]
      simp only [Fin.append_left, Fin.append_right]
    simp [this]
  · rw [on_gaussian, Fin.sum_univ_add, ← Real.exp_add, ← mul_add]; simp only [Fin.append_left, Fin.append_right]
  · rw [on_laplacian, Fin.sum_univ_add, ← Real.exp_add, ← mul_add]; simp only [Fin.append_left, Fin.append_right]
  · rw [on_chi2 _ (happ hx hu) (happ hy hv), Fin.sum_univ_add, ← Real.exp_add, ← mul_add]; simp only [Fin.append_left, Fin.append_right]

/-- **C66** Polynomial kernels: degrees add under multiplication, and the linear kernel is the one of degree 1 with `gamma = 1` and `b = 0`. -/
theorem C66_poly (m n : Nat) (γ b : ℝ) (x y : Fin d → ℝ) :
    (∃ u v, (NumKernel.poly m γ b).on x y = .ok (.real u) ∧ (NumKernel.poly n γ b).on x y = .ok (.real v) ∧
      (NumKernel.poly ((m + n : Nat) : ℤ) γ b).on x y = .ok (.real (u * v))) ∧
    (NumKernel.poly 1 1 0).on x y = NumKernel.linear.on x y := by
  refine ⟨⟨_, _, on_poly m γ b x y, on_poly n γ b x y, ?_⟩, ?_⟩
  · rw [on_poly, pow_add]
  · rw [on_linear, show (1 : ℤ) = ((1 : Nat) : ℤ) from rfl, on_poly]
    simp

end

/-! ## kernel matrices -/

section
variable {K K' X X' : Type}

/-- **C66** A kernel matrix depends on the data only through the values of the kernel: two objects whose kernels take the same values on corresponding rows give the
same `full` (matrix or exception), normalising or not. -/
theorem C66_values_only {env : Env K X F} {env' : Env K' X' F} (hops : env.ops = realOps) (hops' : env'.ops = realOps) {k : K} {k' : K'} {a : Attachment X} {b : Attachment X'}
    (hv : SameValues (env.kval k) a (env'.kval k') b) (hf : NoFaultsOn env k a) (hf' : NoFaultsOn env' k' b)
    (hq : Quiet env k a ∧ QuietNormed env k a) (hq' : Quiet env' k' b ∧ QuietNormed env' k' b) {norm : Bool} {s : KMState K X F} {t : KMState K' X' F}
    (hs : Since env k norm a (fun op => norm = false → ¬ op.MayGoSparse norm a.nrows a.ncols) s)
    (ht : Since env' k' norm b (fun op => norm = false → ¬ op.MayGoSparse norm b.nrows b.ncols) t) :
    (exec env' .full t).1 = (exec env .full s).1 := by
  cases norm with
  | false =>
    rw [C08_full_is_gram hf hq.1 (Since.mono (fun op h => h rfl) hs), C08_full_is_gram hf' hq'.1 (Since.mono (fun op h => h rfl) ht), hv.gram]
  | true =>
    rw [C09_full_is_normalised_gram hops hf hq.1 hq.2 (Since.mono (fun op h => trivial) hs),
      C09_full_is_normalised_gram hops' hf' hq'.1 hq'.2 (Since.mono (fun op h => trivial) ht), hv.gram]
    obtain ⟨A, _ | A2⟩ := a <;> obtain ⟨B, _ | B2⟩ := b
    · rfl
    · exact hv.2.2.elim
    · exact hv.2.2.elim
    · dsimp only
      rw [selfs_congr hv.1 hv.2.1, selfs_congr hv.2.2.1 hv.2.2.2.1]

end

/-- **C66** Numeric kernels, one sample: if the kernels agree on corresponding rows then `full` of the two objects agrees, after any calls not asking for sparse storage. -/
theorem C66_numeric {n d e : Nat} {x : Nat → Fin d → ℝ} {y : Nat → Fin e → ℝ} {k k' : NumKernel} (hv : k.ValidOn (rowsOf n x))
    (h : ∀ i j, i < n → j < n → k'.on (y i) (y j) = k.on (x i) (x j)) {norm : Bool} {s t : KMState NumKernel (List ℝ) F}
    (hs : SinceDense (numEnv realOps) k norm ⟨rowsOf n x, none⟩ s) (ht : SinceDense (numEnv realOps) k' norm ⟨rowsOf n y, none⟩ t) :
    (exec (numEnv realOps) .full t).1 = (exec (numEnv realOps) .full s).1 := by
  obtain ⟨G, hG, hg⟩ := psdOn_of_validOn hv
  have hg' : k'.IsGram (rowsOf n y) G := fun i j => (h i j i.2 j.2).trans (hg i j)
  have hpos : ∀ i : Fin n, 0 ≤ G i i := fun i => hG.diag_nonneg i
  have hval : ∀ (i j : Nat), i < n → j < n → (numEnv realOps).kval k ((rowsOf n x).row i) ((rowsOf n x).row j) =
      (numEnv realOps).kval k' ((rowsOf n y).row i) ((rowsOf n y).row j) := fun i j hi hj =>
    (hg.kval realOps ⟨i, hi⟩ ⟨j, hj⟩).trans (hg'.kval realOps ⟨i, hi⟩ ⟨j, hj⟩).symm
  refine C66_values_only (k := k) (k' := k') (a := ⟨rowsOf n x, none⟩) (b := ⟨rowsOf n y, none⟩) rfl rfl ⟨rfl, fun i hi => hval i i hi hi, fun i j hij hj => hval i j (lt_of_le_of_lt hij hj) hj⟩
    (hg.noFaultsOn realOps) (hg'.noFaultsOn realOps) ⟨(fun h => by cases h), (fun h => by cases h)⟩ ⟨(fun h => by cases h), (fun h => by cases h)⟩
    (Since.mono (fun op h _ => h) hs) (Since.mono (fun op h _ => h) ht)

/-- **C66** So reordering the features of the sample, or appending a feature that is always zero, leaves the kernel matrix unchanged; for Gaussian and Laplacian kernels
also a shift of the sample. -/
theorem C66_matrix {n d : Nat} {x : Nat → Fin d → ℝ} {k : NumKernel} (hv : k.ValidOn (rowsOf n x)) {norm : Bool} {s t : KMState NumKernel (List ℝ) F}
    (hs : SinceDense (numEnv realOps) k norm ⟨rowsOf n x, none⟩ s) :
    (∀ π : Equiv.Perm (Fin d), SinceDense (numEnv realOps) k norm ⟨rowsOf n fun i => x i ∘ π, none⟩ t →
      (exec (numEnv realOps) .full t).1 = (exec (numEnv realOps) .full s).1) ∧
    ((∀ α, k = .hadamard α → 0 < α) → SinceDense (numEnv realOps) k norm ⟨rowsOf n fun i => (Fin.snoc (x i) 0 : Fin (d + 1) → ℝ), none⟩ t →
      (exec (numEnv realOps) .full t).1 = (exec (numEnv realOps) .full s).1) ∧
    (∀ c : Fin d → ℝ, ((∃ σ γ, k = .gaussian σ γ) ∨ ∃ γ, k = .laplacian γ) →
      SinceDense (numEnv realOps) k norm ⟨rowsOf n fun i j => x i j + c j, none⟩ t →
      (exec (numEnv realOps) .full t).1 = (exec (numEnv realOps) .full s).1) :=
  ⟨fun π ht => C66_numeric hv (fun i j _ _ => C66_feature_order k π (x i) (x j)) hs ht,
   fun hk ht => C66_numeric hv (fun i j _ _ => C66_zero_feature k hk (x i) (x j)) hs ht,
   fun c hk ht => C66_numeric hv (fun i j _ _ => C66_shift k hk c (x i) (x j)) hs ht⟩

/-- four points in the plane and the Gaussian kernel; the second object has the features exchanged -/
example : (mkGaussian 2).ValidOn (rowsOf 4 fun i => ![(i : ℝ), 1]) ∧
    SinceDense (numEnv realOps) (mkGaussian 2) true ⟨rowsOf 4 fun i => ![(i : ℝ), 1] ∘ Equiv.swap 0 1, none⟩
      (exec (numEnv realOps) (.attach (.arr [4, 2] (rowsOf 4 fun i => ![(i : ℝ), 1] ∘ Equiv.swap 0 1).row) none) (init (mkGaussian 2) true 0)).2 :=
  ⟨⟨fun i _ => by simp [rowsOf], (ensureMinEps_pos _).le⟩, .attached (.new 0) (two := none) ⟨⟨0, rfl⟩, trivial⟩ rfl⟩

end KMethods
