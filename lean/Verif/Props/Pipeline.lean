import Verif.Lemmas.Pipeline
import Verif.Props.FullMatrix
import Verif.Props.Kernels
/-!
# C53, C54: kernel functions used through `KernelMatrix`
-/
namespace KMethods
open F KMState
variable {k : NumKernel} {A : Arr2 (List ℝ)}

/-- **C53** Not normalising: after any calls not requesting sparse storage, `km.full` is the positive semidefinite matrix of kernel
values. -/
theorem C53_full_psd (hv : k.ValidOn A) {s : KMState NumKernel (List ℝ) F}
    (h : SinceDense (numEnv realOps) k false ⟨A, none⟩ s) :
    ∃ K, k.IsGram A K ∧ IsPSD K ∧ (exec (numEnv realOps) .full s).1 = .ok (.mat .dense (Mat.ofReal K)) := by
  obtain ⟨K, hK, hg⟩ := psdOn_of_validOn hv
  refine ⟨K, hg, hK, ?_⟩
  rw [C08_full_is_gram (hg.noFaultsOn realOps) (quiet_of_real rfl (hg.realOn realOps)) h, gram_ofReal (hg.realOn realOps), hg.gramR realOps hK.1]

/-- **C53** Normalising: after any calls, `km.full` either raises `KMNormError`, which happens exactly when some self-kernel is close to
zero, or is a positive semidefinite matrix with unit diagonal: the cosine-normalised matrix of kernel values. -/
theorem C53_normalised_psd (hv : k.ValidOn A) {s : KMState NumKernel (List ℝ) F}
    (h : SinceAny (numEnv realOps) k true ⟨A, none⟩ s) :
    ∃ K, k.IsGram A K ∧
      ((∃ i, NearZero (K i i)) → (exec (numEnv realOps) .full s).1 = .error .kmNorm) ∧
      ((¬ ∃ i, NearZero (K i i)) →
        (exec (numEnv realOps) .full s).1 = .ok (.mat .dense (Mat.ofReal (cosNorm K))) ∧
        IsPSD (cosNorm K) ∧ ∀ i, cosNorm K i i = 1) := by
  obtain ⟨K, hK, hg⟩ := psdOn_of_validOn hv
  have hd : ∀ i : Fin A.nrows, ((numEnv realOps).kval k (A.row i) (A.row i)).val = K i i := fun i => by
    rw [hg.kval]; rfl
  have h1 := C09_one_sample rfl (hg.noFaultsOn realOps) (hg.realOn realOps) h
    (fun i => by rw [hd]; exact hK.diag_nonneg i)
  simp only [hd] at h1
  rw [hg.gramR realOps hK.1] at h1
  refine ⟨K, hg, h1.1, fun hz => ⟨h1.2 hz, hK.cosNorm, fun i => ?_⟩⟩
  have hpos : 0 < K i i := pos_of_not_nearZero (hK.diag_nonneg i) fun h0 => hz ⟨i, h0⟩
  rw [cosNorm, Real.sqrt_mul_self hpos.le, div_self hpos.ne']

/-- **C53** centering keeps it positive semidefinite -/
theorem C53_centered_psd (hv : k.ValidOn A) {norm : Bool} {s : KMState NumKernel (List ℝ) F}
    (h : SinceDense (numEnv realOps) k norm ⟨A, none⟩ s) :
    ∃ K, k.IsGram A K ∧ IsPSD (centered K) ∧
      (exec (numEnv realOps) .centered s).1 = .ok (.mat .dense (Mat.ofReal (centered K))) := by
  obtain ⟨K, hK, hg⟩ := psdOn_of_validOn hv
  refine ⟨K, hg, hK.centered, ?_⟩
  rw [C16_centered rfl (hg.noFaultsOn realOps) (hg.realOn realOps) h, hg.gramR realOps hK.1]

/-- **C53** for the Gaussian, Laplacian and chi² kernels normalisation never raises (and changes nothing): after any calls the full
matrix of a normalising object is the matrix of kernel values -/
theorem C53_unit_diagonal (hv : k.ValidOn A) (hk : (∃ σ γ, k = .gaussian σ γ) ∨ (∃ γ, k = .laplacian γ) ∨ ∃ γ, k = .chi2 γ)
    {s : KMState NumKernel (List ℝ) F} (h : SinceAny (numEnv realOps) k true ⟨A, none⟩ s) :
    ∃ K, k.IsGram A K ∧ IsPSD K ∧ (exec (numEnv realOps) .full s).1 = .ok (.mat .dense (Mat.ofReal K)) := by
  obtain ⟨K0, hK0, hg0⟩ := psdOn_of_validOn hv
  obtain ⟨K, hg, _, h2⟩ := C53_normalised_psd hv h
  have e : K = K0 := by
    funext i j
    have := (hg i j).symm.trans (hg0 i j)
    simpa using this
  subst e
  have h1 : ∀ i, K i i = 1 := fun i => self_one hk (hg i i)
  have hz : ¬ ∃ i, NearZero (K i i) := by rintro ⟨i, hi⟩; rw [h1] at hi; exact not_nearZero_one hi
  have e : cosNorm K = K := by funext i j; simp [cosNorm, h1]
  refine ⟨K, hg, hK0, ?_⟩
  rw [(h2 hz).1, e]

/-- three points in the plane, not normalised, freshly attached -/
example : (NumKernel.chi2 1).ValidOn ⟨3, 2, fun i => [(i:ℝ), 1]⟩ ∧
    SinceDense (numEnv realOps) (.chi2 1) false ⟨⟨3, 2, fun i => [(i:ℝ), 1]⟩, none⟩
      (exec (numEnv realOps) (.attach (.arr [3, 2] fun i => [(i:ℝ), 1]) none) (init (.chi2 1) false 0)).2 := by
  refine ⟨⟨fun i _ => rfl, zero_le_one, fun i _ v hv => ?_⟩, .attached (.new 0) (two := none) ⟨⟨0, rfl⟩, trivial⟩ rfl⟩
  simp only [List.mem_cons, List.not_mem_nil, or_false] at hv
  rcases hv with rfl | rfl
  · positivity
  · exact zero_le_one

/-- **C54** `kernel.is_psd()` answers True for every valid kernel, whatever random sample is drawn, unless some self-kernel on that
sample is close to zero, when it raises `KMNormError` -/
theorem C54_is_psd (hv : k.ValidOn A) :
    ∃ K, k.IsGram A K ∧
      ((∃ i, NearZero (K i i)) → baseIsPsd (numEnv realOps) k A = .error .kmNorm) ∧
      ((¬ ∃ i, NearZero (K i i)) → baseIsPsd (numEnv realOps) k A = .ok true) := by
  have hs : exec (numEnv realOps) (.attach (.arr [A.nrows, A.ncols] A.row) none) (init k true 0) = (.ok .none,
      (exec (numEnv realOps) (.attach (.arr [A.nrows, A.ncols] A.row) none) (init k true 0)).2) :=
    exec_attach (two := none) (a := ⟨A, none⟩) ⟨⟨0, rfl⟩, trivial⟩ _
  have h : SinceAny (numEnv realOps) k true ⟨A, none⟩
      (exec (numEnv realOps) (.attach (.arr [A.nrows, A.ncols] A.row) none) (init k true 0)).2 :=
    .attached (two := none) (.new 0) ⟨⟨0, rfl⟩, trivial⟩ hs
  obtain ⟨K, hg, h1, h2⟩ := C53_normalised_psd hv h
  refine ⟨K, hg, fun hz => ?_, fun hz => ?_⟩
  · rw [baseIsPsd, hs]
    dsimp only
    rw [h1 hz]; rfl
  · obtain ⟨h3, h4, _⟩ := h2 hz
    rw [baseIsPsd, hs]
    dsimp only
    rw [h3]
    exact (C25_accepts_psd _ h4.1).1 _ (by norm_num) h4

/-- **C54** for Gaussian, Laplacian and chi² kernels it is always True -/
theorem C54_is_psd_true (hv : k.ValidOn A)
    (hk : (∃ σ γ, k = .gaussian σ γ) ∨ (∃ γ, k = .laplacian γ) ∨ ∃ γ, k = .chi2 γ) :
    baseIsPsd (numEnv realOps) k A = .ok true := by
  obtain ⟨K, hg, _, h⟩ := C54_is_psd hv
  refine h ?_
  rintro ⟨i, hi⟩
  rw [self_one hk (hg i i)] at hi
  exact not_nearZero_one hi

/-- four points, the Laplacian kernel -/
example : (NumKernel.laplacian 2).ValidOn ⟨4, 1, fun i => [(i:ℝ)]⟩ := ⟨fun _ _ => rfl, zero_le_two⟩

end KMethods
