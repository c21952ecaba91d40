import Verif.Lemmas.Feature
import Verif.Props.Pipeline
import Verif.Props.Separate
import Verif.Props.Composite
import Verif.Props.Operations
import Verif.Props.Kernels
/-!
# C88: what the library does with kernel matrices is geometry of feature vectors
-/
namespace KMethods
open KMState CompSt
variable {n : Nat} {ι : Type} [Fintype ι] {k : NumKernel} {A B : Arr2 (List ℝ)}

/-- **C88** For valid kernels and data there are vectors, one for each row of the samples, whose scalar products are the kernel values: within each sample and between the two, all returned by `full`. -/
theorem C88_features (hc : B.ncols = A.ncols) (hA : k.ValidOn A) (hB : k.ValidOn B) :
    ∃ (m : Nat) (φ : Fin A.nrows → Fin m → ℝ) (ψ : Fin B.nrows → Fin m → ℝ),
      (∀ s, SinceDense (numEnv realOps) k false ⟨A, none⟩ s → (exec (numEnv realOps) .full s).1 = .ok (.mat .dense (Mat.ofReal (innerMat φ φ)))) ∧
      (∀ s, SinceDense (numEnv realOps) k false ⟨B, none⟩ s → (exec (numEnv realOps) .full s).1 = .ok (.mat .dense (Mat.ofReal (innerMat ψ ψ)))) ∧
      ∀ s, SinceDense (numEnv realOps) k false ⟨A, some B⟩ s → (exec (numEnv realOps) .full s).1 = .ok (.mat .dense (Mat.ofReal (innerMat φ ψ))) := by
  obtain ⟨m, φ, ψ, h1, h2, h3⟩ := joint_features hc hA hB
  refine ⟨m, φ, ψ, fun s h => ?_, fun s h => ?_, fun s h => ?_⟩
  · rw [C08_full_is_gram (h1.noFaultsOn realOps) (quiet_of_real rfl (h1.realOn realOps)) h, gram_ofReal (h1.realOn realOps), h1.gramR realOps (innerMat_psd φ).1]
  · rw [C08_full_is_gram (h2.noFaultsOn realOps) (quiet_of_real rfl (h2.realOn realOps)) h, gram_ofReal (h2.realOn realOps), h2.gramR realOps (innerMat_psd ψ).1]
  · have hv := two_real h1 h2 h3
    rw [C08_full_is_gram (two_noFaults h1 h2 h3) (quiet_of_real rfl hv) h, cross_ofReal hv]
    congr 3
    funext i j
    show ((numEnv realOps).kval k (A.row i) (B.row j)).val = _
    show (match k.call false (.vec (A.row i)) (.vec (B.row j)) with | .ok v => v | .error _ => .nan : F).val = _
    rw [(h3 i j).1]
    rfl

/-- **C88** `center_km` moves the origin of the vectors to their mean. -/
theorem C88_center (φ : Fin n → ι → ℝ) : centerKmAny (.arr (Mat.ofReal (innerMat φ φ))) = .ok (Mat.ofReal (innerMat (fromMean φ) (fromMean φ))) := by
  rw [innerMat_fromMean]
  exact centerKm_real _

/-- **C88** `normalize_km` and `normalize_km_2sample` scale the vectors to length 1. -/
theorem C88_normalise {m : Nat} (φ : Fin n → ι → ℝ) (ψ : Fin m → ι → ℝ) {method : String} (hm : method.toLower = "cosine") (h : ∀ i, 1e-8 < innerF (φ i) (φ i)) (h' : ∀ j, 1e-8 < innerF (ψ j) (ψ j)) :
    normalizeKm (Mat.ofReal (innerMat φ φ)) method = .ok (Mat.ofReal (innerMat (toUnit φ) (toUnit φ))) ∧
    normalizeKm2 (Mat.ofReal (innerMat φ ψ)) (List.ofFn fun i => .real (innerF (φ i) (φ i))) (List.ofFn fun j => .real (innerF (ψ j) (ψ j))) method = .ok (Mat.ofReal (innerMat (toUnit φ) (toUnit ψ))) ∧
    (∀ i, innerF (toUnit φ i) (toUnit φ i) = 1) ∧ ∀ i j, |innerMat (toUnit φ) (toUnit ψ) i j| ≤ 1 := by
  have hu : ∀ {p : Nat} (φ : Fin p → ι → ℝ), (∀ i, 1e-8 < innerF (φ i) (φ i)) → ∀ i, innerF (toUnit φ i) (toUnit φ i) = 1 := by
    intro p φ h i
    have h0 : 0 < innerF (φ i) (φ i) := lt_trans (by norm_num) (h i)
    have := congrFun (congrFun (innerMat_toUnit φ φ) i) i
    rw [Real.sqrt_mul_self h0.le] at this
    exact this.trans (div_self h0.ne')
  refine ⟨?_, ?_, hu φ h, fun i j => ?_⟩
  · obtain ⟨N, e, hN, -⟩ := C19_normalise (innerMat φ φ) hm h
    rw [e, innerMat_toUnit]
    exact congrArg (fun M => Except.ok (Mat.ofReal M)) (funext fun i => funext fun j => hN i j)
  · rw [C21_values (innerMat φ ψ) _ _ hm h h', innerMat_toUnit]
  · have h1 := hu φ h i
    have h2 := hu ψ h' j
    have h3 : 0 ≤ innerF (fun c => toUnit φ i c - toUnit ψ j c) (fun c => toUnit φ i c - toUnit ψ j c) := Finset.sum_nonneg fun c _ => mul_self_nonneg _
    have h4 : 0 ≤ innerF (fun c => toUnit φ i c + toUnit ψ j c) (fun c => toUnit φ i c + toUnit ψ j c) := Finset.sum_nonneg fun c _ => mul_self_nonneg _
    have e3 : innerF (fun c => toUnit φ i c - toUnit ψ j c) (fun c => toUnit φ i c - toUnit ψ j c) = innerF (toUnit φ i) (toUnit φ i) + innerF (toUnit ψ j) (toUnit ψ j) - 2 * innerF (toUnit φ i) (toUnit ψ j) := by
      simp only [innerF]
      rw [Finset.mul_sum, ← Finset.sum_add_distrib, ← Finset.sum_sub_distrib]
      exact Finset.sum_congr rfl fun c _ => by ring
    have e4 : innerF (fun c => toUnit φ i c + toUnit ψ j c) (fun c => toUnit φ i c + toUnit ψ j c) = innerF (toUnit φ i) (toUnit φ i) + innerF (toUnit ψ j) (toUnit ψ j) + 2 * innerF (toUnit φ i) (toUnit ψ j) := by
      simp only [innerF]
      rw [Finset.mul_sum, ← Finset.sum_add_distrib, ← Finset.sum_add_distrib]
      exact Finset.sum_congr rfl fun c _ => by ring
    rw [e3, h1, h2] at h3
    rw [e4, h1, h2] at h4
    show |innerF _ _| ≤ 1
    rw [abs_le]
    constructor <;> linarith

/-- **C88** For an object attached to one sample: `full`, `centered` and, if it normalises, `full` come from the same vectors. -/
theorem C88_object (hA : k.ValidOn A) :
    ∃ (m : Nat) (φ : Fin A.nrows → Fin m → ℝ), k.IsGram A (innerMat φ φ) ∧
      (∀ s, SinceDense (numEnv realOps) k false ⟨A, none⟩ s → (exec (numEnv realOps) .full s).1 = .ok (.mat .dense (Mat.ofReal (innerMat φ φ)))) ∧
      (∀ norm s, SinceDense (numEnv realOps) k norm ⟨A, none⟩ s → (exec (numEnv realOps) .centered s).1 = .ok (.mat .dense (Mat.ofReal (innerMat (fromMean φ) (fromMean φ))))) ∧
      ∀ s, SinceAny (numEnv realOps) k true ⟨A, none⟩ s → (∀ i, ¬ NearZero (innerF (φ i) (φ i))) →
        (exec (numEnv realOps) .full s).1 = .ok (.mat .dense (Mat.ofReal (innerMat (toUnit φ) (toUnit φ)))) := by
  obtain ⟨K, hK, hg⟩ := psdOn_of_validOn hA
  obtain ⟨φ, rfl⟩ := features_of_psd hK
  refine ⟨_, φ, hg, fun s h => ?_, fun norm s h => ?_, fun s h hz => ?_⟩
  · obtain ⟨K, hg', -, e⟩ := C53_full_psd hA h
    rw [e, hg.unique hg']
  · obtain ⟨K, hg', -, e⟩ := C53_centered_psd hA h
    rw [e, ← hg.unique hg', innerMat_fromMean]
  · obtain ⟨K, hg', -, h2⟩ := C53_normalised_psd hA h
    obtain rfl := hg.unique hg'
    rw [(h2 fun ⟨i, hi⟩ => hz i hi).1, innerMat_toUnit]
    rfl

/-- **C88** The linear kernel: the vectors are the rows of the data. -/
theorem C88_linear (hA : ∀ i, i < A.nrows → (A.row i).length = A.ncols) {s : KMState NumKernel (List ℝ) F} (h : SinceDense (numEnv realOps) .linear false ⟨A, none⟩ s) :
    (exec (numEnv realOps) .full s).1 = .ok (.mat .dense (Mat.ofReal (innerMat A.vec A.vec))) := by
  have hg : NumKernel.linear.IsGram A (innerMat A.vec A.vec) := fun i j => by
    rw [row_eq_vec hA i, row_eq_vec hA j]
    exact on_linear ..
  rw [C08_full_is_gram (hg.noFaultsOn realOps) (quiet_of_real rfl (hg.realOn realOps)) h, gram_ofReal (hg.realOn realOps), hg.gramR realOps (innerMat_psd _).1]

/-! ## composite kernels -/

section
variable {K X : Type} {env : Env K X F} {P : Fmt → Prop} {s : CompSt K X} {N : Nat} {φ : Fin N → Fin n → ι → ℝ}

/-- **C88** Sums, averages and weighted averages put the vectors of the members side by side (scaled by the roots of the weights); products form their tensor products. -/
theorem C88_sum (hk : s.comp.kind = .sum) (hn : s.comp.numSamples = .one n) (hg : s.heap.GivesAll env P s.set.members (List.ofFn fun k => innerMat (φ k) (φ k))) :
    s.Fits env P none (innerMat (sideBySide (fun _ => 1) φ) (sideBySide (fun _ => 1) φ)) ∧
    ∀ w l, (∀ k : Fin N, 0 ≤ l k) → WeightsIn.IsVec w (List.ofFn l) → s.Fits env P (some w) (innerMat (sideBySide l φ) (sideBySide l φ)) := by
  have hN : N = s.set.members.length := by simpa using (List.Forall₂.length_eq hg).symm
  constructor
  · have := (C32_sum hk hn hg).1
    rw [innerMat_sideBySide fun _ => zero_le_one]
    simpa [List.map_ofFn, List.sum_ofFn, Function.comp_def] using this
  · intro w l hl hw
    rw [innerMat_sideBySide hl, ← wsum_ofFn]
    exact (C32_sum hk hn hg).2 w _ hw (by simpa using hN)

theorem C88_average (hk : s.comp.kind = .average) (hn : s.comp.numSamples = .one n) (hne : s.set.members ≠ []) (hg : s.heap.GivesAll env P s.set.members (List.ofFn fun k => innerMat (φ k) (φ k))) :
    s.Fits env P none (innerMat (sideBySide (fun _ => 1 / (N : ℝ)) φ) (sideBySide (fun _ => 1 / (N : ℝ)) φ)) := by
  have := C32_average hk hn hne hg
  rw [innerMat_sideBySide fun _ => by positivity]
  have e : (emean (List.ofFn fun k => innerMat (φ k) (φ k)) : Matrix (Fin n) (Fin n) ℝ) = fun i j => ∑ k, 1 / (N : ℝ) * innerMat (φ k) (φ k) i j := by
    funext i j
    unfold emean
    rw [List.map_ofFn, List.sum_ofFn, List.length_ofFn, Finset.sum_div]
    exact Finset.sum_congr rfl fun k _ => by rw [one_div, div_eq_inv_mul]; rfl
  rwa [e] at this

theorem C88_weighted {l : Fin N → ℝ} (hl : ∀ k, 0 ≤ l k) (hk : s.comp.kind = .weighted ((List.ofFn l).map F.real)) (hn : s.comp.numSamples = .one n)
    (hg : s.heap.GivesAll env P s.set.members (List.ofFn fun k => innerMat (φ k) (φ k))) : s.Fits env P none (innerMat (sideBySide l φ) (sideBySide l φ)) := by
  rw [innerMat_sideBySide hl, ← wsum_ofFn]
  exact C32_weighted hk hn hg

theorem C88_product (hk : s.comp.kind = .product) (hn : s.comp.numSamples = .one n) (hg : s.heap.GivesAll env IsDense s.set.members (List.ofFn fun k => innerMat (φ k) (φ k))) :
    s.Fits env IsDense none (innerMat (tensor φ) (tensor φ)) := by
  rw [innerMat_tensor, ← eprod_ofFn]
  exact C32_product_partial hk hn hg

end

/-! ## distances -/

/-- **C88** The kernel matrix of a valid kernel describes distances between the samples: `√(K_ii + K_jj - 2 K_ij)` is the distance of the vectors; it is symmetric, satisfies the triangle inequality, and does not change by
centering. With the Gaussian, Laplacian and chi² kernels it is zero only for equal samples. -/
theorem C88_distance (hA : k.ValidOn A) {s t : KMState NumKernel (List ℝ) F} (h : SinceDense (numEnv realOps) k false ⟨A, none⟩ s) {norm : Bool} (h' : SinceDense (numEnv realOps) k norm ⟨A, none⟩ t) :
    ∃ K C : Matrix (Fin A.nrows) (Fin A.nrows) ℝ, (exec (numEnv realOps) .full s).1 = .ok (.mat .dense (Mat.ofReal K)) ∧ (exec (numEnv realOps) .centered t).1 = .ok (.mat .dense (Mat.ofReal C)) ∧
      (∀ i j, 0 ≤ K i i + K j j - 2 * K i j) ∧ (∀ i, kernelDist K i i = 0) ∧ (∀ i j, kernelDist K i j = kernelDist K j i) ∧
      (∀ i j l, kernelDist K i l ≤ kernelDist K i j + kernelDist K j l) ∧ (∀ i j, kernelDist C i j = kernelDist K i j) ∧
      (k.Separating → ∀ i j, kernelDist K i j = 0 → A.row i = A.row j) := by
  obtain ⟨K, hK, hg⟩ := psdOn_of_validOn hA
  obtain ⟨φ, rfl⟩ := features_of_psd hK
  refine ⟨innerMat φ φ, centered (innerMat φ φ), ?_, ?_, fun i j => ?_, fun i => ?_, fun i j => ?_, fun i j l => ?_, fun i j => ?_, fun hk i j e => ?_⟩
  · obtain ⟨K, hg', -, e⟩ := C53_full_psd hA h
    rw [e, hg.unique hg']
  · obtain ⟨K, hg', -, e⟩ := C53_centered_psd hA h'
    rw [e, hg.unique hg']
  · have h3 : 0 ≤ innerF (fun c => φ i c - φ j c) (fun c => φ i c - φ j c) := Finset.sum_nonneg fun c _ => mul_self_nonneg _
    have e3 : innerF (fun c => φ i c - φ j c) (fun c => φ i c - φ j c) = innerF (φ i) (φ i) + innerF (φ j) (φ j) - 2 * innerF (φ i) (φ j) := by
      simp only [innerF]
      rw [Finset.mul_sum, ← Finset.sum_add_distrib, ← Finset.sum_sub_distrib]
      exact Finset.sum_congr rfl fun c _ => by ring
    rw [e3] at h3
    exact h3
  · rw [distF_eq, distF_norm, dist_self]
  · rw [distF_eq, distF_eq, distF_norm, distF_norm, dist_comm]
  · simp only [distF_eq]
    exact distF_triangle _ _ _
  · rw [kernelDist_centered _ hK.1]
  · by_contra hne
    have := separated hA hk hg i j hne
    rw [kernelDist, Real.sqrt_eq_zero'] at e
    linarith

/-- **C88** With the linear kernel it is the distance of the rows. -/
theorem C88_linear_distance (hA : ∀ i, i < A.nrows → (A.row i).length = A.ncols) {s : KMState NumKernel (List ℝ) F} (h : SinceDense (numEnv realOps) .linear false ⟨A, none⟩ s) :
    ∃ K : Matrix (Fin A.nrows) (Fin A.nrows) ℝ, (exec (numEnv realOps) .full s).1 = .ok (.mat .dense (Mat.ofReal K)) ∧
      ∀ i j, kernelDist K i j = Real.sqrt (∑ c, (A.vec i c - A.vec j c) ^ 2) := by
  refine ⟨_, C88_linear hA h, fun i j => ?_⟩
  rw [distF_eq]
  unfold distF innerF
  congr 1
  exact Finset.sum_congr rfl fun c _ => (sq _).symm

/-- **C88** The restriction to valid kernels is necessary: the sigmoid kernel with an offset has no such vectors, in no dimension. -/
theorem C88_sigmoid {γ o : ℝ} (hγ : 0 < γ) (ho : o ≠ 0) : ∃ (n : Nat) (x : Fin n → Fin 1 → ℝ), ¬ ∃ (m : Nat) (φ : Fin n → Fin m → ℝ),
    ∀ i j, (NumKernel.sigmoid γ o).on (x i) (x j) = .ok (.real (innerF (φ i) (φ j))) := by
  obtain ⟨n, x, h⟩ := C31_not_psd hγ ho
  exact ⟨n, x, fun ⟨m, φ, e⟩ => h ⟨innerMat φ φ, innerMat_psd φ, e⟩⟩

/-- the hypotheses: chi² on two different samples of three features, and two rows of the Gaussian kernel -/
example : (NumKernel.chi2 1).ValidOn ⟨2, 3, fun i => if i = 0 then [1, 0, 2] else [0, 3, 1]⟩ ∧ (NumKernel.chi2 1).Separating ∧
    (NumKernel.poly 3 1 1).ValidOn ⟨2, 3, fun i => if i = 0 then [1, 0, -2] else [0, 3, 1]⟩ := by
  refine ⟨⟨fun i _ => ?_, zero_le_one, fun i _ v hv => ?_⟩, zero_lt_one, fun i _ => ?_, by norm_num, zero_le_one, zero_le_one⟩
  · dsimp only; split_ifs <;> rfl
  · dsimp only at hv
    split_ifs at hv <;> simp only [List.mem_cons, List.not_mem_nil, or_false] at hv <;> rcases hv with rfl | rfl | rfl <;> norm_num
  · dsimp only; split_ifs <;> rfl

/-- an object attached to a sample -/
example : SinceDense (numEnv realOps) (.gaussian 1 1) false ⟨⟨2, 1, fun i => [(i : ℝ)]⟩, none⟩
    (exec (numEnv realOps) (.attach (.arr [2, 1] fun i => [(i : ℝ)]) none) (init (.gaussian 1 1) false 0)).2 :=
  .attached (.new 0) (two := none) ⟨⟨0, rfl⟩, trivial⟩ rfl

end KMethods
