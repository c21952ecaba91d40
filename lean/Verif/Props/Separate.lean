import Verif.Lemmas.Separate
import Verif.Props.Pipeline
import Verif.Props.Composite
/-!
# C78: which kernel matrices tell the samples apart
-/
namespace KMethods
open F KMState
variable {k : NumKernel} {A : Arr2 (List ℝ)}

/-- **C78** Gaussian, Laplacian and chi² kernels with `γ > 0`, not normalising: after any calls not requesting sparse storage, `km.full` is
positive definite if no two rows of the sample are equal, and singular otherwise. -/
theorem C78_positive_definite (hv : k.ValidOn A) (hk : k.Separating) {s : KMState NumKernel (List ℝ) F}
    (h : SinceDense (numEnv realOps) k false ⟨A, none⟩ s) :
    ∃ K, k.IsGram A K ∧ (exec (numEnv realOps) .full s).1 = .ok (.mat .dense (Mat.ofReal K)) ∧
      (A.Distinct → IsPD K) ∧ (¬ A.Distinct → IsSingular K) := by
  obtain ⟨K, hg, -, e⟩ := C53_full_psd hv h
  exact ⟨K, hg, e, fun hd => pdOn_of_separating hv hk hd hg, fun hd => singular_of_repeated hg hd⟩

/-- **C78** the same for normalising objects, after any calls -/
theorem C78_positive_definite_normalised (hv : k.ValidOn A) (hk : k.Separating) {s : KMState NumKernel (List ℝ) F}
    (h : SinceAny (numEnv realOps) k true ⟨A, none⟩ s) :
    ∃ K, k.IsGram A K ∧ (exec (numEnv realOps) .full s).1 = .ok (.mat .dense (Mat.ofReal K)) ∧
      (A.Distinct → IsPD K) ∧ (¬ A.Distinct → IsSingular K) := by
  obtain ⟨K, hg, -, e⟩ := C53_unit_diagonal hv (Separating.unit hk) h
  exact ⟨K, hg, e, fun hd => pdOn_of_separating hv hk hd hg, fun hd => singular_of_repeated hg hd⟩

/-- **C78** every Gaussian kernel the constructor returns has `γ > 0`, whatever `sigma` was passed -/
theorem C78_gaussian (σ : ℝ) : (mkGaussian σ).Separating := by
  obtain ⟨s, g, e, -, hg, -⟩ := C30_gaussian_eps σ
  rw [e]
  exact lt_of_lt_of_le (by positivity) hg

/-- **C78** Hence any values at the distinct points of a sample are taken by exactly one combination of the columns of the kernel matrix. -/
theorem C78_interpolates (hv : k.ValidOn A) (hk : k.Separating) (hd : A.Distinct) {s : KMState NumKernel (List ℝ) F}
    (h : SinceDense (numEnv realOps) k false ⟨A, none⟩ s) (y : Fin A.nrows → ℝ) :
    ∃ K, k.IsGram A K ∧ (exec (numEnv realOps) .full s).1 = .ok (.mat .dense (Mat.ofReal K)) ∧
      ∃! c : Fin A.nrows → ℝ, ∀ i, ∑ j, K i j * c j = y i := by
  obtain ⟨K, hg, e, h1, -⟩ := C78_positive_definite hv hk h
  exact ⟨K, hg, e, (h1 hd).solve y⟩

/-- **C78** The centred kernel matrix is never positive definite, but loses only the constant vectors. -/
theorem C78_centered (hv : k.ValidOn A) (hk : k.Separating) (hd : A.Distinct) {norm : Bool} {s : KMState NumKernel (List ℝ) F}
    (h : SinceDense (numEnv realOps) k norm ⟨A, none⟩ s) :
    ∃ C : Matrix (Fin A.nrows) (Fin A.nrows) ℝ, (exec (numEnv realOps) .centered s).1 = .ok (.mat .dense (Mat.ofReal C)) ∧ IsPSD C ∧
      ∀ c : Fin A.nrows → ℝ, ∑ i, ∑ j, c i * C i j * c j = 0 ↔ ∀ i j, c i = c j := by
  obtain ⟨K, hg, h1, e⟩ := C53_centered_psd hv h
  exact ⟨_, e, h1, (pdOn_of_separating hv hk hd hg).centered_zero⟩

/-- four distinct points of the plane and the Laplacian kernel; repeating a point -/
example : (NumKernel.laplacian 2).ValidOn ⟨4, 2, fun i => [(i:ℝ), 1]⟩ ∧ (NumKernel.laplacian 2).Separating ∧
    Arr2.Distinct (⟨4, 2, fun i => [(i:ℝ), 1]⟩ : Arr2 (List ℝ)) ∧ ¬ Arr2.Distinct (⟨4, 2, fun i => [((i / 2 : Nat):ℝ), 1]⟩ : Arr2 (List ℝ)) ∧
    SinceDense (numEnv realOps) (.laplacian 2) false ⟨⟨4, 2, fun i => [(i:ℝ), 1]⟩, none⟩
      (exec (numEnv realOps) (.attach (.arr [4, 2] fun i => [(i:ℝ), 1]) none) (init (.laplacian 2) false 0)).2 := by
  refine ⟨⟨fun _ _ => rfl, zero_le_two⟩, zero_lt_two (α := ℝ), fun i j h => ?_, fun h => ?_, .attached (.new 0) (two := none) ⟨⟨0, rfl⟩, trivial⟩ rfl⟩
  · simpa [Fin.ext_iff] using h
  · have := h ⟨0, by decide⟩ ⟨1, by decide⟩ (by simp)
    simp at this

/-! ## other kernels -/

/-- **C78** Whatever the kernel, equal rows make the kernel matrix singular, normalised or not. -/
theorem C78_repeated (hv : k.ValidOn A) (hd : ¬ A.Distinct) {s t : KMState NumKernel (List ℝ) F}
    (h : SinceDense (numEnv realOps) k false ⟨A, none⟩ s) (h' : SinceAny (numEnv realOps) k true ⟨A, none⟩ t) :
    (∃ K : Matrix (Fin A.nrows) (Fin A.nrows) ℝ, (exec (numEnv realOps) .full s).1 = .ok (.mat .dense (Mat.ofReal K)) ∧ IsSingular K) ∧
    ((exec (numEnv realOps) .full t).1 = .error .kmNorm ∨
      ∃ N : Matrix (Fin A.nrows) (Fin A.nrows) ℝ, (exec (numEnv realOps) .full t).1 = .ok (.mat .dense (Mat.ofReal N)) ∧ IsSingular N) := by
  obtain ⟨K, hg, hK, e⟩ := C53_full_psd hv h
  refine ⟨⟨K, e, singular_of_repeated hg hd⟩, ?_⟩
  obtain ⟨K', hg', h1, h2⟩ := C53_normalised_psd hv h'
  obtain rfl := hg.unique hg'
  by_cases hz : ∃ i, NearZero (K i i)
  · exact .inl (h1 hz)
  · refine .inr ⟨_, (h2 hz).1, ?_⟩
    unfold Arr2.Distinct at hd
    push Not at hd
    obtain ⟨i, j, hr, hij⟩ := hd
    have hcol : ∀ a, K a i = K a j := fun a => by
      have h1 := hg a i
      rw [hr] at h1
      simpa using h1.symm.trans (hg a j)
    have hdiag : K i i = K j j := by rw [hcol i, hK.1 i j, hcol j]
    exact singular_of_rows hij fun a => by rw [cosNorm, cosNorm, hcol a, hdiag]

/-- **C78** Normalising neither creates nor destroys positive definiteness. -/
theorem C78_normalising (hv : k.ValidOn A) {s t : KMState NumKernel (List ℝ) F} (h : SinceDense (numEnv realOps) k false ⟨A, none⟩ s)
    (h' : SinceAny (numEnv realOps) k true ⟨A, none⟩ t) :
    ∃ K : Matrix (Fin A.nrows) (Fin A.nrows) ℝ, (exec (numEnv realOps) .full s).1 = .ok (.mat .dense (Mat.ofReal K)) ∧
      ((exec (numEnv realOps) .full t).1 = .error .kmNorm ∨
        ∃ N : Matrix (Fin A.nrows) (Fin A.nrows) ℝ, (exec (numEnv realOps) .full t).1 = .ok (.mat .dense (Mat.ofReal N)) ∧ (IsPD N ↔ IsPD K)) := by
  obtain ⟨K, hg, hK, e⟩ := C53_full_psd hv h
  refine ⟨K, e, ?_⟩
  obtain ⟨K', hg', h1, h2⟩ := C53_normalised_psd hv h'
  obtain rfl := hg.unique hg'
  by_cases hz : ∃ i, NearZero (K i i)
  · exact .inl (h1 hz)
  · refine .inr ⟨_, (h2 hz).1, fun hp => ?_, IsPD.cosNorm⟩
    have hpos : ∀ i, 0 < K i i := fun i => pos_of_not_nearZero (hK.diag_nonneg i) fun h0 => hz ⟨i, h0⟩
    have := hp.scale (f := fun i => Real.sqrt (K i i)) fun i => Real.sqrt_ne_zero'.2 (hpos i)
    have e : (fun i j => Real.sqrt (K i i) * cosNorm K i j * Real.sqrt (K j j)) = K := by
      funext i j
      have h1 := Real.sqrt_ne_zero'.2 (hpos i)
      have h2 := Real.sqrt_ne_zero'.2 (hpos j)
      rw [cosNorm, Real.sqrt_mul (hpos i).le]
      field_simp
    rwa [e] at this

/-- **C78** The matrix of the linear kernel is positive definite exactly if the rows are linearly independent, so it is singular for a
sample with more rows than features. -/
theorem C78_linear (hv : NumKernel.linear.ValidOn A) {s : KMState NumKernel (List ℝ) F}
    (h : SinceDense (numEnv realOps) .linear false ⟨A, none⟩ s) :
    ∃ K : Matrix (Fin A.nrows) (Fin A.nrows) ℝ, (exec (numEnv realOps) .full s).1 = .ok (.mat .dense (Mat.ofReal K)) ∧
      (IsPD K ↔ LinearIndependent ℝ A.vec) ∧ (A.ncols < A.nrows → IsSingular K) := by
  obtain ⟨K, hg, -, e⟩ := C53_full_psd hv h
  have hK : K = fun i j => ∑ c, A.vec i c * A.vec j c := hg.unique fun i j => by
    rw [row_eq_vec hv.1, row_eq_vec hv.1]; exact on_linear _ _
  refine ⟨K, e, ?_, singular_dot fun i j => by rw [hK]⟩
  rw [hK]; exact isPD_dot

/-- **C78** The matrix of the polynomial kernel of degree `deg` is singular if the sample has more rows than there are monomials of
degree at most `deg` in the features. -/
theorem C78_poly {deg : Nat} {γ b : ℝ} (hv : (NumKernel.poly deg γ b).ValidOn A) (hn : (A.ncols + deg).choose deg < A.nrows)
    {s : KMState NumKernel (List ℝ) F} (h : SinceDense (numEnv realOps) (.poly deg γ b) false ⟨A, none⟩ s) :
    ∃ K : Matrix (Fin A.nrows) (Fin A.nrows) ℝ, (exec (numEnv realOps) .full s).1 = .ok (.mat .dense (Mat.ofReal K)) ∧ IsSingular K := by
  obtain ⟨K, hg, -, e⟩ := C53_full_psd hv h
  have hK : K = fun i j => (b + γ * ∑ c, A.vec i c * A.vec j c) ^ deg := hg.unique fun i j => by
    rw [row_eq_vec hv.1, row_eq_vec hv.1]; exact on_poly _ _ _ _ _
  exact ⟨K, e, singular_poly (fun i j => by rw [hK]) hn⟩

/-- the default polynomial kernel on eight points of the plane, though no two are equal -/
example : (NumKernel.poly (2 : Nat) 1 0).ValidOn ⟨8, 2, fun i => [(i:ℝ), 1]⟩ ∧ (2 + 2).choose 2 < 8 ∧
    Arr2.Distinct (⟨8, 2, fun i => [(i:ℝ), 1]⟩ : Arr2 (List ℝ)) := by
  refine ⟨⟨fun _ _ => rfl, by norm_num, zero_le_one, le_rfl⟩, by decide, fun i j h => ?_⟩
  simpa [Fin.ext_iff] using h

/-- **C78** The Hadamard kernel does not see signs: two different points, each the negative of the other, make its matrix singular. -/
theorem C78_hadamard_signs : ¬ ∀ (k : NumKernel) (A : Arr2 (List ℝ)) (K : Matrix (Fin A.nrows) (Fin A.nrows) ℝ),
    k.ValidOn A → k.IsGram A K → A.Distinct → IsPD K := by
  intro hall
  have hv : (NumKernel.hadamard 2).ValidOn ⟨2, 1, fun i => [if i = 0 then (1:ℝ) else -1]⟩ := ⟨fun _ _ => rfl, .inl two_pos⟩
  obtain ⟨K, -, hg⟩ := psdOn_of_validOn hv
  refine (hall _ _ K hv hg fun i j hr => ?_).not_singular ?_
  · obtain ⟨i, hi⟩ := i
    obtain ⟨j, hj⟩ := j
    change i < 2 at hi
    change j < 2 at hj
    simp only [Fin.mk.injEq]
    interval_cases i <;> interval_cases j <;> first | rfl | (norm_num at hr)
  · refine singular_of_rows (i := ⟨0, two_pos⟩) (j := ⟨1, one_lt_two⟩) (by simp) fun a => ?_
    have key : (NumKernel.hadamard 2).IsGram ⟨2, 1, fun i => [if i = 0 then (1:ℝ) else -1]⟩ fun i j =>
        ∑ c : Fin 1, 1 / 2 * (|(![if (i:Nat) = 0 then (1:ℝ) else -1] : Fin 1 → ℝ) c| ^ (2:ℝ) * |(![if (j:Nat) = 0 then (1:ℝ) else -1] : Fin 1 → ℝ) c| ^ (2:ℝ) /
          (|(![if (i:Nat) = 0 then (1:ℝ) else -1] : Fin 1 → ℝ) c| ^ (2:ℝ) + |(![if (j:Nat) = 0 then (1:ℝ) else -1] : Fin 1 → ℝ) c| ^ (2:ℝ))) :=
      fun i j => on_hadamard (d := 1) (α := 2) (x := ![if (i:Nat) = 0 then (1:ℝ) else -1]) (y := ![if (j:Nat) = 0 then (1:ℝ) else -1]) (.inl two_pos)
    rw [hg.unique key]
    simp

/-! ## composite kernels -/
section
variable {K X : Type} {env : Env K X F} {P : Fmt → Prop} {n : Nat} {s : CompSt K X} {Ks : List (Matrix (Fin n) (Fin n) ℝ)}

/-- **C78** One positive definite member suffices: for sums with positive weight for it, -/
theorem C78_sum (hk : s.comp.kind = .sum) (hn : s.comp.numSamples = .one n)
    (hg : s.heap.GivesAll env P s.set.members Ks) (hK : ∀ A ∈ Ks, IsPSD A) :
    ((∃ A ∈ Ks, IsPD A) → ∃ A : Matrix (Fin n) (Fin n) ℝ, s.Fits env P none A ∧ IsPD A) ∧
    ∀ w l, WeightsIn.IsVec w l → l.length = s.set.members.length → (∀ x ∈ l, 0 ≤ x) → (∃ p ∈ l.zip Ks, 0 < p.1 ∧ IsPD p.2) →
      ∃ A : Matrix (Fin n) (Fin n) ℝ, s.Fits env P (some w) A ∧ IsPD A :=
  ⟨fun hp => ⟨_, (C32_sum hk hn hg).1, isPD_list_sum hK hp⟩, fun w l hw hl h0 hp => ⟨_, (C32_sum hk hn hg).2 w l hw hl, isPD_wsum h0 hK hp⟩⟩

/-- **C78** averages, -/
theorem C78_average (hk : s.comp.kind = .average) (hn : s.comp.numSamples = .one n)
    (hg : s.heap.GivesAll env P s.set.members Ks) (hK : ∀ A ∈ Ks, IsPSD A) (hp : ∃ A ∈ Ks, IsPD A) :
    ∃ A : Matrix (Fin n) (Fin n) ℝ, s.Fits env P none A ∧ IsPD A := by
  refine ⟨_, C32_average hk hn (fun h0 => ?_) hg, isPD_emean hK hp⟩
  rw [h0] at hg
  cases hg
  obtain ⟨A, hA, _⟩ := hp
  cases hA

/-- **C78** weighted averages, -/
theorem C78_weighted {l : List ℝ} (hk : s.comp.kind = .weighted (l.map F.real)) (hn : s.comp.numSamples = .one n)
    (hg : s.heap.GivesAll env P s.set.members Ks) (hl : ∀ x ∈ l, 0 ≤ x) (hK : ∀ A ∈ Ks, IsPSD A)
    (hp : ∃ p ∈ l.zip Ks, 0 < p.1 ∧ IsPD p.2) : ∃ A : Matrix (Fin n) (Fin n) ℝ, s.Fits env P none A ∧ IsPD A :=
  ⟨_, C32_weighted hk hn hg, isPD_wsum hl hK hp⟩

/-- **C78** and for products (in dense storage, see C32) if no self-kernel is zero. -/
theorem C78_product (hk : s.comp.kind = .product) (hn : s.comp.numSamples = .one n)
    (hg : s.heap.GivesAll env IsDense s.set.members Ks) (hK : ∀ A ∈ Ks, IsPSD A) (hd : ∀ A ∈ Ks, ∀ i, 0 < A i i) (hp : ∃ A ∈ Ks, IsPD A) :
    ∃ A : Matrix (Fin n) (Fin n) ℝ, s.Fits env IsDense none A ∧ IsPD A := ⟨_, C32_product_partial hk hn hg, isPD_eprod hK hd hp⟩
end

/-- **C78** Kernels of the library that are valid on a sample without equal rows, members of a set which is attached to it, whatever was
done with them before: if one of them is a Gaussian, Laplacian or chi² kernel, `SumKernel(set).fit()` gives a positive definite matrix. -/
theorem C78_pipeline {numeric : Bool} {sample : SetSample (List ℝ)}
    (hs : sample = .arr numeric [A.nrows, A.ncols] A.row) (hnum : numeric = true) {s : SetSt NumKernel (List ℝ)}
    (hn : s.set.numSamples = .unset ∨ s.set.numSamples = .one A.nrows) (h2 : 2 ≤ s.set.members.length)
    (hm : ∀ r ∈ s.set.members, ∃ k, s.heap.IsKM (numEnv realOps) r k false ∧ k.ValidOn A)
    (hsep : ∃ r ∈ s.set.members, ∃ k, s.heap.IsKM (numEnv realOps) r k false ∧ k.ValidOn A ∧ k.Separating) (hd : A.Distinct) :
    ∃ s' c, ∃ G : Matrix (Fin A.nrows) (Fin A.nrows) ℝ, SetSt.attach sample none s = (.ok (), s') ∧ mkComposite .sum (some s'.set) = .ok c ∧
      CompSt.Fits (numEnv realOps) IsDense none ⟨s'.heap, s'.set, c⟩ G ∧ IsPD G := by
  obtain ⟨s', c, Ks, e, hc, hall, hfit, -⟩ := C33_pipeline hs hnum hn h2 hm
  refine ⟨s', c, _, e, hc, hfit, isPD_list_sum ?_ ?_⟩
  · intro G hG
    obtain ⟨r, -, k, -, -, h⟩ := forall₂_left hall.flip hG
    exact h
  · obtain ⟨r, hr, k, hk, hv, hsep⟩ := hsep
    obtain ⟨G, hG, k', hk', hg, -⟩ := forall₂_left hall hr
    obtain rfl := isKM_unique hk hk'
    exact ⟨G, hG, pdOn_of_separating hv hsep hd hg⟩

/-- a linear and a Gaussian kernel on three points -/
example : (NumKernel.linear).ValidOn ⟨3, 1, fun i => [(i:ℝ)]⟩ ∧ (mkGaussian 2).Separating ∧
    Arr2.Distinct (⟨3, 1, fun i => [(i:ℝ)]⟩ : Arr2 (List ℝ)) := by
  refine ⟨⟨fun _ _ => rfl, trivial⟩, C78_gaussian 2, fun i j h => ?_⟩
  simpa [Fin.ext_iff] using h

end KMethods
