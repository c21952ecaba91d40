import Verif.Lemmas.Families
import Verif.Props.Composite
import Verif.Props.Kernels
import Verif.Props.Pipeline
/-!
# C92: composite kernels made of kernels of one family
-/
namespace KMethods
open KMState
variable {A : Arr2 (List ℝ)} {s : SetSt NumKernel (List ℝ)} {ks : List NumKernel}

theorem behavesLike_of_product {ks : List NumKernel} (hn : s.set.numSamples = .unset ∨ s.set.numSamples = .one A.nrows)
    (h2 : 2 ≤ ks.length) (hk : s.HasKernels (numEnv realOps) ks) {gm : NumKernel → Matrix (Fin A.nrows) (Fin A.nrows) ℝ}
    (hg : ∀ k ∈ ks, k.IsGram A (gm k) ∧ ∀ i j, gm k i j = gm k j i) {k : NumKernel} (hp : k.IsGram A (eprod (ks.map gm))) :
    s.BehavesLike .product none A k := by
  obtain ⟨h', e, hall⟩ := attached_gives hn hk hg
  obtain ⟨c, hc1, -, hc3, hc4⟩ := ((C34_construct .product (by intro w h; cases h)).2 { s.set with numSamples := .one A.nrows }).2
    (by rw [hk.length_eq]; exact h2) (by simp)
  exact ⟨_, c, _, e, hc1, hp, C32_product_partial (s := ⟨h', { s.set with numSamples := .one A.nrows }, c⟩) hc4 hc3 hall⟩

section
variable (hA : A.HasWidth) (hn : s.set.numSamples = .unset ∨ s.set.numSamples = .one A.nrows)
include hA hn

/-- **C92** A `ProductKernel` of Gaussian kernels is the Gaussian kernel whose `gamma` is the sum of theirs, -/
theorem C92_gaussian {l : List (ℝ × ℝ)} (h2 : 2 ≤ l.length) (hk : s.HasKernels (numEnv realOps) (l.map fun p => .gaussian p.1 p.2)) (σ : ℝ) :
    s.BehavesLike .product none A (.gaussian σ (l.map Prod.snd).sum) := by
  refine behavesLike_of_product (gm := fun k i j => match k with
      | .gaussian _ γ => Real.exp (-γ * ∑ c, (A.vec i c - A.vec j c) ^ 2)
      | _ => 0) hn (by simpa using h2) hk (fun k hk => ?_) ?_
  · obtain ⟨p, -, rfl⟩ := List.mem_map.1 hk
    refine ⟨isGram_of_vec hA (κ := fun x y => Real.exp (-p.2 * ∑ c, (x c - y c) ^ 2)) fun i j => on_gaussian _ _ _ _, fun i j => ?_⟩
    simp only [sub_sq_comm]
  · have : (eprod ((l.map fun p => NumKernel.gaussian p.1 p.2).map fun k i j => match k with
        | .gaussian _ γ => Real.exp (-γ * ∑ c, (A.vec i c - A.vec j c) ^ 2)
        | _ => 0) : Matrix (Fin A.nrows) (Fin A.nrows) ℝ) = fun i j => Real.exp (-(l.map Prod.snd).sum * ∑ c, (A.vec i c - A.vec j c) ^ 2) := by
      funext i j
      rw [← prod_exp, List.map_map]
      exact eprod_map_map _ _ l i j
    rw [this]
    exact isGram_of_vec hA (κ := fun x y => Real.exp (-(l.map Prod.snd).sum * ∑ c, (x c - y c) ^ 2)) fun i j => on_gaussian _ _ _ _

/-- **C92** so `GaussianKernel(sigma)` with `1/sigma² = sum of the 1/sigma_k²`, if machine precision does not interfere; -/
theorem C92_gaussian_sigma {l : List ℝ} (h2 : 2 ≤ l.length) (hk : s.HasKernels (numEnv realOps) (l.map mkGaussian))
    (hl : ∀ σ ∈ l, 2⁻¹ ^ 52 ≤ σ ∧ σ ≤ 2 ^ 25) {σ : ℝ} (hσ : 2⁻¹ ^ 52 ≤ σ) (hs : 1 / σ ^ 2 = (l.map fun σ => 1 / σ ^ 2).sum) :
    s.BehavesLike .product none A (mkGaussian σ) := by
  have key : ∀ σ : ℝ, 2⁻¹ ^ 52 ≤ σ → 1 / (2 ^ 25) ^ 2 ≤ 1 / σ ^ 2 → mkGaussian σ = .gaussian σ (1 / (2 * σ ^ 2)) := by
    intro σ h1 h2
    obtain ⟨s, g, e, -, -, -, h⟩ := C30_gaussian_eps σ
    obtain ⟨rfl, h⟩ := h h1
    rw [e, h]
    rw [← div_div, div_right_comm]
    calc (2⁻¹ ^ 52 : ℝ) ≤ 1 / (2 ^ 25) ^ 2 / 2 := by norm_num
      _ ≤ _ := by gcongr
  have hpos : ∀ σ ∈ l, 0 < σ := fun σ h => lt_of_lt_of_le (by positivity) (hl σ h).1
  have hone : ∀ σ ∈ l, 1 / (2 ^ 25) ^ 2 ≤ 1 / σ ^ 2 := fun σ h => by
    have := hpos σ h
    have := (hl σ h).2
    gcongr
  have e1 : l.map mkGaussian = (l.map fun σ => (σ, 1 / (2 * σ ^ 2))).map fun p => .gaussian p.1 p.2 := by
    rw [List.map_map]
    exact List.map_congr_left fun σ h => key σ (hl σ h).1 (hone σ h)
  have hge : 1 / (2 ^ 25) ^ 2 ≤ 1 / σ ^ 2 := by
    rw [hs]
    cases l with
    | nil => simp at h2
    | cons a l =>
      rw [List.map_cons, List.sum_cons]
      have := hone a List.mem_cons_self
      have : 0 ≤ (l.map fun σ => 1 / σ ^ 2).sum := List.sum_nonneg fun x hx => by
        obtain ⟨y, -, rfl⟩ := List.mem_map.1 hx
        positivity
      linarith
  rw [e1] at hk
  have := C92_gaussian hA hn (by simpa using h2) hk σ
  rw [key σ hσ hge]
  convert this using 2
  rw [← div_div, div_right_comm, hs, List.map_map, div_eq_mul_inv, ← List.sum_map_mul_right]
  refine congrArg List.sum (List.map_congr_left fun x _ => ?_)
  simp only [Function.comp]
  rw [← div_eq_mul_inv, div_right_comm, div_div]

/-- **C92** likewise for Laplacian kernels, -/
theorem C92_laplacian {l : List ℝ} (h2 : 2 ≤ l.length) (hk : s.HasKernels (numEnv realOps) (l.map .laplacian)) :
    s.BehavesLike .product none A (.laplacian l.sum) := by
  refine behavesLike_of_product (gm := fun k i j => match k with
      | .laplacian γ => Real.exp (-γ * ∑ c, |A.vec i c - A.vec j c|)
      | _ => 0) hn (by simpa using h2) hk (fun k hk => ?_) ?_
  · obtain ⟨γ, -, rfl⟩ := List.mem_map.1 hk
    refine ⟨isGram_of_vec hA (κ := fun x y => Real.exp (-γ * ∑ c, |x c - y c|)) fun i j => on_laplacian _ _ _, fun i j => ?_⟩
    simp only [abs_sub_comm]
  · have : (eprod ((l.map NumKernel.laplacian).map fun k i j => match k with
        | .laplacian γ => Real.exp (-γ * ∑ c, |A.vec i c - A.vec j c|)
        | _ => 0) : Matrix (Fin A.nrows) (Fin A.nrows) ℝ) = fun i j => Real.exp (-l.sum * ∑ c, |A.vec i c - A.vec j c|) := by
      funext i j
      rw [← prod_exp]
      exact eprod_map_map _ _ l i j
    rw [this]
    exact isGram_of_vec hA (κ := fun x y => Real.exp (-l.sum * ∑ c, |x c - y c|)) fun i j => on_laplacian _ _ _

/-- **C92** for chi² kernels on samples without negative entries, -/
theorem C92_chi2 (h0 : ∀ i, i < A.nrows → ∀ v ∈ A.row i, 0 ≤ v) {l : List ℝ} (h2 : 2 ≤ l.length)
    (hk : s.HasKernels (numEnv realOps) (l.map .chi2)) : s.BehavesLike .product none A (.chi2 l.sum) := by
  have h' : ∀ (i : Fin A.nrows) c, 0 ≤ A.vec i c := fun i c => h0 i i.2 _ (vec_mem hA i c)
  refine behavesLike_of_product (gm := fun k i j => match k with
      | .chi2 γ => Real.exp (-γ * ∑ c, (A.vec i c - A.vec j c) ^ 2 / (A.vec i c + A.vec j c))
      | _ => 0) hn (by simpa using h2) hk (fun k hk => ?_) ?_
  · obtain ⟨γ, -, rfl⟩ := List.mem_map.1 hk
    refine ⟨isGram_of_vec hA (κ := fun x y => Real.exp (-γ * ∑ c, (x c - y c) ^ 2 / (x c + y c))) fun i j => on_chi2 γ (h' i) (h' j), fun i j => ?_⟩
    simp only [sub_sq_comm (A.vec i _), add_comm (A.vec i _)]
  · have : (eprod ((l.map NumKernel.chi2).map fun k i j => match k with
        | .chi2 γ => Real.exp (-γ * ∑ c, (A.vec i c - A.vec j c) ^ 2 / (A.vec i c + A.vec j c))
        | _ => 0) : Matrix (Fin A.nrows) (Fin A.nrows) ℝ) = fun i j => Real.exp (-l.sum * ∑ c, (A.vec i c - A.vec j c) ^ 2 / (A.vec i c + A.vec j c)) := by
      funext i j
      rw [← prod_exp]
      exact eprod_map_map _ _ l i j
    rw [this]
    exact isGram_of_vec hA (κ := fun x y => Real.exp (-l.sum * ∑ c, (x c - y c) ^ 2 / (x c + y c))) fun i j => on_chi2 _ (h' i) (h' j)

/-- **C92** for polynomial kernels with the same `gamma` and `b`, whose degrees add up, -/
theorem C92_poly {l : List ℕ} {γ b : ℝ} (h2 : 2 ≤ l.length) (hk : s.HasKernels (numEnv realOps) (l.map fun d : ℕ => .poly d γ b)) :
    s.BehavesLike .product none A (.poly (l.sum : ℕ) γ b) := by
  refine behavesLike_of_product (gm := fun k i j => match k with
      | .poly d _ _ => (b + γ * ∑ c, A.vec i c * A.vec j c) ^ d.toNat
      | _ => 0) hn (by simpa using h2) hk (fun k hk => ?_) ?_
  · obtain ⟨d, -, rfl⟩ := List.mem_map.1 hk
    refine ⟨polyGram hA d γ b, fun i j => ?_⟩
    simp only [mul_comm (A.vec i _)]
  · have : (eprod ((l.map fun d : ℕ => NumKernel.poly d γ b).map fun k i j => match k with
        | .poly d _ _ => (b + γ * ∑ c, A.vec i c * A.vec j c) ^ d.toNat
        | _ => 0) : Matrix (Fin A.nrows) (Fin A.nrows) ℝ) = fun i j => (b + γ * ∑ c, A.vec i c * A.vec j c) ^ l.sum := by
      funext i j
      rw [← prod_pow]
      exact eprod_map_map _ _ l i j
    rw [this]
    exact polyGram hA l.sum γ b

/-- **C92** and `n` linear kernels multiply to the polynomial kernel of degree `n` with `gamma = 1` and `b = 0`. -/
theorem C92_linear {n : ℕ} (h2 : 2 ≤ n) (hk : s.HasKernels (numEnv realOps) (List.replicate n .linear)) :
    s.BehavesLike .product none A (.poly n 1 0) := by
  refine behavesLike_of_product (gm := fun _ i j => ∑ c, A.vec i c * A.vec j c) hn (by simpa using h2) hk (fun k hk => ?_) ?_
  · obtain rfl := List.eq_of_mem_replicate hk
    refine ⟨linearGram hA, fun i j => ?_⟩
    simp only [mul_comm (A.vec i _)]
  · refine (polyGram hA n 1 0).congr fun i j => ?_
    rw [zero_add, one_mul]
    refine Eq.trans ?_ (eprod_replicate (l := n) (fun i j => ∑ c, A.vec i c * A.vec j c : Matrix (Fin A.nrows) (Fin A.nrows) ℝ) i j)
    exact congrArg (fun l : List (Matrix (Fin A.nrows) (Fin A.nrows) ℝ) => eprod l i j) List.map_replicate

/-- **C92** A `SumKernel` of the polynomial kernels of degree 0 to `d` with `gamma = 1` and `b = 0`, with the weights of the binomial theorem, is
the polynomial kernel of degree `d` with any `gamma` and `b`. -/
theorem C92_binomial {d : ℕ} (hd : 1 ≤ d) (γ b : ℝ) (hk : s.HasKernels (numEnv realOps) ((List.range (d + 1)).map fun i : ℕ => .poly i 1 0))
    {w : WeightsIn} (hw : w.IsVec ((List.range (d + 1)).map fun i => γ ^ i * b ^ (d - i) * (d.choose i : ℝ))) :
    s.BehavesLike .sum (some w) A (.poly d γ b) := by
  have hlen : s.set.members.length = d + 1 := by rw [hk.length_eq]; simp
  obtain ⟨h', e, hall⟩ := attached_gives hn hk (gm := fun k i j => match k with
      | .poly d _ _ => (∑ c, A.vec i c * A.vec j c) ^ d.toNat
      | _ => 0) fun k hk => by
    obtain ⟨i, -, rfl⟩ := List.mem_map.1 hk
    refine ⟨?_, fun i j => ?_⟩
    · have := polyGram hA i 1 0
      simpa using this
    · simp only [mul_comm (A.vec i _)]
  obtain ⟨c, hc1, -, hc3, hc4⟩ := ((C34_construct .sum (by intro w h; cases h)).2 { s.set with numSamples := .one A.nrows }).2
    (by simp only [hlen]; omega) (by simp)
  refine ⟨_, c, _, e, hc1, ?_, (C32_sum (s := ⟨h', { s.set with numSamples := .one A.nrows }, c⟩) hc4 hc3 hall).2 w _ hw (by simp [hlen])⟩
  refine (polyGram hA d γ b).congr fun i j => ?_
  refine (wsum_map_map _ _ _ _ i j).trans ?_
  rw [add_comm b, add_pow]
  generalize (∑ c, A.vec i c * A.vec j c) = v
  rw [Finset.sum_eq_multiset_sum, Finset.range_val, Multiset.range, Multiset.map_coe, Multiset.sum_coe]
  refine congrArg List.sum (List.map_congr_left fun m _ => ?_)
  simp only [Int.toNat_natCast]
  rw [mul_pow]
  ring

omit hA in
/-- **C92** An `AverageKernel` of copies of one symmetric kernel is that kernel. -/
theorem C92_average {n : ℕ} (h2 : 2 ≤ n) {k : NumKernel} (hv : k.ValidOn A) (hk : s.HasKernels (numEnv realOps) (List.replicate n k)) :
    s.BehavesLike .average none A k := by
  obtain ⟨K, hK, hg⟩ := psdOn_of_validOn hv
  have hlen : s.set.members.length = n := by rw [hk.length_eq]; simp
  obtain ⟨h', e, hall⟩ := attached_gives hn hk (gm := fun _ => K) fun k' hk' => by
    obtain rfl := List.eq_of_mem_replicate hk'
    exact ⟨hg, hK.1⟩
  obtain ⟨c, hc1, -, hc3, hc4⟩ := ((C34_construct .average (by intro w h; cases h)).2 { s.set with numSamples := .one A.nrows }).2
    (by simp only [hlen]; exact h2) (by simp)
  refine ⟨_, c, _, e, hc1, ?_, C32_average (s := ⟨h', { s.set with numSamples := .one A.nrows }, c⟩) hc4 hc3 (fun h => ?_) hall⟩
  · refine hg.congr fun i j => ?_
    have : (n:ℝ) ≠ 0 := by positivity
    rw [emean, List.map_replicate, List.map_replicate, List.sum_replicate, List.length_replicate, nsmul_eq_mul, mul_div_cancel_left₀ _ this]
  · have : s.set.members = [] := h
    rw [this] at hlen
    simp only [List.length_nil] at hlen
    omega
end

/-- **C92** Normalisation turns the degree into a power: the normalised matrix of a polynomial kernel of degree `d` is the element-wise `d`-th
power of the normalised matrix of the polynomial kernel of degree 1, whatever was done with the two kernel matrices before. -/
theorem C92_normalised {d : ℕ} {γ b : ℝ} (hA : A.HasWidth) (hγ : 0 ≤ γ) (hb : 0 ≤ b) {s1 s2 : KMState NumKernel (List ℝ) F}
    (h1 : SinceAny (numEnv realOps) (.poly 1 γ b) true ⟨A, none⟩ s1) (h2 : SinceAny (numEnv realOps) (.poly d γ b) true ⟨A, none⟩ s2)
    {M1 M2 : Mat F} {f1 f2 : Fmt} (e1 : (exec (numEnv realOps) .full s1).1 = .ok (.mat f1 M1)) (e2 : (exec (numEnv realOps) .full s2).1 = .ok (.mat f2 M2)) :
    ∃ N : Matrix (Fin A.nrows) (Fin A.nrows) ℝ, M1 = Mat.ofReal N ∧ M2 = Mat.ofReal fun i j => N i j ^ d := by
  have g1 : (NumKernel.poly 1 γ b).IsGram A fun i j => b + γ * ∑ c, A.vec i c * A.vec j c := by
    have := polyGram hA 1 γ b
    simpa using this
  have g2 := polyGram hA d γ b
  have v1 : (NumKernel.poly 1 γ b).ValidOn A := ⟨hA, by norm_num, hγ, hb⟩
  have v2 : (NumKernel.poly d γ b).ValidOn A := ⟨hA, by positivity, hγ, hb⟩
  obtain ⟨K1, hg1, hr1, hz1⟩ := C53_normalised_psd v1 h1
  obtain ⟨K2, hg2, hr2, hz2⟩ := C53_normalised_psd v2 h2
  have n1 : ¬ ∃ i, NearZero (K1 i i) := fun h => by rw [hr1 h] at e1; cases e1
  have n2 : ¬ ∃ i, NearZero (K2 i i) := fun h => by rw [hr2 h] at e2; cases e2
  rw [(hz1 n1).1] at e1
  rw [(hz2 n2).1] at e2
  have h0 : ∀ i, 0 ≤ b + γ * ∑ c, A.vec i c * A.vec i c := fun i =>
    add_nonneg hb (mul_nonneg hγ (Finset.sum_nonneg fun c _ => mul_self_nonneg _))
  refine ⟨_, (KMOut.mat.inj (Except.ok.inj e1)).2.symm, (KMOut.mat.inj (Except.ok.inj e2)).2.symm.trans (congrArg _ ?_)⟩
  rw [hg1.unique g1, hg2.unique g2]
  funext i j
  simp only [cosNorm]
  rw [div_pow]
  congr 1
  rw [← mul_pow, Real.sqrt_eq_iff_mul_self_eq (by have := h0 i; have := h0 j; positivity) (by positivity), ← mul_pow,
    Real.mul_self_sqrt (mul_nonneg (h0 i) (h0 j))]

/-! ### cases -/

/-- three new kernel matrices: with the kernels `ks 0`, `ks 1`, `ks 2` -/
noncomputable def Demo.threeKernels (ks : Nat → NumKernel) : SetSt NumKernel (List ℝ) :=
  ⟨⟨fun r => if r < 3 then some (.km (init (ks r) false 0)) else none, 3⟩, ⟨[0, 1, 2], .unset, true⟩⟩

theorem Demo.threeKernels_has (ks : Nat → NumKernel) : (Demo.threeKernels ks).HasKernels (numEnv realOps) [ks 0, ks 1, ks 2] :=
  .cons ⟨_, rfl, .new 0⟩ (.cons ⟨_, rfl, .new 0⟩ (.cons ⟨_, rfl, .new 0⟩ .nil))

/-- Gaussian kernels with bandwidths 2, 2, √2 multiply to the one with bandwidth 1, on any sample -/
example {A : Arr2 (List ℝ)} (hA : A.HasWidth) :
    (Demo.threeKernels fun i => mkGaussian (if i = 2 then Real.sqrt 2 else 2)).BehavesLike .product none A (mkGaussian 1) := by
  refine C92_gaussian_sigma hA (.inl rfl) (l := [2, 2, Real.sqrt 2]) (by simp) (Demo.threeKernels_has _) ?_ (by norm_num) ?_
  · intro σ hσ
    simp only [List.mem_cons, List.not_mem_nil, or_false, or_self_left] at hσ
    rcases hσ with rfl | rfl
    · norm_num
    · constructor
      · rw [Real.le_sqrt (by positivity) (by positivity)]; norm_num
      · rw [Real.sqrt_le_left (by positivity)]; norm_num
  · simp only [List.map_cons, List.map_nil, List.sum_cons, List.sum_nil, Real.sq_sqrt (show (0:ℝ) ≤ 2 by norm_num)]
    norm_num

/-- polynomial kernels of degrees 2, 3, 4 -/
example {A : Arr2 (List ℝ)} (hA : A.HasWidth) : (Demo.threeKernels fun i => .poly (i + 2 : ℕ) 1 1).BehavesLike .product none A (.poly 9 1 1) :=
  C92_poly hA (.inl rfl) (l := [2, 3, 4]) (by simp) (Demo.threeKernels_has _)

/-- degrees 0, 1, 2 with the weights 9, 12, 4 -/
example {A : Arr2 (List ℝ)} (hA : A.HasWidth) :
    (Demo.threeKernels fun i => .poly (i : ℕ) 1 0).BehavesLike .sum (some (.arr ⟨.float64, [3], [.real 9, .real 12, .real 4]⟩)) A (.poly 2 2 3) := by
  refine C92_binomial hA (.inl rfl) (d := 2) (by norm_num) 2 3 (Demo.threeKernels_has _) ⟨.float64, 0, .inl rfl, ?_⟩
  simp only [List.range_succ, List.range_zero, List.nil_append, List.cons_append, List.map_cons, List.map_nil, List.length_cons, List.length_nil, List.replicate]
  norm_num

/-- normalising kernel matrices with polynomial kernels of degrees 1 and 3, attached to a sample -/
example {A : Arr2 (List ℝ)} (d : ℕ) : ∃ s, SinceAny (numEnv realOps) (.poly d 2 1) true ⟨A, none⟩ s :=
  ⟨_, .attached (.new 0) (two := none) (one := .arr [A.nrows, A.ncols] A.row) ⟨⟨0, rfl⟩, trivial⟩
    (exec_attach (two := none) (a := ⟨A, none⟩) ⟨⟨0, rfl⟩, trivial⟩ (init (NumKernel.poly d 2 1) true 0))⟩

/-! ### joined features -/

variable {d e : ℕ}

/-- **C92** Concatenating features multiplies the values of Gaussian, Laplacian and chi² kernels and adds those of linear and Hadamard kernels. -/
theorem C92_joined (x y : Fin d → ℝ) (x' y' : Fin e → ℝ) :
    (∀ k : NumKernel, (∃ σ γ, k = .gaussian σ γ) ∨ (∃ γ, k = .laplacian γ) ∨ ((∃ γ, k = .chi2 γ) ∧ (∀ c, 0 ≤ x c ∧ 0 ≤ y c) ∧ ∀ c, 0 ≤ x' c ∧ 0 ≤ y' c) →
      ∃ u v, k.on x y = .ok (.real u) ∧ k.on x' y' = .ok (.real v) ∧ k.on (Fin.append x x') (Fin.append y y') = .ok (.real (u * v))) ∧
    ∀ k : NumKernel, k = .linear ∨ (∃ α > 0, k = .hadamard α) →
      ∃ u v, k.on x y = .ok (.real u) ∧ k.on x' y' = .ok (.real v) ∧ k.on (Fin.append x x') (Fin.append y y') = .ok (.real (u + v)) := by
  constructor
  · rintro k (⟨σ, γ, rfl⟩ | ⟨γ, rfl⟩ | ⟨⟨γ, rfl⟩, h, h'⟩)
    · refine ⟨_, _, on_gaussian _ _ _ _, on_gaussian _ _ _ _, ?_⟩
      rw [on_gaussian, ← Real.exp_add, Fin.sum_univ_add, mul_add]
      simp only [Fin.append_left, Fin.append_right]
    · refine ⟨_, _, on_laplacian _ _ _, on_laplacian _ _ _, ?_⟩
      rw [on_laplacian, ← Real.exp_add, Fin.sum_univ_add, mul_add]
      simp only [Fin.append_left, Fin.append_right]
    · refine ⟨_, _, on_chi2 γ (fun c => (h c).1) (fun c => (h c).2), on_chi2 γ (fun c => (h' c).1) (fun c => (h' c).2), ?_⟩
      rw [on_chi2, ← Real.exp_add, Fin.sum_univ_add, mul_add]
      · simp only [Fin.append_left, Fin.append_right]
      · exact fun c => Fin.addCases (fun c => by rw [Fin.append_left]; exact (h c).1) (fun c => by rw [Fin.append_right]; exact (h' c).1) c
      · exact fun c => Fin.addCases (fun c => by rw [Fin.append_left]; exact (h c).2) (fun c => by rw [Fin.append_right]; exact (h' c).2) c
  · rintro k (rfl | ⟨α, hα, rfl⟩)
    · refine ⟨_, _, on_linear _ _, on_linear _ _, ?_⟩
      rw [on_linear, Fin.sum_univ_add]
      simp only [Fin.append_left, Fin.append_right]
    · refine ⟨_, _, on_hadamard (.inl hα), on_hadamard (.inl hα), ?_⟩
      rw [on_hadamard (.inl hα), Fin.sum_univ_add]
      simp only [Fin.append_left, Fin.append_right]

end KMethods
