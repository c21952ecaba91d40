import Verif.Lemmas.Kernels
import Verif.Lemmas.FaultFreeOn
/-! Kernel functions inside a `KernelMatrix`. -/
namespace KMethods
open F KMState

theorem psdOn_of_validOn {k : NumKernel} {A : Arr2 (List ℝ)} (h : k.ValidOn A) : ∃ K, IsPSD K ∧ k.IsGram A K := by
  obtain ⟨hlen, h⟩ := h
  let x : Fin A.nrows → Fin A.ncols → ℝ := fun i c => (A.row i).getD c 0
  have hx : ∀ i : Fin A.nrows, A.row i = List.ofFn (x i) := by
    intro i
    apply List.ext_getElem
    · simp [hlen i i.2]
    · intro c h1 h2; simp [x, h1]
  have hmem : ∀ (i : Fin A.nrows) c, x i c ∈ A.row i := fun i c => by rw [hx]; exact (List.mem_ofFn' _ _).2 ⟨c, rfl⟩
  have key : PSDOn k.on x := by
    cases k with
    | hadamard α =>
      refine ⟨_, isPSD_finset_sum Finset.univ (A := fun k i j => 1 / 2 * (|x i k| ^ α * |x j k| ^ α / (|x i k| ^ α + |x j k| ^ α)))
        fun k _ => (isPSD_harmonic (fun i => |x i k| ^ α) fun i => Real.rpow_nonneg (abs_nonneg _) _).smul (by norm_num),
        fun i j => on_hadamard ?_⟩
      exact h.imp id fun h => ⟨fun c => h i i.2 _ (hmem i c), fun c => h j j.2 _ (hmem j c)⟩
    | poly deg γ b =>
      obtain ⟨hd, hγ, hb⟩ := h
      obtain ⟨deg, rfl⟩ := Int.eq_ofNat_of_zero_le hd
      exact ⟨_, ((isPSD_const hb).add ((isPSD_dot x).smul hγ)).pow deg, fun _ _ => on_poly deg γ b _ _⟩
    | gaussian σ γ => exact ⟨_, isPSD_gaussian h x, fun _ _ => on_gaussian _ _ _ _⟩
    | laplacian γ => exact ⟨_, isPSD_laplacian h x, fun _ _ => on_laplacian _ _ _⟩
    | chi2 γ =>
      have h' : ∀ (i : Fin A.nrows) c, 0 ≤ x i c := fun i c => h.2 i i.2 _ (hmem i c)
      exact ⟨_, isPSD_chi2 h.1 x h', fun i j => on_chi2 γ (h' i) (h' j)⟩
    | sigmoid => exact h.elim
    | linear => exact ⟨_, isPSD_dot x, fun _ _ => on_linear _ _⟩
  obtain ⟨K, hK, h⟩ := key
  refine ⟨K, hK, fun i j => ?_⟩
  rw [hx i, hx j]
  exact h i j

section
variable {k : NumKernel} {A : Arr2 (List ℝ)} {K : Matrix (Fin A.nrows) (Fin A.nrows) ℝ} (h : k.IsGram A K) (ops : Ops F)
include h

omit h in
theorem isRow_none {X : Type} {A : Arr2 X} {x : X} (hx : Attachment.IsRow ⟨A, none⟩ x) : ∃ i : Fin A.nrows, x = A.row i := by
  rcases hx with ⟨i, hi, e⟩ | ⟨B, i, hB, _⟩
  · exact ⟨⟨i, hi⟩, e⟩
  · cases hB

theorem NumKernel.IsGram.noFaultsOn : NoFaultsOn (numEnv ops) k ⟨A, none⟩ := by
  intro t x y hx hy
  obtain ⟨i, rfl⟩ := isRow_none hx
  obtain ⟨j, rfl⟩ := isRow_none hy
  show (match k.call false (.vec (A.row i)) (.vec (A.row j)) with | .ok _ => false | .error _ => true) = false
  rw [h i j]

theorem NumKernel.IsGram.kval (i j : Fin A.nrows) : (numEnv ops).kval k (A.row i) (A.row j) = .real (K i j) := by
  show (match k.call false (.vec (A.row i)) (.vec (A.row j)) with | .ok v => v | .error _ => .nan) = _
  rw [h i j]

theorem NumKernel.IsGram.realOn : RealOn ((numEnv ops).kval k) (fun x y => ((numEnv ops).kval k x y).val) ⟨A, none⟩ := by
  intro x y hx hy
  obtain ⟨i, rfl⟩ := isRow_none hx
  obtain ⟨j, rfl⟩ := isRow_none hy
  dsimp only
  rw [h.kval]
  rfl

theorem NumKernel.IsGram.gramR (hs : ∀ i j, K i j = K j i) : A.gramR (fun x y => ((numEnv ops).kval k x y).val) = K := by
  funext i j
  show ((numEnv ops).kval k (A.row (min (i:Nat) j)) (A.row (max (i:Nat) j))).val = _
  rcases le_total i j with hij | hij
  · rw [Nat.min_eq_left hij, Nat.max_eq_right hij, h.kval]; rfl
  · rw [Nat.min_eq_right hij, Nat.max_eq_left hij, h.kval, hs]; rfl

end

theorem exec_attach {K X V : Type} {env : Env K X V} {one : SampleIn X} {two : Option (SampleIn X)} {a : Attachment X}
    (ha : Attaches one two a) (s : KMState K X V) :
    exec env (.attach one two) s = (.ok .none, (exec env (.attach one two) s).2) := by
  rw [exec_attach_run, attach_ok one two s a ((ofArgs_iff _ _ _).2 ha)]
  rfl

theorem self_one {k : NumKernel} (hk : (∃ σ γ, k = .gaussian σ γ) ∨ (∃ γ, k = .laplacian γ) ∨ ∃ γ, k = .chi2 γ)
    {x : List ℝ} {v : ℝ} (hv : k.call false (.vec x) (.vec x) = .ok (.real v)) : v = 1 := by
  rw [call_vec k rfl] at hv
  have hx : x = List.ofFn (fun i : Fin x.length => x[i]) := by simp
  rw [hx] at hv
  rcases hk with ⟨σ, γ, rfl⟩ | ⟨γ, rfl⟩ | ⟨γ, rfl⟩
  · simp only [NumKernel.eval, sumZip_ofFn] at hv
    simpa using hv.symm
  · simp only [NumKernel.eval, sumZip_ofFn] at hv
    simpa using hv.symm
  · simp only [NumKernel.eval, sumZip_ofFn, chi2Term_eq] at hv
    split at hv
    · cases hv
    · simpa using hv.symm

end KMethods
