import Verif.Spec.Batch
import Verif.Lemmas.Resample
import Verif.Lemmas.Ranking
/-!
# Rows of the kernel matrix between two samples
-/
namespace KMethods
open KMState
variable {K X : Type} {env : Env K X F} {k : K} {norm : Bool} {A B B' : Arr2 X}

/-- row of the kernel matrix for the sample `x` -/
noncomputable def kernelRow (env : Env K X F) (k : K) (norm : Bool) (A : Arr2 X) (x : X) : List ℝ :=
  List.ofFn fun j : Fin A.nrows =>
    if norm then (env.kval k x (A.row j)).val / Real.sqrt ((env.kval k x x).val * (env.kval k (A.row j) (A.row j)).val) else (env.kval k x (A.row j)).val

theorem IsMatrix2.row {G : Matrix (Fin B.nrows) (Fin A.nrows) ℝ} (h : IsMatrix2 env k norm B A G) (i : Fin B.nrows) :
    List.ofFn (G i) = kernelRow env k norm A (B.row i) := by
  obtain ⟨κ, -, hκ, hM⟩ := h
  unfold kernelRow
  congr 1
  funext j
  have r1 : Attachment.IsRow ⟨B, some A⟩ (B.row i) := Or.inl ⟨i, i.2, rfl⟩
  have r2 : Attachment.IsRow ⟨B, some A⟩ (A.row j) := Or.inr ⟨A, j, rfl, j.2, rfl⟩
  rw [hκ _ _ r1 r2, hκ _ _ r1 r1, hκ _ _ r2 r2]
  cases norm with
  | true =>
    rw [if_pos rfl] at hM ⊢
    rw [hM.2.2]
    rfl
  | false =>
    rw [if_neg (by simp)] at hM ⊢
    rw [hM]
    rfl

theorem isRow_picked_left {f : Fin B'.nrows → Fin B.nrows} (hB : B'.PickedFrom B f) {x : X} (hx : Attachment.IsRow ⟨B', some A⟩ x) :
    Attachment.IsRow ⟨B, some A⟩ x := by
  rcases hx with ⟨i, hi, rfl⟩ | ⟨D, i, hD, hi, rfl⟩
  · exact Or.inl ⟨f ⟨i, hi⟩, (f ⟨i, hi⟩).2, hB ⟨i, hi⟩⟩
  · exact Or.inr ⟨D, i, hD, hi, rfl⟩

theorem IsMatrix2.picked {G : Matrix (Fin B.nrows) (Fin A.nrows) ℝ} (h : IsMatrix2 env k norm B A G) {f : Fin B'.nrows → Fin B.nrows} (hB : B'.PickedFrom B f) :
    IsMatrix2 env k norm B' A fun i j => G (f i) j := by
  obtain ⟨κ, h1, h2, h3⟩ := h
  refine ⟨κ, fun t x y hx hy => h1 t x y (isRow_picked_left hB hx) (isRow_picked_left hB hy), fun x y hx hy => h2 x y (isRow_picked_left hB hx) (isRow_picked_left hB hy), ?_⟩
  cases norm with
  | true =>
    rw [if_pos rfl] at h3 ⊢
    obtain ⟨h3, h4, rfl⟩ := h3
    refine ⟨fun i => by rw [hB i]; exact h3 (f i), h4, ?_⟩
    funext i j
    show B.crossR A κ (f i) j / _ = B'.crossR A κ i j / _
    simp only [Arr2.crossR, hB i]
  | false =>
    rw [if_neg (by simp)] at h3 ⊢
    subst h3
    funext i j
    show κ (B.row (f i)) _ = κ (B'.row i) _
    rw [hB i]

/-- reordered training samples -/
theorem IsMatrix2.reordered {A' : Arr2 X} {G : Matrix (Fin B.nrows) (Fin A.nrows) ℝ} (h : IsMatrix2 env k norm B A G) {f : Fin A'.nrows → Fin A.nrows} (hA : A'.PickedFrom A f) :
    IsMatrix2 env k norm B A' fun i j => G i (f j) := by
  have key : ∀ x, Attachment.IsRow ⟨B, some A'⟩ x → Attachment.IsRow ⟨B, some A⟩ x := by
    rintro x (⟨i, hi, rfl⟩ | ⟨D, i, hD, hi, rfl⟩)
    · exact Or.inl ⟨i, hi, rfl⟩
    · injection hD with hD
      subst hD
      exact Or.inr ⟨A, f ⟨i, hi⟩, rfl, (f ⟨i, hi⟩).2, hA ⟨i, hi⟩⟩
  obtain ⟨κ, h1, h2, h3⟩ := h
  refine ⟨κ, fun t x y hx hy => h1 t x y (key x hx) (key y hy), fun x y hx hy => h2 x y (key x hx) (key y hy), ?_⟩
  cases norm with
  | true =>
    rw [if_pos rfl] at h3 ⊢
    obtain ⟨h3, h4, rfl⟩ := h3
    refine ⟨h3, fun j => by rw [hA j]; exact h4 (f j), ?_⟩
    funext i j
    show B.crossR A κ i (f j) / _ = B.crossR A' κ i j / _
    simp only [Arr2.crossR, hA j]
  | false =>
    rw [if_neg (by simp)] at h3 ⊢
    subst h3
    funext i j
    show κ _ (A.row (f j)) = κ _ (A'.row j)
    rw [hA j]

theorem IsMatrix1.reordered {A' : Arr2 X} {G : Matrix (Fin A.nrows) (Fin A.nrows) ℝ} (h : IsMatrix1 env k norm A G) (hsym : SymmOn (env.kval k) A)
    {f : Fin A'.nrows → Fin A.nrows} (hA : A'.PickedFrom A f) : IsMatrix1 env k norm A' fun i j => G (f i) (f j) := by
  obtain ⟨κ, h1, h2, h3⟩ := h
  have hrow : ∀ i : Fin A.nrows, Attachment.IsRow ⟨A, none⟩ (A.row i) := fun i => Or.inl ⟨i, i.2, rfl⟩
  have hs : SymmOn κ A := fun i j => by
    have := hsym i j
    rw [h2 _ _ (hrow i) (hrow j), h2 _ _ (hrow j) (hrow i)] at this
    injection this
  have hg : A'.gramR κ = fun i j => A.gramR κ (f i) (f j) := funext fun i => funext fun j => gramR_picked hs hA i j
  refine ⟨κ, fun t x y hx hy => h1 t x y (isRow_picked hA hx) (isRow_picked hA hy), fun x y hx hy => h2 x y (isRow_picked hA hx) (isRow_picked hA hy), ?_⟩
  cases norm with
  | true =>
    rw [if_pos rfl] at h3 ⊢
    obtain ⟨h3, rfl⟩ := h3
    refine ⟨fun i => by rw [hA i]; exact h3 (f i), ?_⟩
    rw [hg]
    rfl
  | false =>
    rw [if_neg (by simp)] at h3 ⊢
    rw [h3, hg]

theorem IsMatrix1.symm {G : Matrix (Fin A.nrows) (Fin A.nrows) ℝ} (h : IsMatrix1 env k norm A G) (i j : Fin A.nrows) : G i j = G j i := by
  obtain ⟨κ, -, -, h3⟩ := h
  have hg : ∀ i j, A.gramR κ i j = A.gramR κ j i := fun i j => by
    unfold Arr2.gramR
    rw [min_comm, max_comm]
  cases norm with
  | true =>
    rw [if_pos rfl] at h3
    obtain ⟨-, rfl⟩ := h3
    unfold cosNorm
    rw [hg i j, mul_comm]
  | false =>
    rw [if_neg (by simp)] at h3
    subst h3
    exact hg i j

end KMethods
