import Verif.Spec.Resample
import Verif.Lemmas.Pipeline
/-!
# Lemmas on samples made of rows of another sample
-/
namespace KMethods
open F KMState
variable {K X V : Type} {A B C : Arr2 X} {f : Fin B.nrows → Fin A.nrows} {g : Fin C.nrows → Fin A.nrows}

theorem isRow_picked (hf : B.PickedFrom A f) {x : X} (hx : Attachment.IsRow ⟨B, none⟩ x) : Attachment.IsRow ⟨A, none⟩ x := by
  obtain ⟨i, rfl⟩ := isRow_none hx
  exact Or.inl ⟨f i, (f i).2, hf i⟩

theorem isRow_picked2 (hf : B.PickedFrom A f) (hg : C.PickedFrom A g) {x : X} (hx : Attachment.IsRow ⟨B, some C⟩ x) :
    Attachment.IsRow ⟨A, none⟩ x := by
  rcases hx with ⟨i, hi, rfl⟩ | ⟨D, i, hD, hi, rfl⟩
  · exact Or.inl ⟨f ⟨i, hi⟩, (f ⟨i, hi⟩).2, hf ⟨i, hi⟩⟩
  · injection hD with hD
    subst hD
    exact Or.inl ⟨g ⟨i, hi⟩, (g ⟨i, hi⟩).2, hg ⟨i, hi⟩⟩

theorem entry_symmOn {kv : X → X → V} (hs : SymmOn kv A) (i j : Fin A.nrows) :
    Attachment.entry ⟨A, none⟩ kv i j = kv (A.row i) (A.row j) := by
  show kv (A.row (min (i:Nat) j)) (A.row (max (i:Nat) j)) = _
  rcases le_total i j with h | h
  · rw [Nat.min_eq_left h, Nat.max_eq_right h]
  · rw [Nat.min_eq_right h, Nat.max_eq_left h, hs]

theorem SymmOn.picked {kv : X → X → V} (hs : SymmOn kv A) (hf : B.PickedFrom A f) : SymmOn kv B := by
  intro i j
  rw [hf, hf, hs]

theorem entry_picked {kv : X → X → V} (hs : SymmOn kv A) (hf : B.PickedFrom A f) (i j : Fin B.nrows) :
    Attachment.entry ⟨B, none⟩ kv i j = Attachment.entry ⟨A, none⟩ kv (f i) (f j) := by
  rw [entry_symmOn (hs.picked hf), entry_symmOn hs, hf, hf]

theorem entry_picked2 {kv : X → X → V} (hs : SymmOn kv A) (hf : B.PickedFrom A f) (hg : C.PickedFrom A g) (i : Fin B.nrows)
    (j : Fin C.nrows) : Attachment.entry ⟨B, some C⟩ kv i j = Attachment.entry ⟨A, none⟩ kv (f i) (g j) := by
  rw [entry_symmOn hs, ← hf, ← hg]
  rfl

theorem gramR_symmOn {κ : X → X → ℝ} (hs : SymmOn κ A) (i j : Fin A.nrows) : A.gramR κ i j = κ (A.row i) (A.row j) :=
  entry_symmOn hs i j

theorem gramR_picked {κ : X → X → ℝ} (hs : SymmOn κ A) (hf : B.PickedFrom A f) (i j : Fin B.nrows) :
    B.gramR κ i j = A.gramR κ (f i) (f j) := entry_picked hs hf i j

/-- reordering commutes with centering -/
theorem centered_perm {n m : Nat} (e : Fin m → Fin n) (he : Function.Bijective e) (M : Matrix (Fin n) (Fin n) ℝ) (i j : Fin m) :
    centered (fun i j => M (e i) (e j)) i j = centered M (e i) (e j) := by
  have hnm : m = n := by simpa using Fintype.card_of_bijective he
  subst hnm
  have h : ∀ a, ∑ b, M a (e b) = ∑ b, M a b := fun a => he.sum_comp (fun b => M a b)
  unfold centered
  rw [he.sum_comp (fun l => M (e i) l), he.sum_comp (fun l => M l (e j)), he.sum_comp (fun a => ∑ b, M a (e b))]
  simp only [h]

theorem sumsq_perm {n m : Nat} (e : Fin m → Fin n) (he : Function.Bijective e) (M : Matrix (Fin n) (Fin n) ℝ) :
    ∑ i, ∑ j, M (e i) (e j) ^ 2 = ∑ i, ∑ j, M i j ^ 2 := by
  have h : ∀ a, ∑ b, M a (e b) ^ 2 = ∑ b, M a b ^ 2 := fun a => he.sum_comp (fun b => M a b ^ 2)
  rw [he.sum_comp (fun a => ∑ b, M a (e b) ^ 2)]
  simp only [h]

end KMethods
