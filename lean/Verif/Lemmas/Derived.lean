import Verif.Lemmas.NpIndex
import Verif.Spec.Derived
import Verif.Lemmas.Index
import Verif.Lemmas.PyM
/-! Lemmas on `ConstantKernelMatrix` and `KernelMatrixPrecomputed`. -/
namespace KMethods

theorem mapInt_ok (l : List Int) : mapInt (l.map .ok) = .ok l := by
  induction l with
  | nil => rfl
  | cons x l ih => simp [mapInt, ih, bind, Except.bind, pure, Except.pure]

theorem exists_map_ok {l : List (Except PyErr Int)} (h : ∀ x ∈ l, ∃ k, x = .ok k) : ∃ is : List Int, l = is.map .ok := by
  induction l with
  | nil => exact ⟨[], rfl⟩
  | cons x l ih =>
    obtain ⟨k, rfl⟩ := h x (by simp)
    obtain ⟨is, rfl⟩ := ih fun y hy => h y (by simp [hy])
    exact ⟨k :: is, rfl⟩

/-- the requested indices of a readable index object -/
theorem ConstIdx.indices_spec {n : Nat} {idx : ConstIdx} (h : idx.Readable) :
    ∃ l, idx.indices n = .ok l ∧ (∀ i : Nat, (i : Int) ∈ l ↔ idx.Selects n i) ∧
      ((∃ k ∈ l, k < 0 ∨ (n : Int) ≤ k) ↔ idx.OutOfRange n) := by
  cases idx with
  | int k => exact ⟨[k], rfl, by simp [Selects], by simp [OutOfRange]⟩
  | slice a b c =>
    obtain ⟨l, hl, hm⟩ := (sliceIndices_spec a b c n).2 h
    refine ⟨l, hl, fun i => hm i, ?_⟩
    simp only [OutOfRange, iff_false, not_exists, not_and]
    intro k hk
    have := (hm k).1 hk
    have h1 := this.1
    have h2 := this.2.1
    omega
  | iter l =>
    obtain ⟨is, rfl⟩ := exists_map_ok h
    refine ⟨is, mapInt_ok is, fun i => ?_, ?_⟩
    · simp [Selects]
    · simp [OutOfRange]
  | other => exact h.elim

theorem ConstIdx.inSample_out {n : Nat} {idx : ConstIdx} (h : idx.Readable) (ho : idx.OutOfRange n) :
    idx.inSample n = .error .kmAccess := by
  obtain ⟨l, hl, -, h2⟩ := indices_spec (n := n) h
  obtain ⟨k, hk, hk'⟩ := h2.2 ho
  unfold inSample
  rw [hl]
  show (if _ then _ else _) = _
  rw [if_pos]
  rw [List.any_eq_true]
  exact ⟨k, hk, by rcases hk' with h | h <;> simp [h]⟩

theorem ConstIdx.inSample_empty {n : Nat} {idx : ConstIdx} (h : idx.Readable) (ho : ¬ idx.OutOfRange n)
    (he : ∀ i, ¬ idx.Selects n i) : idx.inSample n = .error .nameError := by
  obtain ⟨l, hl, h1, h2⟩ := indices_spec (n := n) h
  have hin : ∀ k ∈ l, 0 ≤ k ∧ k < n := by
    intro k hk
    by_contra hc
    exact ho (h2.1 ⟨k, hk, by omega⟩)
  have : l = [] := by
    cases l with
    | nil => rfl
    | cons k l =>
      have := hin k (by simp)
      exact (he k.toNat ((h1 _).1 (by rw [Int.toNat_of_nonneg this.1]; simp))).elim
  subst this
  unfold inSample
  rw [hl]
  rfl

theorem ConstIdx.inSample_ok {n : Nat} {idx : ConstIdx} (h : idx.Readable) (ho : ¬ idx.OutOfRange n)
    (S : Finset Nat) (hS : ∀ i, i ∈ S ↔ idx.Selects n i) (hne : S.Nonempty) :
    ∃ l, idx.inSample n = .ok l ∧ l.length = S.card := by
  obtain ⟨l, hl, h1, h2⟩ := indices_spec (n := n) h
  have hin : ∀ k ∈ l, 0 ≤ k ∧ k < n := by
    intro k hk
    by_contra hc
    exact ho (h2.1 ⟨k, hk, by omega⟩)
  refine ⟨sortedSet (l.map Int.toNat), ?_, ?_⟩
  · unfold inSample
    rw [hl]
    show (if _ then _ else if _ then _ else _) = _
    rw [if_neg, if_neg]
    · rfl
    · obtain ⟨i, hi⟩ := hne
      have := (h1 i).2 ((hS i).1 hi)
      intro h0
      rw [List.length_eq_zero_iff.1 h0] at this
      simp at this
    · rw [List.any_eq_true]
      rintro ⟨k, hk, hk'⟩
      have := hin k hk
      simp at hk'
      omega
  · rw [← List.toFinset_card_of_nodup (sortedSet_nodup _)]
    congr 1
    ext i
    rw [List.mem_toFinset, mem_sortedSet, hS, ← h1, List.mem_map]
    constructor
    · rintro ⟨k, hk, rfl⟩
      rwa [Int.toNat_of_nonneg (hin k hk).1]
    · intro hi
      exact ⟨_, hi, by simp⟩

theorem ConstState.Reachable.inv {V : Type} {n : Nat} {v : V} {s : ConstState V} (h : Reachable n v s) :
    s.numSamples = n ∧ s.value = v ∧ (s.km = none ∨ s.km = some (filled n n v)) := by
  have hg : ∀ (s : ConstState V) k, (ConstState.getItem k s).2 = s := by
    intro s k
    cases k with
    | other => rfl
    | unsized => rfl
    | pair a b =>
      show ((PyM.lift (a.inSample s.numSamples) >>= _ : PyM (ConstState V) (Mat V)) s).2 = s
      rcases ha : a.inSample s.numSamples with e | r
      · rfl
      · show ((PyM.lift (b.inSample s.numSamples) >>= _ : PyM (ConstState V) (Mat V)) s).2 = s
        rcases hb : b.inSample s.numSamples with e | r <;> rfl
  have hf : ∀ (s : ConstState V), (ConstState.full s).2 =
      if s.km.isNone then { s with km := some (filled s.numSamples s.numSamples s.value) } else s := by
    rintro ⟨m, w, k⟩
    cases k <;> rfl
  induction h with
  | new => exact ⟨rfl, rfl, .inl rfl⟩
  | full _ ih =>
    rw [hf]
    split
    · obtain ⟨h1, h2, h3⟩ := ih
      exact ⟨h1, h2, .inr (by rw [h1, h2])⟩
    · exact ih
  | diag _ ih => exact ih
  | getItem k _ ih => rw [hg]; exact ih

/-! ### precomputed -/

theorem bcastDim_self (n : Nat) : bcastDim n n = .ok n := by simp [bcastDim]

theorem bcastGet_eq (A : Mat F) (i : Fin A.nrows) (j : Fin A.ncols) : A.bcastGet i j = A.get i j := by
  unfold Mat.bcastGet
  have hi : (if A.nrows = 1 then 0 else (i : Nat)) = i := by
    split
    · have := i.2; omega
    · rfl
  have hj : (if A.ncols = 1 then 0 else (j : Nat)) = j := by
    split
    · have := j.2; omega
    · rfl
  simp only [hi, hj]
  rw [dif_pos ⟨i.2, j.2⟩]

theorem bcastGet_ofReal {n m : Nat} (A : Matrix (Fin n) (Fin m) ℝ) {i j : Nat} (hi : i < n) (hj : j < m) :
    (Mat.ofReal A).bcastGet i j = .real (A ⟨i, hi⟩ ⟨j, hj⟩) := 
  bcastGet_eq (Mat.ofReal A) ⟨i, hi⟩ ⟨j, hj⟩

theorem notSymmetric_square {n : Nat} (A : Matrix (Fin n) (Fin n) ℝ) :
    ∃ b, notSymmetric (Mat.ofReal A) = .ok b ∧ (b = false ↔ NearSymmetric A) := by
  refine ⟨_, by unfold notSymmetric; rw [show bcastDim (Mat.ofReal A).nrows (Mat.ofReal A).ncols = .ok n from bcastDim_self n,
    show bcastDim (Mat.ofReal A).ncols (Mat.ofReal A).nrows = .ok n from bcastDim_self n]; rfl, ?_⟩
  rw [decide_eq_false_iff_not, not_not]
  have ht : (Mat.ofReal A).transpose = Mat.ofReal A.transpose := rfl
  constructor
  · intro h i j
    have := h i j i.2 j.2
    rw [ht, bcastGet_ofReal _ i.2 j.2, bcastGet_ofReal _ i.2 j.2] at this
    exact this
  · intro h i j hi hj
    rw [ht, bcastGet_ofReal _ hi hj, bcastGet_ofReal _ hi hj]
    exact h ⟨i, hi⟩ ⟨j, hj⟩

theorem isClose_self_iff (x : F) : F.isClose x x ↔ x.isFinite := by
  cases x with
  | nan => exact Iff.rfl
  | real a =>
    simp only [F.isClose, F.isFinite, iff_true, sub_self, abs_zero]
    positivity

theorem isClose_finite {x y : F} (h : F.isClose x y) : x.isFinite ∧ y.isFinite := by
  cases x <;> cases y <;> first | exact h.elim | exact ⟨trivial, trivial⟩

theorem notSymmetric_finite {n : Nat} {g : Fin n → Fin n → F} (h : notSymmetric ⟨n, n, g⟩ = .ok false) :
    ∃ R : Matrix (Fin n) (Fin n) ℝ, (⟨n, n, g⟩ : Mat F) = Mat.ofReal R := by
  unfold notSymmetric at h
  rw [show bcastDim (⟨n, n, g⟩ : Mat F).nrows (⟨n, n, g⟩ : Mat F).ncols = .ok n from bcastDim_self n] at h
  have h' := Except.ok.inj h
  rw [decide_eq_false_iff_not, not_not] at h'
  refine ⟨fun i j => (g i j).val, ?_⟩
  unfold Mat.ofReal
  congr 1
  funext i j
  have hf := (isClose_finite (h' i j i.2 j.2)).1
  rw [bcastGet_eq (⟨n, n, g⟩ : Mat F) i j] at hf
  rcases hg : g i j with x | _
  · show _ = F.real (g i j).val
    rw [hg]; rfl
  · change (g i j).isFinite at hf
    rw [hg] at hf
    exact hf.elim

end KMethods
