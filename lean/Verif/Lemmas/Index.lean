import Verif.Spec.Index
import Mathlib.Tactic.Common
import Mathlib.Tactic.Linarith
import Mathlib.Tactic.Ring
import Mathlib.Algebra.Order.Group.Int
import Mathlib.Data.Int.Order.Basic
import Mathlib.Data.List.Perm.Subperm
/-! Characterisation of `slice.indices`, `range` and `_get_indices_in_sample`. -/
namespace KMethods
open IndexSpec

theorem mem_pyRange {a z st i : Int} :
    i ∈ pyRange a z st ↔
      (0 < st ∧ a ≤ i ∧ i < z ∧ st ∣ i - a) ∨ (st < 0 ∧ z < i ∧ i ≤ a ∧ st ∣ i - a) := by
  simp only [pyRange, List.mem_map, List.mem_range]
  constructor
  · rintro ⟨k, hk, rfl⟩
    unfold rangeLen at hk
    split at hk
    · rename_i h
      left
      have h1 : (k : Int) < 1 + (z - 1 - a) / st := by omega
      have h2 : (k : Int) ≤ (z - 1 - a) / st := by omega
      have h3 : (k : Int) * st ≤ z - 1 - a := by
        have := Int.mul_le_of_le_ediv h.1 h2
        exact this
      have h4 : 0 ≤ (k : Int) * st := Int.mul_nonneg (by omega) (by omega)
      refine ⟨h.1, by omega, by omega, ⟨k, by ring⟩⟩
    · split at hk
      · rename_i h
        right
        have h2 : (k : Int) ≤ (a - 1 - z) / (-st) := by omega
        have h3 : (k : Int) * (-st) ≤ a - 1 - z := Int.mul_le_of_le_ediv (by omega) h2
        have h4 : 0 ≤ (k : Int) * (-st) := Int.mul_nonneg (by omega) (by omega)
        have h5 : (k : Int) * (-st) = -((k : Int) * st) := by ring
        refine ⟨h.1, by omega, by omega, ⟨k, by ring⟩⟩
      · omega
  · rintro (⟨h, h1, h2, c, hc⟩ | ⟨h, h1, h2, c, hc⟩)
    · have hc0 : 0 ≤ c := by
        by_contra hneg
        have : st * c < 0 := Int.mul_neg_of_pos_of_neg h (by omega)
        omega
      refine ⟨c.toNat, ?_, ?_⟩
      · unfold rangeLen
        rw [if_pos ⟨h, by omega⟩]
        have : c ≤ (z - 1 - a) / st := Int.le_ediv_of_mul_le h (by rw [Int.mul_comm]; omega)
        omega
      · have : ((c.toNat : Nat) : Int) = c := Int.toNat_of_nonneg hc0
        rw [this, Int.mul_comm]; omega
    · have hc0 : 0 ≤ c := by
        by_contra hneg
        have : 0 < st * c := Int.mul_pos_of_neg_of_neg h (by omega)
        omega
      refine ⟨c.toNat, ?_, ?_⟩
      · unfold rangeLen
        rw [if_neg (by omega), if_pos ⟨h, by omega⟩]
        have : c ≤ (a - 1 - z) / (-st) := Int.le_ediv_of_mul_le (by omega) (by
          have : c * (-st) = -(st * c) := by ring
          omega)
        omega
      · have : ((c.toNat : Nat) : Int) = c := Int.toNat_of_nonneg hc0
        rw [this, Int.mul_comm]; omega

theorem sliceIndices_spec (start stop step : Option Int) (n : Nat) :
    (step = some 0 → sliceIndices start stop step n = .error .valueError) ∧
    (step ≠ some 0 → ∃ l, sliceIndices start stop step n = .ok l ∧
      ∀ i, i ∈ l ↔ SliceSelects start stop step n i) := by
  constructor
  · rintro rfl
    rfl
  · intro hst
    have h0 : step.getD 1 ≠ 0 := by
      cases step with
      | none => simp
      | some v => simpa using hst
    refine ⟨_, by simp only [sliceIndices, sliceTriple, if_neg h0]; rfl, ?_⟩
    intro i
    rw [mem_pyRange]
    unfold SliceSelects
    generalize step.getD 1 = st at h0
    by_cases hp : 0 < st
    · have hn : ¬ st < 0 := by omega
      simp only [hp, hn, if_true, if_false, false_and, or_false, true_and]
      cases start with
      | none =>
        cases stop with
        | none => simp; tauto
        | some z =>
          simp only [Option.some.injEq, forall_eq', clipBound, eff]
          split_ifs <;> constructor <;> rintro ⟨_, _, _⟩ <;> refine ⟨?_, ?_, ?_⟩ <;> simp_all <;> omega
      | some b =>
        have hfirst : clipBound n 0 n b ≤ i ∧ i < n → clipBound n 0 n b = max 0 (eff n b) := by
          unfold clipBound eff; intro ⟨_, _⟩; split_ifs at * <;> omega
        have hfirst' : max 0 (eff n b) ≤ i ∧ i < n → clipBound n 0 n b = max 0 (eff n b) := by
          unfold clipBound eff; intro ⟨_, _⟩; split_ifs at * <;> omega
        have hstop : ∀ z : Int, 0 ≤ i → (i < clipBound n 0 n z ↔ (i < n ∧ i < eff n z)) := by
          intro z _; unfold clipBound eff; split_ifs at * <;> omega
        have hlow : 0 ≤ clipBound n 0 n b := by
          unfold clipBound; split_ifs at * <;> omega
        cases stop with
        | none =>
          dsimp only
          constructor
          · rintro ⟨h1, h2, h3⟩
            have := hfirst ⟨h1, h2⟩
            exact ⟨by omega, h2, by omega, by simp, by rw [← this]; exact h3⟩
          · rintro ⟨h1, h2, h3, _, h4⟩
            have := hfirst' ⟨h3, h2⟩
            exact ⟨by omega, h2, by simp only [this]; exact h4⟩
        | some z =>
          dsimp only
          constructor
          · rintro ⟨h1, h2, h3⟩
            have h2' := (hstop z (by omega)).1 h2
            have := hfirst ⟨h1, h2'.1⟩
            refine ⟨by omega, h2'.1, by omega, by simpa using h2'.2, by rw [← this]; exact h3⟩
          · rintro ⟨h1, h2, h3, h5, h4⟩
            have := hfirst' ⟨h3, h2⟩
            exact ⟨by omega, (hstop z h1).2 ⟨h2, h5 z rfl⟩, by simp only [this]; exact h4⟩
    · have hn : st < 0 := by omega
      simp only [hp, hn, if_true, if_false, false_and, false_or, true_and]
      have hfirst : ∀ b : Int, 0 ≤ i → i ≤ clipBound n (-1) (n - 1) b →
          clipBound n (-1) (n - 1) b = min ((n : Int) - 1) (eff n b) := by
        intro b; unfold clipBound eff; intro _ _; split_ifs at * <;> omega
      have hfirst' : ∀ b : Int, 0 ≤ i → i ≤ min ((n : Int) - 1) (eff n b) →
          clipBound n (-1) (n - 1) b = min ((n : Int) - 1) (eff n b) := by
        intro b; unfold clipBound eff; intro _ _; split_ifs at * <;> omega
      have hstop : ∀ z : Int, 0 ≤ i → i < n → (clipBound n (-1) (n - 1) z < i ↔ eff n z < i) := by
        intro z _ _; unfold clipBound eff; split_ifs at * <;> omega
      have hlow : ∀ z : Int, -1 ≤ clipBound n (-1) (n - 1) z := by
        intro z; unfold clipBound; split_ifs at * <;> omega
      have hup : ∀ z : Int, clipBound n (-1) (n - 1) z ≤ (n : Int) - 1 := by
        intro z; unfold clipBound; split_ifs at * <;> omega
      cases start with
      | none =>
        cases stop with
        | none =>
          dsimp only
          constructor
          · rintro ⟨h1, h2, h3⟩
            exact ⟨by omega, by omega, h2, by simp, h3⟩
          · rintro ⟨h1, h2, h3, _, h4⟩
            exact ⟨by omega, h3, h4⟩
        | some z =>
          have hz := hlow z
          dsimp only
          constructor
          · rintro ⟨h1, h2, h3⟩
            exact ⟨by omega, by omega, h2, by simpa using (hstop z (by omega) (by omega)).1 h1, h3⟩
          · rintro ⟨h1, h2, h3, h5, h4⟩
            exact ⟨(hstop z h1 h2).2 (h5 z rfl), h3, h4⟩
      | some b =>
        have hb := hup b
        cases stop with
        | none =>
          dsimp only
          constructor
          · rintro ⟨h1, h2, h3⟩
            have := hfirst b (by omega) h2
            exact ⟨by omega, by omega, by rw [← this]; exact h2, by simp, by rw [← this]; exact h3⟩
          · rintro ⟨h1, h2, h3, _, h4⟩
            have := hfirst' b h1 h3
            exact ⟨by omega, by simp only [this]; exact h3, by simp only [this]; exact h4⟩
        | some z =>
          have hz := hlow z
          dsimp only
          constructor
          · rintro ⟨h1, h2, h3⟩
            have := hfirst b (by omega) h2
            exact ⟨by omega, by omega, by rw [← this]; exact h2,
              by simpa using (hstop z (by omega) (by omega)).1 h1, by rw [← this]; exact h3⟩
          · rintro ⟨h1, h2, h3, h5, h4⟩
            have := hfirst' b h1 h3
            exact ⟨(hstop z h1 h2).2 (h5 z rfl), by simp only [this]; exact h3, by simp only [this]; exact h4⟩

theorem mem_insertSorted {i x : Nat} {l : List Nat} : x ∈ insertSorted i l ↔ x = i ∨ x ∈ l := by
  induction l with
  | nil => simp [insertSorted]
  | cons j l ih =>
    unfold insertSorted
    split_ifs with h1 h2
    · simp
    · subst h2; simp
    · simp only [List.mem_cons, ih]; tauto

theorem insertSorted_sorted {i : Nat} {l : List Nat} (h : l.Pairwise (· < ·)) :
    (insertSorted i l).Pairwise (· < ·) := by
  induction l with
  | nil => simp [insertSorted]
  | cons j l ih =>
    unfold insertSorted
    rw [List.pairwise_cons] at h
    split_ifs with h1 h2
    · rw [List.pairwise_cons, List.pairwise_cons]
      refine ⟨?_, h⟩
      intro a ha
      rcases List.mem_cons.1 ha with rfl | ha
      · exact h1
      · have := h.1 a ha; omega
    · exact List.pairwise_cons.2 h
    · rw [List.pairwise_cons]
      refine ⟨?_, ih h.2⟩
      intro a ha
      rcases mem_insertSorted.1 ha with rfl | ha
      · omega
      · exact h.1 a ha

theorem mem_sortedSet {l : List Nat} {i : Nat} : i ∈ sortedSet l ↔ i ∈ l := by
  unfold sortedSet
  induction l with
  | nil => simp
  | cons j l ih => simp [mem_insertSorted, ih]

theorem sortedSet_sorted (l : List Nat) : (sortedSet l).Pairwise (· < ·) := by
  unfold sortedSet
  induction l with
  | nil => simp
  | cons j l ih => exact insertSorted_sorted ih

theorem sortedSet_nodup (l : List Nat) : (sortedSet l).Nodup :=
  (sortedSet_sorted l).imp (by intro a b h; omega)

theorem idxInts_none {l : List IdxItem} : idxInts l = none ↔ IdxItem.other ∈ l := by
  induction l with
  | nil => simp [idxInts]
  | cons e l ih =>
    cases e with
    | int k => simp [idxInts, ih]
    | other => simp [idxInts]

theorem idxInts_some {l : List IdxItem} {is : List Int} (h : idxInts l = some is) :
    l = is.map IdxItem.int := by
  induction l generalizing is with
  | nil => simp [idxInts] at h; subst h; rfl
  | cons e l ih =>
    cases e with
    | int k =>
      simp only [idxInts, Option.map_eq_some_iff] at h
      obtain ⟨r, hr, rfl⟩ := h
      rw [ih hr]; rfl
    | other => simp [idxInts] at h

theorem idxInts_map (is : List Int) : idxInts (is.map IdxItem.int) = some is := by
  induction is with
  | nil => rfl
  | cons e l ih => simp [idxInts, ih]

/-- a list of distinct indices below `n` of length `n` contains all of them -/
theorem all_of_length {l : List Nat} {n : Nat} (hnd : l.Nodup) (hlt : ∀ i ∈ l, i < n)
    (hlen : l.length = n) : ∀ i < n, i ∈ l := by
  intro i hi
  have hsub : l ⊆ List.range n := fun x hx => List.mem_range.2 (hlt x hx)
  have hsp : l.Subperm (List.range n) := hnd.subperm hsub
  have := hsp.perm_of_length_le (by simp [hlen])
  exact (this.mem_iff).2 (List.mem_range.2 hi)

theorem sorted_eq_range {l : List Nat} {n : Nat} (hs : l.Pairwise (· < ·)) (hlt : ∀ i ∈ l, i < n)
    (hlen : l.length = n) : l = List.range n := by
  have hnd : l.Nodup := hs.imp (by intro a b h; omega)
  have hsub : l ⊆ List.range n := fun x hx => List.mem_range.2 (hlt x hx)
  have hp := (hnd.subperm hsub).perm_of_length_le (by simp [hlen])
  exact hp.eq_of_pairwise (by intro a b _ _ h h'; omega) hs (List.pairwise_lt_range)

/-- the size of the addressed dimension -/
def dimOf (n m : Nat) (dim : Bool) : Nat := if dim then m else n

open Classical in
/-- outcome of `_get_indices_in_sample` on an attached object -/
theorem getIndices_spec (n m : Nat) (idx : Idx) (dim : Bool) :
    (ZeroStep idx ∧ getIndicesInSample (some (n, m)) idx dim = .error .valueError) ∨
    (¬ ZeroStep idx ∧ Invalid (dimOf n m dim) idx ∧
      getIndicesInSample (some (n, m)) idx dim = .error .kmAccess) ∨
    (¬ ZeroStep idx ∧ ¬ Invalid (dimOf n m dim) idx ∧ ∃ l b,
      getIndicesInSample (some (n, m)) idx dim = .ok (l, b) ∧
      l.Pairwise (· < ·) ∧ l ≠ [] ∧ (∀ i ∈ l, i < dimOf n m dim) ∧
      (∀ i, i ∈ l ↔ Selects (dimOf n m dim) idx i) ∧
      (b = true ↔ l.length = dimOf n m dim)) := by
  have hdim : dimSize (some (n, m)) dim = .ok (dimOf n m dim) := rfl
  -- the common tail of the function
  have tail : ∀ items : List IdxItem,
      checkIndices (some (n, m)) dim items =
      if items = [] ∨ IdxItem.other ∈ items ∨
          ∃ k, IdxItem.int k ∈ items ∧ (k < 0 ∨ (dimOf n m dim : Int) ≤ k) then
        .error .kmAccess
      else
        let l := sortedSet (((idxInts items).getD []).map Int.toNat)
        .ok (l, l.length == dimOf n m dim) := by
    intro items
    unfold checkIndices
    rcases hi : idxInts items with _ | is
    · have := idxInts_none.1 hi
      rw [if_pos (Or.inr (Or.inl this))]
    · have hitems := idxInts_some hi
      cases is with
      | nil => simp at hitems; simp [hitems]
      | cons i is =>
        have hne : items ≠ [] := by rw [hitems]; simp
        have hno : IdxItem.other ∉ items := by rw [hitems]; simp
        simp only [hdim]
        by_cases hbad : ∃ k, IdxItem.int k ∈ items ∧ (k < 0 ∨ (dimOf n m dim : Int) ≤ k)
        · rw [if_pos (Or.inr (Or.inr hbad))]
          obtain ⟨k, hk, hk'⟩ := hbad
          have hk2 : k ∈ i :: is := by rw [hitems] at hk; simpa using hk
          have : ((i :: is).any fun i => decide (i ≥ ((dimOf n m dim : Nat) : Int)) || decide (i < 0)) = true := by
            rw [List.any_eq_true]
            exact ⟨k, hk2, by simp; tauto⟩
          show (if _ then _ else _) = _
          rw [if_pos this]
        · rw [if_neg (by rintro (h | h | h); exacts [hne h, hno h, hbad h])]
          have : ((i :: is).any fun i => decide (i ≥ ((dimOf n m dim : Nat) : Int)) || decide (i < 0)) = false := by
            rw [List.any_eq_false]
            intro k hk
            simp only [Bool.or_eq_true, decide_eq_true_eq, not_or]
            by_contra hc
            exact hbad ⟨k, by rw [hitems]; simpa using hk, by omega⟩
          show (if _ then _ else _) = _
          rw [if_neg (by rw [this]; simp)]
          rfl
  -- conclusion of the valid case from a description of the items
  have good : ∀ items : List IdxItem,
      ¬ (items = [] ∨ IdxItem.other ∈ items ∨
          ∃ k, IdxItem.int k ∈ items ∧ (k < 0 ∨ (dimOf n m dim : Int) ≤ k)) →
      (∀ i : Nat, IdxItem.int i ∈ items ↔ Selects (dimOf n m dim) idx i) →
      let l := sortedSet (((idxInts items).getD []).map Int.toNat)
      l.Pairwise (· < ·) ∧ l ≠ [] ∧ (∀ i ∈ l, i < dimOf n m dim) ∧
      (∀ i, i ∈ l ↔ Selects (dimOf n m dim) idx i) ∧
      ((l.length == dimOf n m dim) = true ↔ l.length = dimOf n m dim) := by
    intro items hv hsel
    push Not at hv
    obtain ⟨hne, hno, hr⟩ := hv
    rcases hi : idxInts items with _ | is
    · exact absurd (idxInts_none.1 hi) hno
    have hitems := idxInts_some hi
    have hmem : ∀ i, i ∈ sortedSet (is.map Int.toNat) ↔ IdxItem.int (i : Int) ∈ items := by
      intro i
      rw [mem_sortedSet, hitems]
      simp only [List.mem_map, IdxItem.int.injEq, exists_eq_right]
      constructor
      · rintro ⟨k, hk, rfl⟩
        have := hr k (by rw [hitems]; simpa using hk)
        rwa [Int.toNat_of_nonneg this.1]
      · intro h; exact ⟨_, h, by simp⟩
    refine ⟨sortedSet_sorted _, ?_, ?_, fun i => (hmem i).trans (hsel i), by simp⟩
    · intro h0
      cases is with
      | nil => simp at hitems; exact hne hitems
      | cons k is =>
        have : k.toNat ∈ sortedSet ((k :: is).map Int.toNat) := mem_sortedSet.2 (by simp)
        simp only [Option.getD_some] at h0
        rw [h0] at this
        simp at this
    · intro i hi'
      have := hr _ ((hmem i).1 hi')
      omega
  cases idx with
  | int k =>
    right
    have hz : ¬ ZeroStep (.int k) := by rintro ⟨_, _, h⟩; simp at h
    have heq : getIndicesInSample (some (n, m)) (.int k) dim = _ := tail [IdxItem.int k]
    by_cases hv : [IdxItem.int k] = [] ∨ IdxItem.other ∈ [IdxItem.int k] ∨
          ∃ k', IdxItem.int k' ∈ [IdxItem.int k] ∧ (k' < 0 ∨ (dimOf n m dim : Int) ≤ k')
    · left
      rw [if_pos hv] at heq
      refine ⟨hz, ?_, heq⟩
      simpa [Invalid] using hv
    · right
      rw [if_neg hv] at heq
      refine ⟨hz, by simpa [Invalid] using hv, _, _, heq, good _ hv ?_⟩
      intro i; simp [Selects]
  | iter l =>
    right
    have hz : ¬ ZeroStep (.iter l) := by rintro ⟨_, _, h⟩; simp at h
    have heq : getIndicesInSample (some (n, m)) (.iter l) dim = _ := tail l
    by_cases hv : l = [] ∨ IdxItem.other ∈ l ∨
          ∃ k', IdxItem.int k' ∈ l ∧ (k' < 0 ∨ (dimOf n m dim : Int) ≤ k')
    · left
      rw [if_pos hv] at heq
      exact ⟨hz, hv, heq⟩
    · right
      rw [if_neg hv] at heq
      exact ⟨hz, hv, _, _, heq, good _ hv fun i => Iff.rfl⟩
  | other =>
    right; left
    exact ⟨by rintro ⟨_, _, h⟩; simp at h, trivial, rfl⟩
  | slice a b c =>
    by_cases h0 : c = some 0
    · left
      subst h0
      refine ⟨⟨a, b, rfl⟩, ?_⟩
      have := (sliceIndices_spec a b (some 0) (dimOf n m dim)).1 rfl
      have h2 : idxItems (some (n, m)) dim (.slice a b (some 0)) = .error .valueError := by
        simp only [idxItems, hdim]
        show (sliceIndices a b (some 0) (dimOf n m dim) >>= fun l => pure (l.map IdxItem.int)) = _
        rw [this]; rfl
      unfold getIndicesInSample
      rw [h2]; rfl
    · right
      obtain ⟨l, hl, hmem⟩ := (sliceIndices_spec a b c (dimOf n m dim)).2 h0
      have hz : ¬ ZeroStep (.slice a b c) := by
        rintro ⟨_, _, h⟩; simp at h; exact h0 h.2.2
      have heq : getIndicesInSample (some (n, m)) (.slice a b c) dim =
          checkIndices (some (n, m)) dim (l.map IdxItem.int) := by
        have h2 : idxItems (some (n, m)) dim (.slice a b c) = .ok (l.map IdxItem.int) := by
          simp only [idxItems, hdim]
          show (sliceIndices a b c (dimOf n m dim) >>= fun l => pure (l.map IdxItem.int)) = _
          rw [hl]; rfl
        unfold getIndicesInSample
        rw [h2]
        rfl
      rw [tail] at heq
      have hsel : ∀ i : Nat, IdxItem.int i ∈ l.map IdxItem.int ↔ Selects (dimOf n m dim) (.slice a b c) i := by
        intro i; simp [Selects, hmem]
      have hrange : ∀ k ∈ l, 0 ≤ k ∧ k < dimOf n m dim := by
        intro k hk
        have := (hmem k).1 hk
        exact ⟨this.1, this.2.1⟩
      by_cases hv : l.map IdxItem.int = [] ∨ IdxItem.other ∈ l.map IdxItem.int ∨
          ∃ k', IdxItem.int k' ∈ l.map IdxItem.int ∧ (k' < 0 ∨ (dimOf n m dim : Int) ≤ k')
      · left
        rw [if_pos hv] at heq
        refine ⟨hz, ⟨h0, ?_⟩, heq⟩
        rcases hv with hv | hv | ⟨k, hk, hk'⟩
        · have : l = [] := by simpa using hv
          subst this
          intro i hi
          exact absurd ((hmem i).2 hi) (by simp)
        · simp at hv
        · have := hrange k (by simpa using hk)
          omega
      · right
        rw [if_neg hv] at heq
        refine ⟨hz, ?_, _, _, heq, good _ hv hsel⟩
        rintro ⟨_, hno⟩
        apply hv
        left
        cases l with
        | nil => rfl
        | cons k l =>
          exfalso
          have h1 := hrange k (by simp)
          have h2 := (hmem k).1 (by simp)
          apply hno k.toNat
          rwa [Int.toNat_of_nonneg h1.1]

end KMethods
