import Verif.Spec.NpIndex
import Verif.Lemmas.History
/-! Lemmas about numpy indexing. -/
namespace KMethods
open IndexSpec

theorem axisPos_ok {n : Nat} {i : Int} {a : Fin n} : axisPos n i = .ok a ↔ (i = a ∨ i + n = a) := by
  unfold axisPos
  split
  · simp only [Except.ok.injEq, Fin.ext_iff]; omega
  · split
    · simp only [Except.ok.injEq, Fin.ext_iff]; omega
    · simp; omega

theorem axisPos_error {n : Nat} {i : Int} (h : i < -(n : Int) ∨ (n : Int) ≤ i) : axisPos n i = .error .indexError := by
  unfold axisPos
  rw [dif_neg (by omega), dif_neg (by omega)]

theorem axisPoss_ok {n : Nat} {l : List Int} (h : ∀ i ∈ l, 0 ≤ i ∧ i < n) :
    ∃ r : List (Fin n), axisPoss n l = .ok r ∧ r.map (fun x : Fin n => ((x : Nat) : Int)) = l := by
  induction l with
  | nil => exact ⟨[], rfl, rfl⟩
  | cons i l ih =>
    obtain ⟨r, hr, hm⟩ := ih fun j hj => h j (List.mem_cons_of_mem _ hj)
    have hi := h i List.mem_cons_self
    have ha : axisPos n i = .ok ⟨i.toNat, by omega⟩ := axisPos_ok.2 (Or.inl (by simp; omega))
    refine ⟨⟨i.toNat, by omega⟩ :: r, ?_, ?_⟩
    · show (axisPos n i >>= fun a => axisPoss n l >>= fun r => pure (a :: r)) = _
      rw [ha, hr]; rfl
    · rw [List.map_cons, hm]
      congr 1
      simp; omega

theorem pyRange_pairwise {a z st : Int} (h : 0 < st) : (pyRange a z st).Pairwise (· < ·) := by
  unfold pyRange
  rw [List.pairwise_map]
  refine List.pairwise_lt_range.imp ?_
  intro x y hxy
  have : (x : Int) * st < y * st := Int.mul_lt_mul_of_pos_right (by omega) h
  omega

theorem sliceIndices_pairwise {a b c : Option Int} {n : Nat} {l : List Int} (hc : 0 < c.getD 1)
    (h : sliceIndices a b c n = .ok l) : l.Pairwise (· < ·) := by
  have h0 : c.getD 1 ≠ 0 := by omega
  simp only [sliceIndices, sliceTriple, if_neg h0] at h
  cases h
  exact pyRange_pairwise hc

/-- positions that numpy visits for an index object accepted by `km[S, T]` -/
theorem positions_ok {n : Nat} {S : Idx} {i : NpIdx} (h : SameIdx S i) (hS : S.Accepted n) :
    ∃ r : List (Fin n), i.positions n = .ok r ∧ (∀ x : Fin n, x ∈ r ↔ Selects n S x) ∧
      (S.Ascending → (r.map Fin.val).Pairwise (· < ·)) ∧ r ≠ [] ∧
      (∀ l, i = .list l → r.map (fun x : Fin n => ((x : Nat) : Int)) = l) ∧
      (∀ k, i = .int k → ∃ x, r = [x] ∧ axisPos n k = .ok x) := by
  obtain ⟨hz, hv⟩ := hS
  have key : ∀ (l : List Int) (r : List (Fin n)), r.map (fun x : Fin n => ((x : Nat) : Int)) = l →
      (l.Pairwise (· < ·) → (r.map Fin.val).Pairwise (· < ·)) ∧
      (∀ x : Fin n, x ∈ r ↔ ((x : Nat) : Int) ∈ l) ∧ (l ≠ [] → r ≠ []) := by
    rintro l r rfl
    refine ⟨fun hp => ?_, fun x => ?_, fun h => ?_⟩
    · rw [List.pairwise_map] at hp ⊢
      exact hp.imp fun h => by omega
    · rw [List.mem_map]
      constructor
      · exact fun h => ⟨x, h, rfl⟩
      · rintro ⟨y, hy, he⟩
        have : y = x := Fin.ext (by omega)
        rwa [← this]
    · rintro rfl; exact h rfl
  cases h with
  | int k =>
    have hk : 0 ≤ k ∧ k < n := by
      simp only [Invalid] at hv; omega
    have ha : axisPos n k = .ok ⟨k.toNat, by omega⟩ := axisPos_ok.2 (Or.inl (by simp; omega))
    refine ⟨[⟨k.toNat, by omega⟩], ?_, fun x => ?_, fun _ => by simp, by simp, fun _ h => by simp at h, ?_⟩
    · show (axisPos n k >>= fun a => axisPoss n [] >>= fun r => pure (a :: r)) = _
      rw [ha]; rfl
    · simp only [List.mem_singleton, Selects, Fin.ext_iff]; omega
    · rintro k' h
      cases h
      exact ⟨_, rfl, ha⟩
  | slice a b c =>
    have hc : c ≠ some 0 := by rintro rfl; exact hz ⟨_, _, rfl⟩
    obtain ⟨l, hl, hm⟩ := (sliceIndices_spec a b c n).2 hc
    have hr : ∀ i ∈ l, 0 ≤ i ∧ i < n := fun i hi => by
      have := (hm i).1 hi
      exact ⟨this.1, this.2.1⟩
    obtain ⟨r, h1, h2⟩ := axisPoss_ok hr
    obtain ⟨k1, k2, k3⟩ := key l r h2
    refine ⟨r, ?_, fun x => ?_, fun ha => k1 (sliceIndices_pairwise ha hl), ?_, fun _ h => by simp at h, fun _ h => by simp at h⟩
    · show (sliceIndices a b c n >>= fun l => axisPoss n l) = _
      rw [hl]; exact h1
    · rw [k2, hm]; rfl
    · rintro rfl
      refine hv ⟨hc, fun i hi => ?_⟩
      rw [← h2] at hm
      simpa using (hm i).2 hi
  | list l =>
    have hr : ∀ i ∈ l, 0 ≤ i ∧ i < n := by
      intro i hi
      by_contra hb
      exact hv (Or.inr (Or.inr ⟨i, List.mem_map.2 ⟨i, hi, rfl⟩, by omega⟩))
    obtain ⟨r, h1, h2⟩ := axisPoss_ok hr
    obtain ⟨k1, k2, k3⟩ := key l r h2
    refine ⟨r, h1, fun x => ?_, fun ha => k1 ?_, k3 ?_, fun m h => by cases h; exact h2, fun _ h => by simp at h⟩
    · rw [k2]
      simp [Selects]
    · simp only [Idx.Ascending, List.pairwise_map] at ha
      refine ha.imp ?_
      rintro x y ⟨i, j, h1, h2, h3⟩
      cases h1; cases h2; exact h3
    · rintro rfl
      exact hv (Or.inl rfl)

variable {V : Type}

theorem flatMap_finRange_getElem {α β : Type} (r : List α) (f : α → List β) :
    ((List.finRange r.length).flatMap fun p => f r[p]) = r.flatMap f := by
  induction r with
  | nil => rfl
  | cons x r ih =>
    simp only [List.length_cons, List.finRange_succ, List.flatMap_cons, List.flatMap_map]
    exact congrArg _ ih

theorem map_finRange_getElem {α β : Type} (r : List α) (f : α → β) :
    ((List.finRange r.length).map fun p => f r[p]) = r.map f := by
  induction r with
  | nil => rfl
  | cons x r ih =>
    simp only [List.length_cons, List.finRange_succ, List.map_cons, List.map_map]
    exact congrArg _ ih

theorem outer_flat (A : Mat V) (r : List (Fin A.nrows)) (c : List (Fin A.ncols)) :
    (A.outer r c).flat = r.flatMap fun a => c.map fun b => A.get a b := by
  rw [← flatMap_finRange_getElem]
  unfold Mat.flat
  congr 1
  funext p
  exact (map_finRange_getElem c fun b => A.get r[p] b)

/-- numpy's result on accepted index objects which are not both sequences -/
theorem npPair_flat (A : Mat V) {S T : Idx} {i j : NpIdx} (hS : SameIdx S i) (hT : SameIdx T j) (aS : S.Accepted A.nrows)
    (aT : T.Accepted A.ncols) (hl : ¬ (S.IsIter ∧ T.IsIter)) :
    ∃ r c out, i.positions A.nrows = .ok r ∧ j.positions A.ncols = .ok c ∧ A.npPair i j = .ok out ∧
      out.flat = (A.outer r c).flat ∧
      out.shape = (if S.IsInt then [] else [r.length]) ++ (if T.IsInt then [] else [c.length]) ∧
      (¬ S.IsInt → ¬ T.IsInt → out = .mat (A.outer r c)) := by
  obtain ⟨r, hr, -, -, -, -, ri⟩ := positions_ok hS aS
  obtain ⟨c, hc, -, -, -, -, ci⟩ := positions_ok hT aT
  refine ⟨r, c, ?_⟩
  have pp : ∀ out : NpOut V, A.npPair i j = .ok out → out.flat = (A.outer r c).flat →
      out.shape = (if S.IsInt then [] else [r.length]) ++ (if T.IsInt then [] else [c.length]) → (¬ S.IsInt → ¬ T.IsInt → out = .mat (A.outer r c)) →
      ∃ out, i.positions A.nrows = .ok r ∧ j.positions A.ncols = .ok c ∧ A.npPair i j = .ok out ∧
      out.flat = (A.outer r c).flat ∧
      out.shape = (if S.IsInt then [] else [r.length]) ++ (if T.IsInt then [] else [c.length]) ∧ (¬ S.IsInt → ¬ T.IsInt → out = .mat (A.outer r c)) :=
    fun out h1 h2 h3 h4 => ⟨out, hr, hc, h1, h2, h3, h4⟩
  cases hS with
  | int k =>
    obtain ⟨x, rfl, hx⟩ := ri k rfl
    cases hT with
    | int k' =>
      obtain ⟨y, rfl, hy⟩ := ci k' rfl
      refine pp (.scalar (A.get x y)) ?_ (by rw [outer_flat]; rfl) rfl (fun h => absurd trivial h)
      show (axisPos A.nrows k >>= fun a => axisPos A.ncols k' >>= fun b => pure (NpOut.scalar (A.get a b))) = _
      rw [hx, hy]; rfl
    | slice a b d =>
      refine pp (.vec (c.map fun b => A.get x b)) ?_ (by rw [outer_flat]; simp [NpOut.flat]) (by simp [NpOut.shape, Idx.IsInt]) (fun h => absurd trivial h)
      show (axisPos A.nrows k >>= fun a => (NpIdx.slice _ _ _).positions A.ncols >>= fun c => pure (NpOut.vec (c.map fun b => A.get a b))) = _
      rw [hx, hc]; rfl
    | list l =>
      refine pp (.vec (c.map fun b => A.get x b)) ?_ (by rw [outer_flat]; simp [NpOut.flat]) (by simp [NpOut.shape, Idx.IsInt]) (fun h => absurd trivial h)
      show (axisPos A.nrows k >>= fun a => (NpIdx.list _).positions A.ncols >>= fun c => pure (NpOut.vec (c.map fun b => A.get a b))) = _
      rw [hx, hc]; rfl
  | slice a b d =>
    cases hT with
    | int k' =>
      obtain ⟨y, rfl, hy⟩ := ci k' rfl
      refine pp (.vec (r.map fun a => A.get a y)) ?_ (by rw [outer_flat]; simp [NpOut.flat, List.map_eq_flatMap]) (by simp [NpOut.shape, Idx.IsInt]) (fun _ h => absurd trivial h)
      show ((NpIdx.slice _ _ _).positions A.nrows >>= fun r => axisPos A.ncols k' >>= fun b => pure (NpOut.vec (r.map fun a => A.get a b))) = _
      rw [hr, hy]; rfl
    | slice a' b' d' =>
      refine pp (.mat (A.outer r c)) ?_ rfl (by simp [NpOut.shape, Idx.IsInt, Mat.outer]) fun _ _ => rfl
      show ((NpIdx.slice _ _ _).positions A.nrows >>= fun r => (NpIdx.slice _ _ _).positions A.ncols >>= fun c => pure (NpOut.mat (A.outer r c))) = _
      rw [hr, hc]; rfl
    | list l =>
      refine pp (.mat (A.outer r c)) ?_ rfl (by simp [NpOut.shape, Idx.IsInt, Mat.outer]) fun _ _ => rfl
      show ((NpIdx.slice _ _ _).positions A.nrows >>= fun r => (NpIdx.list _).positions A.ncols >>= fun c => pure (NpOut.mat (A.outer r c))) = _
      rw [hr, hc]; rfl
  | list m =>
    cases hT with
    | int k' =>
      obtain ⟨y, rfl, hy⟩ := ci k' rfl
      refine pp (.vec (r.map fun a => A.get a y)) ?_ (by rw [outer_flat]; simp [NpOut.flat, List.map_eq_flatMap]) (by simp [NpOut.shape, Idx.IsInt]) (fun _ h => absurd trivial h)
      show ((NpIdx.list _).positions A.nrows >>= fun r => axisPos A.ncols k' >>= fun b => pure (NpOut.vec (r.map fun a => A.get a b))) = _
      rw [hr, hy]; rfl
    | slice a' b' d' =>
      refine pp (.mat (A.outer r c)) ?_ rfl (by simp [NpOut.shape, Idx.IsInt, Mat.outer]) fun _ _ => rfl
      show ((NpIdx.list _).positions A.nrows >>= fun r => (NpIdx.slice _ _ _).positions A.ncols >>= fun c => pure (NpOut.mat (A.outer r c))) = _
      rw [hr, hc]; rfl
    | list l => exact absurd ⟨trivial, trivial⟩ hl

theorem npPair_lists (A : Mat V) {l m : List Int} {r : List (Fin A.nrows)} {c : List (Fin A.ncols)}
    (hr : axisPoss A.nrows l = .ok r) (hc : axisPoss A.ncols m = .ok c) :
    A.npPair (.list l) (.list m) = (npBroadcast r c).map fun z => .vec (z.map fun p => A.get p.1 p.2) := by
  show (axisPoss A.nrows l >>= fun r => axisPoss A.ncols m >>= fun c => npBroadcast r c >>= fun z =>
    pure (NpOut.vec (z.map fun p => A.get p.1 p.2))) = _
  rw [hr, hc]
  show (npBroadcast r c >>= fun z => _) = _
  rcases npBroadcast r c with e | z <;> rfl

theorem sub_eq_outer {X : Type} (a : Attachment X) (kv : X → X → V) (r : List (Fin (a.gram kv).nrows)) (c : List (Fin (a.gram kv).ncols)) :
    a.sub kv (r.map Fin.val) (c.map Fin.val) = (a.gram kv).outer r c := by
  unfold Attachment.sub
  rw [List.length_map, List.length_map]
  unfold Mat.outer Mat.ofCells
  congr 1
  funext p q
  have e1 : (r.map Fin.val).getD p 0 = (r[p] : Nat) := by simp [List.getD]
  have e2 : (c.map Fin.val).getD q 0 = (c[q] : Nat) := by simp [List.getD]
  beta_reduce
  rw [e1, e2]
  rfl

theorem eq_of_pairwise_mem {n : Nat} {l r : List (Fin n)} (hl : l.Pairwise (· < ·)) (hr : r.Pairwise (· < ·))
    (h : ∀ x, x ∈ l ↔ x ∈ r) : l = r :=
  ((List.perm_ext_iff_of_nodup (hl.imp ne_of_lt) (hr.imp ne_of_lt)).2 h).eq_of_pairwise
    (fun _ _ _ _ h1 h2 => absurd h1 (lt_asymm h2)) hl hr

theorem flat_getElem? {n m : Nat} (g : Fin n → Fin m → V) (i : Fin n) (j : Fin m) :
    (Mat.flat ⟨n, m, g⟩)[(i : Nat) * m + j]? = some (g i j) := by
  unfold Mat.flat
  induction n with
  | zero => exact i.elim0
  | succ n ih =>
    simp only [List.finRange_succ, List.flatMap_cons, List.flatMap_map]
    refine Fin.cases ?_ (fun i => ?_) i
    · rw [List.getElem?_append_left (by simp)]
      simp
    · have e : ((i.succ : Fin (n + 1)) : Nat) * m + j = m + ((i : Nat) * m + j) := by
        rw [Fin.val_succ]; ring
      rw [e, List.getElem?_append_right (by simp)]
      have := ih (fun i j => g i.succ j) i
      simpa using this

theorem accepted_int {n : Nat} {x : Int} (h0 : 0 ≤ x) (h1 : x < n) : (Idx.int x).Accepted n := by
  refine ⟨(by rintro ⟨_, _, h⟩; cases h), ?_⟩
  rintro (h | h) <;> omega

theorem accepted_whole {n : Nat} (h : 0 < n) : (Idx.slice none none none).Accepted n := by
  refine ⟨(by rintro ⟨_, _, h⟩; cases h), ?_⟩
  rintro ⟨-, h0⟩
  refine h0 0 ?_
  simp [SliceSelects, h]

theorem accepted_list {n : Nat} {l : List Int} (h0 : l ≠ []) (h : ∀ x ∈ l, 0 ≤ x ∧ x < n) : (Idx.iter (l.map .int)).Accepted n := by
  refine ⟨(by rintro ⟨_, _, h⟩; cases h), ?_⟩
  rintro (h1 | h1 | ⟨x, h1, hx⟩)
  · exact h0 (List.map_eq_nil_iff.1 h1)
  · simp at h1
  · simp at h1
    have := h x h1
    omega

theorem positions_whole (n : Nat) : (NpIdx.slice none none none).positions n = .ok (List.finRange n) := by
  obtain ⟨l, k1, k2⟩ := (sliceIndices_spec none none none n).2 (by simp)
  obtain ⟨r, r1, r2⟩ := axisPoss_ok (n := n) (l := l) fun i hi => ⟨((k2 i).1 hi).1, ((k2 i).1 hi).2.1⟩
  have hp := sliceIndices_pairwise (by simp) k1
  have : r = List.finRange n := by
    refine eq_of_pairwise_mem ?_ (List.pairwise_lt_finRange _) fun x => ?_
    · rw [← r2, List.pairwise_map] at hp
      exact hp.imp fun h => by omega
    · simp only [List.mem_finRange, iff_true]
      have : ((x : Nat) : Int) ∈ l := (k2 _).2 (by simp [SliceSelects])
      rw [← r2, List.mem_map] at this
      obtain ⟨y, hy, he⟩ := this
      rwa [← show y = x from Fin.ext (by omega)]
  show (sliceIndices none none none n >>= fun l => axisPoss n l) = _
  rw [k1, ← this]
  exact r1

theorem pyRange_down (n : Nat) : pyRange ((n : Int) - 1) (-1) (-1) = (List.finRange n).reverse.map fun x : Fin n => ((x : Nat) : Int) := by
  have hlen : rangeLen ((n : Int) - 1) (-1) (-1) = n := by
    unfold rangeLen
    rw [if_neg (by omega)]
    split_ifs with h
    · simp
    · omega
  unfold pyRange
  rw [hlen]
  apply List.ext_getElem
  · simp
  · intro i h1 h2
    simp at h1 h2 ⊢
    omega

theorem positions_reversed (n : Nat) : (NpIdx.slice none none (some (-1))).positions n = .ok (List.finRange n).reverse := by
  have h : sliceIndices none none (some (-1)) n = .ok (pyRange ((n : Int) - 1) (-1) (-1)) := rfl
  show (sliceIndices none none (some (-1)) n >>= fun l => axisPoss n l) = _
  rw [h]
  show axisPoss n _ = _
  obtain ⟨r, r1, r2⟩ := axisPoss_ok (n := n) (l := pyRange ((n : Int) - 1) (-1) (-1)) fun i hi => by
    rw [pyRange_down] at hi
    obtain ⟨x, -, rfl⟩ := List.mem_map.1 hi
    omega
  rw [r1]
  rw [pyRange_down] at r2
  exact congrArg _ ((List.map_injective_iff.2 fun x y hxy => Fin.ext (by omega)) r2)

theorem outer_finRange {n m : Nat} (g : Fin n → Fin m → V) :
    (⟨n, m, g⟩ : Mat V).outer (List.finRange n) (List.finRange m) = ⟨n, m, g⟩ := by
  have : ∀ (r : List (Fin n)) (c : List (Fin m)) (hr : r.length = n) (hc : c.length = m),
      (⟨n, m, g⟩ : Mat V).outer r c = ⟨n, m, fun p q => g (r[p]) (c[q])⟩ := by
    intro r c hr hc
    unfold Mat.outer
    have aux : ∀ (n' m' : Nat) (h1 : r.length = n') (h2 : c.length = m'),
        (⟨r.length, c.length, fun p q => g r[p] c[q]⟩ : Mat V) = ⟨n', m', fun p q => g (r[(p : Nat)]'(by omega)) (c[(q : Nat)]'(by omega))⟩ := by
      rintro _ _ rfl rfl
      rfl
    exact aux n m hr hc
  rw [this _ _ (by simp) (by simp)]
  simp

theorem outer_reverse {n m : Nat} (g : Nat → Nat → V) :
    (Mat.ofCells n m g).outer (List.finRange n).reverse (List.finRange m) = ⟨n, m, fun p q => g (n - 1 - p) q⟩ := by
  have aux : ∀ (r : List (Fin n)) (c : List (Fin m)) (n' m' : Nat) (h1 : r.length = n') (h2 : c.length = m'),
      (Mat.ofCells n m g).outer r c = ⟨n', m', fun p q => g (r[(p : Nat)]'(by omega)) (c[(q : Nat)]'(by omega))⟩ := by
    rintro r c _ _ rfl rfl
    rfl
  rw [aux _ _ n m (by simp) (by simp)]
  simp

end KMethods
