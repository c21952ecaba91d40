import Verif.Lemmas.NpIndex
import Verif.Lemmas.Ranking
import Verif.Props.Access
import Verif.Props.FullMatrix
import Verif.Props.Derived
/-! # C77: indexing a kernel matrix and indexing the array `km.full` -/
namespace KMethods
open KMState IndexSpec
variable {K X V : Type}

/-- **C77** Every acceptable pair of index objects: numpy accepts the two objects as well, and `km[S, T]` is
`km.full[np.ix_(np.unique(rows), np.unique(cols))]` where `rows` and `cols` are the positions that numpy visits. -/
theorem C77_sorted_selection {env : Env K X V} {k : K} {norm : Bool} {a : Attachment X} {s : KMState K X V} (hf : NoFaultsOn env k a)
    (hq : Quiet env k a) (h : SinceAny env k norm a s) {S T : Idx} {i j : NpIdx} (hS : SameIdx S i) (hT : SameIdx T j)
    (aS : S.Accepted a.nrows) (aT : T.Accepted a.ncols) :
    let A := a.gram (env.kval k)
    ∃ rows cols rows' cols' fmt, i.positions A.nrows = .ok rows ∧ j.positions A.ncols = .ok cols ∧
      rows'.Pairwise (· < ·) ∧ (∀ x, x ∈ rows' ↔ x ∈ rows) ∧ cols'.Pairwise (· < ·) ∧ (∀ x, x ∈ cols' ↔ x ∈ cols) ∧
      (exec env (.getItem (.pair S T)) s).1 = .ok (.mat fmt (A.outer rows' cols')) := by
  intro A
  obtain ⟨r, c, fmt, hr, hc, -, -, he, -⟩ := C04_selection_semantics hf hq h aS aT
  obtain ⟨rows, h1, h2, -⟩ := positions_ok hS aS
  obtain ⟨cols, k1, k2, -⟩ := positions_ok hT aT
  have lift : ∀ {n : Nat} {S : Idx} {l : List Nat}, IsSelection n S l → ∃ l' : List (Fin n), l'.map Fin.val = l ∧ l'.Pairwise (· < ·) ∧
      ∀ x : Fin n, x ∈ l' ↔ Selects n S x := by
    intro n S l hl
    refine ⟨l.pmap (fun x hx => (⟨x, hx⟩ : Fin n)) fun x hx => ((hl.2 x).1 hx).1, ?_, ?_, fun x => ?_⟩
    · rw [List.map_pmap]; simp
    · rw [List.pairwise_pmap]
      exact hl.1.imp fun h _ _ => h
    · rw [List.mem_pmap]
      constructor
      · rintro ⟨y, hy, rfl⟩
        exact ((hl.2 _).1 hy).2
      · intro hx
        exact ⟨x, (hl.2 x).2 ⟨x.2, hx⟩, rfl⟩
  obtain ⟨r', e1, e2, e3⟩ := lift hr
  obtain ⟨c', f1, f2, f3⟩ := lift hc
  refine ⟨rows, cols, r', c', fmt, h1, k1, e2, fun x => (e3 x).trans (h2 x).symm, f2, fun x => (f3 x).trans (k2 x).symm, ?_⟩
  rw [he, ← e1, ← f1]
  exact congrArg _ (congrArg _ (sub_eq_outer a (env.kval k) r' c'))

/-- **C77** Integers, slices with positive step and strictly increasing sequences, not two sequences: `km[S, T]` has the entries of
`km.full[S, T]` in the same order, and the shape of it with the axes indexed by an integer put back as axes of length 1. Without integers the two are the
same matrix. -/
theorem C77_agrees_partial {env : Env K X V} {k : K} {a : Attachment X} {s : KMState K X V} (hf : NoFaultsOn env k a)
    (hq : Quiet env k a) (h : SinceDense env k false a s) {S T : Idx} {i j : NpIdx} (hS : SameIdx S i) (hT : SameIdx T j)
    (aS : S.Accepted a.nrows) (aT : T.Accepted a.ncols) (oS : S.Ascending) (oT : T.Ascending) (hl : ¬ (S.IsIter ∧ T.IsIter)) :
    ∃ A fmt M out, (exec env .full s).1 = .ok (.mat .dense A) ∧ (exec env (.getItem (.pair S T)) s).1 = .ok (.mat fmt M) ∧
      A.npIndex (.pair i j) = .ok out ∧ M.flat = out.flat ∧
      out.shape = (if S.IsInt then [] else [M.nrows]) ++ (if T.IsInt then [] else [M.ncols]) ∧
      (S.IsInt → M.nrows = 1) ∧ (T.IsInt → M.ncols = 1) ∧ (¬ S.IsInt → ¬ T.IsInt → out = .mat M) := by
  obtain ⟨rows, cols, rows', cols', fmt, h1, h2, p1, m1, p2, m2, he⟩ := C77_sorted_selection hf hq (Since.mono (fun _ _ => trivial) h) hS hT aS aT
  obtain ⟨r, c, out, g1, g2, g3, g4, g5, g6⟩ := npPair_flat (a.gram (env.kval k)) hS hT aS aT hl
  have hr : r = rows := Except.ok.inj (g1.symm.trans h1)
  have hc : c = cols := Except.ok.inj (g2.symm.trans h2)
  subst hr hc
  obtain ⟨r0, q1, -, q2, -, -, q3⟩ := positions_ok hS aS
  have : r0 = r := Except.ok.inj (q1.symm.trans h1)
  subst this
  obtain ⟨c0, u1, -, u2, -, -, u3⟩ := positions_ok hT aT
  have : c0 = c := Except.ok.inj (u1.symm.trans h2)
  subst this
  have e1 : rows' = r0 := eq_of_pairwise_mem p1 (by have := q2 oS; rwa [List.pairwise_map] at this) m1
  have e2 : cols' = c0 := eq_of_pairwise_mem p2 (by have := u2 oT; rwa [List.pairwise_map] at this) m2
  subst e1 e2
  refine ⟨_, fmt, _, out, C08_full_is_gram hf hq h, he, g3, g4.symm, g5, fun hi => ?_, fun hi => ?_, g6⟩
  · cases hS with
    | int k => obtain ⟨x, rfl, -⟩ := q3 k rfl; rfl
    | slice => exact hi.elim
    | list => exact hi.elim
  · cases hT with
    | int k => obtain ⟨x, rfl, -⟩ := u3 k rfl; rfl
    | slice => exact hi.elim
    | list => exact hi.elim

/-- **C77** fails for two sequences. Strictly increasing ones of the same length `m`: `km[l, r]` is the `m × m` matrix of all combinations, numpy pairs
the positions and returns the `m` diagonal entries of that matrix. -/
theorem C77_two_lists_violated {env : Env K X V} {k : K} {a : Attachment X} {s : KMState K X V} (hf : NoFaultsOn env k a)
    (hq : Quiet env k a) (h : SinceDense env k false a s) {l r : List Int} (aS : (Idx.iter (l.map .int)).Accepted a.nrows)
    (aT : (Idx.iter (r.map .int)).Accepted a.ncols) (oS : l.Pairwise (· < ·)) (oT : r.Pairwise (· < ·)) :
    ∃ A fmt M, (exec env .full s).1 = .ok (.mat .dense A) ∧
      (exec env (.getItem (.pair (.iter (l.map .int)) (.iter (r.map .int)))) s).1 = .ok (.mat fmt M) ∧
      M.nrows = l.length ∧ M.ncols = r.length ∧
      (l.length = r.length → ∃ out, A.npIndex (.pair (.list l) (.list r)) = .ok out ∧ out.shape = [l.length] ∧
        ∀ (p : Nat) (h1 : p < M.nrows) (h2 : p < M.ncols), out.flat[p]? = some (M.get ⟨p, h1⟩ ⟨p, h2⟩)) ∧
      (l.length ≠ r.length → l.length ≠ 1 → r.length ≠ 1 → A.npIndex (.pair (.list l) (.list r)) = .error .indexError) := by
  have asc : ∀ {l : List Int}, l.Pairwise (· < ·) → (Idx.iter (l.map .int)).Ascending := by
    intro l hl
    show List.Pairwise _ (l.map IdxItem.int)
    rw [List.pairwise_map]
    exact hl.imp fun h => ⟨_, _, rfl, rfl, h⟩
  obtain ⟨rows, cols, rows', cols', fmt, h1, h2, p1, m1, p2, m2, he⟩ :=
    C77_sorted_selection hf hq (Since.mono (fun _ _ => trivial) h) (.list l) (.list r) aS aT
  obtain ⟨r0, q1, -, q2, -, q4, -⟩ := positions_ok (.list l) aS
  have : r0 = rows := Except.ok.inj (q1.symm.trans h1)
  subst this
  obtain ⟨c0, u1, -, u2, -, u4, -⟩ := positions_ok (.list r) aT
  have : c0 = cols := Except.ok.inj (u1.symm.trans h2)
  subst this
  have e1 : rows' = r0 := eq_of_pairwise_mem p1 (by have := q2 (asc oS); rwa [List.pairwise_map] at this) m1
  have e2 : cols' = c0 := eq_of_pairwise_mem p2 (by have := u2 (asc oT); rwa [List.pairwise_map] at this) m2
  subst e1 e2
  have hl : rows'.length = l.length := (List.length_map _).symm.trans (congrArg List.length (q4 l rfl))
  have hr : cols'.length = r.length := (List.length_map _).symm.trans (congrArg List.length (u4 r rfl))
  have hp := npPair_lists (a.gram (env.kval k)) q1 u1
  refine ⟨_, fmt, _, C08_full_is_gram hf hq h, he, hl, hr, fun hlr => ?_, fun hlr hl1 hr1 => ?_⟩
  · have hb : npBroadcast rows' cols' = .ok (rows'.zip cols') := by
      unfold npBroadcast; rw [if_pos (by omega)]
    rw [hb] at hp
    refine ⟨_, hp, by simp [NpOut.shape]; omega, fun p h1 h2 => ?_⟩
    have h1' : p < rows'.length := h1
    have h2' : p < cols'.length := h2
    simp [NpOut.flat, Mat.outer, h1', h2']
  · have hb : npBroadcast rows' cols' = .error .indexError := by
      unfold npBroadcast
      rw [if_neg (by omega)]
      split
      · simp at hl; omega
      · simp at hr; omega
      · rfl
    rw [hb] at hp
    exact hp

/-- **C77** fails for sequences with repeated positions: numpy repeats the rows, `km[l, T]` does not. -/
theorem C77_repeated_violated {env : Env K X V} {k : K} {a : Attachment X} {s : KMState K X V} (hf : NoFaultsOn env k a)
    (hq : Quiet env k a) (h : SinceDense env k false a s) {l : List Int} {b c d : Option Int} (hl : ¬ l.Nodup)
    (aS : (Idx.iter (l.map .int)).Accepted a.nrows) (aT : (Idx.slice b c d).Accepted a.ncols) :
    ∃ A fmt M B, (exec env .full s).1 = .ok (.mat .dense A) ∧
      (exec env (.getItem (.pair (.iter (l.map .int)) (.slice b c d))) s).1 = .ok (.mat fmt M) ∧
      A.npIndex (.pair (.list l) (.slice b c d)) = .ok (.mat B) ∧ B.nrows = l.length ∧ M.nrows < B.nrows := by
  obtain ⟨rows, cols, rows', cols', fmt, h1, h2, p1, m1, p2, m2, he⟩ :=
    C77_sorted_selection hf hq (Since.mono (fun _ _ => trivial) h) (.list l) (.slice b c d) aS aT
  obtain ⟨r, c', out, g1, g2, g3, g4, g5, g6⟩ := npPair_flat (a.gram (env.kval k)) (.list l) (.slice b c d) aS aT (by rintro ⟨-, h⟩; exact h)
  obtain ⟨r0, q1, -, -, -, q4, -⟩ := positions_ok (.list l) aS
  have hr0 : r0 = r := Except.ok.inj (q1.symm.trans g1)
  have hr1 : r0 = rows := Except.ok.inj (q1.symm.trans h1)
  subst hr0 hr1
  have hlen : r0.length = l.length := (List.length_map _).symm.trans (congrArg List.length (q4 l rfl))
  refine ⟨_, fmt, _, _, C08_full_is_gram hf hq h, he, g3.trans (by rw [g6 id id]), hlen, ?_⟩
  have hnd : ¬ r0.Nodup := by
    intro hn
    refine hl ?_
    rw [← q4 l rfl]
    exact hn.map fun x y hxy => Fin.ext (by omega)
  have hsub : rows'.length ≤ r0.length := (List.subperm_of_subset (p1.imp ne_of_lt) fun x hx => (m1 x).1 hx).length_le
  refine lt_of_le_of_ne hsub fun he => hnd ?_
  have hperm := (List.subperm_of_subset (p1.imp ne_of_lt) fun x hx => (m1 x).1 hx).perm_of_length_le (le_of_eq he.symm)
  exact hperm.nodup_iff.1 (p1.imp ne_of_lt)

/-- **C77** fails for negative integers: numpy counts them from the end, `km[i, T]` raises `KMAccessError`. -/
theorem C77_negative_violated {env : Env K X V} {k : K} {a : Attachment X} {s : KMState K X V} (hf : NoFaultsOn env k a)
    (hq : Quiet env k a) (h : SinceDense env k false a s) {i : Int} (h0 : i < 0) (h1 : -(a.nrows : Int) ≤ i) (m : Fin a.ncols) :
    ∃ A, (exec env .full s).1 = .ok (.mat .dense A) ∧
      exec env (.getItem (.pair (.int i) (.int (m : Nat)))) s = (.error .kmAccess, s) ∧
      A.npIndex (.pair (.int i) (.int (m : Nat))) = .ok (.scalar (a.entry (env.kval k) (i + a.nrows).toNat m)) := by
  refine ⟨_, C08_full_is_gram hf hq h, C05_invalid_access (Since.mono (fun _ _ => trivial) h) (by rintro ⟨_, _, h⟩; cases h)
    (by rintro ⟨_, _, h⟩; cases h) (Or.inl (Or.inl h0)), ?_⟩
  have e1 : axisPos (a.gram (env.kval k)).nrows i = .ok ⟨(i + a.nrows).toNat, by show _ < a.nrows; omega⟩ :=
    axisPos_ok.2 (Or.inr (by show i + (a.nrows : Int) = (((i + a.nrows).toNat : Nat) : Int); omega))
  have e2 : axisPos (a.gram (env.kval k)).ncols ((m : Nat) : Int) = .ok m := axisPos_ok.2 (Or.inl rfl)
  show (axisPos (a.gram (env.kval k)).nrows i >>= fun x => axisPos (a.gram (env.kval k)).ncols ((m : Nat) : Int) >>= fun y =>
    pure (NpOut.scalar ((a.gram (env.kval k)).get x y))) = _
  rw [e1, e2]
  rfl

/-- **C77** fails for slices that select nothing: numpy returns an array without rows, `km[b:c:d, :]` raises `KMAccessError`. -/
theorem C77_empty_violated {env : Env K X V} {k : K} {a : Attachment X} {s : KMState K X V} (hf : NoFaultsOn env k a)
    (hq : Quiet env k a) (h : SinceDense env k false a s) {b c d : Option Int} (hd : d ≠ some 0)
    (h0 : ∀ i : Nat, ¬ SliceSelects b c d a.nrows i) :
    ∃ A out, (exec env .full s).1 = .ok (.mat .dense A) ∧
      exec env (.getItem (.pair (.slice b c d) (.slice none none none))) s = (.error .kmAccess, s) ∧
      A.npIndex (.pair (.slice b c d) (.slice none none none)) = .ok out ∧ out.shape = [0, a.ncols] := by
  have z1 : ¬ ZeroStep (.slice b c d) := by rintro ⟨_, _, h⟩; cases h; exact hd rfl
  have z2 : ¬ ZeroStep (.slice none none none) := by rintro ⟨_, _, h⟩; cases h
  obtain ⟨l, h1, h2⟩ := (sliceIndices_spec b c d a.nrows).2 hd
  have hl : l = [] := by
    cases l with
    | nil => rfl
    | cons x l =>
      have hx := (h2 x).1 List.mem_cons_self
      obtain ⟨y, rfl⟩ := Int.eq_ofNat_of_zero_le hx.1
      exact absurd hx (h0 y)
  subst hl
  refine ⟨_, .mat ((a.gram (env.kval k)).outer [] (List.finRange a.ncols)), C08_full_is_gram hf hq h,
    C05_invalid_access (Since.mono (fun _ _ => trivial) h) z1 z2 (Or.inl ⟨hd, h0⟩), ?_, ?_⟩
  · show ((sliceIndices b c d a.nrows >>= fun l => axisPoss a.nrows l) >>= fun r =>
      (NpIdx.slice none none none).positions a.ncols >>= fun c => pure (NpOut.mat ((a.gram (env.kval k)).outer r c))) = _
    rw [h1, positions_whole]
    rfl
  · exact congrArg (fun x => [0, x]) List.length_finRange

/-- **C77** fails for one integer: `km[t]` is the `1 × 1` matrix with entry number `t` of `km.full.ravel()`, numpy returns row `t`. -/
theorem C77_linear_violated {env : Env K X V} {k : K} {a : Attachment X} {s : KMState K X V} (hf : NoFaultsOn env k a)
    (hq : Quiet env k a) (h : SinceDense env k false a s) {t : Int} (h0 : 0 ≤ t) (h1 : t < a.nrows * a.ncols) :
    ∃ A fmt M, (exec env .full s).1 = .ok (.mat .dense A) ∧ (exec env (.getItem (.linear t)) s).1 = .ok (.mat fmt M) ∧
      M.nrows = 1 ∧ M.ncols = 1 ∧ (∃ v, M.flat = [v] ∧ A.flat[t.toNat]? = some v) ∧
      (t < a.nrows → ∃ out, A.npIndex (.single (.int t)) = .ok out ∧ out.shape = [a.ncols]) ∧
      (a.nrows ≤ t → A.npIndex (.single (.int t)) = .error .indexError) := by
  have hm : 0 < (a.ncols : Int) := by
    rcases Nat.eq_zero_or_pos a.ncols with h | h
    · rw [h] at h1; simp at h1; omega
    · omega
  have hdiv : t / a.ncols < a.nrows := Int.ediv_lt_of_lt_mul hm h1
  have hdiv0 : 0 ≤ t / a.ncols := Int.ediv_nonneg h0 hm.le
  have hmod := Int.emod_lt_of_pos t hm
  have hmod0 := Int.emod_nonneg t hm.ne'
  obtain ⟨A, fmt, M, out, g1, g2, g3, g4, g5, g6, g7, -⟩ := C77_agrees_partial hf hq h (.int (t / a.ncols)) (.int (t % a.ncols)) (accepted_int hdiv0 hdiv)
    (accepted_int hmod0 hmod) trivial trivial (by rintro ⟨h, -⟩; exact h)
  have hA := g1.symm.trans (C08_full_is_gram hf hq h)
  simp only [Except.ok.injEq, KMOut.mat.injEq, true_and] at hA
  subst hA
  obtain ⟨r, hr⟩ : ∃ r : Fin a.nrows, t / a.ncols = ((r : Nat) : Int) := ⟨⟨(t / a.ncols).toNat, by omega⟩, by simp; omega⟩
  obtain ⟨c, hc⟩ : ∃ c : Fin a.ncols, t % a.ncols = ((c : Nat) : Int) := ⟨⟨(t % a.ncols).toNat, by omega⟩, by simp; omega⟩
  have ht : t.toNat = (r : Nat) * a.ncols + c := by
    have := Int.mul_ediv_add_emod t a.ncols
    rw [hr, hc] at this
    have h2 : ((r : Nat) : Int) * a.ncols = a.ncols * (r : Nat) := mul_comm _ _
    have h3 : (((r : Nat) * a.ncols + (c : Nat) : Nat) : Int) = t := by push_cast; omega
    omega
  have e1 : axisPos (a.gram (env.kval k)).nrows (t / a.ncols) = .ok r := axisPos_ok.2 (Or.inl hr)
  have e2 : axisPos (a.gram (env.kval k)).ncols (t % a.ncols) = .ok c := axisPos_ok.2 (Or.inl hc)
  have e3 : (a.gram (env.kval k)).npIndex (.pair (.int (t / a.ncols)) (.int (t % a.ncols))) = .ok (.scalar ((a.gram (env.kval k)).get r c)) := by
    show (axisPos (a.gram (env.kval k)).nrows _ >>= fun x => axisPos (a.gram (env.kval k)).ncols _ >>= fun y =>
      pure (NpOut.scalar ((a.gram (env.kval k)).get x y))) = _
    rw [e1, e2]
    rfl
  rw [e3] at g3
  obtain rfl := Except.ok.inj g3
  refine ⟨_, fmt, M, g1, ?_, g6 trivial, g7 trivial, ⟨_, g4, ?_⟩, fun hlt => ?_, fun hge => ?_⟩
  · rw [C06_linear_indexing (Since.mono (fun _ _ => trivial) h), if_pos ⟨h0, h1⟩]
    exact g2
  · rw [ht]
    exact flat_getElem? (n := a.nrows) (m := a.ncols) _ r c
  · have whole : (Idx.slice none none none).Accepted a.ncols := accepted_whole (by omega)
    obtain ⟨r', c', out, -, k2, k3, -, k5, -⟩ := npPair_flat (a.gram (env.kval k)) (.int t) (.slice none none none) (accepted_int h0 hlt) whole
      (by rintro ⟨h, -⟩; exact h)
    refine ⟨out, k3, ?_⟩
    rw [k5]
    have : c' = List.finRange a.ncols := Except.ok.inj (k2.symm.trans (positions_whole a.ncols))
    rw [this]
    show [(List.finRange a.ncols).length] = _
    exact congrArg (fun x => [x]) List.length_finRange
  · show (axisPos a.nrows t >>= fun x => _) = _
    rw [axisPos_error (Or.inr hge)]
    rfl

/-- **C77** fails for a list of two integers as the whole index object: `km[[i, j]]` is `km[i, j]` (an iterable of length 2, base.py:611-618), numpy
returns the rows `i` and `j`. -/
theorem C77_list_key_violated {env : Env K X V} {k : K} {a : Attachment X} {s : KMState K X V} (hf : NoFaultsOn env k a)
    (hq : Quiet env k a) (h : SinceDense env k false a s) (i j : Fin a.nrows) (hj : (j : Nat) < a.ncols) :
    ∃ A fmt M out, (exec env .full s).1 = .ok (.mat .dense A) ∧
      (exec env (.getItem (.pair (.int (i : Nat)) (.int (j : Nat)))) s).1 = .ok (.mat fmt M) ∧ M.nrows = 1 ∧ M.ncols = 1 ∧
      A.npIndex (.single (.list [((i : Nat) : Int), ((j : Nat) : Int)])) = .ok out ∧ out.shape = [2, a.ncols] := by
  obtain ⟨A, fmt, M, -, g1, g2, -, -, -, g6, g7, -⟩ := C77_agrees_partial hf hq h (.int (i : Nat)) (.int (j : Nat))
    (accepted_int (by omega) (by omega)) (accepted_int (by omega) (by omega)) trivial trivial (by rintro ⟨h, -⟩; exact h)
  have hA := g1.symm.trans (C08_full_is_gram hf hq h)
  simp only [Except.ok.injEq, KMOut.mat.injEq, true_and] at hA
  subst hA
  have whole : (Idx.slice none none none).Accepted a.ncols := accepted_whole (by omega)
  have hl : (Idx.iter ([((i : Nat) : Int), ((j : Nat) : Int)].map .int)).Accepted a.nrows := by
    refine ⟨(by rintro ⟨_, _, h⟩; cases h), ?_⟩
    rintro (h | h | ⟨x, h, hx⟩)
    · simp at h
    · simp at h
    · simp at h
      omega
  obtain ⟨r', c', out, k1, k2, k3, -, k5, -⟩ := npPair_flat (a.gram (env.kval k)) (.list _) (.slice none none none) hl whole
    (by rintro ⟨-, h⟩; exact h)
  refine ⟨_, fmt, M, out, g1, g2, g6 trivial, g7 trivial, k3, ?_⟩
  rw [k5]
  have : c' = List.finRange a.ncols := Except.ok.inj (k2.symm.trans (positions_whole a.ncols))
  rw [this]
  obtain ⟨r'', v1, -, -, -, v4, -⟩ := positions_ok (.list _) hl
  have hrr : r'' = r' := Except.ok.inj (v1.symm.trans k1)
  subst hrr
  have : r''.length = 2 := (List.length_map _).symm.trans (congrArg List.length (v4 _ rfl))
  show [r''.length, (List.finRange a.ncols).length] = _
  rw [this]
  exact congrArg (fun x => [2, x]) List.length_finRange

/-- **C77** fails for slices with negative step and for unsorted sequences: numpy keeps the order in which the positions are visited, `km[S, T]` sorts
them. Every row that numpy returns first is elsewhere in `km[::-1, T]`: row `p` of numpy's result is row `n - 1 - p` of the other. -/
theorem C77_order_violated {env : Env K X V} {k : K} {a : Attachment X} {s : KMState K X V} (hf : NoFaultsOn env k a)
    (hq : Quiet env k a) (h : SinceDense env k false a s) (hn : 0 < a.nrows) (hm : 0 < a.ncols) :
    ∃ A fmt M B, (exec env .full s).1 = .ok (.mat .dense A) ∧
      (exec env (.getItem (.pair (.slice none none (some (-1))) (.slice none none none))) s).1 = .ok (.mat fmt M) ∧
      A.npIndex (.pair (.slice none none (some (-1))) (.slice none none none)) = .ok (.mat B) ∧ M = A ∧
      B = ⟨a.nrows, a.ncols, fun p q => a.entry (env.kval k) (a.nrows - 1 - p) q⟩ := by
  have aS : (Idx.slice none none (some (-1))).Accepted a.nrows := by
    refine ⟨(by rintro ⟨_, _, h⟩; cases h), ?_⟩
    rintro ⟨-, h0⟩
    exact h0 0 (((C07_usual_slices a.nrows 0).2.2.1).2 hn)
  have aT := accepted_whole hm
  obtain ⟨rows, cols, rows', cols', fmt, h1, h2, p1, m1, p2, m2, he⟩ :=
    C77_sorted_selection hf hq (Since.mono (fun _ _ => trivial) h) (.slice none none (some (-1))) (.slice none none none) aS aT
  obtain ⟨r0, q1, q2, -⟩ := positions_ok (.slice none none (some (-1))) aS
  have : r0 = rows := Except.ok.inj (q1.symm.trans h1)
  subst this
  have hc : cols = List.finRange a.ncols := Except.ok.inj (h2.symm.trans (positions_whole a.ncols))
  have hr : rows' = List.finRange a.nrows := eq_of_pairwise_mem p1 (List.pairwise_lt_finRange _) fun x => by
    exact (m1 x).trans ((q2 x).trans (iff_of_true (((C07_usual_slices a.nrows x).2.2.1).2 x.2) (List.mem_finRange x)))
  have hc' : cols' = List.finRange a.ncols := eq_of_pairwise_mem p2 (List.pairwise_lt_finRange _) fun x => by
    rw [m2, hc]
  subst hc hr hc'
  have hrev : r0 = (List.finRange a.nrows).reverse := Except.ok.inj (h1.symm.trans (positions_reversed a.nrows))
  subst hrev
  refine ⟨_, fmt, _, (a.gram (env.kval k)).outer (List.finRange a.nrows).reverse (List.finRange a.ncols), C08_full_is_gram hf hq h, he, ?_,
    outer_finRange (n := a.nrows) (m := a.ncols) _, ?_⟩
  · show ((NpIdx.slice _ _ _).positions (a.gram (env.kval k)).nrows >>= fun r => (NpIdx.slice _ _ _).positions (a.gram (env.kval k)).ncols >>= fun c =>
      pure (NpOut.mat ((a.gram (env.kval k)).outer r c))) = _
    rw [h1, h2]
    rfl
  · exact outer_reverse (n := a.nrows) (m := a.ncols) (fun i j => a.entry (env.kval k) i j)

/-- **C77** fails for objects that normalise: `km[i, j]` is the plain kernel value, `km.full[i, j]` the normalised one. -/
theorem C77_normalised_violated {env : Env K X F} (hops : env.ops = realOps) {k : K} {κ : X → X → ℝ} {A : Arr2 X} {s : KMState K X F}
    (hf : NoFaultsOn env k ⟨A, none⟩) (hκ : RealOn (env.kval k) κ ⟨A, none⟩) (h : SinceAny env k true ⟨A, none⟩ s)
    (hpos : ∀ i : Fin A.nrows, 0 ≤ κ (A.row i) (A.row i)) (hnz : ∀ i : Fin A.nrows, ¬ NearZero (κ (A.row i) (A.row i))) (i j : Fin A.nrows) :
    ∃ N fmt M, (exec env .full s).1 = .ok (.mat .dense N) ∧
      (exec env (.getItem (.pair (.int (i : Nat)) (.int (j : Nat)))) s).1 = .ok (.mat fmt M) ∧
      M.flat = [.real (A.gramR κ i j)] ∧
      N.npIndex (.pair (.int (i : Nat)) (.int (j : Nat))) = .ok (.scalar (.real (cosNorm (A.gramR κ) i j))) := by
  have aI : ∀ i : Fin A.nrows, (Idx.int ((i : Nat) : Int)).Accepted A.nrows := fun i => accepted_int (by omega) (by omega)
  obtain ⟨rows, cols, rows', cols', fmt, h1, h2, p1, m1, p2, m2, he⟩ :=
    C77_sorted_selection hf (quiet_of_real hops hκ) h (.int (i : Nat)) (.int (j : Nat)) (aI i) (aI j)
  have one : ∀ i : Fin A.nrows, (NpIdx.int ((i : Nat) : Int)).positions A.nrows = .ok [i] := by
    intro i
    show (axisPos A.nrows _ >>= fun a => axisPoss A.nrows [] >>= fun r => pure (a :: r)) = _
    rw [axisPos_ok.2 (Or.inl rfl)]
    rfl
  have hr : rows = [i] := Except.ok.inj (h1.symm.trans (one i))
  have hc : cols = [j] := Except.ok.inj (h2.symm.trans (one j))
  subst hr hc
  have e1 : rows' = [i] := eq_of_pairwise_mem p1 (List.pairwise_singleton _ _) m1
  have e2 : cols' = [j] := eq_of_pairwise_mem p2 (List.pairwise_singleton _ _) m2
  subst e1 e2
  refine ⟨_, fmt, _, (C09_one_sample hops hf hκ h hpos).2 fun ⟨i, hi⟩ => hnz i hi, he, ?_, ?_⟩
  · refine (outer_flat (Attachment.gram ⟨A, none⟩ (env.kval k)) [i] [j]).trans ?_
    show [Attachment.entry ⟨A, none⟩ (env.kval k) i j] = _
    rw [show Attachment.entry ⟨A, none⟩ (env.kval k) i j = F.real (A.gramR κ i j) from
      congrFun (congrFun (eq_of_heq (Mat.mk.inj (gram_ofReal hκ)).2.2) i) j]
  · show (axisPos A.nrows _ >>= fun a => axisPos A.nrows _ >>= fun b => pure (NpOut.scalar (F.real (cosNorm (A.gramR κ) a b)))) = _
    rw [axisPos_ok.2 (Or.inl rfl), axisPos_ok.2 (Or.inl rfl)]
    rfl

/-- **C77** for precomputed matrices: `KernelMatrixPrecomputed(km.full)` is accepted, has the same `full`, length and diagonal, and answers every index
object as numpy does, except that the exception is `KMAccessError`. -/
theorem C77_precomputed {env : Env K X F} (hops : env.ops = realOps) {k : K} {κ : X → X → ℝ} {A : Arr2 X} {s : KMState K X F}
    (hf : NoFaultsOn env k ⟨A, none⟩) (hκ : RealOn (env.kval k) κ ⟨A, none⟩) (h : SinceDense env k false ⟨A, none⟩ s) :
    ∃ M p, (exec env .full s).1 = .ok (.mat .dense M) ∧ mkPrecomputed (.real M) = .ok p ∧ p.full = M ∧ p.size = A.nrows ∧ p.numSamples = A.nrows ∧
      (exec env .diagonal s).1 = .ok (.vec p.diag) ∧
      ∀ key, (∀ out, M.npIndex key = .ok out → p.getItem key = .ok out) ∧ (∀ e, M.npIndex key = .error e → p.getItem key = .error .kmAccess) := by
  have hg : Attachment.gram ⟨A, none⟩ (env.kval k) = Mat.ofReal (A.gramR κ) := gram_ofReal hκ
  have hp : mkPrecomputed (.real (Mat.ofReal (A.gramR κ))) = .ok ⟨Mat.ofReal (A.gramR κ), A.nrows⟩ :=
    (C51_square_partial A.nrows (fun i j => .real (A.gramR κ i j)) _).2 ⟨rfl, rfl, rfl, _, rfl, fun i j => by
      rw [show A.gramR κ j i = A.gramR κ i j by unfold Arr2.gramR; rw [min_comm, max_comm], sub_self, abs_zero]; positivity⟩
  refine ⟨_, ⟨Mat.ofReal (A.gramR κ), A.nrows⟩, C08_full_is_gram hf (quiet_of_real hops hκ) h, by rw [hg]; exact hp, hg.symm, rfl, rfl, ?_, fun key => ⟨fun out ho => ?_, fun e ho => ?_⟩⟩
  · rw [C16_diagonal hf (Since.mono (fun _ _ => trivial) h), C51_diag (fun i j => .real (A.gramR κ i j)) _ hp]
    congr 2
    apply List.ext_getElem
    · simp
    · intro i h1 h2
      have hi : i < A.nrows := by simpa using h1
      simp only [List.getElem_map, List.getElem_range, List.getElem_ofFn]
      rw [hκ _ _ (Or.inl ⟨i, hi, rfl⟩) (Or.inl ⟨i, hi, rfl⟩)]
      simp [Arr2.gramR]
  · rw [hg] at ho
    unfold Precomputed.getItem
    rw [ho]
  · rw [hg] at ho
    unfold Precomputed.getItem
    rw [ho]

/-- **C77** for constant matrices: `ConstantKernelMatrix(n, v)` answers every acceptable pair of index objects as the `KernelMatrix` of a kernel function with
the constant value `v` on `n` samples. -/
theorem C77_constant {env : Env K X V} {k : K} {norm : Bool} {A : Arr2 X} {s : KMState K X V} {v : V} (hf : NoFaultsOn env k ⟨A, none⟩)
    (hq : Quiet env k ⟨A, none⟩) (h : SinceAny env k norm ⟨A, none⟩ s) (hv : ∀ x y, env.kval k x y = v) {S T : Idx} {i j : ConstIdx}
    (hS : SameConst S i) (hT : SameConst T j) (aS : S.Accepted A.nrows) (aT : T.Accepted A.nrows) :
    ∃ fmt M, (exec env (.getItem (.pair S T)) s).1 = .ok (.mat fmt M) ∧
      ∀ t, ConstState.Reachable A.nrows v t → ConstState.getItem (.pair i j) t = (.ok M, t) := by
  obtain ⟨r, c, fmt, hr, hc, nr, nc, he, -⟩ := C04_selection_semantics hf hq h aS aT
  refine ⟨fmt, _, he, fun t ht => ?_⟩
  have sel : ∀ {S : Idx} {i : ConstIdx}, SameConst S i → S.Accepted A.nrows → i.Readable ∧ ¬ i.OutOfRange A.nrows ∧
      ∀ x, Selects A.nrows S x ↔ i.Selects A.nrows x := by
    rintro S i hS ⟨hz, hv⟩
    cases hS with
    | int k => exact ⟨trivial, hv, fun x => Iff.rfl⟩
    | slice a b c => exact ⟨fun h => hz ⟨a, b, by rw [h]⟩, id, fun x => Iff.rfl⟩
    | list l =>
      refine ⟨fun x hx => ?_, fun ⟨k, hk, hb⟩ => hv (Or.inr (Or.inr ⟨k, ?_, hb⟩)), fun x => ?_⟩
      · obtain ⟨k, -, rfl⟩ := List.mem_map.1 hx
        exact ⟨k, rfl⟩
      · simpa using hk
      · simp [Selects, ConstIdx.Selects]
  obtain ⟨r1, r2, r3⟩ := sel hS aS
  obtain ⟨c1, c2, c3⟩ := sel hT aT
  have lt : ∀ {S : Idx} {x : Nat}, S.Accepted A.nrows → Selects A.nrows S x → x < A.nrows := by
    rintro S x ⟨_, hv⟩ hx
    cases S with
    | int k => simp only [Invalid, Selects] at hv hx; omega
    | slice a b c => have := hx.2.1; omega
    | iter l =>
      by_contra hb
      exact hv (Or.inr (Or.inr ⟨x, hx, by omega⟩))
    | other => exact hx.elim
  have hsub : Attachment.sub ⟨A, none⟩ (env.kval k) r c = ⟨r.length, c.length, fun _ _ => v⟩ := by
    unfold Attachment.sub Mat.ofCells
    congr 1
    funext p q
    exact hv _ _
  rw [hsub, C50_access_partial ht r1 c1 r2 c2 r.toFinset c.toFinset
    (fun x => by
      rw [List.mem_toFinset, hr.2, ← r3]
      exact ⟨fun h => h.2, fun h => ⟨lt aS h, h⟩⟩)
    (fun x => by
      rw [List.mem_toFinset, hc.2, ← c3]
      exact ⟨fun h => h.2, fun h => ⟨lt aT h, h⟩⟩)
    (List.toFinset_nonempty_iff _ |>.2 nr) (List.toFinset_nonempty_iff _ |>.2 nc),
    List.toFinset_card_of_nodup (hr.1.imp ne_of_lt), List.toFinset_card_of_nodup (hc.1.imp ne_of_lt)]

/-! ### examples -/

/-- `km[0:3:2, [1, 2]]`, `km[[0, 2], 1]`: the hypotheses of `C77_agrees_partial` -/
example : SameIdx (.slice (some 0) (some 3) (some 2)) (.slice (some 0) (some 3) (some 2)) ∧ SameIdx (.iter [.int 1, .int 2]) (.list [1, 2]) ∧
    (Idx.slice (some 0) (some 3) (some 2)).Accepted 3 ∧ (Idx.iter [.int 1, .int 2]).Accepted 3 ∧ (Idx.iter [.int 1, .int 2]).Ascending ∧
    (Idx.slice (some 0) (some 3) (some 2)).Ascending ∧
    Demo.entries (exec Demo.env (.getItem (.pair (.slice (some 0) (some 3) (some 2)) (.iter [.int 1, .int 2]))) (Demo.st1 false)).1 =
      some (.dense, [[12, 13], [23, 33]]) := by
  refine ⟨.slice _ _ _, .list [1, 2], ⟨(by rintro ⟨_, _, h⟩; cases h), ?_⟩, accepted_list (l := [1, 2]) (by simp) (by simp), ?_, ?_, by decide +kernel⟩
  · rintro ⟨-, h⟩
    exact h 2 (by simp [SliceSelects, eff])
  · simp [Idx.Ascending]
  · simp [Idx.Ascending]

/-- the results of numpy for the same array -/
def Demo.npEntries : Except PyErr (NpOut Int) → Option (List Nat × List Int)
  | .ok o => some (o.shape, o.flat)
  | .error _ => none

/-- `A[0:3:2, [1, 2]]`, `A[[0, 2], [1, 2]]`, `A[[2, 0], 1]`, `A[-1, ::-1]`, `A[1:1, :]`, `A[[0, 1], [0, 1, 2]]`, `A[1]` -/
example :
    let A := Demo.one.gram (Demo.env.kval ())
    Demo.npEntries (A.npIndex (.pair (.slice (some 0) (some 3) (some 2)) (.list [1, 2]))) = some ([2, 2], [12, 13, 23, 33]) ∧
    Demo.npEntries (A.npIndex (.pair (.list [0, 2]) (.list [1, 2]))) = some ([2], [12, 33]) ∧
    Demo.npEntries (A.npIndex (.pair (.list [2, 0]) (.int 1))) = some ([2], [23, 12]) ∧
    Demo.npEntries (A.npIndex (.pair (.int (-1)) (.slice none none (some (-1))))) = some ([3], [33, 23, 13]) ∧
    Demo.npEntries (A.npIndex (.pair (.slice (some 1) (some 1) none) (.slice none none none))) = some ([0, 3], []) ∧
    Demo.npEntries (A.npIndex (.pair (.list [0, 1]) (.list [0, 1, 2]))) = none ∧
    Demo.npEntries (A.npIndex (.single (.int 1))) = some ([3], [12, 22, 23]) := by decide +kernel

/-- a normalising object whose kernel is `x * y` on the sample `1, 2, 3`: `km[0, 1]` is 2, `km.full[0, 1]` is 1 -/
example : (Demo.rA.gramR fun x y => x * y) (0 : Fin 3) (1 : Fin 3) = 2 ∧
    cosNorm (Demo.rA.gramR fun x y => x * y) (0 : Fin 3) (1 : Fin 3) = 1 := by
  have e : ∀ i j : Fin 3, (Demo.rA.gramR fun x y => x * y) i j = ((i : ℝ) + 1) * ((j : ℝ) + 1) := by
    intro i j
    show ((min (i : Nat) j : Nat) + 1 : ℝ) * ((max (i : Nat) j : Nat) + 1) = _
    rcases le_total (i : Nat) j with h | h
    · rw [min_eq_left h, max_eq_right h]
    · rw [min_eq_right h, max_eq_left h]; ring
  constructor
  · rw [e 0 1]; norm_num
  · show (Demo.rA.gramR fun x y => x * y) (0 : Fin 3) (1 : Fin 3) / √((Demo.rA.gramR fun x y => x * y) (0 : Fin 3) (0 : Fin 3) *
      (Demo.rA.gramR fun x y => x * y) (1 : Fin 3) (1 : Fin 3)) = 1
    rw [e 0 1, e 0 0, e 1 1]
    norm_num
    rw [show (4 : ℝ) = 2 ^ 2 by norm_num, Real.sqrt_sq (by norm_num)]
    norm_num

end KMethods
