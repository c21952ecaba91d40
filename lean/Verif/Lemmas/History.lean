import Verif.Spec.History
import Verif.Lemmas.KMExec
import Verif.Lemmas.Shape
import Mathlib.Data.Finset.Sigma
import Mathlib.Algebra.BigOperators.Intervals
import Mathlib.Data.Finset.Prod
import Mathlib.Algebra.BigOperators.Group.Finset.Sigma
/-! From histories to invariants. -/
namespace KMethods

theorem to2D_iff {X : Type} (s : SampleIn X) (A : Arr2 X) : s.to2D = .ok A ↔ s.IsArray A := by
  unfold SampleIn.IsArray
  cases s with
  | noDtype => simp [SampleIn.to2D]
  | arr shape row =>
    have hrun : (SampleIn.arr shape row).to2D = (ensureShape2D shape).map fun p => ⟨p.1, p.2, row⟩ := by
      simp only [SampleIn.to2D]
      cases ensureShape2D shape <;> rfl
    rw [hrun]
    constructor
    · intro h
      rcases hs : ensureShape2D shape with e | ⟨n, m⟩
      · rw [hs] at h; simp [Except.map] at h
      · rw [hs] at h
        simp only [Except.map, Except.ok.injEq] at h
        subst h
        obtain ⟨k, rfl⟩ := (ensureShape2D_iff _ _ _).1 hs
        exact ⟨k, rfl⟩
    · rintro ⟨k, h⟩
      injection h with h1 h2
      rw [(ensureShape2D_iff shape A.nrows A.ncols).2 ⟨k, h1⟩]
      subst h2
      rfl

theorem ofArgs_iff {X : Type} (one : SampleIn X) (two : Option (SampleIn X)) (a : Attachment X) :
    Attachment.ofArgs one two = .ok a ↔ Attaches one two a := by
  unfold Attaches Attachment.ofArgs
  rw [← to2D_iff]
  rcases h1 : one.to2D with e | x
  · simp
  cases two with
  | none =>
    simp only
    rcases a with ⟨y, _ | b⟩
    · simp
    · simp
  | some t =>
    simp only
    rcases h2 : t.to2D with e | y
    · simp only
      rcases a with ⟨z, _ | b⟩
      · simp
      · simp only [← to2D_iff, h2]; simp
    · rcases a with ⟨z, _ | b⟩
      · simp only [and_false, iff_false]
        split <;> simp
      · simp only [← to2D_iff, h2]
        split
        · simp; aesop
        · simp; aesop

namespace KMState
variable {K X V : Type} {env : Env K X V} {k : K} {norm : Bool} {a : Attachment X} {P : KMOp X → Prop}
  {s : KMState K X V}
open PyM

theorem exec_attach_run (one : SampleIn X) (two : Option (SampleIn X)) (s : KMState K X V) :
    exec env (.attach one two) s = ((attach one two s).1.map fun _ => .none, (attach one two s).2) := by
  show (attach one two >>= fun _ => pure _) s = _
  rw [bind_run]
  rcases attach one two s with ⟨_ | _, _⟩ <;> rfl

theorem Reachable.wf (h : Reachable env k norm s) : WF s := by
  induction h with
  | new t => exact wf_init k norm t
  | call op _ ih => exact ih.exec op

theorem Reachable.kernel (h : Reachable env k norm s) : s.kernel = k ∧ s.keepNormed = norm := by
  induction h with
  | new t => exact ⟨rfl, rfl⟩
  | call op h ih =>
    have := exec_kernel (env := env) op h.wf
    exact ⟨this.1.trans ih.1, this.2.trans ih.2⟩

theorem exec_attach_ok {s s' : KMState K X V} {one : SampleIn X} {two : Option (SampleIn X)}
    (ha : Attaches one two a) (h : exec env (.attach one two) s = (.ok .none, s')) :
    s' = attachedState s.kernel s.keepNormed a s.clock s.centeredKm := by
  rw [exec_attach_run, attach_ok one two s a ((ofArgs_iff _ _ _).2 ha)] at h
  injection h with _ h
  exact h.symm

theorem Since.reachable (h : Since env k norm a P s) : Reachable env k norm s := by
  induction h with
  | attached hr ha h =>
    rename_i s s' one two
    have := Reachable.call (env := env) (.attach one two) hr
    rw [h] at this
    exact this
  | call op _ _ _ ih => exact .call op ih

theorem Since.attachedTo (h : Since env k norm a P s) : AttachedTo env a s := by
  induction h with
  | attached hr ha h =>
    rw [exec_attach_ok ha h]
    exact attachedTo_attachedState env _ _ a _ _
  | call op _ ha _ ih => exact ih.exec op ha

theorem Since.kernel (h : Since env k norm a P s) : s.kernel = k := h.reachable.kernel.1
theorem Since.keepNormed (h : Since env k norm a P s) : s.keepNormed = norm := h.reachable.kernel.2

theorem Since.good (hf : NoFaults env) (h : Since env k norm a P s) (sp : Lv)
    (hsp : sp.sp = false → ∀ op, P op → ¬ op.MayGoSparse norm a.nrows a.ncols)
    (hup : sp.up = false → norm = true ∨ ∀ op, P op → op ≠ .fullSparse) : Good env a sp s := by
  induction h with
  | attached hr ha h =>
    rw [exec_attach_ok ha h]
    exact good_attachedState env _ _ a _ _ sp
  | call op hs ha hP ih =>
    refine ih.exec hf op ha (Lv.Le.refl _) (fun h0 => ?_) fun h0 => ?_
    · rw [hs.keepNormed]
      exact hsp h0 op hP
    · rw [hs.keepNormed]
      exact (hup h0).imp id fun h' => h' op hP

/-- any fault-free history -/
theorem Since.goodAny (hf : NoFaults env) (h : Since env k norm a P s) : Good env a ⟨true, true⟩ s :=
  h.good hf _ (by simp) (by simp)

/-- fault-free histories without sparse storage -/
theorem Since.goodDense (hf : NoFaults env) (h : SinceDense env k norm a s) : Good env a ⟨false, false⟩ s := by
  refine h.good hf _ (fun _ _ h => h) fun _ => ?_
  cases norm
  · right
    rintro op h rfl
    exact h rfl
  · exact Or.inl rfl

theorem exec_ok {α : Type} {m : PyM (KMState K X V) α} {f : α → KMOut V} {s : KMState K X V} {o : KMOut V}
    (h : ((m >>= fun x => pure (f x)) s).1 = .ok o) : ∃ x, (m s).1 = .ok x ∧ o = f x := by
  rw [(exec_state s).2] at h
  rcases hm : (m s).1 with e | x
  · rw [hm] at h; simp [Except.map] at h
  · rw [hm] at h; simp [Except.map] at h; exact ⟨x, rfl, h.symm⟩

theorem _root_.KMethods.exec_full_run (s : KMState K X V) :
    KMState.exec env .full s = ((KMState.full env s).1.map fun A => .mat A.1 A.2, (KMState.full env s).2) := by
  show (KMState.full env >>= fun A => pure _) s = _
  rw [bind_run]
  rcases KMState.full env s with ⟨_ | _, _⟩ <;> rfl

theorem exec_getItem_run (key : Key) (s : KMState K X V) :
    exec env (.getItem key) s = ((getItem env key s).1.map fun A => .mat A.1 A.2, (getItem env key s).2) := by
  show (getItem env key >>= fun A => pure _) s = _
  rw [bind_run]
  rcases getItem env key s with ⟨_ | _, _⟩ <;> rfl

end KMState
open IndexSpec

theorem mem_of_getIndices {n m : Nat} {idx : Idx} {dim : Bool} {r : List Nat × Bool}
    (h : getIndicesInSample (some (n, m)) idx dim = .ok r) (i : Nat) : i ∈ r.1 ↔ Selects (dimOf n m dim) idx i := by
  rcases getIndices_spec n m idx dim with ⟨_, h'⟩ | ⟨_, _, h'⟩ | ⟨_, _, l, b, h', e1, e2, e3, e4, e5⟩
  · rw [h'] at h; simp at h
  · rw [h'] at h; simp at h
  · rw [h'] at h; simp at h; subst h
    exact e4 i

theorem getIndices_of_valid {n m : Nat} {idx : Idx} {dim : Bool} (hz : ¬ ZeroStep idx)
    (hv : ¬ Invalid (dimOf n m dim) idx) :
    ∃ r, getIndicesInSample (some (n, m)) idx dim = .ok r ∧ IsSelection (dimOf n m dim) idx r.1 ∧ r.1 ≠ [] := by
  rcases getIndices_spec n m idx dim with ⟨h, _⟩ | ⟨_, h, _⟩ | ⟨_, _, l, b, h', e1, e2, e3, e4, e5⟩
  · exact absurd h hz
  · exact absurd h hv
  · exact ⟨(l, b), h', ⟨e1, fun i => ⟨fun hi => ⟨e3 i hi, (e4 i).1 hi⟩, fun hi => (e4 i).2 hi.2⟩⟩, e2⟩

theorem sorted_ext {l r : List Nat} (hl : l.Pairwise (· < ·)) (hr : r.Pairwise (· < ·)) (h : ∀ i, i ∈ l ↔ i ∈ r) :
    l = r := by
  have hp : l.Perm r := (List.perm_ext_iff_of_nodup (hl.imp (by intro a b h; omega))
    (hr.imp (by intro a b h; omega))).2 h
  exact hp.eq_of_pairwise (fun a b _ _ h1 h2 => by omega) hl hr

theorem valid_iter_map {n : Nat} {l : List Nat} (h0 : l ≠ []) (hn : ∀ i ∈ l, i < n) :
    ¬ Invalid n (.iter (l.map fun i : Nat => .int i)) := by
  rintro (h | h | ⟨k, h, hk⟩)
  · simp at h; exact h0 h
  · simp at h
  · obtain ⟨i, hi, hk'⟩ := List.mem_map.1 h
    injection hk' with hk'
    have := hn i hi
    omega

theorem isSelection_iter_map {n : Nat} {l r : List Nat} (hl : l.Pairwise (· < ·)) (hn : ∀ i ∈ l, i < n)
    (h : IsSelection n (.iter (l.map fun i : Nat => .int i)) r) : r = l := by
  refine sorted_ext h.1 hl fun i => ?_
  rw [h.2 i]
  simp only [Selects, List.mem_map]
  constructor
  · rintro ⟨_, j, hj, he⟩
    injection he with he
    have : j = i := by omega
    rwa [← this]
  · intro hi
    exact ⟨hn i hi, i, hi, rfl⟩

theorem length_le_of_range {n m : Nat} {l : List (Nat × Nat)} (hnd : l.Nodup) (h : ∀ p ∈ l, p.1 < n ∧ p.2 < m) :
    l.length ≤ n * m := by
  rw [← List.toFinset_card_of_nodup hnd]
  have : l.toFinset ⊆ Finset.range n ×ˢ Finset.range m := by
    intro p hp
    have := h p (List.mem_toFinset.1 hp)
    simp [this]
  simpa using Finset.card_le_card this

theorem length_le_of_upper {n : Nat} {l : List (Nat × Nat)} (hnd : l.Nodup) (h : ∀ p ∈ l, p.1 ≤ p.2 ∧ p.2 < n) :
    2 * l.length ≤ n * (n + 1) := by
  rw [← List.toFinset_card_of_nodup hnd]
  have hsub : (l.toFinset.image fun p => (⟨p.2, p.1⟩ : Σ _ : Nat, Nat)) ⊆
      (Finset.range n).sigma fun j => Finset.range (j + 1) := by
    intro q hq
    obtain ⟨p, hp, rfl⟩ := Finset.mem_image.1 hq
    have := h p (List.mem_toFinset.1 hp)
    simp only [Finset.mem_sigma, Finset.mem_range]
    omega
  have hcard := Finset.card_le_card hsub
  rw [Finset.card_image_of_injective _ (by
    rintro ⟨a, b⟩ ⟨c, d⟩ hpq
    simp at hpq
    simp [hpq]), Finset.card_sigma] at hcard
  simp only [Finset.card_range] at hcard
  have hg := Finset.sum_range_id_mul_two (n + 1)
  rw [Finset.sum_range_succ'] at hg
  simp only [Nat.add_sub_cancel, Nat.add_zero] at hg
  have : n * (n + 1) = (n + 1) * n := Nat.mul_comm _ _
  omega

end KMethods
