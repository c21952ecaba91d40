import Verif.Spec.Alternatives
import Verif.Lemmas.Choice
/-!
# Best positions of sublists
-/
namespace KMethods
open F KMState
variable {K X : Type} {env : Env K X F}

theorem FirstBest.part {S T : List ℝ} {φ : Nat → Nat} (hmono : ∀ m n, m < n → n < T.length → φ m < φ n) (h : ∀ n < T.length, T[n]? = S[φ n]?) {j : Nat} (hj : j < T.length)
    (hb : FirstBest S (φ j)) : FirstBest T j := by
  obtain ⟨x, h1, h2, h3⟩ := hb
  refine ⟨x, (h j hj).trans h1, fun y hy => ?_, fun y hy => ?_⟩
  · obtain ⟨n, hn, rfl⟩ := List.getElem_of_mem hy
    have e := h n hn
    rw [List.getElem?_eq_getElem hn] at e
    exact h2 _ (List.mem_of_getElem? e.symm)
  · obtain ⟨n, hn, rfl⟩ := List.getElem_of_mem hy
    rw [List.getElem_take]
    rw [List.length_take] at hn
    have hn' : n < T.length := by omega
    have e := h n hn'
    rw [List.getElem?_eq_getElem hn'] at e
    have hlt := hmono n j (by omega) hj
    refine h3 _ (List.mem_of_getElem? (i := φ n) ?_)
    rw [List.getElem?_take_of_lt hlt]
    exact e.symm

/-- the best position is the first occurrence of the object there -/
theorem FirstBest.idxOf {members : List Nat} {sc : Nat → ℝ} {i r : Nat} (h : FirstBest (members.map sc) i) (hr : members[i]? = some r) : members.idxOf r = i := by
  obtain ⟨x, h1, -, h3⟩ := h
  rw [List.getElem?_map, hr] at h1
  obtain rfl : sc r = x := by simpa using h1
  obtain ⟨hi, e⟩ := List.getElem?_eq_some_iff.1 hr
  refine le_antisymm ?_ ?_
  · by_contra hc
    have h := List.not_of_lt_findIdx (p := (· == r)) (xs := members) (i := i) (by unfold List.idxOf at hc; omega)
    simp [e] at h
  · by_contra hc
    have hlt : members.idxOf r < i := by omega
    have hmem : members.idxOf r < members.length := by omega
    have : sc r ∈ (members.map sc).take i := by
      refine List.mem_of_getElem? (i := members.idxOf r) ?_
      rw [List.getElem?_take_of_lt hlt, List.getElem?_map, List.getElem?_eq_getElem hmem, List.getElem_idxOf]
      rfl
    exact lt_irrefl _ (h3 _ this)

/-- the matrices of the members of a part -/
theorem SetSt.PartOf.kernelOn {t s : SetSt K X} {φ : Nat → Nat} (hp : t.PartOf env s φ) {A : Arr2 X} {G : Nat → Matrix (Fin A.nrows) (Fin A.nrows) ℝ}
    (hG : ∀ r ∈ s.set.members, s.heap.KernelOn env r A (G r)) : ∃ H : Nat → Matrix (Fin A.nrows) (Fin A.nrows) ℝ, (∀ q ∈ t.set.members, t.heap.KernelOn env q A (H q)) ∧
      ∀ n < t.set.members.length, ∃ q r, t.set.members[n]? = some q ∧ s.set.members[φ n]? = some r ∧ H q = G r := by
  have key : ∀ q ∈ t.set.members, ∃ M, t.heap.KernelOn env q A M := by
    intro q hq
    obtain ⟨n, hn, rfl⟩ := List.getElem_of_mem hq
    obtain ⟨q, r, k, norm, e1, e2, h1, h2⟩ := hp.2 n hn
    rw [List.getElem?_eq_getElem hn] at e1
    rw [Option.some.inj e1]
    obtain ⟨k', norm', h3, h4⟩ := hG r (List.mem_of_getElem? e2)
    obtain ⟨rfl, rfl⟩ := IsKM.unique h2 h3
    exact ⟨_, _, _, h1, h4⟩
  classical
  refine ⟨fun q => if h : q ∈ t.set.members then (key q h).choose else 0, fun q hq => by dsimp only; rw [dif_pos hq]; exact (key q hq).choose_spec, fun n hn => ?_⟩
  obtain ⟨q, r, k, norm, e1, e2, h1, h2⟩ := hp.2 n hn
  refine ⟨q, r, e1, e2, ?_⟩
  dsimp only
  rw [dif_pos (List.mem_of_getElem? e1)]
  obtain ⟨k1, n1, h3, h4⟩ := (key q (List.mem_of_getElem? e1)).choose_spec
  obtain ⟨k2, n2, h5, h6⟩ := hG r (List.mem_of_getElem? e2)
  obtain ⟨rfl, rfl⟩ := IsKM.unique h1 h3
  obtain ⟨rfl, rfl⟩ := IsKM.unique h2 h5
  exact h4.unique h6

theorem SetSt.PartOf.numbers {t s : SetSt K X} {φ : Nat → Nat} {A : Arr2 X} {G H : Nat → Matrix (Fin A.nrows) (Fin A.nrows) ℝ}
    (h : ∀ n < t.set.members.length, ∃ q r, t.set.members[n]? = some q ∧ s.set.members[φ n]? = some r ∧ H q = G r) (f : Matrix (Fin A.nrows) (Fin A.nrows) ℝ → ℝ) :
    ∀ n < (t.set.members.map fun q => f (H q)).length, (t.set.members.map fun q => f (H q))[n]? = (s.set.members.map fun r => f (G r))[φ n]? := by
  intro n hn
  rw [List.length_map] at hn
  obtain ⟨q, r, e1, e2, e3⟩ := h n hn
  rw [List.getElem?_map, List.getElem?_map, e1, e2]
  show some (f (H q)) = some (f (G r))
  rw [e3]

end KMethods
