import Verif.Spec.Invariance
import Verif.Lemmas.Pipeline
import Verif.Lemmas.Ranking
/-!
# Lemmas on changes of the data
-/
namespace KMethods
open F KMState

theorem ofCells_eq {V : Type} {n n' m m' : Nat} {c c' : Nat → Nat → V} (hn : n = n') (hm : m = m')
    (h : ∀ i j, i < n → j < m → c i j = c' i j) : Mat.ofCells n m c = Mat.ofCells n' m' c' := by
  subst hn hm
  exact ofCells_congr fun i hi j hj => h i j hi hj

section
variable {X X' V : Type} {kv : X → X → V} {a : Attachment X} {kv' : X' → X' → V} {b : Attachment X'}

theorem SameValues.gram (h : SameValues kv a kv' b) : a.gram kv = b.gram kv' := by
  obtain ⟨A, _ | A2⟩ := a <;> obtain ⟨B, _ | B2⟩ := b
  · exact ofCells_eq h.1 h.1 fun i j hi hj => h.2.2 _ _ (le_trans (min_le_left _ _) (le_max_left _ _)) (max_lt hi hj)
  · exact h.2.2.elim
  · exact h.2.2.elim
  · exact ofCells_eq h.1 h.2.2.1 fun i j hi hj => h.2.2.2.2 i j hi hj

theorem selfs_congr {A : Arr2 X} {B : Arr2 X'} (hn : A.nrows = B.nrows)
    (h : ∀ i, i < A.nrows → kv (A.row i) (A.row i) = kv' (B.row i) (B.row i)) : A.selfs kv = B.selfs kv' := by
  unfold Arr2.selfs
  rw [← hn]
  exact List.map_congr_left fun i hi => h i (List.mem_range.1 hi)
end

/-! ### sums over coordinates -/

section
variable {d : Nat}

theorem sumZip_perm (f : ℝ → ℝ → ℝ) (π : Equiv.Perm (Fin d)) (x y : Fin d → ℝ) :
    sumZip f (List.ofFn (x ∘ π)) (List.ofFn (y ∘ π)) = sumZip f (List.ofFn x) (List.ofFn y) := by
  rw [sumZip_ofFn, sumZip_ofFn]
  exact Equiv.sum_comp π fun k => f (x k) (y k)

theorem mem_ofFn_perm {α : Type} (π : Equiv.Perm (Fin d)) (x : Fin d → α) (a : α) : a ∈ List.ofFn (x ∘ π) ↔ a ∈ List.ofFn x := by
  simp only [List.mem_ofFn', Set.mem_range, Function.comp_apply]
  exact ⟨fun ⟨i, hi⟩ => ⟨π i, hi⟩, fun ⟨i, hi⟩ => ⟨π.symm i, by simpa using hi⟩⟩

theorem eval_perm (k : NumKernel) (π : Equiv.Perm (Fin d)) (x y : Fin d → ℝ) :
    k.eval (List.ofFn (x ∘ π)) (List.ofFn (y ∘ π)) = k.eval (List.ofFn x) (List.ofFn y) := by
  have h : ∀ α, hadamardInfinite α (List.ofFn (x ∘ π)) (List.ofFn (y ∘ π)) ↔ hadamardInfinite α (List.ofFn x) (List.ofFn y) := fun α => by
    unfold hadamardInfinite
    rw [mem_ofFn_perm, mem_ofFn_perm]
  cases k with
  | hadamard α =>
    simp only [NumKernel.eval, sumZip_perm]
    by_cases hi : hadamardInfinite α (List.ofFn x) (List.ofFn y)
    · rw [if_pos hi, if_pos ((h α).2 hi)]
    · rw [if_neg hi, if_neg fun h' => hi ((h α).1 h')]
  | _ => simp only [NumKernel.eval, dot, sumZip_perm, mem_ofFn_perm]

theorem ofFn_snoc {α : Type} (x : Fin d → α) (a : α) : List.ofFn (Fin.snoc x a : Fin (d + 1) → α) = List.ofFn x ++ [a] := by
  rw [List.ofFn_succ']
  simp

theorem sumZip_append (f : ℝ → ℝ → ℝ) {x y : List ℝ} (u v : List ℝ) (h : x.length = y.length) :
    sumZip f (x ++ u) (y ++ v) = sumZip f x y + sumZip f u v := by
  unfold sumZip
  rw [List.zipWith_append h, List.sum_append]

theorem eval_append_zero (k : NumKernel) (hk : ∀ α, k = .hadamard α → 0 < α) {x y : List ℝ} (h : x.length = y.length) :
    k.eval (x ++ [0]) (y ++ [0]) = k.eval x y := by
  have key : ∀ f : ℝ → ℝ → ℝ, f 0 0 = 0 → sumZip f (x ++ [0]) (y ++ [0]) = sumZip f x y := fun f hf => by
    rw [sumZip_append f _ _ h]
    simp [sumZip, hf]
  cases k with
  | hadamard α =>
    have hα := hk α rfl
    have h1 : ∀ u v, ¬ hadamardInfinite α u v := fun u v hi => absurd hi.1 (not_lt.2 hα.le)
    simp only [NumKernel.eval, if_neg (h1 _ _)]
    rw [key]
    simp [hadamardTerm_eq, Real.zero_rpow hα.ne']
  | chi2 γ =>
    have hm : ∀ u : List ℝ, (∃ a ∈ u ++ [0], a < 0) ↔ ∃ a ∈ u, a < 0 := fun u => by
      constructor
      · rintro ⟨a, ha, h0⟩
        rcases List.mem_append.1 ha with ha | ha
        · exact ⟨a, ha, h0⟩
        · simp only [List.mem_singleton] at ha
          subst ha
          exact absurd h0 (lt_irrefl _)
      · rintro ⟨a, ha, h0⟩
        exact ⟨a, List.mem_append_left _ ha, h0⟩
    simp only [NumKernel.eval, hm]
    rw [key]
    simp [chi2Term]
  | poly => simp only [NumKernel.eval, dot]; rw [key]; simp
  | sigmoid => simp only [NumKernel.eval, dot]; rw [key]; simp
  | linear => simp only [NumKernel.eval, dot]; rw [key]; simp
  | gaussian => simp only [NumKernel.eval]; rw [key]; simp
  | laplacian => simp only [NumKernel.eval]; rw [key]; simp

theorem ofFn_append {α : Type} {e : Nat} (x : Fin d → α) (u : Fin e → α) : List.ofFn (Fin.append x u) = List.ofFn x ++ List.ofFn u :=
  List.ofFn_fin_append x u

end
end KMethods
