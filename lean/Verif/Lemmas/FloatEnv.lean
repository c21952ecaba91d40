import Verif.Lemmas.RoundPipeline
import Verif.Lemmas.BinaryFloat
/-! # Every arithmetic with rounding has a library of operations and kernels -/
namespace KMethods
open F Rounding KMState

/-- right to left -/
def SumTree.ofList {n : Nat} : List (Fin n) → SumTree n
  | [] => .zero
  | i :: l => .node (.leaf i) (ofList l)

theorem SumTree.leaves_ofList {n : Nat} (l : List (Fin n)) : (ofList l).leaves = l := by
  induction l with
  | nil => rfl
  | cons i l ih => simp [ofList, leaves, ih]

/-- the sum of all terms in turn -/
def SumTree.all (n : Nat) : SumTree n := ofList (List.finRange n)

theorem SumTree.all_complete (n : Nat) : (all n).Complete := by
  unfold Complete all
  rw [leaves_ofList]

def SumOrder.std : SumOrder := ⟨fun n _ _ => .all n, fun n _ _ => SumTree.all_complete n⟩

/-- the operations with rounded normalisation -/
noncomputable def floatOps (R : Rounding) : Ops F :=
  { realOps with
    normalize := normalizeKmFl R .std .std
    normalize2 := fun K dx dy => normalizeKm2Fl R .std .std K dx dy "cosine" }

theorem floatOps_ok (R : Rounding) : FloatOps R (floatOps R) := ⟨⟨_, _, rfl⟩, ⟨_, _, fun _ _ _ => rfl⟩, rfl⟩

variable {R : Rounding}

theorem Rounding.near_self (x : ℝ) : R.Near x x := by
  unfold Near
  rw [sub_self, abs_zero]
  exact mul_nonneg R.u_nonneg (abs_nonneg x)

theorem Rounding.exists_computes {d : Nat} (k : NumKernel) (hk : ∀ γ o, k ≠ .sigmoid γ o) (x y : Fin d → ℝ) : ∃ v, R.Computes k x y v := by
  cases k with
  | hadamard α => exact ⟨_, _, _, _, SumTree.all_complete d, fun _ => near_self _, fun _ => near_self _, rfl⟩
  | poly deg γ b => exact ⟨_, _, SumTree.all_complete d, near_self _⟩
  | gaussian σ γ => exact ⟨_, _, _, SumTree.all_complete d, near_self _, rfl⟩
  | laplacian γ => exact ⟨_, _, SumTree.all_complete d, rfl⟩
  | chi2 γ => exact ⟨_, _, _, SumTree.all_complete d, fun _ => near_self _, rfl⟩
  | sigmoid γ o => exact (hk γ o rfl).elim
  | linear => exact ⟨_, _, SumTree.all_complete d, rfl⟩

open Classical in
/-- `KernelMatrix` on the numeric kernels, each computed in one of the possible ways -/
noncomputable def floatEnv (R : Rounding) : Env NumKernel (List ℝ) F where
  kval k x y :=
    if h : ∃ v, ∃ d, ∃ a b : Fin d → ℝ, x = List.ofFn a ∧ y = List.ofFn b ∧ R.Computes k a b v then .real (Classical.choose h) else .nan
  fails := fun _ _ _ _ => false
  ops := floatOps R
  fmtRaises := fun _ => false

theorem floatEnv_ok (R : Rounding) : FloatEnv R (floatEnv R) where
  ops := floatOps_ok R
  fmt _ := rfl
  call := by
    intro d k x y c hk _
    refine ⟨fun _ => rfl, ?_⟩
    obtain ⟨w, hw⟩ := exists_computes (R := R) k hk x y
    have h : ∃ v, ∃ d', ∃ a b : Fin d' → ℝ, List.ofFn x = List.ofFn a ∧ List.ofFn y = List.ofFn b ∧ R.Computes k a b v :=
      ⟨w, d, x, y, rfl, rfl, hw⟩
    refine ⟨Classical.choose h, dif_pos h, ?_⟩
    have hs := Classical.choose_spec h
    revert hs
    generalize Classical.choose h = v
    rintro ⟨d', a, b, ha, hb, hc⟩
    have hd : d = d' := by simpa using congrArg List.length ha
    subst hd
    rw [List.ofFn_injective ha, List.ofFn_injective hb]
    exact hc

end KMethods
