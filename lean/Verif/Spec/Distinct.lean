import Verif.Spec.Ranking
import Verif.Spec.Sampling
/-!
# Spec: kernels that differ (C94)
-/
namespace KMethods

/-- two samples with one feature each -/
def pairSample (x y : ℝ) : Arr2 (List ℝ) := ⟨2, 1, fun i => if i = 0 then [x] else [y]⟩

/-- the kernels of a bucket with these parameter values -/
noncomputable def bucketKernels (degrees : List ℤ) (sigma laplace gamma offset : List ℝ) : List NumKernel :=
  .linear :: (degrees.map (fun d => .poly d 1 1) ++ sigma.map mkGaussian ++ laplace.map .laplacian ++ gamma.map (fun g => .sigmoid g 1) ++
    offset.map fun o => .sigmoid 1 o)

/-- parameter values without repetitions: positive degrees; `sigma` in the range that is used as it is (`ensure_min_eps`); positive `gamma`; and the default values of the sigmoid
kernel, gamma = 1 and offset = 1, not in both lists -/
structure ProperValues (degrees : List ℤ) (sigma laplace gamma offset : List ℝ) : Prop where
  nodup : degrees.Nodup ∧ sigma.Nodup ∧ laplace.Nodup ∧ gamma.Nodup ∧ offset.Nodup
  degrees_pos : ∀ d ∈ degrees, 1 ≤ d
  sigma_range : ∀ s ∈ sigma, floatEps ≤ s ∧ floatEps ≤ 1 / (2 * s ^ 2)
  laplace_pos : ∀ g ∈ laplace, 0 < g
  gamma_pos : ∀ g ∈ gamma, 0 < g
  once : ¬ (1 ∈ gamma ∧ 1 ∈ offset)

/-- an argument with a list of numbers: `None`, or a non-empty sequence -/
def ValuesArg.Reals (a : ValuesArg NumVal) (l : List ℝ) : Prop := (a = .none ∧ l = []) ∨ (a = .seq (l.map .real) ∧ l ≠ [])

/-- the same for integers -/
def ValuesArg.Ints (a : ValuesArg NumVal) (l : List ℤ) : Prop := (a = .none ∧ l = []) ∨ (a = .seq (l.map .int) ∧ l ≠ [])

/-- All members of a set are different: any two of them can be told apart, by attaching the set to two samples `x`, `y` with one feature and comparing the full matrices. -/
def SetSt.AllDiffer {K : Type} (env : Env K (List ℝ) F) (s : SetSt K (List ℝ)) : Prop :=
  ∀ (i j r q : Nat), i ≠ j → s.set.members[i]? = some r → s.set.members[j]? = some q →
    ∃ x y : ℝ, ∃ s', SetSt.attach (sampleArg (pairSample x y)) none s = (.ok (), s') ∧ ∃ M N : Matrix (Fin 2) (Fin 2) ℝ, M ≠ N ∧
      (Heap.full env r s'.heap).1 = .ok (.dense, Mat.ofReal M) ∧ (Heap.full env q s'.heap).1 = .ok (.dense, Mat.ofReal N)

end KMethods
