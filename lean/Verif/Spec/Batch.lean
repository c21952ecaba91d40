import Verif.Spec.Algorithms
import Verif.Spec.Resample
/-!
# Learners that predict row by row
-/
namespace KMethods
variable {M Y W Q H : Type}

/-- The learner predicts row by row: given a kernel matrix with at least one row, `L.predict` raises depending on the number of columns only, or applies a function to each row; the conversion of predictions
works on each of them. -/
structure Learner.RowWise (L : Learner M Y W (List Q)) (f : M → Nat → Except PyErr (List ℝ → Q)) (c : Y → Q → Q) : Prop where
  predict : ∀ m {n d : Nat} (T : Matrix (Fin n) (Fin d) ℝ), 0 < n →
    L.predict m (.dense, Mat.ofReal T) = (f m d).map fun g => List.ofFn fun i => g (List.ofFn (T i))
  cast : ∀ y l, L.cast y l = .ok (l.map (c y))

/-- the same for the support vector machines of `OptimalKernelSVC`, `OptimalKernelSVR` -/
structure SvmLearner.RowWise (L : SvmLearner H M W (List Q)) (f : M → Nat → Except PyErr (List ℝ → Q)) (c : Est → Q → Q) : Prop where
  predict : ∀ m {n d : Nat} (T : Matrix (Fin n) (Fin d) ℝ), 0 < n →
    L.predict m (.dense, Mat.ofReal T) = (f m d).map fun g => List.ofFn fun i => g (List.ofFn (T i))
  cast : ∀ e l, L.cast e l = .ok (l.map (c e))

/-- The order of the training samples does not matter to the learner: `σ` reorders `n` samples, `y'`, `w'` are the reordered targets and weights. -/
def Learner.OrderFree {P : Type} (L : Learner M Y W P) {n : Nat} (σ : Fin n → Fin n) (y y' : Y) (w w' : W) : Prop :=
  L.cast y' = L.cast y ∧ ∀ e (G : Matrix (Fin n) (Fin n) ℝ), (∀ i j, G i j = G j i) → ∀ m m',
    L.fit e (.dense, Mat.ofReal G) y w = .ok m → L.fit e (.dense, Mat.ofReal fun i j => G (σ i) (σ j)) y' w' = .ok m' →
      ∀ k (T : Matrix (Fin k) (Fin n) ℝ), L.predict m' (.dense, Mat.ofReal fun i j => T i (σ j)) = L.predict m (.dense, Mat.ofReal T)

end KMethods
