import Verif.Model.RoundComposite
import Verif.Spec.Composite
import Verif.Spec.RoundAlign
/-!
# Notions used to state rounding errors of composite kernels
-/
namespace KMethods
variable {K X : Type}

/-- `fit` in floating point arithmetic succeeds and then `composite_KM` is the finite matrix `A`; if `P` only allows ndarrays, as an ndarray -/
def CompSt.FitsFl {n : Nat} (env : Env K X F) (R : Rounding) (o : SumOrder) (P : Fmt → Prop) (w : Option WeightsIn) (s : CompSt K X)
    (A : Matrix (Fin n) (Fin n) ℝ) : Prop :=
  ∃ s' f, fitFl env R o w s = (.ok (), s') ∧ (compositeKM s').1 = .ok (f, Mat.ofReal A) ∧ ((∀ g, P g → g = .dense) → f = .dense)

/-- The composite is a linear combination of the members: `s.Coeffs w l` if `fit(w)` is meant to compute `sum_k l_k K_k` (`ProductKernel` is the
other case). -/
inductive CompSt.Coeffs (s : CompSt K X) : Option WeightsIn → List ℝ → Prop
  | plain : s.comp.kind = .sum → Coeffs s none (List.replicate s.set.members.length 1)
  | given {w : WeightsIn} {l : List ℝ} : s.comp.kind = .sum → w.IsVec l → l.length = s.set.members.length → Coeffs s (some w) l
  | average : s.comp.kind = .average → s.set.members ≠ [] → Coeffs s none (List.replicate s.set.members.length (1 / s.set.members.length))
  | weighted {l : List ℝ} : s.comp.kind = .weighted (l.map F.real) → l.length = s.set.members.length → Coeffs s none l

/-- `sum_k |w_k K_k|` -/
def wsumAbs {n m : Nat} (w : List ℝ) (Ks : List (Matrix (Fin n) (Fin m) ℝ)) : Matrix (Fin n) (Fin m) ℝ :=
  fun i j => ((w.zip Ks).map fun p => |p.1 * p.2 i j|).sum

/-- the entries of `A` differ from those of the positive semidefinite matrix `S` by at most `η √(S_ii S_jj)` -/
def CloseTo {n : Nat} (η : ℝ) (A S : Matrix (Fin n) (Fin n) ℝ) : Prop :=
  ∀ i j, |A i j - S i j| ≤ η * (Real.sqrt (S i i) * Real.sqrt (S j j))

end KMethods
