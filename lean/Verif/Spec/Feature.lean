import Verif.Spec.Matrix
/-!
# Feature vectors
-/
namespace KMethods
variable {n m : Nat} {ι : Type} [Fintype ι]

/-- scalar product -/
def innerF (x y : ι → ℝ) : ℝ := ∑ c, x c * y c

/-- distance -/
noncomputable def distF (x y : ι → ℝ) : ℝ := Real.sqrt (innerF (fun c => x c - y c) fun c => x c - y c)

/-- the matrix of the scalar products of two families of vectors -/
def innerMat (φ : Fin n → ι → ℝ) (ψ : Fin m → ι → ℝ) : Matrix (Fin n) (Fin m) ℝ := fun i j => innerF (φ i) (ψ j)

/-- the vectors relative to their mean -/
noncomputable def fromMean (φ : Fin n → ι → ℝ) : Fin n → ι → ℝ := fun i c => φ i c - (∑ j, φ j c) / n

/-- the vectors scaled to length 1 -/
noncomputable def toUnit (φ : Fin n → ι → ℝ) : Fin n → ι → ℝ := fun i c => φ i c / Real.sqrt (innerF (φ i) (φ i))

/-- the vectors of several families side by side, the `k`-th with the factor `√(w k)` -/
noncomputable def sideBySide {N : Nat} (w : Fin N → ℝ) (φ : Fin N → Fin n → ι → ℝ) : Fin n → Fin N × ι → ℝ := fun i p => Real.sqrt (w p.1) * φ p.1 i p.2

/-- the tensor products of the vectors of several families -/
def tensor {N : Nat} (φ : Fin N → Fin n → ι → ℝ) : Fin n → (Fin N → ι) → ℝ := fun i c => ∏ k, φ k i (c k)

/-- the distance that a kernel matrix describes -/
noncomputable def kernelDist (K : Matrix (Fin n) (Fin n) ℝ) (i j : Fin n) : ℝ := Real.sqrt (K i i + K j j - 2 * K i j)

end KMethods
