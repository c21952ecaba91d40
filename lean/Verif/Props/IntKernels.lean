import Verif.Lemmas.IntKernels
import Verif.Lemmas.Pipeline
import Verif.Props.Operations
import Verif.Props.FullMatrix
/-!
# C64: kernels on integer arrays

The value of a kernel should depend on the numbers in the arrays, not on their dtype. It does not: numpy computes with integers of a fixed number of bits.
-/
namespace KMethods
open KMState

/-- the integer that is stored is the representable one that is congruent to the exact value -/
theorem C64_stored {t : IntType} (ht : 0 < t.bits) (v : ℤ) : t.InRange (t.wrap v) ∧ (2:ℤ) ^ t.bits ∣ v - t.wrap v ∧
    ∀ w, t.InRange w → (2:ℤ) ^ t.bits ∣ v - w → t.wrap v = w :=
  ⟨IntType.wrap_inRange ht v, IntType.wrap_modEq t v, fun w hw hd => IntType.inRange_unique ht (IntType.wrap_inRange ht v) hw (by
    have := dvd_sub hd (IntType.wrap_modEq t v)
    rwa [show v - w - (v - t.wrap v) = t.wrap v - w by ring] at this)⟩

/-- **C64** (when every integer computed on the way is in the range of the dtype) the kernel has the same value as on float arrays. Without this hypothesis it is false:
`C64_linear_iff`, `C64_violated`. -/
theorem C64_fits_partial {t : IntType} (ht : 0 < t.bits) {k : IntKernel} {x y : List ℤ} (h : k.Fits t x y) : k.eval t x y = k.onFloats x y :=
  IntKernel.eval_fits ht h

/-- **C64** The linear kernel: right if and only if the inner product is in the range of the dtype. -/
theorem C64_linear_iff {t : IntType} (ht : 0 < t.bits) (x y : List ℤ) :
    IntKernel.eval t (.num .linear) x y = IntKernel.onFloats (.num .linear) x y ↔ t.InRange (List.zipWith (· * ·) x y).sum := by
  refine ⟨fun h => ?_, fun h => IntKernel.eval_fits ht h⟩
  have h1 : Except.ok (ε := PyErr) (F.real ((intDot t x y : ℤ) : ℝ)) = .ok (.real (dot (x.map (↑)) (y.map (↑)))) := h
  rw [dot_cast] at h1
  have h2 : ((intDot t x y : ℤ) : ℝ) = ((List.zipWith (· * ·) x y).sum : ℤ) := F.real.inj (Except.ok.inj h1)
  have h3 : intDot t x y = (List.zipWith (· * ·) x y).sum := by exact_mod_cast h2
  rw [← h3]
  exact IntType.wrap_inRange ht _

/-- **C64** The chi² kernel converts its arguments to float64 and is right for every integer dtype. -/
theorem C64_chi2 (t : IntType) (γ : ℝ) (x y : List ℤ) : IntKernel.eval t (.num (.chi2 γ)) x y = IntKernel.onFloats (.num (.chi2 γ)) x y := rfl

/-- **C64** `int64`, entries up to 2^20 in absolute value, up to 2^22 features: all kernels with float parameters are right. -/
theorem C64_int64_partial (k : NumKernel) (x y : List ℤ) (hx : ∀ a ∈ x, |a| ≤ 2 ^ 20) (hy : ∀ a ∈ y, |a| ≤ 2 ^ 20) (hlen : x.length ≤ 2 ^ 22) :
    IntKernel.eval int64 (.num k) x y = IntKernel.onFloats (.num k) x y := by
  refine IntKernel.eval_fits (by decide) ?_
  have hsum : ∀ (f : ℤ → ℤ → ℤ) (B : ℤ), (∀ a b : ℤ, |a| ≤ 2 ^ 20 → |b| ≤ 2 ^ 20 → |f a b| ≤ B) →
      ∀ x y : List ℤ, (∀ a ∈ x, |a| ≤ 2 ^ 20) → (∀ a ∈ y, |a| ≤ 2 ^ 20) → |(List.zipWith f x y).sum| ≤ x.length * B := by
    intro f B hf x
    induction x with
    | nil => intro y _ _; simp
    | cons a x ih =>
      intro y hx hy
      have hB : 0 ≤ B := le_trans (abs_nonneg _) (hf 0 0 (by norm_num) (by norm_num))
      cases y with
      | nil => simp only [List.zipWith_nil_right, List.sum_nil, abs_zero]; positivity
      | cons b y =>
        rw [List.zipWith_cons_cons, List.sum_cons, List.length_cons]
        have h1 := hf a b (hx a (by simp)) (hy b (by simp))
        have h2 := ih y (fun c hc => hx c (by simp [hc])) (fun c hc => hy c (by simp [hc]))
        calc |f a b + (List.zipWith f x y).sum| ≤ |f a b| + |(List.zipWith f x y).sum| := abs_add_le _ _
          _ ≤ B + x.length * B := add_le_add h1 h2
          _ = ((x.length + 1 : ℕ) : ℤ) * B := by push_cast; ring
  have hlen' : (x.length : ℤ) ≤ 2 ^ 22 := by exact_mod_cast hlen
  have hrange : ∀ v : ℤ, |v| < 2 ^ 63 → int64.InRange v := fun v hv => by
    show -2 ^ (64 - 1) ≤ v ∧ v < 2 ^ (64 - 1)
    exact ⟨(abs_lt.1 hv).1.le, (abs_lt.1 hv).2⟩
  have hdot : int64.InRange (List.zipWith (· * ·) x y).sum := by
    refine hrange _ (lt_of_le_of_lt (hsum (· * ·) (2 ^ 40) (fun a b ha hb => ?_) x y hx hy) ?_)
    · show |a * b| ≤ _
      rw [abs_mul]
      calc |a| * |b| ≤ 2 ^ 20 * 2 ^ 20 := mul_le_mul ha hb (abs_nonneg _) (by positivity)
        _ = 2 ^ 40 := by norm_num
    · nlinarith
  have hdiff : ∀ p ∈ x.zip y, |p.1 - p.2| ≤ 2 ^ 21 := fun p hp => by
    have h1 := hx p.1 (List.of_mem_zip hp).1
    have h2 := hy p.2 (List.of_mem_zip hp).2
    calc |p.1 - p.2| ≤ |p.1| + |p.2| := abs_sub _ _
      _ ≤ 2 ^ 20 + 2 ^ 20 := add_le_add h1 h2
      _ = 2 ^ 21 := by norm_num
  cases k with
  | hadamard α =>
    intro a ha
    have : |a| ≤ 2 ^ 20 := (List.mem_append.1 ha).elim (hx a) (hy a)
    exact hrange _ (by rw [abs_abs]; linarith)
  | poly => exact hdot
  | gaussian => exact fun p hp => hrange _ (lt_of_le_of_lt (hdiff p hp) (by norm_num))
  | laplacian γ =>
    refine ⟨fun p hp => ⟨hrange _ (lt_of_le_of_lt (hdiff p hp) (by norm_num)), hrange _ (by rw [abs_abs]; exact lt_of_le_of_lt (hdiff p hp) (by norm_num))⟩, ?_⟩
    refine hrange _ (lt_of_le_of_lt (hsum (fun a b => |a - b|) (2 ^ 21) (fun a b ha hb => ?_) x y hx hy) (by nlinarith))
    rw [abs_abs]
    calc |a - b| ≤ |a| + |b| := abs_sub _ _
      _ ≤ 2 ^ 20 + 2 ^ 20 := add_le_add ha hb
      _ = 2 ^ 21 := by norm_num
  | chi2 => trivial
  | sigmoid => exact hdot
  | linear => exact hdot

/-- hypotheses: `[1000, -3]` and `[7, 20]` -/
example : (∀ a ∈ ([1000, -3] : List ℤ), |a| ≤ 2 ^ 20) ∧ IntKernel.eval int64 (.num .linear) [1000, -3] [7, 20] = .ok (.real 6940) := by
  refine ⟨by decide, ?_⟩
  rw [C64_int64_partial _ _ _ (by decide) (by decide) (by decide)]
  show Except.ok (F.real (dot (([1000, -3] : List ℤ).map (↑)) (([7, 20] : List ℤ).map (↑)))) = _
  rw [dot_cast]
  norm_num

/-- hypotheses of `C64_fits_partial` for the default Hadamard kernel: entries 5 and 6 in 16 bits -/
example : IntKernel.Fits ⟨16, true⟩ (.hadamard 3) [5] [-6] := by
  refine ⟨by decide, fun p hp => ?_⟩
  obtain rfl : p = (5, -6) := by simpa using hp
  refine ⟨?_, ?_, ?_, ?_, ?_, ?_, ?_⟩ <;> (unfold IntType.InRange; rw [if_pos rfl]; decide)

/-- **C64** is false: the linear kernel of `[16]` with itself, as `uint8`, is 0; the default Hadamard kernel (`alpha = 3`) of `[2048]` with itself, as `int64`, is 0
(instead of 2^31). -/
theorem C64_violated :
    (IntKernel.eval uint8 (.num .linear) [16] [16] = .ok (.real 0) ∧ IntKernel.onFloats (.num .linear) [16] [16] = .ok (.real 256)) ∧
    (IntKernel.eval int64 (.hadamard 3) [2048] [2048] = .ok (.real 0) ∧ IntKernel.onFloats (.hadamard 3) [2048] [2048] = .ok (.real (2 ^ 31))) := by
  refine ⟨⟨?_, ?_⟩, ?_, ?_⟩
  · show Except.ok (F.real ((intDot uint8 [16] [16] : ℤ) : ℝ)) = _
    rw [show intDot uint8 [16] [16] = 0 by decide]
    norm_num
  · show Except.ok (F.real (dot (([16] : List ℤ).map (↑)) (([16] : List ℤ).map (↑)))) = _
    rw [dot_cast]
    norm_num
  · have h1 : int64.wrap (intAbs int64 2048 ^ 3) = 2 ^ 33 := by decide
    have h2 : int64.wrap (2 * int64.wrap (2 ^ 33 + 2 ^ 33)) = 2 ^ 35 := by decide
    have h3 : int64.wrap (2 ^ 33 * 2 ^ 33) = 0 := by decide
    have : hadamardIntTerm int64 3 2048 2048 = 0 := by
      unfold hadamardIntTerm
      simp only [h1, h2, h3]
      norm_num
    unfold IntKernel.eval
    dsimp only
    rw [if_neg (fun h => absurd h.1 (by decide)), show (3:ℤ).toNat = 3 from rfl]
    simp only [List.zipWith_cons_cons, List.zipWith_nil_left, List.sum_cons, List.sum_nil, this, add_zero]
  · show NumKernel.eval (.hadamard ((3:ℤ):ℝ)) [((2048:ℤ):ℝ)] [((2048:ℤ):ℝ)] = _
    have hh : ¬ hadamardInfinite ((3:ℤ):ℝ) [((2048:ℤ):ℝ)] [((2048:ℤ):ℝ)] := fun h => absurd h.1 (by norm_num)
    have ht : hadamardTerm ((3:ℤ):ℝ) ((2048:ℤ):ℝ) ((2048:ℤ):ℝ) = 2 ^ 31 := by
      unfold hadamardTerm
      rw [show ((3:ℤ):ℝ) = ((3:ℕ):ℝ) by norm_num]
      simp only [Real.rpow_natCast]
      norm_num
    unfold NumKernel.eval
    simp only [if_neg hh, sumZip, List.zipWith_cons_cons, List.zipWith_nil_left, List.sum_cons, List.sum_nil, ht, add_zero]

/-- **C64** Symmetry survives the wrap-around, except for the Gaussian and Laplacian kernels on unsigned integers (`C64_not_symmetric`). -/
theorem C64_symmetric_partial {t : IntType} (ht : 0 < t.bits) (k : IntKernel)
    (h : t.signed = true ∨ ((∀ σ γ, k ≠ .num (.gaussian σ γ)) ∧ ∀ γ, k ≠ .num (.laplacian γ))) (x y : List ℤ) : k.eval t x y = k.eval t y x := by
  have habs : t.signed = true → ∀ a b : ℤ, |t.wrap (a - b)| = |t.wrap (b - a)| := fun hs a b => by
    rw [← IntType.wrap_neg_abs ht hs (b - a), show -(b - a) = a - b by ring]
  rcases k with k | α
  · cases k with
    | hadamard α => exact eval_comm (.hadamard α) (x.map fun a => (intAbs t a : ℝ)) (y.map fun a => (intAbs t a : ℝ))
    | poly d γ b => show Except.ok (intPow (b + γ * ((intDot t x y : ℤ) : ℝ)) d) = _; rw [intDot_comm]; rfl
    | gaussian σ γ =>
      have hs : t.signed = true := h.resolve_right fun h => h.1 σ γ rfl
      show Except.ok (F.real (Real.exp (-γ * Real.sqrt ((intSub t x y).map fun d : ℤ => (d : ℝ) ^ 2).sum ^ 2))) =
        Except.ok (F.real (Real.exp (-γ * Real.sqrt ((intSub t y x).map fun d : ℤ => (d : ℝ) ^ 2).sum ^ 2)))
      rw [intSub, intSub, map_zipWith', map_zipWith', zipWith_swap]
      have : ∀ a b : ℤ, ((t.wrap (a - b) : ℤ) : ℝ) ^ 2 = ((t.wrap (b - a) : ℤ) : ℝ) ^ 2 := fun a b => by
        have h2 : (t.wrap (a - b)) ^ 2 = (t.wrap (b - a)) ^ 2 := (sq_eq_sq_iff_abs_eq_abs _ _).2 (habs hs a b)
        exact_mod_cast h2
      simp only [this]
    | laplacian γ =>
      have hs : t.signed = true := h.resolve_right fun h => h.2 γ rfl
      show Except.ok (F.real (Real.exp (-γ * ((intSum t ((intSub t x y).map (intAbs t)) : ℤ) : ℝ)))) =
        Except.ok (F.real (Real.exp (-γ * ((intSum t ((intSub t y x).map (intAbs t)) : ℤ) : ℝ))))
      rw [intSub, intSub, map_zipWith', map_zipWith', zipWith_swap]
      have : ∀ a b : ℤ, intAbs t (t.wrap (a - b)) = intAbs t (t.wrap (b - a)) := fun a b => by
        unfold intAbs; rw [habs hs a b]
      simp only [this]
    | chi2 γ => exact eval_comm (.chi2 γ) (x.map (↑)) (y.map (↑))
    | sigmoid γ o => show Except.ok (F.real (Real.tanh (o + γ * ((intDot t x y : ℤ) : ℝ)))) = _; rw [intDot_comm]; rfl
    | linear => show Except.ok (F.real ((intDot t x y : ℤ) : ℝ)) = _; rw [intDot_comm]; rfl
  · unfold IntKernel.eval
    have : (x ≠ [] ∨ y ≠ []) ↔ (y ≠ [] ∨ x ≠ []) := or_comm
    simp only [this]
    rw [zipWith_swap]
    simp only [hadamardIntTerm_comm t α.toNat]

/-- **C64** On `uint8` arrays the Gaussian kernel is not symmetric: 0 - 1 is 255. -/
theorem C64_not_symmetric (σ γ : ℝ) (hγ : 0 < γ) : IntKernel.eval uint8 (.num (.gaussian σ γ)) [0] [1] ≠ IntKernel.eval uint8 (.num (.gaussian σ γ)) [1] [0] := by
  intro h
  have h1 : Except.ok (ε := PyErr) (F.real (Real.exp (-γ * Real.sqrt ((intSub uint8 [0] [1]).map fun d : ℤ => (d : ℝ) ^ 2).sum ^ 2))) =
    .ok (.real (Real.exp (-γ * Real.sqrt ((intSub uint8 [1] [0]).map fun d : ℤ => (d : ℝ) ^ 2).sum ^ 2))) := h
  rw [show intSub uint8 [0] [1] = [255] by decide, show intSub uint8 [1] [0] = [1] by decide] at h1
  have h2 := Real.exp_injective (F.real.inj (Except.ok.inj h1))
  simp only [List.map_cons, List.map_nil, List.sum_cons, List.sum_nil, add_zero] at h2
  rw [Real.sq_sqrt (by positivity), Real.sq_sqrt (by positivity)] at h2
  push_cast at h2
  nlinarith

/-! ### kernel matrices of integer samples -/

/-- **C64** (when all pairs of rows are in range) after every history of public calls `km.full` on an integer sample is the Gram matrix of the kernel on the numbers. -/
theorem C64_matrix_partial {t : IntType} (ht : 0 < t.bits) {k : IntKernel} {A : Arr2 (List ℤ)} {κ : List ℤ → List ℤ → ℝ}
    (hfit : ∀ i j : Fin A.nrows, k.Fits t (A.row i) (A.row j)) (hκ : ∀ i j : Fin A.nrows, k.onFloats (A.row i) (A.row j) = .ok (.real (κ (A.row i) (A.row j))))
    {s : KMState IntKernel (List ℤ) F} (h : SinceDense (intEnv t realOps) k false ⟨A, none⟩ s) :
    (exec (intEnv t realOps) .full s).1 = .ok (.mat .dense (Mat.ofReal (A.gramR κ))) := by
  have hv : ∀ x y, Attachment.IsRow ⟨A, none⟩ x → Attachment.IsRow ⟨A, none⟩ y → k.eval t x y = .ok (.real (κ x y)) := by
    intro x y hx hy
    obtain ⟨i, rfl⟩ := isRow_none hx
    obtain ⟨j, rfl⟩ := isRow_none hy
    rw [IntKernel.eval_fits ht (hfit i j), hκ i j]
  have hr : RealOn ((intEnv t realOps).kval k) κ ⟨A, none⟩ := fun x y hx hy => by
    show (match k.eval t x y with | .ok v => v | .error _ => .nan) = _
    rw [hv x y hx hy]
  have hf : NoFaultsOn (intEnv t realOps) k ⟨A, none⟩ := fun _ x y hx hy => by
    show (match k.eval t x y with | .ok _ => false | .error _ => true) = false
    rw [hv x y hx hy]
  rw [C08_full_is_gram hf (quiet_of_real rfl hr) h, gram_ofReal hr]

namespace Demo
/-- two samples of one feature, 16 and 1 -/
def bytes : Arr2 (List ℤ) := ⟨2, 1, fun i => if i = 0 then [16] else [1]⟩
/-- attached to these samples -/
noncomputable def bytesSt (norm : Bool) : KMState IntKernel (List ℤ) F :=
  (exec (intEnv uint8 realOps) (.attach (.arr [2, 1] bytes.row) none) (KMState.init (.num .linear) norm 0)).2

theorem bytes_attaches : Attaches (.arr [2, 1] bytes.row) none ⟨bytes, none⟩ := ⟨⟨0, rfl⟩, trivial⟩

theorem bytes_real : RealOn ((intEnv uint8 realOps).kval (.num .linear)) (fun x y => (intDot uint8 x y : ℝ)) ⟨bytes, none⟩ := fun _ _ _ _ => rfl

theorem bytes_gram : bytes.gramR (fun x y => (intDot uint8 x y : ℝ)) = fun i j : Fin 2 => (!![0, 16; 16, 1] : Matrix (Fin 2) (Fin 2) ℝ) i j := by
  funext i j
  show ((intDot uint8 (bytes.row (min (i : Nat) j)) (bytes.row (max (i : Nat) j)) : ℤ) : ℝ) = _
  have h00 : intDot uint8 [16] [16] = 0 := by decide
  have h01 : intDot uint8 [16] [1] = 16 := by decide
  have h11 : intDot uint8 [1] [1] = 1 := by decide
  fin_cases i <;> fin_cases j <;> simp [bytes, h00, h01, h11]
end Demo

/-- **C64** The matrix of the linear kernel on the `uint8` samples 16 and 1 is not positive semidefinite (its entries are 0, 16, 16, 1), and cannot be normalised. -/
theorem C64_matrix_violated :
    (exec (intEnv uint8 realOps) .full (Demo.bytesSt false)).1 = .ok (.mat .dense (Mat.ofReal (n := 2) (m := 2) !![0, 16; 16, 1])) ∧
    ¬ IsPSD (!![0, 16; 16, 1] : Matrix (Fin 2) (Fin 2) ℝ) ∧
    (exec (intEnv uint8 realOps) .full (Demo.bytesSt true)).1 = .error .kmNorm := by
  have hf : NoFaultsOn (intEnv uint8 realOps) (.num .linear) ⟨Demo.bytes, none⟩ := fun _ _ _ _ _ => rfl
  refine ⟨?_, ?_, ?_⟩
  · unfold Demo.bytesSt
    rw [C08_full_is_gram hf (quiet_of_real rfl Demo.bytes_real) (.attached (.new 0) Demo.bytes_attaches (exec_attach Demo.bytes_attaches _)),
      gram_ofReal Demo.bytes_real, Demo.bytes_gram]
    rfl
  · intro h
    have := h.2 ![1, -1]
    simp [Fin.sum_univ_two] at this
    norm_num at this
  · unfold Demo.bytesSt
    rw [C09_full_is_normalised_gram rfl hf (fun h => by cases h) (fun h => by cases h)
      (.attached (.new 0) Demo.bytes_attaches (exec_attach Demo.bytes_attaches _))]
    show (normalizeKm (Attachment.gram ⟨Demo.bytes, none⟩ ((intEnv uint8 realOps).kval (.num .linear))) "cosine").map _ = _
    rw [gram_ofReal Demo.bytes_real, Demo.bytes_gram]
    have : normalizeKm (Mat.ofReal (n := 2) (m := 2) fun i j => (!![0, 16; 16, 1] : Matrix (Fin 2) (Fin 2) ℝ) i j) "cosine" = .error .kmNorm := by
      refine ((C20_errors (Mat.ofReal (n := 2) (m := 2) fun i j => (!![0, 16; 16, 1] : Matrix (Fin 2) (Fin 2) ℝ) i j) "cosine").2.2 rfl (by decide +kernel)).1 ⟨(0 : Fin 2), 0, rfl, by norm_num⟩
    exact congrArg (Except.map _) this

/-- hypotheses of `C64_matrix_partial`: the same samples as 16-bit integers -/
example : ∀ i j : Fin 2, IntKernel.Fits ⟨16, true⟩ (.num .linear) (Demo.bytes.row i) (Demo.bytes.row j) := by
  intro i j
  fin_cases i <;> fin_cases j <;> (show IntType.InRange _ _; unfold IntType.InRange; rw [if_pos rfl]; decide)

end KMethods
