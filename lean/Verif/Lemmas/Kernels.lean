import Verif.Spec.Kernels
import Verif.Lemmas.KernelPSD
import Verif.Lemmas.Operations
/-! Kernel functions as sums over coordinates. -/
namespace KMethods
open F
variable {n d : Nat}

theorem zipWith_ofFn {α β γ : Type} (f : α → β → γ) (x : Fin d → α) (y : Fin d → β) :
    List.zipWith f (List.ofFn x) (List.ofFn y) = List.ofFn fun k => f (x k) (y k) := by
  apply List.ext_getElem
  · simp
  · intro i h1 h2; simp

theorem sumZip_ofFn (f : ℝ → ℝ → ℝ) (x y : Fin d → ℝ) :
    sumZip f (List.ofFn x) (List.ofFn y) = ∑ k, f (x k) (y k) := by
  rw [sumZip, zipWith_ofFn, List.sum_ofFn]

theorem matchCount_ofFn (x y : Fin d → String) : matchCount (List.ofFn x) (List.ofFn y) = agreement x y := by
  rw [matchCount, zipWith_ofFn, List.sum_ofFn, agreement, Finset.card_filter]

theorem ensureNdarray1D_vec (x : List ℝ) (w : WantDType) : ensureNdarray1D (.vec x) w = .ok (.vec x) := by
  have h : squeezeAbove 0 [x.length] = [x.length] := by simp [squeezeAbove]
  rw [ensureNdarray1D, NdArray.vec, h, ensureNdarraySize]
  cases w <;> rfl

theorem checkInputArrays_vec (x y : List ℝ) (w : WantDType) : checkInputArrays (.vec x) (.vec y) w =
    if x.length ≠ y.length then .error .valueError else .ok (.vec x, .vec y) := by
  rw [checkInputArrays, ensureNdarray1D_vec, ensureNdarray1D_vec]
  show (if (NdArray.vec x).shape.prod ≠ (NdArray.vec y).shape.prod then _ else _) = _
  simp only [NdArray.vec, List.prod_cons, List.prod_nil, mul_one]
  rfl

theorem call_vec (k : NumKernel) {x y : List ℝ} (h : x.length = y.length) : k.call false (.vec x) (.vec y) = k.eval x y := by
  rw [NumKernel.call, if_neg (by simp), checkInputArrays_vec, if_neg (by simp [h])]
  rfl

theorem on_eq (k : NumKernel) (x y : Fin d → ℝ) : k.on x y = k.eval (List.ofFn x) (List.ofFn y) :=
  call_vec k (by simp)

theorem on_linear (x y : Fin d → ℝ) : NumKernel.linear.on x y = .ok (.real (∑ k, x k * y k)) := by
  rw [on_eq, NumKernel.eval, dot, sumZip_ofFn]

theorem on_poly (deg : Nat) (γ b : ℝ) (x y : Fin d → ℝ) :
    (NumKernel.poly deg γ b).on x y = .ok (.real ((b + γ * ∑ k, x k * y k) ^ deg)) := by
  rw [on_eq, NumKernel.eval, dot, sumZip_ofFn, intPow, if_neg (by omega), zpow_natCast]

theorem on_gaussian (σ γ : ℝ) (x y : Fin d → ℝ) :
    (NumKernel.gaussian σ γ).on x y = .ok (.real (Real.exp (-γ * ∑ k, (x k - y k) ^ 2))) := by
  rw [on_eq, NumKernel.eval, sumZip_ofFn, Real.sq_sqrt (Finset.sum_nonneg fun k _ => sq_nonneg _)]

theorem on_laplacian (γ : ℝ) (x y : Fin d → ℝ) :
    (NumKernel.laplacian γ).on x y = .ok (.real (Real.exp (-γ * ∑ k, |x k - y k|))) := by
  rw [on_eq, NumKernel.eval, sumZip_ofFn]

theorem chi2Term_eq (x y : ℝ) : chi2Term x y = (x - y) ^ 2 / (x + y) := by
  unfold chi2Term
  split
  · rename_i h; rw [h, div_zero]
  · rfl

theorem on_chi2 (γ : ℝ) {x y : Fin d → ℝ} (hx : ∀ k, 0 ≤ x k) (hy : ∀ k, 0 ≤ y k) :
    (NumKernel.chi2 γ).on x y = .ok (.real (Real.exp (-γ * ∑ k, (x k - y k) ^ 2 / (x k + y k)))) := by
  rw [on_eq, NumKernel.eval, if_neg, sumZip_ofFn]
  · simp only [chi2Term_eq]
  · rintro (⟨a, ha, h⟩ | ⟨a, ha, h⟩) <;> obtain ⟨k, rfl⟩ := (List.mem_ofFn' _ _).1 ha
    · exact absurd h (not_lt.2 (hx k))
    · exact absurd h (not_lt.2 (hy k))

theorem on_sigmoid (γ o : ℝ) (x y : Fin d → ℝ) :
    (NumKernel.sigmoid γ o).on x y = .ok (.real (Real.tanh (o + γ * ∑ k, x k * y k))) := by
  rw [on_eq, NumKernel.eval, dot, sumZip_ofFn]

theorem hadamardTerm_eq (α x y : ℝ) : hadamardTerm α x y = 1 / 2 * (|x| ^ α * |y| ^ α / (|x| ^ α + |y| ^ α)) := by
  have h1 := Real.rpow_nonneg (abs_nonneg x) α
  have h2 := Real.rpow_nonneg (abs_nonneg y) α
  unfold hadamardTerm
  split
  · rename_i h
    have : |x| ^ α + |y| ^ α ≠ 0 := by linarith
    field_simp
  · rename_i h
    have h3 : |x| ^ α + |y| ^ α = 0 := by linarith
    rw [h3, div_zero, mul_zero]

theorem on_hadamard {α : ℝ} {x y : Fin d → ℝ} (h : 0 < α ∨ (∀ k, x k ≠ 0) ∧ ∀ k, y k ≠ 0) :
    (NumKernel.hadamard α).on x y =
      .ok (.real (∑ k, 1 / 2 * (|x k| ^ α * |y k| ^ α / (|x k| ^ α + |y k| ^ α)))) := by
  rw [on_eq, NumKernel.eval, if_neg, sumZip_ofFn]
  · simp only [hadamardTerm_eq]
  · rintro ⟨h1, h2⟩
    rcases h with h | ⟨hx, hy⟩
    · linarith
    · rcases h2 with h2 | h2 <;> obtain ⟨k, h⟩ := (List.mem_ofFn' _ _).1 h2
      · exact hx k h
      · exact hy k h

theorem sumZip_comm {f : ℝ → ℝ → ℝ} (hf : ∀ a b, f a b = f b a) (x y : List ℝ) : sumZip f x y = sumZip f y x := by
  unfold sumZip
  induction x generalizing y with
  | nil => simp
  | cons a x ih =>
    cases y with
    | nil => simp
    | cons b y => simp only [List.zipWith_cons_cons, List.sum_cons, hf a b, ih y]

theorem matchCount_comm (x y : List String) : matchCount x y = matchCount y x := by
  unfold matchCount
  induction x generalizing y with
  | nil => simp
  | cons a x ih =>
    cases y with
    | nil => simp
    | cons b y => simp only [List.zipWith_cons_cons, List.sum_cons, eq_comm (a := a), ih y]

theorem eval_comm (k : NumKernel) (x y : List ℝ) : k.eval x y = k.eval y x := by
  have hd : dot x y = dot y x := sumZip_comm (fun a b => _root_.mul_comm a b) x y
  cases k with
  | hadamard α =>
    have h1 : hadamardInfinite α x y ↔ hadamardInfinite α y x := by
      unfold hadamardInfinite; rw [or_comm]
    have h2 := sumZip_comm (f := hadamardTerm α) (fun a b => by
      rw [hadamardTerm_eq, hadamardTerm_eq, _root_.mul_comm (|a| ^ α), add_comm (|a| ^ α)]) x y
    unfold NumKernel.eval
    dsimp only
    by_cases h : hadamardInfinite α x y
    · rw [if_pos h, if_pos (h1.1 h)]
    · rw [if_neg h, if_neg fun h' => h (h1.2 h'), h2]
  | poly => simp only [NumKernel.eval, hd]
  | gaussian =>
    simp only [NumKernel.eval, sumZip_comm (f := fun a b => (a - b) ^ 2) (fun a b => by ring) x y]
  | laplacian =>
    simp only [NumKernel.eval, sumZip_comm (f := fun a b => |a - b|) (fun a b => abs_sub_comm a b) x y]
  | chi2 =>
    have h1 : ((∃ a ∈ x, a < 0) ∨ ∃ a ∈ y, a < 0) ↔ ((∃ a ∈ y, a < 0) ∨ ∃ a ∈ x, a < 0) := or_comm
    simp only [NumKernel.eval, h1, sumZip_comm (f := chi2Term) (fun a b => by
      rw [chi2Term_eq, chi2Term_eq, add_comm a b]; ring) x y]
  | sigmoid => simp only [NumKernel.eval, hd]
  | linear => simp only [NumKernel.eval, hd]

theorem ensureNdarray1D_error {α : Type} {a : NdArray α} {w : WantDType} {e : PyErr} (h : ensureNdarray1D a w = .error e) :
    e = .valueError := by
  unfold ensureNdarray1D ensureNdarraySize at h
  rcases h1 : ensureNdim 1 (squeezeAbove 0 a.shape) with e' | sh
  · simp only [h1] at h
    unfold ensureNdim at h1
    split at h1
    · injection h1 with h1; injection h with h; rw [← h, ← h1]
    · cases h1
  · simp only [h1] at h
    change (if _ then _ else if _ then _ else _) = _ at h
    split at h
    · cases h
    · split at h
      · cases h
      · injection h with h; exact h.symm

theorem ensureNdim_error {n : Nat} {sh : List Nat} {e : PyErr} (h : ensureNdim n sh = .error e) : e = .valueError := by
  unfold ensureNdim at h
  split at h
  · injection h with h; exact h.symm
  · cases h

theorem ensureNdim_ok {n : Nat} {sh sh' : List Nat} (h : ensureNdim n sh = .ok sh') : sh' = sh ∧ sh.length = n := by
  unfold ensureNdim at h
  split at h
  · cases h
  · rename_i hn
    injection h with h; exact ⟨h.symm, not_not.1 hn⟩

theorem ensureTypeSize_error {a : CatArray} {e : PyErr} (h : ensureTypeSize a = .error e) : e = .valueError :=
  ensureNdim_error h

theorem ensureTypeSize_prod {a : CatArray} {sh : List Nat} (h : ensureTypeSize a = .ok sh) : sh.prod = a.shape.prod := by
  rw [(ensureNdim_ok h).1]
  split
  · rfl
  · induction a.shape with
    | nil => rfl
    | cons n l ih =>
      rw [List.filter_cons]
      split
      · rw [List.prod_cons, List.prod_cons, ih]
      · rename_i h
        have : n = 1 := by simpa using h
        rw [List.prod_cons, ih, this, one_mul]

theorem floatEps_pos : 0 < floatEps := by unfold floatEps; positivity
theorem ensureMinEps_ge (x : ℝ) : floatEps ≤ ensureMinEps x := le_max_left _ _
theorem ensureMinEps_pos (x : ℝ) : 0 < ensureMinEps x := floatEps_pos.trans_le (ensureMinEps_ge x)

theorem checkCategoricalArrays_vec (x y : Fin d → String) : checkCategoricalArrays (.vec x) (.vec y) = .ok () := by
  show (if [d].prod ≠ [d].prod then (Except.error PyErr.valueError : Except PyErr Unit) else .ok ()) = .ok ()
  rw [if_neg (by simp)]

theorem matchCall_vec (p : Bool) (x y : Fin d → String) : matchCall p (.vec x) (.vec y) =
    .ok (if p then .real (agreement x y) / .real d else .real (agreement x y)) := by
  rw [matchCall, checkCategoricalArrays_vec]
  show (if ¬ (true = true ∧ true = true) then (.error .typeError : Except PyErr F)
    else if p = true then .ok (real (matchCount (List.ofFn x) (List.ofFn y)) / real (List.ofFn y).length)
    else .ok (real (matchCount (List.ofFn x) (List.ofFn y)))) = _
  rw [if_neg (by simp)]
  rw [matchCount_ofFn, List.length_ofFn]
  cases p <;> rfl

theorem isPSD_agreement (x : Fin n → Fin d → String) : IsPSD fun i j => (agreement (x i) (x j) : ℝ) := by
  have := isPSD_finset_sum Finset.univ (A := fun k i j => if x i k = x j k then (1:ℝ) else 0)
    fun k _ => isPSD_indicator fun i => x i k
  have e : (fun i j => ∑ k, if x i k = x j k then (1:ℝ) else 0) = fun i j => (agreement (x i) (x j) : ℝ) := by
    funext i j
    rw [agreement, Finset.card_filter]
    push_cast
    rfl
  rwa [e] at this

theorem real_div_nat (a : ℝ) (d : Nat) : (F.real a / F.real d : F) = if d = 0 then .nan else .real (a / d) := by
  show (if (d:ℝ) = 0 then F.nan else F.real (a / d)) = _
  simp only [Nat.cast_eq_zero]

theorem exp_range {γ S : ℝ} (hγ : 0 ≤ γ) (hS : 0 ≤ S) : 0 < Real.exp (-γ * S) ∧ Real.exp (-γ * S) ≤ 1 :=
  ⟨Real.exp_pos _, Real.exp_le_one_iff.2 (by nlinarith)⟩

theorem exp_eq_one {γ S : ℝ} (hγ : 0 < γ) : Real.exp (-γ * S) = 1 ↔ S = 0 := by
  rw [Real.exp_eq_one_iff, mul_eq_zero, neg_eq_zero, or_iff_right hγ.ne']

theorem tanh_sum (a b : ℝ) : Real.tanh a + Real.tanh b = Real.sinh (a + b) / (Real.cosh a * Real.cosh b) := by
  rw [Real.tanh_eq_sinh_div_cosh, Real.tanh_eq_sinh_div_cosh, Real.sinh_add]
  have h1 := (Real.cosh_pos a).ne'
  have h2 := (Real.cosh_pos b).ne'
  field_simp

theorem tanh_pos' {a : ℝ} (h : 0 < a) : 0 < Real.tanh a := by
  rw [Real.tanh_eq_sinh_div_cosh]
  exact div_pos (Real.sinh_pos_iff.2 h) (Real.cosh_pos a)

/-- three collinear points `0, t, -t` -/
def threePoints (t : ℝ) : Fin 3 → Fin 1 → ℝ := ![fun _ => 0, fun _ => t, fun _ => -t]

theorem sigmoid_three (γ o t : ℝ) {K : Matrix (Fin 3) (Fin 3) ℝ}
    (hK : ∀ i j, (NumKernel.sigmoid γ o).on (threePoints t i) (threePoints t j) = .ok (.real (K i j))) :
    ∑ i, ∑ j, (![-2, 1, 1] : Fin 3 → ℝ) i * K i j * (![-2, 1, 1] : Fin 3 → ℝ) j =
      -4 * Real.tanh o + 2 * (Real.tanh (o + γ * t ^ 2) + Real.tanh (o - γ * t ^ 2)) := by
  have h : ∀ i j, K i j = Real.tanh (o + γ * (threePoints t i 0 * threePoints t j 0)) := by
    intro i j
    have := hK i j
    rw [on_sigmoid] at this
    simpa using this.symm
  simp only [h, Fin.sum_univ_three, threePoints, Matrix.cons_val_zero, Matrix.cons_val_one, Matrix.cons_val]
  have e1 : o + γ * (t * t) = o + γ * t ^ 2 := by ring
  have e2 : o + γ * (-t * -t) = o + γ * t ^ 2 := by ring
  have e3 : o + γ * (t * -t) = o - γ * t ^ 2 := by ring
  have e4 : o + γ * (-t * t) = o - γ * t ^ 2 := by ring
  rw [e1, e2, e3, e4]
  simp
  ring

theorem tanh_one_gt : (1:ℝ) / 2 < Real.tanh 1 := by
  rw [Real.tanh_eq]
  have h1 := Real.add_one_le_exp 1
  have h2 : Real.exp (-1) * Real.exp 1 = 1 := by rw [← Real.exp_add]; simp
  have h3 := Real.exp_pos (-1)
  have h4 : Real.exp (-1) ≤ 1 / 2 := by nlinarith
  rw [div_lt_div_iff₀ (by norm_num) (by positivity)]
  linarith

theorem tanh_ge {o : ℝ} (h : 1 ≤ o) : (1:ℝ) / 2 < Real.tanh o := by
  refine tanh_one_gt.trans_le ?_
  rw [Real.tanh_eq_sinh_div_cosh, Real.tanh_eq_sinh_div_cosh, div_le_div_iff₀ (Real.cosh_pos _) (Real.cosh_pos _)]
  have : 0 ≤ Real.sinh (o - 1) := Real.sinh_nonneg_iff.2 (by linarith)
  rw [Real.sinh_sub] at this
  linarith

end KMethods
