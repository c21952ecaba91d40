import Verif.Spec.Missing
import Verif.Lemmas.Kernels
import Verif.Lemmas.Operations2
/-! Kernel functions on arrays with missing values. -/
namespace KMethods
open F

theorem ensureNdarray1D_vecF (x : List F) (w : WantDType) : ensureNdarray1D (.vecF x) w = .ok (.vecF x) := by
  have h : squeezeAbove 0 [x.length] = [x.length] := by simp [squeezeAbove]
  rw [ensureNdarray1D, NdArray.vecF, h, ensureNdarraySize]
  cases w <;> rfl

theorem callF_vec (k : NumKernel) {x y : List F} (h : x.length = y.length) : k.callF false (.vecF x) (.vecF y) = k.evalF x y := by
  have : checkInputArrays (.vecF x) (.vecF y) k.wantDType = .ok (.vecF x, .vecF y) := by
    unfold checkInputArrays
    rw [ensureNdarray1D_vecF, ensureNdarray1D_vecF]
    simp [bind, Except.bind, pure, Except.pure, NdArray.vecF, h]
  simp only [NumKernel.callF, this, bind, Except.bind]
  rfl

theorem callF_vec_ne (k : NumKernel) {x y : List F} (h : x.length ≠ y.length) :
    k.callF false (.vecF x) (.vecF y) = .error .valueError := by
  have : checkInputArrays (.vecF x) (.vecF y) k.wantDType = .error .valueError := by
    unfold checkInputArrays
    rw [ensureNdarray1D_vecF, ensureNdarray1D_vecF]
    simp [bind, Except.bind, NdArray.vecF, h]
  simp [NumKernel.callF, this, bind, Except.bind]

theorem call_vec_ne (k : NumKernel) {x y : List ℝ} (h : x.length ≠ y.length) :
    k.call false (.vec x) (.vec y) = .error .valueError := by
  simp [NumKernel.call, checkInputArrays_vec, bind, Except.bind, h]

theorem sumZipF_cons (f : F → F → F) (a b : F) (x y : List F) : sumZipF f (a :: x) (b :: y) = f a b + sumZipF f x y := rfl

/-- summands that are finite on all pairs of coordinates -/
theorem sumZipF_zip (f : F → F → F) (g : ℝ → ℝ → ℝ) : ∀ x y : List F,
    (∀ p ∈ x.zip y, f p.1 p.2 = match p with | (.real a, .real b) => .real (g a b) | _ => 0) →
    sumZipF f x y = .real (((bothPresent x y).map fun p => g p.1 p.2).sum)
  | [], _, _ => by simp [sumZipF, bothPresent, zero_def]
  | _ :: _, [], _ => by simp [sumZipF, bothPresent, zero_def]
  | a :: x, b :: y, h => by
    have h1 := h (a, b) (by simp)
    have h2 := sumZipF_zip f g x y fun p hp => h p (by simp [hp])
    rw [sumZipF_cons, h2]
    dsimp only at h1
    rw [h1]
    rcases a with a | _ <;> rcases b with b | _ <;> simp [bothPresent, zero_def]

theorem bothPresent_real : ∀ x y : List ℝ, bothPresent (x.map .real) (y.map .real) = x.zip y
  | [], _ => by simp [bothPresent]
  | _ :: _, [] => by simp [bothPresent]
  | a :: x, b :: y => by
    have := bothPresent_real x y
    simp only [bothPresent] at this
    simp [bothPresent, this]

theorem sumZip_zip (g : ℝ → ℝ → ℝ) (x y : List ℝ) : ((x.zip y).map fun p => g p.1 p.2).sum = sumZip g x y := by
  rw [sumZip, ← List.map_uncurry_zip_eq_zipWith]
  rfl

theorem sumZipF_real {f : F → F → F} {g : ℝ → ℝ → ℝ} {x y : List ℝ} (h : ∀ a ∈ x, ∀ b ∈ y, f (.real a) (.real b) = .real (g a b)) :
    sumZipF f (x.map .real) (y.map .real) = .real (sumZip g x y) := by
  rw [sumZipF_zip f g, bothPresent_real, sumZip_zip]
  rintro ⟨a, b⟩ hp
  obtain ⟨ha, hb⟩ := List.of_mem_zip hp
  obtain ⟨a', ha', rfl⟩ := List.mem_map.1 ha
  obtain ⟨b', hb', rfl⟩ := List.mem_map.1 hb
  exact h a' ha' b' hb'

theorem sumZipF_nan {f : F → F → F} (h1 : ∀ v, f .nan v = .nan) (h2 : ∀ v, f v .nan = .nan) : ∀ {x y : List F}, x.length = y.length →
    (.nan ∈ x ∨ .nan ∈ y) → sumZipF f x y = .nan
  | [], [], _, h => by simp at h
  | [], _ :: _, h, _ => by simp at h
  | _ :: _, [], h, _ => by simp at h
  | a :: x, b :: y, hl, h => by
    rw [sumZipF_cons]
    by_cases h' : F.nan ∈ x ∨ F.nan ∈ y
    · rw [sumZipF_nan h1 h2 (by simpa using hl) h', add_nan]
    · have : a = .nan ∨ b = .nan := by
        push Not at h'
        simp only [List.mem_cons] at h
        rcases h with (h | h) | h | h
        · exact .inl h.symm
        · exact absurd h h'.1
        · exact .inr h.symm
        · exact absurd h h'.2
      rcases this with rfl | rfl
      · rw [h1, nan_add]
      · rw [h2, nan_add]

theorem sumZip_sq_nonneg (x y : List ℝ) : 0 ≤ sumZip (fun a b => (a - b) ^ 2) x y := by
  unfold sumZip
  refine List.sum_nonneg fun v hv => ?_
  obtain ⟨p, _, rfl⟩ : ∃ p : ℝ × ℝ, p ∈ x.zip y ∧ v = (p.1 - p.2) ^ 2 := by
    rw [← List.map_uncurry_zip_eq_zipWith] at hv
    obtain ⟨p, hp, e⟩ := List.mem_map.1 hv
    exact ⟨p, hp, e.symm⟩
  positivity

theorem chi2TermF_real (a b : ℝ) : nanToZero (chi2TermF (.real a) (.real b)) = .real (chi2Term a b) := by
  unfold chi2TermF chi2Term
  rw [real_sub, real_mul, real_add]
  by_cases h : a + b = 0
  · rw [h, real_div_zero, if_pos rfl]; rfl
  · rw [real_div _ _ h, if_neg h, ← sq]; rfl

theorem dotF_real (x y : List ℝ) : dotF (x.map .real) (y.map .real) = .real (dot x y) :=
  sumZipF_real fun _ _ _ _ => rfl

theorem dotF_nan {x y : List F} (hl : x.length = y.length) (h : .nan ∈ x ∨ .nan ∈ y) : dotF x y = .nan :=
  sumZipF_nan nan_mul mul_nan hl h

/-- without missing values -/
theorem evalF_real (k : NumKernel) {x y : List ℝ} (hl : x.length = y.length) : k.evalF (x.map .real) (y.map .real) = k.eval x y := by
  cases k with
  | hadamard α =>
    show Except.ok _ = Except.ok _
    congr 1
    by_cases hi : hadamardInfinite α x y
    · rw [if_pos hi]
      obtain ⟨hα, hi⟩ := hi
      induction x generalizing y with
      | nil =>
        cases y with
        | nil => simp at hi
        | cons => simp at hl
      | cons a x ih =>
        cases y with
        | nil => simp at hl
        | cons b y =>
          show hadamardTermF α (.real a) (.real b) + sumZipF _ (x.map .real) (y.map .real) = _
          by_cases h0 : a = 0 ∨ b = 0
          · rw [hadamardTermF, if_pos ⟨hα, h0⟩, nan_add]
          · push Not at h0
            rw [ih (by simpa using hl) ?_, add_nan]
            simpa [h0.1.symm, h0.2.symm] using hi
    · rw [if_neg hi]
      refine sumZipF_real fun a ha b hb => ?_
      rw [hadamardTermF, if_neg]
      rintro ⟨h1, rfl | rfl⟩
      · exact hi ⟨h1, .inl ha⟩
      · exact hi ⟨h1, .inr hb⟩
  | poly => simp only [NumKernel.evalF, NumKernel.eval, dotF_real, real_mul, real_add, powF]
  | gaussian σ γ =>
    simp only [NumKernel.evalF, NumKernel.eval]
    rw [sumZipF_real (g := fun a b => (a - b) ^ 2) fun a _ b _ => by simp [sq], sqrt_real _ (sumZip_sq_nonneg x y), real_mul, real_mul, ← sq]
    rfl
  | laplacian γ =>
    simp only [NumKernel.evalF, NumKernel.eval]
    rw [sumZipF_real (g := fun a b => |a - b|) fun a _ b _ => rfl]
    rfl
  | chi2 γ =>
    simp only [NumKernel.evalF, NumKernel.eval]
    have hneg : ∀ x : List ℝ, (∃ a ∈ x.map F.real, F.lt a 0) ↔ ∃ a ∈ x, a < 0 := fun x => by
      simp [F.lt, zero_def]
    rw [sumZipF_real fun a _ b _ => chi2TermF_real a b]
    by_cases h : (∃ a ∈ x, a < 0) ∨ ∃ a ∈ y, a < 0
    · rw [if_pos h, if_pos (by rwa [hneg, hneg])]
    · rw [if_neg h, if_neg (by rwa [hneg, hneg])]
      rfl
  | sigmoid => simp only [NumKernel.evalF, NumKernel.eval, dotF_real, real_mul, real_add]; rfl
  | linear => simp only [NumKernel.evalF, NumKernel.eval, dotF_real]

theorem evalF_nan {k : NumKernel} (hk : k.Propagates) {x y : List F} (hl : x.length = y.length) (h : .nan ∈ x ∨ .nan ∈ y) :
    k.evalF x y = .ok .nan := by
  cases k with
  | hadamard => exact hk.elim
  | poly d γ b =>
    simp only [NumKernel.evalF, dotF_nan hl h, mul_nan, add_nan, powF]
    rw [if_neg hk]
  | gaussian σ γ =>
    simp only [NumKernel.evalF]
    rw [sumZipF_nan (fun _ => rfl) (fun v => by rw [sub_nan]; rfl) hl h]
    rfl
  | laplacian γ =>
    simp only [NumKernel.evalF]
    rw [sumZipF_nan (fun _ => rfl) (fun v => by rw [sub_nan]; rfl) hl h]
    rfl
  | chi2 => exact hk.elim
  | sigmoid => simp only [NumKernel.evalF, dotF_nan hl h, mul_nan, add_nan]; rfl
  | linear => simp only [NumKernel.evalF, dotF_nan hl h]

/-- summands that are left out when a value is missing -/
theorem sumZipF_present {f : F → F → F} (h1 : ∀ v, f .nan v = 0) (h2 : ∀ v, f v .nan = 0) : ∀ x y : List F,
    sumZipF f x y = sumZipF f (((bothPresent x y).map (·.1)).map .real) (((bothPresent x y).map (·.2)).map .real)
  | [], _ => by simp [sumZipF, bothPresent]
  | _ :: _, [] => by simp [sumZipF, bothPresent]
  | a :: x, b :: y => by
    have ih := sumZipF_present h1 h2 x y
    have hz : ∀ v : F, 0 + v = v := fun v => by cases v <;> simp [zero_def]
    rw [sumZipF_cons]
    rcases a with a | _
    · rcases b with b | _
      · rw [ih]; rfl
      · rw [h2, hz, ih]; rfl
    · rw [h1, hz, ih]; rfl

theorem evalF_hadamard (α : ℝ) (x y : List F) : (NumKernel.hadamard α).evalF x y =
    (NumKernel.hadamard α).eval ((bothPresent x y).map (·.1)) ((bothPresent x y).map (·.2)) := by
  rw [← evalF_real _ (by simp)]
  simp only [NumKernel.evalF]
  rw [sumZipF_present (fun _ => rfl) (fun v => by cases v <;> rfl)]

theorem mem_bothPresent {x y : List F} {p : ℝ × ℝ} (h : p ∈ bothPresent x y) : .real p.1 ∈ x ∧ .real p.2 ∈ y := by
  obtain ⟨⟨a, b⟩, hq, e⟩ := List.mem_filterMap.1 h
  have := List.of_mem_zip hq
  rcases a with a | _ <;> rcases b with b | _ <;> simp at e
  subst e
  exact this

theorem not_neg_iff (x : List F) : (¬ ∃ a ∈ x, F.lt a 0) ↔ NonNegF x := by
  constructor
  · intro h a ha
    by_contra hn
    exact h ⟨_, ha, by simpa [F.lt, zero_def] using hn⟩
  · rintro h ⟨a | _, ha, hn⟩
    · exact absurd (h a ha) (not_le.2 hn)
    · exact hn

theorem evalF_chi2 (γ : ℝ) {x y : List F} (hx : NonNegF x) (hy : NonNegF y) : (NumKernel.chi2 γ).evalF x y =
    (NumKernel.chi2 γ).eval ((bothPresent x y).map (·.1)) ((bothPresent x y).map (·.2)) := by
  rw [← evalF_real _ (by simp)]
  simp only [NumKernel.evalF]
  rw [if_neg (by rw [not_or]; exact ⟨(not_neg_iff _).2 hx, (not_neg_iff _).2 hy⟩), if_neg,
    sumZipF_present (fun _ => rfl) (fun v => by rw [chi2TermF, sub_nan]; rfl)]
  rw [not_or, not_neg_iff, not_neg_iff]
  constructor
  · intro a ha
    simp only [List.map_map, List.mem_map, Function.comp_apply, F.real.injEq] at ha
    obtain ⟨p, hp, rfl⟩ := ha
    exact hx _ (mem_bothPresent hp).1
  · intro a ha
    simp only [List.map_map, List.mem_map, Function.comp_apply, F.real.injEq] at ha
    obtain ⟨p, hp, rfl⟩ := ha
    exact hy _ (mem_bothPresent hp).2

theorem evalF_chi2_neg (γ : ℝ) {x y : List F} (h : ¬ (NonNegF x ∧ NonNegF y)) : (NumKernel.chi2 γ).evalF x y = .error .chi2Negative := by
  simp only [NumKernel.evalF]
  rw [if_pos]
  rw [← not_neg_iff, ← not_neg_iff] at h
  by_contra hn
  exact h (not_or.1 hn)

theorem present_sum {g : ℝ → ℝ → ℝ} (h1 : ∀ v, g 0 v = 0) (h2 : ∀ v, g v 0 = 0) : ∀ x y : List F,
    sumZip g ((bothPresent x y).map (·.1)) ((bothPresent x y).map (·.2)) = sumZip g (imputed 0 x) (imputed 0 y)
  | [], _ => by simp [sumZip, bothPresent, imputed]
  | _ :: _, [] => by simp [sumZip, bothPresent, imputed]
  | a :: x, b :: y => by
    have ih := present_sum h1 h2 x y
    have hc : ∀ (a b : ℝ) (x y : List ℝ), sumZip g (a :: x) (b :: y) = g a b + sumZip g x y := fun _ _ _ _ => List.sum_cons
    rcases a with a | _
    · rcases b with b | _
      · show sumZip g (a :: _) (b :: _) = sumZip g (a :: imputed 0 x) (b :: imputed 0 y)
        rw [hc, hc, ← ih]; rfl
      · show sumZip g _ _ = sumZip g (a :: imputed 0 x) (0 :: imputed 0 y)
        rw [hc, h2, zero_add, ← ih]; rfl
    · show sumZip g _ _ = sumZip g (0 :: imputed 0 x) (imputed 0 (b :: y))
      rw [show imputed 0 (b :: y) = (match b with | .real a => a | .nan => 0) :: imputed 0 y from rfl, hc, h1, zero_add, ← ih]
      rfl

theorem evalF_hadamard_zero {α : ℝ} (hα : 0 < α) (x y : List F) : (NumKernel.hadamard α).evalF x y =
    (NumKernel.hadamard α).eval (imputed 0 x) (imputed 0 y) := by
  have h0 : ∀ v, hadamardTerm α 0 v = 0 := fun v => by simp [hadamardTerm, Real.zero_rpow hα.ne']
  have h0' : ∀ v, hadamardTerm α v 0 = 0 := fun v => by simp [hadamardTerm, Real.zero_rpow hα.ne']
  have hi : ∀ x y, ¬ hadamardInfinite α x y := fun x y h => absurd h.1 (not_lt.2 hα.le)
  rw [evalF_hadamard]
  simp only [NumKernel.eval]
  rw [if_neg (hi _ _), if_neg (hi _ _), present_sum h0 h0']

/-! ### normalisation and centering -/

/-- products of three matrices, the middle one with a NaN -/
theorem matmul_nan {n m n' m' : Nat} (D : Fin n' → Fin n → F) (K : Fin n → Fin m → F) (E : Fin m → Fin m' → F) {r : Fin n} {c : Fin m} (h : K r c = .nan)
    (i : Fin n') (j : Fin m') : matmul (matmul D K) E i j = .nan := by
  refine sum_nan _ c ?_
  have : matmul D K i c = .nan := sum_nan _ r (by rw [h, mul_nan])
  rw [this, nan_mul]

theorem normalizeKm_nan {n : Nat} (K : Fin n → Fin n → F) {r c : Fin n} (h : K r c = .nan) {method : String} (hm : method.toLower = "cosine") :
    ((∃ i, isClose (K i i) 0) → normalizeKm ⟨n, n, K⟩ method = .error .kmNorm) ∧
    ((¬ ∃ i, isClose (K i i) 0) → normalizeKm ⟨n, n, K⟩ method = .ok ⟨n, n, fun _ _ => .nan⟩) := by
  have e : normalizeKm ⟨n, n, K⟩ method = (normalizeSquare K method).map fun N => ⟨n, n, N⟩ := by
    rw [normalizeKm, dif_pos rfl]; rfl
  rw [e]
  unfold normalizeSquare
  rw [if_pos hm]
  refine ⟨fun hz => by rw [if_pos hz]; rfl, fun hz => ?_⟩
  rw [if_neg hz]
  show Except.ok _ = Except.ok _
  congr 2
  funext i j
  exact matmul_nan _ _ _ h i j

theorem normalizeKm2_nan {n m : Nat} (K : Fin n → Fin m → F) {r : Fin n} {c : Fin m} (h : K r c = .nan) {dx dy : List F} (hx : dx.length = n)
    (hy : dy.length = m) {method : String} (hm : method.toLower = "cosine") :
    ((∃ d ∈ dx, isClose d 0) ∨ (∃ d ∈ dy, isClose d 0) → normalizeKm2 ⟨n, m, K⟩ dx dy method = .error .kmNorm) ∧
    (¬ ((∃ d ∈ dx, isClose d 0) ∨ (∃ d ∈ dy, isClose d 0)) → normalizeKm2 ⟨n, m, K⟩ dx dy method = .ok ⟨n, m, fun _ _ => .nan⟩) := by
  unfold normalizeKm2
  dsimp only
  rw [if_neg (by simp [hx, hy]), if_pos hm]
  refine ⟨fun hz => by rw [if_pos hz], fun hz => ?_⟩
  rw [if_neg hz]
  congr 2
  funext i j
  exact matmul_nan _ _ _ h i j

theorem centerKm_all_nan {n : Nat} (K : Fin n → Fin n → F) {r c : Fin n} (h : K r c = .nan) : centerKm ⟨n, n, K⟩ = .ok ⟨n, n, fun _ _ => .nan⟩ := by
  rw [centerKm, if_pos rfl]
  congr 2
  funext i j
  exact matmul_nan _ _ _ h i j

end KMethods
