import Verif.Lemmas.Scale
import Verif.Lemmas.Coerce
import Verif.Lemmas.Kernels
/-!
# Properties of `utils.py`
-/
namespace KMethods

/-! ### C44 min_max_scale -/

/-- **C44** an array all of whose values are within the tolerance becomes an array of zeros of the same length -/
theorem C44_constant {xs : List ℝ} (h : xs ≠ []) (hc : ∀ a ∈ xs, ∀ b ∈ xs, a - b ≤ 1e-8) :
    minMaxScale (xs.map .real) = .ok (xs.map fun _ => 0) := by
  obtain ⟨m, M, hm, hM, -, h' | h'⟩ := minMaxScale_real h
  · exact h'.2
  · exact absurd (hc M hM m hm) (not_le.2 h'.1)

/-- **C44** otherwise every value is mapped by an increasing affine function, which takes values in `[0, 1]` on the array and attains both 0
and 1 -/
theorem C44_scaled {xs : List ℝ} {a b : ℝ} (ha : a ∈ xs) (hb : b ∈ xs) (hab : 1e-8 < a - b) :
    ∃ p q : ℝ, 0 < p ∧ minMaxScale (xs.map .real) = .ok (xs.map fun v => .real (p * v + q)) ∧
      (∀ v ∈ xs, 0 ≤ p * v + q ∧ p * v + q ≤ 1) ∧ (∃ v ∈ xs, p * v + q = 0) ∧ ∃ v ∈ xs, p * v + q = 1 := by
  obtain ⟨m, M, hm, hM, hb', h' | h'⟩ := minMaxScale_real (List.ne_nil_of_mem ha)
  · exfalso
    have := (hb' a ha).2
    have := (hb' b hb).1
    linarith [h'.1]
  · have h0 : 0 < M - m := lt_trans (by norm_num) h'.1
    have e : ∀ v, (M - m)⁻¹ * v + -m * (M - m)⁻¹ = (v - m) / (M - m) := fun v => by rw [div_eq_mul_inv]; ring
    refine ⟨(M - m)⁻¹, -m * (M - m)⁻¹, inv_pos.2 h0, ?_, ?_, ⟨m, hm, ?_⟩, ⟨M, hM, ?_⟩⟩
    · rw [h'.2]
      simp only [e]
    · intro v hv
      rw [e]
      obtain ⟨h1, h2⟩ := hb' v hv
      exact ⟨div_nonneg (sub_nonneg.2 h1) h0.le, (div_le_one h0).2 (by linarith)⟩
    · rw [e, sub_self, zero_div]
    · rw [e, div_self h0.ne']

/-- **C44** an empty array raises `ValueError`; an array with an entry that is not finite becomes one without finite entries -/
theorem C44_empty_nan : minMaxScale [] = .error .valueError ∧
    ∀ l : List F, .nan ∈ l → minMaxScale l = .ok (l.map fun _ => .nan) := by
  refine ⟨rfl, fun l hl => ?_⟩
  cases l with
  | nil => simp at hl
  | cons x l =>
    rw [minMaxScale, foldl_min_nan x l hl]
    have hs : ∀ v : F, v - F.nan = .nan := by intro v; cases v <;> rfl
    have hd : ∀ v : F, F.nan / v = .nan := by intro v; cases v <;> rfl
    simp only [hs, hd]
    exact if_neg id

example : minMaxScale [.real 3, .real 1, .real 5] = .ok [.real 0.5, .real 0, .real 1] := by
  obtain ⟨p, q, hp0, h, hb, ⟨v, hv, hv0⟩, w, hw, hw1⟩ := C44_scaled (xs := [3, 1, 5]) (a := 5) (b := 1) (by simp) (by simp) (by norm_num)
  simp only [List.mem_cons, List.not_mem_nil, or_false, forall_eq_or_imp, forall_eq] at hb hv hw
  have hp : p = 0.25 ∧ q = -0.25 := by
    rcases hv with rfl | rfl | rfl <;> rcases hw with rfl | rfl | rfl <;> constructor <;> linarith
  rw [hp.1, hp.2] at h
  refine Eq.trans h ?_
  norm_num

/-! ### C52 shape coercion -/

/-- **C52** `ensure_ndarray_1D` accepts exactly the arrays of shape `(n, 1, …, 1)` whose dtype is as required or can be converted to float, and
returns the 1-D array of the same values -/
theorem C52_1D {α : Type} (a r : NdArray α) (w : WantDType) :
    ensureNdarray1D a w = .ok r ↔
      ∃ n k, a.shape = n :: List.replicate k 1 ∧ (w.satisfiedBy a.dtype = true ∨ a.dtype.castable = true) ∧
        r = ⟨castTo w a.dtype, [n], a.data⟩ := by
  unfold ensureNdarray1D
  rw [ensureNdarraySize_iff, squeezeAbove_zero_length]
  constructor
  · rintro ⟨⟨n, k, h⟩, h2, h3⟩
    refine ⟨n, k, h, h2, ?_⟩
    rw [h3, h]
    simp only [squeezeAbove_zero, filter_ne_one_nil.2 ⟨k, rfl⟩]
  · rintro ⟨n, k, h, h2, h3⟩
    refine ⟨⟨n, k, h⟩, h2, ?_⟩
    rw [h3, h]
    simp only [squeezeAbove_zero, filter_ne_one_nil.2 ⟨k, rfl⟩]

/-- **C52** `ensure_ndarray_2D` accepts exactly the arrays of shape `(n, m, 1, …, 1)` with the required number of columns, if one is required,
whose dtype is as required or can be converted to float, and returns the 2-D array of the same values -/
theorem C52_2D {α : Type} (a r : NdArray α) (w : WantDType) (cols : Option Nat) :
    ensureNdarray2D a w cols = .ok r ↔
      ∃ n m k, a.shape = n :: m :: List.replicate k 1 ∧ (∀ c, cols = some c → m = c) ∧
        (w.satisfiedBy a.dtype = true ∨ a.dtype.castable = true) ∧ r = ⟨castTo w a.dtype, [n, m], a.data⟩ := by
  unfold ensureNdarray2D
  constructor
  · intro h
    rcases hb : ensureNdarraySize { a with shape := squeezeAbove 1 a.shape } w 2 with e | b
    · rw [hb] at h; cases h
    · rw [hb] at h
      obtain ⟨h1, h2, h3⟩ := (ensureNdarraySize_iff _ _ _ _).1 hb
      obtain ⟨n, m, k, hs⟩ := (squeezeAbove_one_length _).1 h1
      have hb' : b = ⟨castTo w a.dtype, [n, m], a.data⟩ := by
        rw [h3, hs]
        simp only [squeezeAbove_one, filter_ne_one_nil.2 ⟨k, rfl⟩]
      subst hb'
      cases cols with
      | none =>
        exact ⟨n, m, k, hs, by simp, h2, (Except.ok.inj h).symm⟩
      | some c =>
        change (if some m ≠ some c then _ else _) = _ at h
        split_ifs at h with hc
        · rw [not_not] at hc
          refine ⟨n, m, k, hs, ?_, h2, (Except.ok.inj h).symm⟩
          intro c' hc'
          exact Option.some.inj (hc.trans hc')
  · rintro ⟨n, m, k, hs, hc, h2, rfl⟩
    have hb : ensureNdarraySize { a with shape := squeezeAbove 1 a.shape } w 2 = .ok ⟨castTo w a.dtype, [n, m], a.data⟩ := by
      rw [ensureNdarraySize_iff]
      refine ⟨(squeezeAbove_one_length _).2 ⟨n, m, k, hs⟩, h2, ?_⟩
      rw [hs]
      simp only [squeezeAbove_one, filter_ne_one_nil.2 ⟨k, rfl⟩]
    rw [hb]
    cases cols with
    | none => rfl
    | some c =>
      show (if some m ≠ some c then _ else _) = _
      rw [if_neg (not_not.2 (congrArg some (hc c rfl)))]
      rfl

/-- **C52** everything else raises `ValueError` -/
theorem C52_errors {α : Type} (a : NdArray α) (w : WantDType) (cols : Option Nat) (e : PyErr) :
    (ensureNdarray1D a w = .error e → e = .valueError) ∧ (ensureNdarray2D a w cols = .error e → e = .valueError) := by
  refine ⟨ensureNdarraySize_error, fun h => ?_⟩
  unfold ensureNdarray2D at h
  rcases hb : ensureNdarraySize { a with shape := squeezeAbove 1 a.shape } w 2 with e' | b
  · rw [hb] at h
    rw [← Except.error.inj h]
    exact ensureNdarraySize_error hb
  · rw [hb] at h
    cases cols with
    | none => cases h
    | some c =>
      change (if _ then _ else _) = _ at h
      split_ifs at h
      · exact (Except.error.inj h).symm
      · cases h

/-- **C52** `check_input_arrays` accepts exactly two arrays of shapes `(n, 1, …, 1)` with the same `n` -/
theorem C52_check_input_arrays {α : Type} (x y : NdArray α) (w : WantDType) (p q : NdArray α) :
    checkInputArrays x y w = .ok (p, q) ↔
      ∃ n, ensureNdarray1D x w = .ok p ∧ ensureNdarray1D y w = .ok q ∧ p.shape = [n] ∧ q.shape = [n] := by
  unfold checkInputArrays
  rcases hx : ensureNdarray1D x w with e | x'
  · simp [bind, Except.bind]
  · rcases hy : ensureNdarray1D y w with e | y'
    · simp [bind, Except.bind]
    · obtain ⟨n, k, -, -, hx'⟩ := (C52_1D x x' w).1 hx
      obtain ⟨m, l, -, -, hy'⟩ := (C52_1D y y' w).1 hy
      show (if x'.shape.prod ≠ y'.shape.prod then _ else _) = _ ↔ _
      have hp : x'.shape = [n] := by rw [hx']
      have hq : y'.shape = [m] := by rw [hy']
      rw [hp, hq]
      simp only [List.prod_cons, List.prod_nil, Nat.mul_one, Except.ok.injEq]
      by_cases h : n = m
      · subst h
        rw [if_neg (not_not.2 rfl)]
        simp only [pure, Except.pure, Except.ok.injEq, Prod.mk.injEq]
        constructor
        · rintro ⟨rfl, rfl⟩; exact ⟨n, rfl, rfl, hp, hq⟩
        · rintro ⟨-, rfl, rfl, -, -⟩; exact ⟨rfl, rfl⟩
      · rw [if_pos h]
        simp only [reduceCtorEq, false_iff]
        rintro ⟨k, rfl, rfl, h1, h2⟩
        rw [hp] at h1
        rw [hq] at h2
        simp at h1 h2
        omega

/-- a column vector is accepted, a row vector is not; strings that are numbers are converted -/
example : ensureNdarray1D ⟨.int, [3, 1, 1], [4, 5, 6]⟩ .number = .ok ⟨.int, [3], [4, 5, 6]⟩ ∧
    ensureNdarray1D ⟨.int, [1, 3], [4, 5, 6]⟩ .number = .error .valueError ∧
    ensureNdarray2D ⟨.str true, [1, 3, 1], [4, 5, 6]⟩ .number (some 3) = .ok ⟨.float64, [1, 3], [4, 5, 6]⟩ ∧
    ensureNdarray2D ⟨.int, [1, 3, 1], [4, 5, 6]⟩ .number (some 2) = .error .valueError := ⟨rfl, rfl, rfl, rfl⟩

end KMethods
