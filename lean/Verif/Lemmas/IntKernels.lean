import Verif.Spec.IntKernels
/-!
# Integer arithmetic of numpy
-/
namespace KMethods

theorem IntType.wrap_of_inRange {t : IntType} {v : ℤ} (ht : 0 < t.bits) (h : t.InRange v) : t.wrap v = v := by
  unfold IntType.InRange at h
  unfold IntType.wrap
  have hp : (2:ℤ) ^ t.bits = 2 ^ (t.bits - 1) + 2 ^ (t.bits - 1) := by
    conv_lhs => rw [show t.bits = t.bits - 1 + 1 by omega, pow_succ]
    ring
  split at h
  · rename_i hs
    rw [if_pos hs, Int.emod_eq_of_lt (by linarith) (by linarith)]
    ring
  · rename_i hs
    rw [if_neg hs, Int.emod_eq_of_lt h.1 h.2]

theorem IntType.wrap_inRange {t : IntType} (ht : 0 < t.bits) (v : ℤ) : t.InRange (t.wrap v) := by
  unfold IntType.InRange IntType.wrap
  have hp : (2:ℤ) ^ t.bits = 2 ^ (t.bits - 1) + 2 ^ (t.bits - 1) := by
    conv_lhs => rw [show t.bits = t.bits - 1 + 1 by omega, pow_succ]
    ring
  have hpos : (0:ℤ) < 2 ^ t.bits := by positivity
  split
  · have h1 := Int.emod_nonneg (v + 2 ^ (t.bits - 1)) hpos.ne'
    have h2 := Int.emod_lt_of_pos (v + 2 ^ (t.bits - 1)) hpos
    constructor <;> linarith
  · exact ⟨Int.emod_nonneg v hpos.ne', Int.emod_lt_of_pos v hpos⟩

theorem IntType.wrap_modEq (t : IntType) (v : ℤ) : (2:ℤ) ^ t.bits ∣ v - t.wrap v := by
  unfold IntType.wrap
  split
  · rw [show v - ((v + 2 ^ (t.bits - 1)) % 2 ^ t.bits - 2 ^ (t.bits - 1)) = (v + 2 ^ (t.bits - 1)) - (v + 2 ^ (t.bits - 1)) % 2 ^ t.bits by ring]
    exact Int.dvd_self_sub_emod
  · exact Int.dvd_self_sub_emod

theorem zipWith_congr_zip {α β γ : Type} {f g : α → β → γ} : ∀ {x : List α} {y : List β}, (∀ p ∈ x.zip y, f p.1 p.2 = g p.1 p.2) →
    List.zipWith f x y = List.zipWith g x y
  | [], _, _ => rfl
  | _ :: _, [], _ => rfl
  | a :: x, b :: y, h => by
    rw [List.zipWith_cons_cons, List.zipWith_cons_cons, h (a, b) (by simp), zipWith_congr_zip fun p hp => h p (by simp [hp])]

theorem sumZip_cast {f : ℝ → ℝ → ℝ} {g : ℤ → ℤ → ℤ} (h : ∀ a b : ℤ, f a b = g a b) : ∀ x y : List ℤ,
    sumZip f (x.map (↑)) (y.map (↑)) = ((List.zipWith g x y).sum : ℤ)
  | [], _ => by simp [sumZip]
  | _ :: _, [] => by simp [sumZip]
  | a :: x, b :: y => by
    have := sumZip_cast h x y
    unfold sumZip at this ⊢
    rw [List.map_cons, List.map_cons, List.zipWith_cons_cons, List.zipWith_cons_cons, List.sum_cons, List.sum_cons, this, h, Int.cast_add]

theorem sumZip_cast_real {f : ℝ → ℝ → ℝ} {g : ℤ → ℤ → ℝ} : ∀ {x y : List ℤ}, (∀ p ∈ x.zip y, f p.1 p.2 = g p.1 p.2) →
    sumZip f (x.map (↑)) (y.map (↑)) = (List.zipWith g x y).sum
  | [], _, _ => by simp [sumZip]
  | _ :: _, [], _ => by simp [sumZip]
  | a :: x, b :: y, h => by
    have := sumZip_cast_real (f := f) (g := g) (x := x) (y := y) fun p hp => h p (by simp [hp])
    unfold sumZip at this ⊢
    rw [List.map_cons, List.map_cons, List.zipWith_cons_cons, List.zipWith_cons_cons, List.sum_cons, List.sum_cons, this, h (a, b) (by simp)]

theorem dot_cast (x y : List ℤ) : dot (x.map (↑)) (y.map (↑)) = ((List.zipWith (· * ·) x y).sum : ℤ) :=
  sumZip_cast (fun a b => by push_cast; rfl) x y

theorem map_zipWith' {α β γ δ : Type} (f : γ → δ) (g : α → β → γ) : ∀ (x : List α) (y : List β), (List.zipWith g x y).map f = List.zipWith (fun a b => f (g a b)) x y
  | [], _ => rfl
  | _ :: _, [] => rfl
  | a :: x, b :: y => by rw [List.zipWith_cons_cons, List.map_cons, List.zipWith_cons_cons, map_zipWith' f g x y]

theorem hadamardIntTerm_fits {t : IntType} (ht : 0 < t.bits) {n : Nat} (a b : ℤ) (h1 : t.InRange |a|) (h2 : t.InRange |b|) (h3 : t.InRange (|a| ^ n))
    (h4 : t.InRange (|b| ^ n)) (h5 : t.InRange (|a| ^ n + |b| ^ n)) (h6 : t.InRange (2 * (|a| ^ n + |b| ^ n))) (h7 : t.InRange (|a| ^ n * |b| ^ n)) :
    hadamardTerm (n : ℝ) a b = hadamardIntTerm t n a b := by
  unfold hadamardTerm hadamardIntTerm intAbs
  simp only [IntType.wrap_of_inRange ht h1, IntType.wrap_of_inRange ht h2, IntType.wrap_of_inRange ht h3, IntType.wrap_of_inRange ht h4,
    IntType.wrap_of_inRange ht h5, IntType.wrap_of_inRange ht h6, IntType.wrap_of_inRange ht h7]
  simp only [Real.rpow_natCast]
  have hc : (2 * (|(a:ℝ)| ^ n + |(b:ℝ)| ^ n)) = ((2 * (|a| ^ n + |b| ^ n) : ℤ) : ℝ) := by push_cast; rfl
  rw [hc]
  by_cases h : 0 < 2 * (|a| ^ n + |b| ^ n)
  · rw [if_pos (by exact_mod_cast h), if_pos h]
    push_cast
    rfl
  · rw [if_neg (by exact_mod_cast h), if_neg h]

/-- the general agreement -/
theorem IntKernel.eval_fits {t : IntType} (ht : 0 < t.bits) {k : IntKernel} {x y : List ℤ} (h : k.Fits t x y) : k.eval t x y = k.onFloats x y := by
  rcases k with k | alpha
  · cases k with
    | hadamard α =>
      have hab : ∀ l : List ℤ, (∀ a ∈ l, t.InRange |a|) → l.map (fun a => (intAbs t a : ℝ)) = (l.map fun a : ℤ => (a : ℝ)).map abs := by
        intro l hl
        rw [List.map_map]
        refine List.map_congr_left fun a ha => ?_
        show ((t.wrap |a| : ℤ) : ℝ) = |(a : ℝ)|
        rw [IntType.wrap_of_inRange ht (hl a ha), Int.cast_abs]
      show NumKernel.eval (.hadamard α) _ _ = NumKernel.eval (.hadamard α) _ _
      rw [hab x fun a ha => h a (List.mem_append_left _ ha), hab y fun a ha => h a (List.mem_append_right _ ha)]
      unfold NumKernel.eval
      have h0 : ∀ l : List ℝ, (0 : ℝ) ∈ l.map abs ↔ (0 : ℝ) ∈ l := fun l => by
        simp [List.mem_map, abs_eq_zero]
      have hinf : hadamardInfinite α ((x.map fun a : ℤ => (a : ℝ)).map abs) ((y.map fun a : ℤ => (a : ℝ)).map abs) ↔
          hadamardInfinite α (x.map fun a : ℤ => (a : ℝ)) (y.map fun a : ℤ => (a : ℝ)) := by
        unfold hadamardInfinite
        rw [h0, h0]
      have hsum : ∀ u v : List ℝ, sumZip (hadamardTerm α) (u.map abs) (v.map abs) = sumZip (hadamardTerm α) u v := by
        intro u v
        unfold sumZip
        rw [List.zipWith_map]
        congr 2
        funext a b
        unfold hadamardTerm
        rw [abs_abs, abs_abs]
      by_cases hc : hadamardInfinite α (x.map fun a : ℤ => (a : ℝ)) (y.map fun a : ℤ => (a : ℝ))
      · simp only [if_pos (hinf.2 hc), if_pos hc]
      · simp only [if_neg (mt hinf.1 hc), if_neg hc, hsum]
    | poly d γ b =>
      show Except.ok (intPow (b + γ * ((intDot t x y : ℤ) : ℝ)) d) = .ok (intPow (b + γ * dot (x.map (↑)) (y.map (↑))) d)
      rw [dot_cast, intDot, IntType.wrap_of_inRange ht h]
    | gaussian σ γ =>
      show Except.ok (F.real (Real.exp (-γ * Real.sqrt ((intSub t x y).map fun d : ℤ => (d : ℝ) ^ 2).sum ^ 2))) =
        .ok (.real (Real.exp (-γ * Real.sqrt (sumZip (fun a b => (a - b) ^ 2) (x.map (↑)) (y.map (↑))) ^ 2)))
      rw [sumZip_cast_real (g := fun a b => ((t.wrap (a - b) : ℤ) : ℝ) ^ 2) (fun p hp => by
        rw [IntType.wrap_of_inRange ht (h p hp)]; push_cast; rfl)]
      rw [intSub, map_zipWith']
    | laplacian γ =>
      show Except.ok (F.real (Real.exp (-γ * ((intSum t ((intSub t x y).map (intAbs t)) : ℤ) : ℝ)))) =
        .ok (.real (Real.exp (-γ * sumZip (fun a b => |a - b|) (x.map (↑)) (y.map (↑)))))
      rw [sumZip_cast (g := fun a b => |a - b|) (fun a b => by push_cast; rfl), intSub, map_zipWith']
      rw [zipWith_congr_zip (g := fun a b => |a - b|) (fun p hp => by
        show t.wrap |t.wrap (p.1 - p.2)| = _
        rw [IntType.wrap_of_inRange ht (h.1 p hp).1, IntType.wrap_of_inRange ht (h.1 p hp).2])]
      rw [intSum, IntType.wrap_of_inRange (show 0 < 64 by decide) h.2]
    | chi2 γ => rfl
    | sigmoid γ o =>
      show Except.ok (F.real (Real.tanh (o + γ * ((intDot t x y : ℤ) : ℝ)))) = .ok (.real (Real.tanh (o + γ * dot (x.map (↑)) (y.map (↑)))))
      rw [dot_cast, intDot, IntType.wrap_of_inRange ht h]
    | linear =>
      show Except.ok (F.real ((intDot t x y : ℤ) : ℝ)) = .ok (.real (dot (x.map (↑)) (y.map (↑))))
      rw [dot_cast, intDot, IntType.wrap_of_inRange ht h]
  · obtain ⟨h0, h⟩ := h
    obtain ⟨n, rfl⟩ := Int.eq_ofNat_of_zero_le h0.le
    simp only [IntKernel.eval, IntKernel.onFloats, NumKernel.eval, Int.toNat_natCast]
    rw [if_neg (fun hc => by have := hc.1; omega), if_neg (fun hc => by have := hc.1; push_cast at this; have : (0:ℝ) ≤ n := Nat.cast_nonneg n; linarith)]
    rw [sumZip_cast_real (g := hadamardIntTerm t n) (fun p hp => by
      obtain ⟨h1, h2, h3, h4, h5, h6, h7⟩ := h p hp
      rw [show (((n : ℤ) : ℝ)) = (n : ℝ) by push_cast; rfl]
      exact hadamardIntTerm_fits ht p.1 p.2 h1 h2 h3 h4 h5 h6 h7)]

theorem IntType.inRange_unique {t : IntType} (ht : 0 < t.bits) {a b : ℤ} (ha : t.InRange a) (hb : t.InRange b) (h : (2:ℤ) ^ t.bits ∣ a - b) : a = b := by
  have hp : (2:ℤ) ^ t.bits = 2 ^ (t.bits - 1) + 2 ^ (t.bits - 1) := by
    conv_lhs => rw [show t.bits = t.bits - 1 + 1 by omega, pow_succ]
    ring
  have hlt : |a - b| < 2 ^ t.bits := by
    unfold IntType.InRange at ha hb
    rw [abs_lt]
    split at ha
    · rename_i hs
      rw [if_pos hs] at hb
      constructor <;> linarith [ha.1, ha.2, hb.1, hb.2]
    · rename_i hs
      rw [if_neg hs] at hb
      constructor <;> linarith [ha.1, ha.2, hb.1, hb.2]
  have := Int.eq_zero_of_abs_lt_dvd h hlt
  linarith

theorem IntType.wrap_neg_abs {t : IntType} (ht : 0 < t.bits) (hs : t.signed = true) (d : ℤ) : |t.wrap (-d)| = |t.wrap d| := by
  have hp : (2:ℤ) ^ t.bits = 2 ^ (t.bits - 1) + 2 ^ (t.bits - 1) := by
    conv_lhs => rw [show t.bits = t.bits - 1 + 1 by omega, pow_succ]
    ring
  have h1 := IntType.wrap_inRange ht d
  have h1' := h1
  unfold IntType.InRange at h1'
  rw [if_pos hs] at h1'
  by_cases hm : t.wrap d = -2 ^ (t.bits - 1)
  · have : t.wrap (-d) = t.wrap d := by
      refine IntType.inRange_unique ht (IntType.wrap_inRange ht _) h1 ?_
      have e1 := IntType.wrap_modEq t (-d)
      have e2 := IntType.wrap_modEq t d
      have : t.wrap (-d) - t.wrap d = -(-d - t.wrap (-d)) - (d - t.wrap d) - 2 * t.wrap d := by ring
      rw [this]
      refine dvd_sub (dvd_sub ((dvd_neg).2 e1) e2) ?_
      rw [hm]
      exact ⟨-1, by rw [hp]; ring⟩
    rw [this]
  · have : t.wrap (-d) = -t.wrap d := by
      refine IntType.inRange_unique ht (IntType.wrap_inRange ht _) ?_ ?_
      · unfold IntType.InRange
        rw [if_pos hs]
        have : -2 ^ (t.bits - 1) < t.wrap d := lt_of_le_of_ne h1'.1 (Ne.symm hm)
        constructor <;> linarith [h1'.2]
      · have e1 := IntType.wrap_modEq t (-d)
        have e2 := IntType.wrap_modEq t d
        have : t.wrap (-d) - -t.wrap d = -(-d - t.wrap (-d)) - (d - t.wrap d) := by ring
        rw [this]
        exact dvd_sub ((dvd_neg).2 e1) e2
    rw [this, abs_neg]

theorem zipWith_swap {α β γ : Type} (f : α → β → γ) : ∀ (x : List α) (y : List β), List.zipWith f x y = List.zipWith (fun b a => f a b) y x
  | [], [] => rfl
  | [], _ :: _ => rfl
  | _ :: _, [] => rfl
  | a :: x, b :: y => by rw [List.zipWith_cons_cons, List.zipWith_cons_cons, zipWith_swap f x y]

theorem intDot_comm (t : IntType) (x y : List ℤ) : intDot t x y = intDot t y x := by
  unfold intDot
  rw [zipWith_swap]
  simp only [mul_comm]

theorem hadamardIntTerm_comm (t : IntType) (n : Nat) (a b : ℤ) : hadamardIntTerm t n a b = hadamardIntTerm t n b a := by
  unfold hadamardIntTerm
  simp only [add_comm (t.wrap (intAbs t a ^ n)), mul_comm (t.wrap (intAbs t a ^ n))]

end KMethods
