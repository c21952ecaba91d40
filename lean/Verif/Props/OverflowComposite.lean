import Verif.Lemmas.OverflowComposite
import Verif.Lemmas.RoundExact
/-!
# C97: composite kernels and linear combinations do not hide an overflow

The intended property: in floating point arithmetic with overflow, a finite entry of a composite kernel or of a linear combination has only rounding errors; in particular all members are finite there. It is false
for `linear_combination` with `norm_weights` (`C97_violated`): if the sum of the weights overflows, all normalised weights are 0.
-/
namespace KMethods
open Rounding FloatFormat
variable {Φ : FloatFormat} {n m : Nat}

/-! ## composite kernels -/

/-- **C97** If an entry of a member is infinite or NaN, so is the entry of the composite kernel, whatever the other members and the weights are. -/
theorem C97_visible {c : Combine} {Ks : List (Fin n → Fin n → Dbl)} {A K : Fin n → Fin n → Dbl} (h : Φ.fit c Ks = .ok A) (hK : K ∈ Ks) {i j : Fin n} (hij : ¬ (K i j).Finite) :
    ¬ (A i j).Finite := by
  intro hf
  have e := hf.eq
  generalize (A i j).val = v at e
  refine hij ?_
  match c with
  | .sum none =>
    obtain rfl : _ = A := Except.ok.inj h
    exact (weightedSum_fin (by rw [List.length_replicate]) e).2.1 K hK
  | .sum (some w) =>
    simp only [FloatFormat.fit] at h
    split_ifs at h with hl
    obtain rfl := Except.ok.inj h
    exact (weightedSum_fin (not_not.1 hl) e).2.1 K hK
  | .product =>
    obtain rfl : _ = A := Except.ok.inj h
    rw [foldl_entry fun (x : Dbl) (M : Fin n → Fin n → Dbl) i j => Φ.rnd (.mulX x (M i j))] at e
    exact (foldl_mul_fin e).2.1 K hK
  | .average =>
    obtain rfl : _ = A := Except.ok.inj h
    obtain ⟨x, h1, -⟩ := rnd_fin e
    obtain ⟨y, h2, -⟩ := divX_fin h1
    rw [foldl_entry fun (x : Dbl) (M : Fin n → Fin n → Dbl) i j => Φ.rnd (.addX x (M i j))] at h2
    exact (foldl_add_fin h2).2.1 K hK
  | .weighted w =>
    simp only [FloatFormat.fit] at h
    split_ifs at h with hl
    obtain rfl := Except.ok.inj h
    exact (weightedSum_fin hl.symm e).2.1 K hK

/-- **C97** `SumKernel` and `WeightedAverageKernel` of `N` members: at a finite entry, all weights and the entries of all members are finite, and the error is at most `γ_(N+1)` times the sum of the absolute values. -/
theorem C97_sum {c : Combine} {w : List Dbl} {Ks : List (Fin n → Fin n → Dbl)} (hc : c.Weights Ks.length w) (hu : (Ks.length + 1 : Nat) * Φ.R.u < 1) :
    ∃ A, Φ.fit c Ks = .ok A ∧ ∀ i j v, A i j = .fin v → (∀ x ∈ w, x.Finite) ∧ (∀ K ∈ Ks, (K i j).Finite) ∧
      |v - entrySum w Ks i j| ≤ Φ.R.gamma (Ks.length + 1) * entrySumAbs w Ks i j := by
  have hl : w.length = Ks.length ∧ Φ.fit c Ks = .ok (Φ.weightedSum w Ks) := by
    generalize hN : Ks.length = N at hc
    cases hc with
    | plain => exact ⟨List.length_replicate, by rw [← hN]; rfl⟩
    | given => exact ⟨rfl, if_neg (not_not.2 hN.symm)⟩
    | weighted => exact ⟨rfl, if_pos hN⟩
  refine ⟨_, hl.2, fun i j v hv => ?_⟩
  obtain ⟨h1, h2, rfl⟩ := weightedSum_fin hl.1 hv
  exact ⟨h1, h2, (weightedSum_err i j hl.1).trans (mul_le_mul_of_nonneg_right (pow_w_le _ hu) (entrySumAbs_nonneg w Ks i j))⟩

/-- **C97** `AverageKernel`. -/
theorem C97_average {Ks : List (Fin n → Fin n → Dbl)} (hu : (Ks.length + 1 : Nat) * Φ.R.u < 1) :
    ∃ A, Φ.fit .average Ks = .ok A ∧ ∀ i j v, A i j = .fin v → Ks ≠ [] ∧ (∀ K ∈ Ks, (K i j).Finite) ∧
      |v - (Ks.map fun K => (K i j).val).sum / Ks.length| ≤ Φ.R.gamma (Ks.length + 1) * ((Ks.map fun K => |(K i j).val|).sum / Ks.length) := by
  refine ⟨_, rfl, fun i j v hv => ?_⟩
  obtain ⟨x, h1, rfl⟩ := rnd_fin hv
  obtain ⟨y, h2, h3⟩ := divX_fin h1
  rw [foldl_entry fun (x : Dbl) (M : Fin n → Fin n → Dbl) i j => Φ.rnd (.addX x (M i j))] at h2
  obtain ⟨-, h4, rfl⟩ := foldl_add_fin h2
  rcases h3 with ⟨z, hz, hz0, rfl⟩ | ⟨⟨s, hs⟩, -⟩
  · obtain rfl := Dbl.fin.inj hz
    have hpos : (0 : ℝ) < Ks.length := lt_of_le_of_ne (Nat.cast_nonneg _) (Ne.symm hz0)
    have hS := foldl_add_err (R := Φ.R) Ks (t := fun K => (K i j).val) (v := fun K => (K i j).val) (k := 0) (x := 0) (S := 0) (T := 0) (by simp) (by simp) fun p _ => by simp
    rw [zero_add, zero_add, zero_add] at hS
    have hle : |(Ks.map fun K => (K i j).val).sum| ≤ (Ks.map fun K => |(K i j).val|).sum := abs_sum_map_le Ks _
    refine ⟨fun hn => hz0 (by rw [hn]; simp), h4, ?_⟩
    have h5 := SumTree.fl_step (R := Φ.R) (k := Ks.length) (x := Ks.foldl (fun x K => Φ.R.fl (x + (K i j).val)) 0 / Ks.length) (S := (Ks.map fun K => (K i j).val).sum / Ks.length)
      (T := (Ks.map fun K => |(K i j).val|).sum / Ks.length)
      (by rw [← sub_div, abs_div, abs_of_pos hpos, ← mul_div_assoc]; exact div_le_div_of_nonneg_right hS hpos.le)
      (by rw [abs_div, abs_of_pos hpos]; exact div_le_div_of_nonneg_right hle hpos.le)
    exact h5.trans (mul_le_mul_of_nonneg_right (pow_w_le _ hu) (div_nonneg ((abs_nonneg _).trans hle) hpos.le))
  · cases hs

/-- **C97** `ProductKernel` of `N` members: the relative error of a finite entry is at most `γ_N`. -/
theorem C97_product {Ks : List (Fin n → Fin n → Dbl)} (hu : Ks.length * Φ.R.u < 1) :
    ∃ A, Φ.fit .product Ks = .ok A ∧ ∀ i j v, A i j = .fin v → (∀ K ∈ Ks, (K i j).Finite) ∧ |v - entryProd Ks i j| ≤ Φ.R.gamma Ks.length * |entryProd Ks i j| := by
  refine ⟨_, rfl, fun i j v hv => ?_⟩
  rw [foldl_entry fun (x : Dbl) (M : Fin n → Fin n → Dbl) i j => Φ.rnd (.mulX x (M i j))] at hv
  obtain ⟨-, h4, rfl⟩ := foldl_mul_fin hv
  exact ⟨h4, (foldl_mul_rel (Φ := Φ) Ks fun K => (K i j).val).err_gamma hu⟩

/-- **C97** The weights are checked; nothing else is rejected. -/
theorem C97_errors {c : Combine} {Ks : List (Fin n → Fin n → Dbl)} (e : PyErr) :
    Φ.fit c Ks = .error e ↔ e = .valueError ∧ ∃ w, (c = .sum (some w) ∨ c = .weighted w) ∧ w.length ≠ Ks.length := by
  match c with
  | .sum none => exact ⟨(fun h => by cases h), fun ⟨_, w, h, _⟩ => by rcases h with h | h <;> cases h⟩
  | .product => exact ⟨(fun h => by cases h), fun ⟨_, w, h, _⟩ => by rcases h with h | h <;> cases h⟩
  | .average => exact ⟨(fun h => by cases h), fun ⟨_, w, h, _⟩ => by rcases h with h | h <;> cases h⟩
  | .sum (some w) =>
    simp only [FloatFormat.fit]
    constructor
    · intro h
      split_ifs at h with hl
      exact ⟨(Except.error.inj h).symm, w, .inl rfl, hl⟩
    · rintro ⟨rfl, w', h | h, hl⟩
      · injection h with h
        injection h with h
        subst h
        exact if_pos hl
      · cases h
  | .weighted w =>
    simp only [FloatFormat.fit]
    constructor
    · intro h
      split_ifs at h with hl
      exact ⟨(Except.error.inj h).symm, w, .inr rfl, fun h => hl h.symm⟩
    · rintro ⟨rfl, w', h | h, hl⟩
      · cases h
      · injection h with h
        subst h
        exact if_neg fun h => hl h.symm

/-- **C97** Sums do not overflow at entries where twice the sum of the absolute values is not larger than the largest number. -/
theorem C97_sum_finite {c : Combine} {w : List Dbl} {Ks : List (Fin n → Fin n → Dbl)} (hc : c.Weights Ks.length w) (hu : 2 * ((Ks.length + 1 : Nat) * Φ.R.u) ≤ 1) :
    ∃ A, Φ.fit c Ks = .ok A ∧ ∀ i j, (∀ x ∈ w, x.Finite) → (∀ K ∈ Ks, (K i j).Finite) → 2 * entrySumAbs w Ks i j ≤ Φ.max → (A i j).Finite := by
  have hl : w.length = Ks.length ∧ Φ.fit c Ks = .ok (Φ.weightedSum w Ks) := by
    generalize hN : Ks.length = N at hc
    cases hc with
    | plain => exact ⟨List.length_replicate, by rw [← hN]; rfl⟩
    | given => exact ⟨rfl, if_neg (not_not.2 hN.symm)⟩
    | weighted => exact ⟨rfl, if_pos hN⟩
  exact ⟨_, hl.2, fun i j h1 h2 h3 => weightedSum_moderate hl.1 h1 h2 ((mul_le_mul_of_nonneg_right (w_pow_le_two hu) (entrySumAbs_nonneg w Ks i j)).trans h3)⟩

/-- **C97** Products do not overflow at entries where twice the product of the first members is never larger than the largest number. -/
theorem C97_product_finite {Ks : List (Fin n → Fin n → Dbl)} (hu : 2 * (Ks.length * Φ.R.u) ≤ 1) :
    ∃ A, Φ.fit .product Ks = .ok A ∧ ∀ i j, (∀ K ∈ Ks, (K i j).Finite) → (∀ L, L <+: Ks → 2 * |entryProd L i j| ≤ Φ.max) → (A i j).Finite := by
  refine ⟨_, rfl, fun i j hK hL => ?_⟩
  rw [foldl_entry fun (x : Dbl) (M : Fin n → Fin n → Dbl) i j => Φ.rnd (.mulX x (M i j))]
  obtain ⟨v, hv⟩ := foldl_mul_moderate (Φ := Φ) (L := Ks) (t := fun K => (K i j).val) (k := 0) (x := 1) (P := 1) (by simp) fun L h => by
    rw [one_mul, zero_add]
    exact (mul_le_mul_of_nonneg_right (w_pow_le_two hu) (abs_nonneg _)).trans (hL L h)
  have e : Ks.foldl (fun x K => Φ.rnd (.mulX x (K i j))) (.fin 1) = .fin v := by
    rw [← hv]
    exact List.foldl_ext _ _ _ fun x K h => by rw [(hK K h).eq]; rfl
  rw [e]
  trivial

/-- three members of which one has overflowed at one place; a weight 0 does not hide it -/
example : ∃ A : Fin 2 → Fin 2 → Dbl, double.fit (.sum (some [.fin 1, .fin 0, .fin 2]))
    [fun _ _ => .fin 1, fun i j => if i = j then .inf false else .fin 1, fun _ _ => .fin 3] = .ok A ∧ (∀ i, ¬ (A i i).Finite) ∧ (A 0 1).Finite := by
  obtain ⟨A, h1, h2⟩ := C97_sum_finite (Φ := double) (c := .sum (some [.fin 1, .fin 0, .fin 2])) (w := [.fin 1, .fin 0, .fin 2])
    (Ks := [fun (_ _ : Fin 2) => .fin 1, fun i j => if i = j then .inf false else .fin 1, fun _ _ => .fin 3]) (Combine.Weights.given _) (by rw [double_u]; norm_num)
  refine ⟨A, h1, fun i => C97_visible h1 (K := fun i j => if i = j then .inf false else .fin 1) (by simp) (by rw [if_pos rfl]; exact id), h2 0 1 ?_ ?_ ?_⟩
  · intro x hx
    fin_cases hx <;> trivial
  · intro K hK
    fin_cases hK
    · trivial
    · show (if (0 : Fin 2) = 1 then Dbl.inf false else .fin 1).Finite
      rw [if_neg (by decide)]
      trivial
    · trivial
  · refine le_trans ?_ double_max
    have : entrySumAbs [.fin 1, .fin 0, .fin 2] [fun (_ _ : Fin 2) => .fin 1, fun i j => if i = j then .inf false else .fin 1, fun _ _ => .fin 3] 0 1 = 7 := by
      simp [entrySumAbs, Dbl.val]
      norm_num
    rw [this]
    exact le_trans (by norm_num : (2 * 7 : ℝ) ≤ 2 ^ 100) (pow_le_pow_right₀ (by norm_num) (by norm_num))

/-! ## `linear_combination` -/

/-- **C97** `linear_combination` without normalisation of the weights. -/
theorem C97_combination (o : FlatOrder) {w : List Dbl} {Ks : List (Fin n → Fin m → Dbl)} (hu : (Ks.length + 1 : Nat) * Φ.R.u < 1) :
    (w.length ≠ Ks.length → ∀ norm, Φ.linearCombination o Ks w norm = .error .valueError) ∧
    (w.length = Ks.length → ∃ A, Φ.linearCombination o Ks w false = .ok A ∧ ∀ i j v, A i j = .fin v → (∀ x ∈ w, x.Finite) ∧ (∀ K ∈ Ks, (K i j).Finite) ∧
      |v - entrySum w Ks i j| ≤ Φ.R.gamma (Ks.length + 1) * entrySumAbs w Ks i j) := by
  constructor
  · intro h norm
    have e : Φ.combWeights o Ks.length w norm = .error .valueError := if_neg fun h' => h h'.symm
    unfold FloatFormat.linearCombination
    rw [e]
    rfl
  · intro hl
    refine ⟨Φ.weightedSum w Ks, ?_, fun i j v hv => ?_⟩
    · have e : Φ.combWeights o Ks.length w false = .ok w := if_pos hl.symm
      unfold FloatFormat.linearCombination
      rw [e]
      rfl
    · obtain ⟨h1, h2, rfl⟩ := weightedSum_fin hl hv
      exact ⟨h1, h2, (weightedSum_err i j hl).trans (mul_le_mul_of_nonneg_right (pow_w_le _ hu) (entrySumAbs_nonneg w Ks i j))⟩

/-- **C97** Partial: `linear_combination` with normalisation of the weights, none of them negative: at a finite entry all weights and the entries of all members are finite, and the entry is accurate, unless it is 0 and the
sum of the weights is too large. -/
theorem C97_normalised_partial (o : FlatOrder) {w : List Dbl} {Ks : List (Fin n → Fin m → Dbl)} {A : Fin n → Fin m → Dbl} (hl : w.length = Ks.length) (h0 : ∀ x ∈ w, 0 ≤ x.val)
    (hu : (2 * Ks.length + 2 : Nat) * Φ.R.u < 1) (h : Φ.linearCombination o Ks w true = .ok A) {i : Fin n} {j : Fin m} {v : ℝ} (hv : A i j = .fin v) :
    (∀ x ∈ w, x.Finite) ∧ (∀ K ∈ Ks, (K i j).Finite) ∧
      (|v - entrySum (normalisedWeights w) Ks i j| ≤ Φ.R.gamma (2 * Ks.length + 2) * entrySumAbs (normalisedWeights w) Ks i j ∨
        v = 0 ∧ Φ.max < (1 + Φ.R.gamma (2 * Ks.length + 2)) * (w.map Dbl.val).sum) := by
  obtain ⟨hz, hn⟩ := linearCombination_norm (Φ := Φ) (o := o) hl
  by_cases hc : (Φ.dot (fun i => w.get i) (fun _ => .fin 1) (o.tree w.length)).CloseToZero
  · rw [hz hc] at h
    cases h
  rw [hn hc] at h
  obtain rfl := Except.ok.inj h
  have hl' : (w.map fun x => Φ.rnd (.divX x (Φ.dot (fun i => w.get i) (fun _ => .fin 1) (o.tree w.length)))).length = Ks.length := by rw [List.length_map, hl]
  obtain ⟨h1, h2, h3⟩ := weightedSum_fin hl' hv
  have hdiv : ∀ x ∈ w, ∃ r, Φ.rnd (.divX x (Φ.dot (fun i => w.get i) (fun _ => .fin 1) (o.tree w.length))) = .fin r := fun x hx => ⟨_, (h1 _ (List.mem_map.2 ⟨x, hx, rfl⟩)).eq⟩
  have hw : ∀ x ∈ w, x.Finite := fun x hx => by
    obtain ⟨r, hr⟩ := hdiv x hx
    obtain ⟨y, h4, -⟩ := rnd_fin hr
    obtain ⟨z, h5, -⟩ := divX_fin h4
    rw [h5]
    trivial
  refine ⟨hw, h2, ?_⟩
  obtain ⟨d, hrel, hd, -⟩ := denom_nonneg (Φ := Φ) (o := o) hw h0
  have hs0 : 0 ≤ (w.map Dbl.val).sum := List.sum_nonneg fun x hx => by
    obtain ⟨y, hy, rfl⟩ := List.mem_map.1 hx
    exact h0 y hy
  rw [List.zip_map_left, List.foldl_map] at h3
  simp only [Prod.map_fst, Prod.map_snd, id] at h3
  rcases hd with hd | ⟨hd, hmax⟩
  · left
    rw [hd] at h3 hc hdiv
    have hd0 : d ≠ 0 := fun h => hc (by rw [h]; show |(0 : ℝ)| ≤ 1e-8; norm_num)
    have e3 : v = (w.zip Ks).foldl (fun x p => Φ.R.fl (x + Φ.R.fl (Φ.R.fl (p.1.val / d) * (p.2 i j).val))) 0 := by
      rw [h3]
      refine List.foldl_ext _ _ _ fun x p hp => ?_
      have hp' := (List.of_mem_zip (a := p.1) (b := p.2) hp).1
      obtain ⟨r, hr⟩ := hdiv _ hp'
      obtain ⟨y, h4, h5⟩ := rnd_fin hr
      rw [hr, h5]
      rw [(hw _ hp').eq] at h4
      have : y = p.1.val / d := by
        simp only [Dbl.divX, if_neg hd0] at h4
        exact (Dbl.fin.inj h4).symm
      rw [this]
      rfl
    have key := foldl_add_err (R := Φ.R) (w.zip Ks) (t := fun p => Φ.R.fl (Φ.R.fl (p.1.val / d) * (p.2 i j).val)) (v := fun p => p.1.val / (w.map Dbl.val).sum * (p.2 i j).val)
      (k := w.length + 2) (x := 0) (S := 0) (T := 0) (by simp) (by simp) fun p _ => by
        have := (((((Rel.refl (R := Φ.R) p.1.val).div hrel).fl).mul (Rel.refl ((p.2 i j).val))).fl).err
        rwa [zero_add, Nat.add_zero] at this
    rw [zero_add, zero_add, List.length_zip, hl, min_self, show Ks.length + 2 + Ks.length = 2 * Ks.length + 2 by omega] at key
    have e1 : entrySum (normalisedWeights w) Ks i j = ((w.zip Ks).map fun p => p.1.val / (w.map Dbl.val).sum * (p.2 i j).val).sum := by
      unfold entrySum normalisedWeights
      rw [List.zip_map_left, List.map_map]
      rfl
    have e2 : entrySumAbs (normalisedWeights w) Ks i j = ((w.zip Ks).map fun p => |p.1.val / (w.map Dbl.val).sum * (p.2 i j).val|).sum := by
      unfold entrySumAbs normalisedWeights
      rw [List.zip_map_left, List.map_map]
      rfl
    rw [← e1, ← e2, ← e3] at key
    exact key.trans (mul_le_mul_of_nonneg_right (pow_w_le _ hu) (entrySumAbs_nonneg _ Ks i j))
  · right
    rw [hd] at h3
    have hzero : ∀ L : List (Dbl × (Fin n → Fin m → Dbl)), (∀ p ∈ L, p.1.Finite) →
        L.foldl (fun x p => Φ.R.fl (x + Φ.R.fl ((Φ.rnd (.divX p.1 (.inf false))).val * (p.2 i j).val))) 0 = 0 := fun L hL => by
      induction L with
      | nil => rfl
      | cons p L ih =>
        rw [List.foldl_cons, (hL p List.mem_cons_self).eq]
        have e : Φ.rnd ((Dbl.fin p.1.val).divX (.inf false)) = .fin 0 := rnd_zero
        rw [e]
        show L.foldl _ (Φ.R.fl (0 + Φ.R.fl (0 * _))) = 0
        rw [zero_mul, Φ.R.fl_zero, add_zero, Φ.R.fl_zero]
        exact ih fun q hq => hL q (List.mem_cons_of_mem _ hq)
    refine ⟨h3.trans (hzero _ fun p hp => hw _ (List.of_mem_zip (a := p.1) (b := p.2) hp).1), hmax.trans_le (mul_le_mul_of_nonneg_right ?_ hs0)⟩
    have h4 := pow_w_le (R := Φ.R) _ hu
    have h5 := pow_le_pow_right₀ Φ.R.one_le_w (show w.length ≤ 2 * Ks.length + 2 by omega)
    linarith

/-- **C97** (violated) The average of two equal kernels with equal weights is 0 if the sum of the weights overflows. -/
theorem C97_violated : ∃ w : List Dbl, ∃ Ks : List (Fin 1 → Fin 1 → Dbl), w.length = Ks.length ∧ (∀ x ∈ w, x.Finite ∧ |x.val| ≤ double.max) ∧ (∀ x ∈ w, 0 < x.val) ∧
    entrySum (normalisedWeights w) Ks 0 0 = 1 ∧ ∀ o, double.linearCombination o Ks w true = .ok fun _ _ => .fin 0 := by
  have hc : (0 : ℝ) < 3 * 2 ^ 1022 := by positivity
  have hle : (3 * 2 ^ 1022 : ℝ) ≤ double.max := by
    show (3 * 2 ^ 1022 : ℝ) ≤ (2 - 2⁻¹ ^ 52) * 2 ^ 1023
    rw [show (2 : ℝ) ^ 1023 = 2 * 2 ^ 1022 by rw [← pow_succ'], ← mul_assoc]
    exact mul_le_mul_of_nonneg_right (by norm_num) (by positivity)
  have hlt : 4 * double.max < 3 * (2 * (3 * 2 ^ 1022)) := by
    show 4 * ((2 - 2⁻¹ ^ 52 : ℝ) * 2 ^ 1023) < _
    rw [show (2 : ℝ) ^ 1023 = 2 * 2 ^ 1022 by rw [← pow_succ']]
    have : (0 : ℝ) < 2 ^ 1022 := by positivity
    generalize (2 : ℝ) ^ 1022 = x at this
    nlinarith
  generalize (3 * 2 ^ 1022 : ℝ) = c at hc hle hlt
  have hw : ∀ x ∈ [Dbl.fin c, .fin c], x = .fin c := fun x hx => by simpa using hx
  refine ⟨[.fin c, .fin c], [fun _ _ => .fin 1, fun _ _ => .fin 1], rfl, fun x hx => ?_, fun x hx => ?_, ?_, fun o => ?_⟩
  · rw [hw x hx]
    exact ⟨trivial, by rw [show (Dbl.fin c).val = c from rfl, abs_of_pos hc]; exact hle⟩
  · rw [hw x hx]
    exact hc
  · simp only [entrySum, normalisedWeights, Dbl.val, List.map_cons, List.map_nil, List.zip_cons_cons, List.zip_nil_left, List.sum_cons, List.sum_nil]
    field_simp
    norm_num
  · obtain ⟨d, hrel, -, hd⟩ := denom_nonneg (Φ := double) (o := o) (w := [.fin c, .fin c]) (fun x hx => by rw [hw x hx]; trivial) fun x hx => by rw [hw x hx]; exact hc.le
    have hS : (List.map Dbl.val [.fin c, .fin c]).sum = 2 * c := by
      simp only [Dbl.val, List.map_cons, List.map_nil, List.sum_cons, List.sum_nil]
      ring
    have hw2 : double.R.w ^ 2 ≤ 4 / 3 := by
      have h1 := pow_w_le (R := double.R) 2 (by rw [double_u]; norm_num)
      have h2 : double.R.gamma 2 ≤ 1 / 3 := by
        show (2 : Nat) * double.R.u / (1 - (2 : Nat) * double.R.u) ≤ 1 / 3
        rw [double_u]
        norm_num
      linarith
    have hmax : double.max < d := by
      obtain ⟨x, h1, -, rfl⟩ := hrel
      rw [hS]
      have h2 : 3 / 4 ≤ x := le_trans (by rw [show (3 / 4 : ℝ) = (4 / 3)⁻¹ by norm_num]; exact inv_anti₀ (pow_w_pos _) hw2) h1
      nlinarith
    have hdot := hd hmax
    have e := (linearCombination_norm (Φ := double) (o := o) (w := [.fin c, .fin c]) (Ks := [fun (_ _ : Fin 1) => Dbl.fin 1, fun _ _ => .fin 1]) rfl).2 (by rw [hdot]; exact id)
    rw [e, hdot]
    congr 1
    funext i j
    have e0 : double.rnd ((Dbl.fin c).divX (.inf false)) = .fin 0 := rnd_zero
    rw [weightedSum_entry]
    simp only [List.map_cons, List.map_nil, List.zip_cons_cons, List.zip_nil_left, List.foldl_cons, List.foldl_nil, e0, Dbl.mulX, zero_mul, rnd_zero, Dbl.addX, add_zero]

end KMethods
