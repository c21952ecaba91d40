import Verif.Lemmas.RoundCompositeErr
import Verif.Lemmas.FloatEnv
import Verif.Lemmas.RoundExact
import Verif.Props.Composite
/-!
# C79: composite kernels and `linear_combination` in floating point arithmetic
-/
namespace KMethods
open PyM Rounding
variable {K X : Type} {env : Env K X F} {R : Rounding} {P : Fmt → Prop} {n m : Nat} {o : SumOrder}

/-! ## given matrices -/

/-- **C79** `SumKernel` (with or without weights), `AverageKernel` and `WeightedAverageKernel` of `N` members: every entry of the computed matrix differs from that of the exact combination `sum_k l_k K_k`
by at most `γ_{N+1} sum_k |l_k K_k|`, in whatever storage the members are. Symmetric members give an exactly symmetric result. -/
theorem C79_sum {s : CompSt K X} {w : Option WeightsIn} {l : List ℝ} {Ks : List (Matrix (Fin n) (Fin n) ℝ)} (hc : s.Coeffs w l)
    (hn : s.comp.numSamples = .one n) (hg : s.heap.GivesAll env P s.set.members Ks) (hu : (s.set.members.length + 1 : Nat) * R.u < 1) :
    s.Fits env P w (wsum l Ks) ∧ ∃ A, s.FitsFl env R o P w A ∧
      (∀ i j, |A i j - wsum l Ks i j| ≤ R.gamma (s.set.members.length + 1) * wsumAbs l Ks i j) ∧
      ((∀ B ∈ Ks, ∀ i j, B i j = B j i) → ∀ i j, A i j = A j i) := by
  have hlen : Ks.length = s.set.members.length := (List.Forall₂.length_eq hg).symm
  refine ⟨wsum_fits hc hn hg, ?_⟩
  obtain ⟨A, h1, h2, h3⟩ := wsumFl_fits (R := R) (o := o) hc hn hg
  rw [hlen] at h2
  exact ⟨A, h1, fun i j => (h2 i j).trans (mul_le_mul_of_nonneg_right (pow_w_le _ hu) (wsumAbs_nonneg l Ks i j)), h3⟩

/-- **C79** `ProductKernel` of `N` members in dense storage: the relative error of every entry is at most `γ_N`. -/
theorem C79_product {s : CompSt K X} {Ks : List (Matrix (Fin n) (Fin n) ℝ)} (hk : s.comp.kind = .product)
    (hn : s.comp.numSamples = .one n) (hg : s.heap.GivesAll env IsDense s.set.members Ks) (hu : s.set.members.length * R.u < 1) :
    s.Fits env IsDense none (eprod Ks) ∧ ∃ A, s.FitsFl env R o IsDense none A ∧
      (∀ i j, |A i j - eprod Ks i j| ≤ R.gamma s.set.members.length * |eprod Ks i j|) ∧
      ((∀ B ∈ Ks, ∀ i j, B i j = B j i) → ∀ i j, A i j = A j i) := by
  have hlen : Ks.length = s.set.members.length := (List.Forall₂.length_eq hg).symm
  refine ⟨fits_product hk hn hg, _, CompSt.fitsFl_product hk hn hg, fun i j => ?_, fun h i j => ?_⟩
  · have := (Rounding.eprod_rel (R := R) Ks i j).err_gamma (by rw [hlen]; exact hu)
    rwa [hlen] at this
  · unfold Rounding.eprod
    refine List.foldl_ext _ _ _ fun x p hp => ?_
    rw [h p hp i j]

/-- **C79** Rounding changes numbers only: `fit` raises in exactly the cases in which it does in exact arithmetic, the same exception, and leaves the same state up to the entries of the
composite matrix. -/
theorem C79_same_errors (env : Env K X F) (R : Rounding) (o : SumOrder) (w : Option WeightsIn) (s : CompSt K X) :
    (CompSt.fitFl env R o w s).1 = (CompSt.fit env w s).1 ∧
    (CompSt.fitFl env R o w s).2.heap = (CompSt.fit env w s).2.heap ∧ (CompSt.fitFl env R o w s).2.set = (CompSt.fit env w s).2.set ∧
    (CompSt.fitFl env R o w s).2.comp.isFitted = (CompSt.fit env w s).2.comp.isFitted ∧
    (CompSt.fitFl env R o w s).2.comp.km.map (fun M => (M.1, M.2.nrows, M.2.ncols)) = (CompSt.fit env w s).2.comp.km.map fun M => (M.1, M.2.nrows, M.2.ncols) := by
  obtain ⟨h1, h2, h3, h4, h5⟩ := CompSt.fitFl_like (env := env) (R := R) o w s
  have h6 : (CompSt.fitFl env R o w s).2.comp.isFitted = (CompSt.fit env w s).2.comp.isFitted := by
    generalize (CompSt.fitFl env R o w s).2.comp = a at h4
    generalize (CompSt.fit env w s).2.comp = b at h4
    injection h4
  exact ⟨h1, h2, h3, h6, h5⟩

/-- **C79** The same for `linear_combination` without normalisation of the weights. -/
theorem C79_same_errors_combination (env : Env K X F) (R : Rounding) (o : FlatOrder) (t : KSet) (w : WeightsIn) (h : Heap K X) :
    (linearCombinationFl env R o t w false h).1.map (fun M => (M.1, M.2.nrows, M.2.ncols)) =
      (linearCombination env t w false h).1.map (fun M => (M.1, M.2.nrows, M.2.ncols)) ∧
    (linearCombinationFl env R o t w false h).2 = (linearCombination env t w false h).2 := by
  have e : combWeightsFl R o t.members.length w false = combWeights t.members.length w false := rfl
  unfold linearCombinationFl linearCombination
  rw [e]
  rcases combWeights t.members.length w false with e | l
  · exact ⟨rfl, rfl⟩
  · rcases hz : zerosOf t.numSamples with e | Z
    · exact ⟨rfl, rfl⟩
    · exact combLoopFl_like (l.zip t.members) rfl h

/-- **C79** Non-negative combinations of positive semidefinite matrices: the error is at most `γ_{N+1} √(S_ii S_jj)`, the quadratic form of the computed matrix is at least `-γ_{N+1} tr(S) |x|²`,
and the matrix passes `is_PSD` if `γ_{N+1} tr(S)` does not exceed the tolerance; `S` is the exact combination. -/
theorem C79_sum_psd {s : CompSt K X} {w : Option WeightsIn} {l : List ℝ} {Ks : List (Matrix (Fin n) (Fin n) ℝ)} (hc : s.Coeffs w l)
    (hn : s.comp.numSamples = .one n) (hg : s.heap.GivesAll env P s.set.members Ks) (hu : (s.set.members.length + 1 : Nat) * R.u < 1)
    (hl : ∀ x ∈ l, 0 ≤ x) (hK : ∀ A ∈ Ks, IsPSD A) :
    IsPSD (wsum l Ks) ∧ ∃ A, s.FitsFl env R o P w A ∧ CloseTo (R.gamma (s.set.members.length + 1)) A (wsum l Ks) ∧
      (∀ x : Fin n → ℝ, -(R.gamma (s.set.members.length + 1) * ∑ i, wsum l Ks i i) * ∑ i, x i * x i ≤ ∑ i, ∑ j, x i * A i j * x j) ∧
      ∀ tol, R.gamma (s.set.members.length + 1) * ∑ i, wsum l Ks i i ≤ tol → isPSD (.arr (Mat.ofReal A)) tol = .ok true := by
  obtain ⟨-, A, h1, h2, h3⟩ := C79_sum (R := R) (o := o) hc hn hg hu
  have hS := isPSD_wsum hl hK
  have hη := gamma_nonneg hu
  have hcl : CloseTo (R.gamma (s.set.members.length + 1)) A (wsum l Ks) := fun i j =>
    (h2 i j).trans (mul_le_mul_of_nonneg_left (wsumAbs_le hl hK i j) hη)
  have ht : ∑ i, Real.sqrt (wsum l Ks i i) ^ 2 = ∑ i, wsum l Ks i i := Finset.sum_congr rfl fun i _ => Real.sq_sqrt (hS.diag_nonneg i)
  refine ⟨hS, A, h1, hcl, fun x => ?_, fun tol htol => ?_⟩
  · have h4 := quad_perturb hη (E := fun i j => A i j - wsum l Ks i j) hcl x
    rw [ht] at h4
    have h5 : ∑ i, ∑ j, x i * (A i j - wsum l Ks i j) * x j = ∑ i, ∑ j, x i * A i j * x j - ∑ i, ∑ j, x i * wsum l Ks i j * x j := by
      simp only [mul_sub, sub_mul, Finset.sum_sub_distrib]
    rw [h5] at h4
    have h6 := (abs_le.1 h4).1
    have h7 := hS.2 x
    linarith
  · have hsym := h3 fun B hB => (hK B hB).1
    refine isPSD_accepts hS (s := fun i => Real.sqrt (wsum l Ks i i)) hη hcl (fun i j => ?_) (by rw [ht]; exact htol)
    rw [hsym i j, sub_self, abs_zero]
    positivity

/-- **C79** Products of positive semidefinite matrices (in dense storage). -/
theorem C79_product_psd {s : CompSt K X} {Ks : List (Matrix (Fin n) (Fin n) ℝ)} (hk : s.comp.kind = .product)
    (hn : s.comp.numSamples = .one n) (hg : s.heap.GivesAll env IsDense s.set.members Ks) (hu : s.set.members.length * R.u < 1) (hK : ∀ A ∈ Ks, IsPSD A) :
    IsPSD (eprod Ks) ∧ ∃ A, s.FitsFl env R o IsDense none A ∧ CloseTo (R.gamma s.set.members.length) A (eprod Ks) ∧
      ∀ tol, R.gamma s.set.members.length * ∑ i, eprod Ks i i ≤ tol → isPSD (.arr (Mat.ofReal A)) tol = .ok true := by
  obtain ⟨-, A, h1, h2, h3⟩ := C79_product (R := R) (o := o) hk hn hg hu
  have hS := isPSD_eprod hK
  have hη := gamma_nonneg hu
  have hcl : CloseTo (R.gamma s.set.members.length) A (eprod Ks) := fun i j =>
    (h2 i j).trans (mul_le_mul_of_nonneg_left (entry_le hS i j) hη)
  have ht : ∑ i, Real.sqrt (eprod Ks i i) ^ 2 = ∑ i, eprod Ks i i := Finset.sum_congr rfl fun i _ => Real.sq_sqrt (hS.diag_nonneg i)
  refine ⟨hS, A, h1, hcl, fun tol htol => ?_⟩
  have hsym := h3 fun B hB => (hK B hB).1
  refine isPSD_accepts hS (s := fun i => Real.sqrt (eprod Ks i i)) hη hcl (fun i j => ?_) (by rw [ht]; exact htol)
  rw [hsym i j, sub_self, abs_zero]
  positivity

/-! ## `linear_combination` -/

/-- **C79** `linear_combination(km_set, weights)`, one or two samples: as for the sum. -/
theorem C79_combination {h : Heap K X} {t : KSet} {Ks : List (Matrix (Fin n) (Fin m) ℝ)} {w : WeightsIn} {l : List ℝ} (o : FlatOrder)
    (hn : t.numSamples = .two n m ∨ (n = m ∧ t.numSamples = .one n ∧ t.members ≠ [])) (hg : h.GivesAll env P t.members Ks) (hw : w.IsVec l)
    (hl : l.length = t.members.length) (hu : (t.members.length + 1 : Nat) * R.u < 1) :
    ∃ h' f, ∃ A : Matrix (Fin n) (Fin m) ℝ, linearCombinationFl env R o t w false h = (.ok (f, Mat.ofReal A), h') ∧
      (∀ i j, |A i j - wsum l Ks i j| ≤ R.gamma (t.members.length + 1) * wsumAbs l Ks i j) ∧ ((∀ g, P g → g = .dense) → f = .dense) := by
  have hlen : Ks.length = t.members.length := (List.Forall₂.length_eq hg).symm
  have hc : combWeightsFl R o t.members.length w false = .ok (l.map F.real) := by
    show (w.checked t.members.length >>= _) = _
    rw [hw.checked, if_pos hl.symm]; rfl
  obtain ⟨h', f, e, hd⟩ := linearCombinationFl_run hc hl hn hg
  refine ⟨h', f, _, e, fun i j => ?_, hd⟩
  have := Rounding.wsum_err (R := R) l Ks (by rw [hl, hlen]) i j
  rw [hlen] at this
  exact this.trans (mul_le_mul_of_nonneg_right (pow_w_le _ hu) (wsumAbs_nonneg l Ks i j))

/-- **C79** `linear_combination(km_set, weights, norm_weights=True)` for non-negative weights: `RuntimeError` if their sum is clearly below `1e-8`; if it is clearly above, the error is at most
`γ_{2N+2} sum_k |w_k K_k|`, `w` being the exactly normalised weights. -/
theorem C79_normalised_partial {h : Heap K X} {t : KSet} {Ks : List (Matrix (Fin n) (Fin m) ℝ)} {w : WeightsIn} {l : List ℝ} (o : FlatOrder)
    (hn : t.numSamples = .two n m ∨ (n = m ∧ t.numSamples = .one n ∧ t.members ≠ [])) (hg : h.GivesAll env P t.members Ks) (hw : w.IsVec l)
    (hl : l.length = t.members.length) (h0 : ∀ x ∈ l, 0 ≤ x) (hu : (2 * t.members.length + 2 : Nat) * R.u < 1) :
    ((1 + R.gamma t.members.length) * l.sum ≤ 1e-8 → linearCombinationFl env R o t w true h = (.error .runtimeError, h)) ∧
    ((1 + R.gamma t.members.length) * 1e-8 < l.sum → ∃ h' f, ∃ A : Matrix (Fin n) (Fin m) ℝ, linearCombinationFl env R o t w true h = (.ok (f, Mat.ofReal A), h') ∧
      (∀ i j, |A i j - wsum (l.map (· / l.sum)) Ks i j| ≤ R.gamma (2 * t.members.length + 2) * wsumAbs (l.map (· / l.sum)) Ks i j) ∧
      ((∀ g, P g → g = .dense) → f = .dense)) := by
  have hlen : Ks.length = t.members.length := (List.Forall₂.length_eq hg).symm
  have hu0 := R.u_nonneg
  have hu1 : t.members.length * R.u < 1 := (mul_le_mul_of_nonneg_right (by norm_cast; omega) hu0).trans_lt hu
  obtain ⟨d, hd, hrel⟩ := sumFl_rel (R := R) o h0
  have hs0 : 0 ≤ l.sum := List.sum_nonneg h0
  have hw1 : R.w ^ t.members.length ≤ 1 + R.gamma t.members.length := by linarith [pow_w_le (R := R) _ hu1]
  rw [hl] at hrel
  have hdle : |d| ≤ R.w ^ t.members.length * l.sum := by
    have := hrel.le
    rwa [abs_of_nonneg hs0] at this
  have hle : l.sum ≤ R.w ^ t.members.length * d := by
    obtain ⟨c, h1, h2, rfl⟩ := hrel
    have hp := pow_w_pos (R := R) t.members.length
    have : 1 ≤ R.w ^ t.members.length * c := by
      have := mul_le_mul_of_nonneg_left h1 hp.le
      rwa [mul_inv_cancel₀ hp.ne'] at this
    nlinarith
  have hcw : combWeightsFl R o t.members.length w true = if F.isClose (.real d) 0 then .error .runtimeError else .ok ((l.map F.real).map fun x => R.round (x / .real d)) := by
    show (w.checked t.members.length >>= _) = _
    rw [hw.checked, if_pos hl.symm]
    show (if F.isClose (sumFl R o (l.map F.real)) 0 then _ else _) = _
    rw [hd]
    split
    · rfl
    · rfl
  constructor
  · intro hz
    have hz' : NearZero d := hdle.trans ((mul_le_mul_of_nonneg_right hw1 hs0).trans hz)
    rw [if_pos ((F.isClose_zero _).2 hz')] at hcw
    show (lift (combWeightsFl R o t.members.length w true) >>= _ : PyM (Heap K X) _) h = _
    rw [hcw]; rfl
  · intro hz
    have hdpos : 1e-8 < d := by
      by_contra hcon
      rw [not_lt] at hcon
      have h1 : R.w ^ t.members.length * d ≤ R.w ^ t.members.length * 1e-8 := mul_le_mul_of_nonneg_left hcon (pow_w_pos _).le
      have h2 : R.w ^ t.members.length * 1e-8 ≤ (1 + R.gamma t.members.length) * 1e-8 := mul_le_mul_of_nonneg_right hw1 (by norm_num)
      linarith
    have hd0 : d ≠ 0 := (lt_trans (by norm_num) hdpos).ne'
    have hnz : ¬ NearZero d := fun h => absurd ((le_abs_self d).trans h) (not_le.2 hdpos)
    rw [if_neg fun h => hnz ((F.isClose_zero _).1 h)] at hcw
    have hcw' : combWeightsFl R o t.members.length w true = .ok ((l.map fun x => R.fl (x / d)).map F.real) := by
      rw [hcw, List.map_map, List.map_map]
      congr 2
      funext x
      show R.round (F.real x / F.real d) = _
      rw [F.real_div _ _ hd0]
      rfl
    obtain ⟨h', f, e, hdn⟩ := linearCombinationFl_run hcw' (by simpa using hl) hn hg
    refine ⟨h', f, _, e, fun i j => ?_, hdn⟩
    have key := foldl_add_err (R := R) (l.zip Ks) (t := fun p => R.fl (R.fl (p.1 / d) * p.2 i j)) (v := fun p => p.1 / l.sum * p.2 i j)
      (k := t.members.length + 2) (x := 0) (S := 0) (T := 0) (by simp) (by simp) fun p _ => by
        have := (((((Rel.refl (R := R) p.1).div hrel).fl).mul (Rel.refl (p.2 i j))).fl).err
        rwa [zero_add, Nat.add_zero] at this
    have e1 : R.wsum (l.map fun x => R.fl (x / d)) Ks i j = (l.zip Ks).foldl (fun x p => R.fl (x + R.fl (R.fl (p.1 / d) * p.2 i j))) 0 := by
      unfold Rounding.wsum
      rw [List.zip_map_left, List.foldl_map]
      rfl
    have e2 : wsum (l.map (· / l.sum)) Ks i j = ((l.zip Ks).map fun p => p.1 / l.sum * p.2 i j).sum := by
      unfold wsum
      rw [List.zip_map_left, List.map_map]
      rfl
    have e3 : wsumAbs (l.map (· / l.sum)) Ks i j = ((l.zip Ks).map fun p => |p.1 / l.sum * p.2 i j|).sum := by
      unfold wsumAbs
      rw [List.zip_map_left, List.map_map]
      rfl
    rw [e1, e2, e3]
    rw [zero_add, zero_add, List.length_zip, hl, hlen, min_self, show t.members.length + 2 + t.members.length = 2 * t.members.length + 2 by omega] at key
    refine key.trans (mul_le_mul_of_nonneg_right (pow_w_le _ hu) (List.sum_nonneg ?_))
    intro x hx
    obtain ⟨p, -, rfl⟩ := List.mem_map.1 hx
    exact abs_nonneg _

/-! ## kernels of the library -/

/-- **C79** From data to the composite matrix: numeric kernels (normalising or not) are evaluated, their matrices are normalised and combined with non-negative weights, all in floating point arithmetic, with errors
of the members of at most `η √(K_ii K_jj)` (C71, C72). The result differs from the combination of the exact matrices by at most `((1 + γ_{N+1})(1 + η) - 1) √(S_ii S_jj)`. -/
theorem C79_kernels {env : Env NumKernel (List ℝ) F} (henv : FloatEnv R env) {s : SetSt NumKernel (List ℝ)} {A : Arr2 (List ℝ)}
    (hn : s.set.numSamples = .unset ∨ s.set.numSamples = .one A.nrows) {k : Nat → NumKernel} {norm : Nat → Bool} {G : Nat → Matrix (Fin A.nrows) (Fin A.nrows) ℝ}
    (hk : ∀ r ∈ s.set.members, s.heap.IsKM env r (k r) (norm r) ∧ (k r).ValidOn A ∧ (k r).IsGram A (G r) ∧ 2 * ((k r).roundings A.ncols * R.u) < 1 ∧
      (norm r = true → ∀ i, 1e-8 < (1 - R.gamma ((k r).roundings A.ncols)) * G r i i))
    (hu : (s.set.members.length + 12 : Nat) * R.u < 1) {η : ℝ} (hη0 : 0 ≤ η) (hη : ∀ r ∈ s.set.members, R.fullErr (norm r) ((k r).roundings A.ncols) ≤ η) :
    ∃ s', SetSt.attach (sampleArg A) none s = (.ok (), s') ∧ s.NowAttached env s' A ∧
      ∀ cls c, mkComposite cls (some s'.set) = .ok c →
        (∀ w l, (⟨s'.heap, s'.set, c⟩ : CompSt NumKernel (List ℝ)).Coeffs w l → (∀ x ∈ l, 0 ≤ x) →
          ∃ C, (⟨s'.heap, s'.set, c⟩ : CompSt NumKernel (List ℝ)).FitsFl env R o IsDense w C ∧
            CloseTo ((1 + R.gamma (s.set.members.length + 1)) * (1 + η) - 1) C (wsum l (s.set.members.map fun r => normIf (norm r) (G r)))) ∧
        (c.kind = .product → ∃ C, (⟨s'.heap, s'.set, c⟩ : CompSt NumKernel (List ℝ)).FitsFl env R o IsDense none C ∧
          CloseTo ((1 + R.gamma s.set.members.length) * (1 + η) ^ s.set.members.length - 1) C (eprod (s.set.members.map fun r => normIf (norm r) (G r)))) := by
  have hu0 := R.u_nonneg
  have hle : ∀ k : Nat, k ≤ s.set.members.length + 12 → (k : ℝ) * R.u < 1 := fun k hk =>
    (mul_le_mul_of_nonneg_right (by exact_mod_cast hk) hu0).trans_lt hu
  have h12 : 12 * R.u < 1 := by exact_mod_cast hle 12 (by omega)
  have hH : ∀ r ∈ s.set.members, ∃ H : Matrix (Fin A.nrows) (Fin A.nrows) ℝ, s.heap.MatrixOn env r A (Mat.ofReal H) ∧ IsPSD (normIf (norm r) (G r)) ∧
      CloseTo η H (normIf (norm r) (G r)) := by
    intro r hr
    obtain ⟨h1, h2, h3, h4, h5⟩ := hk r hr
    obtain ⟨H, a, b, c⟩ := henv.matrixOn h2 h1 h4 h12 h3 h5
    exact ⟨H, a, b, fun i j => (c i j).trans (mul_le_mul_of_nonneg_right (hη r hr) (by positivity))⟩
  choose! H hH1 hH2 hH3 using hH
  obtain ⟨s', e, ha⟩ := attach_nowAttached (env := env) hn fun r hr => ⟨_, _, (hk r hr).1⟩
  refine ⟨s', e, ha, fun cls c hc => ?_⟩
  have hset := ha.1
  have hmem : s'.set.members = s.set.members := by rw [hset]
  have hns : c.numSamples = .one A.nrows := by rw [mkComposite_numSamples hc, hset]
  have hg : s'.heap.GivesAll env IsDense s'.set.members (s.set.members.map H) := by
    rw [hmem]
    unfold Heap.GivesAll
    rw [List.forall₂_map_right_iff, List.forall₂_same]
    exact fun r hr => NowAttached.gives ha hr (hH1 r hr)
  have hcl : List.Forall₂ (CloseTo η) (s.set.members.map H) (s.set.members.map fun r => normIf (norm r) (G r)) := by
    rw [List.forall₂_map_left_iff, List.forall₂_map_right_iff, List.forall₂_same]
    exact hH3
  have hK : ∀ B ∈ s.set.members.map fun r => normIf (norm r) (G r), IsPSD B := by
    intro B hB
    obtain ⟨r, hr, rfl⟩ := List.mem_map.1 hB
    exact hH2 r hr
  constructor
  · intro w l hco hl
    have hu1 : (s'.set.members.length + 1 : Nat) * R.u < 1 := by rw [hmem]; exact hle _ (by omega)
    obtain ⟨-, C, h1, h2, -⟩ := C79_sum (R := R) (o := o) hco hns hg hu1
    have hγ := gamma_nonneg hu1
    refine ⟨C, h1, fun i j => ?_⟩
    obtain ⟨h3, h4⟩ := wsum_close hη0 hl hK hcl i j
    have h5 := h2 i j
    have h6 := abs_sub_le (C i j) (wsum l (s.set.members.map H) i j) (wsum l (s.set.members.map fun r => normIf (norm r) (G r)) i j)
    have h7 := mul_le_mul_of_nonneg_left h4 hγ
    change |C i j - _| ≤ R.gamma (s'.set.members.length + 1) * _ at h5
    rw [hmem] at h5 h7
    linarith
  · intro hp
    have hu1 : s'.set.members.length * R.u < 1 := by rw [hmem]; exact hle _ (by omega)
    obtain ⟨-, C, h1, h2, -⟩ := C79_product (R := R) (o := o) (s := ⟨s'.heap, s'.set, c⟩) hp hns hg hu1
    have hγ := gamma_nonneg hu1
    refine ⟨C, h1, fun i j => ?_⟩
    have h3 := eprod_close hη0 hK hcl
    have h4 := CloseTo.le h3 (isPSD_eprod hK) i j
    have h5 := h2 i j
    have h6 := abs_sub_le (C i j) (eprod (s.set.members.map H) i j) (eprod (s.set.members.map fun r => normIf (norm r) (G r)) i j)
    have h7 := mul_le_mul_of_nonneg_left h4 hγ
    have h8 := h3 i j
    change |C i j - _| ≤ R.gamma s'.set.members.length * _ at h5
    rw [hmem] at h5 h7
    rw [List.length_map] at h7 h8
    linarith

/-! ## violation -/

private theorem sum_cancel : sumFl (binary 53 (by norm_num)) .leftToRight (([2 ^ 54, 1, -2 ^ 54] : List ℝ).map F.real) = .real 0 := by
  show (SumTree.left (List.finRange 3) .zero).dot _ _ _ = _
  rw [show List.finRange 3 = [0, 1, 2] from rfl]
  show F.real (nearest 53 (nearest 53 (nearest 53 (0 + nearest 53 (2 ^ 54 * 1)) + nearest 53 (1 * 1)) + nearest 53 (-2 ^ 54 * 1))) = F.real 0
  congr 1
  have h1 : nearest 53 (2 ^ 54) = 2 ^ 54 := by
    have := nearest_repr (p := 53) 1 54 (by norm_num)
    norm_num at this ⊢
    exact this
  have h2 : nearest 53 (2 ^ 54 + 1) = 2 ^ 54 := by
    rw [nearest_nonneg (by positivity)]
    have := roundBits_of_int (p := 53) (y := 2 ^ 54 + 1) (e := 2) (m := 2 ^ 52) (by norm_num) (by norm_num) (by norm_num)
    rw [this]
    norm_num
  rw [mul_one, mul_one, mul_one, zero_add, h1, h1, nearest_one (by norm_num), h2, nearest_neg, h1, add_neg_cancel, nearest_nonneg le_rfl, roundBits_zero]

/-- **C79** is violated for weights of both signs: in double precision, from left to right, the sum of the weights 2⁵⁴, 1, -2⁵⁴ is 0, so that `linear_combination` with normalisation raises
`RuntimeError`; in exact arithmetic it is 1 and there is a result. -/
theorem C79_cancellation_violated {h : Heap K X} {t : KSet} {Ks : List (Matrix (Fin n) (Fin m) ℝ)} {w : WeightsIn}
    (hn : t.numSamples = .two n m ∨ (n = m ∧ t.numSamples = .one n ∧ t.members ≠ [])) (hg : h.GivesAll env P t.members Ks) (hw : w.IsVec [2 ^ 54, 1, -2 ^ 54])
    (hl : t.members.length = 3) :
    (∃ h' f, linearCombination env t w true h = (.ok (f, Mat.ofReal (wsum [2 ^ 54, 1, -2 ^ 54] Ks)), h')) ∧
    ∃ o, linearCombinationFl env (binary 53 (by norm_num)) o t w true h = (.error .runtimeError, h) := by
  constructor
  · have hs : ([2 ^ 54, 1, -2 ^ 54] : List ℝ).sum = 1 := by norm_num
    obtain ⟨h', f, e, -⟩ := (C26_normalised hn hg hw hl.symm).2 (by rw [hs, NearZero]; norm_num)
    rw [hs] at e
    simp only [div_one, List.map_id'] at e
    exact ⟨h', f, e⟩
  · refine ⟨.leftToRight, ?_⟩
    have hcw : combWeightsFl (binary 53 (by norm_num)) .leftToRight t.members.length w true = .error .runtimeError := by
      show (w.checked t.members.length >>= _) = _
      rw [hw.checked, if_pos (show t.members.length = ([2 ^ 54, 1, -2 ^ 54] : List ℝ).length from hl)]
      show (if F.isClose (sumFl _ _ (([2 ^ 54, 1, -2 ^ 54] : List ℝ).map F.real)) 0 then _ else _) = _
      rw [sum_cancel, if_pos ((F.isClose_zero _).2 (by rw [NearZero, abs_zero]; norm_num))]
    show (lift (combWeightsFl _ _ t.members.length w true) >>= _ : PyM (Heap K X) _) h = _
    rw [hcw]; rfl

/-! ## non-vacuity -/

/-- three attached members (one of them twice) with positive semidefinite matrices: coefficients for all four classes, and double precision -/
example (km : Option (Fmt × Mat F)) :
    let s : CompKind → CompSt _ _ := fun kind => ⟨Demo.heapA, ⟨[2, 0, 2], .one 3, true⟩, ⟨kind, .one 3, false, km⟩⟩
    (s .sum).Coeffs none (List.replicate 3 1) ∧ (s .sum).Coeffs (some (.arr ⟨.float64, [3, 1], [.real 1, .real 2, .real (-3)]⟩)) [1, 2, -3] ∧
    (s .average).Coeffs none (List.replicate 3 (1 / (3 : Nat))) ∧ (s (.weighted ([1, 2, 3].map F.real))).Coeffs none [1, 2, 3] ∧
    (∀ kind, (s kind).heap.GivesAll Demo.renv IsDense (s kind).set.members (List.replicate 3 (Demo.rA.gramR (· * ·))) ∧
      ((s kind).set.members.length + 1 : Nat) * (binary 53 (by norm_num)).u < 1) := by
  refine ⟨.plain rfl, .given rfl ⟨.float64, 1, by decide, rfl⟩ rfl, .average rfl (by simp), .weighted rfl rfl, fun kind => ⟨Demo.gives3, ?_⟩⟩
  norm_num [binary]

/-- the hypotheses of `C79_combination`, `C79_normalised_partial` (both cases) and `C79_cancellation_violated` -/
example : (∀ l : List ℝ, l.length = 3 → (WeightsIn.arr ⟨.float64, [3], l.map .real⟩).IsVec l) ∧
    (1 + (binary 53 (by norm_num)).gamma 3) * ([1e-9, 2e-9, 0] : List ℝ).sum ≤ 1e-8 ∧
    (1 + (binary 53 (by norm_num)).gamma 3) * 1e-8 < ([1, 0, 2] : List ℝ).sum ∧ ((2 * 3 + 2 : Nat) : ℝ) * (binary 53 (by norm_num)).u < 1 := by
  refine ⟨fun l hl => ⟨.float64, 0, by decide, by rw [hl]; rfl⟩, ?_, ?_, ?_⟩ <;> norm_num [binary, Rounding.gamma]

/-- the hypotheses of `C79_kernels`: the linear kernel and the polynomial kernel of degree 2, the second one normalising, on three samples with one feature, in double precision -/
example : let A : Arr2 (List ℝ) := ⟨3, 1, fun i => [(i : ℝ) + 1]⟩
    let k : Nat → NumKernel := fun r => if r = 0 then .linear else .poly 2 1 0
    let norm : Nat → Bool := fun r => r != 0
    let G : Nat → Matrix (Fin 3) (Fin 3) ℝ := fun r i j => (((i : Nat) + 1 : ℝ) * ((j : Nat) + 1)) ^ (if r = 0 then 1 else 2)
    let s : SetSt NumKernel (List ℝ) := ⟨⟨fun r => some (.km (KMState.init (k r) (norm r) 0)), 2⟩, ⟨[0, 1], .unset, true⟩⟩
    ∀ r ∈ s.set.members, s.heap.IsKM (floatEnv (binary 53 (by norm_num))) r (k r) (norm r) ∧ (k r).ValidOn A ∧ (k r).IsGram A (G r) ∧
      2 * ((k r).roundings A.ncols * (binary 53 (by norm_num)).u) < 1 ∧ (norm r = true → ∀ i, 1e-8 < (1 - (binary 53 (by norm_num)).gamma ((k r).roundings A.ncols)) * G r i i) := by
  intro A k norm G s r hr
  have hr' : r = 0 ∨ r = 1 := by simpa [s] using hr
  refine ⟨⟨_, rfl, .new 0⟩, ⟨fun _ _ => rfl, ?_⟩, fun i j => ?_, ?_, fun h i => ?_⟩
  · rcases hr' with rfl | rfl
    · trivial
    · exact ⟨by norm_num, by norm_num, by norm_num⟩
  · rw [call_vec (x := A.row i) (y := A.row j) (k r) rfl]
    rcases hr' with rfl | rfl
    · show Except.ok (F.real (List.sum [((i : Nat) + 1 : ℝ) * ((j : Nat) + 1)])) = .ok (.real ((((i : Nat) + 1 : ℝ) * ((j : Nat) + 1)) ^ 1))
      rw [List.sum_singleton, pow_one]
    · show Except.ok (intPow (0 + 1 * List.sum [((i : Nat) + 1 : ℝ) * ((j : Nat) + 1)]) 2) = .ok (.real ((((i : Nat) + 1 : ℝ) * ((j : Nat) + 1)) ^ 2))
      rw [List.sum_singleton, intPow, if_neg (by norm_num), zero_add, one_mul]
      norm_cast
  · rcases hr' with rfl | rfl
    · show 2 * ((1 : Nat) * (binary 53 (by norm_num)).u) < 1
      norm_num [binary]
    · show 2 * ((7 : Nat) * (binary 53 (by norm_num)).u) < 1
      norm_num [binary]
  · obtain rfl := hr'.resolve_left (by rintro rfl; cases h)
    show 1e-8 < (1 - (binary 53 (by norm_num)).gamma 7) * (((i : Nat) + 1 : ℝ) * ((i : Nat) + 1)) ^ 2
    have h1 : (1 : ℝ) ≤ (((i : Nat) + 1 : ℝ) * ((i : Nat) + 1)) ^ 2 := by
      have : (0 : ℝ) ≤ (i : Nat) := Nat.cast_nonneg _
      exact one_le_pow₀ (one_le_mul_of_one_le_of_one_le (by linarith) (by linarith))
    have h2 : (1 / 2 : ℝ) ≤ 1 - (binary 53 (by norm_num)).gamma 7 := by norm_num [binary, Rounding.gamma]
    have h3 := mul_le_mul h2 h1 zero_le_one (by linarith)
    linarith

end KMethods
