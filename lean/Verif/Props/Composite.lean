import Verif.Lemmas.Fits
import Verif.Lemmas.World
import Verif.Spec.DemoSet
/-!
# C26, C32-C35: `linear_combination` and composite kernels
-/
namespace KMethods
open PyM
variable {K X : Type} {env : Env K X F} {P : Fmt → Prop}

/-! ## C26 -/

/-- **C26** The result is `sum_k w_k K_k`: members attached to one sample, or to two samples; `norm_weights=False`. -/
theorem C26_value {n m : Nat} {h : Heap K X} {t : KSet} {Ks : List (Matrix (Fin n) (Fin m) ℝ)} {w : WeightsIn} {l : List ℝ}
    (hn : t.numSamples = .two n m ∨ (n = m ∧ t.numSamples = .one n ∧ t.members ≠ [])) (hg : h.GivesAll env P t.members Ks) (hw : w.IsVec l)
    (hl : l.length = t.members.length) :
    ∃ h' f, linearCombination env t w false h = (.ok (f, Mat.ofReal (wsum l Ks)), h') ∧ ((∀ g, P g → g = .dense) → f = .dense) := by
  have hc : combWeights t.members.length w false = .ok (l.map F.real) := by
    show (w.checked t.members.length >>= _) = _
    rw [hw.checked, if_pos hl.symm]; rfl
  exact linearCombination_run hc hl hn hg

/-- **C26** With `norm_weights=True` the weights are divided by their sum, unless that is close to 0: `RuntimeError`. -/
theorem C26_normalised {n m : Nat} {h : Heap K X} {t : KSet} {Ks : List (Matrix (Fin n) (Fin m) ℝ)} {w : WeightsIn} {l : List ℝ}
    (hn : t.numSamples = .two n m ∨ (n = m ∧ t.numSamples = .one n ∧ t.members ≠ [])) (hg : h.GivesAll env P t.members Ks) (hw : w.IsVec l)
    (hl : l.length = t.members.length) :
    (NearZero l.sum → linearCombination env t w true h = (.error .runtimeError, h)) ∧
    (¬ NearZero l.sum → ∃ h' f, linearCombination env t w true h = (.ok (f, Mat.ofReal (wsum (l.map (· / l.sum)) Ks)), h') ∧
      ((∀ g, P g → g = .dense) → f = .dense)) := by
  classical
  have hc : combWeights t.members.length w true =
      if NearZero l.sum then .error .runtimeError else .ok ((l.map (· / l.sum)).map F.real) := by
    show (w.checked t.members.length >>= _) = _
    rw [hw.checked, if_pos hl.symm]
    show (if F.isClose ((l.map F.real).foldl (· + ·) (.real 0)) 0 then _ else _) = _
    rw [foldl_real, zero_add]
    by_cases hz : NearZero l.sum
    · rw [if_pos hz, if_pos ((F.isClose_zero _).2 hz)]
    · rw [if_neg hz, if_neg fun h => hz ((F.isClose_zero _).1 h)]
      show Except.ok ((l.map F.real).map (· / (l.map F.real).foldl (· + ·) (.real 0))) = _
      rw [foldl_real, zero_add]
      rw [List.map_map, List.map_map]
      congr 2
      funext x
      exact F.real_div _ _ fun h0 => hz (by rw [h0]; simp only [NearZero, abs_zero]; norm_num)
  constructor
  · intro hz
    rw [if_pos hz] at hc
    show (lift (combWeights t.members.length w true) >>= _ : PyM (Heap K X) _) h = _
    rw [hc]; rfl
  · intro hz
    rw [if_neg hz] at hc
    exact linearCombination_run hc (by simpa using hl) hn hg

/-- **C26** A wrong number of weights is a `ValueError`, and nothing changes. -/
theorem C26_wrong_number {h : Heap K X} {t : KSet} {w : WeightsIn} {l : List ℝ} (hw : w.IsVec l) (hl : l.length ≠ t.members.length) (norm : Bool) :
    linearCombination env t w norm h = (.error .valueError, h) := by
  have hc : combWeights t.members.length w norm = .error .valueError := by
    show (w.checked t.members.length >>= _) = _
    rw [hw.checked, if_neg (Ne.symm hl)]; rfl
  show (lift (combWeights t.members.length w norm) >>= _ : PyM (Heap K X) _) h = _
  rw [hc]; rfl

/-- **C26** Non-negative weights and positive semidefinite kernel matrices give a positive semidefinite result, also with normalised weights. -/
theorem C26_psd {n : Nat} {h : Heap K X} {t : KSet} {Ks : List (Matrix (Fin n) (Fin n) ℝ)} {w : WeightsIn} {l : List ℝ}
    (hn : t.numSamples = .one n) (h0 : t.members ≠ []) (hg : h.GivesAll env P t.members Ks) (hw : w.IsVec l) (hl : l.length = t.members.length)
    (hpos : ∀ x ∈ l, 0 ≤ x) (hK : ∀ A ∈ Ks, IsPSD A) (norm : Bool) (hz : norm = true → ¬ NearZero l.sum) :
    ∃ h' f, ∃ A : Matrix (Fin n) (Fin n) ℝ, linearCombination env t w norm h = (.ok (f, Mat.ofReal A), h') ∧ IsPSD A := by
  cases norm with
  | false =>
    obtain ⟨h', f, e, -⟩ := C26_value (.inr ⟨rfl, hn, h0⟩) hg hw hl
    exact ⟨h', f, _, e, isPSD_wsum hpos hK⟩
  | true =>
    obtain ⟨h', f, e, -⟩ := (C26_normalised (.inr ⟨rfl, hn, h0⟩) hg hw hl).2 (hz rfl)
    refine ⟨h', f, _, e, isPSD_wsum (fun x hx => ?_) hK⟩
    obtain ⟨y, hy, rfl⟩ := List.mem_map.1 hx
    exact div_nonneg (hpos y hy) (List.sum_nonneg hpos)

/-! ## C32 -/

open CompSt

/-- **C32** `SumKernel`: `fit(w)` gives the weighted sum, `fit()` the plain sum, also on every later refit. -/
theorem C32_sum {n : Nat} {s : CompSt K X} {Ks : List (Matrix (Fin n) (Fin n) ℝ)} (hk : s.comp.kind = .sum) (hn : s.comp.numSamples = .one n)
    (hg : s.heap.GivesAll env P s.set.members Ks) :
    s.Fits env P none (fun i j => (Ks.map fun A => A i j).sum) ∧
    ∀ w l, WeightsIn.IsVec w l → l.length = s.set.members.length → s.Fits env P (some w) (wsum l Ks) := by
  have hlen : Ks.length = s.set.members.length := (List.Forall₂.length_eq hg).symm
  constructor
  · have e : (fun i j => (Ks.map fun A => A i j).sum) = wsum (List.replicate Ks.length 1) Ks := by
      rw [wsum_replicate]; simp only [one_mul]
    rw [e, hlen]
    refine fits_weighted hn hg ?_
    unfold fitBody
    rw [hk]
    show (weightedSum env (List.replicate s.set.members.length (.real 1))) s = _
    rw [List.map_replicate]
  · intro w l hw hl
    refine fits_weighted hn hg ?_
    unfold fitBody
    rw [hk]
    show (lift (sumWeights s.set.members.length (some w)) >>= fun l => weightedSum env l : PyM (CompSt K X) Unit) s = _
    have : sumWeights s.set.members.length (some w) = .ok (l.map F.real) := by
      show (w.to1D >>= fun l => if l.length ≠ s.set.members.length then _ else _) = _
      rw [hw.to1D]
      show (if (l.map F.real).length ≠ _ then _ else _) = _
      rw [if_neg (by simpa using hl)]
    rw [this]; rfl

/-- **C32** `AverageKernel`: the mean. -/
theorem C32_average {n : Nat} {s : CompSt K X} {Ks : List (Matrix (Fin n) (Fin n) ℝ)} (hk : s.comp.kind = .average) (hn : s.comp.numSamples = .one n)
    (hne : s.set.members ≠ []) (hg : s.heap.GivesAll env P s.set.members Ks) : s.Fits env P none (emean Ks) :=
  fits_average hk hn hne hg

/-- **C32** `WeightedAverageKernel`: `sum_k w_k K_k`. -/
theorem C32_weighted {n : Nat} {s : CompSt K X} {Ks : List (Matrix (Fin n) (Fin n) ℝ)} {l : List ℝ} (hk : s.comp.kind = .weighted (l.map F.real))
    (hn : s.comp.numSamples = .one n) (hg : s.heap.GivesAll env P s.set.members Ks) : s.Fits env P none (wsum l Ks) := by
  refine fits_weighted hn hg ?_
  unfold fitBody
  rw [hk]; rfl

/-- **C32** `ProductKernel`: the element-wise product, if the members have dense storage. -/
theorem C32_product_partial {n : Nat} {s : CompSt K X} {Ks : List (Matrix (Fin n) (Fin n) ℝ)} (hk : s.comp.kind = .product)
    (hn : s.comp.numSamples = .one n) (hg : s.heap.GivesAll env IsDense s.set.members Ks) : s.Fits env IsDense none (eprod Ks) :=
  fits_product hk hn hg

theorem Demo.full_spr : KMState.full Demo.renv Demo.spr = (.ok (.sparse, Mat.ofReal (Demo.rB.gramR (· * ·))), Demo.spr) := by
  obtain ⟨fmt, hc⟩ := C10_full_contents_partial (env := Demo.renv) (fun _ _ _ _ _ => rfl) (fun h => by cases h) Demo.since_spr
  rw [exec_full_run] at hc
  obtain ⟨M, h1⟩ : ∃ M, KMState.full Demo.renv Demo.spr = (.ok (.sparse, M), Demo.spr) := ⟨_, rfl⟩
  rw [h1] at hc ⊢
  have hc' : Except.ok (KMOut.mat Fmt.sparse M) = Except.ok (KMOut.mat fmt _) := hc
  rw [(KMOut.mat.inj (Except.ok.inj hc')).2, gram_ofReal (kv := Demo.renv.kval ()) (κ := (· * ·)) fun _ _ _ _ => rfl]

/-- **C32** does not hold for `ProductKernel` without the condition on storage: after `km[:, :]` on its members, `fit` computes matrix products. -/
theorem C32_product_violated : ¬ ∀ (K X : Type) (env : Env K X F) (n : Nat) (s : CompSt K X) (Ks : List (Matrix (Fin n) (Fin n) ℝ)),
    s.comp.kind = .product → s.comp.numSamples = .one n → s.heap.GivesAll env AnyFmt s.set.members Ks → s.Fits env AnyFmt none (eprod Ks) := by
  intro h
  have hg : ∀ r, r < 2 → Demo.heapS.Gives Demo.renv AnyFmt r (Mat.ofReal (Demo.rB.gramR (· * ·))) := by
    intro r hr
    unfold Heap.Gives
    rw [show Demo.heapS.objs r = some (.km Demo.spr) from if_pos hr]
    exact givesFull_any rfl (fun _ _ _ _ _ => rfl) (fun _ _ _ _ => rfl) Demo.since_spr
  let G : Matrix (Fin 2) (Fin 2) ℝ := Demo.rB.gramR (· * ·)
  obtain ⟨s', f, e1, e2, -⟩ := h Unit ℝ Demo.renv 2 ⟨Demo.heapS, ⟨[0, 1], .one 2, true⟩, ⟨.product, .one 2, false, none⟩⟩ [G, G] rfl rfl
    (.cons (hg 0 (by decide)) (.cons (hg 1 (by decide)) .nil))
  have hb := product_two_sparse (env := Demo.renv) (h := Demo.heapS) (t := ⟨[0, 1], .one 2, true⟩) (c := ⟨.product, .one 2, false, none⟩)
    (Heap.full_fix (if_pos (by decide)) Demo.full_spr) (Heap.full_fix (if_pos (by decide)) Demo.full_spr) rfl rfl rfl
  rw [e1] at hb
  have e4 : Mat.ofReal (eprod [G, G]) = Mat.ofReal ((Matrix.of fun (_ _ : Fin 2) => (1 : ℝ)) * G * G) :=
    (Prod.mk.inj (Except.ok.inj (e2.symm.trans hb))).2
  have e5 := F.real.inj (congrFun (congrFun (eq_of_heq (Mat.mk.inj e4).2.2) 0) 0)
  have g00 : G 0 0 = 1 := by show ((min 0 0 : Nat) + 1 : ℝ) * ((max 0 0 : Nat) + 1) = 1; norm_num
  have g01 : G 0 1 = 2 := by show ((min 0 1 : Nat) + 1 : ℝ) * ((max 0 1 : Nat) + 1) = 2; norm_num
  have g10 : G 1 0 = 2 := by show ((min 1 0 : Nat) + 1 : ℝ) * ((max 1 0 : Nat) + 1) = 2; norm_num
  have g11 : G 1 1 = 4 := by show ((min 1 1 : Nat) + 1 : ℝ) * ((max 1 1 : Nat) + 1) = 4; norm_num
  simp [Matrix.mul_apply, Fin.sum_univ_two, g00, g01, g10, g11, eprod] at e5
  norm_num at e5

/-- three members, two of them the same object, attached to the sample 1, 2, 3 with the kernel `x * y` -/
theorem Demo.gives3 : Demo.heapA.GivesAll Demo.renv IsDense [2, 0, 2] (List.replicate 3 (Demo.rA.gramR (· * ·))) := by
  have h : ∀ r, r < 3 → Demo.heapA.Gives Demo.renv IsDense r (Mat.ofReal (Demo.rA.gramR (· * ·))) := by
    intro r hr
    unfold Heap.Gives
    rw [show Demo.heapA.objs r = some (.km (Demo.rst false)) from if_pos hr]
    exact givesFull_dense rfl (fun _ _ _ _ _ => rfl) (fun _ _ _ _ => rfl) (Demo.since_rst false _)
  exact .cons (h 2 (by decide)) (.cons (h 0 (by decide)) (.cons (h 2 (by decide)) .nil))

/-- the hypotheses of the theorems above are met, for every class of composite kernel -/
example : (WeightsIn.arr ⟨.float64, [3, 1], [.real 1, .real 2, .real (-3)]⟩).IsVec [1, 2, -3] ∧
    ∀ cls, (∀ w, cls = .weighted w → w.IsVec [1, 2, -3]) →
      ∃ c, mkComposite cls (some ⟨[2, 0, 2], .one 3, true⟩) = .ok c ∧ c.numSamples = .one 3 := by
  refine ⟨⟨.float64, 1, by decide, rfl⟩, fun cls h => ?_⟩
  cases cls with
  | sum => exact ⟨_, rfl, rfl⟩
  | product => exact ⟨_, rfl, rfl⟩
  | average => exact ⟨_, rfl, rfl⟩
  | weighted w =>
    refine ⟨⟨.weighted ([1, 2, -3].map F.real), .one 3, false, none⟩, ?_, rfl⟩
    show (w.checked 3).map _ = _
    rw [(h w rfl).checked]; rfl

/-- **C32** `SumKernel.fit(w)` does the same as `WeightedAverageKernel(w).fit()`, whatever the members are and do: same result or exception, same
matrix, same effect on the members. -/
theorem C32_sum_eq_weighted (s : CompSt K X) (hk : s.comp.kind = .sum) {w : WeightsIn} {l : List ℝ} (hw : w.IsVec l)
    (hl : l.length = s.set.members.length) {s2 : CompSt K X} (h1 : s2.heap = s.heap) (h2 : s2.set = s.set)
    (h3 : s2.comp = { s.comp with kind := .weighted (l.map F.real) }) :
    (fit env (some w) s).1 = (fit env none s2).1 ∧ (fit env (some w) s).2.heap = (fit env none s2).2.heap ∧
    (compositeKM (fit env (some w) s).2).1 = (compositeKM (fit env none s2).2).1 := by
  have hcomp : ∀ s' : CompSt K X, (compositeKM s').1 = (compositeKM (s'.withKind (.weighted (l.map F.real)))).1 := by
    intro s'
    rw [compositeKM_eq, compositeKM_eq]
    rfl
  obtain rfl : s2 = s.withKind (.weighted (l.map F.real)) := by
    rcases s2 with ⟨a, b, c⟩
    subst h1 h2 h3
    rfl
  have e1 : fitBody env (some w) s s = weightedSum env (l.map F.real) s := by
    unfold fitBody
    rw [hk]
    show (lift (sumWeights s.set.members.length (some w)) >>= fun l => weightedSum env l : PyM (CompSt K X) Unit) s = _
    have : sumWeights s.set.members.length (some w) = .ok (l.map F.real) := by
      show (w.to1D >>= fun l => if l.length ≠ s.set.members.length then _ else _) = _
      rw [hw.to1D]
      show (if (l.map F.real).length ≠ _ then _ else _) = _
      rw [if_neg (by simpa using hl)]
    rw [this]; rfl
  have e2 : fitBody env none (s.withKind (.weighted (l.map F.real))) (s.withKind (.weighted (l.map F.real))) =
      weightedSum env (l.map F.real) (s.withKind (.weighted (l.map F.real))) := rfl
  rw [fit_run, fit_run, e1, e2, weightedSum_withKind]
  rcases weightedSum env (l.map F.real) s with ⟨e | _, s'⟩
  · exact ⟨rfl, rfl, hcomp _⟩
  · exact ⟨rfl, rfl, hcomp { s' with comp := { s'.comp with isFitted := true } }⟩

/-- **C32** `AverageKernel` is `WeightedAverageKernel` with the weights `1/N`. -/
theorem C32_average_eq_weighted {n : Nat} {s s2 : CompSt K X} {Ks : List (Matrix (Fin n) (Fin n) ℝ)} (hk : s.comp.kind = .average)
    (hk2 : s2.comp.kind = .weighted ((List.replicate s.set.members.length (1 / (s.set.members.length : ℝ))).map F.real))
    (hn : s.comp.numSamples = .one n) (hn2 : s2.comp.numSamples = .one n) (hh : s2.heap = s.heap) (hm : s2.set = s.set) (hne : s.set.members ≠ [])
    (hg : s.heap.GivesAll env P s.set.members Ks) :
    ∃ A : Matrix (Fin n) (Fin n) ℝ, s.Fits env P none A ∧ s2.Fits env P none A := by
  refine ⟨emean Ks, C32_average hk hn hne hg, ?_⟩
  have hlen : Ks.length = s.set.members.length := (List.Forall₂.length_eq hg).symm
  have e : emean Ks = wsum (List.replicate s.set.members.length (1 / (s.set.members.length : ℝ))) Ks := by
    rw [← hlen, wsum_replicate]
    funext i j
    show _ / _ = _
    rw [one_div, div_eq_inv_mul]
  rw [e]
  exact C32_weighted hk2 hn2 (by rw [hh, hm]; exact hg)

/-- **C32** `SumKernel.fit(w)` gives what `linear_combination(w)` returns. -/
theorem C32_sum_eq_linear_combination {n : Nat} {s : CompSt K X} {Ks : List (Matrix (Fin n) (Fin n) ℝ)} (hk : s.comp.kind = .sum)
    (hn : s.comp.numSamples = .one n) (hn' : s.set.numSamples = .one n) (hne : s.set.members ≠ []) (hg : s.heap.GivesAll env P s.set.members Ks)
    {w : WeightsIn} {l : List ℝ} (hw : w.IsVec l) (hl : l.length = s.set.members.length) :
    ∃ (A : Matrix (Fin n) (Fin n) ℝ) (f : Fmt), s.Fits env P (some w) A ∧ (linearCombination env s.set w false s.heap).1 = .ok (f, Mat.ofReal A) := by
  obtain ⟨h', f, e, -⟩ := C26_value (env := env) (.inr ⟨rfl, hn', hne⟩) hg hw hl
  exact ⟨wsum l Ks, f, (C32_sum hk hn hg).2 w l hw hl, by rw [e]⟩

/-! ## C33 -/

/-- **C33** Positive semidefinite kernel matrices are composed to positive semidefinite ones: sum with non-negative weights, -/
theorem C33_sum {n : Nat} {s : CompSt K X} {Ks : List (Matrix (Fin n) (Fin n) ℝ)} (hk : s.comp.kind = .sum) (hn : s.comp.numSamples = .one n)
    (hg : s.heap.GivesAll env P s.set.members Ks) (hK : ∀ A ∈ Ks, IsPSD A) :
    (∃ A : Matrix (Fin n) (Fin n) ℝ, s.Fits env P none A ∧ IsPSD A) ∧
    ∀ w l, WeightsIn.IsVec w l → l.length = s.set.members.length → (∀ x ∈ l, 0 ≤ x) →
      ∃ A : Matrix (Fin n) (Fin n) ℝ, s.Fits env P (some w) A ∧ IsPSD A :=
  ⟨⟨_, (C32_sum hk hn hg).1, isPSD_list_sum Ks hK⟩, fun w l hw hl h0 => ⟨_, (C32_sum hk hn hg).2 w l hw hl, isPSD_wsum h0 hK⟩⟩

/-- **C33** average, -/
theorem C33_average {n : Nat} {s : CompSt K X} {Ks : List (Matrix (Fin n) (Fin n) ℝ)} (hk : s.comp.kind = .average)
    (hn : s.comp.numSamples = .one n) (hne : s.set.members ≠ []) (hg : s.heap.GivesAll env P s.set.members Ks) (hK : ∀ A ∈ Ks, IsPSD A) :
    ∃ A : Matrix (Fin n) (Fin n) ℝ, s.Fits env P none A ∧ IsPSD A := ⟨_, C32_average hk hn hne hg, isPSD_emean hK⟩

/-- **C33** weighted average with non-negative weights, -/
theorem C33_weighted {n : Nat} {s : CompSt K X} {Ks : List (Matrix (Fin n) (Fin n) ℝ)} {l : List ℝ} (hk : s.comp.kind = .weighted (l.map F.real))
    (hn : s.comp.numSamples = .one n) (hg : s.heap.GivesAll env P s.set.members Ks) (hl : ∀ x ∈ l, 0 ≤ x) (hK : ∀ A ∈ Ks, IsPSD A) :
    ∃ A : Matrix (Fin n) (Fin n) ℝ, s.Fits env P none A ∧ IsPSD A := ⟨_, C32_weighted hk hn hg, isPSD_wsum hl hK⟩

/-- **C33** product (in dense storage, see C32). -/
theorem C33_product {n : Nat} {s : CompSt K X} {Ks : List (Matrix (Fin n) (Fin n) ℝ)} (hk : s.comp.kind = .product)
    (hn : s.comp.numSamples = .one n) (hg : s.heap.GivesAll env IsDense s.set.members Ks) (hK : ∀ A ∈ Ks, IsPSD A) :
    ∃ A : Matrix (Fin n) (Fin n) ℝ, s.Fits env IsDense none A ∧ IsPSD A := ⟨_, C32_product_partial hk hn hg, isPSD_eprod hK⟩

/-- the Gram matrix of `x * y` is positive semidefinite -/
example : IsPSD (Demo.rA.gramR (· * ·)) := by
  have h := isPSD_rank_one fun i : Fin 3 => (i : ℝ) + 1
  have e : Demo.rA.gramR (· * ·) = fun i j : Fin 3 => ((i : ℝ) + 1) * ((j : ℝ) + 1) := by
    funext i j
    show ((min (i:Nat) j : Nat) + 1 : ℝ) * ((max (i:Nat) j : Nat) + 1) = _
    rcases le_total (i:Nat) j with hij | hij
    · rw [min_eq_left hij, max_eq_right hij]
    · rw [min_eq_right hij, max_eq_left hij, mul_comm]
  rw [e]; exact h

/-! ## C34 -/

/-- **C34** construction: `TypeError` for something that is not a `KernelSet`, `ValueError` for less than two members or a set that is not attached,
otherwise a composite kernel that is not fitted. -/
theorem C34_construct (cls : CompClass) (hcls : ∀ w, cls ≠ .weighted w) :
    mkComposite cls none = .error .typeError ∧
    ∀ t : KSet, (t.members.length < 2 ∨ t.numSamples = .unset → mkComposite cls (some t) = .error .valueError) ∧
      (2 ≤ t.members.length → t.numSamples ≠ .unset →
        ∃ c, mkComposite cls (some t) = .ok c ∧ c.isFitted = false ∧ c.numSamples = t.numSamples ∧
          c.kind = match cls with | .sum => .sum | .product => .product | _ => .average) := by
  refine ⟨rfl, fun t => ⟨fun h => ?_, fun h1 h2 => ?_⟩⟩
  · unfold mkComposite
    simp only
    by_cases h2 : t.members.length < 2
    · rw [if_pos h2]
    · rw [if_neg h2, if_pos (h.resolve_left h2)]
  · unfold mkComposite
    simp only
    rw [if_neg (Nat.not_lt.2 h1), if_neg h2]
    cases cls with
    | sum => exact ⟨_, rfl, rfl, rfl, rfl⟩
    | product => exact ⟨_, rfl, rfl, rfl, rfl⟩
    | average => exact ⟨_, rfl, rfl, rfl, rfl⟩
    | weighted w => exact absurd rfl (hcls w)

/-- **C34** the same for `WeightedAverageKernel`, which also checks the number of weights. -/
theorem C34_construct_weighted (w : WeightsIn) :
    mkComposite (.weighted w) none = .error .typeError ∧
    ∀ t : KSet, (t.members.length < 2 ∨ t.numSamples = .unset → mkComposite (.weighted w) (some t) = .error .valueError) ∧
      (2 ≤ t.members.length → t.numSamples ≠ .unset →
        (∀ l, w.IsVec l → l.length ≠ t.members.length → mkComposite (.weighted w) (some t) = .error .valueError) ∧
        (∀ l, w.IsVec l → l.length = t.members.length →
          ∃ c, mkComposite (.weighted w) (some t) = .ok c ∧ c.isFitted = false ∧ c.numSamples = t.numSamples ∧ c.kind = .weighted (l.map F.real)) ∧
        (w = .noLen → mkComposite (.weighted w) (some t) = .error .typeError)) := by
  refine ⟨rfl, fun t => ⟨fun h => ?_, fun h1 h2 => ?_⟩⟩
  · unfold mkComposite
    simp only
    by_cases h2 : t.members.length < 2
    · rw [if_pos h2]
    · rw [if_neg h2, if_pos (h.resolve_left h2)]
  · unfold mkComposite
    simp only
    rw [if_neg (Nat.not_lt.2 h1), if_neg h2]
    refine ⟨fun l hw hl => ?_, fun l hw hl => ?_, ?_⟩
    · rw [hw.checked, if_neg (Ne.symm hl)]; rfl
    · rw [hw.checked, if_pos hl.symm]; exact ⟨_, rfl, rfl, rfl, rfl⟩
    · rintro rfl; rfl

/-- **C34** Until a `fit` has completed, `composite_KM` raises `ValueError`, whatever was done with the set and its members, and however many times
`fit` was tried. -/
theorem C34_not_fitted {s : CompSt K X} (h : CompSt.NeverFitted env s) : compositeKM s = (.error .valueError, s) := by
  have hf : s.comp.isFitted = false := by
    induction h with
    | @new hp t cls c hc =>
      show c.isFitted = false
      by_cases hcls : ∃ w, cls = .weighted w
      · obtain ⟨w, rfl⟩ := hcls
        unfold mkComposite at hc
        simp only at hc
        split at hc
        · cases hc
        · split at hc
          · cases hc
          · rcases hw : w.checked t.members.length with e | l
            · rw [hw] at hc; cases hc
            · rw [hw] at hc
              injection hc with hc; rw [← hc]
      · have hcls' : ∀ w, cls ≠ .weighted w := fun w e => hcls ⟨w, e⟩
        have h1 := (C34_construct cls hcls').2 t
        by_cases h2 : t.members.length < 2 ∨ t.numSamples = .unset
        · rw [h1.1 h2] at hc; cases hc
        · obtain ⟨h3, h4⟩ := not_or.1 h2
          obtain ⟨c', e, f, -⟩ := h1.2 (Nat.le_of_not_lt h3) h4
          rw [e] at hc; injection hc with hc; rw [← hc]; exact f
    | @step s op hs hop ih =>
      cases op with
      | append a => exact ih
      | attach sample attr => exact ih
      | member r op =>
        rw [← ih]
        show (PyM.discard (CompSt.onSet (SetSt.onHeap (Heap.call r (KMState.exec env op)))) s).2.comp.isFitted = _
        unfold PyM.discard
        rw [bind_run]
        rcases h : CompSt.onSet (SetSt.onHeap (Heap.call r (KMState.exec env op))) s with ⟨e | v, s'⟩
        · have : s'.comp = s.comp := by rw [show s' = (CompSt.onSet (SetSt.onHeap (Heap.call r (KMState.exec env op))) s).2 from by rw [h]]; rfl
          show s'.comp.isFitted = _; rw [this]
        · have : s'.comp = s.comp := by rw [show s' = (CompSt.onSet (SetSt.onHeap (Heap.call r (KMState.exec env op))) s).2 from by rw [h]]; rfl
          show s'.comp.isFitted = _; rw [this]
      | fit w =>
        have h1 := hop w rfl
        change (fit env w s).1 ≠ _ at h1
        show (fit env w s).2.comp.isFitted = _
        rw [fit_run] at h1 ⊢
        obtain ⟨-, v, hv⟩ := fitBody_frame (env := env) w s
        rcases he : fitBody env w s s with ⟨e | _, s'⟩
        · rw [he] at hv
          have hv' : s'.comp = { s.comp with km := v } := hv
          show s'.comp.isFitted = false
          rw [hv']; exact ih
        · rw [he] at h1; exact absurd rfl h1
  unfold compositeKM
  rw [get_bind_run, hf]
  rfl

/-! ## C35 -/

/-- **C35** does not hold: after a completed `fit`, the set is attached to another sample of the same size, on which the second kernel raises. The
refit raises, and `composite_KM` then returns the matrix of the first kernel alone. -/
theorem C35_violated : ¬ ∀ (K X : Type) (env : Env K X F) (s : CompSt K X) (op : CompOp X) (e : PyErr),
    (fit env none s).1 = .ok () → (fit env none (CompSt.exec env op (fit env none s).2).2).1 = .error e →
    (compositeKM (fit env none (CompSt.exec env op (fit env none s).2).2).2).1 = (compositeKM (fit env none s).2).1 := by
  intro h
  have h1 := h Bool Nat Demo.fenv Demo.fsum (.attach (.arr true [2, 1] fun i => 100 + i) none) .runtimeError rfl rfl
  have h2 := congrArg Demo.cell00 h1
  have h3 : F.real 0 + F.real 1 * F.real ((100 * 100 : Nat) : ℝ) =
      F.real 0 + F.real 1 * F.real ((1 * 1 : Nat) : ℝ) + F.real 1 * F.real ((1 * 1 : Nat) : ℝ) := h2
  rw [F.real_mul, F.real_mul, F.real_add, F.real_add, F.real_add] at h3
  have h4 := F.real.inj h3
  norm_num at h4

/-- **C35** holds for refits that are rejected because of their arguments: nothing changes at all. What is missing: refits that fail later, see above. -/
theorem C35_bad_arguments_partial (s : CompSt K X) (w : WeightsIn)
    (h : s.comp.kind = .sum → (∃ e, w.to1D = .error e) ∨ ∃ l, w.to1D = .ok l ∧ l.length ≠ s.set.members.length) :
    ∃ e, fit env (some w) s = (.error e, s) := by
  rw [fit_run]
  have : ∃ e, fitBody env (some w) s s = (.error e, s) := by
    unfold fitBody
    rcases hk : s.comp.kind with _ | _ | _ | l
    · show ∃ e, (lift (sumWeights s.set.members.length (some w)) >>= fun l => weightedSum env l : PyM (CompSt K X) Unit) s = _
      obtain ⟨e, he⟩ : ∃ e, sumWeights s.set.members.length (some w) = .error e := by
        show ∃ e, (w.to1D >>= fun l => if l.length ≠ s.set.members.length then _ else _) = _
        rcases h hk with ⟨e, he⟩ | ⟨l, he, hl⟩
        · exact ⟨e, by rw [he]; rfl⟩
        · refine ⟨.valueError, ?_⟩
          rw [he]
          show (if l.length ≠ s.set.members.length then _ else _) = _
          rw [if_pos hl]
      rw [he]; exact ⟨e, rfl⟩
    · exact ⟨_, rfl⟩
    · exact ⟨_, rfl⟩
    · exact ⟨_, rfl⟩
  obtain ⟨e, he⟩ := this
  exact ⟨e, by rw [he]⟩

/-- too few weights -/
example : Demo.fsum.comp.kind = .sum ∧ (WeightsIn.arr ⟨.float64, [1], [.real 1]⟩).to1D = .ok [.real 1] ∧ 1 ≠ Demo.fsum.set.members.length :=
  ⟨rfl, rfl, by decide⟩

/-- **C35** A failed refit never makes the object unfitted: `composite_KM` still returns some matrix or raises `AttributeError`, not `ValueError`. -/
theorem C35_stays_fitted_partial (s : CompSt K X) (w : Option WeightsIn) (h : s.comp.isFitted = true) :
    (fit env w s).2.comp.isFitted = true ∧ (compositeKM (fit env w s).2).1 ≠ .error .valueError := by
  have : (fit env w s).2.comp.isFitted = true := by
    rw [fit_run]
    obtain ⟨-, v, hv⟩ := fitBody_frame (env := env) w s
    rcases he : fitBody env w s s with ⟨e | _, s'⟩
    · rw [he] at hv
      have hv' : s'.comp = { s.comp with km := v } := hv
      show s'.comp.isFitted = true
      rw [hv']; exact h
    · rfl
  refine ⟨this, ?_⟩
  rw [compositeKM_eq]
  show (if (fit env w s).2.comp.isFitted then _ else _) ≠ _
  rw [if_pos this]
  split <;> simp

/-! ## the whole chain -/

/-- **C33** Kernels of the library that are valid on a sample, members of a set which is attached to that sample, whatever was done with them before:
then `SumKernel(set).fit()` gives a positive semidefinite matrix, namely the sum of the matrices of kernel values. -/
theorem C33_pipeline {A : Arr2 (List ℝ)} {numeric : Bool} {sample : SetSample (List ℝ)}
    (hs : sample = .arr numeric [A.nrows, A.ncols] A.row) (hnum : numeric = true) {s : SetSt NumKernel (List ℝ)}
    (hn : s.set.numSamples = .unset ∨ s.set.numSamples = .one A.nrows) (h2 : 2 ≤ s.set.members.length)
    (hm : ∀ r ∈ s.set.members, ∃ k, s.heap.IsKM (numEnv realOps) r k false ∧ k.ValidOn A) :
    ∃ s' c Ks, SetSt.attach sample none s = (.ok (), s') ∧ mkComposite .sum (some s'.set) = .ok c ∧
      List.Forall₂ (fun r G => ∃ k, s.heap.IsKM (numEnv realOps) r k false ∧ k.IsGram A G ∧ IsPSD G) s.set.members Ks ∧
      CompSt.Fits (numEnv realOps) IsDense none ⟨s'.heap, s'.set, c⟩ (fun i j => (Ks.map fun G => G i j).sum) ∧
      IsPSD (fun i j => (Ks.map fun G : Matrix (Fin A.nrows) (Fin A.nrows) ℝ => G i j).sum) := by
  subst hs hnum
  have hc : (SetSample.arr true [A.nrows, A.ncols] A.row).check = .ok A.nrows := by
    show (ensureShape2D [A.nrows, A.ncols] >>= fun sh => if true then pure sh.1 else .error .valueError) = _
    rw [(ensureShape2D_iff [A.nrows, A.ncols] A.nrows A.ncols).2 ⟨0, rfl⟩]
    rfl
  obtain ⟨h', e, -, -, hm'⟩ := attach_ok_run hc none s hn fun r hr => by
    obtain ⟨k, ⟨t, ht, -⟩, -⟩ := hm r hr
    exact ⟨t, ht⟩
  have hG : ∀ r ∈ s.set.members, ∃ G : Matrix (Fin A.nrows) (Fin A.nrows) ℝ,
      (∃ k, s.heap.IsKM (numEnv realOps) r k false ∧ k.IsGram A G ∧ IsPSD G) ∧ h'.Gives (numEnv realOps) IsDense r (Mat.ofReal G) := by
    intro r hr
    obtain ⟨k, ⟨t, ht, hreach⟩, hv⟩ := hm r hr
    obtain ⟨G, hpsd, hgram⟩ := psdOn_of_validOn hv
    refine ⟨G, ⟨k, ⟨t, ht, hreach⟩, hgram, hpsd⟩, ?_⟩
    unfold Heap.Gives
    rw [hm' r t hr ht]
    have hat : KMState.exec (numEnv realOps) (.attach (.arr [A.nrows, A.ncols] A.row) none) t = (.ok .none, _) :=
      exec_attach (two := none) (a := ⟨A, none⟩) ⟨⟨0, rfl⟩, trivial⟩ t
    have hst : (KMState.exec (numEnv realOps) (.attach (.arr [A.nrows, A.ncols] A.row) none) t).2 =
        (KMState.attach (.arr [A.nrows, A.ncols] A.row) none t).2 := by rw [KMState.exec_attach_run]
    have hsince : KMState.SinceDense (numEnv realOps) k false ⟨A, none⟩ (KMState.attach (.arr [A.nrows, A.ncols] A.row) none t).2 := by
      rw [← hst, hat]
      exact .attached (two := none) hreach ⟨⟨0, rfl⟩, trivial⟩ hat
    have := givesFull_dense rfl (hgram.noFaultsOn realOps) (hgram.realOn realOps) hsince
    rw [hgram.gramR realOps hpsd.1] at this
    exact this
  obtain ⟨Ks, hKs⟩ : ∃ Ks : List (Matrix (Fin A.nrows) (Fin A.nrows) ℝ), List.Forall₂ (fun r G =>
      (∃ k, s.heap.IsKM (numEnv realOps) r k false ∧ k.IsGram A G ∧ IsPSD G) ∧ h'.Gives (numEnv realOps) IsDense r (Mat.ofReal G)) s.set.members Ks := by
    clear hm' e hn h2 hm
    generalize s.set.members = l at hG
    induction l with
    | nil => exact ⟨[], .nil⟩
    | cons r l ih =>
      obtain ⟨G, h⟩ := hG r List.mem_cons_self
      obtain ⟨Ks, hKs⟩ := ih fun r hr => hG r (List.mem_cons_of_mem _ hr)
      exact ⟨G :: Ks, .cons h hKs⟩
  have hpsd : ∀ G ∈ Ks, IsPSD G := by
    intro G hG'
    clear hm' e hn h2 hm hG
    generalize s.set.members = l at hKs
    induction hKs with
    | nil => cases hG'
    | cons h _ ih =>
      rcases List.mem_cons.1 hG' with rfl | h1
      · obtain ⟨⟨_, _, _, h⟩, _⟩ := h; exact h
      · exact ih h1
  obtain ⟨c, hc1, -, hc3, hc4⟩ := ((C34_construct .sum (by intro w h; cases h)).2 { s.set with numSamples := .one A.nrows }).2 h2 (by simp)
  exact ⟨_, c, Ks, e, hc1, hKs.imp fun _ _ h => h.1, (C32_sum (s := ⟨h', { s.set with numSamples := .one A.nrows }, c⟩) hc4 hc3 (hKs.imp fun _ _ h => h.2)).1, isPSD_list_sum Ks hpsd⟩

/-- a linear and a Gaussian kernel on three points -/
example : (NumKernel.linear).ValidOn ⟨3, 1, fun i => [(i:ℝ)]⟩ ∧ (NumKernel.gaussian 1 2).ValidOn ⟨3, 1, fun i => [(i:ℝ)]⟩ :=
  ⟨⟨fun _ _ => rfl, trivial⟩, fun _ _ => rfl, zero_le_two⟩

end KMethods
