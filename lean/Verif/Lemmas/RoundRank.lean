import Verif.Lemmas.RoundAlign
import Verif.Lemmas.RoundPipeline
import Verif.Lemmas.Defaults
import Verif.Props.Rounding
/-! # Ranking by alignment in floating point arithmetic -/
namespace KMethods
open F Rounding KMState PyM

variable {R : Rounding} {n : Nat}

theorem idealKernelFl_real (y : Fin n → ℝ) : idealKernelFl R ((List.ofFn y).map .real) = Mat.ofReal fun i j => R.fl (y i * y j) := by
  unfold idealKernelFl Mat.ofReal Mat.ofCells
  rw [List.length_map, List.length_ofFn]
  congr 1
  funext i j
  beta_reduce
  rw [getD_lt _ _ (by rw [List.length_map, List.length_ofFn]; exact i.2), getD_lt _ _ (by rw [List.length_map, List.length_ofFn]; exact j.2), List.getElem_map,
      List.getElem_map, List.getElem_ofFn, List.getElem_ofFn]
  rfl

theorem alignmentCenteredFl_real (o : AlignOrders) (A B : Matrix (Fin n) (Fin n) ℝ) (zd : ZeroDiv) :
    alignmentCenteredFl R o (Mat.ofReal A) (Mat.ofReal B) zd false =
      alignmentOfFl R o (Mat.ofReal (R.centeredFl o.a₁ o.a₂ A)) (Mat.ofReal (R.centeredFl o.b₁ o.b₂ B)) zd := by
  unfold alignmentCenteredFl centerUnlessFl
  rw [if_neg (by rintro (h | h) <;> exact h rfl), if_neg (by simp), if_neg (by simp), centerKmFl_real, centerKmFl_real]
  rfl

/-- the alignment of two inexact matrices -/
theorem alignmentFl_near (o : AlignOrders) {A B A' B' : Matrix (Fin n) (Fin n) ℝ} {s t : Fin n → ℝ} {η θ : ℝ} (hη : 0 ≤ η) (hθ : 0 ≤ θ)
    (hs : ∀ i j, |A i j| ≤ s i * s j) (ht : ∀ i j, |B i j| ≤ t i * t j) (hA : ∀ i j, |A' i j - A i j| ≤ η * (s i * s j))
    (hB : ∀ i j, |B' i j - B i j| ≤ θ * (t i * t j)) (hu : (3 * (n * n) + 2 * n + 4 : Nat) * R.u < 1)
    (cA : R.ClearlyNonzero n (R.centerErr n η (∑ i, s i ^ 2)) (cnorm A)) (cB : R.ClearlyNonzero n (R.centerErr n θ (∑ i, t i ^ 2)) (cnorm B))
    (zd : ZeroDiv) :
    ∃ v, alignmentCenteredFl R o (Mat.ofReal A') (Mat.ofReal B') zd false = .ok (.real v) ∧
      |v - frobInner (centered A) (centered B) / (cnorm A * cnorm B)| ≤
        R.alignErr n (R.centerErr n η (∑ i, s i ^ 2)) (cnorm A) (R.centerErr n θ (∑ i, t i ^ 2)) (cnorm B) := by
  have hu0 := R.u_nonneg
  have hle : ∀ m : Nat, m ≤ 3 * (n * n) + 2 * n + 4 → (m : ℝ) * R.u < 1 := fun m hm =>
    (mul_le_mul_of_nonneg_right (by exact_mod_cast hm) hu0).trans_lt hu
  have dA := centeredFl_dist (R := R) o.a₁ o.a₂ hη hs hA (hle _ (by omega))
  have dB := centeredFl_dist (R := R) o.b₁ o.b₂ hθ ht hB (hle _ (by omega))
  unfold Rounding.ClearlyNonzero at cA cB
  have hn1 : ((n * n + 1 : Nat) : ℝ) * R.u < 1 := hle _ (by nlinarith)
  have h8 : 0 ≤ (1 + R.gamma (n * n + 1)) * 1e-8 := by
    have := gamma_nonneg (R := R) hn1
    positivity
  rw [alignmentCenteredFl_real, (alignmentOfFl_real o _ _ zd).2]
  · refine ⟨_, rfl, ?_⟩
    refine (alignFl_near o (cnorm_eq A) (cnorm_eq B) dA dB (by linarith) (by linarith)).trans ?_
    unfold Rounding.alignErr
    have := pow_w_le (R := R) (3 * (n * n) + 4) (hle _ (by omega))
    linarith
  · rintro (h | h)
    · exact normFl_not_nearZero o.na dA hn1 (by rw [← cnorm_eq]; exact cA) h
    · exact normFl_not_nearZero o.nb dB hn1 (by rw [← cnorm_eq]; exact cB) h

theorem calign_eq {A B : Matrix (Fin n) (Fin n) ℝ} (hA : ¬ NearZero (cnorm A)) (hB : ¬ NearZero (cnorm B)) :
    calign A B = frobInner (centered A) (centered B) / (cnorm A * cnorm B) := by
  unfold calign
  rw [if_neg]
  · rfl
  · rintro (h | h)
    · exact hA h
    · exact hB h

theorem clearly_not_nearZero {a x : ℝ} (ha : 0 ≤ a) (hu : (n * n + 1 : Nat) * R.u < 1) (h : R.ClearlyNonzero n a x) : ¬ NearZero x := by
  intro hz
  have := gamma_nonneg (R := R) hu
  unfold Rounding.ClearlyNonzero at h
  have h1 := (le_abs_self x).trans hz
  have : 0 ≤ R.gamma (n * n + 1) * 1e-8 := by positivity
  linarith

theorem centerErr_nonneg {η t : ℝ} (hη : 0 ≤ η) (ht : 0 ≤ t) (hu : (2 * n + 4 : Nat) * R.u < 1) : 0 ≤ R.centerErr n η t := by
  have := gamma_nonneg (R := R) hu
  unfold Rounding.centerErr
  have h : 0 ≤ (1 + R.gamma (2 * n + 4)) * (1 + η) - 1 := by nlinarith
  positivity

/-! ### choosing the largest of inexact scores -/

theorem best_of_inexact {ι : Type} {l : List ι} {f g : ι → ℝ} {δ : ℝ} (h : ∀ r ∈ l, |f r - g r| ≤ δ) {i : Nat} (hi : FirstBest (l.map f) i) :
    ∃ r, l[i]? = some r ∧ ∀ q ∈ l, g q ≤ g r + 2 * δ := by
  obtain ⟨x, hx, h1, -⟩ := hi
  rw [List.getElem?_map, Option.map_eq_some_iff] at hx
  obtain ⟨r, hr, rfl⟩ := hx
  refine ⟨r, hr, fun q hq => ?_⟩
  have h2 := abs_le.1 (h r (List.mem_of_getElem? hr))
  have h3 := abs_le.1 (h q hq)
  have h4 := h1 (f q) (List.mem_map_of_mem hq)
  linarith [h2.1, h2.2, h3.1, h3.2]

/-! ### the ranking -/

variable {K X : Type} {env : Env K X F}

theorem alignRankingFl_run {s s' : SetSt K X} {A : Arr2 X} (ha : s.NowAttached env s' A) (o : Nat → AlignOrders) (targets : List F)
    {G : Nat → Mat F} (hG : ∀ r ∈ s.set.members, s.heap.MatrixOn env r A (G r)) {sc : Nat → F}
    (hsc : ∀ r ∈ s.set.members, alignmentCenteredFl R (o r) (G r) (idealKernelFl R targets) (.value 0) false = .ok (sc r)) :
    ∃ s'', alignRankingFl env R o targets {} s' = (.ok (s.set.members.map sc), s'') ∧ s.NowAttached env s'' A := by
  obtain ⟨s'', e, h⟩ := mapEach_inv (I := fun s' => s.NowAttached env s' A) (f := alignScoreOneFl env R o targets {})
    (g := sc) s.set.members (fun r hr s1 h1 => by
      obtain ⟨s2, e2, h2⟩ := NowAttached.fullF h1 hr (hG r hr)
      refine ⟨s2, ?_, h2⟩
      show (SetSt.onHeap (Heap.full env r) >>= _ : PyM (SetSt K X) F) s1 = _
      rw [bind_ok e2]
      show (alignmentCenteredFl R (o r) (G r) (idealKernelFl R targets) (.value 0) false, s2) = _
      rw [hsc r hr]) s' ha
  refine ⟨s'', ?_, h⟩
  show mapEach s'.set.members _ s' = _
  rw [ha.1]
  exact e

theorem findOptimalAlignFl_run {A : Arr2 X} {o : Nat → AlignOrders} {targets : List F} {p : MethodParams} {s s' s'' : SetSt K X} {metric : List F} {i r : Nat}
    (ha : SetSt.attach (sampleArg A) none s = (.ok (), s')) (hr : alignRankingFl env R o targets p s' = (.ok metric, s''))
    (hi : argmaxF metric = .ok i) (hmem : s''.set.members[i]? = some r) :
    findOptimalAlignFl env R o (sampleArg A) targets p s = (.ok r, s'') := by
  show (SetSt.attach (sampleArg A) none >>= _ : PyM (SetSt K X) Nat) s = _
  rw [bind_ok ha]
  show (alignRankingFl env R o targets p >>= _ : PyM (SetSt K X) Nat) s' = _
  rw [bind_ok hr]
  show (lift (argmaxF metric) >>= _ : PyM (SetSt K X) Nat) s'' = _
  rw [hi]
  exact getItem_member s'' hmem

/-! ### kernel matrices -/

/-- the matrix that an object computes, once attached -/
theorem FloatEnv.matrixOn {env : Env NumKernel (List ℝ) F} (henv : FloatEnv R env) {k : NumKernel} {A : Arr2 (List ℝ)} (hv : k.ValidOn A) {norm : Bool}
    {h : Heap NumKernel (List ℝ)} {r : Nat} (hk : h.IsKM env r k norm) (hm : 2 * (k.roundings A.ncols * R.u) < 1) (hu : 12 * R.u < 1)
    {K : Matrix (Fin A.nrows) (Fin A.nrows) ℝ} (hK : k.IsGram A K) (hd : norm = true → ∀ i, 1e-8 < (1 - R.gamma (k.roundings A.ncols)) * K i i) :
    ∃ H : Matrix (Fin A.nrows) (Fin A.nrows) ℝ, h.MatrixOn env r A (Mat.ofReal H) ∧ IsPSD (normIf norm K) ∧
      ∀ i j, |H i j - normIf norm K i j| ≤ R.fullErr norm (k.roundings A.ncols) * (Real.sqrt (normIf norm K i i) * Real.sqrt (normIf norm K j j)) := by
  have hm1 : k.roundings A.ncols * R.u < 1 := by
    have : 0 ≤ k.roundings A.ncols * R.u := mul_nonneg (Nat.cast_nonneg _) R.u_nonneg
    linarith
  obtain ⟨K', H, hg, hP, e, hs, hf, herr⟩ := henv.gram hv
  obtain rfl : K' = K := by
    ext i j
    have := (hg i j).symm.trans (hK i j)
    injection this with this; injection this
  cases norm with
  | false =>
    refine ⟨H, ⟨k, false, hk, fun t ht => ?_⟩, hP, fun i j => ?_⟩
    · rw [C08_full_is_gram hf (fun hr => by rw [henv.fmt] at hr; cases hr) (Since.mono (fun op hop => by subst hop; simp [KMOp.MayGoSparse]) ht), e]
    · exact (herr i j).trans (mul_le_mul_of_nonneg_right (pow_w_le _ hm1) (by positivity))
  | true =>
    have hd := hd rfl
    set η := R.gamma (k.roundings A.ncols) with hη
    have h0 : 0 ≤ η := gamma_nonneg hm1
    have hpos : ∀ i, 0 < K' i i := fun i => by
      have := hd i
      rcases (hP.diag_nonneg i).eq_or_lt with h | h
      · rw [← h, mul_zero] at this; norm_num at this
      · exact h
    obtain ⟨o, o', hn⟩ := henv.ops.normalize
    have herr' : ∀ i j, |H i j - K' i j| ≤ η * (Real.sqrt (K' i i) * Real.sqrt (K' j j)) := fun i j =>
      (herr i j).trans (mul_le_mul_of_nonneg_right (pow_w_le _ hm1) (by positivity))
    have hH : ∀ i, 1e-8 < H i i := fun i => by
      have h2 := (abs_le.1 (herr' i i)).1
      rw [Real.mul_self_sqrt (hpos i).le] at h2
      have := hd i
      linarith
    refine ⟨fun i j => R.normEntry (H i i) (H j j) (H i j), ⟨k, true, hk, fun t ht => ?_⟩, hP.cosNorm, fun i j => ?_⟩
    · rw [henv.full_normed hf (Since.mono (fun _ _ => trivial) ht), hn, e, normalizeKmFl_ofReal,
        (normalizeSquareFl_real (R := R) o o' H toLower_cosine fun i => (lt_trans (by norm_num) (hH i)).le).2]
      · rfl
      · rintro ⟨i, hz⟩
        exact absurd ((le_abs_self _).trans hz) (not_le.2 (hH i))
    · have h1 : η < 1 := by
        rw [hη, Rounding.gamma, div_lt_one (by linarith)]
        linarith
      have hk : |K' i j| ≤ Real.sqrt (K' i i) * Real.sqrt (K' j j) := by
        rw [← Real.sqrt_mul (hpos i).le]
        exact Real.abs_le_sqrt (hP.sq_le i j)
      have := normEntry_err (R := R) (s := Real.sqrt (K' i i)) (t := Real.sqrt (K' j j)) (Real.sqrt_pos.2 (hpos i)) (Real.sqrt_pos.2 (hpos j))
        hk h0 h1 (by linarith [R.u_nonneg]) (by rw [Real.sq_sqrt (hpos i).le]; exact herr' i i)
        (by rw [Real.sq_sqrt (hpos j).le]; exact herr' j j) (herr' i j)
      have h1 : ∀ i, cosNorm K' i i = 1 := fun i => by
        rw [cosNorm, Real.sqrt_mul_self (hpos i).le, div_self (hpos i).ne']
      simp only [normIf, if_true, Rounding.fullErr, h1, Real.sqrt_one, mul_one]
      rw [cosNorm, Real.sqrt_mul (hpos i).le]
      exact this

end KMethods
