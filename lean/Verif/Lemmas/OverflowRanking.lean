import Verif.Spec.OverflowRanking
import Verif.Lemmas.OverflowAlign
import Verif.Lemmas.OverflowComposite
import Verif.Lemmas.RoundRank
/-! # Lemmas: ranking of kernels with overflow (C98) -/
namespace KMethods
open Rounding

/-! ### argmax -/

theorem argmax_nan {l : List Dbl} {j : Nat} (h : l[j]? = some .nan) : ∃ i, Dbl.argmax l = .ok i ∧ i ≤ j ∧ l[i]? = some .nan ∧ .nan ∉ l.take i := by
  classical
  have hne : l ≠ [] := fun e => by rw [e] at h; simp at h
  obtain ⟨hj, hj'⟩ := List.getElem?_eq_some_iff.1 h
  unfold Dbl.argmax
  rw [if_neg hne]
  rcases hr : l.findIdx? (fun x => decide (x = Dbl.nan)) with _ | i
  · rw [List.findIdx?_eq_none_iff] at hr
    exact absurd (hr _ (List.mem_of_getElem? h)) (by simp)
  · rw [List.findIdx?_eq_some_iff_getElem] at hr
    obtain ⟨hi, h1, h2⟩ := hr
    refine ⟨i, rfl, ?_, ?_, fun hm => ?_⟩
    · by_contra hc
      exact h2 j (by omega) (by simp [hj'])
    · rw [List.getElem?_eq_getElem hi]
      exact congrArg some (of_decide_eq_true h1)
    · obtain ⟨k, hk, hk'⟩ := List.getElem_of_mem hm
      rw [List.length_take] at hk
      rw [List.getElem_take] at hk'
      exact h2 k (by omega) (by simp [hk'])

theorem argmax_fin {xs : List ℝ} (h : xs ≠ []) : ∃ i, Dbl.argmax (xs.map .fin) = .ok i ∧ FirstBest xs i := by
  classical
  obtain ⟨i, h1, h2⟩ := argmaxF_real h
  refine ⟨i, ?_, h2⟩
  rw [← h1]
  unfold Dbl.argmax argmaxF
  have e1 : (xs.map Dbl.fin).findIdx? (fun x => decide (x = Dbl.nan)) = none := by
    rw [List.findIdx?_eq_none_iff]
    intro x hx
    obtain ⟨y, -, rfl⟩ := List.mem_map.1 hx
    simp
  have e2 : (xs.map F.real).findIdx? (fun x => decide (¬ x.isFinite)) = none := by
    rw [List.findIdx?_eq_none_iff]
    intro x hx
    obtain ⟨y, -, rfl⟩ := List.mem_map.1 hx
    simp [F.isFinite]
  have e3 : (xs.map Dbl.fin).findIdx? (fun x => decide (∀ y ∈ xs.map Dbl.fin, ¬ x.Less y)) =
      (xs.map F.real).findIdx? (fun x => decide (∀ y ∈ xs.map F.real, ¬ F.lt x y)) := by
    rw [List.findIdx?_map, List.findIdx?_map]
    congr 1
    funext x
    simp only [Function.comp, List.forall_mem_map]
    rfl
  rw [if_neg (by simpa using h), if_neg (by simpa using h), e1, e2]
  simp only [e3]
  rcases (xs.map F.real).findIdx? (fun x => decide (∀ y ∈ xs.map F.real, ¬ F.lt x y)) with _ | k <;> rfl

theorem argmax_all_nan {l : List Dbl} (h : l ≠ []) (hn : ∀ x ∈ l, x = .nan) : Dbl.argmax l = .ok 0 := by
  cases l with
  | nil => exact (h rfl).elim
  | cons x l =>
    obtain rfl := hn x (.head _)
    obtain ⟨i, e, hi, -⟩ := argmax_nan (l := .nan :: l) (j := 0) rfl
    rw [e, Nat.le_zero.1 hi]

theorem mapM_ok {α β : Type} {f : α → Except PyErr β} {g : α → β} {l : List α} (h : ∀ x ∈ l, f x = .ok (g x)) : l.mapM f = .ok (l.map g) := by
  induction l with
  | nil => rfl
  | cons x l ih =>
    rw [List.mapM_cons, h x (.head _), ih fun y hy => h y (.tail _ hy)]
    rfl

namespace FloatFormat
variable {Φ : FloatFormat} {n m : Nat}

/-! ### scores -/

theorem score_some (o : AlignOrders) (A B : Fin n → Fin m → Dbl) (v : Dbl) : ∃ x, Φ.alignmentOf o ⟨n, m, A⟩ ⟨n, m, B⟩ (some v) = .ok x := by
  rw [alignmentOf_same]
  split
  · exact ⟨_, rfl⟩
  · exact ⟨_, rfl⟩

theorem not_close {x : Dbl} (h : ¬ x.Finite) : ¬ x.CloseToZero := by
  cases x with
  | fin a => exact absurd trivial h
  | inf s => exact id
  | nan => exact id

theorem sqrt_not_finite {x : Dbl} (h : ¬ x.Finite) : ¬ (Φ.rnd (.sqrtX x)).Finite := by
  cases x with
  | fin a => exact absurd trivial h
  | inf s => cases s <;> exact id
  | nan => exact id

theorem mul_not_finite {x y : Dbl} (h : ¬ x.Finite) : ¬ (Φ.rnd (.mulX x y)).Finite := by
  intro hf
  generalize hv : Φ.rnd (.mulX x y) = v at hf
  cases v with
  | fin v =>
    obtain ⟨z, hz, -⟩ := rnd_fin hv
    obtain ⟨a, b, rfl, -, -⟩ := Dbl.mulX_fin hz
    exact h trivial
  | inf s => exact hf
  | nan => exact hf

theorem div_not_finite {x y : Dbl} (hx : ¬ x.Finite) (hy : ¬ y.Finite) : Φ.rnd (.divX x y) = .nan := by
  cases x with
  | fin a => exact absurd trivial hx
  | inf s =>
    cases y with
    | fin a => exact absurd trivial hy
    | inf s => rfl
    | nan => rfl
  | nan => cases y <;> rfl

theorem dot_not_finite {t : FlatOrder} {A B : Fin n → Fin m → Dbl} (h : ∃ i j, ¬ (A i j).Finite) :
    ¬ (Φ.dot (fun p => A p.divNat p.modNat) (fun p => B p.divNat p.modNat) (t.tree (n * m))).Finite := by
  intro hf
  generalize hv : Φ.dot (fun p => A p.divNat p.modNat) (fun p => B p.divNat p.modNat) (t.tree (n * m)) = v at hf
  cases v with
  | fin v =>
    obtain ⟨A', -, rfl, -, -⟩ := frob_fin hv
    obtain ⟨i, j, hij⟩ := h
    exact hij trivial
  | inf s => exact hf
  | nan => exact hf

/-- the alignment of a matrix that is not finite is NaN, if the norm of the other matrix is not close to zero -/
theorem align_nan (o : AlignOrders) {A B : Fin n → Fin m → Dbl} (h : ∃ i j, ¬ (A i j).Finite)
    (hB : ¬ (Φ.rnd (.sqrtX (Φ.dot (fun p => B p.divNat p.modNat) (fun p => B p.divNat p.modNat) (o.nb.tree (n * m))))).CloseToZero) (zd : Option Dbl) :
    Φ.alignmentOf o ⟨n, m, A⟩ ⟨n, m, B⟩ zd = .ok .nan := by
  have hA := sqrt_not_finite (Φ := Φ) (dot_not_finite (Φ := Φ) (t := o.na) (B := A) h)
  rw [alignmentOf_same, if_neg]
  · rw [div_not_finite (dot_not_finite h) (mul_not_finite hA)]
  · rintro (h' | h')
    · exact not_close hA h'
    · exact hB h'

theorem center_not_finite {o o' : SumOrder} {K : Fin n → Fin n → Dbl} (h : ∃ i j, ¬ (K i j).Finite) :
    ∃ i j, ¬ (Φ.matmul o' (Φ.matmul o (Φ.centeringMatrix n) K) (Φ.centeringMatrix n) i j).Finite := by
  obtain ⟨r, l, hrl⟩ := h
  refine ⟨r, l, fun hf => ?_⟩
  generalize hv : Φ.matmul o' (Φ.matmul o (Φ.centeringMatrix n) K) (Φ.centeringMatrix n) r l = v at hf
  cases v with
  | fin v =>
    obtain ⟨K', rfl, -⟩ := center_fin hv
    exact hrl trivial
  | inf s => exact hf
  | nan => exact hf

/-! ### the target matrix -/

theorem target_eq (y : Fin n → ℝ) (i j : Fin n) : Φ.targetKernel (fun i => .fin (y i)) i j = Φ.clip (Φ.R.fl (y i * y j)) := rfl

theorem target_dist (o o' : SumOrder) (y : Fin n → ℝ) (hu : (2 * n + 4 : Nat) * Φ.R.u < 1) :
    ‖vecE (Φ.R.centeredFl o o' (Matrix.of fun i j => Φ.R.fl (y i * y j))) - vecE (centered (outerR n y))‖ ≤ Φ.targetErr y := by
  have := centeredFl_dist (R := Φ.R) o o' (K := outerR n y) (H := Matrix.of fun i j => Φ.R.fl (y i * y j)) (s := fun i => |y i|) Φ.R.u_nonneg (fun i j => (abs_mul _ _).le)
    (fun i j => by rw [← abs_mul]; exact Φ.R.err _) hu
  rw [show ∑ i, |y i| ^ 2 = ∑ i, y i ^ 2 from Finset.sum_congr rfl fun i _ => sq_abs _] at this
  exact this

/-- a finite target matrix is the rounded one -/
theorem target_fin {y : Fin n → ℝ} {T : Matrix (Fin n) (Fin n) ℝ} (hT : (Φ.targetKernel fun i => .fin (y i)) = fun i j => .fin (T i j)) :
    T = Matrix.of fun i j => Φ.R.fl (y i * y j) := by
  funext i j
  have h1 := congrFun (congrFun hT i) j
  rw [target_eq] at h1
  unfold clip at h1
  split at h1
  · exact (Dbl.fin.inj h1).symm
  · cases h1

/-- the computed norm of a centered matrix is not close to zero if the exact norm is clearly not -/
theorem center_not_close (o o' : SumOrder) (t : FlatOrder) {K : Fin n → Fin n → Dbl} {G : Matrix (Fin n) (Fin n) ℝ} {a : ℝ}
    (hd : ∀ K' : Matrix (Fin n) (Fin n) ℝ, (K = fun i j => .fin (K' i j)) → ‖vecE (Φ.R.centeredFl o o' K') - vecE (centered G)‖ ≤ a) (hu : (n * n + 1 : Nat) * Φ.R.u < 1)
    (h : Φ.R.ClearlyNonzero n a (cnorm G)) :
    ¬ (Φ.rnd (.sqrtX (Φ.dot (fun p => Φ.matmul o' (Φ.matmul o (Φ.centeringMatrix n) K) (Φ.centeringMatrix n) p.divNat p.modNat)
      (fun p => Φ.matmul o' (Φ.matmul o (Φ.centeringMatrix n) K) (Φ.centeringMatrix n) p.divNat p.modNat) (t.tree (n * n))))).CloseToZero := by
  by_cases hf : ∃ i j, ¬ (Φ.matmul o' (Φ.matmul o (Φ.centeringMatrix n) K) (Φ.centeringMatrix n) i j).Finite
  · exact not_close (sqrt_not_finite (dot_not_finite hf))
  · push Not at hf
    obtain ⟨T, hT, e⟩ := center_all (o := o) (o' := o') (K := K) (C := Matrix.of fun i j => (Φ.matmul o' (Φ.matmul o (Φ.centeringMatrix n) K) (Φ.centeringMatrix n) i j).val)
      (funext fun i => funext fun j => (hf i j).eq)
    have e' : Φ.matmul o' (Φ.matmul o (Φ.centeringMatrix n) K) (Φ.centeringMatrix n) = fun i j => .fin (Φ.R.centeredFl o o' T i j) := by
      rw [← e]
      exact funext fun i => funext fun j => (hf i j).eq
    rw [e']
    intro hc
    generalize hv : Φ.rnd (.sqrtX (Φ.dot (fun p => .fin (Φ.R.centeredFl o o' T p.divNat p.modNat)) (fun p => .fin (Φ.R.centeredFl o o' T p.divNat p.modNat)) (t.tree (n * n)))) = v at hc
    cases v with
    | fin v =>
      obtain rfl := norm_fin hv
      refine normFl_not_nearZero t (hd T hT) hu ?_ hc
      rw [← cnorm_eq]
      exact h
    | inf s => exact hc
    | nan => exact hc

theorem target_not_close (o : AlignOrders) {y : Fin n → ℝ} (hu : (2 * n + 4 : Nat) * Φ.R.u < 1) (hu' : (n * n + 1 : Nat) * Φ.R.u < 1)
    (hy : Φ.R.ClearlyNonzero n (Φ.targetErr y) (cnorm (outerR n y))) :
    ¬ (Φ.rnd (.sqrtX (Φ.dot
      (fun p => Φ.matmul o.b₂ (Φ.matmul o.b₁ (Φ.centeringMatrix n) (Φ.targetKernel fun i => .fin (y i))) (Φ.centeringMatrix n) p.divNat p.modNat)
      (fun p => Φ.matmul o.b₂ (Φ.matmul o.b₁ (Φ.centeringMatrix n) (Φ.targetKernel fun i => .fin (y i))) (Φ.centeringMatrix n) p.divNat p.modNat) (o.nb.tree (n * n))))).CloseToZero := by
  refine center_not_close o.b₁ o.b₂ o.nb (fun T hT => ?_) hu' hy
  rw [target_fin hT]
  exact target_dist o.b₁ o.b₂ y hu

theorem frob_le {C K : Matrix (Fin n) (Fin n) ℝ} {e : ℝ} (he : ‖vecE C - vecE (centered K)‖ ≤ e) : frobInner C C ≤ (cnorm K + e) ^ 2 := by
  have h1 := norm_sub_norm_le (vecE C) (vecE (centered K))
  have h2 : ‖vecE C‖ ≤ cnorm K + e := by rw [cnorm_eq]; linarith
  have h3 : frobInner C C = ‖vecE C‖ ^ 2 := by rw [norm_vecE, Real.sq_sqrt (frobInner_self_nonneg C)]
  rw [h3]
  exact pow_le_pow_left₀ (norm_nonneg _) h2 2

theorem errOf_nonneg {s : Fin n → ℝ} (hu : (2 * n + 4 : Nat) * Φ.R.u < 1) : 0 ≤ Φ.errOf s :=
  centerErr_nonneg le_rfl (Finset.sum_nonneg fun _ _ => sq_nonneg _) hu

theorem targetErr_nonneg {y : Fin n → ℝ} (hu : (2 * n + 4 : Nat) * Φ.R.u < 1) : 0 ≤ Φ.targetErr y :=
  centerErr_nonneg Φ.R.u_nonneg (Finset.sum_nonneg fun _ _ => sq_nonneg _) hu

theorem lt_of_clearly {a x : ℝ} (hu : (n * n + 1 : Nat) * Φ.R.u < 1) (h : Φ.R.ClearlyNonzero n a x) : a < x := by
  have := gamma_nonneg (R := Φ.R) hu
  unfold Rounding.ClearlyNonzero at h
  have h2 : 0 ≤ (1 + Φ.R.gamma (n * n + 1)) * 1e-8 := by positivity
  linarith

/-- a computed alignment without overflow -/
theorem alignFl_calign (o : AlignOrders) {K C : Matrix (Fin n) (Fin n) ℝ} {D : Matrix (Fin n) (Fin n) ℝ} {y : Fin n → ℝ} {a : ℝ} (hu : (3 * (n * n) + 2 * n + 4 : Nat) * Φ.R.u < 1)
    (ha : 0 ≤ a) (hC : ‖vecE C - vecE (centered K)‖ ≤ a) (hD : ‖vecE D - vecE (centered (outerR n y))‖ ≤ Φ.targetErr y)
    (hK : Φ.R.ClearlyNonzero n a (cnorm K)) (hy : Φ.R.ClearlyNonzero n (Φ.targetErr y) (cnorm (outerR n y))) :
    |Φ.R.alignFl o C D - calign K (outerR n y)| ≤ Φ.R.alignErr n a (cnorm K) (Φ.targetErr y) (cnorm (outerR n y)) := by
  have hle : ∀ k : Nat, k ≤ 3 * (n * n) + 2 * n + 4 → (k : ℝ) * Φ.R.u < 1 := fun k hk =>
    (mul_le_mul_of_nonneg_right (by exact_mod_cast hk) Φ.R.u_nonneg).trans_lt hu
  have h1 : ((n * n + 1 : Nat) : ℝ) * Φ.R.u < 1 := hle _ (by nlinarith)
  rw [calign_eq (clearly_not_nearZero ha h1 hK) (clearly_not_nearZero (targetErr_nonneg (hle _ (by omega))) h1 hy)]
  refine (alignFl_near o (cnorm_eq K) (cnorm_eq _) hC hD (lt_of_clearly h1 hK) (lt_of_clearly h1 hy)).trans ?_
  have := pow_w_le (R := Φ.R) _ (hle (3 * (n * n) + 4) (by omega))
  unfold Rounding.alignErr
  linarith

/-- a finite score is accurate, or 0 because of an overflow -/
theorem score_cases (o : AlignOrders) {K : Fin n → Fin n → Dbl} {y : Fin n → ℝ} {v : ℝ} (hu : (3 * (n * n) + 2 * n + 4 : Nat) * Φ.R.u < 1)
    (h : Φ.alignmentScore o (fun i => .fin (y i)) (some (.fin 0)) K = .ok (.fin v)) (hy : Φ.R.ClearlyNonzero n (Φ.targetErr y) (cnorm (outerR n y))) :
    ∃ K' : Matrix (Fin n) (Fin n) ℝ, (K = fun i j => .fin (K' i j)) ∧ ∀ s : Fin n → ℝ, (∀ i j, |K' i j| ≤ s i * s j) → Φ.R.ClearlyNonzero n (Φ.errOf s) (cnorm K') →
      |v - calign K' (outerR n y)| ≤ Φ.R.alignErr n (Φ.errOf s) (cnorm K') (Φ.targetErr y) (cnorm (outerR n y)) ∨
        v = 0 ∧ (¬ Φ.Fits K' (Φ.errOf s) ∨ ¬ Φ.Fits (outerR n y) (Φ.targetErr y)) := by
  have hle : ∀ k : Nat, k ≤ 3 * (n * n) + 2 * n + 4 → (k : ℝ) * Φ.R.u < 1 := fun k hk =>
    (mul_le_mul_of_nonneg_right (by exact_mod_cast hk) Φ.R.u_nonneg).trans_lt hu
  have hT := target_not_close o (hle _ (by omega)) (hle _ (by nlinarith)) hy
  unfold alignmentScore at h
  rw [alignmentCentered_false] at h
  by_cases hK : ∃ i j, ¬ (K i j).Finite
  · rw [align_nan o (center_not_finite hK) hT] at h
    cases h
  push Not at hK
  obtain ⟨K', rfl⟩ : ∃ K' : Matrix (Fin n) (Fin n) ℝ, K = fun i j => .fin (K' i j) := ⟨fun i j => (K i j).val, funext fun i => funext fun j => (hK i j).eq⟩
  clear hK
  refine ⟨K', rfl, fun s hs hc => ?_⟩
  have hd : ‖vecE (Φ.R.centeredFl o.a₁ o.a₂ K') - vecE (centered K')‖ ≤ Φ.errOf s :=
    centeredFl_dist o.a₁ o.a₂ le_rfl hs (fun i j => by rw [sub_self, abs_zero, zero_mul]) (hle _ (by omega))
  have hA := center_not_close (Φ := Φ) o.a₁ o.a₂ o.na (K := fun i j => .fin (K' i j)) (G := K') (a := Φ.errOf s) (fun K2 h2 => by
    obtain rfl : K' = K2 := funext fun i => funext fun j => Dbl.fin.inj (congrFun (congrFun h2 i) j)
    exact hd) (hle _ (by nlinarith)) hc
  rw [alignmentOf_same, if_neg (not_or.2 ⟨hA, hT⟩)] at h
  have h0 : Φ.alignmentOf o ⟨n, n, Φ.matmul o.a₂ (Φ.matmul o.a₁ (Φ.centeringMatrix n) fun i j => .fin (K' i j)) (Φ.centeringMatrix n)⟩
      ⟨n, n, Φ.matmul o.b₂ (Φ.matmul o.b₁ (Φ.centeringMatrix n) (Φ.targetKernel fun i => .fin (y i))) (Φ.centeringMatrix n)⟩ none = .ok (.fin v) := by
    rw [alignmentOf_same, if_neg (not_or.2 ⟨hA, hT⟩)]
    exact h
  obtain ⟨C, D, hC, hD, h'⟩ := align_cases h0
  obtain ⟨K2, h2, rfl⟩ := center_all hC
  obtain rfl : K' = K2 := funext fun i => funext fun j => Dbl.fin.inj (congrFun (congrFun h2 i) j)
  obtain ⟨T, h3, rfl⟩ := center_all hD
  obtain rfl := target_fin h3
  have ht := target_dist o.b₁ o.b₂ y (hle _ (by omega))
  rcases h' with ⟨rfl, -, -⟩ | ⟨rfl, h'⟩
  · exact .inl (alignFl_calign o hu (errOf_nonneg (hle _ (by omega))) hd ht hc hy)
  · right
    refine ⟨rfl, ?_⟩
    have hw : Φ.R.w ^ (2 * (n * n) + 3) ≤ 1 + Φ.R.gamma (3 * (n * n) + 4) := by
      have h1 := pow_w_le (R := Φ.R) _ (hle (3 * (n * n) + 4) (by omega))
      have h2 := pow_le_pow_right₀ Φ.R.one_le_w (show 2 * (n * n) + 3 ≤ 3 * (n * n) + 4 by omega)
      linarith
    have hγ : 0 ≤ 1 + Φ.R.gamma (3 * (n * n) + 4) := (pow_w_pos _).le.trans hw
    unfold Fits
    rw [not_le, not_le]
    rcases max_choice (frobInner (Φ.R.centeredFl o.a₁ o.a₂ K') (Φ.R.centeredFl o.a₁ o.a₂ K'))
      (frobInner (Φ.R.centeredFl o.b₁ o.b₂ (Matrix.of fun i j => Φ.R.fl (y i * y j))) (Φ.R.centeredFl o.b₁ o.b₂ (Matrix.of fun i j => Φ.R.fl (y i * y j)))) with e | e
    · rw [e] at h'
      exact .inl (h'.trans_le (mul_le_mul hw (frob_le hd) (frobInner_self_nonneg _) hγ))
    · rw [e] at h'
      exact .inr (h'.trans_le (mul_le_mul hw (frob_le ht) (frobInner_self_nonneg _) hγ))

/-- the score of a matrix that is not too large -/
theorem score_moderate (o : AlignOrders) {K : Matrix (Fin n) (Fin n) ℝ} {y s : Fin n → ℝ} (hu : 2 * ((3 * (n * n) + 2 * n + 4 : Nat) * Φ.R.u) ≤ 1)
    (hs : ∀ i j, |K i j| ≤ s i * s j) (hK : ∀ i j, |K i j| ≤ Φ.max / 8) (hy : ∀ i j, |y i * y j| ≤ Φ.max / 16)
    (hKc : Φ.R.ClearlyNonzero n (Φ.errOf s) (cnorm K)) (hyc : Φ.R.ClearlyNonzero n (Φ.targetErr y) (cnorm (outerR n y)))
    (hKf : 2 * (cnorm K + Φ.errOf s) ^ 2 ≤ Φ.max) (hyf : 2 * (cnorm (outerR n y) + Φ.targetErr y) ^ 2 ≤ Φ.max) (zd : Option Dbl) :
    ∃ v, Φ.alignmentScore o (fun i => .fin (y i)) zd (fun i j => .fin (K i j)) = .ok (.fin v) ∧
      |v - calign K (outerR n y)| ≤ Φ.R.alignErr n (Φ.errOf s) (cnorm K) (Φ.targetErr y) (cnorm (outerR n y)) := by
  have hle : ∀ k : Nat, k ≤ 3 * (n * n) + 2 * n + 4 → 2 * ((k : ℝ) * Φ.R.u) ≤ 1 := fun k hk =>
    (mul_le_mul_of_nonneg_left (mul_le_mul_of_nonneg_right (by exact_mod_cast hk) Φ.R.u_nonneg) (by norm_num)).trans hu
  have hle1 : ∀ k : Nat, k ≤ 3 * (n * n) + 2 * n + 4 → (k : ℝ) * Φ.R.u < 1 := fun k hk => by have := hle k hk; linarith
  have hw1 : Φ.R.w ≤ 2 := by
    have := w_pow_le_two (Φ := Φ) (hle 1 (by omega))
    rwa [pow_one] at this
  have hfl : ∀ i j, |Φ.R.fl (y i * y j)| ≤ Φ.max / 8 := fun i j => by
    have h1 := Φ.R.err (y i * y j)
    have h2 := abs_sub_abs_le_abs_sub (Φ.R.fl (y i * y j)) (y i * y j)
    have h3 := mul_le_of_le_one_left (abs_nonneg (y i * y j)) Φ.R.u_lt.le
    linarith [hy i j]
  have hT : (Φ.targetKernel fun i => .fin (y i)) = fun i j => .fin ((Matrix.of fun i j => Φ.R.fl (y i * y j)) i j) :=
    funext fun i => funext fun j => clip_of_le ((hfl i j).trans (by linarith [Φ.max_pos]))
  have hd : ‖vecE (Φ.R.centeredFl o.a₁ o.a₂ K) - vecE (centered K)‖ ≤ Φ.errOf s :=
    centeredFl_dist o.a₁ o.a₂ le_rfl hs (fun i j => by rw [sub_self, abs_zero, zero_mul]) (hle1 _ (by omega))
  have ht := target_dist (Φ := Φ) o.b₁ o.b₂ y (hle1 _ (by omega))
  have h1 : ((n * n + 1 : Nat) : ℝ) * Φ.R.u < 1 := hle1 _ (by nlinarith)
  have key : ∀ {C G : Matrix (Fin n) (Fin n) ℝ} {a : ℝ} (t : FlatOrder), ‖vecE C - vecE (centered G)‖ ≤ a → Φ.R.ClearlyNonzero n a (cnorm G) → ¬ NearZero (Φ.R.normFl t C) :=
    fun t h2 h3 => normFl_not_nearZero t h2 h1 (by rw [← cnorm_eq]; exact h3)
  unfold alignmentScore
  rw [alignmentCentered_false, hT, center_moderate o.a₁ o.a₂ hK (hle _ (by omega)) (by linarith), center_moderate o.b₁ o.b₂ (K := Matrix.of fun i j => Φ.R.fl (y i * y j)) (M := Φ.max / 8) hfl (hle _ (by omega)) (by linarith)]
  refine ⟨_, (align_moderate o (w_pow_le_two (hle _ (by omega))) ?_ ?_ zd).2 ?_, alignFl_calign o (by linarith) (errOf_nonneg (hle1 _ (by omega))) hd ht hKc hyc⟩
  · linarith [frob_le hd]
  · linarith [frob_le ht]
  · rintro (h2 | h2)
    · exact key _ hd hKc h2
    · exact key _ ht hyc h2

/-- the score of a matrix whose centered norm is close to zero -/
theorem score_close (o : AlignOrders) {K T : Matrix (Fin n) (Fin n) ℝ} {s : Fin n → ℝ} {v : Dbl} (hu : 2 * ((3 * (n * n) + 2 * n + 4 : Nat) * Φ.R.u) ≤ 1)
    (hs : ∀ i j, |K i j| ≤ s i * s j) (hK : ∀ i j, |K i j| ≤ Φ.max / 8) (hz : 2 * (cnorm K + Φ.errOf s) ≤ 1e-8) :
    Φ.alignmentCentered o (Mat.floats K) (Mat.floats T) (some v) false = .ok v := by
  have hle : ∀ k : Nat, k ≤ 3 * (n * n) + 2 * n + 4 → 2 * ((k : ℝ) * Φ.R.u) ≤ 1 := fun k hk =>
    (mul_le_mul_of_nonneg_left (mul_le_mul_of_nonneg_right (by exact_mod_cast hk) Φ.R.u_nonneg) (by norm_num)).trans hu
  have hu1 : ((2 * n + 4 : Nat) : ℝ) * Φ.R.u < 1 := by have := hle (2 * n + 4) (by omega); linarith
  have hd : ‖vecE (Φ.R.centeredFl o.a₁ o.a₂ K) - vecE (centered K)‖ ≤ Φ.errOf s :=
    centeredFl_dist o.a₁ o.a₂ le_rfl hs (fun i j => by rw [sub_self, abs_zero, zero_mul]) hu1
  have hn : ‖vecE (Φ.R.centeredFl o.a₁ o.a₂ K)‖ ≤ cnorm K + Φ.errOf s := by
    have := norm_sub_norm_le (vecE (Φ.R.centeredFl o.a₁ o.a₂ K)) (vecE (centered K))
    rw [cnorm_eq]
    linarith
  have hw := w_pow_le_two (Φ := Φ) (hle (n * n + 1) (by nlinarith))
  have hf : frobInner (Φ.R.centeredFl o.a₁ o.a₂ K) (Φ.R.centeredFl o.a₁ o.a₂ K) ≤ 1 := by
    refine (frob_le hd).trans ?_
    have h0 : 0 ≤ cnorm K + Φ.errOf s := (norm_nonneg _).trans hn
    norm_num at hz
    nlinarith
  have hc : NearZero (Φ.R.normFl o.na (Φ.R.centeredFl o.a₁ o.a₂ K)) := by
    have h1 := (normFl_rel (R := Φ.R) o.na (Φ.R.centeredFl o.a₁ o.a₂ K)).le
    rw [abs_of_nonneg (Real.sqrt_nonneg _), ← norm_vecE] at h1
    exact h1.trans ((mul_le_mul hw hn (norm_nonneg _) (by norm_num)).trans hz)
  have e := (norm_cases (Φ := Φ) o.na (Φ.R.centeredFl o.a₁ o.a₂ K)).resolve_right (not_lt.2 (by
    have h1 := w_pow_le_two (Φ := Φ) (hle (n * n) (by nlinarith))
    have h2 := mul_le_mul h1 hf (frobInner_self_nonneg _) (by norm_num)
    linarith [Φ.four_le]))
  unfold Mat.floats
  rw [alignmentCentered_false, center_moderate o.a₁ o.a₂ hK (hle _ (by omega)) (by linarith), alignmentOf_same, e]
  exact if_pos (.inl hc)

/-! ### scores of a cross-validation -/

theorem foldl_minX_low {l : List Dbl} : ∀ {x : Dbl}, (∃ v ∈ x :: l, v = .nan ∨ v = .inf true) → l.foldl .minX x = .nan ∨ l.foldl .minX x = .inf true := by
  have keyl : ∀ x y : Dbl, x = .nan ∨ x = .inf true → Dbl.minX x y = .nan ∨ Dbl.minX x y = .inf true := by
    rintro x y (rfl | rfl)
    · exact .inl (if_pos (.inl rfl))
    · cases y with
      | fin a => exact .inr (by simp [Dbl.minX, Dbl.Less])
      | inf s => exact .inr (by simp [Dbl.minX, Dbl.Less])
      | nan => exact .inl (if_pos (.inr rfl))
  have keyr : ∀ x y : Dbl, y = .nan ∨ y = .inf true → Dbl.minX x y = .nan ∨ Dbl.minX x y = .inf true := by
    rintro x y (rfl | rfl)
    · exact .inl (if_pos (.inr rfl))
    · cases x with
      | fin a => exact .inr (by simp [Dbl.minX, Dbl.Less])
      | inf s => exact .inr (by cases s <;> simp [Dbl.minX, Dbl.Less])
      | nan => exact .inl (if_pos (.inl rfl))
  induction l with
  | nil =>
    rintro x ⟨v, hv, h⟩
    obtain rfl : v = x := by simpa using hv
    exact h
  | cons z l ih =>
    rintro x ⟨v, hv, h⟩
    refine ih ?_
    rcases List.mem_cons.1 hv with rfl | hv
    · exact ⟨_, .head _, keyl _ _ h⟩
    · rcases List.mem_cons.1 hv with rfl | hv
      · exact ⟨_, .head _, keyr _ _ h⟩
      · exact ⟨v, .tail _ hv, h⟩

/-- a score that is NaN or `-inf` makes all scaled scores NaN -/
theorem cvRanking_low {l : List Dbl} (h : ∃ v ∈ l, v = .nan ∨ v = .inf true) : Φ.cvRanking l = .ok (l.map fun _ => .nan) := by
  cases l with
  | nil => obtain ⟨v, hv, -⟩ := h; cases hv
  | cons x l =>
    have h0 := foldl_minX_low h
    unfold cvRanking minMaxScale
    simp only
    generalize l.foldl Dbl.minX x = lo at h0
    generalize l.foldl Dbl.maxX x = hi
    have hc : ¬ (Φ.rnd (.addX hi lo.neg)).CloseToZero := by
      rcases h0 with rfl | rfl
      · cases hi <;> exact id
      · rcases hi with a | s | _
        · exact id
        · cases s <;> exact id
        · exact id
    have hs : ¬ (Φ.rnd (.addX hi lo.neg)).Finite := by
      rcases h0 with rfl | rfl
      · cases hi <;> exact id
      · rcases hi with a | s | _
        · exact id
        · cases s <;> exact id
        · exact id
    have hv : ∀ v : Dbl, ¬ (Φ.rnd (.addX v lo.neg)).Finite := fun v => by
      rcases h0 with rfl | rfl
      · cases v <;> exact id
      · rcases v with a | s | _
        · exact id
        · cases s <;> exact id
        · exact id
    rw [if_neg hc]
    show Except.ok (List.map _ (List.map _ _)) = _
    rw [List.map_map]
    refine congrArg Except.ok (List.map_congr_left fun v _ => ?_)
    simp only [Function.comp]
    rw [div_not_finite (hv v) hs]
    rfl

theorem minX_fin (a b : ℝ) : Dbl.minX (.fin a) (.fin b) = .fin (a ⊓ b) := by
  unfold Dbl.minX
  rw [if_neg (by simp)]
  by_cases h : b < a
  · rw [if_pos (show (Dbl.fin b).Less (.fin a) from h), inf_eq_right.2 h.le]
  · rw [if_neg (show ¬ (Dbl.fin b).Less (.fin a) from h), inf_eq_left.2 (not_lt.1 h)]

theorem maxX_fin (a b : ℝ) : Dbl.maxX (.fin a) (.fin b) = .fin (a ⊔ b) := by
  unfold Dbl.maxX
  rw [if_neg (by simp)]
  by_cases h : a < b
  · rw [if_pos (show (Dbl.fin a).Less (.fin b) from h), sup_eq_right.2 h.le]
  · rw [if_neg (show ¬ (Dbl.fin a).Less (.fin b) from h), sup_eq_left.2 (not_lt.1 h)]

theorem foldl_minX_fin {xs : List ℝ} : ∀ x : ℝ, ∃ m ∈ x :: xs, (xs.map Dbl.fin).foldl Dbl.minX (Dbl.fin x) = Dbl.fin m ∧ ∀ y ∈ x :: xs, m ≤ y := by
  induction xs with
  | nil => exact fun x => ⟨x, .head _, rfl, by simp⟩
  | cons z l ih =>
    intro x
    obtain ⟨m, hm, e, h⟩ := ih (x ⊓ z)
    refine ⟨m, ?_, by rw [List.map_cons, List.foldl_cons, minX_fin]; exact e, fun y hy => ?_⟩
    · rcases List.mem_cons.1 hm with rfl | hm
      · rcases min_choice x z with e | e <;> rw [e] <;> simp
      · exact .tail _ (.tail _ hm)
    · have h0 := h _ (.head _)
      rcases List.mem_cons.1 hy with rfl | hy
      · exact h0.trans inf_le_left
      · rcases List.mem_cons.1 hy with rfl | hy
        · exact h0.trans inf_le_right
        · exact h y (.tail _ hy)

theorem foldl_maxX_fin {xs : List ℝ} : ∀ x : ℝ, ∃ m ∈ x :: xs, (xs.map Dbl.fin).foldl Dbl.maxX (Dbl.fin x) = Dbl.fin m ∧ ∀ y ∈ x :: xs, y ≤ m := by
  induction xs with
  | nil => exact fun x => ⟨x, .head _, rfl, by simp⟩
  | cons z l ih =>
    intro x
    obtain ⟨m, hm, e, h⟩ := ih (x ⊔ z)
    refine ⟨m, ?_, by rw [List.map_cons, List.foldl_cons, maxX_fin]; exact e, fun y hy => ?_⟩
    · rcases List.mem_cons.1 hm with rfl | hm
      · rcases max_choice x z with e | e <;> rw [e] <;> simp
      · exact .tail _ (.tail _ hm)
    · have h0 := h _ (.head _)
      rcases List.mem_cons.1 hy with rfl | hy
      · exact le_sup_left.trans h0
      · rcases List.mem_cons.1 hy with rfl | hy
        · exact le_sup_right.trans h0
        · exact h y (.tail _ hy)

/-- finite scores: the metric, up to rounding errors, is a multiple of the distance from the smallest one; or all of them are 0 -/
theorem cvRanking_fin {xs : List ℝ} (hne : xs ≠ []) (hu : 2 * ((8 : Nat) * Φ.R.u) ≤ 1) (hbig : 1000 ≤ Φ.max) (hmax : ∀ a ∈ xs, ∀ b ∈ xs, 2 * (a - b) ≤ Φ.max) :
    (Φ.cvRanking (xs.map .fin) = .ok (xs.map fun _ => .fin 0) ∧ ∀ a ∈ xs, ∀ b ∈ xs, a - b ≤ 2e-8) ∨
    ∃ m ∈ xs, ∃ S > 0, ∃ f : ℝ → ℝ, (∀ a ∈ xs, m ≤ a) ∧ Φ.cvRanking (xs.map .fin) = .ok (xs.map fun x => .fin (f x)) ∧ ∀ x ∈ xs, Φ.R.Rel 3 (f x) (100 * ((x - m) / S)) := by
  have hw8 := w_pow_le_two (Φ := Φ) hu
  have hw : ∀ k, k ≤ 8 → Φ.R.w ^ k ≤ 2 := fun k hk => (pow_le_pow_right₀ Φ.R.one_le_w hk).trans hw8
  cases xs with
  | nil => exact (hne rfl).elim
  | cons x l =>
    obtain ⟨m, hm, em, hmle⟩ := foldl_minX_fin (xs := l) x
    obtain ⟨M, hM, eM, hMle⟩ := foldl_maxX_fin (xs := l) x
    have hsub : ∀ v ∈ x :: l, Φ.rnd (.addX (.fin v) (Dbl.fin m).neg) = .fin (Φ.R.fl (v - m)) := fun v hv => by
      show Φ.clip (Φ.R.fl (v + -m)) = _
      rw [← sub_eq_add_neg]
      refine clip_of_le ?_
      have h1 := (rel_fl (R := Φ.R) (v - m)).le
      rw [abs_of_nonneg (sub_nonneg.2 (hmle v hv))] at h1
      exact h1.trans ((mul_le_mul_of_nonneg_right (hw 1 (by norm_num)) (sub_nonneg.2 (hmle v hv))).trans (hmax v hv m hm))
    have hMm : 0 ≤ M - m := sub_nonneg.2 (hmle M hM)
    have hS := (rel_fl (R := Φ.R) (M - m))
    unfold cvRanking minMaxScale
    rw [List.map_cons]
    simp only
    rw [em, eM, hsub M hM]
    by_cases hc : (Dbl.fin (Φ.R.fl (M - m))).CloseToZero
    · left
      rw [if_pos hc]
      constructor
      · show Except.ok (List.map _ (List.map _ _)) = _
        rw [← List.map_cons, List.map_map, List.map_map]
        refine congrArg Except.ok (List.map_congr_left fun v _ => ?_)
        show Φ.clip (Φ.R.fl (100 * 0)) = _
        rw [mul_zero, Φ.R.fl_zero]
        exact clip_of_le (by rw [abs_zero]; exact Φ.max_pos.le)
      · intro a ha b hb
        have h1 : |Φ.R.fl (M - m)| ≤ 1e-8 := hc
        have h2 := hS.symm.le
        rw [abs_of_nonneg hMm] at h2
        have h3 := mul_le_mul (hw 1 (by norm_num)) h1 (abs_nonneg _) (by norm_num)
        have h4 := hMle a ha
        have h5 := hmle b hb
        norm_num at h3 ⊢
        rw [pow_one] at h2
        linarith
    · right
      rw [if_neg hc]
      have hSpos : 0 < Φ.R.fl (M - m) := by
        have h1 : ¬ |Φ.R.fl (M - m)| ≤ 1e-8 := hc
        have h2 := hS.nonneg hMm
        rw [abs_of_nonneg h2] at h1
        exact lt_of_lt_of_le (by norm_num) (not_le.1 h1).le
      have hMpos : 0 < M - m := by
        refine hMm.lt_of_ne fun e => ?_
        rw [← e, Φ.R.fl_zero] at hSpos
        exact lt_irrefl _ hSpos
      refine ⟨m, hm, Φ.R.fl (M - m), hSpos, fun v => Φ.R.fl (100 * Φ.R.fl (Φ.R.fl (v - m) / Φ.R.fl (M - m))), hmle, ?_, fun v hv => ?_⟩
      · show Except.ok (List.map _ (List.map _ _)) = _
        rw [← List.map_cons, List.map_map, List.map_map]
        refine congrArg Except.ok (List.map_congr_left fun v hv => ?_)
        simp only [Function.comp]
        rw [hsub v hv]
        have hq : 0 ≤ (v - m) / (M - m) ∧ (v - m) / (M - m) ≤ 1 := ⟨div_nonneg (sub_nonneg.2 (hmle v hv)) hMm, (div_le_one hMpos).2 (by linarith [hMle v hv])⟩
        have r1 : Φ.R.Rel 3 (Φ.R.fl (Φ.R.fl (v - m) / Φ.R.fl (M - m))) ((v - m) / (M - m)) := ((rel_fl _).div (rel_fl _)).fl
        have b1 := r1.le
        rw [abs_of_nonneg hq.1] at b1
        have b2 : Φ.R.w ^ 3 * ((v - m) / (M - m)) ≤ 2 := by nlinarith [hw 3 (by norm_num), pow_w_pos (R := Φ.R) 3]
        have r2 := (r1.const_mul 100).fl.le
        rw [abs_of_nonneg (mul_nonneg (by norm_num) hq.1)] at r2
        have b3 : Φ.R.w ^ (3 + 1) * (100 * ((v - m) / (M - m))) ≤ 200 := by nlinarith [hw 4 (by norm_num), pow_w_pos (R := Φ.R) 4]
        have e1 : Φ.rnd (.divX (.fin (Φ.R.fl (v - m))) (.fin (Φ.R.fl (M - m)))) = .fin (Φ.R.fl (Φ.R.fl (v - m) / Φ.R.fl (M - m))) := by
          simp only [Dbl.divX, if_neg hSpos.ne']
          exact clip_of_le (by linarith)
        rw [e1]
        exact clip_of_le (by linarith)
      · have r : Φ.R.Rel 1 (Φ.R.fl (v - m) / Φ.R.fl (M - m)) ((v - m) / Φ.R.fl (M - m)) := (rel_fl _).div (Rel.refl _)
        exact (r.fl.const_mul 100).fl

end FloatFormat
end KMethods
