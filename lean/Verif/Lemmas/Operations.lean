import Verif.Model.Operations
import Verif.Spec.Matrix
import Verif.Lemmas.KMExec
import Mathlib.Tactic.FieldSimp
import Mathlib.Tactic.Linarith
import Mathlib.Tactic.Ring
import Mathlib.Tactic.Positivity
import Mathlib.Tactic.NormNum
/-! Reduction of the numeric operations to real matrices. -/
namespace KMethods
namespace F

@[simp] theorem real_add (x y : ℝ) : real x + real y = real (x + y) := rfl
@[simp] theorem real_sub (x y : ℝ) : real x - real y = real (x - y) := rfl
@[simp] theorem real_mul (x y : ℝ) : real x * real y = real (x * y) := rfl
@[simp] theorem real_neg (x : ℝ) : - real x = real (-x) := rfl
@[simp] theorem nan_add (x : F) : nan + x = nan := rfl
@[simp] theorem add_nan (x : F) : x + nan = nan := by cases x <;> rfl
@[simp] theorem nan_mul (x : F) : nan * x = nan := rfl
@[simp] theorem mul_nan (x : F) : x * nan = nan := by cases x <;> rfl
@[simp] theorem nan_sub (x : F) : nan - x = nan := rfl
@[simp] theorem sub_nan (x : F) : x - nan = nan := by cases x <;> rfl
@[simp] theorem nan_div (x : F) : nan / x = nan := rfl
@[simp] theorem div_nan (x : F) : x / nan = nan := by cases x <;> rfl
theorem zero_def : (0 : F) = real 0 := rfl
theorem one_def : (1 : F) = real 1 := rfl
theorem real_div (x y : ℝ) (h : y ≠ 0) : real x / real y = real (x / y) := by
  show (if y = 0 then nan else real (x / y)) = _
  rw [if_neg h]
theorem real_div_zero (x : ℝ) : real x / real 0 = nan := by
  show (if (0:ℝ) = 0 then nan else real (x / 0)) = _
  rw [if_pos rfl]
theorem sqrt_real (x : ℝ) (h : 0 ≤ x) : sqrt (real x) = real (Real.sqrt x) := by
  show (if x < 0 then nan else real (Real.sqrt x)) = _
  rw [if_neg (not_lt.2 h)]
theorem sqrt_neg (x : ℝ) (h : x < 0) : sqrt (real x) = nan := by
  show (if x < 0 then nan else real (Real.sqrt x)) = _
  rw [if_pos h]
@[simp] theorem sqrt_nan : sqrt nan = nan := rfl

@[simp] theorem isFinite_real (x : ℝ) : (real x).isFinite := trivial
@[simp] theorem val_real (x : ℝ) : (real x).val = x := rfl
@[simp] theorem not_isFinite_nan : ¬ (nan).isFinite := id

theorem isFinite_iff {a : F} : a.isFinite ↔ ∃ x, a = real x := by
  cases a <;> simp [isFinite]

@[simp] theorem sum_real {ι : Type} [Fintype ι] (f : ι → ℝ) : F.sum (fun i => real (f i)) = real (∑ i, f i) := by
  simp [F.sum]

theorem sum_nan {ι : Type} [Fintype ι] (f : ι → F) (i : ι) (h : f i = nan) : F.sum f = nan := by
  unfold F.sum
  rw [if_neg]
  intro h'
  have := h' i
  rw [h] at this
  exact this

theorem isClose_zero (x : ℝ) : isClose (real x) 0 ↔ NearZero x := by
  show |x - 0| ≤ 1e-8 + 1e-5 * |(0:ℝ)| ↔ |x| ≤ 1e-8
  simp

end F
open F

theorem matmul_real {n m k : Nat} (A : Matrix (Fin n) (Fin m) ℝ) (B : Matrix (Fin m) (Fin k) ℝ) :
    matmul (fun i j => real (A i j)) (fun i j => real (B i j)) = fun i j => real ((A * B) i j) := by
  funext i j
  simp [matmul, Matrix.mul_apply]

theorem centeringMatrix_real (n : Nat) :
    centeringMatrix n = fun i j => real (((if i = j then 1 else 0) - 1 / n : ℝ)) := by
  funext i j
  have hn : (n : ℝ) ≠ 0 := by
    have := i.pos
    positivity
  unfold centeringMatrix
  rw [one_def, real_div _ _ hn]
  split <;> rfl

theorem centering_mul {n : Nat} (K : Matrix (Fin n) (Fin n) ℝ) :
    ((Matrix.of fun i j : Fin n => ((if i = j then 1 else 0) - 1 / n : ℝ)) * K *
      (Matrix.of fun i j : Fin n => ((if i = j then 1 else 0) - 1 / n : ℝ))) = centered K := by
  ext i j
  have hn : (n : ℝ) ≠ 0 := by
    have := i.pos
    positivity
  simp only [Matrix.mul_apply, Matrix.of_apply, centered]
  simp only [sub_mul, mul_sub, Finset.sum_sub_distrib, ite_mul, one_mul, zero_mul, mul_ite, mul_one, mul_zero,
    Finset.sum_ite_eq, Finset.sum_ite_eq', Finset.mem_univ, if_true]
  simp only [← Finset.mul_sum, ← Finset.sum_mul]
  rw [Finset.sum_comm (f := fun l k => K k l)]
  field_simp
  ring

theorem centerKm_real {n : Nat} (K : Matrix (Fin n) (Fin n) ℝ) :
    centerKm (Mat.ofReal K) = .ok (Mat.ofReal (centered K)) := by
  unfold centerKm Mat.ofReal
  rw [if_pos rfl]
  dsimp only
  have h1 : matmul (centeringMatrix n) (fun i j => real (K i j)) = fun i j => real (
      (((Matrix.of fun i j : Fin n => ((if i = j then 1 else 0) - 1 / n : ℝ)) * K) : Matrix _ _ ℝ) i j) := by
    rw [centeringMatrix_real]
    exact matmul_real (Matrix.of fun i j : Fin n => ((if i = j then 1 else 0) - 1 / n : ℝ)) K
  rw [h1, ← centering_mul, centeringMatrix_real]
  congr 2
  exact matmul_real _ (Matrix.of fun i j : Fin n => ((if i = j then 1 else 0) - 1 / n : ℝ))

theorem invSqrtDiag_real {n : Nat} (d : Fin n → ℝ) (h : ∀ i, 0 < d i) :
    invSqrtDiag (fun i => real (d i)) = fun i j => real (Matrix.diagonal (fun i => 1 / Real.sqrt (d i)) i j) := by
  funext i j
  unfold invSqrtDiag
  rw [sqrt_real _ (h i).le, one_def, real_div _ _ (Real.sqrt_pos.2 (h i)).ne']
  by_cases hij : i = j
  · subst hij; simp
  · simp [hij, zero_def]

theorem diag_mul_diag {n m : Nat} (d : Fin n → ℝ) (e : Fin m → ℝ) (K : Matrix (Fin n) (Fin m) ℝ)
    (h : ∀ i, 0 < d i) (i : Fin n) (j : Fin m) :
    (Matrix.diagonal (fun i => 1 / Real.sqrt (d i)) * K * Matrix.diagonal (fun j => 1 / Real.sqrt (e j))) i j =
      K i j / Real.sqrt (d i * e j) := by
  rw [Matrix.mul_diagonal, Matrix.diagonal_mul, Real.sqrt_mul (h i).le]
  field_simp

/-- the product `diag(1/√d) K diag(1/√e)` -/
theorem scaled_real {n m : Nat} (d : Fin n → ℝ) (e : Fin m → ℝ) (K : Matrix (Fin n) (Fin m) ℝ)
    (h : ∀ i, 0 < d i) (h' : ∀ j, 0 < e j) :
    matmul (matmul (invSqrtDiag fun i => real (d i)) fun i j => real (K i j)) (invSqrtDiag fun j => real (e j)) =
      fun i j => real (K i j / Real.sqrt (d i * e j)) := by
  rw [invSqrtDiag_real d h, invSqrtDiag_real e h', matmul_real, matmul_real]
  funext i j
  rw [diag_mul_diag d e K h]

theorem toLower_cosine : "cosine".toLower = "cosine" := by
  rw [String.toLower, ← String.toList_inj, String.toList_map]; decide

theorem normalizeSquare_real {n : Nat} (K : Matrix (Fin n) (Fin n) ℝ) {method : String}
    (hm : method.toLower = "cosine") (h : ∀ i, 0 ≤ K i i) :
    ((∃ i, NearZero (K i i)) → normalizeSquare (fun i j => real (K i j)) method = .error .kmNorm) ∧
    ((¬ ∃ i, NearZero (K i i)) → normalizeSquare (fun i j => real (K i j)) method =
      .ok fun i j => real (cosNorm K i j)) := by
  unfold normalizeSquare
  rw [if_pos hm]
  have hiff : (∃ i, isClose (real (K i i)) 0) ↔ ∃ i, NearZero (K i i) :=
    exists_congr fun i => isClose_zero (K i i)
  constructor
  · intro hz; rw [if_pos (hiff.2 hz)]
  · intro hz
    rw [if_neg (mt hiff.1 hz), scaled_real (fun i => K i i) (fun i => K i i) K]
    · rfl
    all_goals
      intro i
      refine lt_of_le_of_ne (h i) fun h0 => hz ⟨i, ?_⟩
      rw [← h0]; norm_num [NearZero]

theorem normalizeKm_ofReal {n : Nat} (K : Matrix (Fin n) (Fin n) ℝ) (method : String) :
    normalizeKm (Mat.ofReal K) method =
      (normalizeSquare (fun i j => real (K i j)) method).map fun N => ⟨n, n, N⟩ := by
  unfold normalizeKm Mat.ofReal
  rw [dif_pos rfl]
  rfl

theorem normalizeKm2_real {n m : Nat} (K : Matrix (Fin n) (Fin m) ℝ) (dx : Fin n → ℝ) (dy : Fin m → ℝ) {method : String}
    (hm : method.toLower = "cosine") (lx ly : List F) (hlx : lx = List.ofFn fun i => real (dx i))
    (hly : ly = List.ofFn fun i => real (dy i)) (hx : ∀ i, 0 ≤ dx i) (hy : ∀ j, 0 ≤ dy j) :
    ((∃ i, NearZero (dx i)) ∨ (∃ j, NearZero (dy j)) → normalizeKm2 (Mat.ofReal K) lx ly method = .error .kmNorm) ∧
    (¬ ((∃ i, NearZero (dx i)) ∨ (∃ j, NearZero (dy j))) → normalizeKm2 (Mat.ofReal K) lx ly method =
      .ok (Mat.ofReal (cosNorm2 K dx dy))) := by
  subst hlx hly
  unfold normalizeKm2
  have hlen : ¬ ((List.ofFn fun i => real (dx i)).length ≠ (Mat.ofReal K).nrows ∨
      (Mat.ofReal K).ncols ≠ (List.ofFn fun j => real (dy j)).length) := by
    simp [Mat.ofReal]
  rw [if_neg hlen, if_pos hm]
  have hiff : ((∃ d ∈ List.ofFn fun i => real (dx i), isClose d 0) ∨ (∃ d ∈ List.ofFn fun j => real (dy j), isClose d 0)) ↔
      ((∃ i, NearZero (dx i)) ∨ (∃ j, NearZero (dy j))) := by
    simp only [List.mem_ofFn', Set.mem_range, exists_exists_eq_and, isClose_zero]
  constructor
  · intro hz; rw [if_pos (hiff.2 hz)]
  · intro hz
    rw [if_neg (mt hiff.1 hz)]
    have e1 : (invSqrtDiag fun i : Fin n => (List.ofFn fun i => real (dx i)).getD i 0) =
        invSqrtDiag fun i => real (dx i) := by
      congr 1; funext i; simp
    have e2 : (invSqrtDiag fun i : Fin m => (List.ofFn fun i => real (dy i)).getD i 0) =
        invSqrtDiag fun i => real (dy i) := by
      congr 1; funext i; simp
    have pos : ∀ x, 0 ≤ x → ¬ NearZero x → 0 < x := fun x h0 h1 => by
      refine lt_of_le_of_ne h0 fun h => h1 ?_
      rw [← h]; norm_num [NearZero]
    have := scaled_real dx dy K (fun i => pos _ (hx i) fun h => hz (Or.inl ⟨i, h⟩))
      (fun i => pos _ (hy i) fun h => hz (Or.inr ⟨i, h⟩))
    simp only [Mat.ofReal]
    rw [e1, e2, this]
    rfl

theorem frobeniusProduct_real {n m : Nat} (A B : Matrix (Fin n) (Fin m) ℝ) :
    frobeniusProduct (Mat.ofReal A) (Mat.ofReal B) = .ok (real (frobInner A B)) := by
  unfold frobeniusProduct
  rw [dif_pos ⟨rfl, rfl⟩]
  simp only [Mat.ofReal, Fin.cast_eq_self, real_mul, frobInner]
  exact congrArg Except.ok ((sum_real fun p : Fin n × Fin m => A p.1 p.2 * B p.1 p.2).trans
    (by rw [Fintype.sum_prod_type]))

theorem frobInner_self_nonneg {n m : Nat} (A : Matrix (Fin n) (Fin m) ℝ) : 0 ≤ frobInner A A :=
  Finset.sum_nonneg fun _ _ => Finset.sum_nonneg fun _ _ => mul_self_nonneg _

theorem frobeniusNorm_real {n m : Nat} (A : Matrix (Fin n) (Fin m) ℝ) :
    frobeniusNorm (Mat.ofReal A) = .ok (real (Real.sqrt (frobInner A A))) := by
  unfold frobeniusNorm
  rw [frobeniusProduct_real]
  simp only [Except.map]
  rw [sqrt_real _ (frobInner_self_nonneg A)]

theorem isRow_one {X : Type} {A : Arr2 X} {o : Option (Arr2 X)} (i : Fin A.nrows) : Attachment.IsRow ⟨A, o⟩ (A.row i) :=
  Or.inl ⟨i, i.2, rfl⟩
theorem isRow_two {X : Type} {A B : Arr2 X} (i : Fin B.nrows) : Attachment.IsRow ⟨A, some B⟩ (B.row i) :=
  Or.inr ⟨B, i, rfl, i.2, rfl⟩

theorem gram_ofReal {X : Type} {kv : X → X → F} {κ : X → X → ℝ} {A : Arr2 X} (h : RealOn kv κ ⟨A, none⟩) :
    Attachment.gram ⟨A, none⟩ kv = Mat.ofReal (A.gramR κ) := by
  show Mat.mk _ _ _ = Mat.mk _ _ _
  congr 1
  funext i j
  exact h _ _ (Or.inl ⟨_, lt_of_le_of_lt (min_le_left _ _) i.2, rfl⟩) (Or.inl ⟨_, max_lt i.2 j.2, rfl⟩)

theorem cross_ofReal {X : Type} {kv : X → X → F} {κ : X → X → ℝ} {A B : Arr2 X} (h : RealOn kv κ ⟨A, some B⟩) :
    Attachment.gram ⟨A, some B⟩ kv = Mat.ofReal (A.crossR B κ) := by
  show Mat.mk _ _ _ = Mat.mk _ _ _
  congr 1
  funext i j
  exact h _ _ (isRow_one i) (isRow_two j)

theorem selfs_ofReal {X : Type} {kv : X → X → F} {κ : X → X → ℝ} {A : Arr2 X}
    (h : ∀ i : Fin A.nrows, kv (A.row i) (A.row i) = real (κ (A.row i) (A.row i))) :
    A.selfs kv = List.ofFn fun i : Fin A.nrows => real (κ (A.row i) (A.row i)) := by
  unfold Arr2.selfs
  rw [List.ofFn_eq_map, ← List.map_coe_finRange_eq_range, List.map_map]
  exact List.map_congr_left fun i _ => h i

theorem opsOk_real : OpsOk realOps := by
  intro A m N h
  simp only [realOps, normalizeKm, normalizeSquare] at *
  split at h
  · rename_i hsq
    rw [dif_pos hsq, if_pos toLower_cosine]
    by_cases hm : m.toLower = "cosine"
    · rw [if_pos hm] at h; exact h
    · rw [if_neg hm] at h; simp [Except.map] at h
  · simp at h

theorem containsNanInf_of_real {M : Mat F} (h : ∀ i j, ∃ x, M.get i j = real x) : containsNanInf M = false := by
  unfold containsNanInf
  rw [decide_eq_false_iff_not]
  have hfin : ∀ i j, (M.get i j).isFinite := fun i j => by
    obtain ⟨x, hx⟩ := h i j
    rw [hx]
    trivial
  rintro (h1 | ⟨i, j, h1⟩)
  · exact h1 hfin
  · exact h1 (hfin i j)

theorem containsNanInf_ofReal {n m : Nat} (M : Matrix (Fin n) (Fin m) ℝ) : containsNanInf (Mat.ofReal M) = false :=
  containsNanInf_of_real fun i j => ⟨M i j, rfl⟩

theorem Attachment.entry_real {X : Type} {kv : X → X → F} {κ : X → X → ℝ} {a : Attachment X} (h : RealOn kv κ a) {i j : Nat}
    (hi : i < a.nrows) (hj : j < a.ncols) : ∃ x, a.entry kv i j = real x := by
  rcases a with ⟨A, _ | B⟩
  · exact ⟨_, h _ _ (Or.inl ⟨_, lt_of_le_of_lt (min_le_left _ _) hi, rfl⟩) (Or.inl ⟨_, max_lt hi hj, rfl⟩)⟩
  · exact ⟨_, h _ _ (isRow_one ⟨i, hi⟩) (isRow_two ⟨j, hj⟩)⟩

/-- a kernel with real values on the samples has nothing to warn about -/
theorem quiet_of_real {K X : Type} {env : Env K X F} (hops : env.ops = realOps) {k : K} {κ : X → X → ℝ} {a : Attachment X}
    (h : RealOn (env.kval k) κ a) : KMState.Quiet env k a := by
  intro _
  rw [hops]
  refine ⟨containsNanInf_of_real fun i j => Attachment.entry_real h i.2 j.2, containsNanInf_of_real fun i j => ?_⟩
  show ∃ x, (if (i : Nat) ≤ j then _ else _) = real x
  split
  · exact Attachment.entry_real h i.2 j.2
  · exact ⟨0, rfl⟩

theorem quietNormed_one {K X : Type} {env : Env K X F} (hops : env.ops = realOps) {k : K} {κ : X → X → ℝ} {A : Arr2 X}
    (h : RealOn (env.kval k) κ ⟨A, none⟩) (hpos : ∀ i : Fin A.nrows, 0 ≤ κ (A.row i) (A.row i)) :
    KMState.QuietNormed env k ⟨A, none⟩ := by
  intro _ method N hN
  have hN := opsOk_real _ _ _ (by rw [hops] at hN; exact hN)
  rw [hops]
  have hN : normalizeKm (Attachment.gram ⟨A, none⟩ (env.kval k)) "cosine" = .ok N := hN
  have hd : ∀ i, A.gramR κ i i = κ (A.row i) (A.row i) := fun i => by simp [Arr2.gramR]
  have := normalizeSquare_real (A.gramR κ) toLower_cosine fun i => by rw [hd]; exact hpos i
  rw [gram_ofReal h, normalizeKm_ofReal] at hN
  by_cases hz : ∃ i, NearZero (A.gramR κ i i)
  · rw [this.1 hz] at hN; cases hN
  · rw [this.2 hz] at hN
    injection hN with hN
    rw [← hN]
    exact containsNanInf_of_real fun i j => ⟨_, rfl⟩

theorem quietNormed_two {K X : Type} {env : Env K X F} (hops : env.ops = realOps) {k : K} {κ : X → X → ℝ} {A B : Arr2 X}
    (h : RealOn (env.kval k) κ ⟨A, some B⟩) (hA : ∀ i : Fin A.nrows, 0 ≤ κ (A.row i) (A.row i))
    (hB : ∀ i : Fin B.nrows, 0 ≤ κ (B.row i) (B.row i)) :
    KMState.QuietNormed env k ⟨A, some B⟩ := by
  intro _ method N hN
  rw [hops] at hN ⊢
  have hN : normalizeKm2 (Attachment.gram ⟨A, some B⟩ (env.kval k)) (A.selfs (env.kval k)) (B.selfs (env.kval k)) "cosine" = .ok N := hN
  have := normalizeKm2_real (A.crossR B κ) (fun i => κ (A.row i) (A.row i)) (fun j => κ (B.row j) (B.row j))
    toLower_cosine _ _ (selfs_ofReal fun i => h _ _ (isRow_one i) (isRow_one i))
    (selfs_ofReal fun j => h _ _ (isRow_two j) (isRow_two j)) hA hB
  rw [cross_ofReal h] at hN
  by_cases hz : (∃ i : Fin A.nrows, NearZero (κ (A.row i) (A.row i))) ∨ (∃ j : Fin B.nrows, NearZero (κ (B.row j) (B.row j)))
  · rw [this.1 hz] at hN; cases hN
  · rw [this.2 hz] at hN
    injection hN with hN
    rw [← hN]
    exact containsNanInf_ofReal _

end KMethods
