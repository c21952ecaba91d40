import Verif.Lemmas.Warning
import Verif.Props.FullMatrix
import Verif.Model.Kernels
/-!
# C60: non-finite kernel values
-/
namespace KMethods
open KMState PyM
variable {K X V : Type}

namespace Demo
/-- a custom kernel that returns NaN on one pair of samples -/
noncomputable def nanKernel : CallableKernel ℝ Unit :=
  ⟨fun x y _ => .ok (open Classical in if x = 1 ∧ y = 2 then .nan else .real (x * y)), [], "product"⟩
noncomputable def nanSt : KMState (CallableKernel ℝ Unit) ℝ F :=
  (exec (callableEnv realOps) (.attach (.arr [3, 1] rA.row) none) (init nanKernel false 0)).2
theorem since_nan (P : KMOp ℝ → Prop) : Since (callableEnv realOps) nanKernel false ⟨rA, none⟩ P nanSt :=
  .attached (two := none) (one := .arr [3, 1] rA.row) (.new 0) ⟨⟨0, rfl⟩, trivial⟩ rfl
theorem noFaults_nan (a : Attachment ℝ) : NoFaultsOn (callableEnv realOps) nanKernel a := fun _ _ _ _ _ => rfl
theorem nonFinite_nan : realOps.nonFinite (Attachment.gram ⟨rA, none⟩ ((callableEnv realOps).kval nanKernel)) = true := by
  show containsNanInf _ = true
  unfold containsNanInf
  refine @decide_eq_true _ (_) (Or.inr ?_)
  refine ⟨⟨0, by decide⟩, ⟨1, by decide⟩, ?_⟩
  show ¬ ((callableEnv realOps).kval nanKernel (rA.row 0) (rA.row 1)).isFinite
  have : (callableEnv realOps).kval nanKernel (rA.row 0) (rA.row 1) = .nan := by
    show (open Classical in if rA.row 0 = 1 ∧ rA.row 1 = 2 then F.nan else _) = F.nan
    rw [if_pos]
    constructor
    · show ((0 : Nat) : ℝ) + 1 = 1
      norm_num
    · show ((1 : Nat) : ℝ) + 1 = 2
      norm_num
  rw [this]
  exact id
end Demo

/-- **C60** does not hold: for a custom kernel (`KernelFromCallable`) that returns NaN on a pair of samples, the first `km.full` raises `TypeError`
instead of returning the matrix with a warning. -/
theorem C60_violated : ¬ ∀ (X P : Type) (k : CallableKernel X P) (A : Arr2 X) (s : KMState (CallableKernel X P) X F),
    NoFaultsOn (callableEnv realOps) k ⟨A, none⟩ → SinceDense (callableEnv realOps) k false ⟨A, none⟩ s →
    ∃ fmt M, (exec (callableEnv realOps) .full s).1 = .ok (.mat fmt M) := by
  intro h
  obtain ⟨fmt, M, e⟩ := h ℝ Unit Demo.nanKernel Demo.rA Demo.nanSt (Demo.noFaults_nan _) (Demo.since_nan _)
  have hs := Demo.since_nan (fun op => ¬ op.MayGoSparse false 3 3)
  rw [hs.exec_faultless (Demo.noFaults_nan _) rfl, exec_full_run] at e
  have := full_first_ff (noFaults_faultless _) (Since.goodOnDense (Demo.noFaults_nan _) hs) rfl rfl Demo.nonFinite_nan
  rw [this] at e
  cases e

/-- **C60** exactly when that happens: the first `full` after attaching raises if the kernel cannot be formatted and there is a non-finite value,
and otherwise returns the true matrix. -/
theorem C60_first_call {env : Env K X V} {k : K} {a : Attachment X} {s s' : KMState K X V} {one : SampleIn X} {two : Option (SampleIn X)}
    (hf : NoFaultsOn env k a) (hr : Reachable env k false s) (ha : Attaches one two a) (h : exec env (.attach one two) s = (.ok .none, s')) :
    (exec env .full s').1 =
      if env.fmtRaises k = true ∧ env.ops.nonFinite (a.gram (env.kval k)) = true then .error .typeError
      else .ok (.mat .dense (a.gram (env.kval k))) := by
  have hs : SinceDense env k false a s' := .attached hr ha h
  have hg := hs.goodOnDense hf
  split
  · rename_i hc
    rw [hs.exec_faultless hf rfl, exec_full_run]
    have hp : s'.populated = false := by rw [exec_attach_ok ha h]; rfl
    rw [full_first_ff (noFaults_faultless _) hg hp (by rw [hs.kernel]; exact hc.1) (by rw [hs.kernel]; exact hc.2)]
    rfl
  · rename_i hc
    by_cases hb : env.fmtRaises k = true
    · have hn : env.ops.nonFinite (a.gram (env.kval k)) = false := by
        rcases h : env.ops.nonFinite (a.gram (env.kval k))
        · rfl
        · exact absurd ⟨hb, h⟩ hc
      rw [hs.exec_faultless hf rfl, exec_full_run]
      have hp : s'.populated = false := by rw [exec_attach_ok ha h]; rfl
      rw [full_fine_ff (noFaults_faultless _) hg hp hs.keepNormed rfl (by rw [hs.kernel]; exact hn), hs.kernel]
      rfl
    · exact C08_full_is_gram hf (fun h => absurd h hb) hs

/-- **C60** the object is not damaged: in any case the next `full` returns the true matrix. -/
theorem C60_second_call {env : Env K X V} {k : K} {a : Attachment X} {s : KMState K X V}
    (hf : NoFaultsOn env k a) (h : SinceDense env k false a s) :
    ((exec env .full s).1 = .ok (.mat .dense (a.gram (env.kval k))) ∨ (exec env .full s).1 = .error .typeError) ∧
    (exec env .full (exec env .full s).2).1 = .ok (.mat .dense (a.gram (env.kval k))) := by
  have h2 : SinceDense env k false a (exec env .full s).2 := .call .full h rfl (by simp [KMOp.MayGoSparse])
  have g2 := h2.goodOnDense hf
  have g1 := h.goodOnDense hf
  have hp := full_populated_ff (noFaults_faultless env) g1 h.keepNormed
  have hs : (exec env .full s).2 = (full env.faultless s).2 := by rw [h.exec_faultless hf rfl, exec_full_run]
  constructor
  · rw [h.exec_faultless hf rfl, exec_full_run]
    rcases (full_ff (noFaults_faultless env) g1).2.2.2.2 h.keepNormed rfl with e | e
    · left; rw [e, h.kernel]; rfl
    · right; rw [e]; rfl
  · rw [h2.exec_faultless hf rfl, exec_full_run]
    rw [hs] at h2 g2 ⊢
    rw [full_done_ff g2 hp.2.1 hp.1 rfl, hp.2.2, h.kernel]
    rfl

/-- **C60, partial (1)**: the kernel functions of the library (all but `KernelFromCallable`): whatever values they produce, NaN and infinities
included, `full` of an unnormalised object returns all of them and that of a normalising object is what `normalize_km` makes of them. -/
theorem C60_library_kernels_partial {k : NumKernel} {a : Attachment (List ℝ)} (hf : NoFaultsOn (numEnv realOps) k a) :
    (∀ s, SinceDense (numEnv realOps) k false a s →
      (exec (numEnv realOps) .full s).1 = .ok (.mat .dense (a.gram ((numEnv realOps).kval k)))) ∧
    ∀ s, SinceAny (numEnv realOps) k true a s →
      (exec (numEnv realOps) .full s).1 = (match a.two with
        | none => normalizeKm (a.gram ((numEnv realOps).kval k)) "cosine"
        | some B => normalizeKm2 (a.gram ((numEnv realOps).kval k)) (a.one.selfs ((numEnv realOps).kval k)) (B.selfs ((numEnv realOps).kval k)) "cosine").map
          (KMOut.mat .dense) :=
  ⟨fun _ h => C08_full_is_gram hf (fun h => by cases h) h,
    fun _ h => by
      rw [C09_full_is_normalised_gram rfl hf (fun h => by cases h) (fun h => by cases h) h]
      rcases a.two <;> rfl⟩

/-- **C60, partial (2)**: custom kernels with finite values on the samples, used on one sample: `full` of an unnormalised object is the matrix of
these values, and that of a normalising object its cosine normalisation, provided no self-kernel is negative or close to zero. -/
theorem C60_custom_finite_partial {P : Type} {k : CallableKernel X P} {A : Arr2 X} {κ : X → X → ℝ}
    (hk : ∀ x y, Attachment.IsRow ⟨A, none⟩ x → Attachment.IsRow ⟨A, none⟩ y → k.call x y = .ok (.real (κ x y))) :
    (∀ s, SinceDense (callableEnv realOps) k false ⟨A, none⟩ s →
      (exec (callableEnv realOps) .full s).1 = .ok (.mat .dense (Mat.ofReal (A.gramR κ)))) ∧
    ∀ s, SinceAny (callableEnv realOps) k true ⟨A, none⟩ s →
      (∀ i : Fin A.nrows, 0 ≤ κ (A.row i) (A.row i) ∧ ¬ NearZero (κ (A.row i) (A.row i))) →
      (exec (callableEnv realOps) .full s).1 = .ok (.mat .dense (Mat.ofReal (cosNorm (A.gramR κ)))) := by
  have hf : NoFaultsOn (callableEnv realOps) k ⟨A, none⟩ := by
    intro t x y hx hy
    show (match k.call x y with | .ok _ => false | .error _ => true) = false
    rw [hk x y hx hy]
  have hκ : RealOn ((callableEnv realOps).kval k) κ ⟨A, none⟩ := by
    intro x y hx hy
    show (match k.call x y with | .ok v => v | .error _ => .nan) = _
    rw [hk x y hx hy]
  refine ⟨fun s h => ?_, fun s h hpos => ?_⟩
  · rw [C08_full_is_gram hf (quiet_of_real rfl hκ) h, gram_ofReal hκ]
  · exact (C09_one_sample rfl hf hκ h fun i => (hpos i).1).2 fun ⟨i, hi⟩ => (hpos i).2 hi

/-- the witness of `C60_violated`: the condition of `C60_first_call` is met -/
example : (callableEnv realOps).fmtRaises Demo.nanKernel = true ∧
    realOps.nonFinite (Attachment.gram ⟨Demo.rA, none⟩ ((callableEnv realOps).kval Demo.nanKernel)) = true := ⟨rfl, Demo.nonFinite_nan⟩

/-- the linear kernel on rows of length 2: no failures -/
example : NoFaultsOn (numEnv realOps) .linear ⟨⟨2, 2, fun i => [(i : ℝ), 1]⟩, none⟩ := by
  rintro t x y (⟨i, _, rfl⟩ | ⟨B, _, h, _⟩) (⟨j, _, rfl⟩ | ⟨B, _, h', _⟩)
  · rfl
  · cases h'
  · cases h
  · cases h

/-- a custom product kernel with a factor, which multiplies the product of the samples 1, 2, 3 -/
example : ∃ (k : CallableKernel ℝ ℝ) (κ : ℝ → ℝ → ℝ), (∀ x y, k.call x y = .ok (.real (κ x y))) ∧
    ∀ i : Fin Demo.rA.nrows, 0 ≤ κ (Demo.rA.row i) (Demo.rA.row i) ∧ ¬ NearZero (κ (Demo.rA.row i) (Demo.rA.row i)) := by
  refine ⟨⟨fun x y ps => .ok (.real (x * y * (ps.map (·.2)).prod)), [("c", 2)], "f"⟩, fun x y => x * y * 2, fun x y => ?_, fun i => ?_⟩
  · show Except.ok (F.real (x * y * _)) = _
    norm_num
  · have h1 : (1:ℝ) ≤ Demo.rA.row i := by simp [Demo.rA]
    have h2 : (1:ℝ) ≤ Demo.rA.row i * Demo.rA.row i := by nlinarith
    refine ⟨by positivity, fun hz => ?_⟩
    unfold NearZero at hz
    rw [abs_of_nonneg (by positivity)] at hz
    norm_num at hz
    linarith
end KMethods
