import Verif.Lemmas.RoundKernels
import Verif.Lemmas.Pipeline
/-! # Kernel matrices in floating point arithmetic -/
namespace KMethods
open F Rounding KMState

variable {R : Rounding}

theorem FloatOps.opsOk {ops : Ops F} (h : FloatOps R ops) : OpsOk ops := by
  obtain ⟨o, o', ho⟩ := h.normalize
  intro A m N h
  rw [ho] at h ⊢
  simp only [normalizeKmFl, normalizeSquareFl] at *
  split at h
  · rename_i hsq
    rw [dif_pos hsq, if_pos toLower_cosine]
    by_cases hm : m.toLower = "cosine"
    · rw [if_pos hm] at h; exact h
    · rw [if_neg hm] at h; simp [Except.map] at h
  · simp at h

/-- the computed kernel matrix, compared with the exact one -/
theorem FloatEnv.gram {env : Env NumKernel (List ℝ) F} (h : FloatEnv R env) {k : NumKernel} {A : Arr2 (List ℝ)} (hv : k.ValidOn A) :
    ∃ K H : Matrix (Fin A.nrows) (Fin A.nrows) ℝ, k.IsGram A K ∧ IsPSD K ∧ Attachment.gram ⟨A, none⟩ (env.kval k) = Mat.ofReal H ∧
      (∀ i j, H i j = H j i) ∧ NoFaultsOn env k ⟨A, none⟩ ∧
      ∀ i j, |H i j - K i j| ≤ (R.w ^ k.roundings A.ncols - 1) * (Real.sqrt (K i i) * Real.sqrt (K j j)) := by
  obtain ⟨K, hK, hg⟩ := psdOn_of_validOn hv
  obtain ⟨hlen, hv⟩ := hv
  let x : Fin A.nrows → Fin A.ncols → ℝ := fun i c => (A.row i).getD c 0
  have hx : ∀ i : Fin A.nrows, A.row i = List.ofFn (x i) := by
    intro i
    apply List.ext_getElem
    · simp [hlen i i.2]
    · intro c h1 h2; simp [x, h1]
  have hmem : ∀ (i : Fin A.nrows) c, x i c ∈ A.row i := fun i c => by rw [hx]; exact (List.mem_ofFn' _ _).2 ⟨c, rfl⟩
  have hval : ∀ i, k.ValidAt (x i) := fun i => by
    cases k with
    | hadamard α => exact hv.imp id fun h c => h i i.2 _ (hmem i c)
    | poly deg γ b => exact hv
    | gaussian σ γ => exact hv
    | laplacian γ => exact hv
    | chi2 γ => exact ⟨hv.1, fun c => hv.2 i i.2 _ (hmem i c)⟩
    | sigmoid => exact hv.elim
    | linear => trivial
  have hsig : ∀ γ o, k ≠ .sigmoid γ o := by rintro γ o rfl; exact hv.elim
  have hon : ∀ i j, k.on (x i) (x j) = .ok (.real (K i j)) := fun i j => by
    have := hg i j
    rwa [hx i, hx j] at this
  have hcall := fun i j => h.call k (x i) (x j) (K i j) hsig (hon i j)
  have hkv : ∀ i j : Fin A.nrows, ∃ v, env.kval k (A.row i) (A.row j) = .real v ∧
      |v - K i j| ≤ (R.w ^ k.roundings A.ncols - 1) * (Real.sqrt (K i i) * Real.sqrt (K j j)) := fun i j => by
    obtain ⟨-, v, e, hc⟩ := hcall i j
    obtain ⟨c, a, b, ec, ea, eb, -, -, herr⟩ := computes_err (hval i) (hval j) hc
    have e1 := (hon i j).symm.trans ec
    have e2 := (hon i i).symm.trans ea
    have e3 := (hon j j).symm.trans eb
    injection e1 with e1; injection e1 with e1
    injection e2 with e2; injection e2 with e2
    injection e3 with e3; injection e3 with e3
    subst e1 e2 e3
    exact ⟨v, by rw [hx i, hx j]; exact e, herr⟩
  have hR : RealOn (env.kval k) (fun a b => (env.kval k a b).val) ⟨A, none⟩ := by
    intro a b ha hb
    obtain ⟨i, rfl⟩ := isRow_none ha
    obtain ⟨j, rfl⟩ := isRow_none hb
    obtain ⟨v, e, -⟩ := hkv i j
    dsimp only
    rw [e]; rfl
  have hsymm : ∀ i j, A.gramR (fun a b => (env.kval k a b).val) i j = A.gramR (fun a b => (env.kval k a b).val) j i := fun i j => by
    unfold Arr2.gramR
    rw [min_comm, max_comm]
  have herr : ∀ i j : Fin A.nrows, i ≤ j → |A.gramR (fun a b => (env.kval k a b).val) i j - K i j| ≤
      (R.w ^ k.roundings A.ncols - 1) * (Real.sqrt (K i i) * Real.sqrt (K j j)) := fun i j hij => by
    obtain ⟨v, e, hv⟩ := hkv i j
    unfold Arr2.gramR
    rw [Nat.min_eq_left hij, Nat.max_eq_right hij]
    dsimp only
    rw [e]
    exact hv
  refine ⟨K, _, hg, hK, gram_ofReal hR, hsymm, ?_, fun i j => ?_⟩
  · intro t a b ha hb
    obtain ⟨i, rfl⟩ := isRow_none ha
    obtain ⟨j, rfl⟩ := isRow_none hb
    rw [hx i, hx j]
    exact (hcall i j).1 t
  · rcases le_total i j with hij | hij
    · exact herr i j hij
    · rw [hsymm, hK.1 i j, _root_.mul_comm (Real.sqrt (K i i))]
      exact herr j i hij

/-- `km.full` of a normalising object -/
theorem FloatEnv.full_normed {env : Env NumKernel (List ℝ) F} (h : FloatEnv R env) {k : NumKernel} {A : Arr2 (List ℝ)}
    (hf : NoFaultsOn env k ⟨A, none⟩) {s : KMState NumKernel (List ℝ) F} (hs : SinceAny env k true ⟨A, none⟩ s) :
    (exec env .full s).1 = (env.ops.normalize (Attachment.gram ⟨A, none⟩ (env.kval k)) "cosine").map (KMOut.mat .dense) := by
  have hg := hs.goodOnAny hf
  have hq : Quiet env k ⟨A, none⟩ := fun hr => by rw [h.fmt] at hr; cases hr
  have hn : QuietNormed env k ⟨A, none⟩ := fun hr => by rw [h.fmt] at hr; cases hr
  have := (full_ff (noFaults_faultless env) hg).2.1 (hs.quiet hq) (hs.quietNormed hn) (by rw [faultless_ops]; exact h.ops.opsOk) hs.keepNormed
  rw [hs.exec_faultless hf rfl]
  unfold exec
  rw [(exec_state s).2, this, hs.kernel, faultless_ops, faultless_kval]
  unfold Attachment.normed Attachment.normedOf
  show Except.map _ (Except.map _ (env.ops.normalize _ _)) = Except.map _ (env.ops.normalize _ _)
  rcases env.ops.normalize (Attachment.gram ⟨A, none⟩ (env.kval k)) "cosine" with e | N <;> rfl

theorem one_sub_eta {η : ℝ} {n : Nat} (hn : 0 < n) (h0 : 0 ≤ η) (h1 : η < 1) (h6 : 6 * R.u < 1) (h : n * R.normErr η ≤ 1e-6) :
    24 * R.u ≤ 1e-5 := by
  have h2 : R.normErr η ≤ 1e-6 := by
    refine le_trans ?_ h
    have : (1:ℝ) ≤ n := by exact_mod_cast hn
    exact le_mul_of_one_le_left (normErr_nonneg h0 h1 h6) this
  have h3 : R.gamma 6 ≤ R.normErr η := by
    unfold Rounding.normErr
    have := gamma_nonneg (R := R) (m := 6) (by push_cast; exact h6)
    rw [le_div_iff₀ (by linarith)]
    nlinarith
  have h4 : 6 * R.u ≤ R.gamma 6 := by
    unfold Rounding.gamma
    have := R.u_nonneg
    push_cast
    rw [le_div_iff₀ (by linarith)]
    nlinarith
  norm_num at h2 ⊢
  linarith

end KMethods
