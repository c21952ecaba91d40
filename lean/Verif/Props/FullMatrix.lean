import Verif.Lemmas.FaultFreeOn
import Verif.Lemmas.Operations
import Verif.Spec.DemoReal
/-!
# C08-C11, C16: the full matrix and what is derived from it
-/
namespace KMethods
open KMState IndexSpec
variable {K X V : Type}

/-- **C08** Unnormalised, no kernel failures, no failing warning about non-finite values: `km.full` is the dense matrix of all kernel values, whatever calls
preceded it on this attachment, as long as these did not include `full_sparse` or whole-matrix indexing. -/
theorem C08_full_is_gram {env : Env K X V} {k : K} {a : Attachment X} {s : KMState K X V}
    (hf : NoFaultsOn env k a) (hq : Quiet env k a) (h : SinceDense env k false a s) :
    (exec env .full s).1 = .ok (.mat .dense (a.gram (env.kval k))) := by
  have hg := h.goodOnDense hf
  have := (full_ff (noFaults_faultless env) hg).2.2.1 (h.quiet hq) h.keepNormed rfl
  rw [h.exec_faultless hf rfl]
  unfold exec
  rw [(exec_state s).2, this, h.kernel]
  rfl

/-- **C08** in the one-sample case that matrix is square and symmetric, for every kernel function -/
theorem C08_symmetric {env : Env K X V} {k : K} {A : Arr2 X} {s : KMState K X V}
    (hf : NoFaultsOn env k ⟨A, none⟩) (hq : Quiet env k ⟨A, none⟩) (h : SinceDense env k false ⟨A, none⟩ s) :
    ∃ c : Fin A.nrows → Fin A.nrows → V, (exec env .full s).1 = .ok (.mat .dense ⟨A.nrows, A.nrows, c⟩) ∧
      (∀ i j, c i j = c j i) ∧ ∀ i j, i ≤ j → c i j = env.kval k (A.row i) (A.row j) := by
  refine ⟨_, C08_full_is_gram hf hq h, fun i j => Attachment.entry_symm _ _ rfl _ _, fun i j hij => ?_⟩
  show env.kval k (A.row (min (i : Nat) j)) (A.row (max (i : Nat) j)) = _
  rw [Nat.min_eq_left hij, Nat.max_eq_right hij]

/-- three samples, after an element access, a `diagonal()` and a rejected access -/
example : SinceDense Demo.env () false Demo.one
      (run Demo.env [.getItem (.pair (.int 2) (.int 0)), .diagonal, .getItem (.linear 9)] (Demo.st1 false)) ∧
    Demo.entries (exec Demo.env .full
      (run Demo.env [.getItem (.pair (.int 2) (.int 0)), .diagonal, .getItem (.linear 9)] (Demo.st1 false))).1 =
      some (.dense, [[11, 12, 13], [12, 22, 23], [13, 23, 33]]) := by
  refine ⟨.call _ (.call _ (.call _ (Demo.since_one false _) rfl ?_) rfl ?_) rfl ?_, by decide +kernel⟩
  · intro h
    have := h.1 0 (by decide)
    simp [Selects] at this
  · exact id
  · intro h
    exact absurd h.1 (by decide)

/-- **C09** Normalised, no kernel failures, one sample: after every history of public calls, `km.full` is the result of
`normalize_km` on the Gram matrix (value or exception); for two samples that of `normalize_km_2sample` on the kernel
matrix and the two lists of self-kernels. Holds for every kernel, also if it produces NaN (if the warning about that can be issued, see C60). -/
theorem C09_full_is_normalised_gram {env : Env K X F} (hops : env.ops = realOps) {k : K}
    {a : Attachment X} {s : KMState K X F}
    (hf : NoFaultsOn env k a) (hq : Quiet env k a) (hn : QuietNormed env k a) (h : SinceAny env k true a s) :
    (exec env .full s).1 = (match a.two with
      | none => normalizeKm (a.gram (env.kval k)) "cosine"
      | some B => normalizeKm2 (a.gram (env.kval k)) (a.one.selfs (env.kval k)) (B.selfs (env.kval k)) "cosine").map
        (KMOut.mat .dense) := by
  have hg := h.goodOnAny hf
  have := (full_ff (noFaults_faultless env) hg).2.1 (h.quiet hq) (h.quietNormed hn) (by rw [faultless_ops, hops]; exact opsOk_real) h.keepNormed
  rw [h.exec_faultless hf rfl]
  unfold exec
  rw [(exec_state s).2, this, h.kernel, faultless_ops, faultless_kval, hops]
  unfold Attachment.normed Attachment.normedOf
  rcases a.two with _ | B
  · show Except.map _ (Except.map _ (normalizeKm _ _)) = Except.map _ (normalizeKm _ _)
    rcases normalizeKm (a.gram (env.kval k)) "cosine" with e | N <;> rfl
  · show Except.map _ (Except.map _ (normalizeKm2 _ _ _ _)) = Except.map _ (normalizeKm2 _ _ _ _)
    rcases normalizeKm2 (a.gram (env.kval k)) (a.one.selfs (env.kval k)) (B.selfs (env.kval k)) "cosine" with e | N <;> rfl

/-- **C09** one sample, real kernel with non-negative self-kernels: `km.full` raises `KMNormError` exactly when a
self-kernel is close to zero and otherwise is the cosine-normalised Gram matrix. -/
theorem C09_one_sample {env : Env K X F} (hops : env.ops = realOps) {k : K} {κ : X → X → ℝ}
    {A : Arr2 X} {s : KMState K X F}
    (hf : NoFaultsOn env k ⟨A, none⟩) (hκ : RealOn (env.kval k) κ ⟨A, none⟩)
    (h : SinceAny env k true ⟨A, none⟩ s) (hpos : ∀ i : Fin A.nrows, 0 ≤ κ (A.row i) (A.row i)) :
    ((∃ i : Fin A.nrows, NearZero (κ (A.row i) (A.row i))) → (exec env .full s).1 = .error .kmNorm) ∧
    ((¬ ∃ i : Fin A.nrows, NearZero (κ (A.row i) (A.row i))) →
      (exec env .full s).1 = .ok (.mat .dense (Mat.ofReal (cosNorm (A.gramR κ))))) := by
  have hd : ∀ i, A.gramR κ i i = κ (A.row i) (A.row i) := fun i => by simp [Arr2.gramR]
  have := normalizeSquare_real (A.gramR κ) toLower_cosine fun i => by rw [hd]; exact hpos i
  simp only [hd] at this
  rw [C09_full_is_normalised_gram hops hf (quiet_of_real hops hκ) (quietNormed_one hops hκ hpos) h]
  simp only
  rw [gram_ofReal hκ, normalizeKm_ofReal]
  constructor
  · intro hz; rw [this.1 hz]; rfl
  · intro hz; rw [this.2 hz]; rfl

/-- **C09** two samples -/
theorem C09_two_samples {env : Env K X F} (hops : env.ops = realOps) {k : K} {κ : X → X → ℝ}
    {A B : Arr2 X} {s : KMState K X F}
    (hf : NoFaultsOn env k ⟨A, some B⟩) (hκ : RealOn (env.kval k) κ ⟨A, some B⟩)
    (h : SinceAny env k true ⟨A, some B⟩ s) (hA : ∀ i : Fin A.nrows, 0 ≤ κ (A.row i) (A.row i))
    (hB : ∀ i : Fin B.nrows, 0 ≤ κ (B.row i) (B.row i)) :
    ((∃ i : Fin A.nrows, NearZero (κ (A.row i) (A.row i))) ∨ (∃ j : Fin B.nrows, NearZero (κ (B.row j) (B.row j))) →
      (exec env .full s).1 = .error .kmNorm) ∧
    (¬ ((∃ i : Fin A.nrows, NearZero (κ (A.row i) (A.row i))) ∨ (∃ j : Fin B.nrows, NearZero (κ (B.row j) (B.row j)))) →
      (exec env .full s).1 = .ok (.mat .dense (Mat.ofReal
        (cosNorm2 (A.crossR B κ) (fun i => κ (A.row i) (A.row i)) fun j => κ (B.row j) (B.row j))))) := by
  rw [C09_full_is_normalised_gram hops hf (quiet_of_real hops hκ) (quietNormed_two hops hκ hA hB) h]
  simp only
  rw [cross_ofReal hκ]
  have := normalizeKm2_real (A.crossR B κ) (fun i => κ (A.row i) (A.row i)) (fun j => κ (B.row j) (B.row j))
    toLower_cosine _ _ (selfs_ofReal fun i => hκ _ _ (isRow_one i) (isRow_one i))
    (selfs_ofReal fun j => hκ _ _ (isRow_two j) (isRow_two j)) hA hB
  constructor
  · intro hz; rw [this.1 hz]; rfl
  · intro hz; rw [this.2 hz]; rfl

/-- samples 1, 2, 3 with kernel `x y`, after `full_sparse` and a centering: no self-kernel is close to zero -/
example : SinceAny Demo.renv () true ⟨Demo.rA, none⟩ (run Demo.renv [.fullSparse, .center] (Demo.rst true)) ∧
    (∀ i : Fin Demo.rA.nrows, (0:ℝ) ≤ Demo.rA.row i * Demo.rA.row i) ∧
    ¬ ∃ i : Fin Demo.rA.nrows, NearZero (Demo.rA.row i * Demo.rA.row i) := by
  refine ⟨.call _ (.call _ (Demo.since_rst true _) rfl trivial) rfl trivial, fun i => mul_self_nonneg _, ?_⟩
  rintro ⟨i, hi⟩
  have h1 : (1:ℝ) ≤ Demo.rA.row i := by simp [Demo.rA]
  have : (1:ℝ) ≤ Demo.rA.row i * Demo.rA.row i := by nlinarith
  rw [NearZero, abs_of_nonneg (by linarith)] at hi
  norm_num at hi
  linarith

/-- **C10 is violated.** The full statement would be: for every fault-free history on an unnormalised `KernelMatrix`,
`km.full` returns the kernel matrix (in whatever storage format). After `km.full_sparse` it instead returns the upper triangle only. -/
theorem C10_violated : ¬ ∀ (K X V : Type) (env : Env K X V) (k : K) (a : Attachment X) (s : KMState K X V),
    NoFaults env → SinceAny env k false a s →
    ∃ fmt, (exec env .full s).1 = .ok (.mat fmt (a.gram (env.kval k))) := by
  intro h
  obtain ⟨fmt, h⟩ := h _ _ _ Demo.env () Demo.one (exec Demo.env .fullSparse (Demo.st1 false)).2 Demo.noFaults
    (.call _ (Demo.since_one false _) rfl trivial)
  have h1 : Demo.entries (exec Demo.env .full (exec Demo.env .fullSparse (Demo.st1 false)).2).1 =
      some (.sparse, [[11, 12, 13], [0, 22, 23], [0, 0, 33]]) := by decide +kernel
  rw [h] at h1
  revert h1
  cases fmt <;> decide +kernel

/-- **C10, partial**: the history must not contain `full_sparse`; then `km.full` has the right contents after every
fault-free history, including whole-matrix indexing `km[:, :]` (which may change the storage format to sparse).
Missing: histories with `full_sparse` (there the code is wrong, `C10_violated`); the format is dense if the matrix was not
indexed as a whole (`C08_full_is_gram`). -/
theorem C10_full_contents_partial {env : Env K X V} {k : K} {a : Attachment X} {s : KMState K X V}
    (hf : NoFaultsOn env k a) (hq : Quiet env k a) (h : Since env k false a (fun op => op ≠ .fullSparse) s) :
    ∃ fmt, (exec env .full s).1 = .ok (.mat fmt (a.gram (env.kval k))) := by
  have hg := h.goodOn hf ⟨true, false⟩ (by simp) fun _ => Or.inr fun op h => h
  obtain ⟨fmt, this⟩ := (full_ff (noFaults_faultless env) hg).2.2.2.1 (h.quiet hq) h.keepNormed rfl
  refine ⟨fmt, ?_⟩
  rw [h.exec_faultless hf rfl]
  unfold exec
  rw [(exec_state s).2, this, h.kernel]
  rfl

/-- after `km[:, :]` -/
example : Demo.entries (exec Demo.env .full (exec Demo.env
      (.getItem (.pair (.slice none none none) (.slice none none none))) (Demo.st1 false)).2).1 =
      some (.sparse, [[11, 12, 13], [12, 22, 23], [13, 23, 33]]) := by decide +kernel

/-- **C11 is violated.** The full statement would be: after any history (with any kernel failures) not using `full_sparse`,
if `km.full` returns then it returns the true kernel matrix. When the third of the kernel calls raises, the first `km.full` raises
`RuntimeError`, but the second one returns the matrix with the missing entries still holding the fill value (here -1). -/
theorem C11_violated : ¬ ∀ (K X V : Type) (env : Env K X V) (k : K) (a : Attachment X) (s : KMState K X V)
    (out : KMOut V), Since env k false a (fun op => op ≠ .fullSparse) s → (exec env .full s).1 = .ok out →
    ∃ fmt, out = .mat fmt (a.gram (env.kval k)) := by
  intro h
  have h1 : Demo.entries (exec (Demo.faulty 2) .full (exec (Demo.faulty 2) .full (Demo.stF 2)).2).1 =
      some (.dense, [[11, 12, -1], [12, -1, -1], [-1, -1, -1]]) := by decide +kernel
  rcases hr : (exec (Demo.faulty 2) .full (exec (Demo.faulty 2) .full (Demo.stF 2)).2).1 with e | out
  · rw [hr] at h1; simp [Demo.entries] at h1
  · obtain ⟨fmt, h⟩ := h _ _ _ (Demo.faulty 2) () Demo.one _ out
      (.call .full (Demo.since_faulty 2 _) rfl (by simp)) hr
    rw [hr, h] at h1
    revert h1
    cases fmt <;> decide +kernel

/-- **C11, partial (1)**: if no earlier call on the attachment was interrupted by a kernel failure (it may have raised for other
reasons), and neither `full_sparse` nor whole-matrix indexing was used, then whenever `km.full` returns, it returns the true
kernel matrix - for every environment, i.e. whatever failures are still to come. Missing: calls after an interrupted one. -/
theorem C11_no_stale_full_partial {env : Env K X V} {k : K} {a : Attachment X} {s : KMState K X V}
    (h : SinceClean env k false a (fun op => ¬ op.MayGoSparse false a.nrows a.ncols) s) {out : KMOut V}
    (hok : (exec env .full s).1 = .ok out) : out = .mat .dense (a.gram (env.kval k)) := by
  have hnf : ¬ Failed (exec env .full s).1 := by rw [hok]; rintro (h | h) <;> cases h
  have hg := h.goodDense
  have := (full_ff (noFaults_faultless env) hg).2.2.2.2 h.since.keepNormed rfl
  rw [exec_faultless _ hnf] at hok
  unfold exec at hok
  rw [(exec_state s).2] at hok
  rcases this with this | this
  · rw [this, h.since.kernel] at hok
    injection hok with hok
    exact hok.symm
  · rw [this] at hok; cases hok

/-- **C11, partial (2)**: after every history with any failures, a matrix returned by `full` or `full_sparse` of an unnormalised
`KernelMatrix` has the right shape, and each entry is the true kernel value or the fill value (NaN, or 0 in sparse storage): a failed
computation may leave entries missing but never wrong. Missing: that no entry is missing (the code violates it). -/
theorem C11_no_wrong_values_partial {env : Env K X V} {k : K} {a : Attachment X} {s : KMState K X V}
    (h : SinceAny env k false a s) {op : KMOp X} (hop : op = .full ∨ op = .fullSparse) {out : KMOut V}
    (hok : (exec env op s).1 = .ok out) :
    ∃ fmt c, out = .mat fmt ⟨a.nrows, a.ncols, c⟩ ∧ ∀ i j, c i j = a.entry (env.kval k) i j ∨
      c i j = env.ops.nan ∨ c i j = env.ops.zero := by
  have key : ∀ {m : PyM (KMState K X V) (Fmt × Mat V)},
      Holds (CellsOk env k false a) m (fun A => false = false → FilledMat env k a A) →
      ((m >>= fun A => pure (KMOut.mat A.1 A.2)) s).1 = .ok out →
      ∃ fmt c, out = .mat fmt ⟨a.nrows, a.ncols, c⟩ ∧ ∀ i j, c i j = a.entry (env.kval k) i j ∨
        c i j = env.ops.nan ∨ c i j = env.ops.zero := by
    intro m hm ho
    obtain ⟨A, h1, h2⟩ := exec_ok (f := fun A : Fmt × Mat V => KMOut.mat A.1 A.2) ho
    obtain ⟨c, hc, hc'⟩ := (hm s h.cellsOk).2 A h1 rfl
    exact ⟨A.1, fun i j => c i j, by rw [h2, hc]; rfl, fun i j => hc' i j⟩
  rcases hop with rfl | rfl
  · exact key holds_full hok
  · exact key holds_fullSparse hok

/-- one entry missing, the others right: the matrix returned after a failed computation -/
example : SinceAny (Demo.faulty 4) () false Demo.one (exec (Demo.faulty 4) .full (Demo.stF 4)).2 ∧
    Demo.entries (exec (Demo.faulty 4) .full (exec (Demo.faulty 4) .full (Demo.stF 4)).2).1 =
      some (.dense, [[11, 12, 13], [12, 22, -1], [13, -1, -1]]) :=
  ⟨.call _ (Demo.since_faulty 4 _) rfl trivial, by decide +kernel⟩

/-- a clean history in a world where a later kernel call fails -/
example : SinceClean (Demo.faulty 9) () false Demo.one (fun op => ¬ op.MayGoSparse false 3 3)
    (exec (Demo.faulty 9) .full (Demo.stF 9)).2 := by
  refine .call _ (.attached (.new 0) Demo.attaches_one rfl) rfl id ?_
  have : Demo.entries (exec (Demo.faulty 9) .full (Demo.stF 9)).1 =
      some (.dense, [[11, 12, 13], [12, 22, 23], [13, 23, 33]]) := by decide +kernel
  rintro (h | h) <;> · rw [h] at this; simp [Demo.entries] at this

/-- **C16** One sample, no failures, no sparse storage requested before: `centered` is the centred raw Gram matrix, whether or not
the object normalises, and independently of the order of calls. -/
theorem C16_centered {env : Env K X F} (hops : env.ops = realOps) {k : K} {norm : Bool}
    {κ : X → X → ℝ} {A : Arr2 X} {s : KMState K X F}
    (hf : NoFaultsOn env k ⟨A, none⟩) (hκ : RealOn (env.kval k) κ ⟨A, none⟩)
    (h : SinceDense env k norm ⟨A, none⟩ s) :
    (exec env .centered s).1 = .ok (.mat .dense (Mat.ofReal (centered (A.gramR κ)))) := by
  have := (centered_ff (noFaults_faultless env) (h.goodOnDense hf)).2 (h.quiet (quiet_of_real hops hκ)) rfl rfl
  rw [h.exec_faultless hf rfl]
  unfold exec
  rw [(exec_state s).2, this, h.kernel, faultless_ops, faultless_kval, hops, gram_ofReal hκ]
  show Except.map _ (Except.map _ (centerKm _)) = _
  rw [centerKm_real]
  rfl

/-- **C16** `frob_norm` is the Frobenius norm of the raw Gram matrix (one sample) -/
theorem C16_frob_norm_one {env : Env K X F} (hops : env.ops = realOps) {k : K} {norm : Bool}
    {κ : X → X → ℝ} {A : Arr2 X} {s : KMState K X F}
    (hf : NoFaultsOn env k ⟨A, none⟩) (hκ : RealOn (env.kval k) κ ⟨A, none⟩)
    (h : SinceDense env k norm ⟨A, none⟩ s) :
    (exec env .frobNorm s).1 = .ok (.val (.real (Real.sqrt (∑ i, ∑ j, A.gramR κ i j ^ 2)))) := by
  have := (((frobNormVal_ff (noFaults_faultless env) (h.goodOnDense hf)).2 (h.quiet (quiet_of_real hops hκ))).dense rfl).symm
  rw [h.exec_faultless hf rfl]
  unfold exec
  rw [(exec_state s).2, this, h.kernel, faultless_ops, faultless_kval, hops, gram_ofReal hκ]
  show Except.map _ (frobeniusNorm _) = _
  rw [frobeniusNorm_real]
  simp only [frobInner, pow_two]
  rfl

/-- **C16** `frob_norm` for two samples -/
theorem C16_frob_norm_two {env : Env K X F} (hops : env.ops = realOps) {k : K} {norm : Bool}
    {κ : X → X → ℝ} {A B : Arr2 X} {s : KMState K X F}
    (hf : NoFaultsOn env k ⟨A, some B⟩) (hκ : RealOn (env.kval k) κ ⟨A, some B⟩)
    (h : SinceDense env k norm ⟨A, some B⟩ s) :
    (exec env .frobNorm s).1 = .ok (.val (.real (Real.sqrt (∑ i, ∑ j, A.crossR B κ i j ^ 2)))) := by
  have := (((frobNormVal_ff (noFaults_faultless env) (h.goodOnDense hf)).2 (h.quiet (quiet_of_real hops hκ))).dense rfl).symm
  rw [h.exec_faultless hf rfl]
  unfold exec
  rw [(exec_state s).2, this, h.kernel, faultless_ops, faultless_kval, hops, cross_ofReal hκ]
  show Except.map _ (frobeniusNorm _) = _
  rw [frobeniusNorm_real]
  simp only [frobInner, pow_two]
  rfl

/-- **C16** `diagonal()` lists the self-kernels, after every fault-free history (sparse storage or not) -/
theorem C16_diagonal {env : Env K X V} {k : K} {norm : Bool} {A : Arr2 X} {s : KMState K X V}
    (hf : NoFaultsOn env k ⟨A, none⟩) (h : SinceAny env k norm ⟨A, none⟩ s) :
    (exec env .diagonal s).1 = .ok (.vec ((List.range A.nrows).map fun i => env.kval k (A.row i) (A.row i))) := by
  have := (diagonal_good (noFaults_faultless env) (h.goodOnAny hf)).2 rfl
  rw [h.exec_faultless hf rfl]
  unfold exec
  rw [(exec_state s).2, this, h.kernel]
  rfl

/-- a normalising object on which `normalize` and `full` were called before -/
example : SinceDense Demo.renv () true ⟨Demo.rA, none⟩ (run Demo.renv [.normalize "cosine", .full] (Demo.rst true)) :=
  .call _ (.call _ (Demo.since_rst true _) rfl id) rfl id

end KMethods
