import Verif.Lemmas.Sparse
import Verif.Spec.DemoSet
/-!
# C72: results and the storage format

Whether the kernel matrix is kept as an ndarray or as a `lil_matrix` (after `full_sparse`, or after indexing everything at once) should not change what is computed
from it. For `frob_norm` and `centered` it does.
-/
namespace KMethods
open KMState F
variable {K X V : Type}

/-- the part of a matrix on and above the diagonal -/
def upperPart {n : Nat} (M : Matrix (Fin n) (Fin n) ℝ) : Matrix (Fin n) (Fin n) ℝ := fun i j => if i ≤ j then M i j else 0

/-- the square root of the sum of the entries of the matrix product of `M` with itself; NaN if that sum is negative -/
noncomputable def productNorm {n : Nat} (M : Matrix (Fin n) (Fin n) ℝ) : F :=
  open Classical in if ∑ i, ∑ j, ∑ l, M i l * M l j < 0 then .nan else .real (Real.sqrt (∑ i, ∑ j, ∑ l, M i l * M l j))

theorem frobSparse_ofReal {n : Nat} (M : Matrix (Fin n) (Fin n) ℝ) : frobeniusNormSparse (Mat.ofReal M) = .ok (productNorm M) := by
  rw [frobeniusNormSparse_real]
  rfl

theorem upperGram_ofReal {env : Env K X F} (hops : env.ops = realOps) {k : K} {κ : X → X → ℝ} {A : Arr2 X} (hκ : RealOn (env.kval k) κ ⟨A, none⟩) :
    upperGram env ⟨A, none⟩ k = Mat.ofReal (upperPart (A.gramR κ)) := by
  have h := gram_ofReal hκ
  have h1 : ∀ i j : Fin A.nrows, Attachment.entry ⟨A, none⟩ (env.kval k) i j = .real (A.gramR κ i j) := by
    intro i j
    exact congrFun (congrFun (eq_of_heq (Mat.mk.inj h).2.2) i) j
  show Mat.mk _ _ _ = Mat.mk _ _ _
  congr 1
  funext i j
  show (if (i : Nat) ≤ j then _ else _) = real (if i ≤ j then _ else _)
  by_cases hij : (i : Nat) ≤ j
  · rw [if_pos hij, if_pos (show i ≤ j from hij)]
    exact h1 i j
  · rw [if_neg hij, if_neg (show ¬ i ≤ j from hij), hops]
    rfl

/-- **C72** (weaker than intended: see `C72_violated_frob`) After any calls on this attachment, `frob_norm` is the Frobenius norm of the kernel matrix, or what the
sparse format makes of the kernel matrix or of its upper triangle: the square root of the sum of the entries of the matrix *product*. -/
theorem C72_frob_norm_partial {env : Env K X F} (hops : env.ops = realOps) {k : K} {norm : Bool} {κ : X → X → ℝ} {A : Arr2 X} {s : KMState K X F}
    (hf : NoFaultsOn env k ⟨A, none⟩) (hκ : RealOn (env.kval k) κ ⟨A, none⟩) (h : SinceAny env k norm ⟨A, none⟩ s) :
    ∃ v, (exec env .frobNorm s).1 = .ok (.val v) ∧
      (v = .real (Real.sqrt (∑ i, ∑ j, A.gramR κ i j ^ 2)) ∨ v = productNorm (A.gramR κ) ∨ v = productNorm (upperPart (A.gramR κ))) := by
  have := (frobNormVal_ff (noFaults_faultless env) (h.goodOnAny hf)).2 (h.quiet (quiet_of_real hops hκ))
  rw [h.exec_faultless hf rfl]
  unfold exec
  rw [(exec_state s).2]
  unfold FrobIs at this
  rw [h.kernel, faultless_ops, faultless_kval, hops, gram_ofReal hκ, show upperGram env.faultless ⟨A, none⟩ k = upperGram env ⟨A, none⟩ k from rfl,
    upperGram_ofReal hops hκ] at this
  rcases this with h1 | ⟨-, h1 | ⟨-, h1⟩⟩ <;> rw [h1]
  · refine ⟨_, ?_, .inl rfl⟩
    show Except.map _ (frobeniusNorm _) = _
    rw [frobeniusNorm_real]
    simp only [frobInner, pow_two]
    rfl
  · exact ⟨_, congrArg (Except.map _) (frobSparse_ofReal _), .inr (.inl rfl)⟩
  · exact ⟨_, congrArg (Except.map _) (frobSparse_ofReal _), .inr (.inr rfl)⟩

/-- what attaching leaves -/
theorem fresh_state {env : Env K X V} {k : K} {norm : Bool} {a : Attachment X} {s0 s : KMState K X V} {one : SampleIn X} {two : Option (SampleIn X)}
    (hr : Reachable env k norm s0) (ha : Attaches one two a) (h : exec env (.attach one two) s0 = (.ok .none, s)) :
    ∃ c o, s = attachedState k norm a c o := by
  rw [exec_attach_ok ha h, hr.kernel.1, hr.kernel.2]
  exact ⟨_, _, rfl⟩

/-- **C72** If `full_sparse` is the first call after attaching (on an object that does not normalise), `frob_norm` is computed from the matrix product of the upper
triangle with itself. -/
theorem C72_frob_norm_after_sparse {env : Env K X F} (hops : env.ops = realOps) {k : K} {κ : X → X → ℝ} {A : Arr2 X} {s0 s : KMState K X F} {one : SampleIn X}
    (hf : NoFaultsOn env k ⟨A, none⟩) (hκ : RealOn (env.kval k) κ ⟨A, none⟩)
    (hr : Reachable env k false s0) (ha : Attaches one none ⟨A, none⟩) (h : exec env (.attach one none) s0 = (.ok .none, s)) :
    (exec env .frobNorm (exec env .fullSparse s).2).1 = .ok (.val (productNorm (upperPart (A.gramR κ)))) := by
  have h1 : SinceAny env k false ⟨A, none⟩ s := .attached hr ha h
  have h2 : SinceAny env k false ⟨A, none⟩ (exec env .fullSparse s).2 := .call _ h1 rfl trivial
  rw [h2.exec_faultless hf rfl, h1.exec_faultless hf rfl]
  obtain ⟨c, o, rfl⟩ := fresh_state hr ha h
  obtain ⟨t, e1, e2, e3, e4, e5, e6, e7⟩ := fullSparse_fresh (noFaults_faultless env) k ⟨A, none⟩ c o
  unfold exec
  rw [(exec_state _).1, e1, (exec_state _).2, frobNormVal_sparse e2 e3 e4 e5, e7, faultless_ops, hops,
    show upperGram env.faultless ⟨A, none⟩ k = upperGram env ⟨A, none⟩ k from rfl, upperGram_ofReal hops hκ]
  exact congrArg (Except.map _) (frobSparse_ofReal _)

/-- **C72** For two samples of different sizes `frob_norm` raises `ValueError` in that situation. -/
theorem C72_frob_norm_two_samples {env : Env K X F} (hops : env.ops = realOps) {k : K} {A B : Arr2 X} {s0 s : KMState K X F} {one two : SampleIn X}
    (hf : NoFaultsOn env k ⟨A, some B⟩) (hAB : A.nrows ≠ B.nrows)
    (hr : Reachable env k false s0) (ha : Attaches one (some two) ⟨A, some B⟩) (h : exec env (.attach one (some two)) s0 = (.ok .none, s)) :
    (exec env .frobNorm (exec env .fullSparse s).2).1 = .error .valueError := by
  have h1 : SinceAny env k false ⟨A, some B⟩ s := .attached hr ha h
  have h2 : SinceAny env k false ⟨A, some B⟩ (exec env .fullSparse s).2 := .call _ h1 rfl trivial
  rw [h2.exec_faultless hf rfl, h1.exec_faultless hf rfl]
  obtain ⟨c, o, rfl⟩ := fresh_state hr ha h
  obtain ⟨t, e1, e2, e3, e4, e5, e6, e7⟩ := fullSparse_fresh (noFaults_faultless env) k ⟨A, some B⟩ c o
  unfold exec
  rw [(exec_state _).1, e1, (exec_state _).2, frobNormVal_sparse e2 e3 e4 e5, e7, faultless_ops, hops]
  show Except.map _ (frobeniusNormSparse _) = _
  unfold frobeniusNormSparse
  rw [dif_neg (show ¬ (upperGram env.faultless ⟨A, some B⟩ k).nrows = (upperGram env.faultless ⟨A, some B⟩ k).ncols from hAB)]
  rfl

/-- **C72** (weaker than intended: see `C72_centered_after_sparse`) After any calls on this attachment, `centered` is the centred kernel matrix, or raises `ValueError`. -/
theorem C72_centered_partial {env : Env K X F} (hops : env.ops = realOps) {k : K} {norm : Bool} {κ : X → X → ℝ} {A : Arr2 X} {s : KMState K X F}
    (hf : NoFaultsOn env k ⟨A, none⟩) (hκ : RealOn (env.kval k) κ ⟨A, none⟩) (h : SinceAny env k norm ⟨A, none⟩ s) :
    (exec env .centered s).1 = .ok (.mat .dense (Mat.ofReal (centered (A.gramR κ)))) ∨ (exec env .centered s).1 = .error .valueError := by
  have := centered_any (noFaults_faultless env) (h.goodOnAny hf) (h.quiet (quiet_of_real hops hκ))
  rw [h.exec_faultless hf rfl]
  unfold exec
  rw [(exec_state s).2]
  rcases this with h1 | h1
  · left
    rw [h1, h.kernel, faultless_ops, faultless_kval, hops, gram_ofReal hκ]
    show Except.map _ (Except.map _ (centerKm _)) = _
    rw [centerKm_real]
    rfl
  · right
    rw [h1]
    rfl

/-- **C72** If `full_sparse` is the first call after attaching (on an object that does not normalise), `centered` raises `ValueError`, for every kernel. -/
theorem C72_centered_after_sparse {env : Env K X V} {k : K} {A : Arr2 X} {s0 s : KMState K X V} {one : SampleIn X}
    (hf : NoFaultsOn env k ⟨A, none⟩) (hr : Reachable env k false s0) (ha : Attaches one none ⟨A, none⟩) (h : exec env (.attach one none) s0 = (.ok .none, s)) :
    (exec env .centered (exec env .fullSparse s).2).1 = .error .valueError := by
  have h1 : SinceAny env k false ⟨A, none⟩ s := .attached hr ha h
  have h2 : SinceAny env k false ⟨A, none⟩ (exec env .fullSparse s).2 := .call _ h1 rfl trivial
  rw [h2.exec_faultless hf rfl, h1.exec_faultless hf rfl]
  obtain ⟨c, o, rfl⟩ := fresh_state hr ha h
  obtain ⟨t, e1, e2, e3, e4, e5, e6, e7⟩ := fullSparse_fresh (noFaults_faultless env) k ⟨A, none⟩ c o
  unfold exec
  rw [(exec_state _).1, e1, (exec_state _).2, centered_sparse e2 e3 e4 e6]
  rfl

/-- **C72** does not hold: for the sample 1, 2 and the kernel `x * y`, `frob_norm` is 5, but √27 if `full_sparse` was called before it, and `centered` raises then. -/
theorem C72_violated : ∃ s : KMState Unit ℝ F, SinceDense Demo.renv () false ⟨Demo.rB, none⟩ s ∧
    (exec Demo.renv .frobNorm s).1 = .ok (.val (.real 5)) ∧
    (exec Demo.renv .frobNorm (exec Demo.renv .fullSparse s).2).1 = .ok (.val (.real (Real.sqrt 27))) ∧
    (∃ C, (exec Demo.renv .centered s).1 = .ok (.mat .dense C)) ∧
    (exec Demo.renv .centered (exec Demo.renv .fullSparse s).2).1 = .error .valueError := by
  have ha : Attaches (.arr [2, 1] Demo.rB.row) none ⟨Demo.rB, none⟩ := ⟨⟨0, rfl⟩, trivial⟩
  have hs : SinceDense Demo.renv () false ⟨Demo.rB, none⟩ Demo.st2r := .attached (.new 0) ha rfl
  have hκ : RealOn (Demo.renv.kval ()) (fun x y => x * y) ⟨Demo.rB, none⟩ := fun _ _ _ _ => rfl
  have hf : NoFaultsOn Demo.renv () ⟨Demo.rB, none⟩ := fun _ _ _ _ _ => rfl
  have hG : ∀ i j : Fin 2, Demo.rB.gramR (fun x y => x * y) i j = ((i : ℝ) + 1) * ((j : ℝ) + 1) := by
    intro i j
    fin_cases i <;> fin_cases j <;> simp [Arr2.gramR, Demo.rB]
  refine ⟨Demo.st2r, hs, ?_, ?_, ⟨_, C16_centered rfl hf hκ hs⟩, C72_centered_after_sparse hf (.new 0) ha rfl⟩
  · rw [C16_frob_norm_one rfl hf hκ hs]
    show Except.ok (KMOut.val (real (Real.sqrt (∑ i : Fin 2, ∑ j : Fin 2, Demo.rB.gramR _ i j ^ 2)))) = _
    simp only [hG, Fin.sum_univ_two]
    norm_num
    rw [show (25 : ℝ) = 5 ^ 2 by norm_num, Real.sqrt_sq (by norm_num)]
  · refine (C72_frob_norm_after_sparse rfl hf hκ (.new 0) ha rfl).trans ?_
    have h27 : ∑ i : Fin 2, ∑ j : Fin 2, ∑ l : Fin 2, upperPart (n := 2) (Demo.rB.gramR fun x y => x * y) i l * upperPart (n := 2) (Demo.rB.gramR fun x y => x * y) l j = 27 := by
      simp only [upperPart, hG, Fin.sum_univ_two]
      norm_num
    have : productNorm (n := 2) (upperPart (Demo.rB.gramR fun x y => x * y)) = .real (Real.sqrt 27) := by
      unfold productNorm
      rw [h27, if_neg (by norm_num)]
    exact congrArg (fun v => Except.ok (KMOut.val v)) this

end KMethods
