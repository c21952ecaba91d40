import Verif.Lemmas.Resample
import Verif.Props.FullMatrix
/-!
# C65: kernel matrices of samples made of the same rows agree
-/
namespace KMethods
open F KMState
variable {K X V : Type} {A B C : Arr2 X}

/-- **C65** One object is attached to `A`, another one, with the same symmetric kernel, to a sample made of rows of `A` (some of them, in another order, or repeated).
The second kernel matrix consists of the corresponding entries of the first. -/
theorem C65_subsample {env : Env K X V} {k : K} {f : Fin B.nrows → Fin A.nrows} (hB : B.PickedFrom A f) (hsym : SymmOn (env.kval k) A)
    (hf : NoFaultsOn env k ⟨A, none⟩) (hq : Quiet env k ⟨A, none⟩) (hq' : Quiet env k ⟨B, none⟩) {s t : KMState K X V}
    (hs : SinceDense env k false ⟨A, none⟩ s) (ht : SinceDense env k false ⟨B, none⟩ t) :
    ∃ (M : Fin A.nrows → Fin A.nrows → V) (N : Fin B.nrows → Fin B.nrows → V),
      (exec env .full s).1 = .ok (.mat .dense ⟨A.nrows, A.nrows, M⟩) ∧ (exec env .full t).1 = .ok (.mat .dense ⟨B.nrows, B.nrows, N⟩) ∧
      ∀ i j, N i j = M (f i) (f j) :=
  ⟨_, _, C08_full_is_gram hf hq hs, C08_full_is_gram (fun t x y hx hy => hf t x y (isRow_picked hB hx) (isRow_picked hB hy)) hq' ht,
    entry_picked hsym hB⟩

/-- **C65** The kernel matrix between two samples made of rows of `A` is a block of the kernel matrix on `A`. -/
theorem C65_blocks {env : Env K X V} {k : K} {f : Fin B.nrows → Fin A.nrows} {g : Fin C.nrows → Fin A.nrows} (hB : B.PickedFrom A f) (hC : C.PickedFrom A g)
    (hsym : SymmOn (env.kval k) A) (hf : NoFaultsOn env k ⟨A, none⟩) (hq : Quiet env k ⟨A, none⟩) (hq' : Quiet env k ⟨B, some C⟩)
    {s t : KMState K X V} (hs : SinceDense env k false ⟨A, none⟩ s) (ht : SinceDense env k false ⟨B, some C⟩ t) :
    ∃ (M : Fin A.nrows → Fin A.nrows → V) (N : Fin B.nrows → Fin C.nrows → V),
      (exec env .full s).1 = .ok (.mat .dense ⟨A.nrows, A.nrows, M⟩) ∧ (exec env .full t).1 = .ok (.mat .dense ⟨B.nrows, C.nrows, N⟩) ∧
      ∀ i j, N i j = M (f i) (g j) :=
  ⟨_, _, C08_full_is_gram hf hq hs,
    C08_full_is_gram (fun t x y hx hy => hf t x y (isRow_picked2 hB hC hx) (isRow_picked2 hB hC hy)) hq' ht, entry_picked2 hsym hB hC⟩

/-- **C65** The same for normalising objects, after any calls: if normalisation succeeds on `A`, it succeeds on the sample of rows of `A`, with the corresponding entries. -/
theorem C65_normalised {env : Env K X F} (hops : env.ops = realOps) {k : K} {κ : X → X → ℝ} {f : Fin B.nrows → Fin A.nrows} (hB : B.PickedFrom A f)
    (hsym : SymmOn κ A) (hf : NoFaultsOn env k ⟨A, none⟩) (hκ : RealOn (env.kval k) κ ⟨A, none⟩)
    (hpos : ∀ i : Fin A.nrows, 0 ≤ κ (A.row i) (A.row i)) {s t : KMState K X F}
    (hs : SinceAny env k true ⟨A, none⟩ s) (ht : SinceAny env k true ⟨B, none⟩ t) :
    (exec env .full s).1 = .error .kmNorm ∨
    ∃ (M : Fin A.nrows → Fin A.nrows → F) (N : Fin B.nrows → Fin B.nrows → F),
      (exec env .full s).1 = .ok (.mat .dense ⟨A.nrows, A.nrows, M⟩) ∧ (exec env .full t).1 = .ok (.mat .dense ⟨B.nrows, B.nrows, N⟩) ∧
      ∀ i j, N i j = M (f i) (f j) := by
  have h1 := C09_one_sample hops hf hκ hs hpos
  have h2 := C09_one_sample hops (fun t x y hx hy => hf t x y (isRow_picked hB hx) (isRow_picked hB hy))
    (fun x y hx hy => hκ x y (isRow_picked hB hx) (isRow_picked hB hy)) ht fun i => by rw [hB]; exact hpos (f i)
  by_cases hz : ∃ i : Fin A.nrows, NearZero (κ (A.row i) (A.row i))
  · exact Or.inl (h1.1 hz)
  · refine Or.inr ⟨_, _, h1.2 hz, h2.2 ?_, fun i j => ?_⟩
    · rintro ⟨i, hi⟩
      rw [hB] at hi
      exact hz ⟨f i, hi⟩
    · simp only [cosNorm, gramR_picked hsym hB]

/-- **C65** and for normalised matrices between two samples -/
theorem C65_normalised_blocks {env : Env K X F} (hops : env.ops = realOps) {k : K} {κ : X → X → ℝ} {f : Fin B.nrows → Fin A.nrows} {g : Fin C.nrows → Fin A.nrows}
    (hB : B.PickedFrom A f) (hC : C.PickedFrom A g) (hsym : SymmOn κ A) (hf : NoFaultsOn env k ⟨A, none⟩) (hκ : RealOn (env.kval k) κ ⟨A, none⟩)
    (hpos : ∀ i : Fin A.nrows, 0 ≤ κ (A.row i) (A.row i)) {s t : KMState K X F}
    (hs : SinceAny env k true ⟨A, none⟩ s) (ht : SinceAny env k true ⟨B, some C⟩ t) :
    (exec env .full s).1 = .error .kmNorm ∨
    ∃ (M : Fin A.nrows → Fin A.nrows → F) (N : Fin B.nrows → Fin C.nrows → F),
      (exec env .full s).1 = .ok (.mat .dense ⟨A.nrows, A.nrows, M⟩) ∧ (exec env .full t).1 = .ok (.mat .dense ⟨B.nrows, C.nrows, N⟩) ∧
      ∀ i j, N i j = M (f i) (g j) := by
  have h1 := C09_one_sample hops hf hκ hs hpos
  have h2 := C09_two_samples hops (fun t x y hx hy => hf t x y (isRow_picked2 hB hC hx) (isRow_picked2 hB hC hy))
    (fun x y hx hy => hκ x y (isRow_picked2 hB hC hx) (isRow_picked2 hB hC hy)) ht (fun i => by rw [hB]; exact hpos (f i))
    (fun i => by rw [hC]; exact hpos (g i))
  by_cases hz : ∃ i : Fin A.nrows, NearZero (κ (A.row i) (A.row i))
  · exact Or.inl (h1.1 hz)
  · refine Or.inr ⟨_, _, h1.2 hz, h2.2 ?_, fun i j => ?_⟩
    · rintro (⟨i, hi⟩ | ⟨i, hi⟩)
      · rw [hB] at hi
        exact hz ⟨f i, hi⟩
      · rw [hC] at hi
        exact hz ⟨g i, hi⟩
    · simp only [cosNorm, cosNorm2, Arr2.crossR, gramR_symmOn hsym, hB i, hC j]

/-- **C65** Reordering the sample reorders the centred matrix and leaves the Frobenius norm unchanged. -/
theorem C65_reordered {env : Env K X F} (hops : env.ops = realOps) {k : K} {norm : Bool} {κ : X → X → ℝ} {f : Fin B.nrows → Fin A.nrows}
    (hB : B.PickedFrom A f) (hbij : Function.Bijective f) (hsym : SymmOn κ A) (hf : NoFaultsOn env k ⟨A, none⟩)
    (hκ : RealOn (env.kval k) κ ⟨A, none⟩) {s t : KMState K X F}
    (hs : SinceDense env k norm ⟨A, none⟩ s) (ht : SinceDense env k norm ⟨B, none⟩ t) :
    (∃ (M : Fin A.nrows → Fin A.nrows → F) (N : Fin B.nrows → Fin B.nrows → F),
      (exec env .centered s).1 = .ok (.mat .dense ⟨A.nrows, A.nrows, M⟩) ∧ (exec env .centered t).1 = .ok (.mat .dense ⟨B.nrows, B.nrows, N⟩) ∧
      ∀ i j, N i j = M (f i) (f j)) ∧
    (exec env .frobNorm t).1 = (exec env .frobNorm s).1 := by
  have hf' : NoFaultsOn env k ⟨B, none⟩ := fun t x y hx hy => hf t x y (isRow_picked hB hx) (isRow_picked hB hy)
  have hκ' : RealOn (env.kval k) κ ⟨B, none⟩ := fun x y hx hy => hκ x y (isRow_picked hB hx) (isRow_picked hB hy)
  have e : B.gramR κ = fun i j => A.gramR κ (f i) (f j) := by funext i j; exact gramR_picked hsym hB i j
  refine ⟨⟨_, _, C16_centered hops hf hκ hs, C16_centered hops hf' hκ' ht, fun i j => ?_⟩, ?_⟩
  · rw [e, centered_perm f hbij]
  · rw [C16_frob_norm_one hops hf hκ hs, C16_frob_norm_one hops hf' hκ' ht, e, sumsq_perm f hbij]

/-- the samples 3, 1 and 2, 2, 1 are rows of the sample 1, 2, 3 with the kernel `x y` -/
example : (⟨2, 1, fun i => if i = 0 then 3 else 1⟩ : Arr2 ℝ).PickedFrom Demo.rA (fun i => if i = 0 then (2 : Fin 3) else (0 : Fin 3)) ∧
    (⟨3, 1, fun i => if i = 2 then 1 else 2⟩ : Arr2 ℝ).PickedFrom Demo.rA (fun i => if i = 2 then (0 : Fin 3) else (1 : Fin 3)) ∧
    SymmOn (fun x y : ℝ => x * y) Demo.rA ∧ SymmOn (Demo.renv.kval ()) Demo.rA ∧ RealOn (Demo.renv.kval ()) (fun x y => x * y) ⟨Demo.rA, none⟩ := by
  refine ⟨fun i => ?_, fun i => ?_, fun i j => mul_comm _ _, fun i j => congrArg F.real (mul_comm _ _), fun x y _ _ => rfl⟩
  · fin_cases i <;> simp [Demo.rA] <;> norm_num
  · fin_cases i <;> simp [Demo.rA] <;> norm_num

/-- the sample 3, 2, 1 is the sample 1, 2, 3 reordered -/
example : (⟨3, 1, fun i => 3 - i⟩ : Arr2 ℝ).PickedFrom Demo.rA (fun i => Fin.rev i) ∧ Function.Bijective (fun i : Fin 3 => Fin.rev i) := by
  refine ⟨fun i => ?_, Fin.rev_bijective⟩
  fin_cases i <;> simp [Demo.rA] <;> norm_num

/-- **C65** Symmetry of the kernel is needed: exchanging the two rows of a sample can change the kernel matrix otherwise. -/
theorem C65_asymmetric : ∃ (env : Env Unit Nat ℤ) (A B : Arr2 Nat) (f : Fin B.nrows → Fin A.nrows) (s t : KMState Unit Nat ℤ)
    (M : Fin A.nrows → Fin A.nrows → ℤ) (N : Fin B.nrows → Fin B.nrows → ℤ),
    B.PickedFrom A f ∧ Function.Bijective f ∧ SinceDense env () false ⟨A, none⟩ s ∧ SinceDense env () false ⟨B, none⟩ t ∧
    (exec env .full s).1 = .ok (.mat .dense ⟨A.nrows, A.nrows, M⟩) ∧ (exec env .full t).1 = .ok (.mat .dense ⟨B.nrows, B.nrows, N⟩) ∧
    ∃ i j, N i j ≠ M (f i) (f j) := by
  let env : Env Unit Nat ℤ := ⟨fun _ x y => (x : ℤ) - y, fun _ _ _ _ => false, Demo.env.ops, fun _ => false⟩
  let A : Arr2 Nat := ⟨2, 1, fun i => i⟩
  let B : Arr2 Nat := ⟨2, 1, fun i => 1 - i⟩
  have hs : ∀ D : Arr2 Nat, SinceDense env () false ⟨D, none⟩ (exec env (.attach (.arr [D.nrows, D.ncols] D.row) none) (init () false 0)).2 := fun D =>
    .attached (two := none) (.new 0) ⟨⟨0, rfl⟩, trivial⟩ (exec_attach (two := none) (a := ⟨D, none⟩) ⟨⟨0, rfl⟩, trivial⟩ _)
  have hq : ∀ a, Quiet env () a := fun a h => by cases h
  refine ⟨env, A, B, Fin.rev, _, _, _, _, fun i => ?_, Fin.rev_bijective, hs A, hs B, C08_full_is_gram (fun _ _ _ _ _ => rfl) (hq _) (hs A),
    C08_full_is_gram (fun _ _ _ _ _ => rfl) (hq _) (hs B), 0, 1, ?_⟩
  · fin_cases i <;> rfl
  · show ((1 : ℤ) - 0) ≠ (0 : ℤ) - 1
    decide

end KMethods
