import Verif.Lemmas.Derived
/-!
# Properties of `ConstantKernelMatrix` and `KernelMatrixPrecomputed`
-/
namespace KMethods
open ConstState

/-! ### C50 ConstantKernelMatrix -/

/-- **C50** `const[S, T]` for selections `S`, `T` (given as the sets of selected positions) that are not empty and within range: a `|S| × |T|`
matrix all of whose entries are the constant; the object is not changed. -/
theorem C50_access_partial {V : Type} {n : Nat} {v : V} {s : ConstState V} (h : Reachable n v s) {a b : ConstIdx}
    (ha : a.Readable) (hb : b.Readable) (ha' : ¬ a.OutOfRange n) (hb' : ¬ b.OutOfRange n) (S T : Finset Nat)
    (hS : ∀ i, i ∈ S ↔ a.Selects n i) (hT : ∀ i, i ∈ T ↔ b.Selects n i) (hSn : S.Nonempty) (hTn : T.Nonempty) :
    getItem (.pair a b) s = (.ok ⟨S.card, T.card, fun _ _ => v⟩, s) := by
  obtain ⟨h1, h2, -⟩ := h.inv
  obtain ⟨l, hl, hl'⟩ := ConstIdx.inSample_ok ha ha' S hS hSn
  obtain ⟨m, hm, hm'⟩ := ConstIdx.inSample_ok hb hb' T hT hTn
  show (PyM.lift (a.inSample s.numSamples) >>= _ : PyM (ConstState V) (Mat V)) s = _
  rw [h1, hl]
  show (PyM.lift (b.inSample n) >>= _ : PyM (ConstState V) (Mat V)) s = _
  rw [hm, ← hl', ← hm', ← h2]
  rfl

/-- **C50** an index out of range raises `KMAccessError`: on rows, -/
theorem C50_rows_out_of_range {V : Type} {n : Nat} {v : V} {s : ConstState V} (h : Reachable n v s) {a b : ConstIdx}
    (ha : a.Readable) (ho : a.OutOfRange n) : getItem (.pair a b) s = (.error .kmAccess, s) := by
  obtain ⟨h1, -, -⟩ := h.inv
  show (PyM.lift (a.inSample s.numSamples) >>= _ : PyM (ConstState V) (Mat V)) s = _
  rw [h1, ConstIdx.inSample_out ha ho]
  rfl

/-- **C50** and on columns. -/
theorem C50_cols_out_of_range {V : Type} {n : Nat} {v : V} {s : ConstState V} (h : Reachable n v s) {a b : ConstIdx}
    (ha : a.Readable) (hb : b.Readable) (ha' : ¬ a.OutOfRange n) (S : Finset Nat) (hS : ∀ i, i ∈ S ↔ a.Selects n i)
    (hSn : S.Nonempty) (ho : b.OutOfRange n) : getItem (.pair a b) s = (.error .kmAccess, s) := by
  obtain ⟨h1, -, -⟩ := h.inv
  obtain ⟨l, hl, hl'⟩ := ConstIdx.inSample_ok ha ha' S hS hSn
  show (PyM.lift (a.inSample s.numSamples) >>= _ : PyM (ConstState V) (Mat V)) s = _
  rw [h1, hl]
  show (PyM.lift (b.inSample n) >>= _ : PyM (ConstState V) (Mat V)) s = _
  rw [ConstIdx.inSample_out hb ho]
  rfl

/-- **C50** objects that are not pairs, and components that are neither integers nor slices nor iterables, raise `KMAccessError`. -/
theorem C50_bad_objects {V : Type} (s : ConstState V) (b : ConstIdx) :
    getItem .other s = (.error .kmAccess, s) ∧ getItem (.pair .other b) s = (.error .kmAccess, s) :=
  ⟨rfl, rfl⟩

/-- **C50** An iterable without a length (a generator) is the exception: `len()` raises `TypeError`, and the object is unchanged. -/
theorem C50_unsized_objects {V : Type} (s : ConstState V) : ConstState.getItem .unsized s = (.error .typeError, s) := rfl

/-- **C50** The property asks for `KMAccessError` on every empty selection; the code raises `NameError` on every one of them. -/
theorem C50_empty_selection_violated {V : Type} {n : Nat} {v : V} {s : ConstState V} (h : Reachable n v s) {a b : ConstIdx}
    (ha : a.Readable) (ho : ¬ a.OutOfRange n) (he : ∀ i, ¬ a.Selects n i) :
    getItem (.pair a b) s = (.error .nameError, s) := by
  obtain ⟨h1, -, -⟩ := h.inv
  show (PyM.lift (a.inSample s.numSamples) >>= _ : PyM (ConstState V) (Mat V)) s = _
  rw [h1, ConstIdx.inSample_empty ha ho he]
  rfl

/-- **C50** `full`, `diag`, `shape` and `len` after any accesses -/
theorem C50_full_diag {V : Type} {n : Nat} {v : V} {s : ConstState V} (h : Reachable n v s) :
    (full s).1 = .ok ⟨n, n, fun _ _ => v⟩ ∧ (diag s).1 = .ok (List.replicate n v) ∧ (shape s).1 = .ok (n, n) ∧
      (size s).1 = .ok n := by
  obtain ⟨h1, h2, h3⟩ := h.inv
  refine ⟨?_, by rw [← h1, ← h2]; rfl, by rw [← h1]; rfl, by rw [← h1]; rfl⟩
  obtain ⟨m, w, k⟩ := s
  obtain rfl : m = n := h1
  obtain rfl : w = v := h2
  rcases h3 with h3 | h3 <;> (obtain rfl : k = _ := h3; rfl)

/-- rows `1, 2` (duplicates, floats converted), columns by a slice with negative step; after `full` has been read -/
example : getItem (.pair (.iter [.ok 2, .ok 1, .ok 2]) (.slice none none (some (-2)))) (full (.init 4 (7 : Nat))).2 =
    (.ok ⟨2, 2, fun _ _ => 7⟩, (full (.init 4 (7 : Nat))).2) :=
  C50_access_partial (.full .new) (by simp [ConstIdx.Readable]) (by simp [ConstIdx.Readable])
    (by simp [ConstIdx.OutOfRange]) (by simp [ConstIdx.OutOfRange]) {1, 2} {1, 3}
    (by
      intro i
      simp only [ConstIdx.Selects, List.mem_cons, List.not_mem_nil, Finset.mem_insert, Finset.mem_singleton, or_false]
      rw [Except.ok.injEq, Except.ok.injEq]
      omega)
    (by
      intro i
      simp only [ConstIdx.Selects, IndexSpec.SliceSelects, Finset.mem_insert, Finset.mem_singleton, Option.getD_some]
      rw [if_neg (by omega)]
      simp
      omega)
    ⟨1, by simp⟩ ⟨1, by simp⟩

/-- an empty selection: `const[5:9, 0]` of a `4 × 4` matrix -/
example : getItem (.pair (.slice (some 5) (some 9) none) (.int 0)) (.init 4 (7 : Nat)) = (.error .nameError, .init 4 7) := rfl

/-- out of range -/
example : getItem (.pair (.iter [.ok 0, .ok 4]) (.int 0)) (.init 4 (7 : Nat)) = (.error .kmAccess, .init 4 7) := rfl

/-! ### C51 KernelMatrixPrecomputed -/

/-- **C51** A square array is accepted exactly if all its entries are finite reals and it is symmetric up to tolerance; then `full` is that
array, `num_samples` and `len` its number of rows. -/
theorem C51_square_partial (n : Nat) (g : Fin n → Fin n → F) (p : Precomputed) :
    mkPrecomputed (.real ⟨n, n, g⟩) = .ok p ↔
      p.full = ⟨n, n, g⟩ ∧ p.size = n ∧ p.numSamples = n ∧
      ∃ R : Matrix (Fin n) (Fin n) ℝ, (⟨n, n, g⟩ : Mat F) = Mat.ofReal R ∧ NearSymmetric R := by
  rw [mkPrecomputed]
  rcases hs : notSymmetric ⟨n, n, g⟩ with e | b
  · exfalso
    unfold notSymmetric at hs
    rw [show bcastDim (⟨n, n, g⟩ : Mat F).nrows (⟨n, n, g⟩ : Mat F).ncols = .ok n from bcastDim_self n] at hs
    cases hs
  · show (if b = true then _ else _) = _ ↔ _
    cases b with
    | true =>
      simp only [if_true, reduceCtorEq, false_iff]
      rintro ⟨-, -, -, R, hR, hs'⟩
      rw [hR] at hs
      obtain ⟨b, hb, hb'⟩ := notSymmetric_square R
      rw [hb'.2 hs'] at hb
      rw [hb] at hs
      cases hs
    | false =>
      rw [if_neg (by simp), Except.ok.injEq]
      obtain ⟨R, hR⟩ := notSymmetric_finite hs
      have hR' : NearSymmetric R := by
        obtain ⟨b, hb, hb'⟩ := notSymmetric_square R
        rw [hR] at hs
        rw [hb] at hs
        exact hb'.1 (Except.ok.inj hs)
      constructor
      · rintro rfl
        exact ⟨rfl, rfl, rfl, R, hR, hR'⟩
      · rintro ⟨h1, -, h3, -⟩
        obtain ⟨A, k⟩ := p
        obtain rfl : A = _ := h1
        obtain rfl : k = _ := h3
        rfl

/-- **C51** a rejected argument always gives `ValueError` -/
theorem C51_error (x : PreIn) (e : PyErr) (h : mkPrecomputed x = .error e) : e = .valueError := by
  have hb : ∀ {n m : Nat} {e : PyErr}, bcastDim n m = .error e → e = .valueError := by
    intro n m e h
    unfold bcastDim at h
    split_ifs at h
    exact (Except.error.inj h).symm
  cases x with
  | notTwoD => exact (Except.error.inj h).symm
  | nonReal n m => exact (Except.error.inj h).symm
  | real A =>
    rw [mkPrecomputed, notSymmetric] at h
    rcases h1 : bcastDim A.nrows A.ncols with e1 | n
    · rw [h1] at h
      rw [← Except.error.inj h]
      exact hb h1
    · rcases h2 : bcastDim A.ncols A.nrows with e2 | m
      · rw [h1, h2] at h
        rw [← Except.error.inj h]
        exact hb h2
      · rw [h1, h2] at h
        change (if _ then _ else _) = _ at h
        split_ifs at h
        exact (Except.error.inj h).symm

/-- **C51** arrays that are not 2-D, have imaginary parts, or have a shape `n × m` with different `n, m` other than 1, are rejected -/
theorem C51_rejects_partial (A : Mat F) (n m : Nat) :
    mkPrecomputed .notTwoD = .error .valueError ∧ mkPrecomputed (.nonReal n m) = .error .valueError ∧
      (A.nrows ≠ A.ncols → A.nrows ≠ 1 → A.ncols ≠ 1 → mkPrecomputed (.real A) = .error .valueError) := by
  refine ⟨rfl, rfl, fun h1 h2 h3 => ?_⟩
  rw [mkPrecomputed, notSymmetric]
  rw [show bcastDim A.nrows A.ncols = .error .valueError by unfold bcastDim; rw [if_neg h1, if_neg h2, if_neg h3]]
  rfl

/-- **C51** The property fails for arrays with a single row: by broadcasting in the symmetry test, every `1 × m` array with constant entries is
accepted, for instance one of shape `1 × 3`, which is not square. -/
theorem C51_violated (c : ℝ) (m : Nat) (hm : m ≠ 1) :
    mkPrecomputed (.real ⟨1, m, fun _ _ => .real c⟩) = .ok ⟨⟨1, m, fun _ _ => .real c⟩, 1⟩ := by
  rw [mkPrecomputed, notSymmetric]
  rw [show bcastDim (⟨1, m, fun _ _ => F.real c⟩ : Mat F).nrows (⟨1, m, fun _ _ => F.real c⟩ : Mat F).ncols = .ok m by
      unfold bcastDim; rw [if_neg (fun h => hm h.symm), if_pos rfl],
    show bcastDim (⟨1, m, fun _ _ => F.real c⟩ : Mat F).ncols (⟨1, m, fun _ _ => F.real c⟩ : Mat F).nrows = .ok m by
      unfold bcastDim; rw [if_neg hm, if_neg hm, if_pos rfl]]
  classical
  refine if_neg fun hd => (of_decide_eq_true hd) ?_
  intro i j hi hj
  have h1 : (⟨1, m, fun _ _ => F.real c⟩ : Mat F).bcastGet i j = .real c := by
    unfold Mat.bcastGet
    rw [dif_pos]
    exact ⟨by simp, by simp [hm, hj]⟩
  have h2 : (⟨1, m, fun _ _ => F.real c⟩ : Mat F).transpose.bcastGet i j = .real c := by
    unfold Mat.bcastGet
    rw [dif_pos]
    · rfl
    · exact ⟨by simp [Mat.transpose, hm, hi], by simp [Mat.transpose]⟩
  rw [h1, h2, isClose_self_iff]
  trivial

/-- **C51** `diag` of a square precomputed matrix is its diagonal -/
theorem C51_diag {n : Nat} (g : Fin n → Fin n → F) (p : Precomputed) (h : mkPrecomputed (.real ⟨n, n, g⟩) = .ok p) :
    p.diag = List.ofFn fun i => g i i := by
  obtain ⟨h1, -⟩ := (C51_square_partial n g p).1 h
  obtain ⟨A, k⟩ := p
  obtain rfl : A = _ := h1
  unfold Precomputed.diag
  apply List.ext_getElem
  · simp
  · intro i hi hi'
    simp only [List.getElem_map, List.getElem_range, List.getElem_ofFn]
    have hin : i < n := by simpa using hi'
    exact bcastGet_eq (⟨n, n, g⟩ : Mat F) ⟨i, hin⟩ ⟨i, hin⟩

/-- **C51** `pre[i, j]` with integers: the entry, negative indices counting from the end; `KMAccessError` out of range -/
theorem C51_access {n : Nat} (g : Fin n → Fin n → F) (k : Nat) (i j : Int) :
    (∀ a b : Fin n, (i = a ∨ i + n = a) → (j = b ∨ j + n = b) →
      Precomputed.getItem ⟨⟨n, n, g⟩, k⟩ (.pair (.int i) (.int j)) = .ok (.scalar (g a b))) ∧
    ((i < -(n : Int) ∨ (n : Int) ≤ i ∨ j < -(n : Int) ∨ (n : Int) ≤ j) →
      Precomputed.getItem ⟨⟨n, n, g⟩, k⟩ (.pair (.int i) (.int j)) = .error .kmAccess) := by
  have h0 : Precomputed.getItem ⟨⟨n, n, g⟩, k⟩ (.pair (.int i) (.int j)) =
      match (axisPos n i >>= fun a => axisPos n j >>= fun b => pure (NpOut.scalar (g a b)) : Except PyErr (NpOut F)) with
      | .ok v => .ok v
      | .error _ => .error .kmAccess := rfl
  rw [h0]
  constructor
  · intro a b ha hb
    rw [axisPos_ok.2 ha, axisPos_ok.2 hb]
    rfl
  · intro h
    by_cases hi : i < -(n : Int) ∨ (n : Int) ≤ i
    · rw [axisPos_error hi]
      rfl
    · rw [axisPos_error (i := j) (by omega)]
      rcases axisPos n i with e | a <;> rfl

/-- a symmetric matrix up to tolerance is accepted, one that is not symmetric is not -/
example : (∃ p, mkPrecomputed (.real (Mat.ofReal !![1, 2; 2.000001, 5])) = .ok p) ∧
    mkPrecomputed (.real (Mat.ofReal !![1, 2; 3, 5])) = .error .valueError := by
  constructor
  · refine ⟨⟨Mat.ofReal !![1, 2; 2.000001, 5], 2⟩, (C51_square_partial 2 _ _).2 ⟨rfl, rfl, rfl, _, rfl, ?_⟩⟩
    intro i j
    fin_cases i <;> fin_cases j <;> norm_num [abs_le, abs_of_pos]
  · rcases h : mkPrecomputed (.real (Mat.ofReal !![1, 2; 3, 5])) with e | p
    · rw [C51_error _ _ h]
    · obtain ⟨-, -, -, R, hR, hs⟩ := (C51_square_partial 2 _ _).1 h
      have e1 := congrFun (congrFun (eq_of_heq (Mat.mk.inj hR).2.2) 0) 1
      have e2 := congrFun (congrFun (eq_of_heq (Mat.mk.inj hR).2.2) 1) 0
      have e1' : (2 : ℝ) = R 0 1 := F.real.inj e1
      have e2' : (3 : ℝ) = R 1 0 := F.real.inj e2
      have := hs 0 1
      rw [← e1', ← e2'] at this
      norm_num at this

end KMethods
