import Verif.Lemmas.Choice
import Verif.Props.Ranking
/-!
# C67: what the choice of a kernel by alignment depends on
-/
namespace KMethods
open F KMState
variable {K X : Type} {env : Env K X F}

/-- two buckets with the same kernels, for which corresponding members have the same alignment with the targets -/
theorem same_position (hops : env.ops = realOps) {s t : SetSt K X} (hst : s.SameKernels env t) {A B : Arr2 X} (cv cv' : CVScore) (y : Fin A.nrows → ℝ) (z : Fin B.nrows → ℝ)
    {method method' : String} (hm : method.toLower = "align/corr") (hm' : method'.toLower = "align/corr")
    (hs : s.set.numSamples = .unset ∨ s.set.numSamples = .one A.nrows) (ht : t.set.numSamples = .unset ∨ t.set.numSamples = .one B.nrows) (hne : s.set.members ≠ [])
    (hA : s.FiniteOn env A) (hB : t.FiniteOn env B)
    (h : ∀ k norm M N, IsMatrix1 env k norm A M → IsMatrix1 env k norm B N → (∃ r ∈ s.set.members, s.heap.IsKM env r k norm) →
      calign M (outerR A.nrows y) = calign N (outerR B.nrows z)) :
    SamePosition s t (findOptimalKernel env cv true (sampleArg A) ((List.ofFn y).map .real) method {} s)
      (findOptimalKernel env cv' true (sampleArg B) ((List.ofFn z).map .real) method' {} t) := by
  have hlen := hst.length_eq
  obtain ⟨G, hG⟩ : ∃ G : Nat → Matrix (Fin A.nrows) (Fin A.nrows) ℝ, ∀ r ∈ s.set.members, s.heap.KernelOn env r A (G r) := by
    classical
    exact ⟨fun r => if h : r ∈ s.set.members then (hA r h).choose else 0, fun r hr => by dsimp only; rw [dif_pos hr]; exact (hA r hr).choose_spec⟩
  obtain ⟨H, hH⟩ : ∃ H : Nat → Matrix (Fin B.nrows) (Fin B.nrows) ℝ, ∀ r ∈ t.set.members, t.heap.KernelOn env r B (H r) := by
    classical
    exact ⟨fun r => if h : r ∈ t.set.members then (hB r h).choose else 0, fun r hr => by dsimp only; rw [dif_pos hr]; exact (hB r hr).choose_spec⟩
  obtain ⟨i, r, s', e1, -, hi, b1⟩ := C45_align hops cv y hm hs hne hG
  obtain ⟨j, q, t', e2, -, hj, b2⟩ := C45_align hops cv' z hm' ht (fun h0 => hne (List.length_eq_zero_iff.1 (by rw [hlen, h0]; rfl))) hH
  have hsc : (s.set.members.map fun r => calign (G r) (outerR A.nrows y)) = t.set.members.map fun q => calign (H q) (outerR B.nrows z) := by
    apply List.ext_getElem (by simpa using hlen)
    intro n h1 h2
    rw [List.getElem_map, List.getElem_map]
    rw [List.length_map] at h1 h2
    obtain ⟨k, norm, hr, hq⟩ := hst.get h1 h2
    simp only [List.get_eq_getElem] at hr hq
    obtain ⟨k1, n1, hr1, hM⟩ := hG _ (List.getElem_mem h1)
    obtain ⟨k2, n2, hq2, hN⟩ := hH _ (List.getElem_mem h2)
    obtain ⟨rfl, rfl⟩ := IsKM.unique hr hr1
    obtain ⟨rfl, rfl⟩ := IsKM.unique hq hq2
    exact h _ _ _ _ hM hN ⟨_, List.getElem_mem h1, hr⟩
  rw [← hsc] at b2
  obtain rfl := b1.unique b2
  exact ⟨i, r, q, by rw [e1], by rw [e2], hi, hj⟩

/-- **C67** The choice does not depend on how the kernel matrices were used before (nor on the cross-validation): two buckets with the same kernels, with any histories, give the kernel at
the same position for the same sample and targets. -/
theorem C67_history (hops : env.ops = realOps) {s t : SetSt K X} (hst : s.SameKernels env t) {A : Arr2 X} (cv cv' : CVScore) (y : Fin A.nrows → ℝ)
    {method method' : String} (hm : method.toLower = "align/corr") (hm' : method'.toLower = "align/corr")
    (hs : s.set.numSamples = .unset ∨ s.set.numSamples = .one A.nrows) (ht : t.set.numSamples = .unset ∨ t.set.numSamples = .one A.nrows) (hne : s.set.members ≠ [])
    (hA : s.FiniteOn env A) :
    SamePosition s t (findOptimalKernel env cv true (sampleArg A) ((List.ofFn y).map .real) method {} s)
      (findOptimalKernel env cv' true (sampleArg A) ((List.ofFn y).map .real) method' {} t) := by
  refine same_position hops hst cv cv' y y hm hm' hs ht hne hA (fun q hq => ?_) fun k norm M N hM hN _ => by rw [hM.unique hN]
  obtain ⟨n, hn, rfl⟩ := List.getElem_of_mem hq
  have h1 : n < s.set.members.length := by rw [hst.length_eq]; exact hn
  obtain ⟨k, norm, hr, hq⟩ := hst.get h1 hn
  obtain ⟨M, k1, n1, hr1, hM⟩ := hA _ (List.getElem_mem h1)
  simp only [List.get_eq_getElem] at hr hq
  obtain ⟨rfl, rfl⟩ := IsKM.unique hr hr1
  exact ⟨M, _, _, hq, hM⟩

/-- **C67** Adding a constant to the targets, or changing their sign, changes nothing. -/
theorem C67_targets_shift (hops : env.ops = realOps) {s : SetSt K X} {A : Arr2 X} (cv : CVScore) (y : Fin A.nrows → ℝ) {method : String} (hm : method.toLower = "align/corr")
    (hs : s.set.numSamples = .unset ∨ s.set.numSamples = .one A.nrows) (hne : s.set.members ≠ []) (hA : s.FiniteOn env A) {a : ℝ} (ha : a = 1 ∨ a = -1) (c : ℝ) :
    (findOptimalKernel env cv true (sampleArg A) ((List.ofFn fun i => a * y i + c).map .real) method {} s).1 =
      (findOptimalKernel env cv true (sampleArg A) ((List.ofFn y).map .real) method {} s).1 := by
  have hst : s.SameKernels env s := List.forall₂_same.2 fun r hr => by
    obtain ⟨M, k, norm, h, -⟩ := hA r hr
    exact ⟨k, norm, h, h⟩
  obtain ⟨i, r, q, e1, e2, h1, h2⟩ := same_position hops hst cv cv (fun i => a * y i + c) y hm hm hs hs hne hA hA fun k norm M N hM hN _ => by
    rw [hM.unique hN, calign_shift (by rcases ha with rfl | rfl <;> norm_num)]
  rw [e1, e2]
  rw [h1] at h2
  rw [Option.some.inj h2]

/-- **C67** Any invertible affine change of the targets changes nothing, as long as the targets vary enough before and after for the alignment to be computed. So it does not matter which two
numbers stand for two classes. -/
theorem C67_targets_affine (hops : env.ops = realOps) {s : SetSt K X} {A : Arr2 X} (cv : CVScore) (y : Fin A.nrows → ℝ) {method : String} (hm : method.toLower = "align/corr")
    (hs : s.set.numSamples = .unset ∨ s.set.numSamples = .one A.nrows) (hne : s.set.members ≠ []) (hA : s.FiniteOn env A) {a : ℝ} (ha : a ≠ 0) (c : ℝ)
    (hy : TargetsVary y) (hz : TargetsVary fun i => a * y i + c) :
    (findOptimalKernel env cv true (sampleArg A) ((List.ofFn fun i => a * y i + c).map .real) method {} s).1 =
      (findOptimalKernel env cv true (sampleArg A) ((List.ofFn y).map .real) method {} s).1 := by
  have hst : s.SameKernels env s := List.forall₂_same.2 fun r hr => by
    obtain ⟨M, k, norm, h, -⟩ := hA r hr
    exact ⟨k, norm, h, h⟩
  obtain ⟨i, r, q, e1, e2, h1, h2⟩ := same_position hops hst cv cv (fun i => a * y i + c) y hm hm hs hs hne hA hA fun k norm M N hM hN _ => by
    rw [hM.unique hN, calign_affine ha c N hy hz]
  rw [e1, e2]
  rw [h1] at h2
  rw [Option.some.inj h2]

/-- **C67** Reordering the samples together with their targets changes nothing, if the kernels are symmetric. -/
theorem C67_sample_order (hops : env.ops = realOps) {s : SetSt K X} {A B : Arr2 X} {f : Fin B.nrows → Fin A.nrows} (hB : B.PickedFrom A f) (hbij : Function.Bijective f)
    (hsym : ∀ r ∈ s.set.members, ∀ k norm, s.heap.IsKM env r k norm → SymmOn (env.kval k) A) (cv : CVScore) (y : Fin A.nrows → ℝ) {method : String}
    (hm : method.toLower = "align/corr") (hs : s.set.numSamples = .unset ∨ s.set.numSamples = .one A.nrows) (hne : s.set.members ≠ []) (hA : s.FiniteOn env A) :
    (findOptimalKernel env cv true (sampleArg B) ((List.ofFn fun i => y (f i)).map .real) method {} s).1 =
      (findOptimalKernel env cv true (sampleArg A) ((List.ofFn y).map .real) method {} s).1 := by
  have hst : s.SameKernels env s := List.forall₂_same.2 fun r hr => by
    obtain ⟨M, k, norm, h, -⟩ := hA r hr
    exact ⟨k, norm, h, h⟩
  have hn : B.nrows = A.nrows := by simpa using Fintype.card_of_bijective hbij
  have hfin : s.FiniteOn env B := fun r hr => by
    obtain ⟨M, k, norm, hk, hM⟩ := hA r hr
    exact ⟨_, k, norm, hk, hM.picked hB (hsym r hr k norm hk)⟩
  obtain ⟨i, r, q, e1, e2, h1, h2⟩ := same_position hops hst cv cv (fun i => y (f i)) y hm hm (by rw [hn]; exact hs) hs hne hfin hA
    fun k norm M N hM hN ⟨r, hr, hk⟩ => by
      rw [hM.unique (hN.picked hB (hsym r hr k norm hk))]
      exact calign_perm f hbij N (outerR A.nrows y)
  rw [e1, e2]
  rw [h1] at h2
  rw [Option.some.inj h2]

/-- targets 0, 0, 1 for three samples, and the same for classes 0 and 1 named -1 and 1 -/
example : TargetsVary ![0, 0, (1:ℝ)] ∧ TargetsVary fun i => 2 * ![0, 0, (1:ℝ)] i + (-1) := by
  have key : ∀ y : Fin 3 → ℝ, 1 ≤ centered (outerR 3 y) 2 2 ^ 2 * 9 → TargetsVary y := by
    intro y hy hz
    have h1 : centered (outerR 3 y) 2 2 ^ 2 ≤ frobInner (centered (outerR 3 y)) (centered (outerR 3 y)) := by
      unfold frobInner
      have h2 := Finset.single_le_sum (f := fun i => ∑ j, centered (outerR 3 y) i j * centered (outerR 3 y) i j)
        (fun i _ => Finset.sum_nonneg fun j _ => mul_self_nonneg _) (Finset.mem_univ (2 : Fin 3))
      have h3 := Finset.single_le_sum (f := fun j => centered (outerR 3 y) 2 j * centered (outerR 3 y) 2 j)
        (fun j _ => mul_self_nonneg _) (Finset.mem_univ (2 : Fin 3))
      rw [sq]
      exact le_trans h3 h2
    have h4 : (1:ℝ) / 9 ≤ frobInner (centered (outerR 3 y)) (centered (outerR 3 y)) := by linarith
    have h5 : (1:ℝ) / 9 ≤ Real.sqrt (frobInner (centered (outerR 3 y)) (centered (outerR 3 y))) :=
      Real.le_sqrt_of_sq_le (by nlinarith)
    rw [NearZero, abs_of_nonneg (Real.sqrt_nonneg _)] at hz
    norm_num at hz
    linarith
  constructor
  · apply key
    rw [centered_outerR]
    simp [Fin.sum_univ_succ]
    norm_num
  · apply key
    rw [centered_outerR]
    simp [Fin.sum_univ_succ]
    norm_num

/-- a bucket of two members with finite matrices on the sample 1, 2, 3 and symmetric kernels -/
example : Demo.bucket2.FiniteOn Demo.env2 Demo.rA ∧ ∀ k, SymmOn (Demo.env2.kval k) Demo.rA :=
  ⟨fun r hr => ⟨_, Demo.kernelOn2 r hr⟩, fun k i j => by
    simp only [Demo.env2]
    rw [_root_.mul_comm (Demo.rA.row i)]⟩

end KMethods
