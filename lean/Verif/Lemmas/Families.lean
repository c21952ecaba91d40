import Verif.Spec.Families
import Verif.Lemmas.Separate
import Verif.Lemmas.World
/-! A set with known kernels, attached to a sample. -/
namespace KMethods
open F KMState
variable {A : Arr2 (List ℝ)}

theorem attached_gives {s : SetSt NumKernel (List ℝ)} {ks : List NumKernel} (hn : s.set.numSamples = .unset ∨ s.set.numSamples = .one A.nrows)
    (hk : s.HasKernels (numEnv realOps) ks) {gm : NumKernel → Matrix (Fin A.nrows) (Fin A.nrows) ℝ}
    (hg : ∀ k ∈ ks, k.IsGram A (gm k) ∧ ∀ i j, gm k i j = gm k j i) :
    ∃ h', SetSt.attach (.arr true [A.nrows, A.ncols] A.row) none s = (.ok (), ⟨h', { s.set with numSamples := .one A.nrows }⟩) ∧
      h'.GivesAll (numEnv realOps) IsDense s.set.members (ks.map gm) := by
  have hc : (SetSample.arr true [A.nrows, A.ncols] A.row).check = .ok A.nrows := by
    show (ensureShape2D [A.nrows, A.ncols] >>= fun sh => if true then pure sh.1 else .error .valueError) = _
    rw [(ensureShape2D_iff [A.nrows, A.ncols] A.nrows A.ncols).2 ⟨0, rfl⟩]
    rfl
  have hkm : ∀ r ∈ s.set.members, ∃ k ∈ ks, s.heap.IsKM (numEnv realOps) r k false := fun r hr => forall₂_left hk hr
  obtain ⟨h', e, -, -, hm'⟩ := attach_ok_run hc none s hn fun r hr => by
    obtain ⟨k, -, t, ht, -⟩ := hkm r hr
    exact ⟨t, ht⟩
  refine ⟨h', e, ?_⟩
  have key : ∀ r ∈ s.set.members, ∀ k ∈ ks, s.heap.IsKM (numEnv realOps) r k false → h'.Gives (numEnv realOps) IsDense r (Mat.ofReal (gm k)) := by
    rintro r hr k hk ⟨t, ht, hreach⟩
    obtain ⟨hgram, hsym⟩ := hg k hk
    unfold Heap.Gives
    rw [hm' r t hr ht]
    have hat : KMState.exec (numEnv realOps) (.attach (.arr [A.nrows, A.ncols] A.row) none) t = (.ok .none, _) :=
      exec_attach (two := none) (a := ⟨A, none⟩) ⟨⟨0, rfl⟩, trivial⟩ t
    have hst : (KMState.exec (numEnv realOps) (.attach (.arr [A.nrows, A.ncols] A.row) none) t).2 =
        (KMState.attach (.arr [A.nrows, A.ncols] A.row) none t).2 := by rw [KMState.exec_attach_run]
    have hsince : KMState.SinceDense (numEnv realOps) k false ⟨A, none⟩ (KMState.attach (.arr [A.nrows, A.ncols] A.row) none t).2 := by
      rw [← hst, hat]
      exact .attached (two := none) hreach ⟨⟨0, rfl⟩, trivial⟩ hat
    have := givesFull_dense rfl (hgram.noFaultsOn realOps) (hgram.realOn realOps) hsince
    rw [hgram.gramR realOps hsym] at this
    exact this
  unfold Heap.GivesAll
  rw [List.forall₂_map_right_iff]
  clear hm' e hn hkm hg
  unfold SetSt.HasKernels at hk
  generalize s.set.members = l at hk key
  induction hk with
  | nil => exact .nil
  | @cons r k l ks h _ ih =>
    exact .cons (key r List.mem_cons_self k List.mem_cons_self h)
      (ih fun r hr k hk => key r (List.mem_cons_of_mem _ hr) k (List.mem_cons_of_mem _ hk))

theorem isGram_of_vec {k : NumKernel} (hA : A.HasWidth) {κ : (Fin A.ncols → ℝ) → (Fin A.ncols → ℝ) → ℝ}
    (h : ∀ i j : Fin A.nrows, k.on (A.vec i) (A.vec j) = .ok (.real (κ (A.vec i) (A.vec j)))) : k.IsGram A fun i j => κ (A.vec i) (A.vec j) := by
  intro i j
  rw [row_eq_vec hA, row_eq_vec hA]
  exact h i j

theorem polyGram (hA : A.HasWidth) (d : ℕ) (γ b : ℝ) : (NumKernel.poly d γ b).IsGram A fun i j => (b + γ * ∑ c, A.vec i c * A.vec j c) ^ d :=
  isGram_of_vec hA (κ := fun x y => (b + γ * ∑ c, x c * y c) ^ d) fun _ _ => on_poly d γ b _ _

theorem linearGram (hA : A.HasWidth) : NumKernel.linear.IsGram A fun i j => ∑ c, A.vec i c * A.vec j c :=
  isGram_of_vec hA (κ := fun x y => ∑ c, x c * y c) fun _ _ => on_linear _ _

theorem eprod_map_map {α β : Type} {n m : ℕ} (gm : β → Matrix (Fin n) (Fin m) ℝ) (f : α → β) (l : List α) (i : Fin n) (j : Fin m) :
    eprod ((l.map f).map gm) i j = (l.map fun a => gm (f a) i j).prod := by
  induction l with
  | nil => rfl
  | cons a l ih => exact congrArg (gm (f a) i j * ·) ih

theorem wsum_map_map {α β : Type} {n m : ℕ} (w : α → ℝ) (gm : β → Matrix (Fin n) (Fin m) ℝ) (f : α → β) (l : List α) (i : Fin n) (j : Fin m) :
    wsum (l.map w) ((l.map f).map gm) i j = (l.map fun a => w a * gm (f a) i j).sum := by
  induction l with
  | nil => rfl
  | cons a l ih => exact congrArg (w a * gm (f a) i j + ·) ih

theorem NumKernel.IsGram.congr {k : NumKernel} {K K' : Matrix (Fin A.nrows) (Fin A.nrows) ℝ} (h : k.IsGram A K) (e : ∀ i j, K' i j = K i j) : k.IsGram A K' := by
  intro i j
  rw [e]; exact h i j

theorem eprod_replicate {n m l : ℕ} (M : Matrix (Fin n) (Fin m) ℝ) (i : Fin n) (j : Fin m) : eprod (List.replicate l M) i j = M i j ^ l := by
  rw [eprod, List.map_replicate, List.prod_replicate]

theorem prod_exp (c : ℝ) (l : List ℝ) : (l.map fun γ => Real.exp (-γ * c)).prod = Real.exp (-l.sum * c) := by
  induction l with
  | nil => simp
  | cons a l ih => rw [List.map_cons, List.prod_cons, ih, ← Real.exp_add, List.sum_cons]; ring_nf

theorem prod_pow (c : ℝ) (l : List ℕ) : (l.map fun d => c ^ d).prod = c ^ l.sum := by
  induction l with
  | nil => simp
  | cons a l ih => rw [List.map_cons, List.prod_cons, ih, List.sum_cons, pow_add]

end KMethods
