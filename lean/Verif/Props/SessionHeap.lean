import Verif.Lemmas.SessionHeap
import Verif.Props.Session
import Verif.Props.Access
import Verif.Props.FullMatrix
import Verif.Props.Derived
import Verif.Props.Sampling
import Verif.Props.Ranking
/-!
# C109: in programs, kernel matrices change by calls of their methods only

What is known about all histories of a single kernel matrix (C01–C17) thus holds for kernel matrices in programs, which are used through sets, buckets, composite kernels, rankings and so on at the same time.
-/
namespace KMethods
open PyM KMState IndexSpec
variable {K X : Type} {env : Env K X F}

/-- **C109** In any program, a kernel matrix that a variable stands for changes only by calls on it: besides `full`, `set_attr` and `get_attr`, those that are written in the program, and `attach_to` if the program attaches sets or
searches for the optimal kernel. (`l₀` is what the program has done before.) -/
theorem C109_calls (l₀ l : List (POp K X)) {v : Nat} {t : KMState K X F} (h : (ProgSt.run env l₀ .empty).2.obj v = some (.km t)) :
    ∃ ops : List (KMOp X), (∀ o ∈ ops, o.Basic ∨ ∃ op ∈ l, op.MayCall o) ∧ (ProgSt.run env l (ProgSt.run env l₀ .empty).2).2.obj v = some (.km (KMState.run env ops t)) := by
  obtain ⟨h1, h2⟩ := after_run (P := fun o => o.Basic ∨ ∃ op ∈ l, op.MayCall o) (fun _ ho => .inl ho) (ok_run (env := env) l₀) l fun op hop o ho => .inr ⟨op, hop, ho⟩
  obtain ⟨r, hv, ht⟩ := Option.bind_eq_some_iff.1 h
  obtain ⟨ops, ho, hr⟩ := h1.km r t ht
  exact ⟨ops, ho, Option.bind_eq_some_iff.2 ⟨r, prefix_get h2 hv, hr⟩⟩

/-- **C109** A precomputed kernel matrix does not change. -/
theorem C109_precomputed (l₀ l : List (POp K X)) {v : Nat} {p : Precomputed} (h : (ProgSt.run env l₀ .empty).2.obj v = some (.pre p)) :
    (ProgSt.run env l (ProgSt.run env l₀ .empty).2).2.obj v = some (.pre p) := by
  obtain ⟨h1, h2⟩ := after_run (P := fun _ => True) (fun _ _ => trivial) (ok_run (env := env) l₀) l fun _ _ _ _ => trivial
  obtain ⟨r, hv, ht⟩ := Option.bind_eq_some_iff.1 h
  exact Option.bind_eq_some_iff.2 ⟨r, prefix_get h2 hv, h1.pre r p ht⟩

/-- **C109** Each kernel matrix that a program constructs keeps its kernel function and its `normalized` flag, and is at any later time in a state that calls on it alone can lead to. -/
theorem C109_constructed (l₀ l : List (POp K X)) (k : K) (norm : Bool) (c : Nat) :
    ∃ t, (ProgSt.run env (.newKM k norm c :: l) (ProgSt.run env l₀ .empty).2).2.obj (ProgSt.run env l₀ .empty).2.loc.vars.length = some (.km t) ∧ Reachable env k norm t := by
  have hok := ok_run (env := env) l₀
  generalize (ProgSt.run env l₀ .empty).2 = s at hok ⊢
  have h1 : Heap.Ok env (ProgSt.exec env (.newKM k norm c) s).2.heap := (Heap.Ok.alloc hok (.km (KMState.init k norm c)) fun _ h => by cases h; exact ⟨k, norm, .new c⟩).1
  obtain ⟨h2, h3⟩ := after_run (P := fun _ => True) (fun _ _ => trivial) h1 l fun _ _ _ _ => trivial
  obtain ⟨ops, -, hr⟩ := h2.km s.heap.next (KMState.init k norm c) (Function.update_self ..)
  have hv : (ProgSt.exec env (.newKM k norm c) s).2.loc.vars[s.loc.vars.length]? = some s.heap.next := List.getElem?_concat_length
  exact ⟨_, Option.bind_eq_some_iff.2 ⟨s.heap.next, prefix_get h3 hv, hr⟩, reachable_run (.new c) ops⟩

/-- **C109** The same in an interpreter with several programs: all kernel matrices are in such states. -/
theorem C109_session (l : List (Nat × POp K X)) {i v : Nat} {t : KMState K X F} (h : ((Session.run env l .empty).2.prog i).obj v = some (.km t)) : ∃ k norm, Reachable env k norm t := by
  rw [C81_objects] at h
  obtain ⟨r, -, ht⟩ := Option.bind_eq_some_iff.1 h
  exact (ok_run (env := env) (Session.stepsOf i l)).2 r t ht

/-- **C109** A kernel matrix which was attached to `a` stays attached to it as long as the program neither attaches it nor attaches sets or searches for the optimal kernel. -/
theorem C109_since (l₀ l : List (POp K X)) {v : Nat} {t : KMState K X F} {k : K} {norm : Bool} {a : Attachment X} {P : KMOp X → Prop} (h : (ProgSt.run env l₀ .empty).2.obj v = some (.km t)) (ht : Since env k norm a P t)
    (hb : ∀ o : KMOp X, o.Basic → P o) (hl : ∀ op ∈ l, ∀ o, op.MayCall o → o.isAttach = false ∧ P o) :
    ∃ t', (ProgSt.run env l (ProgSt.run env l₀ .empty).2).2.obj v = some (.km t') ∧ Since env k norm a P t' := by
  obtain ⟨ops, ho, hr⟩ := C109_calls l₀ l h
  refine ⟨_, hr, since_runs ht ops fun o hm => ?_⟩
  rcases ho o hm with h' | ⟨op, hop, h'⟩
  · refine ⟨?_, hb o h'⟩
    cases o <;> first | rfl | exact h'.elim
  · exact hl op hop o h'

/-- **C109** Then `km[S, T]`, unless it selects the whole matrix, raises or gives the kernel values on the selected rows and columns of `a`, whatever the program has done in between. -/
theorem C109_values (l₀ l : List (POp K X)) {v : Nat} {t : KMState K X F} {k : K} {norm : Bool} {a : Attachment X} (h : (ProgSt.run env l₀ .empty).2.obj v = some (.km t)) (ht : SinceAny env k norm a t)
    (hl : ∀ op ∈ l, ∀ o, op.MayCall o → o.isAttach = false) {S T : Idx} (hw : ¬ WholeKey a.nrows a.ncols (.pair S T)) {out : POut}
    (hok : (ProgSt.exec env (.km v (.getItem (.pair S T))) (ProgSt.run env l (ProgSt.run env l₀ .empty).2).2).1 = .ok out) :
    ∃ rows cols, IsSelection a.nrows S rows ∧ IsSelection a.ncols T cols ∧ out = .km (.mat .dense (a.sub (env.kval k) rows cols)) := by
  obtain ⟨t', h1, h2⟩ := C109_since l₀ l h ht (fun _ _ => trivial) fun op hop o ho => ⟨hl op hop o ho, trivial⟩
  rw [exec_km_obj h1] at hok
  rcases hr : (KMState.exec env (.getItem (.pair S T)) t').1 with e | o
  · rw [hr] at hok; cases hok
  · rw [hr] at hok
    cases hok
    obtain ⟨rows, cols, h3, h4, h5⟩ := C01_element_access h2 hw hr
    exact ⟨rows, cols, h3, h4, by rw [h5]⟩

/-- **C109** and `km.full`, not normalised, is the matrix of all kernel values, for kernels that do not raise, if the program makes no calls that store the matrix in sparse format. -/
theorem C109_full (l₀ l : List (POp K X)) {v : Nat} {t : KMState K X F} {k : K} {a : Attachment X} (h : (ProgSt.run env l₀ .empty).2.obj v = some (.km t)) (ht : SinceDense env k false a t) (hf : NoFaultsOn env k a)
    (hq : Quiet env k a) (hl : ∀ op ∈ l, ∀ o, op.MayCall o → o.isAttach = false ∧ ¬ o.MayGoSparse false a.nrows a.ncols) :
    (ProgSt.exec env (.km v .full) (ProgSt.run env l (ProgSt.run env l₀ .empty).2).2).1 = .ok (.km (.mat .dense (a.gram (env.kval k)))) := by
  obtain ⟨t', h1, h2⟩ := C109_since l₀ l h ht (fun o ho => by cases o <;> first | exact ho.elim | (intro h; exact h)) hl
  rw [exec_km_obj h1, C08_full_is_gram hf hq h2]
  rfl

/-- **C109** The members of a set keep their Gram matrices, for programs which neither attach nor ask for sparse storage: those that were attached, or precomputed, before the steps `l` give them afterwards. (`members` may be those of a set
constructed or changed in `l`.) -/
theorem C109_members (hops : env.ops = realOps) (l₀ l : List (POp K X)) {A : Arr2 X} {members : List Nat} {Gs : List (Matrix (Fin A.nrows) (Fin A.nrows) ℝ)}
    (hm : List.Forall₂ ((ProgSt.run env l₀ .empty).2.heap.AttachedGram env (· ≠ .fullSparse) A) members Gs) (hl : ∀ op ∈ l, ∀ o, op.MayCall o → o.isAttach = false ∧ o ≠ .fullSparse) :
    (ProgSt.run env l (ProgSt.run env l₀ .empty).2).2.heap.GivesAll env AnyFmt members Gs := by
  obtain ⟨h1, -⟩ := after_run (P := fun o => o.isAttach = false ∧ o ≠ .fullSparse) (fun o ho => by cases o <;> first | exact ho.elim | exact ⟨rfl, nofun⟩) (ok_run (env := env) l₀) l hl
  refine hm.imp fun r G hr => ?_
  unfold Heap.Gives
  rcases hr with ⟨t, k, norm, ht, hs, κ, hf, hκ, hM⟩ | ⟨p, hp, hG⟩
  · obtain ⟨ops, ho, e⟩ := h1.km r t ht
    rw [e]
    cases norm with
    | true =>
      rw [if_pos rfl] at hM
      rw [hM.2]
      exact fun n => (givesFull_normalised hops hf hκ (Since.mono (fun _ _ => trivial) (since_runs hs ops ho)) hM.1 n).imp fun _ hf => ⟨trivial, hf.2⟩
    | false =>
      rw [if_neg (by simp)] at hM
      rw [hM]
      exact givesFull_any hops hf hκ (since_runs hs ops ho)
  · rw [h1.pre r p hp]
    exact ⟨trivial, hG.symm⟩

/-- **C109** Composite kernels in programs: whatever has been done in the steps `l`, `fit` of a `SumKernel` or `AverageKernel` composes the Gram matrices of the members that the set has by then, `fit` of a `WeightedAverageKernel` too
if there are as many weights. -/
theorem C109_composite (hops : env.ops = realOps) (l₀ l : List (POp K X)) {A : Arr2 X} {c i : Nat} {y : Comp} {t : KSet} {Gs : List (Matrix (Fin A.nrows) (Fin A.nrows) ℝ)}
    (hl : ∀ op ∈ l, ∀ o, op.MayCall o → o.isAttach = false ∧ o ≠ .fullSparse) (hc : (ProgSt.run env l (ProgSt.run env l₀ .empty).2).2.loc.comps[c]? = some (i, y))
    (ht : (ProgSt.run env l (ProgSt.run env l₀ .empty).2).2.loc.sets[i]? = some t) (hn : y.numSamples = .one A.nrows)
    (hm : List.Forall₂ ((ProgSt.run env l₀ .empty).2.heap.AttachedGram env (· ≠ .fullSparse) A) t.members Gs) :
    (y.kind = .sum → (ProgSt.run env l (ProgSt.run env l₀ .empty).2).2.FitGives env AnyFmt c none (fun i j => (Gs.map fun G => G i j).sum)) ∧
    (y.kind = .average → t.members ≠ [] → (ProgSt.run env l (ProgSt.run env l₀ .empty).2).2.FitGives env AnyFmt c none (emean Gs)) ∧
    ∀ w : List ℝ, y.kind = .weighted (w.map F.real) → w.length = t.members.length → (ProgSt.run env l (ProgSt.run env l₀ .empty).2).2.FitGives env AnyFmt c none (wsum w Gs) := by
  obtain ⟨h1, h2, -, h3⟩ := C82_current_partial hc ht hn (C109_members hops l₀ l hm hl)
  exact ⟨fun hk => (h1 hk).1, h2, h3⟩

/-- **C109** and `linear_combination` combines them. -/
theorem C109_combine (hops : env.ops = realOps) (l₀ l : List (POp K X)) {A : Arr2 X} {i : Nat} {t : KSet} {Gs : List (Matrix (Fin A.nrows) (Fin A.nrows) ℝ)} {w : WeightsIn} {v : List ℝ}
    (hl : ∀ op ∈ l, ∀ o, op.MayCall o → o.isAttach = false ∧ o ≠ .fullSparse) (ht : (ProgSt.run env l (ProgSt.run env l₀ .empty).2).2.loc.sets[i]? = some t) (hn : t.numSamples = .one A.nrows)
    (hne : t.members ≠ []) (hm : List.Forall₂ ((ProgSt.run env l₀ .empty).2.heap.AttachedGram env (· ≠ .fullSparse) A) t.members Gs) (hw : w.IsVec v) (hv : v.length = t.members.length) :
    ∃ f, (ProgSt.exec env (.combine i w false) (ProgSt.run env l (ProgSt.run env l₀ .empty).2).2).1 = .ok (.mat (f, Mat.ofReal (wsum v Gs))) := by
  obtain ⟨f, h, -⟩ := C82_combine ht hn hne (C109_members hops l₀ l hm hl) hw hv
  exact ⟨f, h⟩

/-- **C109** If moreover nobody selects a whole matrix by indexing, they are given as ndarrays. -/
theorem C109_members_dense (hops : env.ops = realOps) (l₀ l : List (POp K X)) {A : Arr2 X} {members : List Nat} {Gs : List (Matrix (Fin A.nrows) (Fin A.nrows) ℝ)}
    (hm : List.Forall₂ ((ProgSt.run env l₀ .empty).2.heap.AttachedGram env (fun o => ¬ o.MayGoSparse false A.nrows A.nrows) A) members Gs)
    (hl : ∀ op ∈ l, ∀ o, op.MayCall o → o.isAttach = false ∧ ¬ o.MayGoSparse false A.nrows A.nrows) :
    (ProgSt.run env l (ProgSt.run env l₀ .empty).2).2.heap.GivesAll env IsDense members Gs := by
  obtain ⟨h1, -⟩ := after_run (P := fun o => o.isAttach = false ∧ ¬ o.MayGoSparse false A.nrows A.nrows) (fun o ho => by cases o <;> first | exact ho.elim | exact ⟨rfl, fun h => h⟩) (ok_run (env := env) l₀) l hl
  refine hm.imp fun r G hr => ?_
  unfold Heap.Gives
  rcases hr with ⟨t, k, norm, ht, hs, κ, hf, hκ, hM⟩ | ⟨p, hp, hG⟩
  · obtain ⟨ops, ho, e⟩ := h1.km r t ht
    rw [e]
    cases norm with
    | true =>
      rw [if_pos rfl] at hM
      rw [hM.2]
      exact givesFull_normalised hops hf hκ (Since.mono (fun _ _ => trivial) (since_runs hs ops ho)) hM.1
    | false =>
      rw [if_neg (by simp)] at hM
      rw [hM]
      exact givesFull_dense hops hf hκ (since_runs hs ops ho)
  · rw [h1.pre r p hp]
    exact ⟨rfl, hG.symm⟩

/-- **C109** Then `fit` of a `ProductKernel` gives the entrywise product, -/
theorem C109_product (hops : env.ops = realOps) (l₀ l : List (POp K X)) {A : Arr2 X} {c i : Nat} {y : Comp} {t : KSet} {Gs : List (Matrix (Fin A.nrows) (Fin A.nrows) ℝ)}
    (hl : ∀ op ∈ l, ∀ o, op.MayCall o → o.isAttach = false ∧ ¬ o.MayGoSparse false A.nrows A.nrows) (hc : (ProgSt.run env l (ProgSt.run env l₀ .empty).2).2.loc.comps[c]? = some (i, y))
    (ht : (ProgSt.run env l (ProgSt.run env l₀ .empty).2).2.loc.sets[i]? = some t) (hn : y.numSamples = .one A.nrows)
    (hm : List.Forall₂ ((ProgSt.run env l₀ .empty).2.heap.AttachedGram env (fun o => ¬ o.MayGoSparse false A.nrows A.nrows) A) t.members Gs) (hk : y.kind = .product) :
    (ProgSt.run env l (ProgSt.run env l₀ .empty).2).2.FitGives env IsDense c none (eprod Gs) :=
  (C82_current_partial hc ht hn (C109_members_dense hops l₀ l hm hl)).2.2.1 hk fun _ hg => hg

/-- **C109** and `pairwise_similarity` the centered alignments of the Gram matrices. -/
theorem C109_similarity (hops : env.ops = realOps) (l₀ l : List (POp K X)) {A : Arr2 X} {i : Nat} {t : KSet} {Gs : List (Matrix (Fin A.nrows) (Fin A.nrows) ℝ)}
    (hl : ∀ op ∈ l, ∀ o, op.MayCall o → o.isAttach = false ∧ ¬ o.MayGoSparse false A.nrows A.nrows) (ht : (ProgSt.run env l (ProgSt.run env l₀ .empty).2).2.loc.sets[i]? = some t)
    (hm : List.Forall₂ ((ProgSt.run env l₀ .empty).2.heap.AttachedGram env (fun o => ¬ o.MayGoSparse false A.nrows A.nrows) A) t.members Gs) :
    ∃ S : Matrix (Fin t.members.length) (Fin t.members.length) ℝ, (ProgSt.exec env (.similarity i "align") (ProgSt.run env l (ProgSt.run env l₀ .empty).2).2).1 = .ok (.mat (.dense, Mat.ofReal S)) ∧
      ∀ (a b : Fin t.members.length) G H, Gs[min (a : Nat) b]? = some G → Gs[max (a : Nat) b]? = some H → S a b = calign G H := by
  have hg := C109_members_dense hops l₀ l hm hl
  generalize (ProgSt.run env l (ProgSt.run env l₀ .empty).2).2 = s at ht hg ⊢
  obtain ⟨h', S, e, hS, -⟩ := C42_align_partial (t := t) (hg.imp fun r G hr => gives_mono (fun g (hd : g = .dense) => by rw [hd]; simp) hr)
  refine ⟨S, ?_, hS⟩
  have e1 : ProgSt.exec env (.similarity i "align") s = (ProgSt.onHeap (pairwiseSimilarity env t "align") >>= fun M => pure (POut.mat (.dense, M)) : PyM (ProgSt K X) POut) s :=
    bind_ok (ProgSt.var_some (l := fun l => l.sets) ht)
  have e2 : ProgSt.onHeap (pairwiseSimilarity env t "align") s = (.ok (Mat.ofReal S), { s with heap := h' }) := by
    unfold ProgSt.onHeap
    rw [e]
  rw [e1, bind_ok e2]
  rfl

/-- **C109** `find_optimal_kernel(…, method='align/corr')` at any point of any program, also after other searches, gives the first of the members with the largest centered alignment on the given sample, if they are kernel matrices constructed
before with finite matrices there. (The steps `l` are arbitrary.) -/
theorem C109_find (hops : env.ops = realOps) (l₀ l : List (POp K X)) {A : Arr2 X} {i : Nat} {t : KSet} (cv : CVScore) (y : Fin A.nrows → ℝ) {method : String} (hm : method.toLower = "align/corr")
    (ht : (ProgSt.run env l (ProgSt.run env l₀ .empty).2).2.loc.sets[i]? = some t) (hn : t.numSamples = .unset ∨ t.numSamples = .one A.nrows) (hne : t.members ≠ [])
    {G : Nat → Matrix (Fin A.nrows) (Fin A.nrows) ℝ} (hG : ∀ r ∈ t.members, (ProgSt.run env l₀ .empty).2.heap.KernelOn env r A (G r)) :
    ∃ j r s', ProgSt.exec env (.find i true cv (sampleArg A) ((List.ofFn y).map .real) method {}) (ProgSt.run env l (ProgSt.run env l₀ .empty).2).2 = (.ok .none, s') ∧
      s'.loc.vars = (ProgSt.run env l (ProgSt.run env l₀ .empty).2).2.loc.vars ++ [r] ∧ t.members[j]? = some r ∧ FirstBest (t.members.map fun r => calign (G r) (outerR A.nrows y)) j := by
  obtain ⟨h1, -⟩ := after_run (P := fun _ => True) (fun _ _ => trivial) (ok_run (env := env) l₀) l fun _ _ _ _ => trivial
  have hG' : ∀ r ∈ t.members, (ProgSt.run env l (ProgSt.run env l₀ .empty).2).2.heap.KernelOn env r A (G r) := fun r hr => by
    obtain ⟨k, norm, ⟨u, hu, hR⟩, hM⟩ := hG r hr
    obtain ⟨ops, -, e⟩ := h1.km r u hu
    exact ⟨k, norm, ⟨_, e, reachable_run hR ops⟩, hM⟩
  generalize (ProgSt.run env l (ProgSt.run env l₀ .empty).2).2 = s at ht hG' ⊢
  obtain ⟨j, r, s2, e, -, hj, hb⟩ := C45_align (s := ⟨s.heap, t⟩) hops cv y hm hn hne hG'
  have e1 : ProgSt.onSet i (findOptimalKernel env cv true (sampleArg A) ((List.ofFn y).map .real) method {}) s = (.ok r, ⟨s2.heap, { s.loc with sets := s.loc.sets.set i s2.set }⟩) := by
    rw [ProgSt.onSet_some ht, e]
  refine ⟨j, r, _, bind_ok e1, rfl, hj, hb⟩

/-- **C109** `ks.attach_to(A)` at any point of a program attaches all members, if they are kernel matrices; each keeps its kernel function and its `normalized` flag. -/
theorem C109_attach (l₀ : List (POp K X)) {A : Arr2 X} {i : Nat} {t : KSet} (ht : (ProgSt.run env l₀ .empty).2.loc.sets[i]? = some t) (hn : t.numSamples = .unset ∨ t.numSamples = .one A.nrows)
    (hm : ∀ r ∈ t.members, ∃ u, (ProgSt.run env l₀ .empty).2.heap.objs r = some (.km u)) :
    (ProgSt.exec env (.attach i (sampleArg A) none) (ProgSt.run env l₀ .empty).2).1 = .ok .none ∧
    ∀ r ∈ t.members, ∀ u, (ProgSt.run env l₀ .empty).2.heap.objs r = some (.km u) →
      (ProgSt.exec env (.attach i (sampleArg A) none) (ProgSt.run env l₀ .empty).2).2.heap.AttachedTo env r u.kernel u.keepNormed A := by
  have hok := ok_run (env := env) l₀
  generalize (ProgSt.run env l₀ .empty).2 = s at ht hm hok ⊢
  obtain ⟨s', e, -, -, h3⟩ := attach_nowAttached (env := env) (s := ⟨s.heap, t⟩) hn fun r hr => by
    obtain ⟨u, hu⟩ := hm r hr
    obtain ⟨k, norm, h⟩ := hok.2 r u hu
    exact ⟨k, norm, u, hu, h⟩
  have e1 : ProgSt.onSet i (SetSt.attach (sampleArg A) none) s = (.ok (), ⟨s'.heap, { s.loc with sets := s.loc.sets.set i s'.set }⟩) := by
    rw [ProgSt.onSet_some ht, e]
  have e2 : ProgSt.exec env (.attach i (sampleArg A) none) s = (.ok .none, ⟨s'.heap, { s.loc with sets := s.loc.sets.set i s'.set }⟩) := bind_ok e1
  rw [e2]
  refine ⟨rfl, fun r hr u hu => ?_⟩
  obtain ⟨k, norm, h⟩ := hok.2 r u hu
  obtain ⟨rfl, rfl⟩ := h.kernel
  exact h3 r _ _ hr ⟨u, hu, h⟩

/-- **C109** If the kernel matrix normalises, `km.full` is the cosine-normalised matrix, or raises `KMNormError` if a self-kernel is close to zero, whatever calls the program makes in between other than attaching. -/
theorem C109_normalised (hops : env.ops = realOps) (l₀ l : List (POp K X)) {v : Nat} {t : KMState K X F} {k : K} {κ : X → X → ℝ} {A : Arr2 X} (h : (ProgSt.run env l₀ .empty).2.obj v = some (.km t))
    (ht : SinceAny env k true ⟨A, none⟩ t) (hf : NoFaultsOn env k ⟨A, none⟩) (hκ : RealOn (env.kval k) κ ⟨A, none⟩) (hpos : ∀ i : Fin A.nrows, 0 ≤ κ (A.row i) (A.row i))
    (hl : ∀ op ∈ l, ∀ o, op.MayCall o → o.isAttach = false) :
    ((∃ i : Fin A.nrows, NearZero (κ (A.row i) (A.row i))) → (ProgSt.exec env (.km v .full) (ProgSt.run env l (ProgSt.run env l₀ .empty).2).2).1 = .error .kmNorm) ∧
    ((¬ ∃ i : Fin A.nrows, NearZero (κ (A.row i) (A.row i))) →
      (ProgSt.exec env (.km v .full) (ProgSt.run env l (ProgSt.run env l₀ .empty).2).2).1 = .ok (.km (.mat .dense (Mat.ofReal (cosNorm (A.gramR κ)))))) := by
  obtain ⟨t', h1, h2⟩ := C109_since l₀ l h ht (fun _ _ => trivial) fun op hop o ho => ⟨hl op hop o ho, trivial⟩
  obtain ⟨h3, h4⟩ := C09_one_sample hops hf hκ h2 hpos
  rw [exec_km_obj h1]
  exact ⟨fun hz => by rw [h3 hz]; rfl, fun hz => by rw [h4 hz]; rfl⟩

/-- **C109** Altogether: a program does anything (`l₀`), attaches the set number `i` to the sample `A`, and does anything (`l`) but attach again or turn matrices into sparse storage. Then `full` of each member, if it does not normalise and its kernel does
not raise on `A`, gives the matrix of all kernel values on `A`. -/
theorem C109_attach_full (l₀ l : List (POp K X)) {A : Arr2 X} {i v r : Nat} {t : KSet} {u : KMState K X F} (ht : (ProgSt.run env l₀ .empty).2.loc.sets[i]? = some t)
    (hn : t.numSamples = .unset ∨ t.numSamples = .one A.nrows) (hm : ∀ r ∈ t.members, ∃ u, (ProgSt.run env l₀ .empty).2.heap.objs r = some (.km u))
    (hv : (ProgSt.run env l₀ .empty).2.loc.vars[v]? = some r) (hr : r ∈ t.members) (hu : (ProgSt.run env l₀ .empty).2.heap.objs r = some (.km u)) (hk : u.keepNormed = false)
    (hf : NoFaultsOn env u.kernel ⟨A, none⟩) (hq : Quiet env u.kernel ⟨A, none⟩) (hl : ∀ op ∈ l, ∀ o, op.MayCall o → o.isAttach = false ∧ ¬ o.MayGoSparse false A.nrows A.nrows) :
    (ProgSt.exec env (.km v .full) (ProgSt.run env l (ProgSt.run env (l₀ ++ [.attach i (sampleArg A) none]) .empty).2).2).1 =
      .ok (.km (.mat .dense ((⟨A, none⟩ : Attachment X).gram (env.kval u.kernel)))) := by
  obtain ⟨-, h1⟩ := C109_attach (A := A) l₀ ht hn hm
  obtain ⟨u', h2, h3⟩ := h1 r hr u hu
  rw [hk] at h3
  refine C109_full (t := u') _ l ?_ (Since.mono (fun o (ho : o = .full) => by rw [ho]; exact fun h => h) h3) hf hq hl
  rw [run_snoc]
  exact Option.bind_eq_some_iff.2 ⟨r, prefix_get (after_run (P := fun _ => True) (fun _ _ => trivial) (ok_run (env := env) l₀) [.attach i (sampleArg A) none] fun _ _ _ _ => trivial).2 hv, h2⟩

namespace Demo

/-- what a program may do after `prog82`: fit the composite, refit it, add members, read the first kernel matrix, label the set, use variables that do not exist -/
noncomputable def prog109 : List (POp Unit ℝ) :=
  [.fit 0 none, .append 0 (.ref 1), .composite 0, .full 0, .km 0 (.getItem (.pair (.int 0) (.int 1))), .setAttr 0 "site" (.scalar "A"), .km 7 .full, .similarity 0 "align/normed", .newKM () true 0]

theorem obj109 : (ProgSt.run renv prog82 .empty).2.obj 0 = some (.km (rst false)) := rfl

theorem prog109_calls : ∀ op ∈ prog109, ∀ o, op.MayCall o → o.isAttach = false ∧ ¬ o.MayGoSparse false 3 3 := by
  intro op hop o ho
  simp only [prog109, List.mem_cons, List.not_mem_nil, or_false] at hop
  rcases hop with rfl | rfl | rfl | rfl | rfl | rfl | rfl | rfl | rfl <;> first | exact ho.elim | cases ho
  · refine ⟨rfl, fun h => ?_⟩
    have := h.1 2 (by omega)
    change ((2 : Nat) : Int) = 0 at this
    omega
  · exact ⟨rfl, fun h => h⟩

end Demo

/-- after all this, `full` of the first kernel matrix is its Gram matrix -/
example : (ProgSt.exec Demo.renv (.km 0 .full) (ProgSt.run Demo.renv Demo.prog109 (ProgSt.run Demo.renv Demo.prog82 .empty).2).2).1 =
    .ok (.km (.mat .dense ((⟨Demo.rA, none⟩ : Attachment ℝ).gram (Demo.renv.kval ())))) :=
  C109_full _ _ Demo.obj109 (Demo.since_rst false _) (fun _ _ _ _ _ => rfl) (fun h => by cases h) Demo.prog109_calls

/-- and `km[2, 0:2]` gives kernel values of `rA` whenever it does not raise -/
example {out : POut} (h : (ProgSt.exec Demo.renv (.km 0 (.getItem (.pair (.int 2) (.slice (some 0) (some 2) none)))) (ProgSt.run Demo.renv Demo.prog109 (ProgSt.run Demo.renv Demo.prog82 .empty).2).2).1 = .ok out) :
    ∃ rows cols, IsSelection 3 (.int 2) rows ∧ IsSelection 3 (.slice (some 0) (some 2) none) cols ∧ out = .km (.mat .dense ((⟨Demo.rA, none⟩ : Attachment ℝ).sub (Demo.renv.kval ()) rows cols)) :=
  C109_values _ _ Demo.obj109 (Demo.since_rst false _) (fun op hop o ho => (Demo.prog109_calls op hop o ho).1)
    (fun h => by have := h.1 0 (by show 0 < 3; omega); change ((0 : Nat) : Int) = 2 at this; omega) h

/-- a precomputed kernel matrix put in a set with `prog82` having run before, and used in all these ways -/
example : (ProgSt.run Demo.renv (.append 0 (.ref 2) :: Demo.prog109) (ProgSt.run Demo.renv (Demo.prog82 ++ [.newPre (.real ⟨1, 3, fun _ _ => .real 1⟩)]) .empty).2).2.obj 2 = some (.pre ⟨⟨1, 3, fun _ _ => .real 1⟩, 1⟩) := by
  refine C109_precomputed _ _ ?_
  have h : (ProgSt.exec Demo.renv (.newPre (.real ⟨1, 3, fun _ _ => .real 1⟩)) (ProgSt.run Demo.renv Demo.prog82 .empty).2).2.obj 2 = some (.pre ⟨⟨1, 3, fun _ _ => .real 1⟩, 1⟩) := by
    show ((lift (mkPrecomputed (.real ⟨1, 3, fun _ _ => .real 1⟩)) >>= fun p => ProgSt.onHeap (Heap.alloc (.pre p)) >>= fun r => ProgSt.bindVar r >>= fun _ => pure POut.none : PyM (ProgSt Unit ℝ) POut) _).2.obj 2 = _
    rw [C51_violated 1 3 (by decide)]
    rfl
  exact h

/-- a combination of four members, of which the last was added after attaching, with a third kernel matrix that is not a member -/
example : ∃ f, (ProgSt.exec Demo.renv (.combine 0 (.arr ⟨.float64, [4], [.real 1, .real 2, .real 3, .real 4]⟩) false)
    (ProgSt.run Demo.renv [.append 0 (.ref 1), .newKM () true 0, .km 2 .full, .size 0] (ProgSt.run Demo.renv Demo.prog82 .empty).2).2).1 =
    .ok (.mat (f, Mat.ofReal (wsum [1, 2, 3, 4] (List.replicate 4 (Demo.rA.gramR (· * ·)))))) := by
  have h : ∀ r < 2, (ProgSt.run Demo.renv Demo.prog82 .empty).2.heap.AttachedGram Demo.renv (· ≠ .fullSparse) Demo.rA r (Demo.rA.gramR (· * ·)) := fun r hr =>
    .inl ⟨Demo.rst false, (), false, by rcases r with _ | _ | r; exacts [rfl, rfl, by omega], Demo.since_rst false _, (· * ·), fun _ _ _ _ _ => rfl, fun _ _ _ _ => rfl, rfl⟩
  refine C109_combine (t := ⟨[0, 1, 0, 1], .one 3, true⟩) rfl _ _ (fun op hop o ho => ?_) rfl rfl (by simp)
    (.cons (h 0 (by omega)) (.cons (h 1 (by omega)) (.cons (h 0 (by omega)) (.cons (h 1 (by omega)) .nil)))) ⟨.float64, 0, .inl rfl, rfl⟩ rfl
  simp only [List.mem_cons, List.not_mem_nil, or_false] at hop
  rcases hop with rfl | rfl | rfl | rfl <;> first | exact ho.elim | cases ho
  exact ⟨rfl, nofun⟩

/-- a product kernel constructed with three members, of which one is counted twice, after other uses -/
example : (ProgSt.run Demo.renv [.newComposite .product 0, .size 0, .newKM () true 0] (ProgSt.run Demo.renv Demo.prog82 .empty).2).2.FitGives Demo.renv IsDense 1 none
    (eprod (List.replicate 3 (Demo.rA.gramR (· * ·)))) := by
  have h : ∀ r < 2, (ProgSt.run Demo.renv Demo.prog82 .empty).2.heap.AttachedGram Demo.renv (fun o => ¬ o.MayGoSparse false 3 3) Demo.rA r (Demo.rA.gramR (· * ·)) := fun r hr =>
    .inl ⟨Demo.rst false, (), false, by rcases r with _ | _ | r; exacts [rfl, rfl, by omega], Demo.since_rst false _, (· * ·), fun _ _ _ _ _ => rfl, fun _ _ _ _ => rfl, rfl⟩
  refine C109_product (i := 0) (y := ⟨.product, .one 3, false, none⟩) (t := ⟨[0, 1, 0], .one 3, true⟩) rfl _ _ (fun op hop o ho => ?_) rfl rfl rfl (.cons (h 0 (by omega)) (.cons (h 1 (by omega)) (.cons (h 0 (by omega)) .nil))) rfl
  simp only [List.mem_cons, List.not_mem_nil, or_false] at hop
  rcases hop with rfl | rfl | rfl <;> exact ho.elim

/-- a search among three members -/
example (cv : CVScore) (y : Fin 3 → ℝ) : ∃ j r s', ProgSt.exec Demo.renv (.find 0 true cv (sampleArg Demo.rA) ((List.ofFn y).map .real) "align/corr" {})
    (ProgSt.run Demo.renv [.size 0, .newKM () true 0] (ProgSt.run Demo.renv Demo.prog82 .empty).2).2 = (.ok .none, s') ∧ s'.loc.vars = [0, 1, 2] ++ [r] ∧ [0, 1, 0][j]? = some r ∧
    FirstBest ([0, 1, 0].map fun _ => calign (Demo.rA.gramR (· * ·)) (outerR 3 y)) j := by
  refine C109_find (t := ⟨[0, 1, 0], .one 3, true⟩) (G := fun _ => Demo.rA.gramR (· * ·)) rfl _ _ cv y (by decide +kernel) rfl (.inr rfl) (by simp) fun r hr => ?_
  have hr2 : r < 2 := by simp at hr; omega
  exact ⟨(), false, ⟨Demo.rst false, by rcases r with _ | _ | r; exacts [rfl, rfl, by omega], .call _ (.new 0)⟩, (· * ·), fun _ _ _ _ _ => rfl, fun _ _ _ _ => rfl, rfl⟩

/-- the sum of the three members, and their similarities -/
example : (ProgSt.run Demo.renv [.newComposite .sum 0, .size 0] (ProgSt.run Demo.renv Demo.prog82 .empty).2).2.FitGives Demo.renv AnyFmt 1 none
      (fun i j => ((List.replicate 3 (Demo.rA.gramR (· * ·))).map fun G => G i j).sum) ∧
    ∃ S : Matrix (Fin 3) (Fin 3) ℝ, (ProgSt.exec Demo.renv (.similarity 0 "align") (ProgSt.run Demo.renv [.newComposite .sum 0, .size 0] (ProgSt.run Demo.renv Demo.prog82 .empty).2).2).1 = .ok (.mat (.dense, Mat.ofReal S)) ∧
      ∀ (a b : Fin 3) G H, (List.replicate 3 (Demo.rA.gramR (· * ·)))[min (a : Nat) b]? = some G → (List.replicate 3 (Demo.rA.gramR (· * ·)))[max (a : Nat) b]? = some H → S a b = calign G H := by
  have h : ∀ Q, ∀ r < 2, (ProgSt.run Demo.renv Demo.prog82 .empty).2.heap.AttachedGram Demo.renv Q Demo.rA r (Demo.rA.gramR (· * ·)) := fun Q r hr =>
    .inl ⟨Demo.rst false, (), false, by rcases r with _ | _ | r; exacts [rfl, rfl, by omega], Demo.since_rst false _, (· * ·), fun _ _ _ _ _ => rfl, fun _ _ _ _ => rfl, rfl⟩
  have h3 : ∀ Q, List.Forall₂ ((ProgSt.run Demo.renv Demo.prog82 .empty).2.heap.AttachedGram Demo.renv Q Demo.rA) [0, 1, 0] (List.replicate 3 (Demo.rA.gramR (· * ·))) := fun Q =>
    .cons (h Q 0 (by omega)) (.cons (h Q 1 (by omega)) (.cons (h Q 0 (by omega)) .nil))
  have hl : ∀ op ∈ [POp.newComposite (K := Unit) (X := ℝ) .sum 0, .size 0], ∀ o, ¬ op.MayCall o := by
    intro op hop o ho
    simp only [List.mem_cons, List.not_mem_nil, or_false] at hop
    rcases hop with rfl | rfl <;> exact ho.elim
  exact ⟨(C109_composite (i := 0) (y := ⟨.sum, .one 3, false, none⟩) (t := ⟨[0, 1, 0], .one 3, true⟩) rfl _ _ (fun op hop o ho => (hl op hop o ho).elim) rfl rfl rfl (h3 _)).1 rfl,
    C109_similarity (t := ⟨[0, 1, 0], .one 3, true⟩) rfl _ _ (fun op hop o ho => (hl op hop o ho).elim) rfl (h3 _)⟩

/-- attached again to another sample after all of `prog82`, and used as in `prog109` -/
example : (ProgSt.exec Demo.renv (.km 1 .full) (ProgSt.run Demo.renv Demo.prog109 (ProgSt.run Demo.renv (Demo.prog82 ++ [.attach 0 (sampleArg ⟨3, 1, fun i => (i : ℝ) * 5⟩) none]) .empty).2).2).1 =
    .ok (.km (.mat .dense ((⟨⟨3, 1, fun i => (i : ℝ) * 5⟩, none⟩ : Attachment ℝ).gram (Demo.renv.kval ())))) :=
  C109_attach_full (A := ⟨3, 1, fun i => (i : ℝ) * 5⟩) (t := ⟨[0, 1, 0], .one 3, true⟩) (r := 1) (u := Demo.rst false) Demo.prog82 Demo.prog109 rfl (.inr rfl)
    (fun r hr => ⟨Demo.rst false, by
      have hr2 : r < 2 := by simp at hr; omega
      rcases r with _ | _ | r
      exacts [rfl, rfl, by omega]⟩)
    rfl (by simp) rfl rfl (fun _ _ _ _ _ => rfl) (fun h => by cases h) Demo.prog109_calls

/-- a normalising kernel matrix, attached by `attach_to` of a set; the calls in between may also be `full_sparse` -/
example : (ProgSt.exec Demo.renv (.km 0 .full) (ProgSt.run Demo.renv [.newKM () false 0, .newSet (.list [.ref 0, .ref 1]) .unset, .km 0 .fullSparse, .full 0]
    (ProgSt.run Demo.renv [.newKM () true 0, .newSet (.list [.ref 0]) .unset, .attach 0 Demo.sample3 none] .empty).2).2).1 = .ok (.km (.mat .dense (Mat.ofReal (cosNorm (Demo.rA.gramR (· * ·)))))) := by
  refine (C109_normalised (t := Demo.rst true) (A := Demo.rA) (k := ()) (κ := (· * ·)) rfl _ _ rfl (Demo.since_rst true _) (fun _ _ _ _ _ => rfl) (fun _ _ _ _ => rfl) (fun i => mul_self_nonneg _) ?_).2 ?_
  · intro op hop o ho
    simp only [List.mem_cons, List.not_mem_nil, or_false] at hop
    rcases hop with rfl | rfl | rfl | rfl <;> first | exact ho.elim | (cases ho; rfl)
  · rintro ⟨i, hi⟩
    have h1 : (0 : ℝ) ≤ (i : ℕ) := Nat.cast_nonneg _
    have h2 : (1 : ℝ) ≤ Demo.rA.row i * Demo.rA.row i := by
      show (1 : ℝ) ≤ ((i : ℕ) + 1) * ((i : ℕ) + 1)
      nlinarith
    rw [NearZero, abs_of_nonneg (by linarith)] at hi
    norm_num at hi
    linarith

end KMethods
