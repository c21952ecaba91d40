import Verif.Spec.Ranking
import Verif.Lemmas.Sampling
import Verif.Lemmas.Gives
import Verif.Props.KernelSet
import Verif.Props.Utils
/-!
# Lemmas on kernel rankings
-/
namespace KMethods
open PyM KMState
variable {K X : Type} {env : Env K X F}

theorem Since.mono {V : Type} {env : Env K X V} {k : K} {norm : Bool} {a : Attachment X} {P Q : KMOp X → Prop} (hPQ : ∀ op, P op → Q op) {s : KMState K X V}
    (h : Since env k norm a P s) : Since env k norm a Q s := by
  induction h with
  | attached h1 h2 h3 => exact .attached h1 h2 h3
  | call op _ h2 h3 ih => exact .call op ih h2 (hPQ op h3)

theorem mapEach_inv {σ α β : Type} {I : σ → Prop} {f : α → PyM σ β} {g : α → β} (l : List α) (h : ∀ a ∈ l, ∀ s, I s → ∃ s', f a s = (.ok (g a), s') ∧ I s')
    (s : σ) (hs : I s) : ∃ s', mapEach l f s = (.ok (l.map g), s') ∧ I s' := by
  induction l generalizing s with
  | nil => exact ⟨s, rfl, hs⟩
  | cons a l ih =>
    obtain ⟨s1, e1, h1⟩ := h a (.head _) s hs
    obtain ⟨s2, e2, h2⟩ := ih (fun b hb => h b (.tail _ hb)) s1 h1
    exact ⟨s2, mapEach_cons_ok.2 ⟨_, _, _, e1, e2, rfl⟩, h2⟩

/-! ### `np.argmax` -/

theorem FirstBest.index_lt {l : List ℝ} {i : Nat} (h : FirstBest l i) : i < l.length := by
  obtain ⟨x, hx, -⟩ := h
  exact (List.getElem?_eq_some_iff.1 hx).1

theorem FirstBest.map_iff {l : List ℝ} {i : Nat} {f : ℝ → ℝ} (hf : StrictMono f) : FirstBest (l.map f) i ↔ FirstBest l i := by
  unfold FirstBest
  simp only [List.getElem?_map, Option.map_eq_some_iff, List.mem_map, ← List.map_take]
  constructor
  · rintro ⟨_, ⟨x, hx, rfl⟩, h1, h2⟩
    exact ⟨x, hx, fun y hy => hf.le_iff_le.1 (h1 _ ⟨y, hy, rfl⟩), fun y hy => hf.lt_iff_lt.1 (h2 _ ⟨y, hy, rfl⟩)⟩
  · rintro ⟨x, hx, h1, h2⟩
    refine ⟨_, ⟨x, hx, rfl⟩, ?_, ?_⟩
    · rintro _ ⟨y, hy, rfl⟩; exact hf.le_iff_le.2 (h1 y hy)
    · rintro _ ⟨y, hy, rfl⟩; exact hf.lt_iff_lt.2 (h2 y hy)

theorem FirstBest.const {l : List ℝ} {i : Nat} {c : ℝ} (h : FirstBest (l.map fun _ => c) i) : i = 0 := by
  have hi := h.index_lt
  obtain ⟨x, hx, -, h2⟩ := h
  by_contra h0
  have hl : 0 < l.length := by rw [List.length_map] at hi; omega
  have hx' : x = c := by
    rw [List.getElem?_map, Option.map_eq_some_iff] at hx
    obtain ⟨_, -, rfl⟩ := hx; rfl
  have := h2 c (by
    rw [← List.map_take, List.mem_map]
    obtain ⟨a, ha⟩ := List.exists_mem_of_length_pos (l := l.take i) (by rw [List.length_take]; omega)
    exact ⟨a, ha, rfl⟩)
  exact absurd this (by rw [hx']; exact lt_irrefl _)

theorem FirstBest.unique {l : List ℝ} {i j : Nat} (hi : FirstBest l i) (hj : FirstBest l j) : i = j := by
  have key : ∀ {i j : Nat}, FirstBest l i → FirstBest l j → ¬ i < j := by
    rintro i j ⟨x, hx, h1, -⟩ ⟨y, hy, -, h2⟩ hlt
    have hxm : x ∈ l.take j := by
      rw [List.mem_iff_getElem?]
      exact ⟨i, by rw [List.getElem?_take, if_pos hlt]; exact hx⟩
    have := h2 x hxm
    have := h1 y (List.mem_iff_getElem?.2 ⟨j, hy⟩)
    linarith
  have := key hi hj
  have := key hj hi
  omega

theorem argmaxF_real {xs : List ℝ} (h : xs ≠ []) : ∃ i, argmaxF (xs.map .real) = .ok i ∧ FirstBest xs i := by
  classical
  have hne : xs.map F.real ≠ [] := by simpa using h
  have hno : (xs.map F.real).findIdx? (fun x => decide (¬ x.isFinite)) = none := by
    rw [List.findIdx?_eq_none_iff]
    intro x hx
    obtain ⟨y, -, rfl⟩ := List.mem_map.1 hx
    simp [F.isFinite]
  have hmax : ∃ m ∈ xs, ∀ y ∈ xs, y ≤ m := by
    clear hne hno
    induction xs with
    | nil => exact (h rfl).elim
    | cons a l ih =>
      by_cases hl : l = []
      · subst hl; exact ⟨a, .head _, by simp⟩
      · obtain ⟨m, hm, hb⟩ := ih hl
        rcases le_total a m with ham | ham
        · exact ⟨m, .tail _ hm, by simpa using ⟨ham, hb⟩⟩
        · exact ⟨a, .head _, by simpa using fun y hy => (hb y hy).trans ham⟩
  obtain ⟨m, hm, hb⟩ := hmax
  unfold argmaxF
  rw [if_neg hne, hno]
  rcases hr : (xs.map F.real).findIdx? (fun x => decide (∀ y ∈ xs.map F.real, ¬ F.lt x y)) with _ | i
  · rw [List.findIdx?_eq_none_iff] at hr
    have := hr (.real m) (List.mem_map.2 ⟨m, hm, rfl⟩)
    rw [decide_eq_false_iff_not] at this
    refine (this fun y hy => ?_).elim
    obtain ⟨z, hz, rfl⟩ := List.mem_map.1 hy
    exact not_lt.2 (hb z hz)
  · refine ⟨i, rfl, ?_⟩
    rw [List.findIdx?_eq_some_iff_getElem] at hr
    obtain ⟨hi, h1, h2⟩ := hr
    rw [List.length_map] at hi
    have key : ∀ x, decide (∀ y ∈ xs.map F.real, ¬ F.lt (.real x) y) = true ↔ ∀ y ∈ xs, y ≤ x := by
      intro x
      rw [decide_eq_true_iff]
      constructor
      · intro h y hy; exact not_lt.1 (h (.real y) (List.mem_map.2 ⟨y, hy, rfl⟩))
      · rintro h y hy
        obtain ⟨z, hz, rfl⟩ := List.mem_map.1 hy
        exact not_lt.2 (h z hz)
    rw [List.getElem_map, key] at h1
    refine ⟨xs[i], List.getElem?_eq_getElem hi, h1, ?_⟩
    intro y hy
    obtain ⟨j, hj, rfl⟩ := List.mem_iff_getElem.1 hy
    rw [List.length_take] at hj
    have hji : j < i := by omega
    rw [List.getElem_take]
    have := h2 j hji
    rw [List.getElem_map, Bool.not_eq_true, Bool.eq_false_iff, Ne, key] at this
    by_contra hc
    exact this fun y hy => (h1 y hy).trans (not_lt.1 hc)

theorem argmaxF_all_nan {l : List F} (h : l ≠ []) (hn : ∀ x ∈ l, x = .nan) : argmaxF l = .ok 0 := by
  classical
  unfold argmaxF
  rw [if_neg h]
  cases l with
  | nil => exact (h rfl).elim
  | cons x l =>
    obtain rfl := hn x (.head _)
    rw [List.findIdx?_cons]
    simp [F.isFinite]

/-! ### members attached to a sample -/

theorem Heap.AttachedTo.full {h : Heap K X} {r : Nat} {k : K} {norm : Bool} {A : Arr2 X} (ha : h.AttachedTo env r k norm A) {r' : Nat} {t' : KMState K X F}
    (hr' : h.objs r' = some (.km t')) : (Heap.full env r' h).2.AttachedTo env r k norm A := by
  obtain ⟨t, ht, hs⟩ := ha
  have hfull : Heap.full env r' h = Heap.call r' (KMState.full env) h := by unfold Heap.full; rw [hr']
  rw [hfull, Heap.call_km _ hr']
  by_cases hr : r = r'
  · subst hr
    obtain rfl : t = t' := by rw [hr'] at ht; injection ht with ht; injection ht with ht; exact ht.symm
    refine ⟨(KMState.full env t).2, Function.update_self .., ?_⟩
    have := Since.full (env := env) (Q := fun op => op = .full) rfl hs
    rw [exec_full_run] at this
    exact this
  · exact ⟨t, by show Function.update _ _ _ _ = _; rw [Function.update_of_ne hr]; exact ht, hs⟩

theorem IsMatrix1.gives (hops : env.ops = realOps) {k : K} {norm : Bool} {A : Arr2 X} {M : Matrix (Fin A.nrows) (Fin A.nrows) ℝ} (h : IsMatrix1 env k norm A M)
    {t : KMState K X F} (hs : Since env k norm ⟨A, none⟩ (fun op => op = .full) t) : t.GivesFull env IsDense (Mat.ofReal M) := by
  obtain ⟨κ, hf, hκ, hM⟩ := h
  cases norm with
  | true =>
    rw [if_pos rfl] at hM
    rw [hM.2]
    exact givesFull_normalised hops hf hκ (Since.mono (fun _ _ => trivial) hs) hM.1
  | false =>
    rw [if_neg (by simp)] at hM
    rw [hM]
    exact givesFull_dense hops hf hκ (Since.mono (fun op hop => by subst hop; simp [KMOp.MayGoSparse]) hs)

theorem IsMatrix1.full (hops : env.ops = realOps) {k : K} {norm : Bool} {A : Arr2 X} {M : Matrix (Fin A.nrows) (Fin A.nrows) ℝ} (h : IsMatrix1 env k norm A M)
    {t : KMState K X F} (hs : Since env k norm ⟨A, none⟩ (fun op => op = .full) t) : (KMState.full env t).1 = .ok (.dense, Mat.ofReal M) := by
  obtain ⟨f, hf, e, -⟩ := (h.gives hops hs).run
  obtain rfl : f = .dense := hf
  exact e

theorem full_of_exec {t : KMState K X F} {f : Fmt} {M : Mat F} (h : (exec env .full t).1 = .ok (.mat f M)) : (KMState.full env t).1 = .ok (f, M) := by
  rw [exec_full_run] at h
  rcases hr : (KMState.full env t).1 with e | A
  · rw [hr] at h; cases h
  · rw [hr] at h
    change Except.ok (KMOut.mat A.1 A.2) = _ at h
    injection h with h; injection h with h1 h2
    rw [← h1, ← h2]

theorem IsMatrix2.full (hops : env.ops = realOps) {k : K} {norm : Bool} {A B : Arr2 X} {M : Matrix (Fin B.nrows) (Fin A.nrows) ℝ} (h : IsMatrix2 env k norm B A M)
    {t : KMState K X F} (hs : Since env k norm ⟨B, some A⟩ (fun op => op = .full) t) : (KMState.full env t).1 = .ok (.dense, Mat.ofReal M) := by
  obtain ⟨κ, hf, hκ, hM⟩ := h
  refine full_of_exec ?_
  cases norm with
  | true =>
    rw [if_pos rfl] at hM
    rw [hM.2.2]
    refine (C09_two_samples hops hf hκ (Since.mono (fun _ _ => trivial) hs) (fun i => (hM.1 i).1) fun j => (hM.2.1 j).1).2 ?_
    rintro (⟨i, hi⟩ | ⟨j, hj⟩)
    · exact (hM.1 i).2 hi
    · exact (hM.2.1 j).2 hj
  | false =>
    rw [if_neg (by simp)] at hM
    rw [hM, C08_full_is_gram hf (quiet_of_real hops hκ) (Since.mono (fun op hop => by subst hop; simp [KMOp.MayGoSparse]) hs), cross_ofReal hκ]

theorem Heap.KernelOn.isKM {h : Heap K X} {r : Nat} {A : Arr2 X} {M : Matrix (Fin A.nrows) (Fin A.nrows) ℝ} (hk : h.KernelOn env r A M) :
    ∃ k norm, h.IsKM env r k norm := by
  obtain ⟨k, norm, hk, -⟩ := hk
  exact ⟨k, norm, hk⟩

/-- asking an attached member for its full matrix -/
theorem SetSt.NowAttached.full (hops : env.ops = realOps) {s s' : SetSt K X} {A : Arr2 X} (ha : s.NowAttached env s' A) {r : Nat} (hr : r ∈ s.set.members)
    {M : Matrix (Fin A.nrows) (Fin A.nrows) ℝ} (hk : s.heap.KernelOn env r A M) :
    ∃ s'', SetSt.onHeap (Heap.full env r) s' = (.ok (.dense, Mat.ofReal M), s'') ∧ s.NowAttached env s'' A := by
  obtain ⟨h1, h2, h3⟩ := ha
  obtain ⟨k, norm, hkm, hM⟩ := hk
  have hat := h3 r k norm hr hkm
  obtain ⟨t, ht, hs⟩ := hat
  have hg : s'.heap.Gives env IsDense r (Mat.ofReal M) := by
    unfold Heap.Gives
    rw [ht]
    exact hM.gives hops hs
  obtain ⟨f, h', hfd, e, -⟩ := Heap.full_gives hg
  obtain rfl : f = .dense := hfd
  have hrun : SetSt.onHeap (Heap.full env r) s' = (.ok (.dense, Mat.ofReal M), { s' with heap := h' }) := by
    unfold SetSt.onHeap; rw [e]
  have he : (Heap.full env r s'.heap).2 = h' := by rw [e]
  have hfull : Heap.full env r s'.heap = Heap.call r (KMState.full env) s'.heap := by unfold Heap.full; rw [ht]
  refine ⟨_, hrun, h1, ?_, ?_⟩
  · intro q hq
    rw [← h2 q hq, ← he, hfull, Heap.call_km _ ht]
    exact Function.update_of_ne (by rintro rfl; exact hq hr) _ _
  · intro q k' norm' hq hkm'
    show Heap.AttachedTo env h' q k' norm' A
    rw [← he]
    exact (h3 q k' norm' hq hkm').full ht

theorem attach_nowAttached {s : SetSt K X} {A : Arr2 X} (hn : s.set.numSamples = .unset ∨ s.set.numSamples = .one A.nrows)
    (hkm : ∀ r ∈ s.set.members, ∃ k norm, s.heap.IsKM env r k norm) :
    ∃ s', SetSt.attach (sampleArg A) none s = (.ok (), s') ∧ s.NowAttached env s' A := by
  obtain ⟨h', e, h2, h3⟩ := C38_attach (env := env) 0 none hn hkm
  refine ⟨_, e, rfl, h2, fun r k norm hr hk => ?_⟩
  obtain ⟨t, ht, hs, -⟩ := h3 r k norm hr hk
  exact ⟨t, ht, Since.mono (fun op => by rintro ⟨a, ha, -⟩; cases ha) hs⟩

/-! ### the two rankings -/

theorem getItem_member (s : SetSt K X) {i : Nat} {r : Nat} (h : s.set.members[i]? = some r) : SetSt.getItem (.int i) s = (.ok r, s) := by
  obtain ⟨hi, rfl⟩ := List.getElem?_eq_some_iff.1 h
  have h1 : (decide ((i : Int) < 0) || decide ((i : Int) ≥ (s.set.members.length : Int))) = false := by
    simp only [Bool.or_eq_false_iff, decide_eq_false_iff_not]
    omega
  show (raiseIf (decide ((i : Int) < 0) || decide ((i : Int) ≥ (s.set.members.length : Int))) .indexError >>= fun _ => _ : PyM (SetSt K X) Nat) s = _
  rw [h1]
  show (Except.ok (s.set.members.getD (Int.toNat i) 0), s) = _
  rw [Int.toNat_natCast, getD_lt _ _ hi]

theorem idealKernel_real {n : Nat} (y : Fin n → ℝ) : idealKernel ((List.ofFn y).map .real) = Mat.ofReal (outerR n y) := by
  unfold idealKernel Mat.ofReal Mat.ofCells
  rw [List.length_map, List.length_ofFn]
  congr 1
  funext i j
  beta_reduce
  rw [getD_lt _ _ (by rw [List.length_map, List.length_ofFn]; exact i.2), getD_lt _ _ (by rw [List.length_map, List.length_ofFn]; exact j.2), List.getElem_map,
      List.getElem_map, List.getElem_ofFn, List.getElem_ofFn]
  rfl

/-- the keyword arguments of `alignment_ranking` that leave the default behaviour -/
theorem alignRanking_run (hops : env.ops = realOps) {s s' : SetSt K X} {A : Arr2 X} (ha : s.NowAttached env s' A) (y : Fin A.nrows → ℝ)
    {G : Nat → Matrix (Fin A.nrows) (Fin A.nrows) ℝ} (hG : ∀ r ∈ s.set.members, s.heap.KernelOn env r A (G r)) :
    ∃ s'', alignRanking env ((List.ofFn y).map .real) {} s' = (.ok ((s.set.members.map fun r => calign (G r) (outerR A.nrows y)).map .real), s'') ∧
      s.NowAttached env s'' A := by
  obtain ⟨s'', e, h⟩ := mapEach_inv (I := fun s' => s.NowAttached env s' A) (f := alignScoreOne env ((List.ofFn y).map .real) {})
    (g := fun r => F.real (calign (G r) (outerR A.nrows y))) s.set.members (fun r hr s1 h1 => by
      obtain ⟨s2, e2, h2⟩ := h1.full hops hr (hG r hr)
      refine ⟨s2, ?_, h2⟩
      show (SetSt.onHeap (Heap.full env r) >>= _ : PyM (SetSt K X) F) s1 = _
      rw [bind_ok e2]
      show (alignmentCenteredAny (storedArg (.dense, Mat.ofReal (G r))) (.arr (idealKernel ((List.ofFn y).map .real))) (.value 0) false, s2) = _
      rw [idealKernel_real]
      rw [show NdArg.arr (Mat.ofReal (outerR A.nrows y)) = storedArg (.dense, Mat.ofReal (outerR A.nrows y)) from rfl,
        alignMetric_real (by decide) (by decide)]) s' ha
  refine ⟨s'', ?_, h⟩
  show mapEach s'.set.members _ s' = _
  rw [ha.1, List.map_map]
  exact e

/-- the scores before scaling -/
theorem cvRanking_run (hops : env.ops = realOps) {s s' : SetSt K X} {A : Arr2 X} (ha : s.NowAttached env s' A) {cv : CVScore} {p : MethodParams}
    (hp : p.zeroDiv = none ∧ p.centeredAlready = none ∧ p.other = false) {e : Est} (he : getEstimator (some (p.estimatorName.getD "SVM")) = .ok e)
    {G : Nat → Matrix (Fin A.nrows) (Fin A.nrows) ℝ} (hG : ∀ r ∈ s.set.members, s.heap.KernelOn env r A (G r)) {sc : Nat → F}
    (hsc : ∀ r ∈ s.set.members, cv e (p.numFolds.getD 3) (.dense, Mat.ofReal (G r)) = .ok (sc r)) {scaled : List F}
    (hmm : minMaxScale (s.set.members.map sc) = .ok scaled) :
    ∃ s'', cvRanking env cv p s' = (.ok (scaled.map (.real 100 * ·)), s'') ∧ s.NowAttached env s'' A := by
  obtain ⟨s'', e', h⟩ := mapEach_inv (I := fun s' => s.NowAttached env s' A) (f := cvScoreOne env cv p)
    (g := sc) s.set.members (fun r hr s1 h1 => by
      obtain ⟨s2, e2, h2⟩ := h1.full hops hr (hG r hr)
      refine ⟨s2, ?_, h2⟩
      show (lift (getEstimator (some (p.estimatorName.getD "SVM"))) >>= _ : PyM (SetSt K X) F) s1 = _
      rw [he]
      show (SetSt.onHeap (Heap.full env r) >>= _ : PyM (SetSt K X) F) s1 = _
      rw [bind_ok e2]
      show (cv e (p.numFolds.getD 3) (.dense, Mat.ofReal (G r)), s2) = _
      rw [hsc r hr]) s' ha
  refine ⟨s'', ?_, h⟩
  show (raiseIf (p.zeroDiv.isSome || p.centeredAlready.isSome || p.other) .typeError >>= _ : PyM (SetSt K X) (List F)) s' = _
  rw [hp.1, hp.2.1, hp.2.2]
  show (mapEach s'.set.members (cvScoreOne env cv p) >>= _ : PyM (SetSt K X) (List F)) s' = _
  rw [ha.1, bind_ok e']
  show (lift (minMaxScale (s.set.members.map sc)) >>= _ : PyM (SetSt K X) (List F)) s'' = _
  rw [hmm]
  rfl

/-! ### the members stay the same -/

/-- the computation does not change which members the set has -/
def SameMembers {α : Type} (m : PyM (SetSt K X) α) : Prop := ∀ s, (m s).2.set.members = s.set.members

theorem SameMembers.bind {α β : Type} {m : PyM (SetSt K X) α} {f : α → PyM (SetSt K X) β} (h1 : SameMembers m) (h2 : ∀ a, SameMembers (f a)) : SameMembers (m >>= f) := by
  intro s
  have := h1 s
  rcases e : m s with ⟨_ | a, s'⟩
  · rw [bind_error e]; rw [e] at this; exact this
  · rw [bind_ok e]; rw [e] at this; exact (h2 a s').trans this

theorem sameMembers_lift {α : Type} (x : Except PyErr α) : SameMembers (lift x : PyM (SetSt K X) α) := fun _ => rfl
theorem sameMembers_pure {α : Type} (x : α) : SameMembers (pure x : PyM (SetSt K X) α) := fun _ => rfl
theorem sameMembers_onHeap {α : Type} (m : PyM (Heap K X) α) : SameMembers (SetSt.onHeap m) := fun _ => rfl
theorem sameMembers_raiseIf (b : Bool) (e : PyErr) : SameMembers (raiseIf b e : PyM (SetSt K X) Unit) := by
  intro s; cases b <;> rfl

theorem SameMembers.forEach {ι : Type} {l : List ι} {f : ι → PyM (SetSt K X) Unit} (h : ∀ x, SameMembers (f x)) : SameMembers (PyM.forEach l f) := by
  induction l with
  | nil => exact fun _ => rfl
  | cons x l ih => exact (h x).bind fun _ => ih

theorem SameMembers.mapEach {ι β : Type} {l : List ι} {f : ι → PyM (SetSt K X) β} (h : ∀ x, SameMembers (f x)) : SameMembers (PyM.mapEach l f) := by
  induction l with
  | nil => exact fun _ => rfl
  | cons x l ih => exact (h x).bind fun _ => ih.bind fun _ => sameMembers_pure _

theorem sameMembers_attach (sample : SetSample X) : SameMembers (SetSt.attach sample none : PyM (SetSt K X) Unit) := by
  refine (sameMembers_lift _).bind fun n => ?_
  intro s
  refine SameMembers.bind (sameMembers_raiseIf _ _) (fun _ => SameMembers.bind (m := SetSt.modSet _) (fun _ => rfl) fun _ =>
    SameMembers.bind (.forEach fun _ => sameMembers_onHeap _) fun _ => sameMembers_pure _) s

theorem sameMembers_rank (cv : CVScore) (targets : List F) (method : String) (p : MethodParams) :
    SameMembers (rankKernels env cv targets method p) := by
  refine (sameMembers_raiseIf _ _).bind fun _ => ?_
  by_cases h : method.toLower = "align/corr"
  · rw [if_pos h]
    exact fun s => SameMembers.mapEach (l := s.set.members)
      (fun r => (sameMembers_onHeap _).bind fun _ => (sameMembers_raiseIf _ _).bind fun _ => sameMembers_lift _) s
  · rw [if_neg h]
    refine (sameMembers_raiseIf _ _).bind fun _ => fun s => ?_
    exact SameMembers.bind (SameMembers.mapEach (l := s.set.members) (f := cvScoreOne env cv p)
      (fun r => (sameMembers_lift _).bind fun _ => (sameMembers_onHeap _).bind fun _ => sameMembers_lift _))
      (fun _ => (sameMembers_lift _).bind fun _ => sameMembers_pure _) s

end KMethods
