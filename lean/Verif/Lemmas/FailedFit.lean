import Verif.Lemmas.OptMachine
import Verif.Props.OptMachine
/-!
# Lemmas on machines that choose a kernel, after a `fit` that raised
-/
namespace KMethods
open PyM KMState
variable {K X M W P H : Type} {env : Env K X F}
namespace OptMachine

/-- without a model there are no predictions -/
theorem predict_no_model (L : SvmLearner H M W P) (checked : Except PyErr (Arr2 X)) (s : OptMachine K X H M) (h : s.model = none) : ∃ e, (predict env L checked s).1 = .error e := by
  obtain ⟨est, kb, me, hy, hp, bu, tx, ty, ok, mo⟩ := s
  obtain rfl : mo = none := h
  rcases ok with _ | r
  · exact ⟨_, rfl⟩
  rcases checked with e | B
  · exact ⟨e, rfl⟩
  rcases tx with _ | A
  · exact ⟨_, rfl⟩
  show ∃ e, ((onHeap (Heap.call r (KMState.attach (Machine.arg B) (some (Machine.arg A)))) >>= _ : PyM (OptMachine K X H M) P)
    (⟨est, kb, me, hy, hp, bu, some A, ty, some r, none⟩ : OptMachine K X H M)).1 = .error e
  rw [bind_run]
  unfold onHeap
  rcases Heap.call r (KMState.attach (Machine.arg B) (some (Machine.arg A))) hp with ⟨e | _, h1⟩
  · exact ⟨e, rfl⟩
  show ∃ e, ((onHeap (Heap.full env r) >>= _ : PyM (OptMachine K X H M) P) (⟨est, kb, me, hy, h1, bu, some A, ty, some r, none⟩ : OptMachine K X H M)).1 = .error e
  rw [bind_run]
  unfold onHeap
  dsimp only
  rcases Heap.full env r h1 with ⟨e | _, h2⟩
  · exact ⟨e, rfl⟩
  · exact ⟨_, rfl⟩

/-- predictions depend on the chosen kernel, the training data and the model only -/
theorem predict_same (L : SvmLearner H M W P) (checked : Except PyErr (Arr2 X)) {s s' : OptMachine K X H M} (hok : s.heap.Ok env) (h1 : s'.est = s.est) (h2 : s'.optKernel = s.optKernel)
    (h3 : s'.trainX = s.trainX) (h4 : s'.model = s.model) (h5 : ∀ r, s.optKernel = some r → s'.heap.objs r = s.heap.objs r) :
    (predict env L checked s').1 = (predict env L checked s).1 := by
  obtain ⟨est, kb, me, hy, hp, bu, tx, ty, ok, mo⟩ := s
  obtain ⟨est', kb', me', hy', hp', bu', tx', ty', ok', mo'⟩ := s'
  obtain rfl : est' = est := h1
  obtain rfl : ok' = ok := h2
  obtain rfl : tx' = tx := h3
  obtain rfl : mo' = mo := h4
  rcases ok' with _ | r
  · rfl
  rcases checked with e | B
  · rfl
  rcases tx' with _ | A
  · rfl
  have h5 : hp'.objs r = hp.objs r := h5 r rfl
  by_cases hr : ∃ t, hp.objs r = some (.km t)
  · obtain ⟨t, ht⟩ := hr
    obtain ⟨k, norm, hre⟩ := hok.2 r t ht
    obtain ⟨t1, -, e1⟩ := predict_run L (s := ⟨est', kb, me, hy, hp, bu, some A, ty, some r, mo'⟩) B rfl rfl ht hre
    obtain ⟨t2, -, e2⟩ := predict_run L (s := ⟨est', kb', me', hy', hp', bu', some A, ty', some r, mo'⟩) B rfl rfl (h5.trans ht) hre
    rw [e1, e2]
  · have key : ∀ (kb : BucketParam) (me : String) (hy : H) (hp : Heap K X) (bu : Option KSet) (ty : Option (List F)), (∀ t, hp.objs r ≠ some (.km t)) →
        (predict env L (.ok B) (⟨est', kb, me, hy, hp, bu, some A, ty, some r, mo'⟩ : OptMachine K X H M)).1 = .error .attributeError := by
      intro kb me hy hp bu ty h
      have e1 : onHeap (Heap.call r (KMState.attach (Machine.arg B) (some (Machine.arg A)))) (⟨est', kb, me, hy, hp, bu, some A, ty, some r, mo'⟩ : OptMachine K X H M) =
          (.error .attributeError, ⟨est', kb, me, hy, hp, bu, some A, ty, some r, mo'⟩) := by
        unfold onHeap
        rw [Heap.call_not_km _ h]
      show ((onHeap (Heap.call r (KMState.attach (Machine.arg B) (some (Machine.arg A)))) >>= _ : PyM (OptMachine K X H M) P)
        (⟨est', kb, me, hy, hp, bu, some A, ty, some r, mo'⟩ : OptMachine K X H M)).1 = _
      rw [bind_error e1]
    rw [key kb me hy hp bu ty fun t ht => hr ⟨t, ht⟩, key kb' me' hy' hp' bu' ty' fun t ht => hr ⟨t, h5.symm.trans ht⟩]

/-- the search changes objects and the bucket only -/
theorem searchKernel_state (cv : List F → CVScore) (A : Arr2 X) (y : List F) (s : OptMachine K X H M) : ∃ h' b, (searchKernel env cv A y s).2 = { s with heap := h', bucket := b } := by
  unfold searchKernel
  rw [get_bind_run]
  unfold onBucket
  rcases hb : s.bucket with _ | t
  · exact ⟨s.heap, s.bucket, rfl⟩
  · exact ⟨_, _, rfl⟩

/-- what remains if the search or what follows it raises -/
theorem fitOn_error (cv : List F → CVScore) (L : SvmLearner H M W P) (A : Arr2 X) (y : List F) (w : W) {s s' : OptMachine K X H M} {e : PyErr} (h : fitOn env cv L A y w s = (.error e, s')) :
    ∃ h' b o, s' = { s with heap := h', bucket := b, optKernel := o } := by
  obtain ⟨h1, b1, hs⟩ := searchKernel_state (env := env) cv A y s
  change (searchKernel env cv A y >>= _ : PyM (OptMachine K X H M) Unit) s = _ at h
  rcases hsk : searchKernel env cv A y s with ⟨e1 | r, s1⟩
  · rw [bind_error hsk] at h
    rw [hsk] at hs
    obtain rfl : s1 = s' := congrArg Prod.snd h
    exact ⟨h1, b1, s.optKernel, hs⟩
  · rw [bind_ok hsk] at h
    rw [hsk] at hs
    obtain rfl : s1 = _ := hs
    change (onHeap (Heap.full env r) >>= _ : PyM (OptMachine K X H M) Unit) { s with heap := h1, bucket := b1, optKernel := some r } = _ at h
    rw [bind_run] at h
    unfold onHeap at h
    dsimp only at h
    rcases hT : Heap.full env r h1 with ⟨e2 | T, h2⟩
    · rw [hT] at h
      exact ⟨h2, b1, some r, (congrArg Prod.snd h).symm⟩
    · rw [hT] at h
      change (lift (L.fit s.est svmKernel s.hyper T y w) >>= _ : PyM (OptMachine K X H M) Unit) { s with heap := h2, bucket := b1, optKernel := some r } = _ at h
      rcases hL : L.fit s.est svmKernel s.hyper T y w with e3 | m
      · rw [hL] at h
        exact ⟨h2, b1, some r, (congrArg Prod.snd h).symm⟩
      · rw [hL] at h
        cases congrArg Prod.fst h

/-- a `fit` that raises leaves the model as it was -/
theorem fit_error_model (mkB : String → PyM (Heap K X) Bucket) (cv : List F → CVScore) (L : SvmLearner H M W P) (checked : Except PyErr (Arr2 X × List F)) (w : W) {s s' : OptMachine K X H M} {e : PyErr}
    (h : fit env mkB cv L checked w s = (.error e, s')) : s'.model = s.model := by
  obtain ⟨h1, b1, hs⟩ := chooseBucket_method mkB s
  rw [fit_eq] at h
  rcases hc : chooseBucket mkB s with ⟨e1 | _, s1⟩
  all_goals
    rw [hc] at h hs
    obtain rfl : s1 = _ := hs
  · exact (congrArg (fun x : Except PyErr Unit × OptMachine K X H M => x.2.model) h).symm
  · rcases checked with e2 | ⟨A, y⟩
    · exact (congrArg (fun x : Except PyErr Unit × OptMachine K X H M => x.2.model) h).symm
    · obtain ⟨h2, b2, o, rfl⟩ := fitOn_error cv L A y w h
      rfl

/-- if the search raises, the chosen kernel is the old one, and the data are the new ones -/
theorem fitOn_search_error (cv : List F → CVScore) (L : SvmLearner H M W P) (A : Arr2 X) (y : List F) (w : W) {s : OptMachine K X H M} {t : KSet} (hb : s.bucket = some t)
    (h : ∃ e, (findOptimalKernel env (cv y) true (sampleArg A) y s.method { estimatorName := some s.est.name } ⟨s.heap, t⟩).1 = .error e) {U : Set Nat} (hU : ∀ r ∈ U, r < s.heap.next) (ht : ∀ r ∈ t.members, r ∉ U) :
    ∃ e h' b, fitOn env cv L A y w s = (.error e, { s with heap := h', bucket := b }) ∧ ∀ r ∈ U, h'.objs r = s.heap.objs r := by
  obtain ⟨e, he⟩ := h
  obtain ⟨k1, k2, k3⟩ := keepsSet_findOptimalKernel (env := env) (U := U) (cv y) true (sampleArg A) y s.method { estimatorName := some s.est.name } ⟨s.heap, t⟩ hU ht
  have e1 : searchKernel env cv A y s = onBucket (findOptimalKernel env (cv y) true (sampleArg A) y s.method { estimatorName := some s.est.name }) s := rfl
  rw [onBucket_run _ hb, he] at e1
  refine ⟨e, _, some (findOptimalKernel env (cv y) true (sampleArg A) y s.method { estimatorName := some s.est.name } ⟨s.heap, t⟩).2.set, ?_, k1⟩
  show (searchKernel env cv A y >>= _ : PyM (OptMachine K X H M) Unit) s = _
  rw [bind_error e1]

end OptMachine
end KMethods
