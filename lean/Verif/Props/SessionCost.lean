import Verif.Props.SessionHeap
import Verif.Props.Count
import Verif.Props.Cost
/-!
# C111: in programs, kernel values are computed once for all users of a kernel matrix

Sets, composite kernels, rankings and so on that share a kernel matrix share the values it has computed.
-/
namespace KMethods
open PyM KMState IndexSpec
variable {K X : Type} {env : Env K X F}

/-- **C111** Since a kernel matrix was attached, no pair of samples has been evaluated twice, whatever the program has done in between besides attaching: the pairs are distinct, `num_ker_eval` is their number, and there is one stored value for each. For
a single sample of `n` rows these are at most `n(n+1)/2`. -/
theorem C111_once (l₀ l : List (POp K X)) {v : Nat} {t : KMState K X F} {k : K} {norm : Bool} {a : Attachment X} (h : (ProgSt.run env l₀ .empty).2.obj v = some (.km t)) (ht : SinceAny env k norm a t)
    (hl : ∀ op ∈ l, ∀ o, op.MayCall o → o.isAttach = false) :
    ∃ t', (ProgSt.run env l (ProgSt.run env l₀ .empty).2).2.obj v = some (.km t') ∧ t'.succ.Nodup ∧ t'.numKerEval = t'.succ.length ∧ t'.cache.length = t'.succ.length ∧ t.succ <:+ t'.succ ∧
      t'.numKerEval ≤ a.nrows * a.ncols ∧ (a.two = none → 2 * t'.numKerEval ≤ a.nrows * (a.nrows + 1)) := by
  obtain ⟨ops, ho, hr⟩ := C109_calls l₀ l h
  have hna : ∀ o ∈ ops, o.isAttach = false := fun o hm => by
    rcases ho o hm with h' | ⟨op, hop, h'⟩
    · cases o <;> first | rfl | exact h'.elim
    · exact hl op hop o h'
  obtain ⟨h1, h2, h3, h4, h5⟩ := C02_evaluated_at_most_once (since_runs ht ops fun o hm => ⟨hna o hm, trivial⟩)
  refine ⟨_, hr, h1, h2, h3, ?_, h4, fun e => (h5 e).2⟩
  clear hr ho h1 h2 h3 h4 h5 h
  induction ops generalizing t with
  | nil => exact List.suffix_rfl
  | cons o l ih =>
    obtain ⟨new, e, -⟩ := C02_evaluations_only_accumulate ht o (hna o List.mem_cons_self)
    exact List.IsSuffix.trans ⟨new, e.symm⟩ (ih (ht.call o (hna o List.mem_cons_self) trivial) fun o ho => hna o (List.mem_cons_of_mem _ ho))

/-- **C111** After `full` on a kernel matrix attached to a single sample, the program evaluates its kernel on no further pair, unless it attaches again. -/
theorem C111_nothing_after_full (l₀ l : List (POp K X)) {v : Nat} {t : KMState K X F} {k : K} {norm : Bool} {A : Arr2 X} (h : (ProgSt.run env l₀ .empty).2.obj v = some (.km t)) (ht : SinceAny env k norm ⟨A, none⟩ t)
    (hf : NoFaultsOn env k ⟨A, none⟩) (hl : ∀ op ∈ l, ∀ o, op.MayCall o → o.isAttach = false) :
    ∃ t₁ t₂, (ProgSt.exec env (.km v .full) (ProgSt.run env l₀ .empty).2).2.obj v = some (.km t₁) ∧ (ProgSt.run env (l₀ ++ .km v .full :: l) .empty).2.obj v = some (.km t₂) ∧
      t₂.succ = t₁.succ ∧ 2 * t₁.numKerEval = A.nrows * (A.nrows + 1) := by
  have h1 := exec_km_state (env := env) h .full
  obtain ⟨ops, ho, hr⟩ := C109_calls (l₀ ++ [.km v .full]) l (by rw [run_snoc]; exact h1)
  refine ⟨_, _, h1, ?_, C02_nothing_after_full hf ht ops fun o hm => ?_, (C02_full_evaluates_all hf ht).2⟩
  · rw [show l₀ ++ .km v .full :: l = (l₀ ++ [.km v .full]) ++ l by simp, run_app]
    exact hr
  · rcases ho o hm with h' | ⟨op, hop, h'⟩
    · cases o <;> first | rfl | exact h'.elim
    · exact hl op hop o h'

/-- **C111** Counting each call of the kernel function, also those for normalising: a program that attaches a kernel matrix to a single sample of `n` rows, and then does anything (`l`) but attach again, has called its kernel at most
`n(n+1)/2` times since; exactly so often if `full` is called on it. -/
theorem C111_cost (l₀ l : List (POp K X)) {v : Nat} {t t₁ : KMState K X F} {k : K} {norm : Bool} {A : Arr2 X} {one : SampleIn X} (h : (ProgSt.run env l₀ .empty).2.obj v = some (.km t)) (hr : Reachable env k norm t)
    (hat : Attaches one none ⟨A, none⟩) (hok : KMState.exec env (.attach one none) t = (.ok .none, t₁)) (hf : NoFaultsOn env k ⟨A, none⟩) (hl : ∀ op ∈ l, ∀ o, op.MayCall o → o.isAttach = false) :
    ∃ t' c, (ProgSt.run env (l₀ ++ .km v (.attach one none) :: l) .empty).2.obj v = some (.km t') ∧ t'.clock = t.clock + c ∧ 2 * c ≤ A.nrows * (A.nrows + 1) ∧
      (.km v .full ∈ l → 2 * c = A.nrows * (A.nrows + 1)) := by
  have h1 := exec_km_state (env := env) h (.attach one none)
  rw [hok, ← run_snoc] at h1
  have hna : ∀ {l' : List (POp K X)} {ops : List (KMOp X)}, l' ⊆ l → (∀ o ∈ ops, o.Basic ∨ ∃ op ∈ l', op.MayCall o) → ∀ o ∈ ops, o.isAttach = false := fun hs ho o hm => by
    rcases ho o hm with h' | ⟨op, hop, h'⟩
    · cases o <;> first | rfl | exact h'.elim
    · exact hl op (hs hop) o h'
  have e : ∀ l : List (POp K X), l₀ ++ .km v (.attach one none) :: l = (l₀ ++ [.km v (.attach one none)]) ++ l := fun l => by simp
  by_cases hfull : .km v .full ∈ l
  · obtain ⟨l₁, l₂, rfl⟩ := List.append_of_mem hfull
    obtain ⟨ops₁, ho₁, hr₁⟩ := C109_calls _ l₁ h1
    rw [← run_app] at hr₁
    have h2 := exec_km_state (env := env) hr₁ .full
    rw [← run_snoc] at h2
    obtain ⟨ops₂, ho₂, hr₂⟩ := C109_calls _ l₂ h2
    rw [← run_app] at hr₂
    have e3 : KMState.run env ops₂ (KMState.exec env .full (KMState.run env ops₁ t₁)).2 = KMState.run env (ops₁ ++ .full :: ops₂) t₁ := by
      simp [KMState.run, List.foldl_append]
    rw [e3] at hr₂
    obtain ⟨c, hc1, hc2, hc3⟩ := C85_one_sample hat hf hr hok (ops₁ ++ .full :: ops₂) fun o hm => by
      rcases List.mem_append.1 hm with hm | hm
      · exact hna (by simp) ho₁ o hm
      · rcases List.mem_cons.1 hm with rfl | hm
        · rfl
        · exact hna (fun x hx => by simp [hx]) ho₂ o hm
    refine ⟨_, c, ?_, hc1, hc2, fun _ => hc3 (by simp)⟩
    rw [show l₀ ++ .km v (.attach one none) :: (l₁ ++ .km v .full :: l₂) = l₀ ++ [.km v (.attach one none)] ++ l₁ ++ [.km v .full] ++ l₂ by simp]
    exact hr₂
  · obtain ⟨ops, ho, hr'⟩ := C109_calls _ l h1
    obtain ⟨c, hc1, hc2, -⟩ := C85_one_sample hat hf hr hok ops (hna (fun _ h => h) ho)
    refine ⟨_, c, ?_, hc1, hc2, fun h => absurd h hfull⟩
    rw [e, run_app]
    exact hr'

/-- **C111** For members of sets: a program does anything (`l₀`), attaches the set number `i` to a sample `A` of `n` rows, and does anything (`l`) but attach again. Then each member has evaluated at most `n(n+1)/2` pairs, none twice, however many sets and
composite kernels use it, and exactly `n(n+1)/2` once `full` is called on it. -/
theorem C111_attach (l₀ l : List (POp K X)) {A : Arr2 X} {i v r : Nat} {t : KSet} {u : KMState K X F} (ht : (ProgSt.run env l₀ .empty).2.loc.sets[i]? = some t)
    (hn : t.numSamples = .unset ∨ t.numSamples = .one A.nrows) (hm : ∀ r ∈ t.members, ∃ u, (ProgSt.run env l₀ .empty).2.heap.objs r = some (.km u))
    (hv : (ProgSt.run env l₀ .empty).2.loc.vars[v]? = some r) (hr : r ∈ t.members) (hu : (ProgSt.run env l₀ .empty).2.heap.objs r = some (.km u))
    (hf : NoFaultsOn env u.kernel ⟨A, none⟩) (hl : ∀ op ∈ l, ∀ o, op.MayCall o → o.isAttach = false) :
    ∃ t' t'', (ProgSt.run env (l₀ ++ .attach i (sampleArg A) none :: l) .empty).2.obj v = some (.km t') ∧ t'.succ.Nodup ∧ t'.numKerEval = t'.succ.length ∧ 2 * t'.numKerEval ≤ A.nrows * (A.nrows + 1) ∧
      (ProgSt.run env (l₀ ++ .attach i (sampleArg A) none :: (l ++ [.km v .full])) .empty).2.obj v = some (.km t'') ∧ t''.succ.Nodup ∧ 2 * t''.numKerEval = A.nrows * (A.nrows + 1) := by
  obtain ⟨-, h1⟩ := C109_attach (A := A) l₀ ht hn hm
  obtain ⟨u', h2, h3⟩ := h1 r hr u hu
  have h3 : SinceAny env u.kernel u.keepNormed ⟨A, none⟩ u' := Since.mono (fun _ _ => trivial) h3
  have h4 : (ProgSt.run env (l₀ ++ [.attach i (sampleArg A) none]) .empty).2.obj v = some (.km u') := by
    rw [run_snoc]
    exact Option.bind_eq_some_iff.2 ⟨r, prefix_get (after_run (P := fun _ => True) (fun _ _ => trivial) (ok_run (env := env) l₀) [.attach i (sampleArg A) none] fun _ _ _ _ => trivial).2 hv, h2⟩
  obtain ⟨t', h5, h6⟩ := C109_since _ l h4 h3 (fun _ _ => trivial) fun op hop o ho => ⟨hl op hop o ho, trivial⟩
  rw [← run_app] at h5
  have h7 := exec_km_state (env := env) h5 .full
  rw [← run_snoc] at h7
  obtain ⟨a1, a2, -, -, a5⟩ := C02_evaluated_at_most_once h6
  refine ⟨t', _, ?_, a1, a2, (a5 rfl).2, ?_, (C02_evaluated_at_most_once (h6.call .full rfl trivial)).1, (C02_full_evaluates_all hf h6).2⟩
  · rw [List.append_cons]
    exact h5
  · rw [List.append_cons, ← List.append_assoc]
    exact h7

/-- **C111** With several programs running in turns it is enough that this one does not attach: the steps of the others neither evaluate the kernel for it again nor clear what it has computed. -/
theorem C111_session (l₀ l : List (Nat × POp K X)) {i v : Nat} {t : KMState K X F} {k : K} {norm : Bool} {a : Attachment X} (h : ((Session.run env l₀ .empty).2.prog i).obj v = some (.km t)) (ht : SinceAny env k norm a t)
    (hl : ∀ op, (i, op) ∈ l → ∀ o, op.MayCall o → o.isAttach = false) :
    ∃ t', ((Session.run env (l₀ ++ l) .empty).2.prog i).obj v = some (.km t') ∧ t'.succ.Nodup ∧ t'.numKerEval = t'.succ.length ∧ t'.cache.length = t'.succ.length ∧ t.succ <:+ t'.succ ∧
      ((∀ op, (i, op) ∉ l) → t' = t) := by
  rw [C81_objects] at h
  have e : Session.stepsOf i (l₀ ++ l) = Session.stepsOf i l₀ ++ Session.stepsOf i l := by simp [Session.stepsOf]
  obtain ⟨t', h1, h2, h3, h4, h5, -⟩ := C111_once _ (Session.stepsOf i l) h ht fun op hop o ho => by
    obtain ⟨⟨j, q⟩, hq, rfl⟩ := List.mem_map.1 hop
    obtain ⟨hm, hj⟩ := List.mem_filter.1 hq
    obtain rfl : j = i := by simpa using hj
    exact hl q hm o ho
  refine ⟨t', ?_, h2, h3, h4, h5, fun hn => ?_⟩
  · rw [C81_objects, e, run_app]
    exact h1
  · have e0 : Session.stepsOf i l = [] := by
      refine List.map_eq_nil_iff.2 (List.filter_eq_nil_iff.2 fun x hx hi => ?_)
      obtain rfl : x.1 = i := by simpa using hi
      exact hn x.2 hx
    rw [e0] at h1
    have h1 : (ProgSt.run env (Session.stepsOf i l₀) .empty).2.obj v = some (.km t') := h1
    rw [h] at h1
    exact (Obj.km.inj (Option.some.inj h1)).symm

/-- after a fit of the composite kernel, a refit, a similarity and so on, the first kernel matrix of `prog82` has evaluated no pair twice -/
example : ∃ t', (ProgSt.run Demo.renv Demo.prog109 (ProgSt.run Demo.renv Demo.prog82 .empty).2).2.obj 0 = some (.km t') ∧ t'.succ.Nodup ∧ 2 * t'.numKerEval ≤ 3 * (3 + 1) := by
  obtain ⟨t', h1, h2, -, -, -, -, h3⟩ := C111_once _ _ Demo.obj109 (Since.mono (fun _ _ => trivial) (Demo.since_rst false fun _ => True)) fun op hop o ho => (Demo.prog109_calls op hop o ho).1
  exact ⟨t', h1, h2, h3 rfl⟩

/-- and if `full` is called before, none of these steps evaluates anything -/
example : ∃ t₁ t₂, (ProgSt.exec Demo.renv (.km 0 .full) (ProgSt.run Demo.renv Demo.prog82 .empty).2).2.obj 0 = some (.km t₁) ∧
    (ProgSt.run Demo.renv (Demo.prog82 ++ .km 0 .full :: Demo.prog109) .empty).2.obj 0 = some (.km t₂) ∧ t₂.succ = t₁.succ ∧ 2 * t₁.numKerEval = 3 * (3 + 1) :=
  C111_nothing_after_full _ _ Demo.obj109 (Since.mono (fun _ _ => trivial) (Demo.since_rst false fun _ => True)) (fun _ _ _ _ _ => rfl) fun op hop o ho => (Demo.prog109_calls op hop o ho).1

/-- attached to another sample of three rows, and used in all these ways and by `full`, it calls its kernel six times -/
example : ∃ t' c, (ProgSt.run Demo.renv (Demo.prog82 ++ .km 0 (.attach (.arr [3, 1] fun i => (i : ℝ) * 5) none) :: (Demo.prog109 ++ [.km 0 .full])) .empty).2.obj 0 = some (.km t') ∧
    t'.clock = (Demo.rst false).clock + c ∧ 2 * c = 3 * (3 + 1) := by
  obtain ⟨t', c, h1, h2, -, h3⟩ := C111_cost (A := ⟨3, 1, fun i => (i : ℝ) * 5⟩) Demo.prog82 (Demo.prog109 ++ [.km 0 .full]) Demo.obj109 (Demo.since_rst false fun _ => True).reachable
    ⟨⟨0, rfl⟩, trivial⟩ rfl (fun _ _ _ _ _ => rfl) fun op hop o ho => by
      rcases List.mem_append.1 hop with hop | hop
      · exact (Demo.prog109_calls op hop o ho).1
      · rw [List.mem_singleton.1 hop] at ho
        cases ho
        rfl
  exact ⟨t', c, h1, h2, h3 (by simp)⟩

/-- two programs running `prog82` in turns, one of them goes on with `prog109`: the first kernel matrix of the other stays as it is -/
example : ∃ t', ((Session.run Demo.renv (Demo.twice ++ Demo.prog109.map fun op => (1, op)) .empty).2.prog 0).obj 0 = some (.km t') ∧ t' = Demo.rst false := by
  obtain ⟨t', h1, -, -, -, -, h2⟩ := C111_session (i := 0) Demo.twice (Demo.prog109.map fun op => (1, op)) (by rw [C81_objects]; exact Demo.obj109)
    (Since.mono (fun _ _ => trivial) (Demo.since_rst false fun _ => True)) fun op hop => by simp at hop
  exact ⟨t', h1, h2 fun op hop => by simp at hop⟩

/-- the set of `prog82`, which contains its first kernel matrix twice, attached to another sample and used in all these ways -/
example : ∃ t' t'', (ProgSt.run Demo.renv (Demo.prog82 ++ .attach 0 (sampleArg ⟨3, 1, fun i => (i : ℝ) * 5⟩) none :: Demo.prog109) .empty).2.obj 0 = some (.km t') ∧ t'.succ.Nodup ∧ t'.numKerEval = t'.succ.length ∧
    2 * t'.numKerEval ≤ 3 * (3 + 1) ∧
    (ProgSt.run Demo.renv (Demo.prog82 ++ .attach 0 (sampleArg ⟨3, 1, fun i => (i : ℝ) * 5⟩) none :: (Demo.prog109 ++ [.km 0 .full])) .empty).2.obj 0 = some (.km t'') ∧ t''.succ.Nodup ∧ 2 * t''.numKerEval = 3 * (3 + 1) :=
  C111_attach (A := ⟨3, 1, fun i => (i : ℝ) * 5⟩) (t := ⟨[0, 1, 0], .one 3, true⟩) (r := 0) (u := Demo.rst false) Demo.prog82 Demo.prog109 rfl (.inr rfl)
    (fun r hr => ⟨Demo.rst false, by
      have hr2 : r < 2 := by simp at hr; omega
      rcases r with _ | _ | r
      exacts [rfl, rfl, by omega]⟩)
    rfl (by simp) rfl (fun _ _ _ _ _ => rfl) fun op hop o ho => (Demo.prog109_calls op hop o ho).1

end KMethods
