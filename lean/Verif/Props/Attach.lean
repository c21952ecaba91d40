import Verif.Lemmas.Fresh
import Verif.Lemmas.Unattached
import Verif.Lemmas.Attrs
import Verif.Spec.Demo
/-!
# C12-C15, C17: attaching, attributes, bookkeeping
-/
namespace KMethods
open KMState
variable {K X V : Type}

/-- **C12** Attaching an object with any history (including failures) to valid samples succeeds, and from then on every
sequence of calls gives exactly the results it gives on a newly constructed object (constructed at the same moment, so that it meets
the same kernel failures) attached to the same samples. -/
theorem C12_reattach_is_fresh {env : Env K X V} {k : K} {norm : Bool} {s : KMState K X V} (h : Reachable env k norm s)
    {one : SampleIn X} {two : Option (SampleIn X)} {a : Attachment X} (ha : Attaches one two a) (ops : List (KMOp X)) :
    (exec env (.attach one two) s).1 = .ok .none ∧
    trace env (.attach one two :: ops) s = trace env (.attach one two :: ops) (init k norm s.clock) := by
  have hof := (ofArgs_iff one two a).2 ha
  have h1 := exec_attach_run (env := env) one two s
  have h2 := exec_attach_run (env := env) one two (init k norm s.clock : KMState K X V)
  rw [attach_ok one two _ a hof] at h1 h2
  refine ⟨by rw [h1]; rfl, ?_⟩
  show _ :: _ = _ :: _
  rw [h1, h2, h.kernel.1, h.kernel.2]
  congr 1
  exact Alike.trace env (s := attachedState k norm a s.clock none) (s' := attachedState k norm a s.clock s.centeredKm)
    ⟨s.centeredKm, rfl, fun h => by simp [attachedState] at h⟩ ops

/-- an object attached to other samples, with attributes set, and left after a failed computation -/
example : Reachable (Demo.faulty 2) () false
      (run (Demo.faulty 2) [.attach Demo.argB none, .setAttr "a" "b", .centered, .full] (init () false 0)) ∧
    Attaches Demo.argA (some Demo.argB) Demo.two :=
  ⟨.call _ (.call _ (.call _ (.call _ (.new 0)))), Demo.attaches_two⟩

/-- **C13 is violated.** The full statement would be: if `attach_to` raises, every later sequence of calls gives the results it would
have given before the call. Here an object attached to `1, 2, 3` is given two samples with differing numbers of columns: `attach_to`
raises `ValueError`, but from then on `km[0, 1]` is a kernel value of the rejected samples. -/
theorem C13_violated : ¬ ∀ (K X V : Type) (env : Env K X V) (k : K) (norm : Bool) (s : KMState K X V)
    (one : SampleIn X) (two : Option (SampleIn X)) (e : PyErr), Reachable env k norm s →
    (exec env (.attach one two) s).1 = .error e →
    ∀ ops, trace env ops (exec env (.attach one two) s).2 = trace env ops s := by
  intro h
  have := h _ _ _ Demo.env () false (Demo.st1 false) (.arr [2, 1] fun i => i + 50) (some (.arr [2, 2] fun i => i + 50))
    .valueError (.call _ (.new 0)) rfl [.getItem (.pair (.int 0) (.int 1))]
  have := congrArg (List.map Demo.entries) this
  revert this
  decide +kernel

/-- **C13, partial (1)**: if the first sample is not acceptable (or lacks a dtype), `attach_to` raises and changes nothing.
Missing: an unacceptable second sample (there the code is wrong, `C13_violated`). -/
theorem C13_bad_first_sample_partial {env : Env K X V} (s : KMState K X V) {one : SampleIn X} (two : Option (SampleIn X))
    (h : ¬ ∃ A, one.IsArray A) :
    ∃ e, exec env (.attach one two) s = (.error e, s) ∧ (e = .valueError ∨ e = .attributeError) := by
  have hno : ∀ A, one.to2D ≠ .ok A := fun A hA => h ⟨A, (to2D_iff one A).1 hA⟩
  rw [exec_attach_run]
  unfold attach
  rcases h1 : one.to2D with e | A
  · refine ⟨e, rfl, ?_⟩
    cases one with
    | noDtype => simp [SampleIn.to2D] at h1; exact Or.inr h1.symm
    | arr sh row =>
      simp only [SampleIn.to2D] at h1
      rcases h2 : ensureShape2D sh with e' | p
      · rw [h2] at h1
        have : e' = e := by injection h1
        subst this
        exact Or.inl (ensureShape2D_error _ _ h2)
      · rw [h2] at h1; injection h1
  · exact absurd h1 (hno A)

/-- **C13, partial (2)**: whatever is wrong with the samples, the rejected `attach_to` changes neither the attributes nor
shape, number of samples and size. Missing: matrix contents. -/
theorem C13_bookkeeping_partial {env : Env K X V} (s : KMState K X V) {one : SampleIn X} {two : Option (SampleIn X)}
    (h : ¬ ∃ a, Attaches one two a) {op : KMOp X}
    (hop : op = .attributes ∨ op = .numSamples ∨ op = .shape ∨ op = .size ∨ ∃ n d, op = .getAttr n d) :
    (exec env (.attach one two) s).1 ≠ .ok .none ∧
    (exec env op (exec env (.attach one two) s).2).1 = (exec env op s).1 := by
  rcases hof : Attachment.ofArgs one two with e | a
  · obtain ⟨x, y, he⟩ := attach_error_state one two s e hof
    rw [exec_attach_run, attach_error one two s e hof, he]
    refine ⟨fun h => (by cases h), ?_⟩
    rcases hop with rfl | rfl | rfl | rfl | ⟨n, d, rfl⟩
    · rfl
    · rfl
    · rw [exec_shape_run, exec_shape_run]
    · unfold exec
      rw [(exec_state _).2, (exec_state _).2]
      congr 1
      unfold size
      rw [PyM.bind_run, PyM.bind_run, PyM.getAttr_run, PyM.getAttr_run]
      simp only
      rcases s.twoSamples with _ | b
      · rfl
      · simp only [PyM.get_bind_run]
        cases b <;> rcases s.numSamples with _ | _ | _ <;> rfl
    · rfl
  · exact absurd ⟨a, (ofArgs_iff _ _ _).1 hof⟩ h

/-- a 3-D array is no sample; neither is a pair of samples with different numbers of columns -/
example : (¬ ∃ A, (SampleIn.arr [2, 2, 2] (fun _ => (0 : Int))).IsArray A) ∧
    ¬ ∃ a, Attaches Demo.argA (some (.arr [2, 2] fun _ => (0 : Int))) a := by
  refine ⟨?_, ?_⟩
  · rintro ⟨A, hA⟩
    have := (to2D_iff _ _).2 hA
    have h2 : (SampleIn.arr [2, 2, 2] (fun _ => (0 : Int))).to2D = .error .valueError := rfl
    rw [h2] at this; cases this
  · rintro ⟨a, ha⟩
    have := (ofArgs_iff _ _ _).2 ha
    have h2 : Attachment.ofArgs Demo.argA (some (.arr [2, 2] fun _ => (0 : Int))) = .error .valueError := rfl
    rw [h2] at this; cases this

/-- **C14** `get_attr(name, default)` after any history of calls returns the value last set for that name since the last successful
`attach_to` (or the construction), else the default. `lastValue` ignores all other calls: they do not change attributes. -/
theorem C14_attributes {env : Env K X V} (k : K) (norm : Bool) (t : Nat) (history : List (KMOp X)) (name default : String) :
    (exec env (.getAttr name default) (run env history (init k norm t))).1 =
      .ok (.str ((lastValue name history.reverse).getD default)) := by
  have := (attrs_run (env := env) name history.reverse k norm t).2
  rw [List.reverse_reverse] at this
  rw [← this]
  rfl

/-- set twice, another name in between, then a computation, then an `attach_to` that is rejected -/
example : lastValue "a" [KMOp.attach (SampleIn.noDtype : SampleIn Int) none, .full, .setAttr "a" "2", .setAttr "b" "x", .setAttr "a" "1"] =
    some "2" := by
  simp only [lastValue]
  rw [if_neg]
  · rfl
  · rintro ⟨a, ⟨k, h⟩, _⟩; cases h

/-- **C15** Attached to two samples: centering and the diagonal are refused and nothing changes, after every history. -/
theorem C15_two_sample_restrictions {env : Env K X V} {k : K} {norm : Bool} {A B : Arr2 X} {s : KMState K X V}
    (h : SinceAny env k norm ⟨A, some B⟩ s) :
    exec env .center s = (.error .notImplemented, s) ∧ exec env .centered s = (.error .kmAccess, s) ∧
    exec env .diagonal s = (.error .kmAccess, s) := by
  have h2 : s.twoSamples = some true := h.attachedTo.two
  refine ⟨PyM.bind_error ?_, PyM.bind_error ?_, PyM.bind_error ?_⟩
  · unfold center; rw [PyM.bind_ok (PyM.getAttr_run_some _ _ _ h2)]; rfl
  · unfold KMState.centered; rw [PyM.bind_ok (PyM.getAttr_run_some _ _ _ h2)]; rfl
  · unfold diagonal; rw [PyM.bind_ok (PyM.getAttr_run_some _ _ _ h2)]; rfl

example : SinceAny Demo.env () true ⟨Demo.A3, some Demo.B2⟩ (exec Demo.env .full (Demo.st2 true)).2 :=
  .call _ (Demo.since_two true _) rfl trivial

/-- **C17** Shape, number of samples and size are those of the attached sample, after every history. -/
theorem C17_bookkeeping_one {env : Env K X V} {k : K} {norm : Bool} {A : Arr2 X} {s : KMState K X V}
    (h : SinceAny env k norm ⟨A, none⟩ s) :
    exec env .shape s = (.ok (.shape A.nrows A.nrows), s) ∧ exec env .numSamples s = (.ok (.num (.one A.nrows)), s) ∧
    exec env .size s = (.ok (.nat (A.nrows * A.nrows)), s) := by
  have ha := h.attachedTo
  refine ⟨?_, ?_, ?_⟩
  · rw [exec_shape_run, ha.shape]; rfl
  · show (Except.ok (KMOut.num s.numSamples), s) = _
    rw [ha.num]
  · refine PyM.bind_ok (a := A.nrows * A.nrows) (s' := s) ?_
    unfold size
    rw [PyM.bind_ok (PyM.getAttr_run_some _ _ _ ha.two), PyM.get_bind_run, ha.num]
    simp [pow_two]

/-- **C17** two samples -/
theorem C17_bookkeeping_two {env : Env K X V} {k : K} {norm : Bool} {A B : Arr2 X} {s : KMState K X V}
    (h : SinceAny env k norm ⟨A, some B⟩ s) :
    exec env .shape s = (.ok (.shape A.nrows B.nrows), s) ∧
    exec env .numSamples s = (.ok (.num (.two A.nrows B.nrows)), s) ∧
    exec env .size s = (.ok (.nat (A.nrows * B.nrows)), s) := by
  have ha := h.attachedTo
  refine ⟨?_, ?_, ?_⟩
  · rw [exec_shape_run, ha.shape]; rfl
  · show (Except.ok (KMOut.num s.numSamples), s) = _
    rw [ha.num]
  · refine PyM.bind_ok (a := A.nrows * B.nrows) (s' := s) ?_
    unfold size
    rw [PyM.bind_ok (PyM.getAttr_run_some _ _ _ ha.two), PyM.get_bind_run, ha.num]
    simp

/-- **C17** As long as no `attach_to` has succeeded, every call that looks at the contents of the matrix raises
(`AttributeError`, `ValueError` or `KMAccessError`) and changes nothing. -/
theorem C17_unattached {env : Env K X V} {k : K} {norm : Bool} {s : KMState K X V} (h : NeverAttached env k norm s)
    (op : KMOp X) (hop : op.isContent = true) :
    ∃ e, exec env op s = (.error e, s) ∧ (e = .attributeError ∨ e = .valueError ∨ e = .kmAccess) :=
  exec_unattached h.unattached op hop

example : SinceAny (Demo.faulty 1) () false Demo.one (exec (Demo.faulty 1) .full (Demo.stF 1)).2 ∧
    NeverAttached Demo.env () false (exec Demo.env (.attach (SampleIn.noDtype : SampleIn Int) none) (init () false 0)).2 := by
  refine ⟨.call _ (Demo.since_faulty 1 _) rfl trivial, .call _ (.new 0) ?_⟩
  rintro one two h ⟨a, ⟨k, hk⟩, _⟩
  injection h with h _
  rw [← h] at hk; cases hk

end KMethods
