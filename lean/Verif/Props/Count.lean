import Verif.Lemmas.Count
import Verif.Props.Access
import Verif.Lemmas.Ranking
import Verif.Spec.Demo
/-!
# C02: how often the kernel has been evaluated when the matrix is complete
-/
namespace KMethods
open KMState
variable {K X V : Type} {env : Env K X V} {k : K} {norm : Bool}

/-- **C02** One sample, a kernel that does not raise: whatever was called before, after `full` (also if it raised `KMNormError`) the kernel has been evaluated on every
unordered pair of samples exactly once, `n (n + 1) / 2` evaluations. -/
theorem C02_full_evaluates_all {A : Arr2 X} (hf : NoFaultsOn env k ⟨A, none⟩) {s : KMState K X V} (h : SinceAny env k norm ⟨A, none⟩ s) :
    (∀ i j, i ≤ j → j < A.nrows → (exec env .full s).2.succ.count (i, j) = 1) ∧
    2 * (exec env .full s).2.numKerEval = A.nrows * (A.nrows + 1) := by
  have h' : SinceAny env k norm ⟨A, none⟩ (exec env .full s).2 := .call .full h rfl trivial
  have hp : (exec env .full s).2.populated = true := by
    rw [h.exec_faultless hf rfl]
    exact populated_full (noFaults_faultless env) (h.goodOnAny hf)
  have hc := h'.counted
  obtain ⟨h1, h2, _, _, h4⟩ := C02_evaluated_at_most_once h'
  have hwf := h'.reachable.wf
  generalize (exec env .full s).2 = s' at *
  have hmem : ∀ i j, i ≤ j → j < A.nrows → (i, j) ∈ s'.succ := fun i j hij hj => by
    have := hc.pop hp i j (lt_of_le_of_lt hij hj) hj hij
    by_contra hn
    rw [← hwf.keys] at hn
    rw [Memo, not_mem_lookup_none _ _ hn] at this
    cases this
  refine ⟨fun i j hij hj => List.count_eq_one_of_mem h1 (hmem i j hij hj), le_antisymm (h4 rfl).2 ?_⟩
  rw [h2]
  exact length_ge_of_upper hmem

/-- **C02** Two samples of sizes `n` and `m`, a kernel that does not raise: after any calls not requesting sparse storage and `full`, the kernel has been evaluated on
every pair exactly once, `n m` evaluations. -/
theorem C02_full_evaluates_all_two {A B : Arr2 X} (hf : NoFaultsOn env k ⟨A, some B⟩) {s : KMState K X V} (h : SinceDense env k norm ⟨A, some B⟩ s) :
    (∀ i j, i < A.nrows → j < B.nrows → (exec env .full s).2.succ.count (i, j) = 1) ∧
    (exec env .full s).2.numKerEval = A.nrows * B.nrows := by
  have h' : SinceDense env k norm ⟨A, some B⟩ (exec env .full s).2 := .call .full h rfl (by simp [KMOp.MayGoSparse])
  have hp : (exec env .full s).2.populated = true := by
    rw [h.exec_faultless hf rfl]
    exact populated_full (noFaults_faultless env) (h.goodOnAny hf)
  have hg := h'.goodOnDense hf
  have hc := h'.counted
  obtain ⟨h1, h2, _, h3, _⟩ := C02_evaluated_at_most_once (k := k) (norm := norm) (Since.mono (fun _ _ => trivial) h')
  have hwf := h'.reachable.wf
  generalize (exec env .full s).2 = s' at *
  have hlow : s'.lowerFilled = true := by
    rcases hg.full with ⟨_, e, _⟩ | ⟨f, _, _, _, e4, e5, _⟩
    · rw [e] at hp; cases hp
    · exact e5 (e4 rfl)
  have hmem : ∀ i j, i < A.nrows → j < B.nrows → (i, j) ∈ s'.succ := fun i j hi hj => by
    have : Memo s' (i, j) := by
      rcases le_or_gt i j with hij | hij
      · exact hc.pop hp i j hi hj hij
      · exact hc.low hlow rfl i j hi hj hij
    by_contra hn
    rw [← hwf.keys] at hn
    rw [Memo, not_mem_lookup_none _ _ hn] at this
    cases this
  refine ⟨fun i j hi hj => List.count_eq_one_of_mem h1 (hmem i j hi hj), le_antisymm h3 ?_⟩
  rw [h2]
  exact length_ge_of_range hmem

/-- **C02** From then on no call (other than `attach_to`) evaluates the kernel for the object again. -/
theorem C02_nothing_after_full {A : Arr2 X} (hf : NoFaultsOn env k ⟨A, none⟩) {s : KMState K X V} (h : SinceAny env k norm ⟨A, none⟩ s)
    (ops : List (KMOp X)) (hops : ∀ op ∈ ops, op.isAttach = false) :
    (run env ops (exec env .full s).2).succ = (exec env .full s).2.succ := by
  have h' : SinceAny env k norm ⟨A, none⟩ (exec env .full s).2 := .call .full h rfl trivial
  have hcount := (C02_full_evaluates_all hf h).2
  generalize (exec env .full s).2 = s' at *
  induction ops generalizing s' with
  | nil => rfl
  | cons op ops ih =>
    have h2 : SinceAny env k norm ⟨A, none⟩ (exec env op s').2 := .call op h' (hops op (by simp)) trivial
    obtain ⟨new, hnew, _⟩ := C02_evaluations_only_accumulate h' op (hops op (by simp))
    have hb := ((C02_evaluated_at_most_once h2).2.2.2.2 rfl).2
    have e1 := (C02_evaluated_at_most_once h2).2.1
    have e2 := (C02_evaluated_at_most_once h').2.1
    rw [hnew, List.length_append] at e1
    have hlen : new.length = 0 := by
      change 2 * _ ≤ A.nrows * (A.nrows + 1) at hb
      change 2 * _ = A.nrows * (A.nrows + 1) at hcount
      generalize A.nrows * (A.nrows + 1) = N at *
      omega
    rw [List.length_eq_zero_iff.1 hlen, List.nil_append] at hnew
    have hcount2 : 2 * (exec env op s').2.numKerEval = A.nrows * (A.nrows + 1) := by
      rw [e1, hlen, Nat.zero_add, ← e2]
      exact hcount
    rw [← hnew]
    exact ih (fun o ho => hops o (by simp [ho])) _ h2 hcount2

/-- three samples: after an element access and `diagonal()` four pairs are evaluated, after `full` all six; two samples of sizes 3 and 2: all six -/
example : SinceAny Demo.env () false Demo.one (run Demo.env [.getItem (.pair (.int 0) (.int 1)), .diagonal] (Demo.st1 false)) ∧
    NoFaultsOn Demo.env () Demo.one ∧ NoFaultsOn Demo.env () Demo.two ∧
    (run Demo.env [.getItem (.pair (.int 0) (.int 1)), .diagonal] (Demo.st1 false)).numKerEval = 4 ∧
    (run Demo.env [.getItem (.pair (.int 0) (.int 1)), .diagonal, .full] (Demo.st1 false)).numKerEval = 6 ∧
    (run Demo.env [.full] (Demo.st2 false)).numKerEval = 6 :=
  ⟨.call _ (.call _ (Demo.since_one false _) rfl trivial) rfl trivial, fun _ _ _ _ _ => rfl, fun _ _ _ _ _ => rfl,
    by decide +kernel, by decide +kernel, by decide +kernel⟩

end KMethods
