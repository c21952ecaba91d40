import Verif.Lemmas.ThreadsSettled
import Verif.Lemmas.ThreadsRun
import Verif.Lemmas.Operations
import Verif.Spec.Demo
/-!
# C73: several threads using one kernel matrix

The documentation advertises "parallel computation of different part of the KM". Parts can be computed by several threads at once, the matrix as a whole
cannot.
-/
namespace KMethods
open KMState Shared
variable {K X V : Type}

/-- **C73, partial (1)**: a single thread behaves as the sequential model, whatever state it starts in. -/
theorem C73_single_thread_partial {env : Env K X V} {s : KMState K X V} {ops : List (KMOp X)} {l : List Nat} {rs : List (Except PyErr (KMOut V))}
    (h : ((sharedBy env s [ops]).schedule l).progs[0]? = some (.done (.ok rs))) :
    rs = trace env ops s ∧ ((sharedBy env s [ops]).schedule l).state.flat = run env ops s :=
  single_thread h

/-- the calls `km[0, 1]`, `full` and `diagonal` made by one thread -/
example : let ops : List (KMOp Int) := [.getItem (.pair (.int 0) (.int 1)), .full, .diagonal]
    (((sharedBy Demo.env (Demo.st1 false) [ops]).schedule (List.replicate 200 0)).progs.map Prog.finished).map (Option.map List.length) = [some 3] := by decide +kernel

/-- **C73, partial (2)**: the threads do not block each other: if every thread gets its turn again and again, all of them finish, with one outcome per
call. -/
theorem C73_threads_finish_partial {env : Env K X V} {k : K} {norm : Bool} {a : Attachment X} {s : KMState K X V} (h : SinceAny env k norm a s)
    {calls : List (List (KMOp X))} (hc : NoAttach calls) {f : Nat → Nat} (hf : ∀ i, i < calls.length → ∀ n, ∃ m, n ≤ m ∧ f m = i) :
    ∃ n, ∀ n', n ≤ n' → ∀ (i : Nat) (ops : List (KMOp X)), calls[i]? = some ops → ∃ rs : List (Except PyErr (KMOut V)), rs.length = ops.length ∧
      ((sharedBy env s calls).schedule ((List.range n').map f)).progs[i]? = some (.done (.ok rs)) :=
  threads_finish h hc hf

/-- two threads that take turns -/
example : NoAttach (X := Int) [[.full], [.getItem (.pair (.int 0) (.int 1)), .diagonal]] ∧ SinceAny Demo.env () false Demo.one (Demo.st1 false) ∧
    ∀ i, i < 2 → ∀ n, ∃ m, n ≤ m ∧ (fun n => n % 2) m = i := by
  refine ⟨by simp [NoAttach, KMOp.isAttach], Demo.since_one false _, fun i hi n => ⟨2 * n + i, by omega, ?_⟩⟩
  show (2 * n + i) % 2 = i
  omega

open IndexSpec in
/-- **C73, partial (3)**: after any earlier calls on the object, any number of threads may use it at the same time in any way other than `attach_to`: whatever the
order of their steps, `km[S, T]`, unless it selects all rows and columns, returns exactly the kernel values of the selected rows and columns; it raises only for
an invalid key or because the kernel function raised. -/
theorem C73_elements_partial {env : Env K X V} {k : K} {norm : Bool} {a : Attachment X} {s : KMState K X V} (h : SinceAny env k norm a s)
    {calls : List (List (KMOp X))} (hc : NoAttach calls) {l : List Nat} {i n : Nat} {S T : Idx} {r : Except PyErr (KMOut V)} (hw : ¬ WholeKey a.nrows a.ncols (.pair S T))
    (ho : Outcome calls ((sharedBy env s calls).schedule l) i n (.getItem (.pair S T)) r) :
    match r with
    | .ok o => ∃ rows cols, IsSelection a.nrows S rows ∧ IsSelection a.ncols T cols ∧ o = .mat .dense (a.sub (env.kval k) rows cols)
    | .error e => (e = .valueError ∧ (ZeroStep S ∨ ZeroStep T)) ∨ (e = .kmAccess ∧ (Invalid a.nrows S ∨ Invalid a.ncols T)) ∨ (e = .kernelFault ∧ HasFault env a k) := by
  have h1 := shared_outcome h hc ho
  rcases r with e | o
  · rcases h1 with h1 | h1 | h1 | ⟨h1, _⟩
    · exact .inl h1
    · exact .inr (.inl h1)
    · exact .inr (.inr h1)
    · exact (hw h1).elim
  · obtain ⟨f, A, rfl, ⟨h2, _⟩ | ⟨_, rows, cols, h3, h4, h5⟩⟩ := h1
    · exact (hw h2).elim
    · injection h5 with h5 h6
      subst h5; subst h6
      exact ⟨rows, cols, h3, h4, rfl⟩

/-- while thread 0 computes the whole matrix and has filled one cell, thread 1 reads `km[1:, [2, 0]]` -/
example : let calls : List (List (KMOp Int)) := [[.full], [.getItem (.pair (.slice (some 1) none none) (.iter [.int 2, .int 0]))]]
    let c := (sharedBy Demo.env (Demo.st1 false) calls).schedule (List.replicate 16 0 ++ List.replicate 100 1)
    NoAttach calls ∧ c.progs.map (fun p => p.finished.map (List.map Demo.entries)) = [none, some [some (.dense, [[12, 23], [13, 33]])]] := by
  exact ⟨by simp [NoAttach, KMOp.isAttach], by decide +kernel⟩

/-- **C73, partial (4)**: in the same situation `diagonal()` returns exactly the kernel values of the rows with themselves. -/
theorem C73_diagonal_partial {env : Env K X V} {k : K} {norm : Bool} {a : Attachment X} {s : KMState K X V} (h : SinceAny env k norm a s)
    {calls : List (List (KMOp X))} (hc : NoAttach calls) {l : List Nat} {i n : Nat} {r : Except PyErr (KMOut V)}
    (ho : Outcome calls ((sharedBy env s calls).schedule l) i n .diagonal r) :
    match r with
    | .ok o => a.two = none ∧ o = .vec (a.one.selfs (env.kval k))
    | .error e => (e = .kmAccess ∧ a.two.isSome = true) ∨ (e = .kernelFault ∧ HasFault env a k) := by
  have h1 := shared_outcome h hc ho
  rcases r with e | o
  · exact h1
  · exact h1

/-- `diagonal` while another thread has filled one cell -/
example : let calls : List (List (KMOp Int)) := [[.full], [.diagonal]]
    let c := (sharedBy Demo.env (Demo.st1 false) calls).schedule (List.replicate 16 0 ++ List.replicate 100 1)
    c.progs.map (fun p => p.finished.map (List.map Demo.vector)) = [none, some [some [11, 22, 33]]] := by
  decide +kernel

/-- **C73, partial (5)**: in the same situation the kernel function is evaluated (successfully) for each pair of rows at most once per thread, and not at all if
the value was in the memo when the threads started. -/
theorem C73_evaluations_partial {env : Env K X V} {k : K} {norm : Bool} {a : Attachment X} {s : KMState K X V} (h : SinceAny env k norm a s)
    {calls : List (List (KMOp X))} (hc : NoAttach calls) (l : List Nat) (p : Nat × Nat) :
    ((sharedBy env s calls).schedule l).state.km.succ.count p ≤ s.succ.count p + (if (s.cache.lookup p).isSome then 0 else calls.length) :=
  (shared_schedule h hc l p).2.1

/-- two threads that ask for the same element at the same time do evaluate the kernel twice -/
example : let calls : List (List (KMOp Int)) := [[.getItem (.pair (.int 0) (.int 1))], [.getItem (.pair (.int 0) (.int 1))]]
    let c := (sharedBy Demo.env (Demo.st1 false) calls).schedule (List.replicate 6 0 ++ List.replicate 100 1 ++ List.replicate 100 0)
    c.state.km.succ.count (0, 1) = 2 ∧ c.progs.map (fun p => p.finished.map (List.map Demo.entries)) = [some [some (.dense, [[12]])], some [some (.dense, [[12]])]] :=
  ⟨by decide +kernel, by decide +kernel⟩

/-- **C73, partial (6)** (weaker than intended: see `C73_violated_full`): in the same situation and with `normalized=False`, `full` returns a matrix of the right shape, no cell
of which has a wrong value: each holds the kernel value of its rows or has not been written. It raises only if the kernel function raised, or could not be formatted in the
warning about non-finite values. -/
theorem C73_full_partial {env : Env K X V} {k : K} {a : Attachment X} {s : KMState K X V} (h : SinceAny env k false a s)
    {calls : List (List (KMOp X))} (hc : NoAttach calls) {l : List Nat} {i n : Nat} {r : Except PyErr (KMOut V)} {op : KMOp X} (hop : op = .full ∨ op = .fullSparse)
    (ho : Outcome calls ((sharedBy env s calls).schedule l) i n op r) :
    match r with
    | .ok o => ∃ f c, o = .mat f (Mat.ofCells a.nrows a.ncols c) ∧ ∀ i j, c i j = a.entry (env.kval k) i j ∨ c i j = env.ops.nan ∨ c i j = env.ops.zero
    | .error e => (e = .runtimeError ∧ HasFault env a k) ∨ (e = .typeError ∧ env.fmtRaises k = true) := by
  have h1 := shared_outcome h hc ho
  rcases hop with rfl | rfl <;> rcases r with e | o
  · exact h1 rfl
  · obtain ⟨f, A, rfl, c, rfl, h2⟩ := h1 rfl
    exact ⟨f, c, rfl, h2⟩
  · exact h1 rfl
  · obtain ⟨f, A, rfl, c, rfl, h2⟩ := h1 rfl
    exact ⟨f, c, rfl, h2⟩

/-- an execution in which `full` succeeds in both threads: thread 1 starts when thread 0 has finished -/
example : let c := (sharedBy Demo.env (Demo.st1 false) [[.full], [.fullSparse]]).schedule (List.replicate 200 0 ++ List.replicate 200 1)
    c.progs.map (fun p => p.finished.map (List.map Demo.entries)) =
      [some [some (.dense, [[11, 12, 13], [12, 22, 23], [13, 23, 33]])], some [some (.dense, [[11, 12, 13], [12, 22, 23], [13, 23, 33]])]] := by
  decide +kernel

/-- **C73, partial (7)** (weaker than intended, as above): the same for `km[S, T]` where the key selects all rows and columns, which computes the whole matrix; here `normalized` does
not matter. -/
theorem C73_whole_key_partial {env : Env K X V} {k : K} {norm : Bool} {a : Attachment X} {s : KMState K X V} (h : SinceAny env k norm a s)
    {calls : List (List (KMOp X))} (hc : NoAttach calls) {l : List Nat} {i n : Nat} {S T : Idx} {o : KMOut V} (hw : WholeKey a.nrows a.ncols (.pair S T))
    (ho : Outcome calls ((sharedBy env s calls).schedule l) i n (.getItem (.pair S T)) (.ok o)) :
    ∃ f c, o = .mat f (Mat.ofCells a.nrows a.ncols c) ∧ ∀ i j, c i j = a.entry (env.kval k) i j ∨ c i j = env.ops.nan ∨ c i j = env.ops.zero := by
  obtain ⟨f, A, rfl, ⟨_, c, h2, h3⟩ | ⟨h2, _⟩⟩ := shared_outcome h hc ho
  · exact ⟨f, c, by rw [← h2], h3⟩
  · exact (h2 hw).elim

/-- thread 1 reads `km[:, :]` while thread 0 has filled one cell -/
example : let calls : List (List (KMOp Int)) := [[.full], [.getItem (.pair (.slice none none none) (.slice none none none))]]
    let c := (sharedBy Demo.env (Demo.st1 false) calls).schedule (List.replicate 16 0 ++ List.replicate 100 1)
    NoAttach calls ∧ c.progs.map (fun p => p.finished.map (List.map Demo.entries)) = [none, some [some (.dense, [[11, -1, -1], [-1, -1, -1], [-1, -1, -1]])]] := by
  exact ⟨by simp [NoAttach, KMOp.isAttach], by decide +kernel⟩

/-- **C73, partial (8)**: once one call of `full` has returned, the object can be shared without restriction: whatever calls other than `attach_to` the threads make and whatever
the order of their steps, every call returns or raises exactly what it would have if it had been the next one in the sequential program. Missing: calls that
observe the effect of others by design (`get_attr`, `attributes`, unsupported normalisation methods), objects kept in sparse storage, and kernel functions that raise. -/
theorem C73_after_full_partial {env : Env K X V} {k : K} {norm : Bool} {a : Attachment X} {s0 s : KMState K X V} (hf : NoFaultsOn env k a)
    (h : SinceDense env k norm a s0) {o : KMOut V} (hfull : exec env .full s0 = (.ok o, s)) (hops : OpsOk env.ops) (hq : Quiet env k a) (hqn : QuietNormed env k a)
    {calls : List (List (KMOp X))} (hc : NoAttach calls) {l : List Nat} {i n : Nat} {op : KMOp X} {r : Except PyErr (KMOut V)}
    (ho : Outcome calls ((sharedBy env s calls).schedule l) i n op r) (hop : op.SetByOthers = false) : r = (exec env op s).1 :=
  settled_outcome hf h hfull hops hq hqn hc ho hop

/-- the numeric operations over the reals meet the hypotheses -/
example : OpsOk realOps := opsOk_real

/-- three threads after `full` -/
example : let calls : List (List (KMOp Int)) := [[.centered, .full], [.getItem (.pair (.int 2) (.int 0)), .frobNorm], [.normalize "cosine", .normedKm]]
    NoAttach calls ∧ (∀ ops ∈ calls, ∀ op ∈ ops, op.SetByOthers = false) ∧
    (((sharedBy Demo.env (run Demo.env [.full] (Demo.st1 false)) calls).schedule ((List.range 300).map (· % 3))).progs.map fun p => p.finished.map (List.map Demo.entries)) =
      [some [some (.dense, [[11, 12, 13], [12, 22, 23], [13, 23, 33]]), some (.dense, [[11, 12, 13], [12, 22, 23], [13, 23, 33]])], some [some (.dense, [[13]]), none],
        some [none, some (.dense, [[11, 12, 13], [12, 22, 23], [13, 23, 33]])]] := by
  exact ⟨by simp [NoAttach, KMOp.isAttach], by simp [KMOp.SetByOthers], by decide +kernel⟩

/-- **C73 is violated (1).** The full statement would be that `full` called by several threads at once returns the kernel matrix to each. But the array is assigned to
`self._full_km` before it is filled, and its existence is what other threads look at: if thread 1 calls `full` while thread 0 is at work, thread 1 returns a matrix of
which one cell is filled (NaN is the value `-1` of this instance), thread 0 returns a matrix without its lower triangle because thread 1 has declared it
filled, and every later `full` returns the latter. -/
theorem C73_violated_full : ∃ l : List Nat,
    let c := (sharedBy Demo.env (Demo.st1 false) [[.full], [.full]]).schedule l
    c.progs.map (fun p => p.finished.map (List.map Demo.entries)) =
      [some [some (.dense, [[11, 12, 13], [-1, 22, 23], [-1, -1, 33]])], some [some (.dense, [[11, -1, -1], [-1, -1, -1], [-1, -1, -1]])]] ∧
    Demo.entries (exec Demo.env .full c.state.flat).1 = some (.dense, [[11, 12, 13], [-1, 22, 23], [-1, -1, 33]]) ∧
    Demo.entries (exec Demo.env .full (Demo.st1 false)).1 = some (.dense, [[11, 12, 13], [12, 22, 23], [13, 23, 33]]) :=
  ⟨List.replicate 16 0 ++ List.replicate 200 1 ++ List.replicate 200 0, by decide +kernel, by decide +kernel, by decide +kernel⟩

/-- **C73 is violated (2).** The counter `_num_ker_eval` loses increments: after two threads have asked for two elements, the kernel has been evaluated twice and the counter says
once. -/
theorem C73_violated_counter : ∃ l : List Nat,
    let c := (sharedBy Demo.env (Demo.st1 false) [[.getItem (.pair (.int 0) (.int 1))], [.getItem (.pair (.int 1) (.int 2))]]).schedule l
    c.progs.map (fun p => p.finished.map (List.map Demo.entries)) = [some [some (.dense, [[12]])], some [some (.dense, [[23]])]] ∧
    c.state.km.succ.length = 2 ∧ c.state.km.numKerEval = 1 :=
  ⟨List.replicate 8 0 ++ List.replicate 200 1 ++ List.replicate 200 0, by decide +kernel, by decide +kernel, by decide +kernel⟩

end KMethods
