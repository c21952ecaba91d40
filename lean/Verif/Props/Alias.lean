import Verif.Lemmas.Alias
import Verif.Lemmas.Access
import Verif.Spec.Demo
/-!
# C69: arrays shared with the caller
-/
namespace KMethods
open KMState IndexSpec
variable {K X V : Type}

/-- **C69, partial (1)**: whatever the caller writes into the matrices it got from the object, and whatever else is called, `km[S, T]` not selecting the whole
matrix raises or returns exactly the kernel values (as C01). Missing: writes into the samples, and the whole matrix (there the code is wrong: `C69_violated_…`). -/
theorem C69_element_access_partial {env : Env K X V} {k : K} {norm : Bool} {a : Attachment X} {s : KMState K X V}
    (h : SinceW env k norm a CallerWrite.Matrices s) {S T : Idx} (hw : ¬ WholeKey a.nrows a.ncols (.pair S T)) {out : KMOut V}
    (hok : (exec env (.getItem (.pair S T)) s).1 = .ok out) :
    ∃ rows cols, IsSelection a.nrows S rows ∧ IsSelection a.ncols T cols ∧ out = .mat .dense (a.sub (env.kval k) rows cols) := by
  rw [← h.reachable.kernel.1]
  exact getItem_attached h.attachedTo hw hok

/-- the caller fills the result of `full` with zeros; `km[2, 0]` is still `k(x₀, x₂)` -/
example : SinceW Demo.env () false Demo.one CallerWrite.Matrices ((run Demo.env [.full] (Demo.st1 false)).write (.full fun _ _ => 0)) ∧
    Demo.entries (exec Demo.env (.getItem (.pair (.int 2) (.int 0))) ((run Demo.env [.full] (Demo.st1 false)).write (.full fun _ _ => 0))).1 =
      some (.dense, [[13]]) :=
  ⟨.write _ (.call .full (.attached (.new 0) Demo.attaches_one rfl) rfl) trivial, by decide +kernel⟩

/-- **C69, partial (2)**: whatever the caller writes anywhere, including the samples, the kernel is still evaluated at most once per pair (as C02). -/
theorem C69_evaluated_at_most_once_partial {env : Env K X V} {k : K} {norm : Bool} {s : KMState K X V} (h : ReachableW env k norm s) :
    s.succ.Nodup ∧ s.numKerEval = s.succ.length ∧ s.cache.length = s.succ.length :=
  ⟨h.wf.nodup, h.wf.count, by rw [← h.wf.keys, List.length_map]⟩

/-- **C69, partial (3)**: once `km[S, T]` (not selecting the whole matrix) has returned a value, it returns the same value until the next `attach_to`, whatever
is called and whatever the caller writes into any of the arrays. -/
theorem C69_entries_are_remembered_partial {env : Env K X V} {k : K} {norm : Bool} {a : Attachment X} {s s1 s' : KMState K X V}
    (h : SinceW env k norm a (fun _ => True) s) {S T : Idx} (hw : ¬ WholeKey a.nrows a.ncols (.pair S T)) {out : KMOut V}
    (hok : exec env (.getItem (.pair S T)) s = (.ok out, s1)) (hl : LaterW env s1 s') :
    exec env (.getItem (.pair S T)) s' = (.ok out, s') := by
  have hk := h.keyed
  have hs1 : SinceW env k norm a (fun _ => True) s1 := by
    have := h.call (.getItem (.pair S T)) rfl
    rwa [hok] at this
  have hk1 := hs1.keyed
  obtain ⟨_, hsh, htw, hlook⟩ := hl.lookup hs1.reachable.wf
  rw [exec_getItem_run, getItem_run_pair hk.shape] at hok
  rw [exec_getItem_run, getItem_run_pair (hsh.trans hk1.shape)]
  rcases h1 : getIndicesInSample (some (a.nrows, a.ncols)) S false with e | one
  · rw [h1] at hok; simp [Except.map] at hok
  rcases h2 : getIndicesInSample (some (a.nrows, a.ncols)) T true with e | two
  · rw [h1, h2] at hok; simp [Except.map] at hok
  rw [h1, h2] at hok
  simp only at hok ⊢
  rcases hb : (one.2 && two.2)
  swap
  · exact absurd (whole_of_flags h1 h2 hb) hw
  rw [hb] at hok
  simp only [Bool.false_eq_true, if_false] at hok ⊢
  unfold computeForIndexCombinations at hok ⊢
  rw [PyM.bind_run] at hok ⊢
  rcases hm : PyM.mapEach (one.1.flatMap fun i => two.1.map fun j => (i, j)) (fun p => evalKernel env p.1 p.2) s with ⟨e | vs, t⟩
  · rw [hm] at hok; simp [Except.map] at hok
  rw [hm] at hok
  have ht : t = s1 := congrArg Prod.snd hok
  subst ht
  rw [mapEach_again _ (by rw [hk.two]; simp) hm (htw.trans (hk1.two.trans hk.two.symm)) hlook]
  exact Prod.ext (show _ = Except.ok out from (Prod.ext_iff.1 hok).1) rfl

/-- `km[0, 1]` is computed, then the caller overwrites the sample and `full` is called: `km[0, 1]` is still the value for the old sample -/
example : let w : CallerWrite Int Int := .samples (fun i => i + 5) (fun i => i + 5)
    let s1 := run Demo.env [.getItem (.pair (.int 0) (.int 1))] (Demo.st1 false)
    LaterW Demo.env s1 (run Demo.env [.full] (s1.write w)) ∧
    Demo.entries (exec Demo.env (.getItem (.pair (.int 0) (.int 1))) (run Demo.env [.full] (s1.write w))).1 = some (.dense, [[12]]) :=
  ⟨.call .full (.write _ .refl) rfl, by decide +kernel⟩

/-- **C69, partial (4)**: after any writes into any of the arrays, a new `attach_to` behaves as on a new object (as C12). -/
theorem C69_reattach_is_fresh_partial {env : Env K X V} {k : K} {norm : Bool} {s : KMState K X V} (h : ReachableW env k norm s)
    {one : SampleIn X} {two : Option (SampleIn X)} {a : Attachment X} (ha : Attaches one two a) (ops : List (KMOp X)) :
    trace env (.attach one two :: ops) s = trace env (.attach one two :: ops) (init k norm s.clock) := by
  have hof := (ofArgs_iff one two a).2 ha
  have h1 := exec_attach_run (env := env) one two s
  have h2 := exec_attach_run (env := env) one two (init k norm s.clock : KMState K X V)
  rw [attach_ok one two _ a hof] at h1 h2
  show _ :: _ = _ :: _
  rw [h1, h2, h.kernel.1, h.kernel.2]
  congr 1
  exact Alike.trace env (s := attachedState k norm a s.clock none) (s' := attachedState k norm a s.clock s.centeredKm)
    ⟨s.centeredKm, rfl, fun h => by simp [attachedState] at h⟩ ops

/-- after `full`, `centered` and writes into all arrays -/
example : ReachableW Demo.env () false
    ((((run Demo.env [.attach Demo.argA none, .full, .centered] (init () false 0)).write (.samples (fun _ => 0) fun _ => 0)).write (.full fun _ _ => 5)).write
      (.centered fun _ _ => 6)) :=
  .write _ (.write _ (.write _ (.call _ (.call _ (.call _ (.new 0))))))

/-- **C69, partial (5)**: after `full` has returned, the caller may overwrite the samples: no later call up to the next `attach_to` gives a different result. For two
samples this needs `normalized=True`, because otherwise a later `normalize` evaluates the kernel on the samples again. Missing: the other two-sample case, and
kernels interrupted by failures. -/
theorem C69_samples_unused_after_full_partial {env : Env K X V} {k : K} {norm : Bool} {a : Attachment X} {P : KMOp X → Prop} {s s1 : KMState K X V}
    (h : SinceClean env k norm a P s) (hone : a.two = none ∨ norm = true) {out : KMOut V} (hr : exec env .full s = (.ok out, s1))
    (l : List (Step X V)) (hl : ∀ x ∈ l, x.SamplesOnly) : traceW env l s1 = trace env (Step.calls l) s1 :=
  traceW_settled l hl (settled_after_full h hone hr) (Or.inl rfl)

/-- for two samples and `normalized=False` the condition is needed: `full`, then the first sample is overwritten, then `normalize` evaluates the kernel of the new rows with
themselves. Demonstrated with a kernel failing on large arguments: without the write `normalize` succeeds, with it, it raises. -/
example : let env : Env Unit Int Int := { Demo.env with fails := fun _ _ x _ => decide (x > 40) }
    let s := run env [.attach Demo.argA (some Demo.argB), .full] (init () false 0)
    (traceW env [.write (.samples (fun _ => 41) (fun i => i + 7)), .call (.normalize "cosine")] s).map Except.isOk = [false] ∧
    (trace env [.normalize "cosine"] s).map Except.isOk = [true] := by decide +kernel

/-- `full`, then the caller overwrites the sample, then `diagonal`, `centered`, `km[0, 1]`, `full` -/
example : let l : List (Step Int Int) := [.write (.samples (fun _ => 0) fun _ => 0), .call .diagonal, .call .centered, .call (.getItem (.pair (.int 0) (.int 1))), .call .full]
    (∀ x ∈ l, x.SamplesOnly) ∧ (traceW Demo.env l (run Demo.env [.full] (Demo.st1 false))).map Demo.entries =
      [none, some (.dense, [[11, 12, 13], [12, 22, 23], [13, 23, 33]]), some (.dense, [[12]]), some (.dense, [[11, 12, 13], [12, 22, 23], [13, 23, 33]])] := by
  refine ⟨?_, by decide +kernel⟩
  intro x hx
  simp only [List.mem_cons, List.not_mem_nil, or_false] at hx
  rcases hx with rfl | rfl | rfl | rfl | rfl <;> trivial

/-- **C69, partial (6)**: the array that `full` returned (with `normalized=False`, in dense format) is not changed by the object any more until the next `attach_to`:
the attribute keeps its contents, so what the caller holds stays the kernel matrix it was. Missing: the sparse matrix returned by `full_sparse` (`C69_violated_sparse_result`). -/
theorem C69_returned_matrix_stays_partial {env : Env K X V} {k : K} {a : Attachment X} {P : KMOp X → Prop} {s s1 : KMState K X V}
    (h : SinceClean env k false a P s) {A : Mat V} (hr : exec env .full s = (.ok (.mat .dense A), s1)) :
    ∃ f : Full V, A = Mat.ofCells a.nrows a.ncols f.cell ∧ ∀ ops : List (KMOp X), (∀ op ∈ ops, op.isAttach = false) → (run env ops s1).fullKm = some f := by
  obtain ⟨f, hf, hA, h1, h2, h3⟩ := complete_after_full h hr
  refine ⟨f, hA, fun ops hops => ?_⟩
  have : ∀ (ops : List (KMOp X)) (t : KMState K X V), (∀ op ∈ ops, op.isAttach = false) → (t.populated = true ∧ t.lowerFilled = true ∧ t.fullKm = some f) →
      (run env ops t).fullKm = some f := by
    intro ops
    induction ops with
    | nil => exact fun t _ h => h.2.2
    | cons op ops ih =>
      exact fun t ho h => ih _ (fun o hm => ho o (List.mem_cons_of_mem _ hm)) ((complete_leaf env f hf).exec op (ho op List.mem_cons_self) h)
  exact this ops s1 hops ⟨h1, h2, h3⟩

/-- `full` followed by `full_sparse`, `km[:, :]` and `centered` -/
example : (run Demo.env [.fullSparse, .getItem (.pair (.slice none none none) (.slice none none none)), .centered] (run Demo.env [.full] (Demo.st1 false))).fullKm.map
    (fun f => (f.fmt, (List.range 3).map fun i => (List.range 3).map fun j => f.cell i j)) = some (.dense, [[11, 12, 13], [12, 22, 23], [13, 23, 33]]) ∧
    SinceClean Demo.env () false Demo.one (fun _ => True) (Demo.st1 false) := ⟨by decide +kernel, .attached (.new 0) Demo.attaches_one rfl⟩

/-- **C69 is violated (1).** The full statement would be: what a kernel matrix returns is determined by the samples it was given in `attach_to` and by the calls. But the
samples are not copied: if one element has been accessed and the caller then overwrites the array, `full` returns a matrix that is not the kernel matrix of any sample. -/
theorem C69_violated_samples_not_copied : ∃ (w : CallerWrite Int Int) (M : List (List Int)), w.Possible Demo.one ∧
    (traceW Demo.env [.call (.getItem (.pair (.int 0) (.int 0))), .write w, .call .full] (Demo.st1 false)).map Demo.entries =
      [some (.dense, [[11]]), some (.dense, M)] ∧
    ∀ A : Arr2 Int, Demo.entries (.ok (.mat .dense ((⟨A, none⟩ : Attachment Int).gram (Demo.kval ())))) ≠ some (.dense, M) := by
  refine ⟨.samples (fun i => i + 5) (fun i => i + 5), [[11, 56, 57], [56, 66, 67], [57, 67, 77]], fun _ => rfl, by decide +kernel, ?_⟩
  rintro ⟨n, c, x⟩ h
  obtain rfl : n = 3 := by
    have := congrArg (fun r => r.map fun q => q.2.length) h
    simpa [Demo.entries, Attachment.gram, Attachment.nrows, Mat.ofCells] using this
  have h0 := congrArg (fun r => r.map fun q => (q.2.getD 0 []).getD 0 0) h
  have h1 := congrArg (fun r => r.map fun q => (q.2.getD 0 []).getD 1 0) h
  have h2 := congrArg (fun r => r.map fun q => (q.2.getD 1 []).getD 1 0) h
  simp [Demo.entries, Attachment.gram, Attachment.nrows, Attachment.ncols, Mat.ofCells, Attachment.entry, Demo.kval] at h0 h1 h2
  omega

/-- **C69 is violated (2).** The results of `full`, `normed_km` and `centered` are the object's own attributes: after the caller has changed such a result in place, the next call
returns the changed matrix, while `km[0, 1]` is still the kernel value. -/
theorem C69_violated_results_not_copied :
    (traceW Demo.env [.call .full, .write (.full fun _ _ => 0), .call .full, .call (.getItem (.pair (.int 0) (.int 1))), .call .centered] (Demo.st1 false)).map Demo.entries =
      [some (.dense, [[11, 12, 13], [12, 22, 23], [13, 23, 33]]), some (.dense, [[0, 0, 0], [0, 0, 0], [0, 0, 0]]), some (.dense, [[12]]),
        some (.dense, [[0, 0, 0], [0, 0, 0], [0, 0, 0]])] ∧
    (traceW Demo.env [.call .normedKm, .write (.normed fun _ _ => 0), .call .normedKm] (Demo.st1 false)).map Demo.entries =
      [some (.dense, [[11, 12, 13], [12, 22, 23], [13, 23, 33]]), some (.dense, [[0, 0, 0], [0, 0, 0], [0, 0, 0]])] ∧
    (traceW Demo.env [.call .centered, .write (.centered fun _ _ => 0), .call .centered] (Demo.st1 false)).map Demo.entries =
      [some (.dense, [[11, 12, 13], [12, 22, 23], [13, 23, 33]]), some (.dense, [[0, 0, 0], [0, 0, 0], [0, 0, 0]])] := by
  decide +kernel

/-- **C69 is violated (3).** The other way round: the sparse matrix returned by `full_sparse` is changed by the object itself. `km[:, :]` mirrors the upper triangle within that matrix
(base.py:741) and does not allocate another one: the attribute, still in sparse format, now has other contents. -/
theorem C69_violated_sparse_result :
    let cells : KMState Unit Int Int → Option (Fmt × List (List Int)) := fun s => s.fullKm.map fun f => (f.fmt, (List.range 3).map fun i => (List.range 3).map fun j => f.cell i j)
    let s := run Demo.env [.fullSparse] (Demo.st1 false)
    Demo.entries (exec Demo.env .fullSparse (Demo.st1 false)).1 = cells s ∧ cells s = some (.sparse, [[11, 12, 13], [0, 22, 23], [0, 0, 33]]) ∧
    cells (run Demo.env [.getItem (.pair (.slice none none none) (.slice none none none))] s) = some (.sparse, [[11, 12, 13], [12, 22, 23], [13, 23, 33]]) := by
  decide +kernel

end KMethods
