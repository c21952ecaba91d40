import Verif.Lemmas.SessionComp
import Verif.Props.Composite
/-!
# C81: programs do not influence each other. C82: composite kernels and later changes of their set

`Session.run` executes the steps of several programs, in any order, on one heap; `ProgSt.run` executes a single program on its own heap.
-/
namespace KMethods
open PyM
variable {K X : Type} {env : Env K X F} {P : Fmt → Prop}

/-! ## C81 -/

/-- **C81** Each program sees the same results and exceptions as if it ran alone, however the programs are interleaved. -/
theorem C81_isolation (env : Env K X F) (l : List (Nat × POp K X)) (i : Nat) :
    Session.seenBy i (Session.run env l .empty).1 = (ProgSt.run env (Session.stepsOf i l) .empty).1 :=
  (sessionInv_empty.run l).1 i

/-- **C81** Its variables stand for kernel matrix objects in the same state. -/
theorem C81_objects (env : Env K X F) (l : List (Nat × POp K X)) (i v : Nat) :
    ((Session.run env l .empty).2.prog i).obj v = (ProgSt.run env (Session.stepsOf i l) .empty).2.obj v := by
  obtain ⟨-, ρ, hE, -⟩ := (sessionInv_empty (K := K) (X := X).run (env := env) l).2
  have h := hE i
  show ((Session.run env l .empty).2.progs i).vars[v]?.bind (Session.run env l .empty).2.heap.objs = _
  rw [h.loc]
  show (List.map (ρ i) _)[v]?.bind _ = ((ProgSt.run env (Session.stepsOf i l) .empty).2.loc.vars[v]?).bind _
  rw [List.getElem?_map]
  rcases hv : (ProgSt.run env (Session.stepsOf i l) .empty).2.loc.vars[v]? with _ | r
  · rfl
  · exact h.objs r (h.below.1 r (List.mem_of_getElem? hv))

/-- **C81** No kernel matrix object belongs to two programs: neither a variable nor a set of one program refers to an object of another. -/
theorem C81_disjoint (env : Env K X F) (l : List (Nat × POp K X)) {i j : Nat} (hij : i ≠ j) {r : Nat}
    (hr : r ∈ ((Session.run env l .empty).2.progs i).vars ∨ ∃ t ∈ ((Session.run env l .empty).2.progs i).sets, r ∈ t.members) :
    r ∉ ((Session.run env l .empty).2.progs j).vars ∧ ∀ t ∈ ((Session.run env l .empty).2.progs j).sets, r ∉ t.members := by
  obtain ⟨-, ρ, hE, hd⟩ := (sessionInv_empty (K := K) (X := X).run (env := env) l).2
  have key : ∀ k, (r ∈ ((Session.run env l .empty).2.progs k).vars ∨ ∃ t ∈ ((Session.run env l .empty).2.progs k).sets, r ∈ t.members) →
      ∃ q, q < (ProgSt.run env (Session.stepsOf k l) .empty).2.heap.next ∧ ρ k q = r := by
    intro k hk
    have h := hE k
    rw [h.loc] at hk
    rcases hk with hk | ⟨t, ht, hk⟩
    · obtain ⟨q, hq, rfl⟩ := List.mem_map.1 hk
      exact ⟨q, h.below.1 q hq, rfl⟩
    · obtain ⟨u, hu, rfl⟩ := List.mem_map.1 ht
      obtain ⟨q, hq, rfl⟩ := List.mem_map.1 hk
      exact ⟨q, h.below.2 u hu q hq, rfl⟩
  obtain ⟨q, hq, hq'⟩ := key i hr
  refine ⟨fun h => ?_, fun t ht h => ?_⟩
  · obtain ⟨p, hp, hp'⟩ := key j (.inl h)
    exact hd i j hij q p hq hp (hq'.trans hp'.symm)
  · obtain ⟨p, hp, hp'⟩ := key j (.inr ⟨t, ht, h⟩)
    exact hd i j hij q p hq hp (hq'.trans hp'.symm)

/-- **C81** Hence the order in which the steps of different programs are executed does not matter, and other programs may be added or left out. -/
theorem C81_interleavings (env : Env K X F) {l l' : List (Nat × POp K X)} {i : Nat} (h : Session.stepsOf i l = Session.stepsOf i l') :
    Session.seenBy i (Session.run env l .empty).1 = Session.seenBy i (Session.run env l' .empty).1 ∧
    ∀ v, ((Session.run env l .empty).2.prog i).obj v = ((Session.run env l' .empty).2.prog i).obj v := by
  refine ⟨?_, fun v => ?_⟩
  · rw [C81_isolation, C81_isolation, h]
  · rw [C81_objects, C81_objects, h]

namespace Demo

/-- two kernel matrices, a set of them, attached to a sample; a weighted average of them; a third member -/
noncomputable def prog82 : List (POp Unit ℝ) :=
  [.newKM () false 0, .newKM () false 0, .newSet (.list [.ref 0, .ref 1]) .unset, .attach 0 sample3 none,
    .newComposite (.weighted (.arr ⟨.float64, [2], [.real 2, .real 3]⟩)) 0, .append 0 (.ref 0)]

/-- the same program twice, step by step in turn -/
noncomputable def twice : List (Nat × POp Unit ℝ) := (prog82.map fun op => [(0, op), (1, op)]).flatten

end Demo

/-- both programs have used the same heap: their first variables stand for different objects -/
example : ((Session.run Demo.renv Demo.twice .empty).2.progs 0).vars = [0, 2] ∧ ((Session.run Demo.renv Demo.twice .empty).2.progs 1).vars = [1, 3] ∧
    Session.stepsOf 0 Demo.twice = Demo.prog82 ∧ Session.stepsOf 1 Demo.twice = Demo.prog82 := ⟨rfl, rfl, rfl, rfl⟩

namespace Demo

/-- a bucket with the linear kernel and two polynomial kernels, of which the second is rejected; a kernel added later; a search which is refused -/
noncomputable def prog81 : List (POp Unit ℝ) :=
  [.newBucket ⟨(), fun _ _ v => match v with | .int _ => .ok () | .real _ => .error .valueError, fun _ _ _ => .ok (), fun _ _ _ => .ok (), fun _ _ _ => .ok ()⟩ (some true) (some false)
      ⟨.seq [.int 2, .real 2], .none, .none, .none, .none⟩,
    .addKernels 0 ⟨true, false⟩ (.cls fun _ _ _ => .ok ()) "gamma" (.seq [.real 1]),
    .find 0 false (fun _ _ _ => .error .valueError) sample3 [] "align/corr" {}]

end Demo

/-- two programs construct buckets in turn, and search among their members -/
example : (((Session.run Demo.renv (Demo.prog81.map fun op => [(0, op), (1, op)]).flatten .empty).2.progs 0).sets.map (·.members)) = [[0, 1, 4]] ∧
    (((Session.run Demo.renv (Demo.prog81.map fun op => [(0, op), (1, op)]).flatten .empty).2.progs 1).sets.map (·.members)) = [[2, 3, 5]] ∧
    (ProgSt.run Demo.renv Demo.prog81 .empty).1 = [.ok .none, .ok .none, .error .typeError] := ⟨rfl, rfl, rfl⟩

/-! ## C82 -/

/-- **C82** `composite_KM` is a snapshot: whatever is done afterwards with the set, its members and other objects, it gives the same result or exception, until `fit` is called again. (`c` is bound in `s`.) -/
theorem C82_snapshot {s : ProgSt K X} {c : Nat} (hc : (ProgSt.exec env (.composite c) s).1 ≠ .error .nameError) (l : List (POp K X)) (hl : ∀ op ∈ l, ∀ w, op ≠ .fit c w) :
    (ProgSt.exec env (.composite c) (ProgSt.run env l s).2).1 = (ProgSt.exec env (.composite c) s).1 := by
  obtain ⟨x, hx⟩ : ∃ x, HasComp c x s := by
    rcases h1 : s.loc.comps[c]? with _ | x
    · refine absurd ?_ hc
      have : ProgSt.onComp c CompSt.compositeKM s = (.error .nameError, s) := bind_error (ProgSt.var_none (l := fun l => l.comps) h1)
      show ((ProgSt.onComp c CompSt.compositeKM >>= fun M => pure (POut.mat M) : PyM (ProgSt K X) POut) s).1 = _
      rw [bind_error this]
    · rcases h2 : s.loc.sets[x.1]? with _ | t
      · refine absurd ?_ hc
        have : ProgSt.onComp c CompSt.compositeKM s = (.error .nameError, s) :=
          (bind_ok (ProgSt.var_some (l := fun l => l.comps) h1)).trans (bind_error (ProgSt.var_none (l := fun l => l.sets) h2))
        show ((ProgSt.onComp c CompSt.compositeKM >>= fun M => pure (POut.mat M) : PyM (ProgSt K X) POut) s).1 = _
        rw [bind_error this]
      · exact ⟨x, h1, (List.getElem?_eq_some_iff.1 h2).1⟩
  rw [exec_composite (hasComp_run l hl hx), exec_composite hx]

theorem gives_mono {h : Heap K X} {Q : Fmt → Prop} (hd : ∀ g, P g → Q g) {r : Nat} {M : Mat F} (hg : h.Gives env P r M) : h.Gives env Q r M := by
  unfold Heap.Gives at hg ⊢
  generalize h.objs r = o at hg ⊢
  rcases o with _ | s | p
  · exact hg
  · exact fun n => (hg n).imp fun f hf => ⟨hd f hf.1, hf.2⟩
  · exact ⟨hd _ hg.1, hg.2⟩

theorem fitGives {s : ProgSt K X} {c i n : Nat} {y : Comp} {t : KSet} {w : Option WeightsIn} {A : Matrix (Fin n) (Fin n) ℝ} (h : s.loc.comps[c]? = some (i, y))
    (ht : s.loc.sets[i]? = some t) (hf : CompSt.Fits env P w ⟨s.heap, t, y⟩ A) : s.FitGives env P c w A := by
  obtain ⟨f, e1, e2, d, z, hz⟩ := exec_fit h ht hf
  refine ⟨e1, f, d, fun l hl => ?_⟩
  rw [C82_snapshot (by rw [e2]; simp) l hl, e2]

/-- **C82** `SumKernel`, `AverageKernel` and, for members with dense storage, `ProductKernel` compose the members that the set has when `fit` is called, also those added after the composite kernel was
constructed; so does `WeightedAverageKernel` if there are as many weights as members by then. What is missing: that `WeightedAverageKernel` does so in general, see `C82_violated`. -/
theorem C82_current_partial {s : ProgSt K X} {c i n : Nat} {y : Comp} {t : KSet} {Ks : List (Matrix (Fin n) (Fin n) ℝ)} (h : s.loc.comps[c]? = some (i, y)) (ht : s.loc.sets[i]? = some t)
    (hn : y.numSamples = .one n) (hg : s.heap.GivesAll env P t.members Ks) :
    (y.kind = .sum → s.FitGives env P c none (fun i j => (Ks.map fun A => A i j).sum) ∧
      ∀ w l, WeightsIn.IsVec w l → l.length = t.members.length → s.FitGives env P c (some w) (wsum l Ks)) ∧
    (y.kind = .average → t.members ≠ [] → s.FitGives env P c none (emean Ks)) ∧
    (y.kind = .product → (∀ g, P g → g = .dense) → s.FitGives env P c none (eprod Ks)) ∧
    ∀ l : List ℝ, y.kind = .weighted (l.map F.real) → l.length = t.members.length → s.FitGives env P c none (wsum l Ks) := by
  refine ⟨fun hk => ⟨?_, fun w l hw hl => ?_⟩, fun hk hne => ?_, fun hk hd => ?_, fun l hk _ => ?_⟩
  · exact fitGives h ht (C32_sum hk hn hg).1
  · exact fitGives h ht ((C32_sum hk hn hg).2 w l hw hl)
  · exact fitGives h ht (C32_average hk hn hne hg)
  · have hg' : s.heap.GivesAll env IsDense t.members Ks := hg.imp fun r A hA => gives_mono hd hA
    obtain ⟨e1, f, d, e⟩ := fitGives h ht (C32_product_partial hk hn hg')
    exact ⟨e1, f, fun _ => d fun _ hg => hg, e⟩
  · exact fitGives h ht (C32_weighted hk hn hg)

/-- **C82** From construction on: whatever has been done since then, also other `fit`s, `fit` composes the members that the set has by then. (The last part needs as many weights as members.) -/
theorem C82_constructed_partial {s : ProgSt K X} {i n : Nat} {t t' : KSet} {cls : CompClass} (ht : s.loc.sets[i]? = some t) (hn : t.numSamples = .one n)
    (hc : (ProgSt.exec env (.newComposite cls i) s).1 = .ok .none) (l : List (POp K X)) (ht' : (ProgSt.run env l (ProgSt.exec env (.newComposite cls i) s).2).2.loc.sets[i]? = some t')
    {Ks : List (Matrix (Fin n) (Fin n) ℝ)} (hg : (ProgSt.run env l (ProgSt.exec env (.newComposite cls i) s).2).2.heap.GivesAll env P t'.members Ks) :
    (cls = .sum → (ProgSt.run env l (ProgSt.exec env (.newComposite cls i) s).2).2.FitGives env P s.loc.comps.length none (fun i j => (Ks.map fun A => A i j).sum) ∧
      ∀ w v, WeightsIn.IsVec w v → v.length = t'.members.length →
        (ProgSt.run env l (ProgSt.exec env (.newComposite cls i) s).2).2.FitGives env P s.loc.comps.length (some w) (wsum v Ks)) ∧
    (cls = .average → t'.members ≠ [] → (ProgSt.run env l (ProgSt.exec env (.newComposite cls i) s).2).2.FitGives env P s.loc.comps.length none (emean Ks)) ∧
    (cls = .product → (∀ g, P g → g = .dense) → (ProgSt.run env l (ProgSt.exec env (.newComposite cls i) s).2).2.FitGives env P s.loc.comps.length none (eprod Ks)) ∧
    ∀ w v, cls = .weighted w → WeightsIn.IsVec w v → v.length = t'.members.length →
      (ProgSt.run env l (ProgSt.exec env (.newComposite cls i) s).2).2.FitGives env P s.loc.comps.length none (wsum v Ks) := by
  obtain ⟨y, hy, hs⟩ := exec_newComposite ht hc
  obtain ⟨z, hz, h1, h2⟩ := hasKind_run (env := env) l ⟨y, hs, rfl, rfl⟩
  have hne : t.numSamples ≠ .unset := by rw [hn]; simp
  have hsz : ¬ t.members.length < 2 := fun h => by
    unfold mkComposite at hy
    simp only at hy
    rw [if_pos h] at hy; cases hy
  unfold mkComposite at hy
  simp only at hy
  rw [if_neg hsz, if_neg hne] at hy
  obtain ⟨p1, p2, p3, p4⟩ := C82_current_partial (n := n) (y := z) hz.1 ht' (by
    rw [h2]
    cases cls with
    | weighted w =>
      simp only at hy
      rcases hw : w.checked t.members.length with e | v
      · rw [hw] at hy; cases hy
      · rw [hw] at hy; injection hy with hy; rw [← hy]; exact hn
    | _ => injection hy with hy; rw [← hy]; exact hn) hg
  refine ⟨?_, ?_, ?_, ?_⟩
  · rintro rfl
    injection hy with hy
    exact p1 (by rw [h1, ← hy])
  · rintro rfl
    injection hy with hy
    exact p2 (by rw [h1, ← hy])
  · rintro rfl
    injection hy with hy
    exact p3 (by rw [h1, ← hy])
  · rintro w v rfl hw hv
    refine p4 v ?_ hv
    rw [h1]
    simp only at hy
    rw [hw.checked] at hy
    by_cases hl : t.members.length = v.length
    · rw [if_pos hl] at hy; injection hy with hy; rw [← hy]
    · rw [if_neg hl] at hy; cases hy

/-- **C82** Members added to the set of a `WeightedAverageKernel` after its construction are left out, without an exception. -/
theorem C82_weighted_ignores {s : ProgSt K X} {c i n : Nat} {y : Comp} {t : KSet} {l : List ℝ} {old new : List Nat} {Ks : List (Matrix (Fin n) (Fin n) ℝ)} (h : s.loc.comps[c]? = some (i, y))
    (ht : s.loc.sets[i]? = some t) (hn : y.numSamples = .one n) (hk : y.kind = .weighted (l.map F.real)) (hm : t.members = old ++ new) (hlen : old.length = l.length)
    (hg : s.heap.GivesAll env P old Ks) : s.FitGives env P c none (wsum l Ks) :=
  fitGives h ht (fits_weighted_take hk hn hm hlen hg)

/-- **C82** `linear_combination`, called at any time, combines the members that the set has by then. -/
theorem C82_combine {s : ProgSt K X} {i n : Nat} {t : KSet} {Ks : List (Matrix (Fin n) (Fin n) ℝ)} {w : WeightsIn} {l : List ℝ} (ht : s.loc.sets[i]? = some t) (hn : t.numSamples = .one n)
    (hne : t.members ≠ []) (hg : s.heap.GivesAll env P t.members Ks) (hw : w.IsVec l) (hl : l.length = t.members.length) :
    ∃ f, (ProgSt.exec env (.combine i w false) s).1 = .ok (.mat (f, Mat.ofReal (wsum l Ks))) ∧ ((∀ g, P g → g = .dense) → f = .dense) := by
  obtain ⟨h', f, e, d⟩ := C26_value (env := env) (.inr ⟨rfl, hn, hne⟩) hg hw hl
  refine ⟨f, ?_, d⟩
  have e1 : ProgSt.exec env (.combine i w false) s = (ProgSt.onHeap (linearCombination env t w false) >>= fun M => pure (POut.mat M) : PyM (ProgSt K X) POut) s :=
    bind_ok (ProgSt.var_some (l := fun l => l.sets) ht)
  have e2 : ProgSt.onHeap (linearCombination env t w false) s = (.ok (f, Mat.ofReal (wsum l Ks)), { s with heap := h' }) := by
    unfold ProgSt.onHeap
    rw [e]
  rw [e1, bind_ok e2]
  rfl

namespace Demo
/-- the state after the program above -/
noncomputable def st82 : ProgSt Unit ℝ := (ProgSt.run renv prog82 .empty).2

theorem st82_comp : st82.loc.comps[0]? = some (0, ⟨.weighted ([2, 3].map F.real), .one 3, false, none⟩) := rfl
theorem st82_set : st82.loc.sets[0]? = some ⟨[0, 1, 0], .one 3, true⟩ := rfl
theorem st82_gives : ∀ r, r < 2 → st82.heap.Gives renv IsDense r (Mat.ofReal (rA.gramR (· * ·))) := by
  intro r hr
  unfold Heap.Gives
  rw [show st82.heap.objs r = some (.km (rst false)) from by
    rcases r with _ | _ | r
    · rfl
    · rfl
    · omega]
  exact givesFull_dense rfl (fun _ _ _ _ _ => rfl) (fun _ _ _ _ => rfl) (since_rst false _)
end Demo

/-- **C82** does not hold: a program in which `fit` of a `WeightedAverageKernel` with two weights succeeds although its set has three members. -/
theorem C82_violated : ¬ ∀ (K X : Type) (env : Env K X F) (l : List (POp K X)) (c i : Nat) (ws : List F) (y : Comp) (t : KSet),
    (ProgSt.run env l .empty).2.loc.comps[c]? = some (i, y) → y.kind = .weighted ws → (ProgSt.run env l .empty).2.loc.sets[i]? = some t →
    (ProgSt.exec env (.fit c none) (ProgSt.run env l .empty).2).1 = .ok .none → ws.length = t.members.length := by
  intro h
  have hf := C82_weighted_ignores (s := Demo.st82) (old := [0, 1]) (new := [0]) Demo.st82_comp Demo.st82_set rfl rfl rfl rfl
    (.cons (Demo.st82_gives 0 (by decide)) (.cons (Demo.st82_gives 1 (by decide)) .nil))
  have := h Unit ℝ Demo.renv Demo.prog82 0 0 _ _ _ Demo.st82_comp rfl Demo.st82_set hf.1
  simp at this

/-- the hypotheses of `C82_constructed_partial` are met, with a member added after construction -/
example : ∃ (s : ProgSt Unit ℝ) (t t' : KSet), s.loc.sets[0]? = some t ∧ t.numSamples = .one 3 ∧ (ProgSt.exec Demo.renv (.newComposite .average 0) s).1 = .ok .none ∧
    (ProgSt.run Demo.renv [.append 0 (.ref 1)] (ProgSt.exec Demo.renv (.newComposite .average 0) s).2).2.loc.sets[0]? = some t' ∧ t.members = [0, 1, 0] ∧ t'.members = [0, 1, 0, 1] ∧
    (ProgSt.run Demo.renv [.append 0 (.ref 1)] (ProgSt.exec Demo.renv (.newComposite .average 0) s).2).2.heap.GivesAll Demo.renv IsDense [0, 1, 0, 1] (List.replicate 4 (Demo.rA.gramR (· * ·))) :=
  ⟨Demo.st82, ⟨[0, 1, 0], .one 3, true⟩, ⟨[0, 1, 0, 1], .one 3, true⟩, rfl, rfl, rfl, rfl, rfl, rfl,
    .cons (Demo.st82_gives 0 (by decide)) (.cons (Demo.st82_gives 1 (by decide)) (.cons (Demo.st82_gives 0 (by decide)) (.cons (Demo.st82_gives 1 (by decide)) .nil)))⟩

/-- the hypotheses are met: after a third member was added, by a new `SumKernel` of the same set -/
example : ∃ (s : ProgSt Unit ℝ) (y : Comp), s.loc.comps[1]? = some (0, y) ∧ s.loc.sets[0]? = some ⟨[0, 1, 0], .one 3, true⟩ ∧ y.kind = .sum ∧ y.numSamples = .one 3 ∧
    s.heap.GivesAll Demo.renv IsDense [0, 1, 0] (List.replicate 3 (Demo.rA.gramR (· * ·))) :=
  ⟨(ProgSt.run Demo.renv [.newComposite .sum 0] Demo.st82).2, _, rfl, rfl, rfl, rfl,
    .cons (Demo.st82_gives 0 (by decide)) (.cons (Demo.st82_gives 1 (by decide)) (.cons (Demo.st82_gives 0 (by decide)) .nil))⟩

end KMethods
