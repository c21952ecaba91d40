import Verif.Lemmas.Alternatives
import Verif.Props.Choice
import Verif.Props.RankingErrors
/-!
# The kernels that are not chosen do not matter
-/
namespace KMethods
open F KMState
variable {K X : Type} {env : Env K X F}

/-- **C101** Choice by alignment: if the bucket `t` has some of the kernels of the bucket `s`, among them (at position `j`) the one that `find_optimal_kernel` returns for `s`, then it returns this kernel for `t`. The two buckets may have been used
in any ways before. -/
theorem C101_align (hops : env.ops = realOps) {s t : SetSt K X} {φ : Nat → Nat} (hp : t.PartOf env s φ) {A : Arr2 X} (cv cv' : CVScore) (y : Fin A.nrows → ℝ)
    {method method' : String} (hm : method.toLower = "align/corr") (hm' : method'.toLower = "align/corr")
    (hs : s.set.numSamples = .unset ∨ s.set.numSamples = .one A.nrows) (ht : t.set.numSamples = .unset ∨ t.set.numSamples = .one A.nrows) (hA : s.FiniteOn env A) {r j : Nat}
    (hr : (findOptimalKernel env cv true (sampleArg A) ((List.ofFn y).map .real) method {} s).1 = .ok r) (hj : j < t.set.members.length) (hpos : s.set.members.idxOf r = φ j) :
    ∃ q, (findOptimalKernel env cv' true (sampleArg A) ((List.ofFn y).map .real) method' {} t).1 = .ok q ∧ t.set.members[j]? = some q := by
  obtain ⟨G, hG⟩ : ∃ G : Nat → Matrix (Fin A.nrows) (Fin A.nrows) ℝ, ∀ r ∈ s.set.members, s.heap.KernelOn env r A (G r) := by
    classical
    exact ⟨fun r => if h : r ∈ s.set.members then (hA r h).choose else 0, fun r hr => by dsimp only; rw [dif_pos hr]; exact (hA r hr).choose_spec⟩
  obtain ⟨H, hH, hHG⟩ := hp.kernelOn hG
  have hne : t.set.members ≠ [] := fun h => by rw [h] at hj; exact absurd hj (by simp)
  have hne' : s.set.members ≠ [] := fun h => by
    obtain ⟨q, r', _, _, _, e, _⟩ := hp.2 j hj
    rw [h] at e
    cases e
  obtain ⟨i, r', s', e1, -, hi, b1⟩ := C45_align hops cv y hm hs hne' hG
  obtain ⟨j', q, t', e2, -, hj', b2⟩ := C45_align hops cv' y hm' ht hne hH
  rw [e1] at hr
  obtain rfl : r' = r := Except.ok.inj hr
  rw [b1.idxOf hi] at hpos
  subst hpos
  have := FirstBest.part (by simpa using hp.1) (SetSt.PartOf.numbers hHG fun M => calign M (outerR A.nrows y)) (by simpa using hj) b1
  obtain rfl := this.unique b2
  exact ⟨q, by rw [e2], hj'⟩

variable {A : Arr2 X} {cv : CVScore} (targets : List F) {method : String} {p : MethodParams} {e : Est} {G : Nat → Matrix (Fin A.nrows) (Fin A.nrows) ℝ} {sc : Nat → ℝ}

/-- **C101** Choice by cross-validation, whatever the (finite) scores: no kernel has a score that is larger by more than 1e-8 than that of the kernel returned. -/
theorem C101_cv_score (hops : env.ops = realOps) {s : SetSt K X} (hm : method.toLower = "cv_risk")
    (hp : p.zeroDiv = none ∧ p.centeredAlready = none ∧ p.other = false) (he : getEstimator (some (p.estimatorName.getD "SVM")) = .ok e)
    (hn : s.set.numSamples = .unset ∨ s.set.numSamples = .one A.nrows) (hne : s.set.members ≠ []) (hG : ∀ r ∈ s.set.members, s.heap.KernelOn env r A (G r))
    (hsc : ∀ r ∈ s.set.members, cv e (p.numFolds.getD 3) (.dense, Mat.ofReal (G r)) = .ok (.real (sc r))) :
    ∃ r ∈ s.set.members, (findOptimalKernel env cv true (sampleArg A) targets method p s).1 = .ok r ∧ ∀ q ∈ s.set.members, sc q ≤ sc r + 1e-8 := by
  by_cases hspread : ∃ r ∈ s.set.members, ∃ q ∈ s.set.members, 1e-8 < sc r - sc q
  · obtain ⟨i, r, s', e1, -, hi, x, h1, h2, -⟩ := C45_cv hops targets hm hp he hn hG hsc hspread
    rw [List.getElem?_map, hi] at h1
    obtain rfl : sc r = x := by simpa using h1
    refine ⟨r, List.mem_of_getElem? hi, by rw [e1], fun q hq => ?_⟩
    have := h2 _ (List.mem_map.2 ⟨q, hq, rfl⟩)
    linarith
  · push Not at hspread
    obtain ⟨r0, l, hl⟩ := List.exists_cons_of_ne_nil hne
    obtain ⟨s', e1, -⟩ := C45_cv_tied hops targets hm hp he hn hl hG hsc hspread
    have h0 : r0 ∈ s.set.members := by rw [hl]; simp
    exact ⟨r0, h0, by rw [e1], fun q hq => by linarith [hspread q hq r0 h0]⟩

/-- **C101 (partial)** Full statement: the same without `hspread`, and for scores that may be NaN. Both are false, see `C101_cv_violated` and `C101_nan_violated`.
Choice by cross-validation: as `C101_align`, if two of the scores of the kernels in the smaller bucket differ by more than 1e-8. -/
theorem C101_cv_partial (hops : env.ops = realOps) {s t : SetSt K X} {φ : Nat → Nat} (hpart : t.PartOf env s φ) (hm : method.toLower = "cv_risk")
    (hp : p.zeroDiv = none ∧ p.centeredAlready = none ∧ p.other = false) (he : getEstimator (some (p.estimatorName.getD "SVM")) = .ok e)
    (hs : s.set.numSamples = .unset ∨ s.set.numSamples = .one A.nrows) (ht : t.set.numSamples = .unset ∨ t.set.numSamples = .one A.nrows)
    (hG : ∀ r ∈ s.set.members, s.heap.KernelOn env r A (G r))
    (hsc : ∀ r ∈ s.set.members, cv e (p.numFolds.getD 3) (.dense, Mat.ofReal (G r)) = .ok (.real (sc r)))
    (hspread : ∃ m < t.set.members.length, ∃ n < t.set.members.length, ∃ r q, s.set.members[φ m]? = some r ∧ s.set.members[φ n]? = some q ∧ 1e-8 < sc r - sc q) {r j : Nat}
    (hr : (findOptimalKernel env cv true (sampleArg A) targets method p s).1 = .ok r) (hj : j < t.set.members.length) (hpos : s.set.members.idxOf r = φ j) :
    ∃ q, (findOptimalKernel env cv true (sampleArg A) targets method p t).1 = .ok q ∧ t.set.members[j]? = some q := by
  obtain ⟨H, hH, hHG⟩ := hpart.kernelOn hG
  obtain ⟨m, hm1, n, hn1, r1, q1, hr1, hq1, hlt⟩ := hspread
  let f : Matrix (Fin A.nrows) (Fin A.nrows) ℝ → ℝ := fun M => match cv e (p.numFolds.getD 3) (.dense, Mat.ofReal M) with
    | .ok (.real x) => x
    | _ => 0
  have hf : ∀ r ∈ s.set.members, f (G r) = sc r := fun r hr => by simp only [f]; rw [hsc r hr]
  have hfH : ∀ q ∈ t.set.members, cv e (p.numFolds.getD 3) (.dense, Mat.ofReal (H q)) = .ok (.real (f (H q))) := by
    intro q hq
    obtain ⟨n, hn, rfl⟩ := List.getElem_of_mem hq
    obtain ⟨q, r, e1, e2, e3⟩ := hHG n hn
    rw [List.getElem?_eq_getElem hn] at e1
    rw [Option.some.inj e1, e3, hsc r (List.mem_of_getElem? e2), hf r (List.mem_of_getElem? e2)]
  have hsc' : ∀ r ∈ s.set.members, cv e (p.numFolds.getD 3) (.dense, Mat.ofReal (G r)) = .ok (.real (f (G r))) := fun r hr => by rw [hf r hr]; exact hsc r hr
  obtain ⟨i, r', s', e1, -, hi, b1⟩ := C45_cv hops targets hm hp he hs hG hsc' ⟨r1, List.mem_of_getElem? hr1, q1, List.mem_of_getElem? hq1, by
    rw [hf _ (List.mem_of_getElem? hr1), hf _ (List.mem_of_getElem? hq1)]; exact hlt⟩
  obtain ⟨j', q, t', e2, -, hj', b2⟩ := C45_cv hops targets hm hp he ht hH hfH (by
    obtain ⟨a, a', h1, h2, h3⟩ := hHG m hm1
    obtain ⟨b, b', h4, h5, h6⟩ := hHG n hn1
    obtain rfl : a' = r1 := Option.some.inj (h2.symm.trans hr1)
    obtain rfl : b' = q1 := Option.some.inj (h5.symm.trans hq1)
    refine ⟨a, List.mem_of_getElem? h1, b, List.mem_of_getElem? h4, ?_⟩
    rw [h3, h6, hf _ (List.mem_of_getElem? h2), hf _ (List.mem_of_getElem? h5)]
    exact hlt)
  rw [e1] at hr
  obtain rfl : r' = r := Except.ok.inj hr
  rw [FirstBest.idxOf (sc := fun r => f (G r)) b1 hi] at hpos
  subst hpos
  have := FirstBest.part (by simpa using hpart.1) (SetSt.PartOf.numbers hHG f) (by simpa using hj) b1
  obtain rfl := this.unique b2
  exact ⟨q, by rw [e2], hj'⟩

/-- **C101** Choice by cross-validation does not depend on how the kernel matrices were used before: two buckets with the same kernels, with any histories, give the kernel at the same position. The scores may be NaN. -/
theorem C101_cv_history (hops : env.ops = realOps) {s t : SetSt K X} (hst : s.SameKernels env t) (hm : method.toLower = "cv_risk")
    (hp : p.zeroDiv = none ∧ p.centeredAlready = none ∧ p.other = false) (he : getEstimator (some (p.estimatorName.getD "SVM")) = .ok e)
    (hs : s.set.numSamples = .unset ∨ s.set.numSamples = .one A.nrows) (ht : t.set.numSamples = .unset ∨ t.set.numSamples = .one A.nrows) (hne : s.set.members ≠ [])
    (hG : ∀ r ∈ s.set.members, s.heap.KernelOn env r A (G r)) {sc : Nat → F}
    (hsc : ∀ r ∈ s.set.members, cv e (p.numFolds.getD 3) (.dense, Mat.ofReal (G r)) = .ok (sc r)) :
    SamePosition s t (findOptimalKernel env cv true (sampleArg A) targets method p s) (findOptimalKernel env cv true (sampleArg A) targets method p t) := by
  have hlen := hst.length_eq
  have hpart : t.PartOf env s id := ⟨fun m n h _ => h, fun n hn => by
    have hn' : n < s.set.members.length := by rw [hlen]; exact hn
    obtain ⟨k, norm, h1, h2⟩ := hst.get hn' hn
    exact ⟨_, _, k, norm, List.getElem?_eq_getElem hn, List.getElem?_eq_getElem hn', h2, h1⟩⟩
  obtain ⟨H, hH, hHG⟩ := hpart.kernelOn hG
  obtain ⟨r0, l, hl⟩ := List.exists_cons_of_ne_nil hne
  obtain ⟨q0, l', hl'⟩ := List.exists_cons_of_ne_nil (l := t.set.members) fun h => by rw [h, hl] at hlen; cases hlen
  let g : Matrix (Fin A.nrows) (Fin A.nrows) ℝ → F := fun M => match cv e (p.numFolds.getD 3) (.dense, Mat.ofReal M) with
    | .ok x => x
    | _ => .nan
  have hg : ∀ r ∈ s.set.members, g (G r) = sc r := fun r hr => by simp only [g]; rw [hsc r hr]
  have hgG : ∀ r ∈ s.set.members, cv e (p.numFolds.getD 3) (.dense, Mat.ofReal (G r)) = .ok (g (G r)) := fun r hr => by rw [hg r hr]; exact hsc r hr
  have hpair : ∀ q ∈ t.set.members, ∃ r ∈ s.set.members, H q = G r := by
    intro q hq
    obtain ⟨n, hn, rfl⟩ := List.getElem_of_mem hq
    obtain ⟨q, r, e1, e2, e3⟩ := hHG n hn
    rw [List.getElem?_eq_getElem hn] at e1
    rw [Option.some.inj e1]
    exact ⟨r, List.mem_of_getElem? e2, e3⟩
  have hpair' : ∀ r ∈ s.set.members, ∃ q ∈ t.set.members, H q = G r := by
    intro r hr
    obtain ⟨n, hn, rfl⟩ := List.getElem_of_mem hr
    obtain ⟨q, r, e1, e2, e3⟩ := hHG n (by rw [← hlen]; exact hn)
    rw [id, List.getElem?_eq_getElem hn] at e2
    rw [Option.some.inj e2]
    exact ⟨q, List.mem_of_getElem? e1, e3⟩
  have hgH : ∀ q ∈ t.set.members, cv e (p.numFolds.getD 3) (.dense, Mat.ofReal (H q)) = .ok (g (H q)) := by
    intro q hq
    obtain ⟨r, hr, e1⟩ := hpair q hq
    rw [e1]
    exact hgG r hr
  by_cases hnan : ∃ r ∈ s.set.members, g (G r) = .nan
  · obtain ⟨r, hr, h0⟩ := hnan
    obtain ⟨q, hq, e0⟩ := hpair' r hr
    obtain ⟨s', e1, -⟩ := C45_cv_nan hops targets hm hp he hs hl hG (sc := fun r => g (G r)) hgG ⟨r, hr, h0⟩
    obtain ⟨t', e2, -⟩ := C45_cv_nan hops targets hm hp he ht hl' hH (sc := fun q => g (H q)) hgH ⟨q, hq, by rw [e0]; exact h0⟩
    exact ⟨0, r0, q0, by rw [e1], by rw [e2], by rw [hl]; rfl, by rw [hl']; rfl⟩
  push Not at hnan
  let f : Matrix (Fin A.nrows) (Fin A.nrows) ℝ → ℝ := fun M => (g M).val
  have hfg : ∀ r ∈ s.set.members, g (G r) = .real (f (G r)) := by
    intro r hr
    have := hnan r hr
    simp only [f]
    rcases hx : g (G r) with x | _
    · rfl
    · exact absurd hx this
  have hfG : ∀ r ∈ s.set.members, cv e (p.numFolds.getD 3) (.dense, Mat.ofReal (G r)) = .ok (.real (f (G r))) := fun r hr => by rw [← hfg r hr]; exact hgG r hr
  have hfH : ∀ q ∈ t.set.members, cv e (p.numFolds.getD 3) (.dense, Mat.ofReal (H q)) = .ok (.real (f (H q))) := by
    intro q hq
    obtain ⟨r, hr, e1⟩ := hpair q hq
    rw [e1]
    exact hfG r hr
  by_cases hspread : ∃ r ∈ s.set.members, ∃ q ∈ s.set.members, 1e-8 < f (G r) - f (G q)
  · obtain ⟨i, r, s', e1, -, hi, b1⟩ := C45_cv hops targets hm hp he hs hG hfG hspread
    obtain ⟨a, ha, b, hb, hab⟩ := hspread
    obtain ⟨a', ha', ea⟩ := hpair' a ha
    obtain ⟨b', hb', eb⟩ := hpair' b hb
    obtain ⟨j, q, t', e2, -, hj, b2⟩ := C45_cv hops targets hm hp he ht hH hfH ⟨a', ha', b', hb', by rw [ea, eb]; exact hab⟩
    have hi' : i < t.set.members.length := by
      rw [← hlen]
      exact (List.getElem?_eq_some_iff.1 hi).1
    have := FirstBest.part (φ := id) (fun m n h _ => h) (SetSt.PartOf.numbers hHG f) (by simpa using hi') b1
    obtain rfl := this.unique b2
    exact ⟨i, r, q, by rw [e1], by rw [e2], hi, hj⟩
  · push Not at hspread
    obtain ⟨s', e1, -⟩ := C45_cv_tied hops targets hm hp he hs hl hG hfG hspread
    obtain ⟨t', e2, -⟩ := C45_cv_tied hops targets hm hp he ht hl' hH hfH fun a ha b hb => by
      obtain ⟨a', ha', ea⟩ := hpair a ha
      obtain ⟨b', hb', eb⟩ := hpair b hb
      rw [ea, eb]
      exact hspread a' ha' b' hb'
    exact ⟨0, r0, q0, by rw [e1], by rw [e2], by rw [hl]; rfl, by rw [hl']; rfl⟩

namespace Demo
/-- kernels with a constant value -/
noncomputable def constEnv : Env ℝ ℝ F := ⟨fun c _ _ => .real c, fun _ _ _ _ => false, realOps, fun _ => false⟩
/-- one sample -/
noncomputable def oneRow : Arr2 ℝ := ⟨1, 1, fun _ => 0⟩
/-- a bucket with the first `n` of the kernels with values 0, `v`, -1; not normalising -/
noncomputable def constKernel (v : ℝ) (r : Nat) : ℝ := if r = 0 then 0 else if r = 1 then v else -1
noncomputable def constBucket (v : ℝ) (n : Nat) : SetSt ℝ ℝ :=
  ⟨⟨fun r => if r < 3 then some (.km (KMState.init (constKernel v r) false 0)) else none, 3⟩, ⟨List.range n, .unset, true⟩⟩
/-- the score is the value of the kernel -/
noncomputable def constCv : CVScore := fun _ _ M => .ok (if h : 0 < M.2.nrows ∧ 0 < M.2.ncols then M.2.get ⟨0, h.1⟩ ⟨0, h.2⟩ else .nan)
/-- the same, but NaN for the last kernel -/
noncomputable def constCvNan : CVScore := fun e n M => open Classical in (constCv e n M).map fun x => if x = .real (-1) then .nan else x

theorem constKernelOn (v : ℝ) {n : Nat} (hn : n ≤ 3) : ∀ r ∈ (constBucket v n).set.members, (constBucket v n).heap.KernelOn constEnv r oneRow fun _ _ => constKernel v r := by
  intro r hr
  have hr : r < n := List.mem_range.1 hr
  refine ⟨constKernel v r, false, ⟨KMState.init (constKernel v r) false 0, if_pos (by omega), .new 0⟩, fun _ _ => constKernel v r, fun _ _ _ _ _ => rfl, fun _ _ _ _ => rfl, ?_⟩
  rw [if_neg (by simp)]
  rfl

theorem constPart (v : ℝ) : (constBucket v 2).PartOf constEnv (constBucket v 3) id := by
  refine ⟨fun m n h _ => h, fun n hn => ?_⟩
  have hn : n < 2 := by simpa [constBucket] using hn
  exact ⟨n, n, constKernel v n, false, List.getElem?_range hn, List.getElem?_range (show n < 3 by omega), ⟨_, if_pos (by omega), .new 0⟩, ⟨_, if_pos (by omega), .new 0⟩⟩

theorem svm_name : getEstimator (some (({} : MethodParams).estimatorName.getD "SVM")) = .ok .svc := if_pos (by decide +kernel)
theorem cv_name : "cv_risk".toLower = "cv_risk" := by decide +kernel

theorem constBest {v : ℝ} (hv : 0 < v) {r : Nat} (h : constKernel v 1 ≤ constKernel v r) : r = 1 := by
  by_contra hc
  unfold constKernel at h
  rw [if_neg (by norm_num), if_pos rfl] at h
  split_ifs at h <;> linarith
end Demo

/-- **C101** violated for choices by cross-validation, even if all scores are finite: of three kernels with scores 0, 5e-9 and -1, the second one is chosen. Without the third one, the first one is chosen, because the remaining scores
are close to each other. -/
theorem C101_cv_violated : (Demo.constBucket 5e-9 2).PartOf Demo.constEnv (Demo.constBucket 5e-9 3) id ∧
    (findOptimalKernel Demo.constEnv Demo.constCv true (sampleArg Demo.oneRow) [.real 1] "cv_risk" {} (Demo.constBucket 5e-9 3)).1 = .ok 1 ∧
    (findOptimalKernel Demo.constEnv Demo.constCv true (sampleArg Demo.oneRow) [.real 1] "cv_risk" {} (Demo.constBucket 5e-9 2)).1 = .ok 0 := by
  refine ⟨Demo.constPart _, ?_, ?_⟩
  · obtain ⟨i, r, s', e1, -, hi, x, h1, h2, -⟩ := C45_cv (env := Demo.constEnv) (s := Demo.constBucket 5e-9 3) (A := Demo.oneRow) (cv := Demo.constCv) rfl [.real 1] Demo.cv_name (p := {}) ⟨rfl, rfl, rfl⟩ Demo.svm_name
      (Or.inl rfl) (Demo.constKernelOn _ le_rfl) (sc := Demo.constKernel 5e-9) (fun r _ => rfl) ⟨0, by simp [Demo.constBucket], 2, by simp [Demo.constBucket], by norm_num [Demo.constKernel]⟩
    rw [e1]
    rw [List.getElem?_map, hi] at h1
    obtain rfl : Demo.constKernel 5e-9 r = x := by simpa using h1
    rw [Demo.constBest (by norm_num) (h2 (Demo.constKernel 5e-9 1) (List.mem_map.2 ⟨1, by simp [Demo.constBucket], rfl⟩))]
  · obtain ⟨s', e1, -⟩ := C45_cv_tied (env := Demo.constEnv) (s := Demo.constBucket 5e-9 2) (A := Demo.oneRow) (cv := Demo.constCv) rfl [.real 1] Demo.cv_name (p := {}) ⟨rfl, rfl, rfl⟩ Demo.svm_name (Or.inl rfl) (r0 := 0)
      (l := [1]) rfl (Demo.constKernelOn _ (by norm_num)) (sc := Demo.constKernel 5e-9) (fun r _ => rfl) (by
        intro a ha b hb
        have ha : a < 2 := List.mem_range.1 ha
        have hb : b < 2 := List.mem_range.1 hb
        interval_cases a <;> interval_cases b <;> norm_num [Demo.constKernel])
    rw [e1]

/-- **C101** violated for scores that are NaN (`GridSearchCV` gives NaN if fitting fails): of three kernels with scores 0, 1 and NaN, the first one is chosen; without the third one, the second one is chosen. -/
theorem C101_nan_violated : (Demo.constBucket 1 2).PartOf Demo.constEnv (Demo.constBucket 1 3) id ∧
    (findOptimalKernel Demo.constEnv Demo.constCvNan true (sampleArg Demo.oneRow) [.real 1] "cv_risk" {} (Demo.constBucket 1 3)).1 = .ok 0 ∧
    (findOptimalKernel Demo.constEnv Demo.constCvNan true (sampleArg Demo.oneRow) [.real 1] "cv_risk" {} (Demo.constBucket 1 2)).1 = .ok 1 := by
  classical
  have hcv : ∀ r, Demo.constCvNan .svc 3 (.dense, Mat.ofReal (n := 1) (m := 1) fun _ _ => Demo.constKernel 1 r) = .ok (if Demo.constKernel 1 r = -1 then .nan else .real (Demo.constKernel 1 r)) := by
    intro r
    show Except.ok _ = _
    congr 1
    show (if F.real (Demo.constKernel 1 r) = .real (-1) then F.nan else .real (Demo.constKernel 1 r)) = _
    by_cases h : Demo.constKernel 1 r = -1
    · rw [if_pos (by rw [h]), if_pos h]
    · rw [if_neg fun h' => h (F.real.inj h'), if_neg h]
  refine ⟨Demo.constPart _, ?_, ?_⟩
  · obtain ⟨s', e1, -⟩ := C45_cv_nan (env := Demo.constEnv) (s := Demo.constBucket 1 3) (A := Demo.oneRow) (cv := Demo.constCvNan) rfl [.real 1] Demo.cv_name (p := {}) ⟨rfl, rfl, rfl⟩ Demo.svm_name (Or.inl rfl) (r0 := 0)
      (l := [1, 2]) rfl (Demo.constKernelOn _ le_rfl) (sc := fun r => if Demo.constKernel 1 r = -1 then .nan else .real (Demo.constKernel 1 r)) (fun r _ => hcv r)
      ⟨2, by simp [Demo.constBucket], if_pos (by norm_num [Demo.constKernel])⟩
    rw [e1]
  · obtain ⟨i, r, s', e1, -, hi, x, h1, h2, -⟩ := C45_cv (env := Demo.constEnv) (s := Demo.constBucket 1 2) (A := Demo.oneRow) (cv := Demo.constCvNan) rfl [.real 1] Demo.cv_name (p := {}) ⟨rfl, rfl, rfl⟩ Demo.svm_name
      (Or.inl rfl) (Demo.constKernelOn _ (by norm_num)) (sc := Demo.constKernel 1) (fun r hr => by
        have hr : r < 2 := List.mem_range.1 hr
        refine (hcv r).trans ?_
        rw [if_neg (by interval_cases r <;> norm_num [Demo.constKernel])]) ⟨1, by simp [Demo.constBucket], 0, by simp [Demo.constBucket], by norm_num [Demo.constKernel]⟩
    rw [e1]
    rw [List.getElem?_map, hi] at h1
    obtain rfl : Demo.constKernel 1 r = x := by simpa using h1
    rw [Demo.constBest (by norm_num) (h2 (Demo.constKernel 1 1) (List.mem_map.2 ⟨1, by simp [Demo.constBucket], rfl⟩))]

/-- the hypotheses of `C101_cv_partial` and `C101_cv_score` hold for the buckets with kernel values 0, 1, -1 and 0, 1 -/
example : (Demo.constBucket 1 2).PartOf Demo.constEnv (Demo.constBucket 1 3) id ∧ (Demo.constBucket 1 3).set.members ≠ [] ∧
    (∀ r ∈ (Demo.constBucket 1 3).set.members, (Demo.constBucket 1 3).heap.KernelOn Demo.constEnv r Demo.oneRow fun _ _ => Demo.constKernel 1 r) ∧
    (∀ r, Demo.constCv .svc 3 (.dense, Mat.ofReal (n := 1) (m := 1) fun _ _ => Demo.constKernel 1 r) = .ok (.real (Demo.constKernel 1 r))) ∧ 1e-8 < Demo.constKernel 1 1 - Demo.constKernel 1 0 :=
  ⟨Demo.constPart 1, by simp [Demo.constBucket], Demo.constKernelOn _ le_rfl, fun r => rfl, by norm_num [Demo.constKernel]⟩

/-- the hypotheses of `C101_align` on the kernels: a bucket with one of the two kernels of another bucket, both with finite matrices -/
example : (⟨Demo.bucket2.heap, ⟨[1], .unset, true⟩⟩ : SetSt Bool ℝ).PartOf Demo.env2 Demo.bucket2 (fun n => n + 1) ∧ Demo.bucket2.FiniteOn Demo.env2 Demo.rA :=
  ⟨⟨fun m n h _ => Nat.succ_lt_succ h, fun n hn => by
    obtain rfl : n = 0 := by simpa using hn
    exact ⟨1, 1, true, true, rfl, rfl, ⟨_, rfl, .new 0⟩, ⟨_, rfl, .new 0⟩⟩⟩, fun r hr => ⟨_, Demo.kernelOn2 r hr⟩⟩

end KMethods
