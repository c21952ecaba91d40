import Verif.Lemmas.KMInv
/-!
# Values returned by element access, and behaviour without kernel failures
-/
namespace KMethods

theorem flatMap_getD {α β γ : Type} (one : List α) (two : List β) (f : α → β → γ) (d : γ)
    (p q : Nat) (hp : p < one.length) (hq : q < two.length) :
    (one.flatMap fun i => two.map fun j => f i j).getD (p * two.length + q) d =
      f (one[p]) (two[q]) := by
  induction one generalizing p with
  | nil => simp at hp
  | cons x one ih =>
    rw [List.flatMap_cons]
    cases p with
    | zero =>
      simp [List.getD_eq_getElem?_getD, List.getElem?_append_left, hq]
    | succ p =>
      have hp' : p < one.length := by simpa using hp
      have := ih p hp'
      rw [List.getD_eq_getElem?_getD] at this ⊢
      rw [List.getElem?_append_right (by simp; nlinarith)]
      have h2 : (p + 1) * two.length + q - (two.map fun j => f x j).length = p * two.length + q := by
        simp; rw [Nat.succ_mul]; omega
      rw [h2]
      simpa using this

namespace KMState
variable {K X V α β ι : Type}
open PyM

/-- whatever was evaluated: results of a run of evaluations are the matrix entries -/
theorem mapEach_eval_ok {env : Env K X V} {a : Attachment X} (l : List (Nat × Nat))
    {s s' : KMState K X V} {vs : List V} (h : AttachedTo env a s)
    (hr : mapEach l (fun p => evalKernel env p.1 p.2) s = (.ok vs, s')) :
    vs = l.map fun p => a.entry (env.kval s.kernel) p.1 p.2 := by
  induction l generalizing s vs with
  | nil => simp [mapEach] at hr; simp [hr.1]
  | cons p l ih =>
    obtain ⟨v, s1, ws, he, hm, hvs⟩ := mapEach_cons_ok.1 hr
    change evalKernel env p.1 p.2 s = (.ok v, s1) at he
    have hext := evalKernel_ext env s p.1 p.2
    rw [he] at hext
    have h1 := h.ext hext
    have hv : v = a.entry (env.kval s.kernel) p.1 p.2 := by
      have := h1.entry (i := p.1) (j := p.2) (v := v) (by
        have h3 : s1.twoSamples = s.twoSamples := hext.twoSamples
        rw [h3]; exact evalKernel_ok he)
      have h4 : s1.kernel = s.kernel := hext.kernel
      rw [h4] at this
      exact this
    have hws := ih h1 hm
    have h4 : s1.kernel = s.kernel := hext.kernel
    rw [h4] at hws
    rw [hvs, hv, hws]
    rfl

theorem ofCells_congr {n m : Nat} {c c' : Nat → Nat → V}
    (h : ∀ i < n, ∀ j < m, c i j = c' i j) : Mat.ofCells n m c = Mat.ofCells n m c' := by
  unfold Mat.ofCells
  congr
  funext i j
  exact h i i.2 j j.2

theorem compute_ok {env : Env K X V} {a : Attachment X} {one two : List Nat}
    {s s' : KMState K X V} {r : Fmt × Mat V} (h : AttachedTo env a s)
    (hr : computeForIndexCombinations env one two s = (.ok r, s')) :
    r = (.dense, Mat.ofCells one.length two.length fun p q =>
      a.entry (env.kval s.kernel) (one.getD p 0) (two.getD q 0)) := by
  unfold computeForIndexCombinations at hr
  rw [bind_run] at hr
  rcases hm : mapEach (one.flatMap fun i => two.map fun j => (i, j))
    (fun p => evalKernel env p.1 p.2) s with ⟨e | vs, s1⟩
  · rw [hm] at hr; simp at hr
  rw [hm] at hr
  simp at hr
  have hvs := mapEach_eval_ok _ h hm
  rw [← hr.1]
  congr 1
  apply ofCells_congr
  intro p hp q hq
  rw [hvs, List.map_flatMap]
  have := flatMap_getD one two (fun i j => a.entry (env.kval s.kernel) i j) env.ops.nan p q hp hq
  simp only [List.map_map] at *
  rw [show (fun i => List.map ((fun p : Nat × Nat => a.entry (env.kval s.kernel) p.1 p.2) ∘ fun j => (i, j)) two)
    = fun i => two.map fun j => a.entry (env.kval s.kernel) i j from rfl]
  rw [List.getD_eq_getElem?_getD] at this
  rw [this]
  simp [List.getD_eq_getElem?_getD, hp, hq]

/-- `s'` differs from `s` at most in the memo table, counters and `_full_km` -/
def SameBut (s s' : KMState K X V) : Prop :=
  ∃ c n u t fk, s' = { s with cache := c, numKerEval := n, succ := u, clock := t, fullKm := fk }

theorem SameBut.refl (s : KMState K X V) : SameBut s s :=
  ⟨s.cache, s.numKerEval, s.succ, s.clock, s.fullKm, rfl⟩

theorem SameBut.trans {s s' s'' : KMState K X V} (h : SameBut s s') (h' : SameBut s' s'') :
    SameBut s s'' := by
  obtain ⟨c, n, u, t, fk, rfl⟩ := h
  obtain ⟨c', n', u', t', fk', rfl⟩ := h'
  exact ⟨c', n', u', t', fk', rfl⟩

theorem evalAt_same (env : Env K X V) (s : KMState K X V) (p : Nat × Nat) :
    SameBut s (evalAt env p s).2 ∧ (evalAt env p s).2.fullKm = s.fullKm := by
  unfold evalAt
  rw [get_bind_run]
  rcases hl : s.cache.lookup p with _ | v
  swap
  · exact ⟨SameBut.refl s, rfl⟩
  rcases hx : s.sample with _ | a
  · simpa [bind_run, rowAt, hx] using SameBut.refl s
  by_cases ha : p.1 < a.nrows
  swap
  · simpa [bind_run, rowAt, hx, ha] using SameBut.refl s
  rcases hy : s.sampleTwo with _ | b
  · simpa [bind_run, rowAt, hx, ha, hy] using SameBut.refl s
  by_cases hb : p.2 < b.nrows
  swap
  · simpa [bind_run, rowAt, hx, ha, hy, hb] using SameBut.refl s
  by_cases hf : env.fails s.clock s.kernel (a.row p.1) (b.row p.2) = true
  · simp [bind_run, rowAt, hx, ha, hy, hb, callKernel, hf]
    exact ⟨s.cache, s.numKerEval, s.succ, s.clock + 1, s.fullKm, by rw [← hx, ← hy]⟩
  · simp [bind_run, rowAt, hx, ha, hy, hb, callKernel, hf]
    exact ⟨_, _, _, s.clock + 1, s.fullKm, by rw [← hx, ← hy]⟩

theorem evalKernel_same (env : Env K X V) (s : KMState K X V) (i j : Nat) :
    SameBut s (evalKernel env i j s).2 ∧ (evalKernel env i j s).2.fullKm = s.fullKm := by
  rw [evalKernel_run]
  split
  · exact ⟨SameBut.refl s, rfl⟩
  · exact evalAt_same env s _


theorem evalAt_ff {env : Env K X V} (hf : NoFaults env) {s : KMState K X V} {p : Nat × Nat}
    {a b : Arr2 X} (hx : s.sample = some a) (hy : s.sampleTwo = some b)
    (ha : p.1 < a.nrows) (hb : p.2 < b.nrows) : ∃ v s', evalAt env p s = (.ok v, s') := by
  unfold evalAt
  rw [get_bind_run]
  rcases hl : s.cache.lookup p with _ | v
  · simp [bind_run, rowAt, hx, ha, hy, hb, callKernel, hf s.clock s.kernel]
  · exact ⟨v, s, rfl⟩

/-- rows available in the sample(s) of an attached object -/
theorem AttachedTo.key_rows {a : Attachment X} {i j : Nat} (hi : i < a.nrows) (hj : j < a.ncols) :
    (memoKey (some a.two.isSome) i j).1 < a.one.nrows ∧
    (memoKey (some a.two.isSome) i j).2 < (a.two.getD a.one).nrows := by
  rcases a with ⟨x, _ | y⟩
  · simp only [Attachment.nrows, Attachment.ncols] at hi hj
    unfold memoKey
    split <;> simp_all
  · simp only [Attachment.nrows, Attachment.ncols] at hi hj
    simp [memoKey, hi, hj]

theorem evalKernel_ff {env : Env K X V} (hf : NoFaults env) {a : Attachment X} {s : KMState K X V}
    (h : AttachedTo env a s) {i j : Nat} (hi : i < a.nrows) (hj : j < a.ncols) :
    ∃ s', evalKernel env i j s = (.ok (a.entry (env.kval s.kernel) i j), s') ∧
      AttachedTo env a s' ∧ SameBut s s' ∧ s'.fullKm = s.fullKm := by
  have hext := evalKernel_ext env s i j
  have hsame := evalKernel_same env s i j
  have hk := AttachedTo.key_rows hi hj
  have hrun : evalKernel env i j s = evalAt env (memoKey s.twoSamples i j) s := by
    rw [evalKernel_run, if_neg (by rw [h.two]; simp)]
  obtain ⟨v, s', hv⟩ := evalAt_ff hf (p := memoKey s.twoSamples i j) h.sample h.sampleTwo
    (by rw [h.two]; exact hk.1) (by rw [h.two]; exact hk.2)
  rw [← hrun] at hv
  rw [hv] at hext hsame
  have h1 := h.ext hext
  have hval := h1.entry (i := i) (j := j) (v := v) (by
    have h3 : s'.twoSamples = s.twoSamples := hext.twoSamples
    rw [h3]; exact evalKernel_ok hv)
  have h4 : s'.kernel = s.kernel := hext.kernel
  rw [h4] at hval
  exact ⟨s', by rw [hv, hval], h1, hsame.1, hsame.2⟩

theorem AttachedTo.setFull {env : Env K X V} {a : Attachment X} {s : KMState K X V}
    (h : AttachedTo env a s) (fk : Option (Full V)) : AttachedTo env a { s with fullKm := fk } :=
  ⟨h.sample, h.sampleTwo, h.shape, h.two, h.num, h.sound⟩

/-- filling cells without failures -/
theorem fillCells_ff {env : Env K X V} (hf : NoFaults env) {a : Attachment X}
    (l : List (Nat × Nat)) (hl : ∀ p ∈ l, p.1 < a.nrows ∧ p.2 < a.ncols) {s : KMState K X V}
    {f : Full V} (h : AttachedTo env a s) (hfull : s.fullKm = some f) :
    ∃ s' f', fillCells env l s = (.ok (), s') ∧ AttachedTo env a s' ∧ SameBut s s' ∧
      s'.fullKm = some f' ∧ f'.fmt = f.fmt ∧
      (∀ i j, (i, j) ∈ l → f'.cell i j = a.entry (env.kval s.kernel) i j) ∧
      (∀ i j, (i, j) ∉ l → f'.cell i j = f.cell i j) := by
  induction l generalizing s f with
  | nil => exact ⟨s, f, rfl, h, SameBut.refl s, hfull, rfl, by simp, by simp⟩
  | cons p l ih =>
    obtain ⟨hp1, hp2⟩ := hl p (by simp)
    obtain ⟨s1, he, h1, hs1, hfk⟩ := evalKernel_ff hf h hp1 hp2
    set v := a.entry (env.kval s.kernel) p.1 p.2 with hv
    let f1 : Full V := { f with cell := fun x y => if x = p.1 ∧ y = p.2 then v else f.cell x y }
    let s2 : KMState K X V := { s1 with fullKm := some f1 }
    have hset : setCell p.1 p.2 v s1 = (.ok (), s2) := by
      simp [setCell, s2, f1, hfk, hfull]
    have hker : s2.kernel = s.kernel := by
      obtain ⟨_, _, _, _, _, rfl⟩ := hs1; rfl
    obtain ⟨s3, f3, hr, h3, hs3, hfk3, hfmt, hin, hout⟩ :=
      ih (fun q hq => hl q (by simp [hq])) (s := s2) (f := f1) (h1.setFull _) rfl
    refine ⟨s3, f3, ?_, h3, ?_, hfk3, hfmt, ?_, ?_⟩
    · show ((evalKernel env p.1 p.2 >>= fun v => setCell p.1 p.2 v) >>= fun _ => fillCells env l) s = _
      rw [bind_run, bind_run, he]
      simp only
      rw [hset]
      exact hr
    · refine hs1.trans (SameBut.trans ?_ hs3)
      exact ⟨s1.cache, s1.numKerEval, s1.succ, s1.clock, some f1, rfl⟩
    · intro i j hij
      by_cases hmem : (i, j) ∈ l
      · rw [hin i j hmem, hker]
      · rw [hout i j hmem]
        have : (i, j) = p := by
          rcases List.mem_cons.1 hij with h | h
          · exact h
          · exact absurd h hmem
        subst this
        simp [f1, hv]
    · intro i j hij
      have h1 : (i, j) ≠ p := by rintro rfl; exact hij (by simp)
      have h2 : (i, j) ∉ l := fun h => hij (by simp [h])
      rw [hout i j h2]
      have : ¬ (i = p.1 ∧ j = p.2) := by
        rintro ⟨rfl, rfl⟩; exact h1 rfl
      simp [f1, this]

end KMState
end KMethods
