import Verif.Spec.Composite
import Verif.Lemmas.World
import Verif.Lemmas.Derived
import Verif.Lemmas.Operations
import Verif.Lemmas.Coerce
/-! Lemmas on composite kernels and `linear_combination`. -/
namespace KMethods
open PyM KMState
variable {K X α : Type} {env : Env K X F}

theorem KMState.GivesFull.run {s : KMState K X F} {P : Fmt → Prop} {M : Mat F} (h : s.GivesFull env P M) :
    ∃ f, P f ∧ (KMState.full env s).1 = .ok (f, M) ∧ (KMState.full env s).2.GivesFull env P M := by
  obtain ⟨f, hf, h0⟩ := h 0
  refine ⟨f, hf, ?_, ?_⟩
  · change (KMState.exec env .full s).1 = _ at h0
    rw [exec_full_run] at h0
    rcases hr : (KMState.full env s).1 with e | A
    · rw [hr] at h0; cases h0
    · rw [hr] at h0
      change Except.ok (KMOut.mat A.1 A.2) = _ at h0
      injection h0 with h0; injection h0 with h1 h2
      rw [← h1, ← h2]
  · intro n
    have := h (n + 1)
    rw [List.replicate_succ] at this
    change ∃ f, P f ∧ (KMState.exec env .full (KMState.run env (List.replicate n .full) (KMState.exec env .full s).2)).1 = _ at this
    rw [exec_full_run s] at this
    exact this

/-- an object whose `full` changes nothing -/
theorem givesFull_of_fix {s : KMState K X F} {f : Fmt} {M : Mat F} (h : KMState.full env s = (.ok (f, M), s)) {P : Fmt → Prop} (hP : P f) :
    s.GivesFull env P M := by
  have he : KMState.exec env .full s = (.ok (.mat f M), s) := by rw [exec_full_run, h]; rfl
  have hr : ∀ n, KMState.run env (List.replicate n .full) s = s := by
    intro n
    induction n with
    | zero => rfl
    | succ n ih =>
      rw [List.replicate_succ]
      show KMState.run env (List.replicate n .full) (KMState.exec env .full s).2 = s
      rw [he]; exact ih
  intro n
  exact ⟨f, hP, by rw [hr, he]⟩

/-- an object in a set of states closed under `full` -/
theorem givesFull_of_inv {Q : KMState K X F → Prop} {P : Fmt → Prop} {M : Mat F} (hQ : ∀ s, Q s → Q (KMState.exec env .full s).2)
    (hf : ∀ s, Q s → ∃ f, P f ∧ (KMState.exec env .full s).1 = .ok (.mat f M)) {s : KMState K X F} (hs : Q s) : s.GivesFull env P M := by
  have hr : ∀ n s, Q s → Q (KMState.run env (List.replicate n .full) s) := by
    intro n
    induction n with
    | zero => exact fun s h => h
    | succ n ih =>
      intro s h
      rw [List.replicate_succ]
      exact ih _ (hQ s h)
  exact fun n => hf _ (hr n s hs)

namespace Heap

/-- what members give is not lost -/
def Keep (env : Env K X F) (h h' : Heap K X) : Prop := ∀ P r M, h.Gives env P r M → h'.Gives env P r M

theorem Keep.refl (h : Heap K X) : Keep env h h := fun _ _ _ x => x
theorem Keep.trans {h h' h'' : Heap K X} (a : Keep env h h') (b : Keep env h' h'') : Keep env h h'' :=
  fun r f M x => b r f M (a r f M x)

theorem full_gives {h : Heap K X} {r : Nat} {P : Fmt → Prop} {M : Mat F} (hg : h.Gives env P r M) :
    ∃ f h', P f ∧ Heap.full env r h = (.ok (f, M), h') ∧ Keep env h h' := by
  unfold Gives at hg
  split at hg
  · rename_i s hs
    have hfull : Heap.full env r h = Heap.call r (KMState.full env) h := by
      unfold Heap.full; rw [hs]
    have hc := call_km (KMState.full env) hs
    obtain ⟨f, hf, h1, -⟩ := hg.run
    rw [h1] at hc
    refine ⟨f, _, hf, hfull.trans hc, ?_⟩
    intro P' r' M' hg'
    unfold Gives at hg' ⊢
    show match Function.update h.objs r (some (Obj.km (KMState.full env s).2)) r' with | some (.km s) => _ | some (.pre p) => _ | none => _
    by_cases hr : r' = r
    · subst hr
      rw [Function.update_self]
      rw [hs] at hg'
      obtain ⟨-, -, -, h2⟩ := KMState.GivesFull.run hg'
      exact h2
    · rw [Function.update_of_ne hr]
      exact hg'
  · rename_i p hp
    refine ⟨.dense, h, hg.1, ?_, .refl _⟩
    unfold Heap.full
    rw [hp, hg.2]
  · exact hg.elim

end Heap

theorem GivesAll.keep {n m : Nat} {h h' : Heap K X} {P : Fmt → Prop} {l : List Nat} {Ks : List (Matrix (Fin n) (Fin m) ℝ)} (hk : Heap.Keep env h h')
    (hg : h.GivesAll env P l Ks) : h'.GivesAll env P l Ks :=
  hg.imp fun _ _ hf => hk _ _ _ hf

/-! arithmetic on finite matrices -/

theorem zipBcast_ofReal {n m : Nat} (f : F → F → F) (g : ℝ → ℝ → ℝ) (hfg : ∀ x y, f (.real x) (.real y) = .real (g x y))
    (A B : Matrix (Fin n) (Fin m) ℝ) :
    Mat.zipBcast f (Mat.ofReal A) (Mat.ofReal B) = .ok (Mat.ofReal fun i j => g (A i j) (B i j)) := by
  show (bcastDim n n >>= fun n' => bcastDim m m >>= fun m' => _) = _
  rw [bcastDim_self, bcastDim_self]
  show Except.ok (Mat.ofCells n m _) = _
  congr 1
  unfold Mat.ofCells Mat.ofReal
  congr 1
  funext i j
  show f ((Mat.ofReal A).bcastGet i j) ((Mat.ofReal B).bcastGet i j) = _
  rw [bcastGet_ofReal A i.2 j.2, bcastGet_ofReal B i.2 j.2, hfg]

theorem bcastDim_one (n : Nat) : bcastDim 1 n = .ok n := by
  unfold bcastDim
  split
  · rename_i h; rw [h]
  · rw [if_pos rfl]

/-- a row of zeros plus a matrix -/
theorem zipBcast_row {n m : Nat} (B : Matrix (Fin n) (Fin m) ℝ) :
    Mat.zipBcast (· + ·) (Mat.const 1 m 0) (Mat.ofReal B) = .ok (Mat.ofReal B) := by
  show (bcastDim 1 n >>= fun n' => bcastDim m m >>= fun m' => _) = _
  rw [bcastDim_one, bcastDim_self]
  show Except.ok (Mat.ofCells n m _) = _
  congr 1
  unfold Mat.ofCells Mat.ofReal
  congr 1
  funext i j
  show (Mat.const 1 m 0).bcastGet i j + (Mat.ofReal B).bcastGet i j = _
  have h0 : (Mat.const 1 m 0).bcastGet i j = .real 0 := by
    unfold Mat.bcastGet Mat.const
    have hj := j.2
    have : (0 : Nat) < 1 ∧ (if m = 1 then 0 else (j : Nat)) < m := by
      refine ⟨Nat.one_pos, ?_⟩
      split
      · omega
      · exact hj
    simp only [if_true]
    rw [dif_pos this]
    rfl
  rw [h0, bcastGet_ofReal B i.2 j.2, F.real_add, zero_add]

theorem const_ofReal (n m : Nat) (v : ℝ) : Mat.const n m (.real v) = Mat.ofReal fun (_ : Fin n) (_ : Fin m) => v := rfl

theorem scale_ofReal {n m : Nat} (w : ℝ) (f : Fmt) (A : Matrix (Fin n) (Fin m) ℝ) :
    scaleStored (.real w) (f, Mat.ofReal A) = (f, Mat.ofReal fun i j => w * A i j) := rfl

theorem addStored_ofReal {n m : Nat} (f g : Fmt) (A B : Matrix (Fin n) (Fin m) ℝ) :
    ∃ r, addStored (f, Mat.ofReal A) (g, Mat.ofReal B) = .ok (r, Mat.ofReal fun i j => A i j + B i j) ∧
      (f = .dense → g = .dense → r = .dense) := by
  have hz := zipBcast_ofReal (· + ·) (· + ·) F.real_add A B
  unfold addStored
  by_cases hg : g = .sparse
  · refine ⟨.npMatrix, ?_, fun _ h => ?_⟩
    · show (if g = .sparse then _ else _) = _
      rw [if_pos hg, hz]
      show (if _ then _ else _) = _
      rw [if_pos ⟨rfl, rfl⟩]
    · rw [hg] at h; cases h
  · refine ⟨if f = .dense ∧ g = .dense then .dense else .npMatrix, ?_, fun h1 h2 => if_pos ⟨h1, h2⟩⟩
    show (if g = .sparse then _ else _) = _
    rw [if_neg hg, hz]
    rfl

theorem addStored_row {n m : Nat} (g : Fmt) (B : Matrix (Fin n) (Fin m) ℝ) :
    ∃ r, addStored (.dense, Mat.const 1 m 0) (g, Mat.ofReal B) = .ok (r, Mat.ofReal B) ∧ (g = .dense → r = .dense) := by
  have hz := zipBcast_row B
  unfold addStored
  by_cases hg : g = .sparse
  · refine ⟨.npMatrix, ?_, fun h => ?_⟩
    · show (if g = .sparse then _ else _) = _
      rw [if_pos hg, hz]
      show (if _ then _ else _) = _
      rw [if_pos ⟨rfl, rfl⟩]
    · rw [hg] at h; cases h
  · refine ⟨if g = .dense then .dense else .npMatrix, ?_, fun h1 => if_pos h1⟩
    show (if g = .sparse then _ else _) = _
    rw [if_neg hg, hz]
    show Except.ok ((if Fmt.dense = .dense ∧ g = .dense then Fmt.dense else .npMatrix), _) = _
    simp

theorem mulStored_ofReal {n m : Nat} (A B : Matrix (Fin n) (Fin m) ℝ) :
    mulStored (.dense, Mat.ofReal A) (.dense, Mat.ofReal B) = .ok (.dense, Mat.ofReal fun i j => A i j * B i j) := by
  have hz := zipBcast_ofReal (· * ·) (· * ·) F.real_mul A B
  unfold mulStored
  show (if Fmt.dense = .dense ∧ Fmt.dense = .dense then _ else _) = _
  rw [if_pos ⟨rfl, rfl⟩, hz]
  rfl

/-! the loops -/

namespace CompSt

theorem step_run {s : CompSt K X} {acc acc' M : Fmt × Mat F} {h' : Heap K X} {r : Nat}
    {g : Fmt × Mat F → Fmt × Mat F → Except PyErr (Fmt × Mat F)} (h1 : s.comp.km = some acc) (h2 : Heap.full env r s.heap = (.ok M, h'))
    (h3 : g acc M = .ok acc') :
    step env g r s = (.ok (), ⟨h', s.set, { s.comp with km := some acc' }⟩) := by
  unfold step
  rw [bind_ok (getAttr_run_some (fun s : CompSt K X => s.comp.km) s acc h1)]
  have : onSet (SetSt.onHeap (Heap.full env r)) s = (.ok M, ⟨h', s.set, s.comp⟩) := by
    unfold onSet SetSt.onHeap
    rw [h2]
  rw [bind_ok this, h3]
  rfl

theorem sum_loop {n : Nat} {P : Fmt → Prop} {w : List ℝ} {l : List Nat} {Ks : List (Matrix (Fin n) (Fin n) ℝ)} {s : CompSt K X} {f : Fmt}
    {A : Matrix (Fin n) (Fin n) ℝ} (hs : s.comp.km = some (f, Mat.ofReal A)) (hg : s.heap.GivesAll env P l Ks) :
    ∃ h' r, forEach ((w.map F.real).zip l) (fun p => step env (fun acc M => addStored acc (scaleStored p.1 M)) p.2) s =
        (.ok (), ⟨h', s.set, { s.comp with km := some (r, Mat.ofReal fun i j => A i j + wsum w Ks i j) }⟩) ∧
      Heap.Keep env s.heap h' ∧ (f = .dense → (∀ g, P g → g = .dense) → r = .dense) := by
  induction l generalizing w Ks s f A with
  | nil =>
    cases hg
    refine ⟨s.heap, f, ?_, .refl _, fun h _ => h⟩
    have : (fun i j => A i j + wsum w ([] : List (Matrix (Fin n) (Fin n) ℝ)) i j) = A := by funext i j; simp [wsum]
    rw [this]
    obtain ⟨hp, st, ⟨a, b, c, d⟩⟩ := s
    obtain rfl : d = _ := hs
    simp [forEach]
  | cons x l ih =>
    cases hg with
    | @cons _ B _ Ks hx hl =>
      cases w with
      | nil =>
        refine ⟨s.heap, f, ?_, .refl _, fun h _ => h⟩
        have : (fun i j => A i j + wsum ([] : List ℝ) (B :: Ks) i j) = A := by funext i j; simp [wsum]
        rw [this]
        obtain ⟨hp, st, ⟨a, b, c, d⟩⟩ := s
        obtain rfl : d = _ := hs
        simp [forEach]
      | cons w0 w =>
        obtain ⟨g, h1, hP, e1, k1⟩ := Heap.full_gives hx
        obtain ⟨r1, e2, d1⟩ := addStored_ofReal f g A (fun i j => w0 * B i j)
        have hstep := step_run (g := fun acc M => addStored acc (scaleStored (.real w0) M)) hs e1 (by
          show addStored _ (scaleStored _ _) = _
          rw [scale_ofReal]; exact e2)
        obtain ⟨h', r, e3, k3, d3⟩ := ih (w := w) (Ks := Ks)
          (s := ⟨h1, s.set, { s.comp with km := some (r1, Mat.ofReal fun i j => A i j + w0 * B i j) }⟩) rfl (GivesAll.keep k1 hl)
        refine ⟨h', r, ?_, k1.trans k3, ?_⟩
        · show (step env _ x >>= fun _ => forEach _ _) s = _
          rw [bind_ok hstep]
          refine e3.trans ?_
          rw [show (fun i j => A i j + w0 * B i j + wsum w Ks i j) = fun i j => A i j + wsum (w0 :: w) (B :: Ks) i j from by
            funext i j; simp [wsum, add_assoc]]
        · exact fun hf hd => d3 (d1 hf (hd g hP)) hd

theorem prod_loop {n : Nat} {l : List Nat} {Ks : List (Matrix (Fin n) (Fin n) ℝ)} {s : CompSt K X}
    {A : Matrix (Fin n) (Fin n) ℝ} (hs : s.comp.km = some (.dense, Mat.ofReal A)) (hg : s.heap.GivesAll env IsDense l Ks) :
    ∃ h', forEach l (step env mulStored) s =
        (.ok (), ⟨h', s.set, { s.comp with km := some (.dense, Mat.ofReal fun i j => A i j * eprod Ks i j) }⟩) ∧
      Heap.Keep env s.heap h' := by
  induction l generalizing Ks s A with
  | nil =>
    cases hg
    refine ⟨s.heap, ?_, .refl _⟩
    have : (fun i j => A i j * eprod ([] : List (Matrix (Fin n) (Fin n) ℝ)) i j) = A := by funext i j; simp [eprod]
    rw [this]
    obtain ⟨hp, st, ⟨a, b, c, d⟩⟩ := s
    obtain rfl : d = _ := hs
    simp [forEach]
  | cons x l ih =>
    cases hg with
    | @cons _ B _ Ks hx hl =>
      obtain ⟨g, h1, hP, e1, k1⟩ := Heap.full_gives hx
      obtain rfl : g = .dense := hP
      have hstep := step_run (g := mulStored) hs e1 (mulStored_ofReal A B)
      obtain ⟨h', e3, k3⟩ := ih (Ks := Ks)
        (s := ⟨h1, s.set, { s.comp with km := some (.dense, Mat.ofReal fun i j => A i j * B i j) }⟩) rfl (GivesAll.keep k1 hl)
      refine ⟨h', ?_, k1.trans k3⟩
      show (step env _ x >>= fun _ => forEach _ _) s = _
      rw [bind_ok hstep]
      refine e3.trans ?_
      rw [show (fun i j => A i j * B i j * eprod Ks i j) = fun i j => A i j * eprod (B :: Ks) i j from by
        funext i j; simp [eprod, mul_assoc]]

/-- summing without weights is summing with unit weights -/
theorem plain_loop (l : List Nat) (s : CompSt K X) :
    forEach l (step env addStored) s =
      forEach (((List.replicate l.length (1 : ℝ)).map F.real).zip l) (fun p => step env (fun acc M => addStored acc (scaleStored p.1 M)) p.2) s := by
  have hone : ∀ M : Fmt × Mat F, scaleStored (.real 1) M = M := by
    rintro ⟨f, ⟨n, m, g⟩⟩
    unfold scaleStored Mat.map
    have : ∀ v : F, F.real 1 * v = v := by
      intro v
      cases v with
      | real x => show F.real (1 * x) = _; rw [one_mul]
      | nan => rfl
    simp only [this]
  induction l generalizing s with
  | nil => rfl
  | cons x l ih =>
    show (step env addStored x >>= fun _ => forEach l _) s = (step env (fun acc M => addStored acc (scaleStored (.real 1) M)) x >>= fun _ => forEach _ _) s
    simp only [hone]
    rw [bind_run, bind_run]
    rcases step env (fun acc M => addStored acc M) x s with ⟨e | u, s'⟩
    · rfl
    · exact ih s'

theorem weightedSum_run {n : Nat} {P : Fmt → Prop} {w : List ℝ} {Ks : List (Matrix (Fin n) (Fin n) ℝ)} {s : CompSt K X}
    (hn : s.comp.numSamples = .one n) (hg : s.heap.GivesAll env P s.set.members Ks) :
    ∃ h' r, weightedSum env (w.map F.real) s = (.ok (), ⟨h', s.set, { s.comp with km := some (r, Mat.ofReal (wsum w Ks)) }⟩) ∧
      Heap.Keep env s.heap h' ∧ ((∀ g, P g → g = .dense) → r = .dense) := by
  obtain ⟨h', r, e, k, d⟩ := sum_loop (w := w) (env := env)
    (s := ⟨s.heap, s.set, { s.comp with km := some (.dense, Mat.ofReal fun (_ _ : Fin n) => (0 : ℝ)) }⟩) rfl hg
  refine ⟨h', r, ?_, k, d rfl⟩
  unfold weightedSum
  rw [get_bind_run, hn]
  show forEach _ _ (⟨s.heap, s.set, { s.comp with km := some (.dense, Mat.const n n 0) }⟩ : CompSt K X) = _
  have : Mat.const n n 0 = Mat.ofReal fun (_ _ : Fin n) => (0 : ℝ) := rfl
  rw [this]
  refine e.trans ?_
  rw [show (fun i j => 0 + wsum w Ks i j) = wsum w Ks from by funext i j; rw [zero_add]]

theorem fit_ok {w : Option WeightsIn} {s s' : CompSt K X} (h : fitBody env w s s = (.ok (), s')) :
    fit env w s = (.ok (), { s' with comp := { s'.comp with isFitted := true } }) := by
  unfold fit
  rw [get_bind_run, bind_ok h]
  rfl

theorem fit_error {w : Option WeightsIn} {s s' : CompSt K X} {e : PyErr} (h : fitBody env w s s = (.error e, s')) :
    fit env w s = (.error e, s') := by
  unfold fit
  rw [get_bind_run, bind_error h]

theorem compositeKM_run {h : Heap K X} {t : KSet} {c : Comp} {M : Fmt × Mat F} (h1 : c.isFitted = true) (h2 : c.km = some M) :
    compositeKM (⟨h, t, c⟩ : CompSt K X) = (.ok M, ⟨h, t, c⟩) := by
  unfold compositeKM
  rw [get_bind_run]
  show (raiseIf (!c.isFitted) .valueError >>= fun _ => _ : PyM (CompSt K X) _) _ = _
  rw [h1]
  exact getAttr_run_some (fun s : CompSt K X => s.comp.km) _ _ h2

end CompSt

theorem WeightsIn.IsVec.to1D {w : WeightsIn} {l : List ℝ} (h : w.IsVec l) : w.to1D = .ok (l.map F.real) := by
  obtain ⟨d, k, hd, rfl⟩ := h
  show (ensureNdarray1D _).map _ = _
  unfold ensureNdarray1D
  have := (ensureNdarraySize_iff (⟨d, squeezeAbove 0 (l.length :: List.replicate k 1), l.map F.real⟩ : NdArray F) _ .number 1).2
    ⟨(squeezeAbove_zero_length _).2 ⟨_, _, rfl⟩, hd, rfl⟩
  rw [this]
  rfl

theorem WeightsIn.IsVec.len {w : WeightsIn} {l : List ℝ} (h : w.IsVec l) : w.len = .ok l.length := by
  obtain ⟨d, k, hd, rfl⟩ := h
  rfl

theorem WeightsIn.IsVec.checked {w : WeightsIn} {l : List ℝ} (h : w.IsVec l) (size : Nat) :
    w.checked size = if size = l.length then .ok (l.map F.real) else .error .valueError := by
  show (w.len >>= _) = _
  rw [h.len]
  show (if size = l.length then w.to1D else _) = _
  rw [h.to1D]

theorem foldl_real (l : List ℝ) (a : ℝ) : (l.map F.real).foldl (· + ·) (.real a) = .real (a + l.sum) := by
  induction l generalizing a with
  | nil => simp
  | cons x l ih =>
    rw [List.map_cons, List.foldl_cons, F.real_add, ih, List.sum_cons, add_assoc]

theorem combLoop_run {n m : Nat} {P : Fmt → Prop} {w : List ℝ} {l : List Nat} {Ks : List (Matrix (Fin n) (Fin m) ℝ)} {h : Heap K X} {f : Fmt}
    {A : Matrix (Fin n) (Fin m) ℝ} (hg : h.GivesAll env P l Ks) :
    ∃ h' r, combLoop env ((w.map F.real).zip l) (f, Mat.ofReal A) h = (.ok (r, Mat.ofReal fun i j => A i j + wsum w Ks i j), h') ∧
      (f = .dense → (∀ g, P g → g = .dense) → r = .dense) := by
  induction l generalizing w Ks h f A with
  | nil =>
    cases hg
    refine ⟨h, f, ?_, fun h _ => h⟩
    have : (fun i j => A i j + wsum w ([] : List (Matrix (Fin n) (Fin m) ℝ)) i j) = A := by funext i j; simp [wsum]
    rw [this]
    simp [combLoop]
  | cons x l ih =>
    cases hg with
    | @cons _ B _ Ks hx hl =>
      cases w with
      | nil =>
        refine ⟨h, f, ?_, fun h _ => h⟩
        have : (fun i j => A i j + wsum ([] : List ℝ) (B :: Ks) i j) = A := by funext i j; simp [wsum]
        rw [this]
        simp [combLoop]
      | cons w0 w =>
        obtain ⟨g, h1, hP, e1, k1⟩ := Heap.full_gives hx
        obtain ⟨r1, e2, d1⟩ := addStored_ofReal f g A (fun i j => w0 * B i j)
        obtain ⟨h', r, e3, d3⟩ := ih (w := w) (Ks := Ks) (h := h1) (f := r1) (A := fun i j => A i j + w0 * B i j) (GivesAll.keep k1 hl)
        refine ⟨h', r, ?_, ?_⟩
        · show (Heap.full env x >>= fun M => lift (addStored _ (scaleStored (.real w0) M)) >>= fun acc' => combLoop env _ acc') h = _
          rw [bind_ok e1, scale_ofReal, e2]
          refine e3.trans ?_
          congr 4
          funext i j
          simp [wsum, add_assoc]
        · exact fun hf hd => d3 (d1 hf (hd g hP)) hd

/-- the loop of `linear_combination` for a set of square matrices starts with a row of zeros -/
theorem combLoop_row {n m : Nat} {P : Fmt → Prop} {w : List ℝ} {l : List Nat} {Ks : List (Matrix (Fin n) (Fin m) ℝ)} {h : Heap K X}
    (hw : w ≠ []) (hl : l ≠ []) (hg : h.GivesAll env P l Ks) :
    ∃ h' r, combLoop env ((w.map F.real).zip l) (.dense, Mat.const 1 m 0) h = (.ok (r, Mat.ofReal (wsum w Ks)), h') ∧
      ((∀ g, P g → g = .dense) → r = .dense) := by
  cases hg with
  | nil => exact absurd rfl hl
  | @cons x B l Ks hx hl' =>
    cases w with
    | nil => exact absurd rfl hw
    | cons w0 w =>
      obtain ⟨g, h1, hP, e1, k1⟩ := Heap.full_gives hx
      obtain ⟨r1, e2, d1⟩ := addStored_row g (fun i j => w0 * B i j)
      obtain ⟨h', r, e3, d3⟩ := combLoop_run (w := w) (Ks := Ks) (h := h1) (f := r1) (A := fun i j => w0 * B i j) (GivesAll.keep k1 hl')
      refine ⟨h', r, ?_, ?_⟩
      · show (Heap.full env x >>= fun M => lift (addStored _ (scaleStored (.real w0) M)) >>= fun acc' => combLoop env _ acc') h = _
        rw [bind_ok e1, scale_ofReal, e2]
        refine e3.trans ?_
        congr 4
      · exact fun hd => d3 (d1 (hd g hP)) hd

end KMethods
