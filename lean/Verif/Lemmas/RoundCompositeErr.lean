import Verif.Lemmas.RoundComposite
import Verif.Lemmas.RoundRank
/-!
# Errors of composite kernels in floating point arithmetic
-/
namespace KMethods
open PyM KMState Rounding SumTree
variable {K X : Type} {env : Env K X F} {R : Rounding} {P : Fmt → Prop} {n m : Nat}

/-! ### same shapes, same errors -/

/-- storage and shape -/
def storedShape (M : Fmt × Mat F) : Fmt × Nat × Nat := (M.1, M.2.nrows, M.2.ncols)

theorem zipBcast_shape (f g : F → F → F) {A A' B B' : Mat F} (hA : (A.nrows, A.ncols) = (A'.nrows, A'.ncols)) (hB : (B.nrows, B.ncols) = (B'.nrows, B'.ncols)) :
    (Mat.zipBcast f A B).map (fun M => (M.nrows, M.ncols)) = (Mat.zipBcast g A' B').map fun M => (M.nrows, M.ncols) := by
  obtain ⟨a1, a2⟩ := Prod.mk.inj hA
  obtain ⟨b1, b2⟩ := Prod.mk.inj hB
  unfold Mat.zipBcast
  rw [a1, a2, b1, b2]
  rcases bcastDim A'.nrows B'.nrows with e | r
  · rfl
  · rcases bcastDim A'.ncols B'.ncols with e | c
    · rfl
    · rfl

theorem storedShape_inj {a b : Fmt × Mat F} (h : storedShape a = storedShape b) : a.1 = b.1 ∧ (a.2.nrows, a.2.ncols) = (b.2.nrows, b.2.ncols) :=
  ⟨congrArg (fun t : Fmt × Nat × Nat => t.1) h, congrArg (fun t : Fmt × Nat × Nat => t.2) h⟩

theorem addStored_shape {a a' M M' : Fmt × Mat F} (ha : storedShape a = storedShape a') (hM : storedShape M = storedShape M') :
    (addStored a M).map storedShape = (addStored a' M').map storedShape := by
  obtain ⟨a1, a2⟩ := storedShape_inj ha
  obtain ⟨b1, b2⟩ := storedShape_inj hM
  have hz := zipBcast_shape (· + ·) (· + ·) a2 b2
  unfold addStored
  rw [b1, a1]
  rcases h1 : Mat.zipBcast (· + ·) a.2 M.2 with e | S <;> rcases h2 : Mat.zipBcast (· + ·) a'.2 M'.2 with e' | S' <;> rw [h1, h2] at hz
  · obtain rfl : e = e' := by injection hz
    split <;> rfl
  · cases hz
  · cases hz
  · have hs : (S.nrows, S.ncols) = (S'.nrows, S'.ncols) := by injection hz
    obtain ⟨s1, s2⟩ := Prod.mk.inj hs
    obtain ⟨m1, m2⟩ := Prod.mk.inj b2
    split
    · show Except.map storedShape (if S.nrows = M.2.nrows ∧ S.ncols = M.2.ncols then _ else _) = Except.map storedShape (if S'.nrows = M'.2.nrows ∧ S'.ncols = M'.2.ncols then _ else _)
      rw [s1, s2, m1, m2]
      split
      · show Except.ok (_, S.nrows, S.ncols) = Except.ok (_, S'.nrows, S'.ncols)
        rw [s1, s2]
      · rfl
    · show Except.ok (_, S.nrows, S.ncols) = Except.ok (_, S'.nrows, S'.ncols)
      rw [s1, s2]

theorem addStoredFl_shape (a M : Fmt × Mat F) : (addStoredFl R a M).map storedShape = (addStored a M).map storedShape := by
  unfold addStoredFl
  rcases addStored a M with e | S <;> rfl

theorem mulStoredFl_shape {o : SumOrder} {a a' M : Fmt × Mat F} (ha : storedShape a = storedShape a') :
    (mulStoredFl R o a M).map storedShape = (mulStored a' M).map storedShape := by
  obtain ⟨a1, a2⟩ := storedShape_inj ha
  obtain ⟨n1, n2⟩ := Prod.mk.inj a2
  unfold mulStoredFl mulStored
  rw [a1]
  split
  · have hz := zipBcast_shape (fun a b => R.round (a * b)) (· * ·) a2 (rfl : (M.2.nrows, M.2.ncols) = _)
    rcases h1 : Mat.zipBcast (fun a b => R.round (a * b)) a.2 M.2 with e | S <;> rcases h2 : Mat.zipBcast (· * ·) a'.2 M.2 with e' | S' <;> rw [h1, h2] at hz
    · obtain rfl : e = e' := by injection hz
      rfl
    · cases hz
    · cases hz
    · have hs : (S.nrows, S.ncols) = (S'.nrows, S'.ncols) := by injection hz
      obtain ⟨s1, s2⟩ := Prod.mk.inj hs
      show Except.ok (_, S.nrows, S.ncols) = Except.ok (_, S'.nrows, S'.ncols)
      rw [s1, s2]
  · unfold Mat.dotFl Mat.dot
    by_cases h : a.2.ncols = M.2.nrows
    · rw [dif_pos h, dif_pos (n2 ▸ h)]
      exact congrArg (fun r => Except.ok ((if a'.1 = Fmt.npMatrix ∨ M.1 = Fmt.npMatrix then Fmt.npMatrix else Fmt.dense), r, M.2.ncols)) n1
    · rw [dif_neg h, dif_neg (n2 ▸ h)]

namespace CompSt

/-- equal up to the numbers in the composite matrix -/
def Like (s s' : CompSt K X) : Prop :=
  s.heap = s'.heap ∧ s.set = s'.set ∧ { s.comp with km := none } = { s'.comp with km := none } ∧ s.comp.km.map storedShape = s'.comp.km.map storedShape

theorem Like.refl (s : CompSt K X) : Like s s := ⟨rfl, rfl, rfl, rfl⟩

/-- same outcome, up to numbers -/
def LikeOut (a b : Except PyErr Unit × CompSt K X) : Prop := a.1 = b.1 ∧ Like a.2 b.2

theorem step_like {g g' : Fmt × Mat F → Fmt × Mat F → Except PyErr (Fmt × Mat F)}
    (hg : ∀ a a' M, storedShape a = storedShape a' → (g a M).map storedShape = (g' a' M).map storedShape) (r : Nat) {s s' : CompSt K X} (h : Like s s') :
    LikeOut (step env g r s) (step env g' r s') := by
  obtain ⟨hp, st, c⟩ := s
  obtain ⟨hp', st', c'⟩ := s'
  obtain ⟨rfl, rfl, hc, hk⟩ := h
  rw [step_cases, step_cases]
  dsimp only at hc hk ⊢
  rcases h1 : c.km with _ | acc <;> rcases h2 : c'.km with _ | acc' <;> rw [h1, h2] at hk
  · exact ⟨rfl, rfl, rfl, hc, by dsimp only; rw [h1, h2]⟩
  · cases hk
  · cases hk
  · have hsh : storedShape acc = storedShape acc' := by injection hk
    rcases Heap.full env r hp with ⟨e | M, h'⟩
    · exact ⟨rfl, rfl, rfl, hc, by dsimp only; rw [h1, h2]; exact hk⟩
    · have := hg acc acc' M hsh
      dsimp only
      rcases e1 : g acc M with e | a1 <;> rcases e2 : g' acc' M with e' | a2 <;> rw [e1, e2] at this
      · obtain rfl : e = e' := by injection this
        exact ⟨rfl, rfl, rfl, hc, by dsimp only; rw [h1, h2]; exact hk⟩
      · cases this
      · cases this
      · exact ⟨rfl, rfl, rfl, hc, congrArg some (Except.ok.inj this)⟩

theorem forEach_like {ι : Type} {b b' : ι → PyM (CompSt K X) Unit} (hb : ∀ p s s', Like s s' → LikeOut (b p s) (b' p s')) (l : List ι) {s s' : CompSt K X}
    (h : Like s s') : LikeOut (forEach l b s) (forEach l b' s') := by
  induction l generalizing s s' with
  | nil => exact ⟨rfl, h⟩
  | cons p l ih =>
    show LikeOut ((b p >>= fun _ => forEach l b) s) ((b' p >>= fun _ => forEach l b') s')
    have := hb p s s' h
    rw [bind_run, bind_run]
    generalize b p s = x at this ⊢
    generalize b' p s' = y at this ⊢
    obtain ⟨e | u, t⟩ := x <;> obtain ⟨e' | u', t'⟩ := y
    · exact this
    · cases this.1
    · cases this.1
    · exact ih this.2

theorem weightedSumFl_like (l : List F) (s : CompSt K X) : LikeOut (weightedSumFl env R l s) (weightedSum env l s) := by
  unfold weightedSumFl weightedSum
  rw [get_bind_run, get_bind_run]
  rcases hz : squareOf 0 s.comp.numSamples with e | Z
  · exact ⟨rfl, .refl s⟩
  · refine forEach_like (fun p s s' h => step_like (fun a a' M ha => ?_) p.2 h) _ (.refl _)
    rw [addStoredFl_shape]
    exact addStored_shape ha rfl

theorem fitBodyFl_like (o : SumOrder) (w : Option WeightsIn) (s : CompSt K X) : LikeOut (fitBodyFl env R o w s s) (fitBody env w s s) := by
  unfold fitBodyFl fitBody
  rcases s.comp.kind with _ | _ | _ | l
  · dsimp only
    rcases hw : sumWeights s.set.members.length w with e | l
    · exact ⟨rfl, .refl s⟩
    · exact weightedSumFl_like l s
  · dsimp only
    cases w with
    | some w => exact ⟨rfl, .refl s⟩
    | none =>
      rcases hz : squareOf 1 s.comp.numSamples with e | Z
      · exact ⟨rfl, .refl s⟩
      · exact forEach_like (b := step env (mulStoredFl R o)) (b' := step env mulStored)
          (fun p s s' h => step_like (g := mulStoredFl R o) (g' := mulStored) (fun a a' M ha => mulStoredFl_shape ha) p h) s.set.members
          (.refl (⟨s.heap, s.set, { s.comp with km := some (.dense, Z) }⟩ : CompSt K X))
  · dsimp only
    cases w with
    | some w => exact ⟨rfl, .refl s⟩
    | none =>
      rcases hz : squareOf 0 s.comp.numSamples with e | Z
      · exact ⟨rfl, .refl s⟩
      · have := forEach_like (b := step env (addStoredFl R)) (b' := step env addStored)
          (fun p s s' h => step_like (fun a a' M ha => by rw [addStoredFl_shape]; exact addStored_shape ha rfl) p h) s.set.members
          (.refl (⟨s.heap, s.set, { s.comp with km := some (.dense, Z) }⟩ : CompSt K X))
        show LikeOut ((forEach s.set.members (step env (addStoredFl R)) >>= _ : PyM (CompSt K X) Unit) (⟨s.heap, s.set, { s.comp with km := some (.dense, Z) }⟩ : CompSt K X))
          ((forEach s.set.members (step env addStored) >>= _ : PyM (CompSt K X) Unit) (⟨s.heap, s.set, { s.comp with km := some (.dense, Z) }⟩ : CompSt K X))
        rw [bind_run, bind_run]
        generalize forEach s.set.members (step env (addStoredFl R)) (⟨s.heap, s.set, { s.comp with km := some (.dense, Z) }⟩ : CompSt K X) = x at this ⊢
        generalize forEach s.set.members (step env addStored) (⟨s.heap, s.set, { s.comp with km := some (.dense, Z) }⟩ : CompSt K X) = y at this ⊢
        obtain ⟨e | u, t⟩ := x <;> obtain ⟨e' | u', t'⟩ := y
        · exact this
        · cases this.1
        · cases this.1
        · obtain ⟨-, h1, h2, h3, h4⟩ := this
          dsimp only at h1 h2 h3 h4 ⊢
          rw [bind_run, bind_run, getAttr_run, getAttr_run]
          obtain ⟨hp, st, c⟩ := t
          obtain ⟨hp', st', c'⟩ := t'
          obtain rfl : hp = hp' := h1
          obtain rfl : st = st' := h2
          dsimp only at h3 h4 ⊢
          rcases k1 : c.km with _ | acc <;> rcases k2 : c'.km with _ | acc' <;> rw [k1, k2] at h4
          · exact ⟨rfl, rfl, rfl, h3, by dsimp only; rw [k1, k2]⟩
          · cases h4
          · cases h4
          · exact ⟨rfl, rfl, rfl, h3, h4⟩
  · dsimp only
    cases w with
    | some w => exact ⟨rfl, .refl s⟩
    | none => exact weightedSumFl_like l s

theorem fitFl_like (o : SumOrder) (w : Option WeightsIn) (s : CompSt K X) : LikeOut (fitFl env R o w s) (fit env w s) := by
  have := fitBodyFl_like (env := env) (R := R) o w s
  unfold fitFl fit
  rw [get_bind_run, get_bind_run, bind_run, bind_run]
  generalize fitBodyFl env R o w s s = x at this ⊢
  generalize fitBody env w s s = y at this ⊢
  obtain ⟨e | u, t⟩ := x <;> obtain ⟨e' | u', t'⟩ := y
  · exact this
  · cases this.1
  · cases this.1
  · obtain ⟨-, h1, h2, h3, h4⟩ := this
    refine ⟨rfl, h1, h2, ?_, h4⟩
    have := congrArg (fun c : Comp => { c with isFitted := true }) h3
    exact this

end CompSt

theorem combLoopFl_like (l : List (F × Nat)) {a a' : Fmt × Mat F} (ha : storedShape a = storedShape a') (h : Heap K X) :
    (combLoopFl env R l a h).1.map storedShape = (combLoop env l a' h).1.map storedShape ∧ (combLoopFl env R l a h).2 = (combLoop env l a' h).2 := by
  induction l generalizing a a' h with
  | nil => exact ⟨congrArg Except.ok ha, rfl⟩
  | cons p l ih =>
    unfold combLoopFl combLoop
    rw [bind_run, bind_run]
    rcases Heap.full env p.2 h with ⟨e | M, h'⟩
    · exact ⟨rfl, rfl⟩
    · dsimp only
      have hs : (addStoredFl R a (scaleStoredFl R p.1 M)).map storedShape = (addStored a' (scaleStored p.1 M)).map storedShape := by
        rw [addStoredFl_shape]
        exact addStored_shape ha rfl
      generalize addStoredFl R a (scaleStoredFl R p.1 M) = x at hs ⊢
      generalize addStored a' (scaleStored p.1 M) = y at hs ⊢
      rcases x with e | b <;> rcases y with e' | b'
      · obtain rfl : e = e' := by injection hs
        exact ⟨rfl, rfl⟩
      · cases hs
      · cases hs
      · exact ih (Except.ok.inj hs) h'

/-! ### linear combinations -/

theorem wsum_fits {s : CompSt K X} {w : Option WeightsIn} {l : List ℝ} {Ks : List (Matrix (Fin n) (Fin n) ℝ)} (hc : s.Coeffs w l)
    (hn : s.comp.numSamples = .one n) (hg : s.heap.GivesAll env P s.set.members Ks) : s.Fits env P w (wsum l Ks) := by
  have hlen : Ks.length = s.set.members.length := (List.Forall₂.length_eq hg).symm
  cases hc with
  | plain hk =>
    refine fits_weighted hn hg ?_
    unfold CompSt.fitBody
    rw [hk]
    show (CompSt.weightedSum env (List.replicate s.set.members.length (.real 1))) s = _
    rw [List.map_replicate]
  | @given w l hk hw hl =>
    refine fits_weighted hn hg ?_
    unfold CompSt.fitBody
    rw [hk]
    show (lift (CompSt.sumWeights s.set.members.length (some w)) >>= fun l => CompSt.weightedSum env l : PyM (CompSt K X) Unit) s = _
    have : CompSt.sumWeights s.set.members.length (some w) = .ok (l.map F.real) := by
      show (w.to1D >>= fun l => if l.length ≠ s.set.members.length then _ else _) = _
      rw [hw.to1D]
      show (if (l.map F.real).length ≠ _ then _ else _) = _
      rw [if_neg (by simpa using hl)]
    rw [this]; rfl
  | average hk hne =>
    have := fits_average hk hn hne hg
    rw [← hlen, wsum_replicate]
    have e : emean Ks = fun i j => 1 / (Ks.length : ℝ) * (Ks.map fun A => A i j).sum := by
      funext i j; unfold emean; rw [div_eq_inv_mul, one_div]
    rwa [e] at this
  | weighted hk hl =>
    refine fits_weighted hn hg ?_
    unfold CompSt.fitBody
    rw [hk]; rfl

theorem wsumAbs_replicate (c : ℝ) (Ks : List (Matrix (Fin n) (Fin m) ℝ)) (i : Fin n) (j : Fin m) :
    wsumAbs (List.replicate Ks.length c) Ks i j = |c| * (Ks.map fun A => |A i j|).sum := by
  unfold wsumAbs
  induction Ks with
  | nil => simp
  | cons A L ih =>
    simp only [List.length_cons, List.replicate_succ, List.zip_cons_cons, List.map_cons, List.sum_cons, ih, mul_add]
    rw [abs_mul]

theorem abs_wsum_le (l : List ℝ) (Ks : List (Matrix (Fin n) (Fin m) ℝ)) (i : Fin n) (j : Fin m) : |wsum l Ks i j| ≤ wsumAbs l Ks i j := by
  unfold wsum wsumAbs
  induction l.zip Ks with
  | nil => simp
  | cons p L ih =>
    simp only [List.map_cons, List.sum_cons]
    exact (abs_add_le _ _).trans (add_le_add le_rfl ih)

theorem wsumAbs_nonneg (l : List ℝ) (Ks : List (Matrix (Fin n) (Fin m) ℝ)) (i : Fin n) (j : Fin m) : 0 ≤ wsumAbs l Ks i j :=
  (abs_nonneg _).trans (abs_wsum_le l Ks i j)

theorem wsumFl_fits {o : SumOrder} {s : CompSt K X} {w : Option WeightsIn} {l : List ℝ} {Ks : List (Matrix (Fin n) (Fin n) ℝ)} (hc : s.Coeffs w l)
    (hn : s.comp.numSamples = .one n) (hg : s.heap.GivesAll env P s.set.members Ks) :
    ∃ A, s.FitsFl env R o P w A ∧ (∀ i j, |A i j - wsum l Ks i j| ≤ (R.w ^ (Ks.length + 1) - 1) * wsumAbs l Ks i j) ∧
      ((∀ B ∈ Ks, ∀ i j, B i j = B j i) → ∀ i j, A i j = A j i) := by
  have hlen : Ks.length = s.set.members.length := (List.Forall₂.length_eq hg).symm
  have hsym : ∀ l : List ℝ, (∀ B ∈ Ks, ∀ i j, B i j = B j i) → ∀ i j, R.wsum l Ks i j = R.wsum l Ks j i := by
    intro l h i j
    unfold Rounding.wsum
    refine List.foldl_ext _ _ _ fun x p hp => ?_
    rw [h p.2 (List.of_mem_zip hp).2 i j]
  cases hc with
  | plain hk =>
    refine ⟨_, CompSt.fitsFl_weighted (l := List.replicate s.set.members.length 1) hn hg ?_, fun i j => Rounding.wsum_err _ Ks (by simp [hlen]) i j, hsym _⟩
    unfold CompSt.fitBodyFl
    rw [hk]
    show (CompSt.weightedSumFl env R (List.replicate s.set.members.length (.real 1))) s = _
    rw [List.map_replicate]
  | @given w l hk hw hl =>
    refine ⟨_, CompSt.fitsFl_weighted (l := l) hn hg ?_, fun i j => Rounding.wsum_err _ Ks (by rw [hl, hlen]) i j, hsym _⟩
    unfold CompSt.fitBodyFl
    rw [hk]
    show (lift (CompSt.sumWeights s.set.members.length (some w)) >>= fun l => CompSt.weightedSumFl env R l : PyM (CompSt K X) Unit) s = _
    have : CompSt.sumWeights s.set.members.length (some w) = .ok (l.map F.real) := by
      show (w.to1D >>= fun l => if l.length ≠ s.set.members.length then _ else _) = _
      rw [hw.to1D]
      show (if (l.map F.real).length ≠ _ then _ else _) = _
      rw [if_neg (by simpa using hl)]
    rw [this]; rfl
  | average hk hne =>
    refine ⟨_, CompSt.fitsFl_average hk hn hne hg, fun i j => ?_, fun h i j => ?_⟩
    · rw [← hlen, wsum_replicate, wsumAbs_replicate]
      have h0 : (0:ℝ) ≤ 1 / Ks.length := by positivity
      have h1 := Rounding.esum_err (R := R) Ks i j
      refine fl_step ?_ ?_
      · rw [show R.esum Ks i j / Ks.length - 1 / Ks.length * (Ks.map fun A => A i j).sum = 1 / Ks.length * (R.esum Ks i j - (Ks.map fun A => A i j).sum) by ring,
          abs_mul, abs_of_nonneg h0]
        calc _ ≤ _ := mul_le_mul_of_nonneg_left h1 h0
          _ = _ := by ring
      · have := abs_wsum_le (List.replicate Ks.length (1 / (Ks.length : ℝ))) Ks i j
        rwa [wsum_replicate, wsumAbs_replicate] at this
    · have : R.esum Ks i j = R.esum Ks j i := by
        unfold Rounding.esum
        refine List.foldl_ext _ _ _ fun x p hp => ?_
        rw [h p hp i j]
      show R.fl (R.esum Ks i j / _) = R.fl (R.esum Ks j i / _)
      rw [this]
  | weighted hk hl =>
    refine ⟨_, CompSt.fitsFl_weighted hn hg ?_, fun i j => Rounding.wsum_err _ Ks (by rw [hl, hlen]) i j, hsym _⟩
    unfold CompSt.fitBodyFl
    rw [hk]; rfl

theorem sqrt_add_le {a b c d : ℝ} (ha : 0 ≤ a) (hb : 0 ≤ b) (hc : 0 ≤ c) (hd : 0 ≤ d) :
    Real.sqrt a * Real.sqrt b + Real.sqrt c * Real.sqrt d ≤ Real.sqrt (a + c) * Real.sqrt (b + d) := by
  rw [← Real.sqrt_mul (add_nonneg ha hc)]
  apply Real.le_sqrt_of_sq_le
  have h1 := Real.sq_sqrt ha
  have h2 := Real.sq_sqrt hb
  have h3 := Real.sq_sqrt hc
  have h4 := Real.sq_sqrt hd
  nlinarith [sq_nonneg (Real.sqrt a * Real.sqrt d - Real.sqrt c * Real.sqrt b)]

/-- bounds of entries by diagonals carry over to non-negative combinations -/
theorem wsumAbs_le {l : List ℝ} {Ks : List (Matrix (Fin n) (Fin n) ℝ)} (hl : ∀ x ∈ l, 0 ≤ x) (hK : ∀ A ∈ Ks, IsPSD A) (i j : Fin n) :
    wsumAbs l Ks i j ≤ Real.sqrt (wsum l Ks i i) * Real.sqrt (wsum l Ks j j) := by
  have : ∀ L : List (ℝ × Matrix (Fin n) (Fin n) ℝ), (∀ p ∈ L, 0 ≤ p.1 ∧ IsPSD p.2) →
      (0 ≤ (L.map fun p => p.1 * p.2 i i).sum ∧ 0 ≤ (L.map fun p => p.1 * p.2 j j).sum) ∧
      (L.map fun p => |p.1 * p.2 i j|).sum ≤ Real.sqrt (L.map fun p => p.1 * p.2 i i).sum * Real.sqrt (L.map fun p => p.1 * p.2 j j).sum := by
    intro L
    induction L with
    | nil => simp
    | cons p L ih =>
      intro h
      obtain ⟨⟨h1, h2⟩, h3⟩ := ih fun q hq => h q (List.mem_cons_of_mem _ hq)
      obtain ⟨hp, hP⟩ := h p List.mem_cons_self
      have a1 := mul_nonneg hp (hP.diag_nonneg i)
      have a2 := mul_nonneg hp (hP.diag_nonneg j)
      simp only [List.map_cons, List.sum_cons]
      refine ⟨⟨add_nonneg a1 h1, add_nonneg a2 h2⟩, le_trans (add_le_add ?_ h3) (sqrt_add_le a1 a2 h1 h2)⟩
      rw [← Real.sqrt_mul a1]
      refine Real.abs_le_sqrt ?_
      have := hP.sq_le i j
      nlinarith [mul_le_mul_of_nonneg_left this (mul_self_nonneg p.1)]
  exact (this (l.zip Ks) fun p hp => ⟨hl _ (List.of_mem_zip hp).1, hK _ (List.of_mem_zip hp).2⟩).2

/-! ### weights -/

theorem sumFl_real (o : FlatOrder) (l : List ℝ) :
    sumFl R o (l.map F.real) = .real ((o.tree (l.map F.real).length).dotR R (fun i => l.get (Fin.cast (List.length_map _) i)) fun _ => 1) := by
  unfold sumFl
  rw [← SumTree.dot_real]
  congr 1
  funext i
  simp

theorem sumFl_rel (o : FlatOrder) {l : List ℝ} (h0 : ∀ x ∈ l, 0 ≤ x) : ∃ d, sumFl R o (l.map F.real) = .real d ∧ R.Rel l.length d l.sum := by
  refine ⟨_, sumFl_real o l, ?_⟩
  have h := SumTree.dotR_rel (R := R) (a := fun i => l.get (Fin.cast (List.length_map _) i)) (b := fun _ => 1)
    (fun i => by rw [mul_one]; exact h0 _ (List.get_mem _ _)) (o.tree (l.map F.real).length)
  rw [(o.complete _).length, (o.complete _).total] at h
  simp only [mul_one] at h
  have e : ∑ i : Fin (l.map F.real).length, l.get (Fin.cast (List.length_map _) i) = l.sum := by
    refine (Fintype.sum_equiv (finCongr (List.length_map F.real)) _ (fun i => l.get i) fun i => rfl).trans ?_
    rw [← List.sum_ofFn, List.ofFn_get]
  rw [e] at h
  exact h.mono (List.length_map _).le

/-! ### members with errors -/

theorem wroot_le {l : List ℝ} {Ks : List (Matrix (Fin n) (Fin n) ℝ)} (hl : ∀ x ∈ l, 0 ≤ x) (hK : ∀ A ∈ Ks, IsPSD A) (i j : Fin n) :
    ((l.zip Ks).map fun p => p.1 * (Real.sqrt (p.2 i i) * Real.sqrt (p.2 j j))).sum ≤ Real.sqrt (wsum l Ks i i) * Real.sqrt (wsum l Ks j j) := by
  have : ∀ L : List (ℝ × Matrix (Fin n) (Fin n) ℝ), (∀ p ∈ L, 0 ≤ p.1 ∧ IsPSD p.2) →
      (0 ≤ (L.map fun p => p.1 * p.2 i i).sum ∧ 0 ≤ (L.map fun p => p.1 * p.2 j j).sum) ∧
      (L.map fun p => p.1 * (Real.sqrt (p.2 i i) * Real.sqrt (p.2 j j))).sum ≤
        Real.sqrt (L.map fun p => p.1 * p.2 i i).sum * Real.sqrt (L.map fun p => p.1 * p.2 j j).sum := by
    intro L
    induction L with
    | nil => simp
    | cons p L ih =>
      intro h
      obtain ⟨⟨h1, h2⟩, h3⟩ := ih fun q hq => h q (List.mem_cons_of_mem _ hq)
      obtain ⟨hp, hP⟩ := h p List.mem_cons_self
      have a1 := mul_nonneg hp (hP.diag_nonneg i)
      have a2 := mul_nonneg hp (hP.diag_nonneg j)
      simp only [List.map_cons, List.sum_cons]
      refine ⟨⟨add_nonneg a1 h1, add_nonneg a2 h2⟩, le_trans (add_le_add (le_of_eq ?_) h3) (sqrt_add_le a1 a2 h1 h2)⟩
      rw [Real.sqrt_mul hp, Real.sqrt_mul hp]
      calc _ = Real.sqrt p.1 * Real.sqrt p.1 * (Real.sqrt (p.2 i i) * Real.sqrt (p.2 j j)) := by rw [Real.mul_self_sqrt hp]
        _ = _ := by ring
  exact (this (l.zip Ks) fun p hp => ⟨hl _ (List.of_mem_zip hp).1, hK _ (List.of_mem_zip hp).2⟩).2

theorem entry_le {S : Matrix (Fin n) (Fin n) ℝ} (hS : IsPSD S) (i j : Fin n) : |S i j| ≤ Real.sqrt (S i i) * Real.sqrt (S j j) := by
  rw [← Real.sqrt_mul (hS.diag_nonneg i)]
  exact Real.abs_le_sqrt (hS.sq_le i j)

theorem CloseTo.le {H S : Matrix (Fin n) (Fin n) ℝ} {η : ℝ} (h : CloseTo η H S) (hS : IsPSD S) (i j : Fin n) :
    |H i j| ≤ (1 + η) * (Real.sqrt (S i i) * Real.sqrt (S j j)) := by
  have h1 := h i j
  have h2 := entry_le hS i j
  have h3 := abs_sub_abs_le_abs_sub (H i j) (S i j)
  linarith

theorem wsum_close {l : List ℝ} {Hs Ks : List (Matrix (Fin n) (Fin n) ℝ)} {η : ℝ} (hη : 0 ≤ η) (hl : ∀ x ∈ l, 0 ≤ x) (hK : ∀ A ∈ Ks, IsPSD A)
    (hc : List.Forall₂ (CloseTo η) Hs Ks) (i j : Fin n) :
    |wsum l Hs i j - wsum l Ks i j| ≤ η * (Real.sqrt (wsum l Ks i i) * Real.sqrt (wsum l Ks j j)) ∧
    wsumAbs l Hs i j ≤ (1 + η) * (Real.sqrt (wsum l Ks i i) * Real.sqrt (wsum l Ks j j)) := by
  have key : |wsum l Hs i j - wsum l Ks i j| ≤ η * ((l.zip Ks).map fun p => p.1 * (Real.sqrt (p.2 i i) * Real.sqrt (p.2 j j))).sum ∧
      wsumAbs l Hs i j ≤ (1 + η) * ((l.zip Ks).map fun p => p.1 * (Real.sqrt (p.2 i i) * Real.sqrt (p.2 j j))).sum := by
    unfold wsum wsumAbs
    induction hc generalizing l with
    | nil => simp
    | @cons H S Hs Ks h _ ih =>
      cases l with
      | nil => simp
      | cons c l =>
        obtain ⟨h1, h2⟩ := ih (l := l) (fun x hx => hl x (List.mem_cons_of_mem _ hx)) fun A hA => hK A (List.mem_cons_of_mem _ hA)
        have hc0 := hl c List.mem_cons_self
        have hS := hK S List.mem_cons_self
        simp only [List.zip_cons_cons, List.map_cons, List.sum_cons, mul_add]
        constructor
        · refine le_trans (le_of_eq_of_le ?_ (abs_add_le (c * (H i j - S i j)) _)) (add_le_add ?_ h1)
          · congr 1; ring
          · rw [abs_mul, abs_of_nonneg hc0]
            calc _ ≤ _ := mul_le_mul_of_nonneg_left (h i j) hc0
              _ = _ := by ring
        · refine add_le_add ?_ h2
          rw [abs_mul, abs_of_nonneg hc0]
          calc _ ≤ _ := mul_le_mul_of_nonneg_left (h.le hS i j) hc0
            _ = _ := by ring
  have hr := wroot_le hl hK i j
  exact ⟨key.1.trans (mul_le_mul_of_nonneg_left hr hη), key.2.trans (mul_le_mul_of_nonneg_left hr (by linarith))⟩

theorem eprod_close {Hs Ks : List (Matrix (Fin n) (Fin n) ℝ)} {η : ℝ} (hη : 0 ≤ η) (hK : ∀ A ∈ Ks, IsPSD A) (hc : List.Forall₂ (CloseTo η) Hs Ks) :
    CloseTo ((1 + η) ^ Ks.length - 1) (eprod Hs) (eprod Ks) := by
  intro i j
  induction hc with
  | nil => simp [eprod]
  | @cons H S Hs Ks h _ ih =>
    have h1 := ih fun A hA => hK A (List.mem_cons_of_mem _ hA)
    have hS := hK S List.mem_cons_self
    have hP : IsPSD (eprod Ks) := isPSD_eprod fun A hA => hK A (List.mem_cons_of_mem _ hA)
    have e : ∀ (B : Matrix (Fin n) (Fin n) ℝ) (L : List (Matrix (Fin n) (Fin n) ℝ)) (a b : Fin n), eprod (B :: L) a b = B a b * eprod L a b := fun B L a b => by
      simp [eprod]
    rw [e, e, e, e, Real.sqrt_mul (hS.diag_nonneg i), Real.sqrt_mul (hS.diag_nonneg j), List.length_cons, pow_succ]
    set q := Real.sqrt (eprod Ks i i) * Real.sqrt (eprod Ks j j) with hq
    set r := Real.sqrt (S i i) * Real.sqrt (S j j) with hr
    have hq0 : 0 ≤ q := by positivity
    have hr0 : 0 ≤ r := by positivity
    have h2 := h i j
    have h3 : |H i j| ≤ (1 + η) * r := h.le hS i j
    have h4 := entry_le hP i j
    have h5 : 0 ≤ (1 + η) ^ Ks.length - 1 := sub_nonneg.2 (one_le_pow₀ (by linarith))
    rw [show H i j * eprod Hs i j - S i j * eprod Ks i j = H i j * (eprod Hs i j - eprod Ks i j) + (H i j - S i j) * eprod Ks i j by ring]
    refine (abs_add_le _ _).trans ?_
    rw [abs_mul, abs_mul]
    have a1 : |H i j| * |eprod Hs i j - eprod Ks i j| ≤ (1 + η) * r * (((1 + η) ^ Ks.length - 1) * q) :=
      mul_le_mul h3 h1 (abs_nonneg _) (by positivity)
    have a2 : |H i j - S i j| * |eprod Ks i j| ≤ η * r * q := mul_le_mul h2 h4 (abs_nonneg _) (by positivity)
    rw [show Real.sqrt (S i i) * Real.sqrt (eprod Ks i i) * (Real.sqrt (S j j) * Real.sqrt (eprod Ks j j)) = r * q by rw [hr, hq]; ring]
    nlinarith

theorem NowAttached.gives {s s' : SetSt K X} {A : Arr2 X} (ha : s.NowAttached env s' A) {r : Nat} (hr : r ∈ s.set.members)
    {M : Mat F} (hk : s.heap.MatrixOn env r A M) : s'.heap.Gives env IsDense r M := by
  obtain ⟨k, norm, hkm, hM⟩ := hk
  obtain ⟨t, ht, hs⟩ := ha.2.2 r k norm hr hkm
  unfold Heap.Gives
  rw [ht]
  exact givesFull_of_inv (P := IsDense) (Q := Since env k norm ⟨A, none⟩ (fun op => op = .full)) (fun s h => Since.full (Q := fun op => op = .full) rfl h)
    (fun s h => ⟨.dense, rfl, hM s h⟩) hs

theorem mkComposite_numSamples {cls : CompClass} {t : KSet} {c : Comp} (h : mkComposite cls (some t) = .ok c) : c.numSamples = t.numSamples := by
  unfold mkComposite at h
  dsimp only at h
  split at h
  · cases h
  · split at h
    · cases h
    · cases cls with
      | sum => cases h; rfl
      | product => cases h; rfl
      | average => cases h; rfl
      | weighted w =>
        dsimp only at h
        generalize w.checked t.members.length = x at h
        rcases x with e | l
        · cases h
        · cases h; rfl

/-! ## summation from left to right -/

/-- adds the terms of a list from left to right -/
def SumTree.left {n : Nat} : List (Fin n) → SumTree n → SumTree n
  | [], t => t
  | i :: l, t => SumTree.left l (.node t (.leaf i))

theorem SumTree.left_leaves {n : Nat} (l : List (Fin n)) (t : SumTree n) : (SumTree.left l t).leaves = t.leaves ++ l := by
  induction l generalizing t with
  | nil => simp [SumTree.left]
  | cons i l ih => rw [SumTree.left, ih]; simp [SumTree.leaves]

/-- from left to right -/
def FlatOrder.leftToRight : FlatOrder := ⟨fun n => SumTree.left (List.finRange n) .zero, fun n => by
  unfold SumTree.Complete
  rw [SumTree.left_leaves]
  simp [SumTree.leaves]⟩

end KMethods
