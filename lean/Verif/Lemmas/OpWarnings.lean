import Verif.Spec.OpWarnings
import Verif.Lemmas.Warnings
import Verif.Lemmas.Ranking
import Verif.Lemmas.Operations2
/-!
# Lemmas on the warnings of `operations.py`
-/
namespace KMethods
open PyM

namespace Logged
variable {α β : Type}

/-- the call returns or raises `r` and issues the warnings `w` -/
def Does (m : Logged α) (r : Except PyErr α) (w : List OpWarning) : Prop := ∀ l, m l = (r, l ++ w)

theorem Does.warnings {m : Logged α} {r : Except PyErr α} {w : List OpWarning} (h : m.Does r w) : m.warnings = w := by
  unfold Logged.warnings
  rw [h]
  rfl

theorem Does.gives {m : Logged α} {r : Except PyErr α} {w : List OpWarning} (h : m.Does r w) : m.Gives r := by
  intro l
  rw [h.warnings, h l]

theorem Gives.does {m : Logged α} {r : Except PyErr α} (h : m.Gives r) : m.Does r m.warnings := h

theorem Does.run {m : Logged α} {r : Except PyErr α} {w : List OpWarning} (h : m.Does r w) : m [] = (r, w) := h []

theorem does_pure (x : α) : Does (pure x) (.ok x) [] := fun l => by rw [List.append_nil]; rfl
theorem does_throw (e : PyErr) : Does (throw e : Logged α) (.error e) [] := fun l => by rw [List.append_nil]; rfl
theorem does_say (w : OpWarning) : Does (say w) (.ok ()) [w] := fun _ => rfl
theorem does_lift (x : Except PyErr α) : Does (lift x : Logged α) x [] := fun l => by
  rw [List.append_nil]
  cases x <;> rfl

theorem Does.bind {m : Logged α} {f : α → Logged β} {x : α} {r : Except PyErr β} {w v : List OpWarning} (h : m.Does (.ok x) w) (h' : (f x).Does r v) :
    Does (m >>= f) r (w ++ v) := by
  intro l
  rw [bind_ok (h l), h' (l ++ w), List.append_assoc]

theorem Does.bind_error {m : Logged α} {f : α → Logged β} {e : PyErr} {w : List OpWarning} (h : m.Does (.error e) w) : Does (m >>= f) (.error e) w := by
  intro l
  rw [PyM.bind_error (h l)]

end Logged

open Logged

theorem containsNanInf_iff (A : Mat F) : containsNanInf A = false ↔ A.Finite := by
  unfold containsNanInf
  rw [decide_eq_false_iff_not]
  constructor
  · intro h
    push Not at h
    rcases A.real_or_nan with hr | ⟨i, j, hn⟩
    · exact hr
    · have := h.1 i j
      rw [hn] at this
      exact this.elim
  · rintro ⟨R, e⟩ h
    have hall : ∀ i j, (A.get i j).isFinite := by
      rw [e]
      exact fun _ _ => trivial
    rcases h with h | ⟨i, j, h⟩
    · exact h hall
    · exact h (hall i j)

theorem isPSDW_does (a : NdArg) (tol : ℝ) : (isPSDW a tol).Gives (isPSD a tol) := by
  rcases a with K | sh
  · unfold isPSDW isPSD
    simp only
    split
    · split
      · exact (does_pure _).gives
      · exact (Does.bind (f := fun _ => pure false) (does_say .notSymmetric) (does_pure false)).gives
    · exact (Does.bind (f := fun _ => pure false) (does_say .notSquare) (does_pure false)).gives
  · exact (does_throw _).gives

theorem announce_ok (N : Mat F) : (announceNormed (.ok N)).Does (.ok N) (if containsNanInf N then [.normedNonFinite] else []) := by
  show Does (when (containsNanInf N) (say .normedNonFinite) >>= fun _ => pure N) _ _
  rcases containsNanInf N
  · exact (does_pure ()).bind (does_pure N)
  · exact (does_say _).bind (does_pure N)

theorem announce_error {e : PyErr} (h : e ≠ .kmNorm) : (announceNormed (.error e)).Does (.error e) [.cannotNormalize] := by
  unfold announceNormed
  split
  · rename_i h'
    injection h' with h'
    exact (h h').elim
  · rename_i h'
    injection h' with h'
    subst h'
    exact (does_say _).bind (does_throw _)
  · rename_i h'
    cases h'

theorem announce_kmNorm : (announceNormed (.error .kmNorm)).Does (.error .kmNorm) [] := does_throw _

theorem announce_gives (r : Except PyErr (Mat F)) : (announceNormed r).Gives r := by
  rcases r with e | N
  · by_cases h : e = .kmNorm
    · subst h
      exact announce_kmNorm.gives
    · exact (announce_error h).gives
  · exact (announce_ok N).gives

theorem normalizeKmW_gives (K : Mat F) (method : String) : (normalizeKmW K method).Gives (normalizeKm K method) := by
  unfold normalizeKmW normalizeKm
  split
  · exact announce_gives _
  · exact (does_throw _).gives

theorem frobeniusNorm_ok (A : Mat F) : ∃ x, frobeniusNorm A = .ok x :=
  ⟨_, by rw [frobeniusNorm, frobeniusProduct, dif_pos ⟨rfl, rfl⟩]; rfl⟩

/-- exactly what the end of `alignment_centered` does -/
theorem alignmentOfW_does (cA cB : Mat F) (zd : ZeroDiv) :
    (alignmentOf cA cB .raise = .error .valueError ∧ (zd = .raise ∧ (alignmentOfW cA cB zd).Does (.error .valueError) [] ∨
      ∃ v, zd = .value v ∧ alignmentOf cA cB zd = .ok v ∧ (alignmentOfW cA cB zd).Does (.ok v) [.zeroNorm])) ∨
    (alignmentOfW cA cB zd).Does (alignmentOf cA cB zd) [] ∧ alignmentOf cA cB zd = alignmentOf cA cB .raise := by
  obtain ⟨a, ha⟩ := frobeniusNorm_ok cA
  obtain ⟨b, hb⟩ := frobeniusNorm_ok cB
  have e1 : ∀ zd, alignmentOf cA cB zd = if F.isClose a 0 ∨ F.isClose b 0 then (match zd with | .raise => .error .valueError | .value v => .ok v)
      else (frobeniusProduct cA cB >>= fun p => .ok (p / (a * b))) := by
    intro zd
    unfold alignmentOf
    rw [ha, hb]
    rfl
  have e2 : alignmentOfW cA cB zd = if F.isClose a 0 ∨ F.isClose b 0 then (match zd with
      | .raise => throw .valueError
      | .value v => (say .zeroNorm >>= fun _ => pure v))
      else (lift (frobeniusProduct cA cB) >>= fun p => pure (p / (a * b))) := by
    unfold alignmentOfW
    rw [ha, hb]
    rfl
  rw [e1, e1, e2]
  by_cases hz : F.isClose a 0 ∨ F.isClose b 0
  · left
    rw [if_pos hz, if_pos hz, if_pos hz]
    rcases zd with _ | v
    · exact ⟨rfl, .inl ⟨rfl, does_throw _⟩⟩
    · exact ⟨rfl, .inr ⟨v, rfl, rfl, Does.bind (f := fun _ => pure v) (does_say .zeroNorm) (does_pure v)⟩⟩
  · right
    rw [if_neg hz, if_neg hz, if_neg hz]
    refine ⟨?_, rfl⟩
    rcases frobeniusProduct cA cB with e | p
    · exact does_throw _
    · exact does_pure _

/-- A call of `alignment_centered` issues no warning and `value_if_zero_division` does not matter, or that value is returned with a warning, or the call raises `ValueError` because
this was asked for. -/
theorem alignmentAnyW_does (a b : NdArg) (zd : ZeroDiv) (already : Bool) :
    (alignmentCenteredAnyW a b zd already).Does (alignmentCenteredAny a b zd already) [] ∧ alignmentCenteredAny a b zd already = alignmentCenteredAny a b .raise already ∨
    ∃ v, zd = .value v ∧ (alignmentCenteredAnyW a b zd already).Does (.ok v) [.zeroNorm] ∧ alignmentCenteredAny a b zd already = .ok v ∧
      alignmentCenteredAny a b .raise already = .error .valueError := by
  rcases a with A | sa
  · rcases b with B | sb
    · show (alignmentCenteredW A B zd already).Does (alignmentCentered A B zd already) [] ∧ alignmentCentered A B zd already = alignmentCentered A B .raise already ∨ ∃ v, zd = .value v ∧
        (alignmentCenteredW A B zd already).Does (.ok v) [.zeroNorm] ∧ alignmentCentered A B zd already = .ok v ∧ alignmentCentered A B .raise already = .error .valueError
      unfold alignmentCenteredW alignmentCentered
      split
      · exact .inl ⟨does_throw _, rfl⟩
      · rcases hA : centerUnless already A with e | cA
        · exact .inl ⟨does_throw _, rfl⟩
        · rcases hB : centerUnless already B with e | cB
          · exact .inl ⟨does_throw _, rfl⟩
          · change (alignmentOfW cA cB zd).Does (alignmentOf cA cB zd) [] ∧ alignmentOf cA cB zd = alignmentOf cA cB .raise ∨ ∃ v, zd = .value v ∧
              (alignmentOfW cA cB zd).Does (.ok v) [.zeroNorm] ∧ alignmentOf cA cB zd = .ok v ∧ alignmentOf cA cB .raise = .error .valueError
            rcases alignmentOfW_does cA cB zd with ⟨h1, ⟨rfl, h2⟩ | ⟨v, h2, h3, h4⟩⟩ | h
            · rw [h1]
              exact .inl ⟨h2, rfl⟩
            · exact .inr ⟨v, h2, h4, h3, h1⟩
            · exact .inl h
    · exact .inl ⟨does_lift _, rfl⟩
  · rcases b with B | sb <;> exact .inl ⟨does_lift _, rfl⟩

theorem alignmentAnyW_gives (a b : NdArg) (zd : ZeroDiv) (already : Bool) : (alignmentCenteredAnyW a b zd already).Gives (alignmentCenteredAny a b zd already) := by
  rcases alignmentAnyW_does a b zd already with h | ⟨v, -, h, h', -⟩
  · exact h.1.gives
  · rw [h']
    exact h.gives

/-! ### rankings -/

section
variable {K X α β ι σ : Type}

theorem proj_aloud {m : Logged α} {r : Except PyErr α} (h : m.Gives r) : Proj (aloud m : PyM (σ × List OpWarning) α) (lift r) := by
  intro s w
  unfold aloud
  rw [h w]
  cases r <;> exact ⟨rfl, rfl⟩

theorem proj_mapEach {W : Type} {f' : ι → PyM (σ × List W) β} {f : ι → PyM σ β} (l : List ι) (h : ∀ x, Proj (f' x) (f x)) : Proj (mapEach l f') (mapEach l f) := by
  induction l with
  | nil => exact Proj.pure _
  | cons x l ih => exact (h x).bind fun _ => ih.bind fun _ => Proj.pure _

variable (env : Env K X F)

theorem proj_alignScoreOne (targets : List F) (p : MethodParams) (r : Nat) : Proj (alignScoreOneW env targets p r) (alignScoreOne env targets p r) :=
  (Proj.quietly _).bind fun _ => (Proj.quietly _).bind fun _ => proj_aloud (alignmentAnyW_gives _ _ _ _)

theorem proj_alignRanking (targets : List F) (p : MethodParams) : Proj (alignRankingW env targets p) (alignRanking env targets p) :=
  Proj.get fun _ _ => proj_mapEach _ fun _ => proj_alignScoreOne env _ _ _

theorem proj_rankKernels (cv : CVScore) (targets : List F) (method : String) (p : MethodParams) : Proj (rankKernelsW env cv targets method p) (rankKernels env cv targets method p) :=
  (Proj.quietly _).bind fun _ => Proj.ite (proj_alignRanking env _ _) (Proj.quietly _)

theorem proj_findOptimal (cv : CVScore) (isBucket : Bool) (sample : SetSample X) (targets : List F) (method : String) (p : MethodParams) :
    Proj (findOptimalKernelW env cv isBucket sample targets method p) (findOptimalKernel env cv isBucket sample targets method p) :=
  (Proj.quietly _).bind fun _ => (Proj.quietly _).bind fun _ => (Proj.quietly _).bind fun _ => (proj_rankKernels env _ _ _ _).bind fun _ => (Proj.quietly _).bind fun _ =>
    Proj.quietly _

/-- a loop and its log -/
theorem mapEach_log {W : Type} {I : σ → Prop} {f : α → PyM (σ × List W) β} {g : α → β} {L : α → List W} (l : List α)
    (h : ∀ a ∈ l, ∀ s w, I s → ∃ s', f a (s, w) = (.ok (g a), (s', w ++ L a)) ∧ I s') (s : σ) (w : List W) (hs : I s) :
    ∃ s', mapEach l f (s, w) = (.ok (l.map g), (s', w ++ l.flatMap L)) ∧ I s' := by
  induction l generalizing s w with
  | nil => exact ⟨s, by simp [mapEach], hs⟩
  | cons a l ih =>
    obtain ⟨s1, e1, h1⟩ := h a (.head _) s w hs
    obtain ⟨s2, e2, h2⟩ := ih (fun b hb => h b (.tail _ hb)) s1 (w ++ L a) h1
    refine ⟨s2, mapEach_cons_ok.2 ⟨_, _, _, e1, ?_, rfl⟩, h2⟩
    rw [e2, List.flatMap_cons, List.append_assoc]

end

/-- which alignments are announced -/
theorem align_real_does {n : Nat} (A B : Matrix (Fin n) (Fin n) ℝ) (v : F) (already : Bool) :
    (∃ x, AlignmentIs A B already x ∧ (alignmentCenteredAnyW (.arr (Mat.ofReal A)) (.arr (Mat.ofReal B)) (.value v) already).Does (.ok (.real x)) []) ∨
    (∀ x, ¬ AlignmentIs A B already x) ∧ (alignmentCenteredAnyW (.arr (Mat.ofReal A)) (.arr (Mat.ofReal B)) (.value v) already).Does (.ok v) [.zeroNorm] := by
  rcases alignmentAnyW_does (.arr (Mat.ofReal A)) (.arr (Mat.ofReal B)) (.value v) already with ⟨h, h'⟩ | ⟨v', e, h, h', h''⟩
  · left
    have := alignment_real A B .raise already
    by_cases hz : NearZero (Real.sqrt (frobInner (centeredIf already A) (centeredIf already A))) ∨
        NearZero (Real.sqrt (frobInner (centeredIf already B) (centeredIf already B)))
    · have h1 := this.1 hz
      have h2 := (alignment_real A B (.value v) already).1 hz
      change alignmentCentered _ _ _ _ = alignmentCentered _ _ _ _ at h'
      rw [h1, h2] at h'
      cases h'
    · have h1 := this.2 hz
      refine ⟨_, h1, ?_⟩
      change Logged.Does _ (alignmentCentered _ _ _ _) _ at h
      change alignmentCentered _ _ _ _ = alignmentCentered _ _ _ _ at h'
      rw [h', h1] at h
      exact h
  · right
    injection e with e
    subst e
    refine ⟨fun x hx => ?_, h⟩
    unfold AlignmentIs at hx
    change alignmentCentered _ _ _ _ = _ at h''
    rw [hx] at h''
    cases h''

theorem flatMap_ite {α β : Type} (p : α → Bool) (w : β) (l : List α) : (l.flatMap fun a => if p a then [w] else []) = List.replicate (l.countP p) w := by
  induction l with
  | nil => rfl
  | cons a l ih =>
    rw [List.flatMap_cons, ih, List.countP_cons]
    rcases p a
    · simp
    · simp [List.replicate_succ]

/-- `calign` is the alignment, where there is one -/
theorem calign_of {n : Nat} {A B : Matrix (Fin n) (Fin n) ℝ} {x : ℝ} (h : AlignmentIs A B false x) : calign A B = x := by
  obtain ⟨h1, h2, rfl⟩ := AlignmentIs.iff.1 h
  exact if_neg (not_or.2 ⟨h1, h2⟩)

theorem calign_of_not {n : Nat} {A B : Matrix (Fin n) (Fin n) ℝ} (h : ∀ x, ¬ AlignmentIs A B false x) : calign A B = 0 := by
  rw [calign, if_pos]
  by_contra hz
  rw [not_or] at hz
  exact h _ (AlignmentIs.iff.2 ⟨hz.1, hz.2, rfl⟩)

/-- constant targets have no alignment with anything -/
theorem no_alignment_const {n : Nat} (A : Matrix (Fin n) (Fin n) ℝ) {y : Fin n → ℝ} (hy : ∀ i j, y i = y j) (x : ℝ) : ¬ AlignmentIs A (outerR n y) false x := by
  intro h
  have h2 := (AlignmentIs.iff.1 h).2.1
  apply h2
  have e : centeredIf false (outerR n y) = fun _ _ => 0 := by
    funext i j
    have e1 : outerR n y = fun a b => (0 : Matrix (Fin n) (Fin n) ℝ) a b + y i * y i := by
      funext a b
      rw [outerR, hy a i, hy b i, Matrix.zero_apply, zero_add]
    have e2 : centered (outerR n y) = centered (0 : Matrix (Fin n) (Fin n) ℝ) := (congrArg centered e1).trans (centered_add_const _ _)
    show centered (outerR n y) i j = 0
    rw [e2]
    simp [centered]
  rw [e]
  norm_num [frobInner, NearZero]

section
variable {K X : Type} {env : Env K X F}

/-- the ranking by alignment and its log -/
theorem alignRankingW_run (hops : env.ops = realOps) {s s' : SetSt K X} {A : Arr2 X} (ha : s.NowAttached env s' A) (y : Fin A.nrows → ℝ)
    {G : Nat → Matrix (Fin A.nrows) (Fin A.nrows) ℝ} (hG : ∀ r ∈ s.set.members, s.heap.KernelOn env r A (G r)) (p : Nat → Bool)
    (hp : ∀ r, p r = true ↔ ∀ x, ¬ AlignmentIs (G r) (outerR A.nrows y) false x) :
    ∃ s'', alignRankingW env ((List.ofFn y).map .real) {} (s', []) =
        (.ok ((s.set.members.map fun r => calign (G r) (outerR A.nrows y)).map .real), (s'', List.replicate (s.set.members.countP p) .zeroNorm)) ∧
      s.NowAttached env s'' A := by
  obtain ⟨s'', e, h⟩ := mapEach_log (I := fun s' => s.NowAttached env s' A) (f := alignScoreOneW env ((List.ofFn y).map .real) {})
    (g := fun r => F.real (calign (G r) (outerR A.nrows y))) (L := fun r => if p r then [OpWarning.zeroNorm] else []) s.set.members (fun r hr s1 w h1 => by
      obtain ⟨s2, e2, h2⟩ := h1.full hops hr (hG r hr)
      refine ⟨s2, ?_, h2⟩
      show (quietly (SetSt.onHeap (Heap.full env r)) >>= _ : PyM (SetSt K X × List OpWarning) F) (s1, w) = _
      rw [bind_ok (show quietly (SetSt.onHeap (Heap.full env r)) (s1, w) = (.ok (.dense, Mat.ofReal (G r)), (s2, w)) by unfold quietly; rw [e2])]
      show aloud (alignmentCenteredAnyW (.arr (Mat.ofReal (G r))) (.arr (idealKernel ((List.ofFn y).map .real))) (.value 0) false) (s2, w) = _
      rw [idealKernel_real]
      unfold aloud
      rcases align_real_does (G r) (outerR A.nrows y) 0 false with ⟨x, hx, hd⟩ | ⟨hn, hd⟩
      · have : p r = false := by
          rw [← Bool.not_eq_true, hp]
          exact fun h => h x hx
        rw [this, hd w, calign_of hx]
        rfl
      · rw [(hp r).2 hn, hd w, calign_of_not hn]
        rfl) s' [] ha
  refine ⟨s'', ?_, h⟩
  show mapEach s'.set.members _ (s', []) = _
  rw [ha.1, List.map_map]
  rw [flatMap_ite, List.nil_append] at e
  exact e

end

end KMethods
