import Verif.Lemmas.Algorithms
import Verif.Lemmas.OptMachineOk
import Verif.Spec.Labels
/-!
# Conversions of labels; what a successful `fit` or `predict` has done
-/
namespace KMethods
open PyM
variable {K X M W H Y P : Type} {env : Env K X F} {N : NumpyCasts}

/-! ### Conversions -/

theorem convert_own {t : LabelType} {l : Label} (h : t.Holds l) : convert N t l = .ok l := by
  rcases t with w | w | _ | _ | _ | _ <;> rcases l with z | x | b | s <;> first | exact h.elim | rfl | skip
  · obtain ⟨h0, h1, h2⟩ := h
    obtain ⟨v, rfl⟩ : ∃ v, w = v + 1 := ⟨w - 1, by omega⟩
    rw [Nat.add_sub_cancel] at h1 h2
    show Except.ok (Label.int (Int.bmod z (2 ^ (v + 1)))) = _
    have e : ((2 ^ (v + 1) : Nat) : ℤ) = 2 ^ v * 2 := by rw [Nat.cast_pow, pow_succ]; rfl
    rw [Int.bmod_eq_of_le (by rw [e]; omega) (by rw [e]; omega)]
  · show Except.ok (Label.int (z % 2 ^ w)) = _
    rw [Int.emod_eq_of_lt h.1 h.2]

theorem convertAll_own {t : LabelType} {p : List Label} (h : ∀ l ∈ p, t.Holds l) : convertAll N t p = .ok p := by
  induction p with
  | nil => rfl
  | cons l ls ih =>
    unfold convertAll
    rw [convert_own (h l (.head _)), ih fun l hl => h l (.tail _ hl)]
    rfl

theorem truncate_int (z : ℤ) : truncate z = z := by
  unfold truncate
  split_ifs
  · exact Int.floor_intCast z
  · exact Int.ceil_intCast z

/-- numbers that fit into `np.intp` -/
theorem convert_intp {l : Label} {z : ℤ} (h : l.value = some (z : ℝ)) (h1 : -2 ^ 63 ≤ z) (h2 : z < 2 ^ 63) : convert N intp l = .ok (.int z) := by
  rcases l with z' | x | b | s
  · obtain rfl : z' = z := by
      injection h with h
      exact_mod_cast h
    exact convert_own (t := .int 64) (l := .int z') ⟨by omega, h1, h2⟩
  · obtain rfl : x = z := by injection h
    show Except.ok (Label.int (truncateIn N (-2 ^ (64 - 1)) (2 ^ (64 - 1) - 1) (z : ℝ))) = _
    unfold truncateIn
    rw [truncate_int, if_pos ⟨h1, by show z ≤ 2 ^ 63 - 1; omega⟩]
  · have : (if b then (1 : ℤ) else 0) = z := by
      injection h with h
      cases b
      · exact_mod_cast h
      · exact_mod_cast h
    show Except.ok (Label.int (if b then 1 else 0)) = _
    rw [this]
  · cases h

theorem convertAll_intp {p : List Label} (h : ∀ l ∈ p, ∃ z : ℤ, l.value = some (z : ℝ) ∧ -2 ^ 63 ≤ z ∧ z < 2 ^ 63) :
    ∃ q, convertAll N intp p = .ok q ∧ List.Forall₂ (fun a l => ∃ z : ℤ, a = .int z ∧ l.value = some (z : ℝ)) q p := by
  induction p with
  | nil => exact ⟨[], rfl, .nil⟩
  | cons l ls ih =>
    obtain ⟨q, e, hq⟩ := ih fun l hl => h l (.tail _ hl)
    obtain ⟨z, hz, h1, h2⟩ := h l (.head _)
    refine ⟨.int z :: q, ?_, .cons ⟨z, rfl, hz⟩ hq⟩
    unfold convertAll
    rw [convert_intp hz h1 h2, e]
    rfl

/-! ### What a successful call has done -/
namespace Machine

theorem getAttr_ok {σ α : Type} {f : σ → Option α} {s s' : σ} {a : α} (h : getAttr f s = (.ok a, s')) : f s = some a ∧ s' = s := by
  rw [getAttr_run] at h
  rcases hf : f s with _ | b <;> rw [hf] at h
  · cases h
  · injection h with h1 h2
    injection h1 with h1
    exact ⟨by rw [h1], h2.symm⟩

theorem lift_ok {σ α : Type} {x : Except PyErr α} {s s' : σ} {a : α} (h : (lift x : PyM σ α) s = (.ok a, s')) : x = .ok a ∧ s' = s := by
  rw [lift_run] at h
  obtain ⟨h1, h2⟩ := Prod.mk.inj h
  exact ⟨h1, h2.symm⟩

theorem get_ok {σ : Type} {s s' a : σ} (h : (get : PyM σ σ) s = (.ok a, s')) : a = s ∧ s' = s := by
  rw [get_run] at h
  obtain ⟨h1, h2⟩ := Prod.mk.inj h
  exact ⟨(Except.ok.inj h1).symm, h2.symm⟩

theorem raiseIf_ok {σ : Type} {b : Bool} {e : PyErr} {s s' : σ} {a : Unit} (h : (raiseIf b e : PyM σ Unit) s = (.ok a, s')) : s' = s := by
  cases b
  · exact ((Prod.mk.inj h).2).symm
  · cases (Prod.mk.inj h).1

/-- a successful `fit` has made a model from the targets -/
theorem fit_inv {L : Learner M Y W P} {s s1 : Machine K X M Y} {A : Arr2 X} {y : Y} {w : W} (h : fit env L (.ok (A, y)) w s = (.ok (), s1)) :
    ∃ e T m, L.fit e T y w = .ok m ∧ getEstimator s.learnerId = .ok e ∧ (s.classifier = true → e = .svc) ∧ s1.trainY = some y ∧ s1.estimator = some (e, some m) := by
  rcases hk : s.kFunc with _ | k
  · rw [fit_no_kernel L s A y w (Or.inl hk)] at h
    cases h
  rcases hn : s.normalized with _ | norm
  · rw [fit_no_kernel L s A y w (Or.inr hn)] at h
    cases h
  rcases he : getEstimator s.learnerId with err | e
  · have := fit_learner (env := env) L s (A := A) y w hk hn he
    rw [h] at this
    cases this
  obtain ⟨t, -, hr⟩ := fit_run (env := env) L s (A := A) y w hk hn he
  rw [h] at hr
  rcases hf : (KMState.full env t).1 with err | T <;> rw [hf] at hr
  · cases congrArg Prod.fst hr
  rcases hm : L.fit e T y w with err | m <;> simp only [hm] at hr
  · cases congrArg Prod.fst hr
  obtain ⟨h1, h2⟩ := Prod.mk.inj hr
  refine ⟨e, T, m, hm, rfl, fun hc => ?_, by rw [h2], by rw [h2]⟩
  split_ifs at h1 with hx
  rcases e with _ | _
  · rfl
  · exact absurd ⟨hc, rfl⟩ hx

/-- `predict` and `set_params` leave the targets and the model as they are -/
theorem afterCalls_inv {L : Learner M Y W P} {s s' : Machine K X M Y} (h : AfterCalls env L s s') : s'.trainY = s.trainY ∧ s'.estimator = s.estimator := by
  induction h with
  | refl => exact ⟨rfl, rfl⟩
  | predict checked _ ih =>
    obtain ⟨t, e, -⟩ := predict_state (env := env) L checked _
    rw [e]
    exact ih
  | @setParams s' ps _ ih =>
    rw [setParams_run]
    have : ∀ (ps : List (ParamUpdate K)) (s' : Machine K X M Y), (ps.foldl (fun s p => setParam p s) s').trainY = s'.trainY ∧
        (ps.foldl (fun s p => setParam p s) s').estimator = s'.estimator := by
      intro ps
      induction ps with
      | nil => exact fun _ => ⟨rfl, rfl⟩
      | cons p ps ih => exact fun s' => ⟨(ih _).1.trans (by cases p <;> rfl), (ih _).2.trans (by cases p <;> rfl)⟩
    exact ⟨(this ps s').1.trans ih.1, (this ps s').2.trans ih.2⟩

/-- a successful `predict` has asked the model -/
theorem predict_inv {L : Learner M Y W P} {s s' : Machine K X M Y} {checked : Except PyErr (Arr2 X)} {q : P} {y : Y} {e : Est} {m : M} (h : predict env L checked s = (.ok q, s'))
    (hy : s.trainY = some y) (he : s.estimator = some (e, some m)) : ∃ T p, L.predict m T = .ok p ∧ L.cast y p = .ok q := by
  unfold predict at h
  obtain ⟨a, s1, h1, j1⟩ := bind_ok_iff.1 h
  obtain ⟨rfl, rfl⟩ := get_ok h1
  obtain ⟨_, s2, h2, j2⟩ := bind_ok_iff.1 j1
  obtain rfl := raiseIf_ok h2
  obtain ⟨B, s3, h3, j3⟩ := bind_ok_iff.1 j2
  obtain ⟨-, rfl⟩ := lift_ok h3
  obtain ⟨_, s4, h4, j4⟩ := bind_ok_iff.1 j3
  have k4 : s4.trainY = some y ∧ s4.estimator = some (e, some m) := by
    obtain ⟨t, e4, -⟩ := keepsKM_freshKM s3
    rw [h4] at e4
    rw [show s4 = _ from e4]
    exact ⟨hy, he⟩
  obtain ⟨A, s5, h5, j5⟩ := bind_ok_iff.1 j4
  obtain ⟨-, rfl⟩ := getAttr_ok h5
  obtain ⟨_, s6, h6, j6⟩ := bind_ok_iff.1 j5
  have k6 : s6.trainY = some y ∧ s6.estimator = some (e, some m) := by
    obtain ⟨t, e6, -⟩ := keepsKM_onKM (KMState.attach (arg B) (some (arg A))) s5
    rw [h6] at e6
    rw [show s6 = _ from e6]
    exact k4
  obtain ⟨em, s7, h7, j7⟩ := bind_ok_iff.1 j6
  obtain ⟨g7, rfl⟩ := getAttr_ok h7
  obtain ⟨T, s8, h8, j8⟩ := bind_ok_iff.1 j7
  have k8 : s8.trainY = some y := by
    obtain ⟨t, e8, -⟩ := keepsKM_onKM (KMState.full env) s7
    rw [h8] at e8
    rw [show s8 = _ from e8]
    exact k6.1
  obtain ⟨p, s9, h9, j9⟩ := bind_ok_iff.1 j8
  obtain ⟨g9, rfl⟩ := lift_ok h9
  obtain ⟨y', s10, h10, j10⟩ := bind_ok_iff.1 j9
  obtain ⟨g10, rfl⟩ := getAttr_ok h10
  obtain ⟨g11, -⟩ := lift_ok j10
  rw [show em = (e, some m) from Option.some.inj (g7.symm.trans k6.2)] at g9
  rw [show y' = y from Option.some.inj (g10.symm.trans k8)] at g11
  exact ⟨T, p, g9, g11⟩

end Machine

namespace OptMachine

/-- a successful `fit` has made a model from the targets -/
theorem fit_inv {mkB : String → PyM (Heap K X) Bucket} {cv : List F → CVScore} {L : SvmLearner H M W P} {s s1 : OptMachine K X H M} {A : Arr2 X} {y : List F} {w : W}
    (h : fit env mkB cv L (.ok (A, y)) w s = (.ok (), s1)) : ∃ hy T m, L.fit s1.est .rbf hy T y w = .ok m ∧ s1.model = some m := by
  rw [fit_eq] at h
  rcases hc : chooseBucket mkB s with ⟨e | _, s0⟩ <;> rw [hc] at h
  · cases h
  dsimp only at h
  unfold fitOn at h
  obtain ⟨r, s2, -, j1⟩ := bind_ok_iff.1 h
  obtain ⟨_, s3, -, j2⟩ := bind_ok_iff.1 j1
  obtain ⟨T, s4, -, j3⟩ := bind_ok_iff.1 j2
  obtain ⟨a, s5, h5, j4⟩ := bind_ok_iff.1 j3
  obtain ⟨rfl, rfl⟩ := Machine.get_ok h5
  obtain ⟨m, s6, h6, j5⟩ := bind_ok_iff.1 j4
  obtain ⟨g6, rfl⟩ := Machine.lift_ok h6
  rw [modify_run] at j5
  obtain ⟨-, rfl⟩ := Prod.mk.inj j5
  exact ⟨_, T, m, g6, rfl⟩

/-- a successful `predict` has asked the model -/
theorem predict_inv {L : SvmLearner H M W P} {s s' : OptMachine K X H M} {checked : Except PyErr (Arr2 X)} {q : P} {m : M} (h : predict env L checked s = (.ok q, s'))
    (hm : s.model = some m) : ∃ T p, L.predict m T = .ok p ∧ L.cast s.est p = .ok q := by
  unfold predict at h
  obtain ⟨a, s1, h1, j1⟩ := bind_ok_iff.1 h
  obtain ⟨rfl, rfl⟩ := Machine.get_ok h1
  obtain ⟨_, s2, h2, j2⟩ := bind_ok_iff.1 j1
  obtain rfl := Machine.raiseIf_ok h2
  obtain ⟨r, s3, h3, j3⟩ := bind_ok_iff.1 j2
  obtain ⟨-, rfl⟩ := Machine.getAttr_ok h3
  obtain ⟨B, s4, h4, j4⟩ := bind_ok_iff.1 j3
  obtain ⟨-, rfl⟩ := Machine.lift_ok h4
  obtain ⟨A, s5, h5, j5⟩ := bind_ok_iff.1 j4
  obtain ⟨-, rfl⟩ := Machine.getAttr_ok h5
  obtain ⟨_, s6, h6, j6⟩ := bind_ok_iff.1 j5
  have k6 : s6.model = some m := by
    rw [← (Prod.mk.inj h6).2]
    exact hm
  obtain ⟨T, s7, h7, j7⟩ := bind_ok_iff.1 j6
  have k7 : s7.model = some m := by
    rw [← (Prod.mk.inj h7).2]
    exact k6
  obtain ⟨m', s8, h8, j8⟩ := bind_ok_iff.1 j7
  obtain ⟨g8, rfl⟩ := Machine.getAttr_ok h8
  obtain ⟨p, s9, h9, j9⟩ := bind_ok_iff.1 j8
  obtain ⟨g9, rfl⟩ := Machine.lift_ok h9
  obtain ⟨g10, -⟩ := Machine.lift_ok j9
  rw [show m' = m from Option.some.inj (g8.symm.trans k7)] at g9
  exact ⟨T, p, g9, g10⟩

/-- `predict` and `set_params` leave the model as it is -/
theorem afterPredicts_inv {L : SvmLearner H M W P} {s s' : OptMachine K X H M} (h : AfterPredicts env L s s') : s'.model = s.model ∧ s'.est = s.est := by
  induction h with
  | refl => exact ⟨rfl, rfl⟩
  | @predict s' checked _ ih =>
    have : Pres (fun t : OptMachine K X H M => t.model = s'.model ∧ t.est = s'.est) (predict env L checked) :=
      Pres.get fun _ => (Pres.raiseIf _ _).bind fun _ => (Pres.getAttr _).bind fun r => (Pres.lift _).bind fun _ => (Pres.getAttr _).bind fun _ =>
        Pres.bind (fun _ h => h) fun _ => Pres.bind (fun _ h => h) fun _ => (Pres.getAttr _).bind fun _ => (Pres.lift _).bind fun _ => Pres.lift _
    have h := this s' ⟨rfl, rfl⟩
    exact ⟨h.1.trans ih.1, h.2.trans ih.2⟩
  | @setParams s' ps _ ih =>
    rw [setParams_run]
    have : ∀ (ps : List (Update H)) (s' : OptMachine K X H M), (ps.foldl (fun s p => setParam p s) s').model = s'.model ∧ (ps.foldl (fun s p => setParam p s) s').est = s'.est := by
      intro ps
      induction ps with
      | nil => exact fun _ => ⟨rfl, rfl⟩
      | cons p ps ih => exact fun s' => ⟨(ih _).1.trans (by cases p <;> rfl), (ih _).2.trans (by cases p <;> rfl)⟩
    exact ⟨(this ps s').1.trans ih.1, (this ps s').2.trans ih.2⟩

end OptMachine
end KMethods
