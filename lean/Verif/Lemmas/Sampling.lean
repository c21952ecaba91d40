import Verif.Spec.Sampling
import Verif.Lemmas.KernelSet
import Verif.Lemmas.Composite
import Verif.Lemmas.Operations2
/-!
# Lemmas on kernel buckets
-/
namespace KMethods
open PyM
variable {K X V : Type}

theorem SetSt.Grown.refl (s : SetSt K X) (norm : Bool) : s.Grown s norm [] :=
  ⟨[], by simp, .nil, .nil, fun _ _ => rfl, le_rfl, rfl⟩

theorem SetSt.Grown.trans {s s' s'' : SetSt K X} {norm : Bool} {ks ks' : List K} (h : s.Grown s' norm ks) (h' : s'.Grown s'' norm ks') :
    s.Grown s'' norm (ks ++ ks') := by
  obtain ⟨rs, a1, a2, a3, a4, a5, a6⟩ := h
  obtain ⟨rs', b1, b2, b3, b4, b5, b6⟩ := h'
  have hlt : ∀ r ∈ rs, r < s'.heap.next := fun r hr => by
    obtain ⟨hl, hg⟩ := List.forall₂_iff_get.1 a3
    obtain ⟨i, hi, rfl⟩ := List.mem_iff_getElem.1 hr
    exact (hg i hi (hl ▸ hi)).2.1
  have hge : ∀ r ∈ rs', s'.heap.next ≤ r := fun r hr => by
    obtain ⟨hl, hg⟩ := List.forall₂_iff_get.1 b3
    obtain ⟨i, hi, rfl⟩ := List.mem_iff_getElem.1 hr
    exact (hg i hi (hl ▸ hi)).1
  refine ⟨rs ++ rs', by rw [b1, a1, List.append_assoc], ?_, ?_, ?_, a5.trans b5, b6.trans a6⟩
  · rw [List.nodup_append]
    refine ⟨a2, b2, fun a ha b hb hab => ?_⟩
    subst hab
    exact absurd (hlt a ha) (not_lt.2 (hge a hb))
  · refine List.rel_append (R := fun r k => s.heap.next ≤ r ∧ r < s''.heap.next ∧ s''.heap.objs r = some (.km (KMState.init k norm 0))) ?_ ?_
    · exact a3.imp fun r k ⟨x, y, z⟩ => ⟨x, y.trans_le b5, (b4 r y).trans z⟩
    · exact b3.imp fun r k ⟨x, y, z⟩ => ⟨a5.trans x, y, z⟩
  · exact fun r hr => (b4 r (hr.trans_le a5)).trans (a4 r hr)

namespace SetSt

theorem appendNew_error (norm : Bool) (e : PyErr) (s : SetSt K X) : appendNew norm (.error e) s = (.error e, s) := rfl

theorem appendNew_ok (norm : Bool) (k : K) (s : SetSt K X) (hs : s.set.numSamples = .unset) :
    (appendNew norm (.ok k) s).1 = .ok () ∧ s.Grown (appendNew norm (.ok k) s).2 norm [k] ∧ (appendNew norm (.ok k) s).2.set.isInit = true := by
  obtain ⟨hp, t⟩ := s
  obtain ⟨mem, num, ini⟩ := t
  obtain rfl : num = .unset := hs
  set h' : Heap K X := { objs := Function.update hp.objs hp.next (some (.km (KMState.init k norm 0))), next := hp.next + 1 } with hh
  have hrun : appendNew norm (.ok k) ⟨hp, ⟨mem, .unset, ini⟩⟩ = appendRef hp.next ⟨h', ⟨mem, .unset, ini⟩⟩ := rfl
  have hn : h'.numSamples hp.next = .ok .unset := by
    unfold Heap.numSamples
    rw [hh]
    simp only [Function.update_self]
    rfl
  rw [hrun, appendRef_ok (s := ⟨h', ⟨mem, .unset, ini⟩⟩) hn (.inl rfl)]
  refine ⟨rfl, ⟨[hp.next], rfl, by simp, ?_, ?_, Nat.le_succ _, rfl⟩, by simp⟩
  · exact .cons ⟨le_rfl, Nat.lt_succ_self _, Function.update_self ..⟩ .nil
  · exact fun r hr => Function.update_of_ne (ne_of_lt hr) _ _

theorem appendNew_attached (norm : Bool) (k : K) (s : SetSt K X) (hs : s.set.numSamples ≠ .unset) :
    (appendNew norm (.ok k) s).1 = .error .kmSetAddition ∧ (appendNew norm (.ok k) s).2.set = s.set ∧
      (∀ r < s.heap.next, (appendNew norm (.ok k) s).2.heap.objs r = s.heap.objs r) ∧ s.heap.next ≤ (appendNew norm (.ok k) s).2.heap.next := by
  obtain ⟨hp, t⟩ := s
  set h' : Heap K X := { objs := Function.update hp.objs hp.next (some (.km (KMState.init k norm 0))), next := hp.next + 1 } with hh
  have hrun : appendNew norm (.ok k) ⟨hp, t⟩ = appendRef hp.next ⟨h', t⟩ := rfl
  have hn : h'.numSamples hp.next = .ok .unset := by
    unfold Heap.numSamples
    rw [hh]
    simp only [Function.update_self]
    rfl
  rw [hrun, appendRef_reject (s := ⟨h', t⟩) hn (by rintro (h | ⟨-, h⟩) <;> exact hs h)]
  exact ⟨rfl, rfl, fun r hr => Function.update_of_ne (ne_of_lt hr) _ _, Nat.le_succ _⟩

theorem built_cons (build : V → Except PyErr K) (v : V) (l : List V) :
    built build (v :: l) = (match build v with | .ok k => [k] | .error _ => []) ++ built build l := by
  unfold built
  rcases h : build v with e | k <;> simp [h]

theorem addLoop_unset (norm : Bool) (build : V → Except PyErr K) (l : List V) (s : SetSt K X) (hs : s.set.numSamples = .unset) :
    (forEach l (fun v => ignoreErrors (appendNew norm (build v))) s).1 = .ok () ∧
      s.Grown (forEach l (fun v => ignoreErrors (appendNew norm (build v))) s).2 norm (built build l) := by
  induction l generalizing s with
  | nil => exact ⟨rfl, .refl s norm⟩
  | cons v l ih =>
    have hstep : s.Grown (ignoreErrors (appendNew norm (build v)) s).2 norm (match build v with | .ok k => [k] | .error _ => []) := by
      rcases h : build v with e | k
      · exact .refl s norm
      · exact (appendNew_ok norm k s hs).2.1
    have hnum : (ignoreErrors (appendNew norm (build v)) s).2.set.numSamples = .unset := by
      obtain ⟨-, -, -, -, -, -, h6⟩ := hstep
      exact h6.trans hs
    have hrun : forEach (v :: l) (fun v => ignoreErrors (appendNew norm (build v))) s =
        forEach l (fun v => ignoreErrors (appendNew norm (build v))) (ignoreErrors (appendNew norm (build v)) s).2 := rfl
    rw [hrun, built_cons]
    exact ⟨(ih _ hnum).1, hstep.trans (ih _ hnum).2⟩

theorem addLoop_attached (norm : Bool) (build : V → Except PyErr K) (l : List V) (s : SetSt K X) (hs : s.set.numSamples ≠ .unset) :
    (forEach l (fun v => ignoreErrors (appendNew norm (build v))) s).1 = .ok () ∧
      (forEach l (fun v => ignoreErrors (appendNew norm (build v))) s).2.set = s.set ∧
      ∀ r < s.heap.next, (forEach l (fun v => ignoreErrors (appendNew norm (build v))) s).2.heap.objs r = s.heap.objs r := by
  induction l generalizing s with
  | nil => exact ⟨rfl, rfl, fun _ _ => rfl⟩
  | cons v l ih =>
    have hrun : forEach (v :: l) (fun v => ignoreErrors (appendNew norm (build v))) s =
        forEach l (fun v => ignoreErrors (appendNew norm (build v))) (appendNew norm (build v) s).2 := rfl
    have hstep : (appendNew norm (build v) s).2.set = s.set ∧ (∀ r < s.heap.next, (appendNew norm (build v) s).2.heap.objs r = s.heap.objs r) ∧
        s.heap.next ≤ (appendNew norm (build v) s).2.heap.next := by
      rcases h : build v with e | k
      · exact ⟨rfl, fun _ _ => rfl, le_rfl⟩
      · exact (appendNew_attached norm k s hs).2
    obtain ⟨h1, h2, h3⟩ := hstep
    obtain ⟨i1, i2, i3⟩ := ih (appendNew norm (build v) s).2 (by rw [h1]; exact hs)
    rw [hrun]
    exact ⟨i1, i2.trans h1, fun r hr => (i3 r (hr.trans_le h3)).trans (h2 r hr)⟩

theorem addParametrized_lists {b : BucketFlags} {build : Bool → String → V → Except PyErr K} {param : String} {a : ValuesArg V} {l : List V}
    (ha : a.Lists l) (s : SetSt K X) (hs : s.set.numSamples = .unset) :
    (addParametrized b (.cls build) param a s).1 = .ok () ∧
      s.Grown (addParametrized b (.cls build) param a s).2 b.norm (built (build b.skip param) l) := by
  rcases ha with ⟨rfl, rfl⟩ | ⟨rfl, hl⟩
  · exact ⟨rfl, .refl s b.norm⟩
  · have hrun : addParametrized b (.cls build) param (.seq l) s = forEach l (fun v => ignoreErrors (appendNew b.norm (build b.skip param v))) s := by
      show (raiseIf (decide (l.length < 1)) .valueError >>= _ : PyM (SetSt K X) Unit) s = _
      rw [show decide (l.length < 1) = false from by simpa [Nat.lt_one_iff] using hl]
      rfl
    rw [hrun]
    exact addLoop_unset b.norm (build b.skip param) l s hs

theorem addParametrized_bad {b : BucketFlags} {build : Bool → String → V → Except PyErr K} {param : String} {a : ValuesArg V} (ha : a.Bad)
    (s : SetSt K X) : addParametrized b (.cls build) param a s = (.error .valueError, s) := by
  rcases ha with rfl | rfl <;> rfl

end SetSt

/-! ### correlation -/

/-- row-major order of the index pairs -/
def rowMajor (n m : Nat) : List (Fin n × Fin m) := (List.finRange n).flatMap fun i => (List.finRange m).map fun j => (i, j)

theorem ravel_eq (A : Mat F) : A.ravel = (rowMajor A.nrows A.ncols).map fun p => A.get p.1 p.2 := by
  unfold Mat.ravel rowMajor
  rw [List.map_flatMap, List.flatMap_def]
  congr 1
  rw [List.ofFn_eq_map]
  congr 1
  funext i
  rw [List.ofFn_eq_map, List.map_map]
  rfl

theorem rowMajor_length (n m : Nat) : (rowMajor n m).length = n * m := by
  simp [rowMajor, List.length_flatMap]

theorem rowMajor_sum {n m : Nat} (f : Fin n → Fin m → ℝ) : ((rowMajor n m).map fun p => f p.1 p.2).sum = ∑ i, ∑ j, f i j := by
  unfold rowMajor
  rw [List.map_flatMap, List.flatMap_def, List.sum_flatten, List.map_map]
  rw [← List.sum_ofFn, List.ofFn_eq_map]
  congr 2
  funext i
  rw [Function.comp, List.map_map, ← List.sum_ofFn, List.ofFn_eq_map]
  rfl

theorem sumF_real (l : List ℝ) : sumF (l.map F.real) = .real l.sum := by
  show (l.map F.real).foldl (· + ·) (.real 0) = _
  rw [foldl_real, zero_add]

theorem deviations_ravel {n m : Nat} (A : Matrix (Fin n) (Fin m) ℝ) (h : n * m ≠ 0) :
    deviations (Mat.ofReal A).ravel = (rowMajor n m).map fun p => F.real (devMat A p.1 p.2) := by
  have hr : (Mat.ofReal A).ravel = ((rowMajor n m).map fun p => A p.1 p.2).map F.real := by
    rw [ravel_eq, List.map_map]; rfl
  have hl : (Mat.ofReal A).ravel.length = n * m := by rw [ravel_eq, List.length_map]; exact rowMajor_length n m
  have hmean : sumF (Mat.ofReal A).ravel / F.real (((Mat.ofReal A).ravel.length : Nat) : ℝ) = .real ((∑ a, ∑ b, A a b) / (n * m)) := by
    rw [hl, hr, sumF_real, rowMajor_sum fun i j => A i j, F.real_div _ _ (by exact_mod_cast h)]
    push_cast
    rfl
  unfold deviations
  rw [hmean, hr, List.map_map, List.map_map]
  rfl

theorem zipWith_map_same {α : Type} (f : F → F → F) (g h : α → F) (l : List α) :
    List.zipWith f (l.map g) (l.map h) = l.map fun a => f (g a) (h a) := by
  induction l with
  | nil => rfl
  | cons a l ih => simp [ih]

theorem frobInner_devMat_pos {n m : Nat} {A : Matrix (Fin n) (Fin m) ℝ} (h : NonConstant A) : 0 < Real.sqrt (frobInner (devMat A) (devMat A)) := by
  refine Real.sqrt_pos.2 (lt_of_le_of_ne (frobInner_self_nonneg _) fun h0 => ?_)
  have := (frobInner_self_eq_zero (devMat A)).1 h0.symm
  obtain ⟨i, j, k, l, hne⟩ := h
  have e1 := congrFun (congrFun this i) j
  have e2 := congrFun (congrFun this k) l
  simp only [devMat, Matrix.zero_apply] at e1 e2
  exact hne (by linarith)

theorem entryCorr_range {n m : Nat} {A B : Matrix (Fin n) (Fin m) ℝ} (hA : NonConstant A) (hB : NonConstant B) :
    -1 ≤ entryCorr A B ∧ entryCorr A B ≤ 1 := by
  have ha := frobInner_devMat_pos hA
  have hb := frobInner_devMat_pos hB
  have hab := mul_pos ha hb
  have := frobInner_abs_le (devMat A) (devMat B)
  rw [abs_le] at this
  unfold entryCorr
  constructor
  · rw [le_div_iff₀ hab]; linarith [this.1]
  · rw [div_le_iff₀ hab]; linarith [this.2]

theorem nonConstant_size {n m : Nat} {A : Matrix (Fin n) (Fin m) ℝ} (h : NonConstant A) : 2 ≤ n * m := by
  obtain ⟨i, j, k, l, hne⟩ := h
  by_contra hc
  rw [not_le] at hc
  have hn : 0 < n := i.pos
  have hm : 0 < m := j.pos
  have h1 : n * m = 1 := by
    have := Nat.mul_pos hn hm
    omega
  have hn1 : n = 1 := Nat.eq_one_of_mul_eq_one_right h1
  have hm1 : m = 1 := Nat.eq_one_of_mul_eq_one_left h1
  subst hn1 hm1
  exact hne (by rw [Subsingleton.elim i k, Subsingleton.elim j l])

theorem correlationKm_real {n m : Nat} {A B : Matrix (Fin n) (Fin m) ℝ} (hA : NonConstant A) (hB : NonConstant B) :
    correlationKm (.dense, Mat.ofReal A) (.dense, Mat.ofReal B) = .ok (.real (entryCorr A B)) := by
  have hsz := nonConstant_size hA
  have hlA : (Mat.ofReal A).ravel.length = n * m := by rw [ravel_eq, List.length_map]; exact rowMajor_length n m
  have hlB : (Mat.ofReal B).ravel.length = n * m := by rw [ravel_eq, List.length_map]; exact rowMajor_length n m
  have ha := frobInner_devMat_pos hA
  have hb := frobInner_devMat_pos hB
  have hsum : ∀ C D : Matrix (Fin n) (Fin m) ℝ, sumF ((rowMajor n m).map fun p => F.real (C p.1 p.2) * F.real (D p.1 p.2)) = .real (frobInner C D) := by
    intro C D
    have : ((rowMajor n m).map fun p => F.real (C p.1 p.2) * F.real (D p.1 p.2)) = ((rowMajor n m).map fun p => C p.1 p.2 * D p.1 p.2).map F.real := by
      rw [List.map_map]; rfl
    rw [this, sumF_real, rowMajor_sum fun i j => C i j * D i j]
    rfl
  have hsqrt : ∀ C : Matrix (Fin n) (Fin m) ℝ, F.sqrt (.real (frobInner C C)) = .real (Real.sqrt (frobInner C C)) := by
    intro C
    show (if frobInner C C < 0 then F.nan else _) = _
    rw [if_neg (not_lt.2 (frobInner_self_nonneg C))]
  have hrun : correlationKm (.dense, Mat.ofReal A) (.dense, Mat.ofReal B) = pearsonr (Mat.ofReal A).ravel (Mat.ofReal B).ravel := by
    unfold correlationKm
    rw [if_neg (by simp), if_neg (by simp)]
  rw [hrun]
  unfold pearsonr
  rw [if_neg (by rw [hlA, hlB]; omega)]
  simp only
  rw [deviations_ravel A (by omega), deviations_ravel B (by omega), zipWith_map_same, List.map_map, List.map_map]
  simp only [Function.comp_def]
  rw [hsum, hsum, hsum, hsqrt, hsqrt, F.real_mul, F.real_div _ _ (mul_pos ha hb).ne']
  obtain ⟨h1, h2⟩ := entryCorr_range hA hB
  show Except.ok (F.real (max (min (entryCorr A B) 1) (-1))) = _
  rw [min_eq_left h2, max_eq_left h1]

theorem corr_self {n m : Nat} {A : Matrix (Fin n) (Fin m) ℝ} (hA : NonConstant A) : entryCorr A A = 1 := by
  have ha := frobInner_devMat_pos hA
  unfold entryCorr
  rw [Real.mul_self_sqrt (frobInner_self_nonneg _), div_self]
  intro h0
  rw [h0, Real.sqrt_zero] at ha
  exact lt_irrefl _ ha

/-! ### alignment -/

theorem alignMetric_real {n : Nat} {f g : Fmt} (hf : f ≠ .sparse) (hg : g ≠ .sparse) (A B : Matrix (Fin n) (Fin n) ℝ) :
    alignmentCenteredAny (storedArg (f, Mat.ofReal A)) (storedArg (g, Mat.ofReal B)) (.value 0) false = .ok (.real (calign A B)) := by
  have : alignmentCenteredAny (storedArg (f, Mat.ofReal A)) (storedArg (g, Mat.ofReal B)) (.value 0) false =
      alignmentCentered (Mat.ofReal A) (Mat.ofReal B) (.value 0) false := by
    unfold storedArg
    rw [if_neg (by exact hf), if_neg (by exact hg)]
    rfl
  rw [this]
  obtain ⟨h1, h2⟩ := alignment_real A B (.value 0) false
  by_cases hz : NearZero (Real.sqrt (frobInner (centered A) (centered A))) ∨ NearZero (Real.sqrt (frobInner (centered B) (centered B)))
  · rw [h1 hz, calign, if_pos hz]; rfl
  · rw [h2 hz, calign, if_neg hz]; rfl

theorem calign_range {n : Nat} (A B : Matrix (Fin n) (Fin n) ℝ) : -1 ≤ calign A B ∧ calign A B ≤ 1 := by
  unfold calign
  split
  · norm_num
  · rename_i h
    rw [not_or] at h
    have ha := pos_of_not_nearZero (Real.sqrt_nonneg _) h.1
    have hb := pos_of_not_nearZero (Real.sqrt_nonneg _) h.2
    have hab := mul_pos ha hb
    have := frobInner_abs_le (centered A) (centered B)
    rw [abs_le] at this
    constructor
    · rw [le_div_iff₀ hab]; linarith [this.1]
    · rw [div_le_iff₀ hab]; linarith [this.2]

/-! ### the double loop -/

theorem mem_loopPairs {n i j : Nat} : (i, j) ∈ loopPairs n ↔ i ≤ j ∧ j < n := by
  unfold loopPairs
  simp only [List.mem_flatMap, List.mem_range, List.mem_map, Prod.mk.injEq]
  constructor
  · rintro ⟨a, ha, b, hb, rfl, rfl⟩
    rw [List.mem_iff_getElem] at hb
    obtain ⟨k, hk, rfl⟩ := hb
    simp only [List.length_drop, List.length_range] at hk
    simp only [List.getElem_drop, List.getElem_range]
    omega
  · rintro ⟨h1, h2⟩
    refine ⟨i, by omega, j, ?_, rfl, rfl⟩
    rw [List.mem_iff_getElem]
    refine ⟨j - i, by simp; omega, ?_⟩
    simp only [List.getElem_drop, List.getElem_range]
    omega

variable {env : Env K X F}

theorem getD_lt {α : Type} (l : List α) (d : α) {i : Nat} (h : i < l.length) : l.getD i d = l[i] := by simp [h]

/-- matrix number `i` -/
def nth {n m : Nat} (Ks : List (Matrix (Fin n) (Fin m) ℝ)) (i : Nat) : Matrix (Fin n) (Fin m) ℝ := Ks.getD i 0

theorem pairLoop_run {n m : Nat} {P : Fmt → Prop} {est : Fmt × Mat F → Fmt × Mat F → Except PyErr F} {v : Matrix (Fin n) (Fin m) ℝ → Matrix (Fin n) (Fin m) ℝ → ℝ}
    {members : List Nat} {Ks : List (Matrix (Fin n) (Fin m) ℝ)}
    (hest : ∀ f g A B, P f → P g → A ∈ Ks → B ∈ Ks → est (f, Mat.ofReal A) (g, Mat.ofReal B) = .ok (.real (v A B)))
    (l : List (Nat × Nat)) (hl : ∀ p ∈ l, p.1 < members.length ∧ p.2 < members.length) (acc : Nat → Nat → F) (h : Heap K X)
    (hg : h.GivesAll env P members Ks) :
    ∃ acc' h', pairLoop env est members l acc h = (.ok acc', h') ∧ h'.GivesAll env P members Ks ∧
      ∀ i j, acc' i j = if (i, j) ∈ l then .real (v (nth Ks i) (nth Ks j)) else acc i j := by
  classical
  induction l generalizing acc h with
  | nil => exact ⟨acc, h, rfl, hg, fun i j => by simp⟩
  | cons p l ih =>
    obtain ⟨hl1, hl2⟩ := hl p (by simp)
    obtain ⟨hlen, hget⟩ := List.forall₂_iff_get.1 hg
    have hlen' : Ks.length = members.length := hlen.symm
    have hmem : ∀ i, (hi : i < members.length) → h.Gives env P (members.getD i 0) (Mat.ofReal (nth Ks i)) := by
      intro i hi
      have := hget i hi (hlen ▸ hi)
      rw [nth, getD_lt _ _ hi, getD_lt _ _ (hlen' ▸ hi)]
      exact this
    obtain ⟨f, h1, hf, e1, k1⟩ := Heap.full_gives (hmem p.1 hl1)
    obtain ⟨g, h2, hg', e2, k2⟩ := Heap.full_gives (k1 _ _ _ (hmem p.2 hl2))
    have hin : ∀ i, i < members.length → nth Ks i ∈ Ks := fun i hi => by
      rw [nth, getD_lt _ _ (hlen' ▸ hi)]; exact List.getElem_mem _
    have hv := hest f g _ _ hf hg' (hin p.1 hl1) (hin p.2 hl2)
    obtain ⟨acc', h', e3, g3, a3⟩ := ih (fun q hq => hl q (by simp [hq])) (setEntry acc p.1 p.2 (.real (v (nth Ks p.1) (nth Ks p.2)))) h2
      (GivesAll.keep (k1.trans k2) hg)
    refine ⟨acc', h', ?_, g3, fun i j => ?_⟩
    · show (Heap.full env (members.getD p.1 0) >>= _ : PyM (Heap K X) _) h = _
      rw [bind_ok e1]
      show (Heap.full env (members.getD p.2 0) >>= _ : PyM (Heap K X) _) h1 = _
      rw [bind_ok e2]
      show (lift (est (f, Mat.ofReal (nth Ks p.1)) (g, Mat.ofReal (nth Ks p.2))) >>= _ : PyM (Heap K X) _) h2 = _
      rw [hv]
      exact e3
    · rw [a3, setEntry]
      obtain ⟨a, b⟩ := p
      by_cases h0 : (i, j) ∈ l
      · rw [if_pos h0, if_pos (by simp [h0])]
      · rw [if_neg h0]
        by_cases h1 : i = a ∧ j = b
        · obtain ⟨rfl, rfl⟩ := h1
          rw [if_pos ⟨rfl, rfl⟩, if_pos (by simp)]
        · rw [if_neg h1, if_neg]
          simp only [List.mem_cons, Prod.mk.injEq, not_or]
          exact ⟨h1, h0⟩

/-- the first member is in sparse storage: both metrics raise at the first pair -/
theorem pairwise_sparse {t : KSet} {h h' : Heap K X} {a : Nat} {l : List Nat} {M : Mat F} (ht : t.members = a :: l)
    (ha : Heap.full env a h = (.ok (.sparse, M), h')) (ha' : Heap.full env a h' = (.ok (.sparse, M), h')) :
    pairwiseSimilarity env t "corr" h = (.error .attributeError, h') ∧ pairwiseSimilarity env t "align" h = (.error .typeError, h') := by
  have hp : ∃ q, loopPairs t.members.length = (0, 0) :: q := by
    rw [ht, List.length_cons, loopPairs, List.range_succ_eq_map]
    exact ⟨_, rfl⟩
  obtain ⟨q, hq⟩ := hp
  have key : ∀ (metric : String) est e, metricFunc metric = .ok est → est (.sparse, M) (.sparse, M) = .error e →
      pairwiseSimilarity env t metric h = (.error e, h') := by
    intro metric est e h1 h2
    show (lift (metricFunc metric) >>= _ : PyM (Heap K X) (Mat F)) h = _
    rw [h1]
    show (pairLoop env est t.members (loopPairs t.members.length) _ >>= _ : PyM (Heap K X) (Mat F)) h = _
    rw [hq, ht]
    refine bind_error ?_
    show (Heap.full env a >>= _ : PyM (Heap K X) _) h = _
    rw [bind_ok ha]
    show (Heap.full env a >>= _ : PyM (Heap K X) _) h' = _
    rw [bind_ok ha']
    show (lift (est (.sparse, M) (.sparse, M)) >>= _ : PyM (Heap K X) _) h' = _
    rw [h2]
    rfl
  refine ⟨key "corr" _ _ rfl rfl, key "align" _ _ rfl ?_⟩
  show alignmentCenteredAny (.other (some (M.nrows, M.ncols))) (.other (some (M.nrows, M.ncols))) (.value 0) false = _
  show (if ((M.nrows, M.ncols) ≠ (M.nrows, M.ncols)) then Except.error PyErr.valueError else Except.error PyErr.typeError) = _
  rw [if_neg (by simp)]

end KMethods
