import Verif.Spec.OverflowComposite
import Verif.Lemmas.OverflowAlign
import Verif.Lemmas.RoundComposite
/-! # Lemmas on composite kernels with overflow -/
namespace KMethods
open Rounding

theorem Dbl.Finite.eq {x : Dbl} (h : x.Finite) : x = .fin x.val := by
  cases x with
  | fin x => rfl
  | inf s => exact h.elim
  | nan => exact h.elim

theorem Dbl.finite_fin (x : ℝ) : (Dbl.fin x).Finite := trivial

namespace FloatFormat
variable {Φ : FloatFormat} {n m : Nat} {ι : Type}

theorem foldl_entry {ι α : Type} (f : α → ι → Fin n → Fin m → α) (L : List ι) (A : Fin n → Fin m → α) (i : Fin n) (j : Fin m) :
    L.foldl (fun acc p => fun i j => f (acc i j) p i j) A i j = L.foldl (fun x p => f x p i j) (A i j) := by
  induction L generalizing A with
  | nil => rfl
  | cons p L ih => exact ih _

theorem foldl_add_fin {t : ι → Dbl} {L : List ι} {x : Dbl} {v : ℝ} (h : L.foldl (fun x p => Φ.rnd (.addX x (t p))) x = .fin v) :
    x.Finite ∧ (∀ p ∈ L, (t p).Finite) ∧ v = L.foldl (fun x p => Φ.R.fl (x + (t p).val)) x.val := by
  induction L generalizing x with
  | nil =>
    obtain rfl : x = .fin v := h
    exact ⟨trivial, fun p hp => absurd hp List.not_mem_nil, rfl⟩
  | cons p L ih =>
    obtain ⟨h1, h2, h3⟩ := ih h
    obtain ⟨e, h4, h5⟩ := rnd_fin h1.eq
    obtain ⟨a, b, rfl, hb, rfl⟩ := Dbl.addX_fin h4
    refine ⟨trivial, fun q hq => ?_, ?_⟩
    · rcases List.mem_cons.1 hq with rfl | hq
      · rw [hb]; trivial
      · exact h2 q hq
    · rw [h3, h5, List.foldl_cons, hb]
      rfl

theorem foldl_mul_fin {t : ι → Dbl} {L : List ι} {x : Dbl} {v : ℝ} (h : L.foldl (fun x p => Φ.rnd (.mulX x (t p))) x = .fin v) :
    x.Finite ∧ (∀ p ∈ L, (t p).Finite) ∧ v = L.foldl (fun x p => Φ.R.fl (x * (t p).val)) x.val := by
  induction L generalizing x with
  | nil =>
    obtain rfl : x = .fin v := h
    exact ⟨trivial, fun p hp => absurd hp List.not_mem_nil, rfl⟩
  | cons p L ih =>
    obtain ⟨h1, h2, h3⟩ := ih h
    obtain ⟨e, h4, h5⟩ := rnd_fin h1.eq
    obtain ⟨a, b, rfl, hb, rfl⟩ := Dbl.mulX_fin h4
    refine ⟨trivial, fun q hq => ?_, ?_⟩
    · rcases List.mem_cons.1 hq with rfl | hq
      · rw [hb]; trivial
      · exact h2 q hq
    · rw [h3, h5, List.foldl_cons, hb]
      rfl

theorem mem_zip_left {α β : Type} {l : List α} {l' : List β} (h : l.length ≤ l'.length) {a : α} (ha : a ∈ l) : ∃ b, (a, b) ∈ l.zip l' := by
  rw [← List.map_fst_zip h] at ha
  obtain ⟨p, hp, rfl⟩ := List.mem_map.1 ha
  exact ⟨p.2, hp⟩

theorem mem_zip_right {α β : Type} {l : List α} {l' : List β} (h : l'.length ≤ l.length) {b : β} (hb : b ∈ l') : ∃ a, (a, b) ∈ l.zip l' := by
  rw [← List.map_snd_zip h] at hb
  obtain ⟨p, hp, rfl⟩ := List.mem_map.1 hb
  exact ⟨p.1, hp⟩

theorem weightedSum_entry (w : List Dbl) (Ks : List (Fin n → Fin m → Dbl)) (i : Fin n) (j : Fin m) :
    Φ.weightedSum w Ks i j = (w.zip Ks).foldl (fun x p => Φ.rnd (.addX x (Φ.rnd (.mulX p.1 (p.2 i j))))) (.fin 0) :=
  foldl_entry (fun (x : Dbl) (p : Dbl × (Fin n → Fin m → Dbl)) i j => Φ.rnd (.addX x (Φ.rnd (.mulX p.1 (p.2 i j))))) _ _ i j

theorem weightedSum_fin {w : List Dbl} {Ks : List (Fin n → Fin m → Dbl)} {i : Fin n} {j : Fin m} {v : ℝ} (hl : w.length = Ks.length) (h : Φ.weightedSum w Ks i j = .fin v) :
    (∀ x ∈ w, x.Finite) ∧ (∀ K ∈ Ks, (K i j).Finite) ∧
      v = (w.zip Ks).foldl (fun x p => Φ.R.fl (x + Φ.R.fl (p.1.val * (p.2 i j).val))) 0 := by
  rw [weightedSum_entry] at h
  obtain ⟨-, h2, h3⟩ := foldl_add_fin h
  have key : ∀ p ∈ w.zip Ks, p.1.Finite ∧ (p.2 i j).Finite ∧ (Φ.rnd (.mulX p.1 (p.2 i j))).val = Φ.R.fl (p.1.val * (p.2 i j).val) := fun p hp => by
    obtain ⟨e, h4, h5⟩ := rnd_fin (h2 p hp).eq
    obtain ⟨a, b, ha, hb, rfl⟩ := Dbl.mulX_fin h4
    rw [h5, ha, hb]
    exact ⟨trivial, trivial, rfl⟩
  refine ⟨fun x hx => ?_, fun K hK => ?_, h3.trans ?_⟩
  · obtain ⟨b, hb⟩ := mem_zip_left hl.le hx
    exact (key _ hb).1
  · obtain ⟨b, hb⟩ := mem_zip_right hl.ge hK
    exact (key _ hb).2.1
  · exact List.foldl_ext _ _ _ fun x p hp => by rw [(key p hp).2.2]

theorem entrySumAbs_nonneg (w : List Dbl) (Ks : List (Fin n → Fin m → Dbl)) (i : Fin n) (j : Fin m) : 0 ≤ entrySumAbs w Ks i j :=
  List.sum_nonneg fun x hx => by
    obtain ⟨p, -, rfl⟩ := List.mem_map.1 hx
    exact abs_nonneg _

theorem weightedSum_err {w : List Dbl} {Ks : List (Fin n → Fin m → Dbl)} (i : Fin n) (j : Fin m) (hl : w.length = Ks.length) :
    |(w.zip Ks).foldl (fun x p => Φ.R.fl (x + Φ.R.fl (p.1.val * (p.2 i j).val))) 0 - entrySum w Ks i j| ≤ (Φ.R.w ^ (Ks.length + 1) - 1) * entrySumAbs w Ks i j := by
  have := foldl_add_err (R := Φ.R) (w.zip Ks) (t := fun p => Φ.R.fl (p.1.val * (p.2 i j).val)) (v := fun p => p.1.val * (p.2 i j).val) (k := 1) (x := 0) (S := 0) (T := 0)
    (by simp) (by simp) fun p _ => (rel_fl _).err
  rw [zero_add, zero_add, List.length_zip, hl, min_self, Nat.add_comm 1] at this
  exact this

theorem foldl_mul_rel (L : List ι) (t : ι → ℝ) : Φ.R.Rel L.length (L.foldl (fun x p => Φ.R.fl (x * t p)) 1) (L.map t).prod := by
  have : ∀ (L : List ι) (k : Nat) (x P : ℝ), Φ.R.Rel k x P → Φ.R.Rel (k + L.length) (L.foldl (fun x p => Φ.R.fl (x * t p)) x) (P * (L.map t).prod) := by
    intro L
    induction L with
    | nil => intro k x P h; simpa using h
    | cons A L ih =>
      intro k x P h
      rw [List.foldl_cons, List.map_cons, List.prod_cons, ← mul_assoc, List.length_cons, show k + (L.length + 1) = k + 1 + L.length by omega]
      exact ih _ _ _ (by simpa using (h.mul (Rel.refl (t A))).fl)
  have h := this L 0 1 1 (Rel.refl 1)
  rwa [zero_add, one_mul] at h

theorem abs_sum_map_le (L : List ι) (t : ι → ℝ) : |(L.map t).sum| ≤ (L.map fun p => |t p|).sum := by
  induction L with
  | nil => simp
  | cons p L ih =>
    rw [List.map_cons, List.sum_cons, List.map_cons, List.sum_cons]
    exact (abs_add_le _ _).trans (by linarith)

/-- sums that do not overflow -/
theorem foldl_add_moderate {t : ι → Dbl} {d : ι → ℝ} {L : List ι} {k : Nat} {x T : ℝ} (hx : |x| ≤ Φ.R.w ^ k * T) (hT : 0 ≤ T)
    (ht : ∀ p ∈ L, ∃ r, t p = .fin r ∧ |r| ≤ Φ.R.w ^ k * |d p|) (hmax : Φ.R.w ^ (k + L.length) * (T + (L.map fun p => |d p|).sum) ≤ Φ.max) :
    ∃ v, L.foldl (fun x p => Φ.rnd (.addX x (t p))) (.fin x) = .fin v := by
  induction L generalizing x T k with
  | nil => exact ⟨x, rfl⟩
  | cons p L ih =>
    obtain ⟨r, hr, hrd⟩ := ht p List.mem_cons_self
    have h1 : |x + r| ≤ Φ.R.w ^ k * (T + |d p|) := (abs_add_le _ _).trans (by rw [mul_add]; exact add_le_add hx hrd)
    have h2 := abs_fl_le h1
    have hS : 0 ≤ (L.map fun p => |d p|).sum := List.sum_nonneg fun x hx => by
      obtain ⟨p, -, rfl⟩ := List.mem_map.1 hx
      exact abs_nonneg _
    rw [List.map_cons, List.sum_cons, List.length_cons, ← add_assoc T, show k + (L.length + 1) = k + 1 + L.length by omega] at hmax
    have h3 : |Φ.R.fl (x + r)| ≤ Φ.max := h2.trans (le_trans (mul_le_mul (pow_le_pow_right₀ Φ.R.one_le_w (by omega)) (by linarith)
      (add_nonneg hT (abs_nonneg _)) (pow_w_pos _).le) hmax)
    obtain ⟨v, hv⟩ := ih h2 (add_nonneg hT (abs_nonneg _)) (fun q hq => by
      obtain ⟨r, h4, h5⟩ := ht q (List.mem_cons_of_mem _ hq)
      exact ⟨r, h4, h5.trans (mul_le_mul_of_nonneg_right (pow_le_pow_right₀ Φ.R.one_le_w (Nat.le_succ k)) (abs_nonneg _))⟩) hmax
    refine ⟨v, ?_⟩
    rw [List.foldl_cons, hr]
    show L.foldl _ (Φ.clip (Φ.R.fl (x + r))) = _
    rw [clip_of_le h3]
    exact hv

/-- products that do not overflow -/
theorem foldl_mul_moderate {t : ι → ℝ} {L : List ι} {k : Nat} {x P : ℝ} (hx : |x| ≤ Φ.R.w ^ k * |P|)
    (hmax : ∀ L', L' <+: L → Φ.R.w ^ (k + L.length) * |P * (L'.map t).prod| ≤ Φ.max) :
    ∃ v, L.foldl (fun x p => Φ.rnd (.mulX x (.fin (t p)))) (.fin x) = .fin v := by
  induction L generalizing x P k with
  | nil => exact ⟨x, rfl⟩
  | cons p L ih =>
    have h1 : |x * t p| ≤ Φ.R.w ^ k * |P * t p| := by
      rw [abs_mul, abs_mul, ← mul_assoc]
      exact mul_le_mul_of_nonneg_right hx (abs_nonneg _)
    have h2 := abs_fl_le h1
    have h3 : |Φ.R.fl (x * t p)| ≤ Φ.max := by
      have := hmax [p] (by simp)
      rw [List.map_singleton, List.prod_singleton] at this
      refine h2.trans (le_trans (mul_le_mul_of_nonneg_right (pow_le_pow_right₀ Φ.R.one_le_w ?_) (abs_nonneg _)) this)
      rw [List.length_cons]
      omega
    obtain ⟨v, hv⟩ := ih (P := P * t p) h2 fun L' hL' => by
      have := hmax (p :: L') (List.cons_prefix_cons.2 ⟨rfl, hL'⟩)
      rw [List.map_cons, List.prod_cons, ← mul_assoc, List.length_cons] at this
      rwa [show k + 1 + L.length = k + (L.length + 1) by omega]
    refine ⟨v, ?_⟩
    rw [List.foldl_cons]
    show L.foldl _ (Φ.clip (Φ.R.fl (x * t p))) = _
    rw [clip_of_le h3]
    exact hv

theorem weightedSum_moderate {w : List Dbl} {Ks : List (Fin n → Fin m → Dbl)} {i : Fin n} {j : Fin m} (hl : w.length = Ks.length) (hw : ∀ x ∈ w, x.Finite) (hK : ∀ K ∈ Ks, (K i j).Finite)
    (hmax : Φ.R.w ^ (Ks.length + 1) * entrySumAbs w Ks i j ≤ Φ.max) : (Φ.weightedSum w Ks i j).Finite := by
  rw [weightedSum_entry]
  obtain ⟨v, hv⟩ := foldl_add_moderate (Φ := Φ) (L := w.zip Ks) (t := fun p => Φ.rnd (.mulX p.1 (p.2 i j))) (d := fun p => p.1.val * (p.2 i j).val) (k := 1) (x := 0) (T := 0) (by simp) le_rfl
    (fun p hp => by
      have hp' := List.of_mem_zip (a := p.1) (b := p.2) hp
      have e1 := (hw _ hp'.1).eq
      have e2 := (hK _ hp'.2).eq
      have h1 : |Φ.R.fl (p.1.val * (p.2 i j).val)| ≤ Φ.R.w ^ 1 * |p.1.val * (p.2 i j).val| := (rel_fl _).le
      refine ⟨Φ.R.fl (p.1.val * (p.2 i j).val), ?_, h1⟩
      rw [e1, e2]
      show Φ.clip (Φ.R.fl (p.1.val * (p.2 i j).val)) = _
      refine clip_of_le (h1.trans (le_trans ?_ hmax))
      refine mul_le_mul (pow_le_pow_right₀ Φ.R.one_le_w (by omega)) ?_ (abs_nonneg _) (pow_w_pos _).le
      exact List.single_le_sum (fun x hx => by
        obtain ⟨p, -, rfl⟩ := List.mem_map.1 hx
        exact abs_nonneg _) _ (List.mem_map.2 ⟨p, hp, rfl⟩))
    (by
      rw [zero_add, List.length_zip, hl, min_self, Nat.add_comm]
      exact hmax)
  rw [hv]
  trivial

/-! ### normalised weights -/

theorem denom_nonneg {o : FlatOrder} {w : List Dbl} (hw : ∀ x ∈ w, x.Finite) (h0 : ∀ x ∈ w, 0 ≤ x.val) :
    ∃ d, Φ.R.Rel w.length d (w.map Dbl.val).sum ∧
      (Φ.dot (fun i => w.get i) (fun _ => .fin 1) (o.tree w.length) = .fin d ∨
        Φ.dot (fun i => w.get i) (fun _ => .fin 1) (o.tree w.length) = .inf false ∧ Φ.max < Φ.R.w ^ w.length * (w.map Dbl.val).sum) ∧
      (Φ.max < d → Φ.dot (fun i => w.get i) (fun _ => .fin 1) (o.tree w.length) = .inf false) := by
  have ew : (fun i => w.get i) = fun i => Dbl.fin (w.get i).val := funext fun i => (hw _ (List.get_mem _ _)).eq
  have hnn : ∀ i : Fin w.length, 0 ≤ (w.get i).val * 1 := fun i => by rw [mul_one]; exact h0 _ (List.get_mem _ _)
  have h := SumTree.dotR_rel (R := Φ.R) (a := fun i => (w.get i).val) (b := fun _ => 1) hnn (o.tree w.length)
  rw [(o.complete _).length, (o.complete _).total] at h
  simp only [mul_one] at h
  have e : ∑ i : Fin w.length, (w.get i).val = (w.map Dbl.val).sum := by
    rw [← List.sum_ofFn]
    congr 1
    conv_rhs => rw [← List.ofFn_get w, List.map_ofFn]
    rfl
  rw [e] at h
  refine ⟨_, h, ?_, fun hlt => by rw [ew]; exact dot_overflow hnn hlt⟩
  rw [ew]
  rcases le_or_gt (Φ.R.w ^ w.length * (w.map Dbl.val).sum) Φ.max with hle | hlt
  · left
    refine dot_moderate ?_
    rw [(o.complete _).length, (o.complete _).total]
    have e' : ∑ i : Fin w.length, |(w.get i).val * 1| = ∑ i : Fin w.length, (w.get i).val :=
      Finset.sum_congr rfl fun i _ => by rw [abs_of_nonneg (hnn i), mul_one]
    rw [e', e]
    exact hle
  · have h1 := dot_nn (Φ := Φ) hnn (o.tree w.length)
    rcases h1 with ⟨x, -, h1⟩ | h1
    · exact .inl (h1.trans (congrArg Dbl.fin (dot_fin h1)))
    · exact .inr ⟨h1, hlt⟩

theorem linearCombination_norm {o : FlatOrder} {w : List Dbl} {Ks : List (Fin n → Fin m → Dbl)} (hl : w.length = Ks.length) :
    ((Φ.dot (fun i => w.get i) (fun _ => .fin 1) (o.tree w.length)).CloseToZero → Φ.linearCombination o Ks w true = .error .runtimeError) ∧
    (¬ (Φ.dot (fun i => w.get i) (fun _ => .fin 1) (o.tree w.length)).CloseToZero →
      Φ.linearCombination o Ks w true = .ok (Φ.weightedSum (w.map fun x => Φ.rnd (.divX x (Φ.dot (fun i => w.get i) (fun _ => .fin 1) (o.tree w.length)))) Ks)) := by
  have e : Φ.combWeights o Ks.length w true = open Classical in
      if (Φ.dot (fun i => w.get i) (fun _ => .fin 1) (o.tree w.length)).CloseToZero then .error .runtimeError
      else .ok (w.map fun x => Φ.rnd (.divX x (Φ.dot (fun i => w.get i) (fun _ => .fin 1) (o.tree w.length)))) := if_pos hl.symm
  unfold FloatFormat.linearCombination
  rw [e]
  constructor
  · intro h
    rw [if_pos h]
    rfl
  · intro h
    rw [if_neg h]
    rfl

end FloatFormat
end KMethods
