import Verif.Lemmas.Leftover
import Verif.Props.BrokenComposite
/-!
# C35: the matrix that a failed refit leaves
-/
namespace KMethods
open PyM CompSt
variable {K X : Type} {env : Env K X F} {P : Fmt → Prop} {n : Nat} {s : CompSt K X} {l₁ l₂ : List Nat} {r : Nat} {Ks : List (Matrix (Fin n) (Fin n) ℝ)}

/-- **C35** violated in general: the matrix of member `r` of a set, after those in `l₁`, cannot be computed. Then a refit of `SumKernel` raises, and `composite_KM` returns the (weighted) sum of the members before `r`. -/
theorem C35_sum_violated (hf : s.comp.isFitted = true) (hm : s.set.members = l₁ ++ r :: l₂) (hk : s.comp.kind = .sum) (hn : s.comp.numSamples = .one n) (hg : s.heap.GivesAll env P l₁ Ks) (hr : r ∉ l₁)
    {t : KMState K X F} {e : PyErr} (ht : s.heap.objs r = some (.km t)) (he : (KMState.full env t).1 = .error e) :
    s.Leaves env none (fun i j => (Ks.map fun A => A i j).sum) ∧ ∀ w l, WeightsIn.IsVec w l → l.length = s.set.members.length → s.Leaves env (some w) (wsum l Ks) := by
  have hst : s.Stuck env r := ⟨t, e, ht, he⟩
  have hKs : Ks.length = l₁.length := (List.Forall₂.length_eq hg).symm
  constructor
  · obtain ⟨err, s2, f, e1, hc⟩ := weightedSum_leftover (l := List.replicate s.set.members.length 1) hm (by simp) hn hg hr hst
    have hw : wsum (List.replicate s.set.members.length 1) Ks = fun i j => (Ks.map fun A => A i j).sum := by
      have h2 : (List.replicate s.set.members.length (1 : ℝ)).zip Ks = (List.replicate Ks.length 1).zip Ks := by
        have h3 : Ks.length ≤ s.set.members.length := by rw [hKs, hm]; simp
        rw [List.zip_eq_zip_take_min (l₁ := List.replicate s.set.members.length (1 : ℝ))]
        simp [h3]
      have h4 := wsum_replicate 1 Ks
      unfold wsum at h4 ⊢
      rw [h2, h4]
      simp only [one_mul]
      rfl
    rw [← hw]
    refine leaves_of_body (e := err) (s2 := s2) (f := f) ?_ hf hc
    unfold fitBody
    rw [hk]
    show weightedSum env (List.replicate s.set.members.length 1) s = _
    rw [← e1, List.map_replicate]
    rfl
  · intro w l hw hl
    obtain ⟨err, s2, f, e1, hc⟩ := weightedSum_leftover (l := l) hm hl hn hg hr hst
    refine leaves_of_body (e := err) (s2 := s2) (f := f) ?_ hf hc
    unfold fitBody
    rw [hk]
    show (lift (sumWeights s.set.members.length (some w)) >>= fun l => weightedSum env l : PyM (CompSt K X) Unit) s = _
    have : sumWeights s.set.members.length (some w) = .ok (l.map F.real) := by
      show (w.to1D >>= fun l => if l.length ≠ s.set.members.length then _ else _) = _
      rw [hw.to1D]
      show (if (l.map F.real).length ≠ s.set.members.length then _ else _) = _
      rw [List.length_map, if_neg (not_not.2 hl)]
    rw [this]
    exact e1

/-- **C35** violated in general: `WeightedAverageKernel` -/
theorem C35_weighted_violated (hf : s.comp.isFitted = true) (hm : s.set.members = l₁ ++ r :: l₂) {l : List ℝ} (hk : s.comp.kind = .weighted (l.map F.real)) (hl : l.length = s.set.members.length)
    (hn : s.comp.numSamples = .one n) (hg : s.heap.GivesAll env P l₁ Ks) (hr : r ∉ l₁) {t : KMState K X F} {e : PyErr} (ht : s.heap.objs r = some (.km t)) (he : (KMState.full env t).1 = .error e) :
    s.Leaves env none (wsum l Ks) := by
  obtain ⟨err, s2, f, e1, hc⟩ := weightedSum_leftover (l := l) hm hl hn hg hr ⟨t, e, ht, he⟩
  refine leaves_of_body (e := err) (s2 := s2) (f := f) ?_ hf hc
  unfold fitBody
  rw [hk]
  exact e1

/-- **C35** violated in general: `AverageKernel`; what is left is a sum, it has not been divided by the number of kernels. -/
theorem C35_average_violated (hf : s.comp.isFitted = true) (hm : s.set.members = l₁ ++ r :: l₂) (hk : s.comp.kind = .average) (hn : s.comp.numSamples = .one n) (hg : s.heap.GivesAll env P l₁ Ks) (hr : r ∉ l₁)
    {t : KMState K X F} {e : PyErr} (ht : s.heap.objs r = some (.km t)) (he : (KMState.full env t).1 = .error e) : s.Leaves env none (fun i j => (Ks.map fun A => A i j).sum) := by
  obtain ⟨err, s2, f, e1, hc⟩ := average_leftover hm hk hn hg hr ⟨t, e, ht, he⟩
  exact leaves_of_body (e := err) (s2 := s2) (f := f) e1 hf hc

/-- **C35** violated in general: `ProductKernel`, if the members before `r` have dense storage (see C32) -/
theorem C35_product_violated (hf : s.comp.isFitted = true) (hm : s.set.members = l₁ ++ r :: l₂) (hk : s.comp.kind = .product) (hn : s.comp.numSamples = .one n) (hg : s.heap.GivesAll env IsDense l₁ Ks) (hr : r ∉ l₁)
    {t : KMState K X F} {e : PyErr} (ht : s.heap.objs r = some (.km t)) (he : (KMState.full env t).1 = .error e) : s.Leaves env none (eprod Ks) := by
  obtain ⟨err, s2, e1, hc⟩ := product_leftover hm hk hn hg hr ⟨t, e, ht, he⟩
  exact leaves_of_body (e := err) (s2 := s2) (f := .dense) e1 hf hc

namespace Demo
/-- a precomputed matrix and a kernel that always raises, attached to one sample -/
noncomputable def halfBroken (k : CompKind) : CompSt Unit ℝ :=
  ⟨⟨fun q => if q = 0 then some (.pre ⟨Mat.ofReal fun (_ _ : Fin 1) => 7, 1⟩) else brokenPair1.heap.objs q, 2⟩, ⟨[0, 1], .one 1, true⟩, ⟨k, .one 1, true, none⟩⟩
end Demo

/-- the hypotheses of the four theorems -/
example (k : CompKind) : (Demo.halfBroken k).comp.isFitted = true ∧ (Demo.halfBroken k).set.members = [0] ++ 1 :: [] ∧ (Demo.halfBroken k).comp.numSamples = .one 1 ∧
    (Demo.halfBroken k).heap.GivesAll Demo.brokenEnv IsDense [0] [fun (_ _ : Fin 1) => 7] ∧ 1 ∉ [0] ∧
    ∃ t e, (Demo.halfBroken k).heap.objs 1 = some (.km t) ∧ (KMState.full Demo.brokenEnv t).1 = .error e :=
  ⟨rfl, rfl, rfl, .cons ⟨rfl, rfl⟩ .nil, by decide, _, .runtimeError, rfl, rfl⟩

end KMethods
