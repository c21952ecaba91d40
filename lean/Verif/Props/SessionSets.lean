import Verif.Lemmas.SessionSets
import Verif.Props.Session
/-!
# C110: sets of a program
-/
namespace KMethods
open PyM
variable {K X : Type} {env : Env K X F}

/-- **C110** Whatever a program does, its sets stay, members are added to them at the end only and never removed or replaced, and once a set has a number of samples, it keeps it. (`s`: any state.) -/
theorem C110_grown (s : ProgSt K X) (l : List (POp K X)) {j : Nat} {t : KSet} (h : s.loc.sets[j]? = some t) :
    ∃ t', (ProgSt.run env l s).2.loc.sets[j]? = some t' ∧ t.members <+: t'.members ∧ (t.numSamples ≠ .unset → t'.numSamples = t.numSamples) := by
  obtain ⟨t', h1, h2, -⟩ := kept_run (env := env) (T := fun _ => True) l (fun _ _ _ _ => trivial) (s := s) (sets := s.loc.sets) (fun _ t ht => ⟨t, ht, .refl t, fun _ => rfl⟩) j t h
  exact ⟨t', h1, h2⟩

/-- **C110** A set changes only by `append`, `extend`, `attach_to`, `add_parametrized_kernels` and `find_optimal_kernel` called on this very set: not when others are extended by it, when composites of it are constructed and fitted, when parts of it are
taken and changed, or when its members are put into other sets. -/
theorem C110_unchanged (s : ProgSt K X) (l : List (POp K X)) {j : Nat} {t : KSet} (h : s.loc.sets[j]? = some t) (hl : ∀ op ∈ l, op.target ≠ some j) :
    (ProgSt.run env l s).2.loc.sets[j]? = some t := by
  obtain ⟨t', h1, -, h2⟩ := kept_run (env := env) (T := fun i => i ≠ j) l (fun op ho i hi hij => hl op ho (by rw [hi, hij])) (s := s) (sets := s.loc.sets) (fun _ t ht => ⟨t, ht, .refl t, fun _ => rfl⟩) j t h
  rw [h1, h2 fun hn => hn rfl]

/-- **C110** A composite kernel and its set always agree in the number of samples, and the set has at least two members: from construction on, whatever is done. -/
theorem C110_composite (s : ProgSt K X) {i : Nat} {cls : CompClass} (hc : (ProgSt.exec env (.newComposite cls i) s).1 = .ok .none) (l : List (POp K X)) :
    ∃ y t, (ProgSt.run env l (ProgSt.exec env (.newComposite cls i) s).2).2.loc.comps[s.loc.comps.length]? = some (i, y) ∧
      (ProgSt.run env l (ProgSt.exec env (.newComposite cls i) s).2).2.loc.sets[i]? = some t ∧ y.numSamples = t.numSamples ∧ y.numSamples ≠ .unset ∧ 2 ≤ t.members.length := by
  rcases ht : s.loc.sets[i]? with _ | t
  · have : ProgSt.exec env (.newComposite cls i) s = (.error .nameError, s) := bind_error (ProgSt.var_none (l := fun l => l.sets) ht)
    rw [this] at hc; cases hc
  obtain ⟨y, hy, hs⟩ := exec_newComposite ht hc
  obtain ⟨z, hz, -, h2⟩ := hasKind_run (env := env) l ⟨y, hs, rfl, rfl⟩
  have hk : Kept (fun _ => True) s.loc.sets (ProgSt.exec env (.newComposite cls i) s).2 := kept_exec (.newComposite cls i) (fun _ _ => trivial) s fun _ t ht => ⟨t, ht, .refl t, fun _ => rfl⟩
  obtain ⟨t', h3, h4, -⟩ := kept_run (env := env) l (fun _ _ _ _ => trivial) hk i t ht
  have hsz : ¬ t.members.length < 2 := fun h => by
    unfold mkComposite at hy
    simp only at hy
    rw [if_pos h] at hy; cases hy
  have hne : t.numSamples ≠ .unset := fun h => by
    unfold mkComposite at hy
    simp only at hy
    rw [if_neg hsz, if_pos h] at hy; cases hy
  have hn : y.numSamples = t.numSamples := by
    unfold mkComposite at hy
    simp only at hy
    rw [if_neg hsz, if_neg hne] at hy
    cases cls with
    | weighted w =>
      simp only at hy
      rcases hw : w.checked t.members.length with e | v
      · rw [hw] at hy; cases hy
      · rw [hw] at hy; injection hy with hy; rw [← hy]
    | _ => injection hy with hy; rw [← hy]
  refine ⟨z, t', hz.1, h3, ?_, ?_, ?_⟩
  · rw [h2, hn, h4.2 hne]
  · rw [h2, hn]; exact hne
  · exact (not_lt.1 hsz).trans h4.1.length_le

namespace Demo
/-- the set is extended by itself, a part of it is taken and changed, composites of it are fitted -/
noncomputable def prog110 : List (POp Unit ℝ) := [.extend 0 0, .take 0 (.ints [0, 1]), .append 1 (.ref 0), .extend 1 0, .newComposite .sum 0, .fit 1 none, .attach 1 sample3 none, .rank 0 (fun _ _ _ => .error .valueError) [] "align/corr" {}]
end Demo

/-- the set of `prog82` -/
example : ∃ t', (ProgSt.run Demo.renv Demo.prog110 Demo.st82).2.loc.sets[0]? = some t' ∧ [0, 1, 0] <+: t'.members ∧ (NumSamples.one 3 ≠ .unset → t'.numSamples = .one 3) := C110_grown _ _ Demo.st82_set

/-- without the first step it does not change -/
example : (ProgSt.run Demo.renv Demo.prog110.tail Demo.st82).2.loc.sets[0]? = some ⟨[0, 1, 0], .one 3, true⟩ := by
  refine C110_unchanged _ _ Demo.st82_set fun op hop => ?_
  simp only [Demo.prog110, List.tail_cons, List.mem_cons, List.not_mem_nil, or_false] at hop
  rcases hop with rfl | rfl | rfl | rfl | rfl | rfl | rfl <;> simp [POp.target]

/-- a composite of it can be constructed -/
example : (ProgSt.exec Demo.renv (.newComposite .sum 0) Demo.st82).1 = .ok .none := rfl

end KMethods
