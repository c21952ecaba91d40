import Verif.Model.Threads
import Mathlib.Algebra.BigOperators.Group.Finset.Basic
import Mathlib.Algebra.BigOperators.Group.Finset.Piecewise
import Mathlib.Data.Fintype.Basic
import Mathlib.Tactic.Common
/-!
# Reasoning about interleaved threads

Every step of every thread keeps an invariant of the shared state and only makes changes that the others can rely on; a thread
may use up a budget.
-/
namespace KMethods

/-- what threads rely on: an invariant, the changes that others may make, and a resource that is counted -/
structure Rely (σ : Type) where
  Inv : σ → Prop
  R : σ → σ → Prop
  c : σ → Nat
  refl : ∀ s, R s s
  trans : ∀ {s s' s''}, R s s' → R s' s'' → R s s''

namespace Rely
variable {σ α β ι : Type} (ρ : Rely σ)

/-- with budget `b`, and after any changes by others to the last known state `s`, the program respects the invariant and
the reliance, and ends in `Q` or, with an exception, in `E` -/
def Safe (Q : α → Nat → σ → Prop) (E : PyErr → Nat → σ → Prop) : Prog σ α → Nat → σ → Prop
  | .done (.ok a), b, s => Q a b s
  | .done (.error e), b, s => E e b s
  | .step u n, b, s => ∀ s', ρ.R s s' → ρ.Inv s' → ρ.Inv (u s') ∧ ρ.R s' (u s') ∧
      ∃ b', ρ.c (u s') + b' ≤ ρ.c s' + b ∧ Safe Q E (n s') b' (u s')

/-- the program is safe whenever `P` holds -/
def Tri (P : Nat → σ → Prop) (p : Prog σ α) (Q : α → Nat → σ → Prop) (E : PyErr → Nat → σ → Prop) : Prop :=
  ∀ b s, P b s → ρ.Safe Q E p b s

variable {ρ}

theorem Safe.mono {Q Q' : α → Nat → σ → Prop} {E E' : PyErr → Nat → σ → Prop} {p : Prog σ α} {b : Nat} {s : σ}
    (h : ρ.Safe Q E p b s) (hQ : ∀ a b s, Q a b s → Q' a b s) (hE : ∀ e b s, E e b s → E' e b s) : ρ.Safe Q' E' p b s := by
  induction p generalizing b s with
  | done r =>
    rcases r with e | a
    · exact hE _ _ _ h
    · exact hQ _ _ _ h
  | step u n ih =>
    intro s' hr hi
    obtain ⟨h1, h2, b', h3, h4⟩ := h s' hr hi
    exact ⟨h1, h2, b', h3, ih s' h4⟩

theorem Safe.bind {Q : α → Nat → σ → Prop} {Q' : β → Nat → σ → Prop} {E : PyErr → Nat → σ → Prop} {p : Prog σ α}
    {f : α → Prog σ β} {b : Nat} {s : σ} (h : ρ.Safe Q E p b s) (hf : ∀ a b s, Q a b s → ρ.Safe Q' E (f a) b s) :
    ρ.Safe Q' E (p >>= f) b s := by
  induction p generalizing b s with
  | done r =>
    rcases r with e | a
    · exact h
    · exact hf _ _ _ h
  | step u n ih =>
    intro s' hr hi
    obtain ⟨h1, h2, b', h3, h4⟩ := h s' hr hi
    exact ⟨h1, h2, b', h3, ih s' h4⟩

theorem Safe.catchAll {Q : α → Nat → σ → Prop} {E E' : PyErr → Nat → σ → Prop} {p : Prog σ α} {b : Nat} {s : σ} {e : PyErr}
    (h : ρ.Safe Q E p b s) (hE : ∀ e' b s, E e' b s → E' e b s) : ρ.Safe Q E' (Prog.catchAll e p) b s := by
  induction p generalizing b s with
  | done r =>
    rcases r with e' | a
    · exact hE _ _ _ h
    · exact h
  | step u n ih =>
    intro s' hr hi
    obtain ⟨h1, h2, b', h3, h4⟩ := h s' hr hi
    exact ⟨h1, h2, b', h3, ih s' h4⟩

theorem Safe.attempt {Q : α → Nat → σ → Prop} {E E' : PyErr → Nat → σ → Prop} {Q' : Except PyErr α → Nat → σ → Prop}
    {p : Prog σ α} {b : Nat} {s : σ} (h : ρ.Safe Q E p b s) (hQ : ∀ a b s, Q a b s → Q' (.ok a) b s)
    (hE : ∀ e b s, E e b s → Q' (.error e) b s) : ρ.Safe Q' E' (Prog.attempt p) b s := by
  induction p generalizing b s with
  | done r =>
    rcases r with e' | a
    · exact hE _ _ _ h
    · exact hQ _ _ _ h
  | step u n ih =>
    intro s' hr hi
    obtain ⟨h1, h2, b', h3, h4⟩ := h s' hr hi
    exact ⟨h1, h2, b', h3, ih s' h4⟩

theorem Tri.bind {P : Nat → σ → Prop} {Q : α → Nat → σ → Prop} {Q' : β → Nat → σ → Prop} {E : PyErr → Nat → σ → Prop} {p : Prog σ α}
    {f : α → Prog σ β} (h : ρ.Tri P p Q E) (hf : ∀ a, ρ.Tri (Q a) (f a) Q' E) : ρ.Tri P (p >>= f) Q' E :=
  fun b s hp => (h b s hp).bind fun a b s hq => hf a b s hq

theorem Tri.mono {P P' : Nat → σ → Prop} {Q Q' : α → Nat → σ → Prop} {E E' : PyErr → Nat → σ → Prop} {p : Prog σ α}
    (h : ρ.Tri P p Q E) (hP : ∀ b s, P' b s → P b s) (hQ : ∀ a b s, Q a b s → Q' a b s) (hE : ∀ e b s, E e b s → E' e b s) :
    ρ.Tri P' p Q' E' := fun b s hp => (h b s (hP b s hp)).mono hQ hE

theorem Safe.frame {F : σ → Prop} (hF : ∀ s s', F s → ρ.R s s' → F s') {Q : α → Nat → σ → Prop} {E : PyErr → Nat → σ → Prop}
    {p : Prog σ α} {b : Nat} {s : σ} (h : ρ.Safe Q E p b s) (hs : F s) :
    ρ.Safe (fun a b s => Q a b s ∧ F s) (fun e b s => E e b s ∧ F s) p b s := by
  induction p generalizing b s with
  | done r =>
    rcases r with e' | a
    · exact ⟨h, hs⟩
    · exact ⟨h, hs⟩
  | step u n ih =>
    intro s' hr hi
    obtain ⟨h1, h2, b', h3, h4⟩ := h s' hr hi
    exact ⟨h1, h2, b', h3, ih s' h4 (hF _ _ (hF _ _ hs hr) h2)⟩

/-- what others cannot invalidate, and what the program's own steps are allowed to do cannot either, is kept -/
theorem Tri.frame {F : σ → Prop} (hF : ∀ s s', F s → ρ.R s s' → F s') {P : Nat → σ → Prop} {Q : α → Nat → σ → Prop}
    {E : PyErr → Nat → σ → Prop} {p : Prog σ α} (h : ρ.Tri P p Q E) :
    ρ.Tri (fun b s => P b s ∧ F s) p (fun a b s => Q a b s ∧ F s) E :=
  fun b s hp => ((h b s hp.1).frame hF hp.2).mono (fun _ _ _ h => h) fun _ _ _ h => h.1

/-- facts that do not mention the state -/
theorem Tri.given {C : Prop} {P : Nat → σ → Prop} {Q : α → Nat → σ → Prop} {E : PyErr → Nat → σ → Prop} {p : Prog σ α}
    (h : C → ρ.Tri P p Q E) : ρ.Tri (fun b s => P b s ∧ C) p Q E := fun b s hp => h hp.2 b s hp.1

theorem tri_pure {P : Nat → σ → Prop} {Q : α → Nat → σ → Prop} {E : PyErr → Nat → σ → Prop} {a : α}
    (h : ∀ b s, P b s → Q a b s) : ρ.Tri P (pure a) Q E := fun b s hp => h b s hp

theorem tri_throw {P : Nat → σ → Prop} {Q : α → Nat → σ → Prop} {E : PyErr → Nat → σ → Prop} {e : PyErr}
    (h : ∀ b s, P b s → E e b s) : ρ.Tri P (Prog.throw e) Q E := fun b s hp => h b s hp

theorem tri_lift {P : Nat → σ → Prop} {Q : α → Nat → σ → Prop} {E : PyErr → Nat → σ → Prop} {r : Except PyErr α}
    (h : ∀ a, r = .ok a → ∀ b s, P b s → Q a b s) (h' : ∀ e, r = .error e → ∀ b s, P b s → E e b s) :
    ρ.Tri P (Prog.lift r) Q E := fun b s hp => by
  rcases r with e | a
  · exact h' e rfl b s hp
  · exact h a rfl b s hp

theorem tri_atomic {P : Nat → σ → Prop} {Q : α → Nat → σ → Prop} {E : PyErr → Nat → σ → Prop} {m : PyM σ α}
    (h : ∀ b s0 s, P b s0 → ρ.R s0 s → ρ.Inv s → ρ.Inv (m s).2 ∧ ρ.R s (m s).2 ∧ ∃ b', ρ.c (m s).2 + b' ≤ ρ.c s + b ∧
      match (m s).1 with
      | .ok a => Q a b' (m s).2
      | .error e => E e b' (m s).2) : ρ.Tri P (Prog.atomic m) Q E := by
  intro b s0 hp s hr hi
  obtain ⟨h1, h2, b', h3, h4⟩ := h b s0 s hp hr hi
  refine ⟨h1, h2, b', h3, ?_⟩
  rcases hm : (m s).1 with e | a
  · rw [hm] at h4
    show ρ.Safe Q E (.done (m s).1) b' (m s).2
    rw [hm]; exact h4
  · rw [hm] at h4
    show ρ.Safe Q E (.done (m s).1) b' (m s).2
    rw [hm]; exact h4

theorem tri_atomic' {P : Nat → σ → Prop} {Q : α → Nat → σ → Prop} {E : PyErr → Nat → σ → Prop} {m : PyM σ α}
    (h : ∀ b s0 s, P b s0 → ρ.R s0 s → ρ.Inv s → ∃ r t, m s = (r, t) ∧ ρ.Inv t ∧ ρ.R s t ∧ ∃ b', ρ.c t + b' ≤ ρ.c s + b ∧
      match r with
      | .ok a => Q a b' t
      | .error e => E e b' t) : ρ.Tri P (Prog.atomic m) Q E :=
  tri_atomic fun b s0 s hp hr hi => by
    obtain ⟨r, t, hm, h1⟩ := h b s0 s hp hr hi
    rw [hm]
    exact h1

/-- a step that reads -/
theorem tri_look {P : Nat → σ → Prop} {Q : α → Nat → σ → Prop} {E : PyErr → Nat → σ → Prop} {m : PyM σ α}
    (h : ∀ b s0 s, P b s0 → ρ.R s0 s → ρ.Inv s → ∃ a, m s = (.ok a, s) ∧ Q a b s) : ρ.Tri P (Prog.atomic m) Q E :=
  tri_atomic' fun b s0 s hp hr hi => by
    obtain ⟨a, hm, hq⟩ := h b s0 s hp hr hi
    exact ⟨_, _, hm, hi, ρ.refl s, b, le_rfl, hq⟩

/-- assertions that others cannot invalidate -/
def Stable (ρ : Rely σ) (P : Nat → σ → Prop) : Prop := ∀ b s s', P b s → ρ.R s s' → P b s'

theorem tri_read {P : Nat → σ → Prop} {E : PyErr → Nat → σ → Prop} (hP : Stable ρ P) (f : σ → α) :
    ρ.Tri P (Prog.read f) (fun v b s => P b s ∧ ρ.Inv s ∧ v = f s) E :=
  tri_atomic fun b s0 s hp hr hi => ⟨hi, ρ.refl s, b, le_rfl, hP b s0 s hp hr, hi, rfl⟩

theorem tri_write {P : Nat → σ → Prop} {Q : Unit → Nat → σ → Prop} {E : PyErr → Nat → σ → Prop} {f : σ → σ} (hP : Stable ρ P)
    (h : ∀ s, ρ.Inv s → (∃ b, P b s) → ρ.Inv (f s) ∧ ρ.R s (f s) ∧ ρ.c (f s) = ρ.c s)
    (hQ : ∀ b s, ρ.Inv s → P b s → Q () b (f s)) : ρ.Tri P (Prog.write f) Q E :=
  tri_atomic fun b s0 s hp hr hi =>
    have hp' := hP b s0 s hp hr
    have := h s hi ⟨b, hp'⟩
    ⟨this.1, this.2.1, b, le_of_eq (by rw [show ρ.c (f s) = ρ.c s from this.2.2]), hQ b s hi hp'⟩

theorem tri_when {P : Nat → σ → Prop} {Q : Unit → Nat → σ → Prop} {E : PyErr → Nat → σ → Prop} {p : Prog σ Unit} {c : Bool}
    (h : c = true → ρ.Tri P p Q E) (h' : c = false → ∀ b s, P b s → Q () b s) : ρ.Tri P (Prog.when c p) Q E := by
  cases c
  · exact tri_pure (h' rfl)
  · exact h rfl

theorem tri_ite {P : Nat → σ → Prop} {Q : α → Nat → σ → Prop} {E : PyErr → Nat → σ → Prop} {p q : Prog σ α} {c : Prop} [Decidable c]
    (h : c → ρ.Tri P p Q E) (h' : ¬ c → ρ.Tri P q Q E) : ρ.Tri P (if c then p else q) Q E := by
  split
  · exact h ‹_›
  · exact h' ‹_›

theorem tri_raiseIf {P : Nat → σ → Prop} {Q : Unit → Nat → σ → Prop} {E : PyErr → Nat → σ → Prop} {c : Bool} {e : PyErr}
    (h : c = true → ∀ b s, P b s → E e b s) (h' : c = false → ∀ b s, P b s → Q () b s) : ρ.Tri P (Prog.raiseIf c e) Q E := by
  cases c
  · exact tri_pure (h' rfl)
  · exact tri_throw (h rfl)

theorem tri_forEach {P : Nat → σ → Prop} {E : PyErr → Nat → σ → Prop} {f : ι → Prog σ Unit} {l : List ι}
    (h : ∀ i ∈ l, ρ.Tri P (f i) (fun _ => P) E) : ρ.Tri P (Prog.forEach l f) (fun _ => P) E := by
  induction l with
  | nil => exact tri_pure fun _ _ h => h
  | cons i l ih => exact (h i (by simp)).bind fun _ => ih fun j hj => h j (by simp [hj])

theorem tri_mapEach {P : Nat → σ → Prop} {E : PyErr → Nat → σ → Prop} {f : ι → Prog σ β} {l : List ι} (g : ι → β)
    (h : ∀ i ∈ l, ρ.Tri P (f i) (fun v b s => P b s ∧ v = g i) E) :
    ρ.Tri P (Prog.mapEach l f) (fun vs b s => P b s ∧ vs = l.map g) E := by
  induction l with
  | nil => exact tri_pure fun _ _ h => ⟨h, rfl⟩
  | cons i l ih =>
    refine (h i (by simp)).bind fun v => ?_
    have h1 : ρ.Tri (fun b s => P b s ∧ v = g i) (Prog.mapEach l f) (fun vs b s => (P b s ∧ vs = l.map g) ∧ v = g i) E := by
      intro b s hp
      exact (ih (fun j hj => h j (by simp [hj])) b s hp.1).mono (fun _ _ _ h => ⟨h, hp.2⟩) fun _ _ _ h => h
    refine h1.bind fun vs => tri_pure ?_
    rintro b s ⟨⟨hP, rfl⟩, rfl⟩
    exact ⟨hP, rfl⟩

/-- whatever the schedule: the invariant holds, the budgets are respected, and every thread is still safe -/
theorem schedule {Q : Nat → α → Nat → σ → Prop} {E : Nat → PyErr → Nat → σ → Prop} {c0 : Threads σ α} {B : Nat → Nat}
    (h0 : ρ.Inv c0.state) (h : ∀ i p, c0.progs[i]? = some p → ρ.Safe (Q i) (E i) p (B i) c0.state) (l : List Nat) :
    ρ.Inv (c0.schedule l).state ∧ ρ.R c0.state (c0.schedule l).state ∧ (c0.schedule l).progs.length = c0.progs.length ∧
    ∃ B' : Nat → Nat, ρ.c (c0.schedule l).state + ∑ i ∈ Finset.range c0.progs.length, B' i ≤
        ρ.c c0.state + ∑ i ∈ Finset.range c0.progs.length, B i ∧
      ∀ i p, (c0.schedule l).progs[i]? = some p → ∃ s, ρ.R s (c0.schedule l).state ∧ ρ.Safe (Q i) (E i) p (B' i) s := by
  suffices H : ∀ (c : Threads σ α) (B' : Nat → Nat), ρ.Inv c.state → ρ.R c0.state c.state → c.progs.length = c0.progs.length →
      ρ.c c.state + ∑ i ∈ Finset.range c0.progs.length, B' i ≤ ρ.c c0.state + ∑ i ∈ Finset.range c0.progs.length, B i →
      (∀ i p, c.progs[i]? = some p → ∃ s, ρ.R s c.state ∧ ρ.Safe (Q i) (E i) p (B' i) s) →
      ρ.Inv (c.schedule l).state ∧ ρ.R c0.state (c.schedule l).state ∧ (c.schedule l).progs.length = c0.progs.length ∧
      ∃ B' : Nat → Nat, ρ.c (c.schedule l).state + ∑ i ∈ Finset.range c0.progs.length, B' i ≤
          ρ.c c0.state + ∑ i ∈ Finset.range c0.progs.length, B i ∧
        ∀ i p, (c.schedule l).progs[i]? = some p → ∃ s, ρ.R s (c.schedule l).state ∧ ρ.Safe (Q i) (E i) p (B' i) s from
    H c0 B h0 (ρ.refl _) rfl le_rfl fun i p hp => ⟨_, ρ.refl _, h i p hp⟩
  induction l with
  | nil => exact fun c B' h1 h2 h3 h4 h5 => ⟨h1, h2, h3, B', h4, h5⟩
  | cons i l ih =>
    intro c B' h1 h2 h3 h4 h5
    show _ ∧ ρ.R c0.state ((c.turn i).schedule l).state ∧ _
    rcases hp : c.progs[i]? with _ | (r | ⟨u, n⟩)
    · have : c.turn i = c := by unfold Threads.turn; rw [hp]
      have e : c.schedule (i :: l) = c.schedule l := by show (c.turn i).schedule l = _; rw [this]
      rw [e, this]
      exact ih c B' h1 h2 h3 h4 h5
    · have : c.turn i = c := by unfold Threads.turn; rw [hp]
      have e : c.schedule (i :: l) = c.schedule l := by show (c.turn i).schedule l = _; rw [this]
      rw [e, this]
      exact ih c B' h1 h2 h3 h4 h5
    · have ht : c.turn i = ⟨u c.state, c.progs.set i (n c.state)⟩ := by unfold Threads.turn; rw [hp]
      have e : c.schedule (i :: l) = Threads.schedule l ⟨u c.state, c.progs.set i (n c.state)⟩ := by
        show (c.turn i).schedule l = _; rw [ht]
      rw [e, ht]
      obtain ⟨s, hs, hsafe⟩ := h5 i _ hp
      obtain ⟨g1, g2, b', g3, g4⟩ := hsafe c.state hs h1
      have hi : i < c0.progs.length := by
        rw [← h3]; exact (List.getElem?_eq_some_iff.1 hp).1
      refine ih _ (Function.update B' i b') g1 (ρ.trans h2 g2) (by simpa using h3) ?_ ?_
      · have hmem : i ∈ Finset.range c0.progs.length := Finset.mem_range.2 hi
        rw [Finset.sum_update_of_mem hmem]
        have hsplit := Finset.add_sum_erase (Finset.range c0.progs.length) B' hmem
        rw [Finset.sdiff_singleton_eq_erase]
        show ρ.c (u c.state) + _ ≤ _
        omega
      · intro j p hj
        by_cases hij : j = i
        · subst hij
          have : p = n c.state := by
            have hlt : j < c.progs.length := by rw [h3]; exact hi
            simp [hlt] at hj
            exact hj.symm
          subst this
          refine ⟨u c.state, ρ.refl _, ?_⟩
          rw [Function.update_self]
          exact g4
        · have hj' : c.progs[j]? = some p := by
            simpa [List.getElem?_set, Ne.symm hij] using hj
          obtain ⟨s1, hs1, hsafe1⟩ := h5 j p hj'
          refine ⟨s1, ρ.trans hs1 g2, ?_⟩
          rw [Function.update_of_ne hij]
          exact hsafe1

end Rely
end KMethods
