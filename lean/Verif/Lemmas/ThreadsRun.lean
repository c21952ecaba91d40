import Verif.Lemmas.ThreadsOps
/-!
# Lemmas: single threads, and fair schedules
-/
namespace KMethods
open KMState

namespace Threads
variable {σ α : Type}

theorem schedule_cons (i : Nat) (l : List Nat) (c : Threads σ α) : c.schedule (i :: l) = (c.turn i).schedule l := rfl

theorem schedule_append (l l' : List Nat) (c : Threads σ α) : c.schedule (l ++ l') = (c.schedule l).schedule l' := List.foldl_append

/-- the steps of a single thread do not change what it does when left alone -/
theorem single (l : List Nat) (t : σ) (p : Prog σ α) :
    ∃ t' p', (⟨t, [p]⟩ : Threads σ α).schedule l = ⟨t', [p']⟩ ∧ Prog.alone p' t' = Prog.alone p t := by
  induction l generalizing t p with
  | nil => exact ⟨t, p, rfl, rfl⟩
  | cons i l ih =>
    rw [schedule_cons]
    rcases i with _ | i
    · rcases p with r | ⟨u, n⟩
      · exact ih t _
      · exact ih (u t) (n t)
    · exact ih t p

theorem turn_length (i : Nat) (c : Threads σ α) : (c.turn i).progs.length = c.progs.length := by
  unfold turn
  split <;> simp

theorem turn_other {i j : Nat} (h : i ≠ j) (c : Threads σ α) : (c.turn i).progs[j]? = c.progs[j]? := by
  unfold turn
  split
  · exact List.getElem?_set_ne h
  · rfl

theorem turn_done {i j : Nat} {c : Threads σ α} {r : Except PyErr α} (h : c.progs[j]? = some (.done r)) : (c.turn i).progs[j]? = some (.done r) := by
  by_cases hij : i = j
  · subst hij
    unfold turn
    rw [h]
    exact h
  · rw [turn_other hij, h]

/-- finished threads stay finished -/
theorem schedule_done {j : Nat} {r : Except PyErr α} (l : List Nat) {c : Threads σ α} (h : c.progs[j]? = some (.done r)) :
    (c.schedule l).progs[j]? = some (.done r) := by
  induction l generalizing c with
  | nil => exact h
  | cons i l ih => exact ih (turn_done h)

theorem schedule_range_succ (f : Nat → Nat) (n : Nat) (c : Threads σ α) :
    c.schedule ((List.range (n + 1)).map f) = (c.schedule ((List.range n).map f)).turn (f n) := by
  rw [List.range_succ, List.map_append, schedule_append]
  rfl

/-- a thread that gets its turn again and again finishes -/
theorem finishes {f : Nat → Nat} {i : Nat} (hf : ∀ n, ∃ m, n ≤ m ∧ f m = i) (c : Threads σ α) (p : Prog σ α) :
    ∀ n, (c.schedule ((List.range n).map f)).progs[i]? = some p →
      ∃ m r, (c.schedule ((List.range m).map f)).progs[i]? = some (.done r) := by
  induction p with
  | done r => exact fun n h => ⟨n, r, h⟩
  | step u nx ih =>
    intro n hn
    -- until its next turn nothing happens to the thread
    have key : ∀ d, (∃ m r, (c.schedule ((List.range m).map f)).progs[i]? = some (.done r)) ∨
        (c.schedule ((List.range (n + d)).map f)).progs[i]? = some (.step u nx) := by
      intro d
      induction d with
      | zero => exact .inr hn
      | succ d ihd =>
        rcases ihd with h | h
        · exact .inl h
        · by_cases hd : f (n + d) = i
          · left
            refine ih _ (n + d + 1) (?_ : _ = some (nx (c.schedule ((List.range (n + d)).map f)).state))
            rw [schedule_range_succ, hd]
            unfold turn
            rw [h]
            simp only
            rw [List.getElem?_set_self]
            exact (List.getElem?_eq_some_iff.1 h).1
          · right
            rw [← Nat.add_assoc, schedule_range_succ, turn_other hd, h]
    obtain ⟨m, hm, hfm⟩ := hf n
    obtain ⟨d, rfl⟩ := Nat.exists_eq_add_of_le hm
    rcases key d with h | h
    · exact h
    · refine ih _ (n + d + 1) (?_ : _ = some (nx (c.schedule ((List.range (n + d)).map f)).state))
      rw [schedule_range_succ, hfm]
      unfold turn
      rw [h]
      simp only
      rw [List.getElem?_set_self]
      exact (List.getElem?_eq_some_iff.1 h).1

end Threads

namespace Shared
variable {K X V : Type} {env : Env K X V}
open Prog

theorem flat_share (d : Full V) (s : KMState K X V) : (share d s).flat = s := by
  unfold share flat
  rcases hs : s.fullKm with _ | f
  · simp only [Option.map_none]
    rw [← hs]
  · simp only [Option.map_some, Option.getD_some]
    rw [← hs]

theorem alone_trace (ops : List (KMOp X)) (t : Shared K X V) :
    (alone (callsP env ops) t).1 = .ok (trace env ops t.flat) ∧ (alone (callsP env ops) t).2.flat = KMState.run env ops t.flat := by
  induction ops generalizing t with
  | nil => exact ⟨rfl, rfl⟩
  | cons op ops ih =>
    have h0 := sim_exec env op t
    unfold SimAt at h0
    show (alone (attempt (execP env op) >>= fun r => callsP env ops >>= fun rs => pure (r :: rs)) t).1 = _ ∧
      (alone (attempt (execP env op) >>= fun r => callsP env ops >>= fun rs => pure (r :: rs)) t).2.flat = _
    rw [alone_bind, alone_attempt]
    simp only
    rw [alone_bind]
    obtain ⟨h1, h2⟩ := ih (alone (execP env op) t).2
    have e1 : (alone (execP env op) t).1 = (KMState.exec env op t.flat).1 := congrArg Prod.fst h0
    have e2 : (alone (execP env op) t).2.flat = (KMState.exec env op t.flat).2 := congrArg Prod.snd h0
    rcases hr : alone (callsP env ops) (alone (execP env op) t).2 with ⟨r, t'⟩
    rw [hr] at h1 h2
    simp only at h1 h2
    subst h1
    refine ⟨?_, ?_⟩
    · show Except.ok _ = Except.ok (_ :: _)
      rw [e1, e2]
    · show t'.flat = _
      rw [h2, e2]
      rfl

theorem single_thread {s : KMState K X V} {ops : List (KMOp X)} {l : List Nat} {rs : List (Except PyErr (KMOut V))}
    (h : ((sharedBy env s [ops]).schedule l).progs[0]? = some (.done (.ok rs))) :
    rs = trace env ops s ∧ ((sharedBy env s [ops]).schedule l).state.flat = KMState.run env ops s := by
  obtain ⟨t', p', h1, h2⟩ := Threads.single l (share ⟨.dense, fun _ _ => env.ops.nan⟩ s) (callsP env ops)
  have h1' : (sharedBy env s [ops]).schedule l = ⟨t', [p']⟩ := h1
  rw [h1'] at h ⊢
  have hp : p' = .done (.ok rs) := by simpa using h
  subst hp
  obtain ⟨h3, h4⟩ := alone_trace (env := env) ops (share ⟨.dense, fun _ _ => env.ops.nan⟩ s)
  rw [← h2, flat_share] at h3 h4
  exact ⟨by injection h3, h4⟩

theorem threads_finish {k : K} {norm : Bool} {a : Attachment X} {s : KMState K X V} (h : SinceAny env k norm a s)
    {calls : List (List (KMOp X))} (hc : NoAttach calls) {f : Nat → Nat} (hf : ∀ i, i < calls.length → ∀ n, ∃ m, n ≤ m ∧ f m = i) :
    ∃ n, ∀ n', n ≤ n' → ∀ (i : Nat) (ops : List (KMOp X)), calls[i]? = some ops → ∃ rs : List (Except PyErr (KMOut V)), rs.length = ops.length ∧
      ((sharedBy env s calls).schedule ((List.range n').map f)).progs[i]? = some (.done (.ok rs)) := by
  have hlen : (sharedBy env s calls).progs.length = calls.length := by simp [sharedBy, start]
  -- each thread finishes
  have h1 : ∀ i, ∃ n, i < calls.length → ∃ r, ((sharedBy env s calls).schedule ((List.range n).map f)).progs[i]? = some (.done r) := by
    intro i
    by_cases hi : i < calls.length
    · have hp : ((sharedBy env s calls).schedule ((List.range 0).map f)).progs[i]? = some ((sharedBy env s calls).progs[i]'(by rw [hlen]; exact hi)) :=
        List.getElem?_eq_getElem _
      obtain ⟨m, r, hr⟩ := Threads.finishes (hf i hi) _ _ 0 hp
      exact ⟨m, fun _ => ⟨r, hr⟩⟩
    · exact ⟨0, fun h => (hi h).elim⟩
  choose g hg using h1
  refine ⟨(Finset.range calls.length).sup g, fun n' hn' i ops ho => ?_⟩
  have hi : i < calls.length := (List.getElem?_eq_some_iff.1 ho).1
  obtain ⟨r, hr⟩ := hg i hi
  have hle : g i ≤ n' := le_trans (Finset.le_sup (f := g) (Finset.mem_range.2 hi)) hn'
  have hr' : ((sharedBy env s calls).schedule ((List.range n').map f)).progs[i]? = some (.done r) := by
    obtain ⟨d, rfl⟩ := Nat.exists_eq_add_of_le hle
    rw [List.range_add, List.map_append, Threads.schedule_append]
    exact Threads.schedule_done _ hr
  obtain ⟨b, t, h5⟩ := (shared_schedule h hc ((List.range n').map f) (0, 0)).2.2 i ops _ ho hr'
  rcases r with e | rs
  · exact h5.elim
  · exact ⟨rs, h5.2.length_eq.symm, hr'⟩

end Shared
end KMethods
