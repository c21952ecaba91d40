import Verif.Lemmas.ThreadsKM
import Verif.Lemmas.History
import Verif.Lemmas.Unattached
/-!
# Threads: public calls under every interleaving
-/
namespace KMethods
namespace Rely
variable {σ α : Type} {ρ : Rely σ}

/-- a safe program that runs alone -/
theorem Safe.alone {Q : α → Nat → σ → Prop} {E : PyErr → Nat → σ → Prop} {p : Prog σ α} {b : Nat} {s : σ} (h : ρ.Safe Q E p b s) (hi : ρ.Inv s) :
    ρ.Inv (Prog.alone p s).2 ∧ ρ.R s (Prog.alone p s).2 ∧ (∀ x, (Prog.alone p s).1 = .ok x → ∃ b, Q x b (Prog.alone p s).2) ∧
      ∀ e, (Prog.alone p s).1 = .error e → ∃ b, E e b (Prog.alone p s).2 := by
  induction p generalizing b s with
  | done r =>
    refine ⟨hi, ρ.refl s, fun x hx => ⟨b, ?_⟩, fun e he => ⟨b, ?_⟩⟩
    · change r = .ok x at hx; subst hx; exact h
    · change r = .error e at he; subst he; exact h
  | step u n ih =>
    obtain ⟨h1, h2, b', h3, h4⟩ := h s (ρ.refl s) hi
    obtain ⟨h5, h6, h7⟩ := ih s h4 h1
    exact ⟨h5, ρ.trans h2 h6, h7⟩

end Rely

namespace Shared
variable {K X V : Type}
open Prog Rely

variable {env : Env K X V} {a : Attachment X} {k : K} {p0 : Nat × Nat} {keep : Bool}

/-- the outcomes of calls that are right whatever the others do -/
def OutOk (env : Env K X V) (a : Attachment X) (k : K) (keep : Bool) : KMOp X → Except PyErr (KMOut V) → Prop
  | .getItem (.pair S T), .ok o => ∃ f A, o = .mat f A ∧ PartOk env a k S T (f, A)
  | .getItem (.pair S T), .error e => PartErr env a k S T e
  | .diagonal, .ok o => a.two = none ∧ o = .vec (a.one.selfs (env.kval k))
  | .diagonal, .error e => (e = .kmAccess ∧ a.two.isSome = true) ∨ FaultErr env a k e
  | .full, .ok o => keep = false → ∃ f A, o = .mat f A ∧ MatOk env a k A
  | .full, .error e => keep = false → FillErr env a k e
  | .fullSparse, .ok o => keep = false → ∃ f A, o = .mat f A ∧ MatOk env a k A
  | .fullSparse, .error e => keep = false → FillErr env a k e
  | _, _ => True

local notation "ρg" => rely env a k p0 (soundly env a k keep)

/-- a call that only reads or writes attributes nobody relies on -/
theorem tri_quiet {α : Type} {m : PyM (KMState K X V) α} (hm : ∀ s, (m s).2 = s ∨ ∃ l, (m s).2 = { s with attrs := l }) :
    (ρg).Tri (Allow p0) (atomic (onKM m)) (fun _ => Allow p0) (AnyErr p0) := by
  refine tri_atomic' fun b s0 s hp hr hi => ?_
  refine ⟨(m s.km).1, { s with km := (m s.km).2 }, rfl, ?_⟩
  have hp := stable_allow _ _ _ hp hr
  rcases hm s.km with h | ⟨l, h⟩ <;> rw [h]
  · refine ⟨hi, (ρg).refl s, b, le_rfl, ?_⟩
    rcases (m s.km).1 with e | v
    · exact ⟨hp, trivial⟩
    · exact hp
  · refine ⟨⟨hi.1.congr rfl rfl rfl rfl rfl rfl rfl, hi.2.1, ⟨hi.2.2.keep, hi.2.2.cells, hi.2.2.populated, hi.2.2.normed, hi.2.2.centered⟩⟩,
      ⟨fun _ h => h, id, id, id, id, id, id, fun _ h => h.elim⟩, b, le_rfl, ?_⟩
    rcases (m s.km).1 with e | v
    · exact ⟨hp, trivial⟩
    · exact hp

theorem tri_then {α β : Type} {P : Nat → Shared K X V → Prop} {p : Prog (Shared K X V) α} {f : α → β} {Q : α → Nat → Shared K X V → Prop}
    {Q' : β → Nat → Shared K X V → Prop} {E E' : PyErr → Nat → Shared K X V → Prop} (h : (ρg).Tri P p Q E)
    (hQ : ∀ x b t, Q x b t → Q' (f x) b t) (hE : ∀ e b t, E e b t → E' e b t) : (ρg).Tri P (p >>= fun x => pure (f x)) Q' E' :=
  (h.mono (fun _ _ h => h) (fun _ _ _ h => h) hE).bind fun x => tri_pure fun b t h => hQ x b t h

theorem tri_exec (op : KMOp X) (hop : op.isAttach = false) : (ρg).Tri (Allow p0) (execP env op)
    (fun o b t => Allow p0 b t ∧ OutOk env a k keep op (.ok o)) (fun e b t => Allow p0 b t ∧ OutOk env a k keep op (.error e)) := by
  cases op with
  | attach one two => simp [KMOp.isAttach] at hop
  | setAttr n v => exact tri_then (tri_quiet fun s => Or.inr ⟨_, rfl⟩) (fun _ _ _ h => ⟨h, trivial⟩) fun _ _ _ h => ⟨h.1, trivial⟩
  | getAttr n d => exact tri_then (tri_quiet fun s => Or.inl rfl) (fun _ _ _ h => ⟨h, trivial⟩) fun _ _ _ h => ⟨h.1, trivial⟩
  | attributes => exact tri_then (E := AnyErr p0) (tri_read stable_allow _) (fun _ _ _ h => ⟨h.1, trivial⟩) fun _ _ _ h => ⟨h.1, trivial⟩
  | numSamples => exact tri_then (E := AnyErr p0) (tri_read stable_allow _) (fun _ _ _ h => ⟨h.1, trivial⟩) fun _ _ _ h => ⟨h.1, trivial⟩
  | shape => exact tri_then (E := AnyErr p0) (tri_attr stable_allow (x := (a.nrows, a.ncols)) fun t ht => ht.1.shape) (fun _ _ _ h => ⟨h.1, trivial⟩) fun _ _ _ h => ⟨h.1, trivial⟩
  | size => exact tri_then (tri_quiet fun s => Or.inl (KMState.size_state s)) (fun _ _ _ h => ⟨h, trivial⟩) fun _ _ _ h => ⟨h.1, trivial⟩
  | full => exact tri_then tri_full (fun A _ _ h => ⟨h.1.1, fun hk => ⟨A.1, A.2, rfl, h.2 hk⟩⟩) fun _ _ _ h => ⟨h.1, h.2⟩
  | fullSparse => exact tri_then tri_fullSparse (fun A _ _ h => ⟨h.1, fun hk => ⟨A.1, A.2, rfl, h.2 hk⟩⟩) fun _ _ _ h => ⟨h.1, h.2⟩
  | center => exact tri_then tri_center (fun _ _ _ h => ⟨h.1, trivial⟩) fun _ _ _ h => ⟨h.1, trivial⟩
  | centered => exact tri_then tri_centered (fun _ _ _ h => ⟨h, trivial⟩) fun _ _ _ h => ⟨h.1, trivial⟩
  | normalize m => exact tri_then (tri_normalize m) (fun _ _ _ h => ⟨h.1, trivial⟩) fun _ _ _ h => ⟨h.1, trivial⟩
  | normedKm => exact tri_then tri_normedKmVal (fun _ _ _ h => ⟨h.1, trivial⟩) fun _ _ _ h => ⟨h.1, trivial⟩
  | frobNorm => exact tri_then tri_frobNorm (fun _ _ _ h => ⟨h, trivial⟩) fun _ _ _ h => ⟨h.1, trivial⟩
  | diagonal => exact tri_then tri_diagonal (fun l _ _ h => ⟨h.1, h.2.1, by rw [h.2.2]⟩) fun _ _ _ h => ⟨h.1, h.2⟩
  | getItem key =>
    refine tri_then (tri_getItem key) ?_ ?_
    · rintro A b t ⟨h1, h2⟩
      refine ⟨h1, ?_⟩
      rcases key with n | ⟨S, T⟩ | _
      · trivial
      · exact ⟨A.1, A.2, rfl, h2 S T rfl⟩
      · trivial
    · rintro A b t ⟨h1, h2⟩
      refine ⟨h1, ?_⟩
      rcases key with n | ⟨S, T⟩ | _
      · trivial
      · exact h2 S T rfl
      · trivial

/-- a thread that makes calls each of which is safe -/
theorem tri_calls {ρ : Rely (Shared K X V)} {P : Nat → Shared K X V → Prop} {G : KMOp X → Except PyErr (KMOut V) → Prop} {ops : List (KMOp X)}
    (h : ∀ op ∈ ops, ρ.Tri P (execP env op) (fun o b t => P b t ∧ G op (.ok o)) (fun e b t => P b t ∧ G op (.error e))) :
    ρ.Tri P (callsP env ops) (fun rs b t => P b t ∧ List.Forall₂ G ops rs) (fun _ _ _ => False) := by
  induction ops with
  | nil => exact tri_pure fun b t h => ⟨h, .nil⟩
  | cons op ops ih =>
    refine Tri.bind (Q := fun r b t => P b t ∧ G op r) (fun b s hp => (h op (by simp) b s hp).attempt (fun _ _ _ h => h) fun _ _ _ h => h) fun r => Tri.given fun hr => ?_
    refine (ih fun o ho => h o (by simp [ho])).bind fun rs => tri_pure ?_
    rintro b s ⟨h1, h2⟩
    exact ⟨h1, .cons hr h2⟩

/-- the invariant of `share` -/
theorem inv_share {s : KMState K X V} {t : Shared K X V} (ht : t.flat = s) (hi : (ρg).Inv t) (d : Full V) (hd : ∀ i j, CellOk env a k i j (d.cell i j)) :
    (ρg).Inv (share d s) := by
  subst ht
  refine ⟨hi.1.congr rfl rfl rfl rfl rfl rfl rfl, hi.2.1, ⟨hi.2.2.keep, ?_, ?_, hi.2.2.normed, hi.2.2.centered⟩⟩
  · intro r i j
    show CellOk env a k i j (((t.ref.map t.heap).getD d).cell i j)
    rcases t.ref with _ | q
    · exact hd i j
    · exact hi.2.2.cells q i j
  · intro h
    have := hi.2.2.populated h
    show ((t.ref.map t.heap).map fun _ => 0).isSome = true
    simpa using this

/-- states after any history of calls are states of the thread model that satisfy the invariant -/
theorem inv_since {norm : Bool} {P : KMOp X → Prop} {s : KMState K X V} (h : KMState.Since env k norm a P s) (p0 : Nat × Nat) :
    ∃ t : Shared K X V, t.flat = s ∧ (rely env a k p0 (soundly env a k norm)).Inv t := by
  induction h with
  | @attached s s' one two hr ha h =>
    have hs' := KMState.exec_attach_ok ha h
    have hst := hr.kernel
    refine ⟨share ⟨.dense, fun _ _ => env.ops.nan⟩ s', ?_, ?_⟩
    · subst hs'
      rfl
    · subst hs'
      refine ⟨KMState.attachedTo_attachedState env _ _ a _ _, hst.1, ⟨hst.2, fun r i j => Or.inr (Or.inl rfl), ?_, ?_, ?_⟩⟩
      · intro h; simp [share, KMState.attachedState] at h
      · intro h; simp [share, KMState.attachedState] at h
      · intro h; simp [share, KMState.attachedState] at h
  | call op hs ho _ ih =>
    obtain ⟨t, ht, hi⟩ := ih
    have hsim := sim_exec env op t
    unfold SimAt at hsim
    refine ⟨(alone (execP env op) t).2, ?_, ((tri_exec op ho) 1 t (Or.inl one_pos)).alone hi |>.1⟩
    rw [← ht]
    exact congrArg Prod.snd hsim

/-- `sharedBy` threads, whatever the schedule -/
theorem shared_schedule {norm : Bool} {P : KMOp X → Prop} {s : KMState K X V} (h : KMState.Since env k norm a P s) {calls : List (List (KMOp X))}
    (hc : NoAttach calls) (l : List Nat) (p0 : Nat × Nat) :
    (rely env a k p0 (soundly env a k norm)).Inv ((sharedBy env s calls).schedule l).state ∧
    ((sharedBy env s calls).schedule l).state.km.succ.count p0 ≤ s.succ.count p0 + (if (s.cache.lookup p0).isSome then 0 else calls.length) ∧
    ∀ (i : Nat) ops p, calls[i]? = some ops → ((sharedBy env s calls).schedule l).progs[i]? = some p →
      ∃ b t, (rely env a k p0 (soundly env a k norm)).Safe (fun rs b t => Allow p0 b t ∧ List.Forall₂ (OutOk env a k norm) ops rs) (fun _ _ _ => False) p b t := by
  obtain ⟨t, ht, hi⟩ := inv_since h p0
  have hi' := inv_share ht hi ⟨.dense, fun _ _ => env.ops.nan⟩ fun i j => Or.inr (Or.inl rfl)
  set B := if (s.cache.lookup p0).isSome then 0 else 1 with hB
  obtain ⟨h1, h2, h3, B', h4, h5⟩ := Rely.schedule (ρ := rely env a k p0 (soundly env a k norm)) (c0 := sharedBy env s calls)
    (Q := fun i rs b t => Allow p0 b t ∧ List.Forall₂ (OutOk env a k norm) (calls.getD i []) rs) (E := fun _ _ _ _ => False)
    (B := fun _ => B) hi' (fun i p hp => by
      change (calls.map (callsP env))[i]? = some p at hp
      rw [List.getElem?_map] at hp
      rcases ho : calls[i]? with _ | ops
      · rw [ho] at hp; simp at hp
      · rw [ho] at hp
        simp only [Option.map_some, Option.some.injEq] at hp
        subst hp
        have := tri_calls (env := env) (ρ := rely env a k p0 (soundly env a k norm)) (P := Allow p0) (G := OutOk env a k norm) (ops := ops)
          fun op hop => tri_exec op (hc ops (List.mem_of_getElem? ho) op hop)
        have := this B (sharedBy env s calls).state (by
          by_cases hb : (s.cache.lookup p0).isSome = true
          · exact Or.inr hb
          · left; rw [hB, if_neg hb]; exact one_pos)
        rw [show calls.getD i [] = ops by rw [List.getD_eq_getElem?_getD, ho]; rfl]
        exact this) l
  refine ⟨h1, ?_, ?_⟩
  · have h6 : ((sharedBy env s calls).schedule l).state.km.succ.count p0 ≤ s.succ.count p0 + ∑ i ∈ Finset.range (sharedBy env s calls).progs.length, B :=
      le_trans (Nat.le_add_right _ _) h4
    have h7 : (sharedBy env s calls).progs.length = calls.length := by simp [sharedBy, start]
    rw [h7, Finset.sum_const_nat (m := B) fun _ _ => rfl, Finset.card_range] at h6
    refine h6.trans (Nat.add_le_add_left ?_ _)
    rw [hB]
    split <;> simp
  · intro i ops p ho hp
    obtain ⟨t', _, h⟩ := h5 i p hp
    rw [show calls.getD i [] = ops by rw [List.getD_eq_getElem?_getD, ho]; rfl] at h
    exact ⟨_, t', h⟩

/-- the outcomes of finished threads, whatever the schedule -/
theorem shared_outcome {norm : Bool} {P : KMOp X → Prop} {s : KMState K X V} (h : KMState.Since env k norm a P s) {calls : List (List (KMOp X))}
    (hc : NoAttach calls) {l : List Nat} {i n : Nat} {op : KMOp X} {r : Except PyErr (KMOut V)}
    (ho : Outcome calls ((sharedBy env s calls).schedule l) i n op r) : OutOk env a k norm op r := by
  obtain ⟨ops, rs, h1, h2, h3, h4⟩ := ho
  obtain ⟨b, t, h5⟩ := (shared_schedule h hc l (0, 0)).2.2 i ops _ h1 h2
  have h6 : List.Forall₂ (OutOk env a k norm) ops rs := h5.2
  clear h1 h2 h5
  induction h6 generalizing n with
  | nil => simp at h3
  | cons hr _ ih =>
    rcases n with _ | n
    · simp at h3 h4; subst h3; subst h4; exact hr
    · simp at h3 h4; exact ih h3 h4

end Shared
end KMethods
