import Verif.Lemmas.Leaf
/-!
# Which values are memoised
-/
namespace KMethods
namespace KMState
variable {K X V α β ι : Type}
open PyM

/-- the value under `p` is memoised -/
def Has (s : KMState K X V) (p : Nat × Nat) : Prop := ∃ v, s.cache.lookup p = some v

theorem fillCells_spec (env : Env K X V) (l : List (Nat × Nat)) (s : KMState K X V) :
    Ext env (fun _ => True) s (fillCells env l s).2 ∧ SameBut s (fillCells env l s).2 ∧
      ((fillCells env l s).1 = .ok () → ∀ p ∈ l, Has (fillCells env l s).2 (memoKey s.twoSamples p.1 p.2)) := by
  induction l generalizing s with
  | nil => exact ⟨Ext.refl, SameBut.refl _, fun _ p hp => by cases hp⟩
  | cons q l ih =>
    have hrun : fillCells env (q :: l) s = (evalKernel env q.1 q.2 >>= fun v => setCell q.1 q.2 v >>= fun _ => fillCells env l) s := by
      show ((evalKernel env q.1 q.2 >>= fun v => setCell q.1 q.2 v) >>= fun _ => fillCells env l) s = _
      rw [bind_assoc_run]
    rw [hrun, bind_run]
    have h1 := (evalKernel_ext env s q.1 q.2).mono (T' := fun _ => True) fun _ _ => trivial
    have h2 := (evalKernel_same env s q.1 q.2).1
    rcases he : evalKernel env q.1 q.2 s with ⟨e | v, s1⟩
    · rw [he] at h1 h2
      exact ⟨h1, h2, fun h => by cases h⟩
    · rw [he] at h1 h2
      have hset : Ext env (fun _ => True) s1 (setCell q.1 q.2 v s1).2 ∧ SameBut s1 (setCell q.1 q.2 v s1).2 :=
        ⟨⟨rfl, rfl, rfl, rfl, rfl, rfl, rfl, rfl, [], by simp [setCell]⟩, ⟨_, _, _, _, _, rfl⟩⟩
      obtain ⟨g1, g2, g3⟩ := ih (setCell q.1 q.2 v s1).2
      have h3 := (h1.trans hset.1).trans g1
      refine ⟨h3, (h2.trans hset.2).trans g2, fun hok p hp => ?_⟩
      rcases List.mem_cons.1 hp with rfl | hp
      · exact ⟨v, g1.lookup (hset.1.lookup (evalKernel_ok he))⟩
      · have := g3 hok p hp
        rwa [hset.1.twoSamples, h1.twoSamples] at this

/-- what is known to be memoised, from the flags -/
structure Keyed (n m : Nat) (b : Bool) (s : KMState K X V) : Prop where
  shape : s.shape = some (n, m)
  two : s.twoSamples = some b
  square : b = false → n = m
  upper : s.populated = true → ∀ p ∈ upperPairs n m, Has s (memoKey (some b) p.1 p.2)
  lower : b = true → s.lowerFilled = true → ∀ p ∈ lowerPairs n m, Has s (memoKey (some b) p.1 p.2)

theorem Has.ext {env : Env K X V} {T : Nat × Nat → Prop} {s s' : KMState K X V} {p : Nat × Nat} (h : Has s p) (he : Ext env T s s') : Has s' p := by
  obtain ⟨v, hv⟩ := h
  exact ⟨v, he.lookup hv⟩

section
variable {env : Env K X V} {n m : Nat} {b : Bool} {s s' : KMState K X V}

theorem Keyed.ext {T : Nat × Nat → Prop} (h : Keyed n m b s) (he : Ext env T s s') (h1 : s'.populated = s.populated) (h2 : s'.lowerFilled = s.lowerFilled) :
    Keyed n m b s' :=
  ⟨he.shape.trans h.shape, he.twoSamples.trans h.two, h.square, fun hp p hm => (h.upper (h1.symm.trans hp) p hm).ext he,
    fun hb hp p hm => (h.lower hb (h2.symm.trans hp) p hm).ext he⟩

theorem Keyed.congr (h : Keyed n m b s) (h1 : s'.shape = s.shape) (h2 : s'.twoSamples = s.twoSamples) (h3 : s'.populated = s.populated)
    (h4 : s'.lowerFilled = s.lowerFilled) (h5 : s'.cache = s.cache) : Keyed n m b s' := by
  refine ⟨h1.trans h.shape, h2.trans h.two, h.square, fun hp p hm => ?_, fun hb hp p hm => ?_⟩
  · have := h.upper (h3.symm.trans hp) p hm
    unfold Has at *
    rwa [h5]
  · have := h.lower hb (h4.symm.trans hp) p hm
    unfold Has at *
    rwa [h5]

theorem keyed_leaf (env : Env K X V) (n m : Nat) (b : Bool) : Leaf env (Keyed n m b) where
  eval i j s hs := by
    obtain ⟨⟨c, nn, u, t, fk, h1⟩, _⟩ := evalKernel_same env s i j
    exact ⟨hs.ext (evalKernel_ext env s i j) (by rw [h1]) (by rw [h1]), fun _ _ => trivial⟩
  upper d s hs := by
    refine ⟨?_, fun _ _ => trivial⟩
    unfold populateUpper
    rw [get_bind_run]
    by_cases hc : (!s.populated && s.fullKm.isNone) = true
    · rw [hc, when_true, bind_ok (getAttr_run_some _ _ _ hs.shape), modify_bind_run]
      obtain ⟨g1, ⟨c, nn, u, t, fk, g2⟩, g3⟩ := fillCells_spec env (upperPairs n m)
        { s with fullKm := some (if !d then ⟨.sparse, fun _ _ => env.ops.zero⟩ else ⟨.dense, fun _ _ => env.ops.nan⟩) }
      rw [bind_run, catchAll_run]
      have h0 : Keyed n m b { s with fullKm := some (if !d then (⟨.sparse, fun _ _ => env.ops.zero⟩ : Full V) else ⟨.dense, fun _ _ => env.ops.nan⟩) } :=
        hs.congr rfl rfl rfl rfl rfl
      rcases hf : fillCells env (upperPairs n m)
        { s with fullKm := some (if !d then ⟨.sparse, fun _ _ => env.ops.zero⟩ else ⟨.dense, fun _ _ => env.ops.nan⟩) } with ⟨e | x, s1⟩
      · rw [hf] at g1 g2
        exact h0.ext g1 (by rw [g2]) (by rw [g2])
      · rw [hf] at g1 g2 g3
        have h1 := h0.ext g1 (by rw [g2]) (by rw [g2])
        have g3 := g3 rfl
        exact ⟨h1.shape, h1.two, h1.square, fun _ p hp => by have := g3 p hp; rwa [show KMState.twoSamples _ = some b from hs.two] at this, h1.lower⟩
    · rw [Bool.not_eq_true] at hc
      rw [hc, when_false]
      exact hs
  lower l s hs := by
    refine ⟨?_, fun _ _ => trivial⟩
    unfold populateLower
    rw [get_bind_run]
    by_cases hc : (l && !s.lowerFilled) = true
    · rw [hc, when_true, bind_run, catchAll_run, bind_ok (getAttr_run_some _ _ _ hs.shape), bind_ok (getAttr_run_some _ _ _ hs.two)]
      by_cases hb : (!b && n == m) = true
      · rw [if_pos hb]
        have hb' : b = false := by cases b <;> simp at hb ⊢
        exact ⟨hs.shape, hs.two, hs.square, hs.upper, fun h => by rw [hb'] at h; cases h⟩
      · rw [if_neg hb]
        obtain ⟨g1, ⟨c, nn, u, t, fk, g2⟩, g3⟩ := fillCells_spec env (lowerPairs n m) s
        rcases hf : fillCells env (lowerPairs n m) s with ⟨e | x, s1⟩
        · rw [hf] at g1 g2
          exact hs.ext g1 (by rw [g2]) (by rw [g2])
        · rw [hf] at g1 g2 g3
          have h1 := hs.ext g1 (by rw [g2]) (by rw [g2])
          have g3 := g3 rfl
          exact ⟨h1.shape, h1.two, h1.square, h1.upper, fun _ _ p hp => by have := g3 p hp; rwa [hs.two] at this⟩
    · rw [Bool.not_eq_true] at hc
      rw [hc, when_false]
      exact hs
  dens d := (Holds.getAttr fun _ _ _ _ => trivial).bind fun _ _ => Holds.when <| Holds.modify fun _ hs => hs.congr rfl rfl rfl rfl rfl
  clock _ _ hs := hs.congr rfl rfl rfl rfl rfl
  normed _ _ hs := hs.congr rfl rfl rfl rfl rfl
  centered _ _ hs := hs.congr rfl rfl rfl rfl rfl
  frob _ _ hs := hs.congr rfl rfl rfl rfl rfl
  attrs _ _ hs := hs.congr rfl rfl rfl rfl rfl

theorem keyed_attachedState (k : K) (norm : Bool) (a : Attachment X) (t : Nat) (o : Option (Fmt × Mat V)) :
    Keyed a.nrows a.ncols a.two.isSome (attachedState k norm a t o) :=
  ⟨rfl, rfl, fun h => by rcases a with ⟨x, _ | y⟩ <;> simp [Attachment.nrows, Attachment.ncols] at h ⊢, (fun h => by cases h), (fun _ h => by cases h)⟩

theorem Since.keyed {k : K} {norm : Bool} {a : Attachment X} {P : KMOp X → Prop} (h : Since env k norm a P s) : Keyed a.nrows a.ncols a.two.isSome s := by
  induction h with
  | attached hr ha h =>
    rw [exec_attach_ok ha h]
    exact keyed_attachedState _ _ _ _ _
  | call op _ ha _ ih => exact (keyed_leaf env _ _ _).exec op ha ih

end
end KMState
end KMethods
