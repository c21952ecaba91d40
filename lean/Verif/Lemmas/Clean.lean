import Verif.Lemmas.History
/-!
# Calls that do not report a kernel failure behave as if kernels never failed
-/
namespace KMethods
namespace KMState
variable {K X V α β ι : Type}
open PyM

/-- the same world in which kernel functions never raise -/
def _root_.KMethods.Env.faultless (env : Env K X V) : Env K X V := { env with fails := fun _ _ _ _ => false }

theorem noFaults_faultless (env : Env K X V) : NoFaults env.faultless := fun _ _ _ _ => rfl

/-- `m` behaves like `m0`, or reports a failure -/
def Sim (m m0 : PyM (KMState K X V) α) : Prop := ∀ s, m s = m0 s ∨ Failed (m s).1

theorem Sim.rfl' {m : PyM (KMState K X V) α} : Sim m m := fun _ => Or.inl rfl

theorem Sim.bind {m m0 : PyM (KMState K X V) α} {f f0 : α → PyM (KMState K X V) β} (h : Sim m m0)
    (hf : ∀ x, Sim (f x) (f0 x)) : Sim (m >>= f) (m0 >>= f0) := by
  intro s
  rw [bind_run, bind_run]
  rcases h s with h | h
  · rw [← h]
    rcases m s with ⟨_ | x, s'⟩
    · exact Or.inl rfl
    · exact hf x s'
  · right
    rcases hm : m s with ⟨e | x, s'⟩
    · rw [hm] at h
      rcases h with h | h
      · simp at h; subst h; exact Or.inl rfl
      · simp at h; subst h; exact Or.inr rfl
    · rw [hm] at h; rcases h with h | h <;> simp at h

theorem Sim.catchAll {m m0 : PyM (KMState K X V) α} (h : Sim m m0) :
    Sim (catchAll .runtimeError m) (catchAll .runtimeError m0) := by
  intro s
  rw [catchAll_run, catchAll_run]
  rcases h s with h | h
  · rw [h]; exact Or.inl rfl
  · right
    rcases hm : m s with ⟨e | x, s'⟩
    · exact Or.inr rfl
    · rw [hm] at h; rcases h with h | h <;> simp at h

theorem Sim.when {c : Bool} {m m0 : PyM (KMState K X V) Unit} (h : Sim m m0) : Sim (when c m) (when c m0) := by
  cases c
  · exact Sim.rfl'
  · exact h

theorem Sim.ite {c : Prop} [Decidable c] {m m0 m' m0' : PyM (KMState K X V) α} (h : Sim m m0) (h' : Sim m' m0') :
    Sim (if c then m else m') (if c then m0 else m0') := by
  split
  · exact h
  · exact h'

theorem Sim.forEach {l : List ι} {f f0 : ι → PyM (KMState K X V) Unit} (h : ∀ x, Sim (f x) (f0 x)) :
    Sim (forEach l f) (forEach l f0) := by
  induction l with
  | nil => exact Sim.rfl'
  | cons x l ih => exact (h x).bind fun _ => ih

theorem Sim.mapEach {l : List ι} {f f0 : ι → PyM (KMState K X V) β} (h : ∀ x, Sim (f x) (f0 x)) :
    Sim (mapEach l f) (mapEach l f0) := by
  induction l with
  | nil => exact Sim.rfl'
  | cons x l ih => exact (h x).bind fun _ => ih.bind fun _ => Sim.rfl'

variable (env : Env K X V)

theorem sim_callKernel (p : Nat × Nat) (x y : X) : Sim (callKernel env p x y) (callKernel env.faultless p x y) := by
  intro s
  unfold callKernel
  by_cases h : env.fails s.clock s.kernel x y = true
  · right; rw [if_pos h]; exact Or.inl rfl
  · left
    rw [if_neg h, if_neg (by simp [Env.faultless])]
    rfl

theorem sim_evalAt (p : Nat × Nat) : Sim (evalAt env p) (evalAt env.faultless p) := by
  refine Sim.rfl'.bind fun s => ?_
  split
  · exact Sim.rfl'
  · exact Sim.rfl'.bind fun _ => Sim.rfl'.bind fun _ => (sim_callKernel env _ _ _).bind fun _ => Sim.rfl'

theorem sim_evalKernel (i j : Nat) : Sim (evalKernel env i j) (evalKernel env.faultless i j) :=
  Sim.ite (Sim.rfl'.bind fun _ => Sim.ite (sim_evalAt env _) (sim_evalAt env _)) (sim_evalAt env _)

theorem sim_fillCells (l : List (Nat × Nat)) : Sim (fillCells env l) (fillCells env.faultless l) :=
  Sim.forEach fun _ => (sim_evalKernel env _ _).bind fun _ => Sim.rfl'

theorem sim_populateUpper (d : Bool) : Sim (populateUpper env d) (populateUpper env.faultless d) :=
  Sim.rfl'.bind fun _ => Sim.when <| Sim.rfl'.bind fun _ => Sim.rfl'.bind fun _ =>
    (Sim.catchAll (sim_fillCells env _)).bind fun _ => Sim.rfl'

theorem sim_populateLower (l : Bool) : Sim (populateLower env l) (populateLower env.faultless l) :=
  Sim.rfl'.bind fun _ => Sim.when <| Sim.bind (Sim.catchAll <| Sim.rfl'.bind fun _ => Sim.rfl'.bind fun _ =>
    Sim.ite Sim.rfl' (sim_fillCells env _)) fun _ => Sim.rfl'

theorem sim_populateFully (d l : Bool) : Sim (populateFully env d l) (populateFully env.faultless d l) :=
  (sim_populateUpper env d).bind fun _ => (sim_populateLower env l).bind fun _ => Sim.rfl'

theorem sim_ensurePopulated : Sim (ensurePopulated env) (ensurePopulated env.faultless) :=
  Sim.rfl'.bind fun _ => Sim.when (sim_populateFully env _ _)

theorem sim_diagonal : Sim (diagonal env) (diagonal env.faultless) :=
  Sim.rfl'.bind fun _ => Sim.ite Sim.rfl' (Sim.rfl'.bind fun _ => Sim.mapEach fun _ => sim_evalKernel env _ _)

theorem sim_freshDiagonal (f : KMState K X V → Option (Arr2 X)) :
    Sim (freshDiagonal env f) (freshDiagonal env.faultless f) := by
  refine Sim.rfl'.bind fun a => ?_
  intro s
  rw [get_bind_run, get_bind_run]
  rcases sim_diagonal env (freshOn s.kernel a s.clock) with h | h
  · left; rw [h]
  · right
    rcases h with h | h
    · left
      show ((modify _ >>= fun _ => lift _) s).1 = _
      rw [modify_bind_run, h]; rfl
    · right
      show ((modify _ >>= fun _ => lift _) s).1 = _
      rw [modify_bind_run, h]; rfl

theorem sim_computeNormed (m : String) : Sim (computeNormed env m) (computeNormed env.faultless m) :=
  Sim.rfl'.bind fun _ => Sim.ite Sim.rfl' <|
    (sim_freshDiagonal env _).bind fun _ => (sim_freshDiagonal env _).bind fun _ => Sim.rfl'

theorem sim_normalize (m : String) : Sim (normalize env m) (normalize env.faultless m) :=
  (sim_ensurePopulated env).bind fun _ => Sim.rfl'.bind fun _ => Sim.when <|
    (sim_computeNormed env m).bind fun _ => Sim.rfl'

theorem sim_normedKmVal : Sim (normedKmVal env) (normedKmVal env.faultless) :=
  Sim.rfl'.bind fun _ => (Sim.when (sim_normalize env _)).bind fun _ => Sim.rfl'

theorem sim_full : Sim (full env) (full env.faultless) :=
  Sim.rfl'.bind fun _ => Sim.rfl'.bind fun _ => (sim_ensurePopulated env).bind fun _ =>
    Sim.ite (sim_normedKmVal env) Sim.rfl'

theorem sim_fullSparse : Sim (fullSparse env) (fullSparse env.faultless) :=
  Sim.rfl'.bind fun _ => Sim.ite (sim_normedKmVal env) ((sim_populateFully env _ _).bind fun _ => Sim.rfl')

theorem sim_center : Sim (center env) (center env.faultless) :=
  Sim.rfl'.bind fun _ => Sim.rfl'.bind fun _ => (sim_ensurePopulated env).bind fun _ => Sim.rfl'

theorem sim_centered : Sim (centered env) (centered env.faultless) :=
  Sim.rfl'.bind fun _ => Sim.rfl'.bind fun _ => Sim.rfl'.bind fun _ => (Sim.when (sim_center env)).bind fun _ => Sim.rfl'

theorem sim_frobNormVal : Sim (frobNormVal env) (frobNormVal env.faultless) :=
  (sim_ensurePopulated env).bind fun _ => Sim.rfl'

theorem sim_compute (one two : List Nat) :
    Sim (computeForIndexCombinations env one two) (computeForIndexCombinations env.faultless one two) :=
  (Sim.mapEach fun _ => sim_evalKernel env _ _).bind fun _ => Sim.rfl'

theorem sim_getItem (key : Key) : Sim (getItem env key) (getItem env.faultless key) :=
  Sim.rfl'.bind fun _ => Sim.rfl'.bind fun _ => Sim.rfl'.bind fun _ => Sim.rfl'.bind fun _ =>
    Sim.ite ((sim_populateFully env _ _).bind fun _ => Sim.rfl') (sim_compute env _ _)

/-- a public call either behaves as if the kernel never failed, or raises because of a failure -/
theorem sim_exec (op : KMOp X) : Sim (exec env op) (exec env.faultless op) := by
  cases op with
  | full => exact (sim_full env).bind fun _ => Sim.rfl'
  | fullSparse => exact (sim_fullSparse env).bind fun _ => Sim.rfl'
  | center => exact (sim_center env).bind fun _ => Sim.rfl'
  | centered => exact (sim_centered env).bind fun _ => Sim.rfl'
  | normalize m => exact (sim_normalize env m).bind fun _ => Sim.rfl'
  | normedKm => exact (sim_normedKmVal env).bind fun _ => Sim.rfl'
  | frobNorm => exact (sim_frobNormVal env).bind fun _ => Sim.rfl'
  | diagonal => exact (sim_diagonal env).bind fun _ => Sim.rfl'
  | getItem k => exact (sim_getItem env k).bind fun _ => Sim.rfl'
  | _ => exact Sim.rfl'

variable {env : Env K X V} {k : K} {norm : Bool} {a : Attachment X} {P : KMOp X → Prop} {s : KMState K X V}

theorem exec_faultless (op : KMOp X) (h : ¬ Failed (exec env op s).1) : exec env op s = exec env.faultless op s :=
  (sim_exec env op s).resolve_right h

theorem SinceClean.since (h : SinceClean env k norm a P s) : Since env k norm a P s := by
  induction h with
  | attached hr ha h => exact .attached hr ha h
  | call op _ ha hP _ ih => exact .call op ih ha hP

theorem SinceClean.good (h : SinceClean env k norm a P s) (sp : Lv)
    (hsp : sp.sp = false → ∀ op, P op → ¬ op.MayGoSparse norm a.nrows a.ncols)
    (hup : sp.up = false → norm = true ∨ ∀ op, P op → op ≠ .fullSparse) : Good env.faultless a sp s := by
  induction h with
  | attached hr ha h =>
    rw [exec_attach_ok ha h]
    exact good_attachedState _ _ _ a _ _ sp
  | call op hs ha hP hf ih =>
    rw [exec_faultless op hf]
    refine ih.exec (noFaults_faultless env) op ha (Lv.Le.refl _) (fun h0 => ?_) fun h0 => ?_
    · rw [hs.since.keepNormed]; exact hsp h0 op hP
    · rw [hs.since.keepNormed]
      exact (hup h0).imp id fun h => h op hP

theorem SinceClean.goodDense (h : SinceClean env k norm a (fun op => ¬ op.MayGoSparse norm a.nrows a.ncols) s) :
    Good env.faultless a ⟨false, false⟩ s := by
  refine h.good _ (fun _ _ h => h) fun _ => ?_
  cases norm
  · right
    rintro op h rfl
    exact h rfl
  · exact Or.inl rfl

end KMState
end KMethods
