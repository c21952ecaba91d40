import Verif.Lemmas.Cost
import Verif.Props.Count
import Verif.Props.FullMatrix
import Verif.Props.Machine
/-!
# C85: the total number of kernel calls

`clock` counts all calls of kernel functions (also those that `normalize` makes through objects of its own), `numKerEval` only those of the object itself.
-/
namespace KMethods
open KMState
variable {K X V M Y W P : Type} {k : K} {norm : Bool}

theorem since_run {env : Env K X V} {a : Attachment X} {Q : KMOp X → Prop} (ops : List (KMOp X)) (hops : ∀ op ∈ ops, op.isAttach = false) (hQ : ∀ op ∈ ops, Q op)
    {s : KMState K X V} (h : Since env k norm a Q s) : Since env k norm a Q (run env ops s) := by
  induction ops generalizing s with
  | nil => exact h
  | cons op ops ih => exact ih (fun o ho => hops o (by simp [ho])) (fun o ho => hQ o (by simp [ho])) (.call op h (hops op (by simp)) (hQ op (by simp)))

theorem since_tally {env : Env K X V} {a : Attachment X} (hf : NoFaultsOn env k a) {s : KMState K X V} (h : SinceAny env k norm a s) : ∃ c b, Tally a k c b s := by
  induction h with
  | @attached s _ _ _ hr ha h =>
    have hk := (Since.attached hr ha h : SinceAny env k norm a _).kernel
    rw [exec_attach_ok ha h] at hk ⊢
    have h := tally_attachedState (V := V) s.kernel s.keepNormed a s.clock s.centeredKm
    exact ⟨_, _, ⟨h.sample, h.sampleTwo, h.shape, h.two, hk, h.clock, h.normed, h.full⟩⟩
  | call op hs ha _ ih =>
    obtain ⟨c, b, ih⟩ := ih
    rw [Since.exec_faultless hf hs ha]
    rcases after_exec (noFaults_faultless env) op ha ih with h | ⟨_, h | ⟨_, h⟩⟩ <;> exact ⟨_, _, h⟩

/-- no self-kernel is close to zero: the normalisation between two samples succeeds -/
theorem normOk_of_real {env : Env K X F} (hops : env.ops = realOps) {κ : X → X → ℝ} {A B : Arr2 X} (hκ : RealOn (env.kval k) κ ⟨A, some B⟩)
    (hA : ∀ i : Fin A.nrows, ¬ NearZero (κ (A.row i) (A.row i))) (hB : ∀ j : Fin B.nrows, ¬ NearZero (κ (B.row j) (B.row j))) : NormOk env ⟨A, some B⟩ k := by
  intro method f
  show ∃ N, env.ops.normalize2 (Mat.ofCells A.nrows B.nrows f) (A.selfs (env.kval k)) (B.selfs (env.kval k)) = .ok N
  rw [hops]
  show ∃ N, normalizeKm2 (Mat.ofCells A.nrows B.nrows f) (A.selfs (env.kval k)) (B.selfs (env.kval k)) "cosine" = .ok N
  rw [selfs_ofReal fun i => hκ _ _ (isRow_one i) (isRow_one i), selfs_ofReal fun j => hκ _ _ (isRow_two j) (isRow_two j)]
  unfold normalizeKm2
  rw [if_neg (by simp [Mat.ofCells]), if_pos toLower_cosine, if_neg]
  · exact ⟨_, rfl⟩
  · rintro (⟨d, hd, hc⟩ | ⟨d, hd, hc⟩)
    · obtain ⟨i, rfl⟩ := List.mem_ofFn.1 hd
      exact hA i (by simpa [F.isClose, NearZero] using hc)
    · obtain ⟨i, rfl⟩ := List.mem_ofFn.1 hd
      exact hB i (by simpa [F.isClose, NearZero] using hc)

/-- a self-kernel is close to zero: it raises -/
theorem normFails_of_real {env : Env K X F} (hops : env.ops = realOps) {κ : X → X → ℝ} {A B : Arr2 X} (hκ : RealOn (env.kval k) κ ⟨A, some B⟩)
    (hz : (∃ i : Fin A.nrows, NearZero (κ (A.row i) (A.row i))) ∨ ∃ j : Fin B.nrows, NearZero (κ (B.row j) (B.row j))) : NormFails env ⟨A, some B⟩ k := by
  intro method f
  show ∃ N, env.ops.normalize2 (Mat.ofCells A.nrows B.nrows f) (A.selfs (env.kval k)) (B.selfs (env.kval k)) = .error N
  rw [hops]
  show ∃ N, normalizeKm2 (Mat.ofCells A.nrows B.nrows f) (A.selfs (env.kval k)) (B.selfs (env.kval k)) "cosine" = .error N
  rw [selfs_ofReal fun i => hκ _ _ (isRow_one i) (isRow_one i), selfs_ofReal fun j => hκ _ _ (isRow_two j) (isRow_two j)]
  unfold normalizeKm2
  rw [if_neg (by simp [Mat.ofCells]), if_pos toLower_cosine, if_pos]
  · exact ⟨_, rfl⟩
  · refine hz.imp ?_ ?_
    · rintro ⟨i, hi⟩
      exact ⟨_, List.mem_ofFn.2 ⟨i, rfl⟩, by simpa [F.isClose, NearZero] using hi⟩
    · rintro ⟨i, hi⟩
      exact ⟨_, List.mem_ofFn.2 ⟨i, rfl⟩, by simpa [F.isClose, NearZero] using hi⟩

/-- **C85** One sample of size `n`, a kernel that does not raise: from `attach_to` on, any calls together make at most `n (n + 1) / 2` kernel calls in total (also with normalisation, centering,
element access, repeated calls), and exactly that many if the matrix was asked for. -/
theorem C85_one_sample {env : Env K X V} {A : Arr2 X} {one : SampleIn X} (hat : Attaches one none ⟨A, none⟩) (hf : NoFaultsOn env k ⟨A, none⟩) {s0 s1 : KMState K X V}
    (hr : Reachable env k norm s0) (h1 : exec env (.attach one none) s0 = (.ok .none, s1)) (ops : List (KMOp X)) (hops : ∀ op ∈ ops, op.isAttach = false) :
    ∃ c, (run env ops s1).clock = s0.clock + c ∧ 2 * c ≤ A.nrows * (A.nrows + 1) ∧ (KMOp.full ∈ ops → 2 * c = A.nrows * (A.nrows + 1)) := by
  have hs : SinceAny env k norm ⟨A, none⟩ s1 := .attached hr hat h1
  have ht : Tally ⟨A, none⟩ k s0.clock false s1 := by
    have hk := hs.kernel
    rw [exec_attach_ok hat h1] at hk ⊢
    have hk : s0.kernel = k := hk
    rw [hk]
    exact tally_attachedState _ _ _ _ _
  have key := fun l hl => tally_run hf (Or.inl rfl) (norm := norm) l hl hs (Or.inl ht)
  have hclock : ∀ l, (∀ op ∈ l, op.isAttach = false) → (run env l s1).clock = s0.clock + (run env l s1).succ.length := fun l hl => by
    rcases (key l hl).2 with h | h
    · exact h.clock
    · exact h.clock
  refine ⟨_, hclock ops hops, ?_, fun hm => ?_⟩
  · obtain ⟨_, e, _, _, h⟩ := C02_evaluated_at_most_once (key ops hops).1
    rw [← e]
    exact (h rfl).2
  · obtain ⟨pre, post, rfl⟩ := List.append_of_mem hm
    have hpre : ∀ op ∈ pre, op.isAttach = false := fun op h => hops op (by simp [h])
    have hpost : ∀ op ∈ post, op.isAttach = false := fun op h => hops op (by simp [h])
    have hs' := (key pre hpre).1
    have e : run env (pre ++ KMOp.full :: post) s1 = run env post (exec env .full (run env pre s1)).2 := by
      unfold run; rw [List.foldl_append]; rfl
    rw [e, C02_nothing_after_full hf hs' post hpost]
    have hs'' : SinceAny env k norm ⟨A, none⟩ (exec env .full (run env pre s1)).2 := .call .full hs' rfl trivial
    rw [← (C02_evaluated_at_most_once hs'').2.1]
    exact (C02_full_evaluates_all hf hs').2

/-- **C85, partial**: two samples of sizes `n` and `m`. If no self-kernel is close to zero (so that a normalisation, if there is one, succeeds), any calls together make at most
`n m + n + m` kernel calls. Missing: the case of a normalisation that raises (`C85_violated`). -/
theorem C85_two_samples_partial {env : Env K X F} (hops : env.ops = realOps) {κ : X → X → ℝ} {A B : Arr2 X} {one two : SampleIn X} (hat : Attaches one (some two) ⟨A, some B⟩)
    (hf : NoFaultsOn env k ⟨A, some B⟩) (hκ : RealOn (env.kval k) κ ⟨A, some B⟩)
    (hA : ∀ i : Fin A.nrows, ¬ NearZero (κ (A.row i) (A.row i))) (hB : ∀ j : Fin B.nrows, ¬ NearZero (κ (B.row j) (B.row j))) {s0 s1 : KMState K X F}
    (hr : Reachable env k norm s0) (h1 : exec env (.attach one (some two)) s0 = (.ok .none, s1)) (ops : List (KMOp X)) (hops' : ∀ op ∈ ops, op.isAttach = false) :
    ∃ c, (run env ops s1).clock = s0.clock + c ∧ c ≤ A.nrows * B.nrows + A.nrows + B.nrows ∧
      ((∀ op ∈ ops, ¬ op.MayGoSparse norm A.nrows B.nrows) → norm = true → (exec env .full (run env ops s1)).2.clock = s0.clock + (A.nrows * B.nrows + A.nrows + B.nrows)) := by
  have hn := normOk_of_real hops hκ hA hB
  have hs : SinceAny env k norm ⟨A, some B⟩ s1 := .attached hr hat h1
  have ht : Tally ⟨A, some B⟩ k s0.clock false s1 := by
    have hk := hs.kernel
    rw [exec_attach_ok hat h1] at hk ⊢
    have hk : s0.kernel = k := hk
    rw [hk]
    exact tally_attachedState _ _ _ _ _
  obtain ⟨hs', ht'⟩ := tally_run hf (Or.inr hn) (norm := norm) ops hops' hs (Or.inl ht)
  obtain ⟨_, e, _, hle, _⟩ := C02_evaluated_at_most_once hs'
  rw [e] at hle
  change _ ≤ A.nrows * B.nrows at hle
  have hx : selfCalls (⟨A, some B⟩ : Attachment X) = A.nrows + B.nrows := rfl
  refine ⟨(run env ops s1).clock - s0.clock, ?_, ?_, fun hd hnorm => ?_⟩
  · rcases ht' with h | h <;> have := h.clock <;> omega
  · rcases ht' with h | h <;> have := h.clock <;> omega
  · have hdense := since_run ops hops' hd (.attached hr hat h1 : SinceDense env k norm ⟨A, some B⟩ s1)
    have hall := (C02_full_evaluates_all_two hf hdense).2
    have hs2 : SinceAny env k norm ⟨A, some B⟩ (exec env .full (run env ops s1)).2 := .call .full hs' rfl trivial
    rw [(C02_evaluated_at_most_once hs2).2.1] at hall
    have hfin : Tally ⟨A, some B⟩ k (s0.clock + selfCalls (⟨A, some B⟩ : Attachment X)) true (exec env .full (run env ops s1)).2 := by
      rw [hs'.exec_faultless hf rfl]
      rcases ht' with h | h
      · obtain ⟨b, h2, h3, _⟩ := (tally_full (noFaults_faultless env) (hs'.goodOnAny hf) (quiet_of_real hops hκ) h).2 (by rw [hs'.keepNormed]; exact hnorm)
        rw [h3 hn] at h2
        show Tally _ k _ true ((full env.faultless >>= _ : PyM _ _) _).2
        rw [(exec_state _).1]
        exact h2
      · rcases after_exec (noFaults_faultless env) .full rfl h with g | ⟨g, _⟩
        · exact g
        · cases g
    rw [hfin.clock, hall, hx]
    omega

/-- **C85** two samples, a self-kernel close to zero: every access to the normalised matrix makes `n + m` kernel calls again. -/
theorem C85_repeated_normalisation {env : Env K X F} (hops : env.ops = realOps) {κ : X → X → ℝ} {A B : Arr2 X} {one two : SampleIn X} (hat : Attaches one (some two) ⟨A, some B⟩)
    (hf : NoFaultsOn env k ⟨A, some B⟩) (hκ : RealOn (env.kval k) κ ⟨A, some B⟩)
    (hz : (∃ i : Fin A.nrows, NearZero (κ (A.row i) (A.row i))) ∨ ∃ j : Fin B.nrows, NearZero (κ (B.row j) (B.row j))) {s0 s1 : KMState K X F}
    (hr : Reachable env k true s0) (h1 : exec env (.attach one (some two)) s0 = (.ok .none, s1)) (r : Nat) (hr1 : 1 ≤ r) :
    (run env (List.replicate r .full) s1).clock = s0.clock + A.nrows * B.nrows + r * (A.nrows + B.nrows) := by
  have hn := normFails_of_real hops hκ hz
  have hs : SinceDense env k true ⟨A, some B⟩ s1 := .attached hr hat h1
  have ht : Tally ⟨A, some B⟩ k s0.clock false s1 := by
    have hk := hs.kernel
    rw [exec_attach_ok hat h1] at hk ⊢
    have hk : s0.kernel = k := hk
    rw [hk]
    exact tally_attachedState _ _ _ _ _
  have hx : selfCalls (⟨A, some B⟩ : Attachment X) = A.nrows + B.nrows := rfl
  have step : ∀ (s : KMState K X F) (c : Nat), SinceDense env k true ⟨A, some B⟩ s → Tally ⟨A, some B⟩ k c false s →
      SinceDense env k true ⟨A, some B⟩ (exec env .full s).2 ∧ Tally ⟨A, some B⟩ k (c + (A.nrows + B.nrows)) false (exec env .full s).2 ∧
      (exec env .full s).2.succ.length = A.nrows * B.nrows := by
    intro s c hs h
    have hs2 : SinceDense env k true ⟨A, some B⟩ (exec env .full s).2 := .call .full hs rfl (by simp [KMOp.MayGoSparse])
    refine ⟨hs2, ?_, ?_⟩
    · rw [hs.exec_faultless hf rfl]
      obtain ⟨b, h2, _, h3⟩ := (tally_full (noFaults_faultless env) (hs.goodOnAny hf) (quiet_of_real hops hκ) h).2 hs.keepNormed
      rw [h3 hn, hx] at h2
      show Tally _ k _ false ((full env.faultless >>= _ : PyM _ _) _).2
      rw [(exec_state _).1]
      exact h2
    · rw [← (C02_evaluated_at_most_once (Since.mono (fun _ _ => trivial) hs2)).2.1]
      exact (C02_full_evaluates_all_two hf hs).2
  have all : ∀ (r : Nat) (s : KMState K X F) (c : Nat), SinceDense env k true ⟨A, some B⟩ s → Tally ⟨A, some B⟩ k c false s →
      (run env (List.replicate (r + 1) .full) s).clock = c + A.nrows * B.nrows + (r + 1) * (A.nrows + B.nrows) := by
    intro r
    induction r with
    | zero =>
      intro s c hs h
      obtain ⟨_, h2, h3⟩ := step s c hs h
      show (exec env .full s).2.clock = _
      rw [h2.clock, h3]
      omega
    | succ r ih =>
      intro s c hs h
      obtain ⟨g1, g2, _⟩ := step s c hs h
      have := ih _ _ g1 g2
      show (run env (List.replicate (r + 1) .full) (exec env .full s).2).clock = _
      rw [this]
      ring
  obtain ⟨r, rfl⟩ := Nat.exists_eq_add_of_le' hr1
  exact all r s1 s0.clock hs ht

/-- the number of kernel calls is not bounded -/
theorem Demo.zero_attaches : Attaches (.arr [1, 1] fun _ => (0 : ℝ)) (some (.arr [1, 1] fun _ => (1 : ℝ))) ⟨⟨1, 1, fun _ => (0 : ℝ)⟩, some ⟨1, 1, fun _ => (1 : ℝ)⟩⟩ :=
  ⟨⟨0, rfl⟩, ⟨0, rfl⟩, rfl⟩

/-- **C85 is violated** for two samples and a normalising `KernelMatrix`. The full statement would be: whatever is called after `attach_to`, the number of kernel calls is bounded (by
`n m + n + m`, say). With the samples `0` and `1` and the linear kernel the normalisation raises `KMNormError`, and is tried again, with new kernel calls, at every access: no bound holds. -/
theorem C85_violated : ¬ ∀ (K X : Type) (env : Env K X F) (k : K) (A B : Arr2 X) (one two : SampleIn X) (s0 s1 : KMState K X F), env.ops = realOps →
    Attaches one (some two) ⟨A, some B⟩ → NoFaults env → Reachable env k true s0 → exec env (.attach one (some two)) s0 = (.ok .none, s1) →
    ∃ N, ∀ ops : List (KMOp X), (∀ op ∈ ops, op.isAttach = false) → (run env ops s1).clock ≤ s0.clock + N := by
  intro h
  obtain ⟨N, h⟩ := h Unit ℝ Demo.renv () ⟨1, 1, fun _ => 0⟩ ⟨1, 1, fun _ => 1⟩ _ _ (init () true 0) _ rfl Demo.zero_attaches (fun _ _ _ _ => rfl) (.new 0) rfl
  have h1 := h (List.replicate (N + 1) .full) fun op ho => by rw [List.eq_of_mem_replicate ho]; rfl
  have h2 := C85_repeated_normalisation (env := Demo.renv) (k := ()) (κ := fun x y => x * y) rfl Demo.zero_attaches (fun _ _ _ _ _ => rfl) (fun _ _ _ _ => rfl)
    (Or.inl ⟨⟨0, by decide⟩, by norm_num [NearZero]⟩) (.new 0) rfl (N + 1) (by omega)
  change (run Demo.renv (List.replicate (N + 1) .full) _).clock = 0 + 1 * 1 + (N + 1) * (1 + 1) at h2
  change (run Demo.renv (List.replicate (N + 1) .full) _).clock ≤ 0 + N at h1
  rw [h2] at h1
  omega

/-- **C85** In every case a single call, whether it succeeds or raises, makes at most `n m + n + m` kernel calls. -/
theorem C85_one_call {env : Env K X V} {a : Attachment X} (hf : NoFaultsOn env k a) {s : KMState K X V} (h : SinceAny env k norm a s) (op : KMOp X) (hop : op.isAttach = false) :
    s.clock ≤ (exec env op s).2.clock ∧ (exec env op s).2.clock ≤ s.clock + (a.nrows * a.ncols + a.nrows + a.ncols) := by
  obtain ⟨c, b, ht⟩ := since_tally hf h
  have h2 : SinceAny env k norm a (exec env op s).2 := .call op h hop trivial
  obtain ⟨_, e, _, hle, _⟩ := C02_evaluated_at_most_once h2
  rw [e] at hle
  obtain ⟨new, hnew, _⟩ := C02_evaluations_only_accumulate h op hop
  have hlen : (exec env op s).2.succ.length = new.length + s.succ.length := by rw [hnew, List.length_append]
  have hx : selfCalls a ≤ a.nrows + a.ncols := by unfold selfCalls; split <;> omega
  have hc := ht.clock
  rw [h.exec_faultless hf hop] at hle hlen ⊢
  rcases after_exec (noFaults_faultless env) op hop ht with g | ⟨_, g | ⟨_, g⟩⟩ <;> have := g.clock <;> omega

/-- **C85** `fit` on `n` training samples makes exactly `n (n + 1) / 2` kernel calls, whatever was done before with the machine, and whether or not the learner raises. -/
theorem C85_fit {env : Env K X F} (L : Learner M Y W P) (s : Machine K X M Y) {e : Est} {A : Arr2 X} (y : Y) (w : W) (hk : s.kFunc = some k) (hn : s.normalized = some norm)
    (he : getEstimator s.learnerId = .ok e) (hf : NoFaultsOn env k ⟨A, none⟩) :
    ∃ t c, (Machine.fit env L (.ok (A, y)) w s).2.km = some t ∧ t.clock = ((s.km.map (·.clock)).getD 0) + c ∧ 2 * c = A.nrows * (A.nrows + 1) := by
  obtain ⟨t, ⟨hs, rfl⟩, h⟩ := Machine.fit_run_from (env := env) L s (A := A) y w hk hn he
  generalize hcl : (s.km.map (·.clock)).getD 0 = c0 at hs h ⊢
  have hs := Since.mono (fun _ _ => trivial) hs
  have ht := tally_attachedState (V := F) k norm ⟨A, none⟩ c0 none
  generalize attachedState k norm ⟨A, none⟩ c0 none = t at hs ht h
  have hfull : (exec env .full t).2 = (KMState.full env t).2 := (exec_state t).1
  have hcount := (C02_full_evaluates_all hf hs).2
  have hs2 : SinceAny env k norm ⟨A, none⟩ (exec env .full t).2 := .call .full hs rfl trivial
  rw [(C02_evaluated_at_most_once hs2).2.1] at hcount
  have hclock : (exec env .full t).2.clock = c0 + (exec env .full t).2.succ.length := by
    rcases (tally_run hf (Or.inl rfl) [.full] (by simp [KMOp.isAttach]) hs (Or.inl ht)).2 with g | g
    · exact g.clock
    · exact g.clock
  rw [hfull] at hclock hcount
  refine ⟨(KMState.full env t).2, _, ?_, hclock, hcount⟩
  rw [h]
  rcases (KMState.full env t).1 with err | T
  · rfl
  · simp only
    rcases L.fit e T y w with err | m <;> rfl

/-- **C85** `predict` for `m` samples, after `fit` on `n`, makes exactly `m n` kernel calls, plus `m + n` if the machine normalises, at every call: nothing is remembered from one prediction to
the next (nor from `fit`). -/
theorem C85_predict {env : Env K X F} (L : Learner M Y W P) (s : Machine K X M Y) {A B : Arr2 X} {y : Y} {m : M} (hs : s.Fitted k norm A y m) (hc : B.ncols = A.ncols)
    (hf : NoFaultsOn env k ⟨B, some A⟩) (hq : Quiet env k ⟨B, some A⟩) :
    ∃ t, (Machine.predict env L (.ok B) s).2.km = some t ∧
      t.clock = ((s.km.map (·.clock)).getD 0) + B.nrows * A.nrows + (if norm then B.nrows + A.nrows else 0) := by
  obtain ⟨e, he⟩ := hs.model
  obtain ⟨t, ⟨ht, rfl⟩, h⟩ := Machine.predict_run_from (env := env) L s hs.kFunc hs.normalized hs.km hs.trainX hs.trainY he hc
  generalize (s.km.map (·.clock)).getD 0 = c0 at ht h ⊢
  have hd : SinceDense env k norm ⟨B, some A⟩ _ := Since.mono (fun op (h : op = .full) => by rw [h]; simp [KMOp.MayGoSparse]) ht
  have hany : SinceAny env k norm ⟨B, some A⟩ _ := Since.mono (fun _ _ => trivial) ht
  have htal := tally_attachedState (V := F) k norm ⟨B, some A⟩ c0 none
  have hkeep : (attachedState k norm ⟨B, some A⟩ c0 none : KMState K X F).keepNormed = norm := rfl
  generalize attachedState k norm ⟨B, some A⟩ c0 none = t at ht h hd hany htal hkeep
  have hfull : (exec env .full t).2 = (KMState.full env t).2 := (exec_state t).1
  have hcount := (C02_full_evaluates_all_two hf hd).2
  have hs2 : SinceAny env k norm ⟨B, some A⟩ (exec env .full t).2 := .call .full hany rfl trivial
  rw [(C02_evaluated_at_most_once hs2).2.1] at hcount
  have hfl : (exec env .full t).2 = (KMState.full env.faultless t).2 := by rw [hany.exec_faultless hf rfl]; exact (exec_state t).1
  refine ⟨(KMState.full env t).2, by rw [h], ?_⟩
  rw [← hfull]
  obtain ⟨g1, g2⟩ := tally_full (noFaults_faultless env) (hany.goodOnAny hf) hq htal
  rw [← hfl] at g1 g2
  rcases norm
  · rw [(g1 hkeep).clock, hcount]
    simp
  · obtain ⟨b, g, _⟩ := g2 hkeep
    rw [g.clock, hcount]
    show c0 + (B.nrows + A.nrows) + B.nrows * A.nrows = c0 + B.nrows * A.nrows + (B.nrows + A.nrows)
    omega

/-- three samples, access to elements, the normalised matrix twice, centering: six calls; samples of sizes 3 and 2, the normalised matrix twice: 6 + 3 + 2 calls -/
example : (run Demo.env [.getItem (.pair (.int 0) (.int 1)), .diagonal, .full, .full, .center] (Demo.st1 true)).clock = 6 ∧
    (run Demo.env [.full, .full, .normedKm] (Demo.st2 true)).clock = 11 := ⟨by decide +kernel, by decide +kernel⟩

/-- the hypotheses of `C85_two_samples_partial` for the samples `1, 2, 3` and `7` with the kernel `x y` -/
example : Attaches (.arr [3, 1] Demo.rA.row) (some (.arr [1, 1] fun _ => (7 : ℝ))) ⟨Demo.rA, some ⟨1, 1, fun _ => (7 : ℝ)⟩⟩ ∧
    NoFaultsOn Demo.renv () ⟨Demo.rA, some ⟨1, 1, fun _ => (7 : ℝ)⟩⟩ ∧ RealOn (Demo.renv.kval ()) (fun x y => x * y) ⟨Demo.rA, some ⟨1, 1, fun _ => (7 : ℝ)⟩⟩ ∧
    (∀ i : Fin Demo.rA.nrows, ¬ NearZero (Demo.rA.row i * Demo.rA.row i)) ∧ ¬ NearZero ((7 : ℝ) * 7) := by
  refine ⟨⟨⟨0, rfl⟩, ⟨0, rfl⟩, rfl⟩, fun _ _ _ _ _ => rfl, fun _ _ _ _ => rfl, fun i hi => ?_, by norm_num [NearZero]⟩
  have h1 : (1:ℝ) ≤ Demo.rA.row i := by simp [Demo.rA]
  have : (1:ℝ) ≤ Demo.rA.row i * Demo.rA.row i := by nlinarith
  rw [NearZero, abs_of_nonneg (by linarith)] at hi
  norm_num at hi
  linarith

end KMethods
