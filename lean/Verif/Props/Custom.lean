import Verif.Lemmas.Custom
import Verif.Lemmas.Operations
import Verif.Props.Warning
/-!
# C11 for kernels whose formatting raises, C61: custom kernels (`KernelFromCallable`)
-/
namespace KMethods
open KMState PyM
variable {K X V : Type}

/-! ### C11 for kernels whose formatting raises -/

/-- **C11, partial (3)**: for kernels that cannot be formatted (all custom kernels), attached to one sample, without sparse storage: after every
history with any kernel failures, whenever `full`, `normed_km`, `centered` or `frob_norm` returns, it returns what it should for the true
kernel matrix. (A failed computation leaves a NaN, and the warning about it, which comes before anything is returned, raises.) Missing:
two samples, sparse storage, kernels that can be formatted (all of which the code gets wrong). -/
theorem C11_custom_partial {env : Env K X V} {k : K} {norm : Bool} {A : Arr2 X} {s : KMState K X V} (hb : env.fmtRaises k = true)
    (hn : env.ops.FindsNan) (h : SinceDense env k norm ⟨A, none⟩ s) {out : KMOut V} :
    ((exec env .full s).1 = .ok out → norm = false → out = .mat .dense (Attachment.gram ⟨A, none⟩ (env.kval k))) ∧
    ((exec env .full s).1 = .ok out ∨ (exec env .normedKm s).1 = .ok out → norm = true →
      ∃ N m, out = .mat .dense N ∧ env.ops.normalize (Attachment.gram ⟨A, none⟩ (env.kval k)) m = .ok N) ∧
    ((exec env .centered s).1 = .ok out →
      ∃ C, out = .mat .dense C ∧ env.ops.center (Attachment.gram ⟨A, none⟩ (env.kval k)) = .ok C) ∧
    ((exec env .frobNorm s).1 = .ok out →
      ∃ v, out = .val v ∧ env.ops.frob (Attachment.gram ⟨A, none⟩ (env.kval k)) = .ok v) := by
  have hs := Since.customOk hb hn h
  have ok : ∀ {α : Type} {m : PyM (KMState K X V) α} {R : α → Prop} {f : α → KMOut V}, Holds (CustomOk env k norm A) m R →
      ((m >>= fun x => pure (f x)) s).1 = .ok out → ∃ x, R x ∧ out = f x := by
    intro α m R f hm ho
    obtain ⟨x, h1, h2⟩ := exec_ok (f := f) ho
    exact ⟨x, (hm s hs).2 x h1, h2⟩
  refine ⟨fun ho hk => ?_, fun ho hk => ?_, fun ho => ?_, fun ho => ?_⟩
  · obtain ⟨M, ⟨h1, h2, -⟩, rfl⟩ := ok (f := fun A : Fmt × Mat V => KMOut.mat A.1 A.2) (custom_full hb hn) ho
    rw [h1, h2 hk]
  · rcases ho with ho | ho
    · obtain ⟨M, ⟨h1, -, h2⟩, rfl⟩ := ok (f := fun A : Fmt × Mat V => KMOut.mat A.1 A.2) (custom_full hb hn) ho
      obtain ⟨m, hm⟩ := h2 hk
      exact ⟨M.2, m, by rw [h1], hm⟩
    · obtain ⟨M, ⟨h1, m, hm⟩, rfl⟩ := ok (f := fun A : Fmt × Mat V => KMOut.mat A.1 A.2) (custom_normedKmVal hb hn) ho
      exact ⟨M.2, m, by rw [h1], hm⟩
  · obtain ⟨M, ⟨h1, hm⟩, rfl⟩ := ok (f := fun A : Fmt × Mat V => KMOut.mat A.1 A.2) (custom_centered hb hn) ho
    exact ⟨M.2, by rw [h1], hm⟩
  · obtain ⟨v, hm, rfl⟩ := ok (f := fun v : V => KMOut.val v) (custom_frobNormVal hb hn) ho
    exact ⟨v, rfl, hm⟩

/-- **C11, partial (4)**: if moreover the kernel function raises on some pair of samples whenever it is called on it, then none of these ever
returns. -/
theorem C11_custom_always_raises_partial {env : Env K X V} {k : K} {norm : Bool} {A : Arr2 X} {s : KMState K X V}
    (hb : env.fmtRaises k = true) (hn : env.ops.FindsNan) {i j : Nat} (hij : i ≤ j) (hj : j < A.nrows)
    (hfail : ∀ t, env.fails t k (A.row i) (A.row j) = true) (h : SinceDense env k norm ⟨A, none⟩ s) {op : KMOp X}
    (hop : op = .full ∨ op = .normedKm ∨ op = .centered ∨ op = .frobNorm) : ∃ e, (exec env op s).1 = .error e := by
  have hs := Since.customStuck hij hfail hb hn hj h
  have err : ∀ {α : Type} {m : PyM (KMState K X V) α} {f : α → KMOut V}, Holds (CustomStuck env k norm A i j) m (fun _ => False) →
      ∃ e, ((m >>= fun x => pure (f x)) s).1 = .error e := by
    intro α m f hm
    rw [bind_run]
    rcases hr : m s with ⟨e | x, s'⟩
    · exact ⟨e, rfl⟩
    · exact ((hm s hs).2 x (by rw [hr])).elim
  rcases hop with rfl | rfl | rfl | rfl
  · exact err (f := fun A : Fmt × Mat V => KMOut.mat A.1 A.2) (stuck_full hij hfail hb hn hj)
  · exact err (f := fun A : Fmt × Mat V => KMOut.mat A.1 A.2) (stuck_normedKmVal hij hfail hb hn hj)
  · exact err (f := fun A : Fmt × Mat V => KMOut.mat A.1 A.2) (stuck_centered hij hfail hb hn hj)
  · exact err (f := fun v : V => KMOut.val v) (stuck_frobNormVal hij hfail hb hn hj)

namespace Demo
/-- as `faulty`, for a kernel that cannot be formatted -/
def faultyC (n : Nat) : Env Unit Int Int := ⟨kval, fun t _ _ _ => t == n, ops, fun _ => true⟩
def stC (n : Nat) : KMState Unit Int Int := (exec (faultyC n) (.attach argA none) (init () false 0)).2
def stC2 (n : Nat) : KMState Unit Int Int := (exec (faultyC n) (.attach argA (some argB)) (init () false 0)).2
theorem since_stC (n : Nat) (P : KMOp Int → Prop) : Since (faultyC n) () false one P (stC n) := .attached (.new 0) attaches_one rfl
theorem since_stC2 (n : Nat) (P : KMOp Int → Prop) : Since (faultyC n) () false two P (stC2 n) := .attached (.new 0) attaches_two rfl
theorem findsNan : ops.FindsNan := by
  intro n m c i j hi hj h
  show (List.any _ _) = true
  rw [List.any_eq_true]
  refine ⟨⟨i, hi⟩, List.mem_finRange _, ?_⟩
  rw [List.any_eq_true]
  refine ⟨⟨j, hj⟩, List.mem_finRange _, ?_⟩
  show (c i j == -1) = true
  rw [h]
  rfl
end Demo

/-- the library's own check finds NaN -/
theorem realOps_findsNan : realOps.FindsNan := by
  intro n m c i j hi hj h
  show containsNanInf _ = true
  unfold containsNanInf
  refine @decide_eq_true _ (_) (Or.inr ⟨⟨i, hi⟩, ⟨j, hj⟩, ?_⟩)
  show ¬ (c i j).isFinite
  rw [h]
  exact id

/-- **C11 is violated** for such kernels as well when attached to two samples: when a kernel call fails while the lower triangle is computed, the
next `full` returns the matrix with the missing entries still holding the fill value. -/
theorem C11_custom_two_samples_violated : ¬ ∀ (K X V : Type) (env : Env K X V) (k : K) (a : Attachment X) (s : KMState K X V)
    (out : KMOut V), env.fmtRaises k = true → env.ops.FindsNan → SinceDense env k false a s → (exec env .full s).1 = .ok out →
    ∃ fmt, out = .mat fmt (a.gram (env.kval k)) := by
  intro h
  have h1 : Demo.entries (exec (Demo.faultyC 4) .full (exec (Demo.faultyC 4) .full (Demo.stC2 4)).2).1 =
      some (.dense, [[17, 18], [27, 28], [-1, -1]]) := by decide +kernel
  rcases hr : (exec (Demo.faultyC 4) .full (exec (Demo.faultyC 4) .full (Demo.stC2 4)).2).1 with e | out
  · rw [hr] at h1; simp [Demo.entries] at h1
  · obtain ⟨fmt, h⟩ := h _ _ _ (Demo.faultyC 4) () Demo.two _ out rfl Demo.findsNan (.call .full (Demo.since_stC2 4 _) rfl id) hr
    rw [hr, h] at h1
    revert h1
    cases fmt <;> decide +kernel

/-- a failed first `full` (`RuntimeError`), then `TypeError` again and again; without failure the matrix -/
example : SinceDense (Demo.faultyC 2) () false Demo.one (exec (Demo.faultyC 2) .full (Demo.stC 2)).2 ∧
    (exec (Demo.faultyC 2) .full (exec (Demo.faultyC 2) .full (Demo.stC 2)).2).1 = .error .typeError ∧
    Demo.entries (exec (Demo.faultyC 9) .full (Demo.stC 9)).1 = some (.dense, [[11, 12, 13], [12, 22, 23], [13, 23, 33]]) :=
  ⟨.call _ (Demo.since_stC 2 _) rfl id, rfl, by decide +kernel⟩

/-! ### C61 custom kernels -/

/-- **C61** `KernelFromCallable(func, name, **params)` succeeds exactly for callables with at least two parameters; the name is the given one, else
the callable's own, else empty -/
theorem C61_construct {α P : Type} (info : CallableInfo) (func : α → α → List (String × P) → Except PyErr F) (funcName name : Option String)
    (params : List (String × P)) (k : CallableKernel α P) :
    mkCallableKernel info func funcName name params = .ok k ↔
      (∃ n, 2 ≤ n ∧ info = .callable n) ∧ k = ⟨func, params, name.getD (funcName.getD "")⟩ := by
  have hname : getCallableName funcName name = name.getD (funcName.getD "") := by
    cases name <;> cases funcName <;> rfl
  unfold mkCallableKernel checkCallable
  rw [hname]
  rcases info with _ | n
  · constructor
    · intro h; cases h
    · rintro ⟨⟨n, _, h⟩, _⟩; cases h
  · by_cases hn : n < 2
    · simp only [if_pos hn]
      constructor
      · intro h; cases h
      · rintro ⟨⟨m, h2, h⟩, _⟩
        cases h
        omega
    · simp only [if_neg hn]
      constructor
      · intro h
        exact ⟨⟨n, by omega, rfl⟩, (Except.ok.inj h).symm⟩
      · rintro ⟨_, rfl⟩
        rfl

/-- **C61** otherwise it raises `TypeError` -/
theorem C61_construct_error {α P : Type} (info : CallableInfo) (func : α → α → List (String × P) → Except PyErr F)
    (funcName name : Option String) (params : List (String × P)) (e : PyErr)
    (h : mkCallableKernel info func funcName name params = .error e) : e = .typeError := by
  unfold mkCallableKernel checkCallable at h
  rcases info with _ | n
  · exact (Except.error.inj h).symm
  · by_cases hn : n < 2
    · simp only [if_pos hn] at h
      exact (Except.error.inj h).symm
    · simp only [if_neg hn] at h
      cases h

section
variable {P : Type} {info : CallableInfo} {func : X → X → List (String × P) → Except PyErr F} {funcName name : Option String}
  {params : List (String × P)} {k : CallableKernel X P} (hk : mkCallableKernel info func funcName name params = .ok k)
include hk

/-- **C61** A `KernelMatrix` on a custom kernel attached to one sample, where the function returns finite values: entry `(i, j)` with `i ≤ j` is
`func(x_i, x_j, **params)`, and entry `(j, i)` is the same, even if `func` is not symmetric - for every history without sparse storage. -/
theorem C61_one_sample {A : Arr2 X} {κ : X → X → ℝ} (hf : ∀ i j, i < A.nrows → j < A.nrows → func (A.row i) (A.row j) params = .ok (.real (κ (A.row i) (A.row j))))
    {s : KMState (CallableKernel X P) X F} (h : SinceDense (callableEnv realOps) k false ⟨A, none⟩ s) :
    (exec (callableEnv realOps) .full s).1 =
      .ok (.mat .dense ⟨A.nrows, A.nrows, fun i j => .real (if i ≤ j then κ (A.row i) (A.row j) else κ (A.row j) (A.row i))⟩) := by
  obtain ⟨-, rfl⟩ := (C61_construct _ _ _ _ _ _).1 hk
  have row : ∀ x, (⟨A, none⟩ : Attachment X).IsRow x → ∃ i, i < A.nrows ∧ x = A.row i := by
    rintro x (⟨i, h1, h2⟩ | ⟨B, _, h1, _⟩)
    · exact ⟨i, h1, h2⟩
    · cases h1
  have hcall : ∀ x y, (⟨A, none⟩ : Attachment X).IsRow x → (⟨A, none⟩ : Attachment X).IsRow y → func x y params = .ok (.real (κ x y)) := by
    intro x y hx hy
    obtain ⟨i, hi, rfl⟩ := row x hx
    obtain ⟨j, hj, rfl⟩ := row y hy
    exact hf i j hi hj
  have hF : NoFaultsOn (callableEnv (P := P) realOps) ⟨func, params, name.getD (funcName.getD "")⟩ ⟨A, none⟩ := by
    intro t x y hx hy
    show (match func x y params with | .ok _ => false | .error _ => true) = _
    rw [hcall x y hx hy]
  have hκ : RealOn ((callableEnv (P := P) realOps).kval ⟨func, params, name.getD (funcName.getD "")⟩) κ ⟨A, none⟩ := by
    intro x y hx hy
    show (match func x y params with | .ok v => v | .error _ => .nan) = _
    rw [hcall x y hx hy]
  rw [C08_full_is_gram hF (quiet_of_real rfl hκ) h]
  congr 2
  show Mat.mk _ _ _ = Mat.mk _ _ _
  congr 1
  funext i j
  have hi : (i : Nat) < A.nrows := i.2
  have hj : (j : Nat) < A.nrows := j.2
  show (callableEnv (P := P) realOps).kval _ (A.row (min (i : Nat) j)) (A.row (max (i : Nat) j)) =
    F.real (if (i : Nat) ≤ j then κ (A.row i) (A.row j) else κ (A.row j) (A.row i))
  rw [hκ _ _ (Or.inl ⟨_, by show _ < A.nrows; omega, rfl⟩) (Or.inl ⟨_, by show _ < A.nrows; omega, rfl⟩)]
  show F.real (κ (A.row (min (i : Nat) j)) (A.row (max (i : Nat) j))) = _
  by_cases hij : (i : Nat) ≤ j
  · rw [if_pos hij, Nat.min_eq_left hij, Nat.max_eq_right hij]
  · rw [if_neg hij, Nat.min_eq_right (by omega), Nat.max_eq_left (by omega)]

/-- **C61** two samples: entry `(i, j)` is `func(x_i, y_j, **params)`. -/
theorem C61_two_samples {A B : Arr2 X} {κ : X → X → ℝ} (hf : ∀ x y, Attachment.IsRow ⟨A, some B⟩ x → Attachment.IsRow ⟨A, some B⟩ y → func x y params = .ok (.real (κ x y)))
    {s : KMState (CallableKernel X P) X F} (h : SinceDense (callableEnv realOps) k false ⟨A, some B⟩ s) :
    (exec (callableEnv realOps) .full s).1 = .ok (.mat .dense ⟨A.nrows, B.nrows, fun i j => .real (κ (A.row i) (B.row j))⟩) := by
  obtain ⟨-, rfl⟩ := (C61_construct _ _ _ _ _ _).1 hk
  have hF : NoFaultsOn (callableEnv (P := P) realOps) ⟨func, params, name.getD (funcName.getD "")⟩ ⟨A, some B⟩ := by
    intro t x y hx hy
    show (match func x y params with | .ok _ => false | .error _ => true) = _
    rw [hf x y hx hy]
  have hκ : RealOn ((callableEnv (P := P) realOps).kval ⟨func, params, name.getD (funcName.getD "")⟩) κ ⟨A, some B⟩ := by
    intro x y hx hy
    show (match func x y params with | .ok v => v | .error _ => .nan) = _
    rw [hf x y hx hy]
  rw [C08_full_is_gram hF (quiet_of_real rfl hκ) h]
  congr 2
  show Mat.mk _ _ _ = Mat.mk _ _ _
  congr 1
  funext i j
  exact hκ _ _ (Or.inl ⟨_, i.2, rfl⟩) (Or.inr ⟨B, _, rfl, j.2, rfl⟩)

/-- **C61** If the function raises on some pair `(x_i, x_j)`, `i ≤ j`, then `full`, `normed_km`, `centered` and `frob_norm` raise, always: after
every history without sparse storage, normalised or not. -/
theorem C61_raising {A : Arr2 X} {i j : Nat} (hij : i ≤ j) (hj : j < A.nrows) {e : PyErr} (hf : func (A.row i) (A.row j) params = .error e)
    {norm : Bool} {s : KMState (CallableKernel X P) X F} (h : SinceDense (callableEnv realOps) k norm ⟨A, none⟩ s) {op : KMOp X}
    (hop : op = .full ∨ op = .normedKm ∨ op = .centered ∨ op = .frobNorm) : ∃ e, (exec (callableEnv realOps) op s).1 = .error e := by
  obtain ⟨-, rfl⟩ := (C61_construct _ _ _ _ _ _).1 hk
  refine C11_custom_always_raises_partial rfl realOps_findsNan hij hj (fun t => ?_) h hop
  show (match func (A.row i) (A.row j) params with | .ok _ => false | .error _ => true) = _
  rw [hf]

end

namespace Demo
/-- a function with a keyword argument, not symmetric: `f(x, y, c) = c * x * x * y` -/
noncomputable def asym (x y : ℝ) (ps : List (String × ℝ)) : Except PyErr F := .ok (.real ((ps.map (·.2)).prod * (x * x * y)))
noncomputable def asymKernel : CallableKernel ℝ ℝ := ⟨asym, [("c", 2)], "f"⟩
theorem mk_asym : mkCallableKernel (.callable 3) asym (some "f") none [("c", 2)] = .ok asymKernel :=
  (C61_construct _ _ _ _ _ _).2 ⟨⟨3, by omega, rfl⟩, rfl⟩
noncomputable def asymSt : KMState (CallableKernel ℝ ℝ) ℝ F :=
  (exec (callableEnv realOps) (.attach (.arr [3, 1] rA.row) none) (init asymKernel false 0)).2
theorem since_asym (P : KMOp ℝ → Prop) : Since (callableEnv realOps) asymKernel false ⟨rA, none⟩ P asymSt :=
  .attached (two := none) (one := .arr [3, 1] rA.row) (.new 0) ⟨⟨0, rfl⟩, trivial⟩ rfl
/-- the same attached to two samples, 1, 2, 3 and 2, 4, 6 -/
noncomputable def rB3 : Arr2 ℝ := ⟨3, 1, fun i => 2 * ((i : ℝ) + 1)⟩
noncomputable def asymSt2 : KMState (CallableKernel ℝ ℝ) ℝ F :=
  (exec (callableEnv realOps) (.attach (.arr [3, 1] rA.row) (some (.arr [3, 1] rB3.row))) (init asymKernel false 0)).2
theorem since_asym2 (P : KMOp ℝ → Prop) : Since (callableEnv realOps) asymKernel false ⟨rA, some rB3⟩ P asymSt2 :=
  .attached (two := some (.arr [3, 1] rB3.row)) (one := .arr [3, 1] rA.row) (.new 0) ⟨⟨0, rfl⟩, ⟨0, rfl⟩, rfl⟩ rfl
/-- a function that raises on the samples 2 and 3 -/
noncomputable def raising (x y : ℝ) (_ : List (String × ℝ)) : Except PyErr F :=
  open Classical in if x = 2 ∧ y = 3 then .error .valueError else .ok (.real (x * y))
noncomputable def raisingSt (norm : Bool) : KMState (CallableKernel ℝ ℝ) ℝ F :=
  (exec (callableEnv realOps) (.attach (.arr [3, 1] rA.row) none) (init ⟨raising, [], "g"⟩ norm 0)).2
theorem since_raising (norm : Bool) (P : KMOp ℝ → Prop) :
    Since (callableEnv realOps) ⟨raising, [], "g"⟩ norm ⟨rA, none⟩ P (raisingSt norm) :=
  .attached (two := none) (one := .arr [3, 1] rA.row) (.new 0) ⟨⟨0, rfl⟩, trivial⟩ rfl
end Demo

/-- the matrix for the samples 1, 2, 3: the entry `(2, 0)` is `f(1, 3) = 6`, not `f(3, 1) = 18` -/
example : (exec (callableEnv realOps) .full Demo.asymSt).1 = .ok (.mat .dense ⟨3, 3, fun i j => .real
    (if i ≤ j then 2 * ((Demo.rA.row i) * (Demo.rA.row i) * (Demo.rA.row j)) else 2 * ((Demo.rA.row j) * (Demo.rA.row j) * (Demo.rA.row i)))⟩) :=
  C61_one_sample Demo.mk_asym (κ := fun x y => 2 * (x * x * y)) (fun i j _ _ => by simp [Demo.asym]) (Demo.since_asym _)

example : (exec (callableEnv realOps) .full Demo.asymSt2).1 =
    .ok (.mat .dense ⟨3, 3, fun i j => .real (2 * ((Demo.rA.row i) * (Demo.rA.row i) * (Demo.rB3.row j)))⟩) :=
  C61_two_samples Demo.mk_asym (κ := fun x y => 2 * (x * x * y)) (fun x y _ _ => by simp [Demo.asym]) (Demo.since_asym2 _)

/-- after a failed `full`, `centered` raises as well -/
example (norm : Bool) : ∃ e, (exec (callableEnv realOps) .centered (exec (callableEnv realOps) .full (Demo.raisingSt norm)).2).1 = .error e :=
  C61_raising (info := .callable 2) (funcName := some "g") (name := none) ((C61_construct _ _ _ _ _ _).2 ⟨⟨2, by omega, rfl⟩, rfl⟩)
    (i := 1) (j := 2) (by omega) (by decide)
    (if_pos ⟨by show ((1 : Nat) : ℝ) + 1 = 2; norm_num, by show ((2 : Nat) : ℝ) + 1 = 3; norm_num⟩)
    (.call .full (Demo.since_raising norm _) rfl id) (Or.inr (Or.inr (Or.inl rfl)))

end KMethods
