import Verif.Lemmas.Describe
import Verif.Spec.Demo
/-!
# C70: printing
-/
namespace KMethods
variable {K X V : Type}

/-- **C70, partial (1)**: after a successful `attach_to`, whatever was called since, `str(km)` shows the name, the kernel, whether it is normalised, and the names and shapes of
the attached samples; it changes nothing. Missing: after a failed `attach_to` (there the code is wrong, `C70_violated_stale`, `C70_violated_raises`). -/
theorem C70_shows_the_attached_samples_partial {env : Env K X V} {kstr : K → String} {k : K} {norm : Bool} {name : String} {a : Attachment X} {n1 : String} {n2 : Option String}
    {s : Labelled K X V} (h : Labelled.Since env kstr k norm name a n1 n2 s) :
    Labelled.exec env kstr .str s =
      (.ok (.str s!"{name}: {kstr k} (normed={if norm then "True" else "False"}) on {a.describe n1 n2}"), s) := by
  obtain ⟨h1, h2, h3⟩ := h.spec
  show (Labelled.str kstr >>= fun t => pure (KMOut.str t)) s = _
  unfold Labelled.str
  rw [PyM.bind_run, PyM.get_bind_run, h1.attachedTo.sample]
  simp only
  have : (PyM.getAttr (fun s : Labelled K X V => s.descr)) s = (.ok (a.describe n1 n2), s) := by rw [PyM.getAttr_run, h3]
  rw [PyM.bind_ok this, h1.kernel, h1.keepNormed, h2]
  show (Except.ok (KMOut.str _), s) = _
  congr 3
  simp [← String.toList_inj, ToString.toString]

/-- after `attach_to(A, 'train')`, `full` and a failed access -/
example : (Labelled.trace Demo.env (fun _ => "linear") [.attach Demo.argA "train" none none, .call .full, .call (.getItem (.pair (.int 7) (.int 0))), .str] (Labelled.init () true "KM" 0)).map (fun r => (match r with | .ok (.str t) => t | _ => "", Demo.entries r)) =
    [("", none), ("", some (.dense, [[11, 12, 13], [12, 22, 23], [13, 23, 33]])), ("", none), ("KM: linear (normed=True) on train (3, 1)", none)] ∧
    Labelled.Since Demo.env (fun _ => "linear") () true "KM" Demo.one "train" none
      (Labelled.exec Demo.env (fun _ => "linear") (.attach Demo.argA "train" none none) (Labelled.init () true "KM" 0)).2 :=
  ⟨by decide +kernel, .attached "train" none (.new 0) Demo.attaches_one rfl⟩

/-- **C70** Before the first `attach_to` only the name and the kernel are shown. -/
theorem C70_new_object_partial {env : Env K X V} {kstr : K → String} {k : K} {norm : Bool} {name : String} (t : Nat) (l : List (LOp X)) (hl : ∀ op ∈ l, op.isAttach = false) :
    (Labelled.exec env kstr .str (Labelled.run env kstr l (Labelled.init k norm name t))).1 = .ok (.str s!"{name}: {kstr k}") := by
  have key : ∀ (l : List (LOp X)) (s : Labelled K X V), (∀ op ∈ l, op.isAttach = false) → Labelled.Reachable env kstr k norm name s → s.km.sample = none →
      Labelled.Reachable env kstr k norm name (Labelled.run env kstr l s) ∧ (Labelled.run env kstr l s).km.sample = none := by
    intro l
    induction l with
    | nil => exact fun s _ h h' => ⟨h, h'⟩
    | cons op l ih =>
      intro s hl h h'
      refine ih _ (fun o ho => hl o (List.mem_cons_of_mem _ ho)) (h.call op) ?_
      have ha := hl op List.mem_cons_self
      show (Labelled.exec env kstr op s).2.km.sample = none
      rcases ho : op.toKM with _ | op'
      · rw [Labelled.exec_print (by cases op <;> simp [LOp.toKM] at ho <;> rfl)]
        exact h'
      · have ha' : op'.isAttach = false := by
          cases op <;> simp [LOp.toKM] at ho
          · simp [LOp.isAttach] at ha
          · subst ho; exact ha
        rw [(Labelled.exec_km (env := env) (kstr := kstr) (s := s) ho).2.1]
        by_cases hs : op'.isSetAttr = true
        · cases op' <;> simp [KMOp.isSetAttr] at hs
          exact h'
        · exact (KMState.exec_ext env op' s.km h.km.1.wf.square ha' (by simpa using hs)).sample.trans h'
  obtain ⟨h1, h2⟩ := key l _ hl (.new t) rfl
  show ((Labelled.str kstr >>= fun t => pure (KMOut.str t)) _).1 = _
  unfold Labelled.str
  rw [PyM.bind_run, PyM.get_bind_run, h2]
  show Except.ok (KMOut.str _) = _
  rw [h1.km.1.kernel.1, h1.km.2]
  congr 2

/-- after a failing `full` on an object that was never attached -/
example : ∀ op ∈ [LOp.call (.full : KMOp Int), .format, .call (.setAttr "a" "b")], op.isAttach = false := by decide

/-- **C70** The names have no effect on anything but printing, and printing has no effect on anything: leaving out the names and the printing, all results are those of the
object without names. (So all other properties of `KernelMatrix` hold for it.) -/
theorem C70_printing_is_transparent (env : Env K X V) (kstr : K → String) (l : List (LOp X)) (s : Labelled K X V) :
    Labelled.traceCalls env kstr l s = KMState.trace env (LOp.calls l) s.km := by
  induction l generalizing s with
  | nil => rfl
  | cons op l ih =>
    unfold Labelled.traceCalls
    rw [ih]
    cases op with
    | attach one n1 two n2 =>
      obtain ⟨h1, h2, _⟩ := Labelled.exec_km (env := env) (kstr := kstr) (s := s) (op := .attach one n1 two n2) rfl
      rw [h1, h2]; rfl
    | call op =>
      obtain ⟨h1, h2, _⟩ := Labelled.exec_km (env := env) (kstr := kstr) (s := s) (op := .call op) rfl
      rw [h1, h2]; rfl
    | str => rw [Labelled.exec_print rfl]; rfl
    | format => rw [Labelled.exec_print rfl]; rfl

/-- **C70** From the text the shapes can be read off: samples attached under the same names that print alike are one or two, and of the same shapes. -/
theorem C70_text_determines_shapes {X : Type} (a b : Attachment X) (n1 : String) (n2 : Option String) (h : a.describe n1 n2 = b.describe n1 n2) :
    a.two.isSome = b.two.isSome ∧ a.nrows = b.nrows ∧ a.ncols = b.ncols ∧ a.one.ncols = b.one.ncols := by
  obtain ⟨⟨n, m, r⟩, p⟩ := a
  obtain ⟨⟨n', m', r'⟩, p'⟩ := b
  rw [← String.toList_inj] at h
  have dc := not_mem_toDigits (c := ',') (by decide)
  have dp := not_mem_toDigits (c := ')') (by decide)
  rcases p with _ | ⟨q, c, x⟩ <;> rcases p' with _ | ⟨q', c', x'⟩ <;>
    simp [Attachment.describe, ToString.toString, Attachment.nrows, Attachment.ncols] at h ⊢
  all_goals
    obtain ⟨e1, h⟩ := split_at (dc _) (dc _) h
    simp only [List.cons.injEq, true_and] at h
    obtain ⟨e2, h⟩ := split_at (dp _) (dp _) h
    simp at h
  · exact ⟨toDigits_inj e1, toDigits_inj e2⟩
  · obtain ⟨e3, h⟩ := split_at (dc _) (dc _) h
    exact ⟨toDigits_inj e1, toDigits_inj e3, toDigits_inj e2⟩

/-- the two attachments of the examples print differently -/
example : (Demo.one).describe "a" none ≠ (Demo.two).describe "a" none := by decide +kernel

/-- **C70 is violated (1)**: after a failed `attach_to` of other samples `str(km)` still shows the sample attached before, while `km[0, 1]` is a kernel value of the rejected sample. -/
theorem C70_violated_stale :
    (Labelled.trace Demo.env (fun _ => "linear") [.attach Demo.argA "train" none none, .attach (.arr [2, 1] fun i => i + 50) "other" (some (.arr [2, 2] fun i => i + 50)) none, .str,
      .call (.getItem (.pair (.int 0) (.int 1)))] (Labelled.init () true "KM" 0)).map (fun r => (match r with | .ok (.str t) => t | _ => "", Demo.entries r)) =
    [("", none), ("", none), ("KM: linear (normed=True) on train (3, 1)", none), ("", some (.dense, [[551]]))] := by
  decide +kernel

/-- **C70 is violated (2)**: if the very first `attach_to` fails at its second sample, `str(km)` raises `AttributeError`. -/
theorem C70_violated_raises :
    (Labelled.exec Demo.env (fun _ => "linear") .str
      (Labelled.exec Demo.env (fun _ => "linear") (.attach Demo.argA "train" (some (.arr [2, 2] fun i => i)) none) (Labelled.init () true "KM" 0)).2).1.isOk = false := by
  decide +kernel

/-- **C70 is violated (3)**: `'{}'.format(km)` always raises `TypeError`. -/
theorem C70_violated_format (env : Env K X V) (kstr : K → String) (s : Labelled K X V) : Labelled.exec env kstr .format s = (.error .typeError, s) := rfl

/-- **C70** Numeric kernels that print alike are equal, if numbers that print alike are equal (as is the case for floating-point numbers) and their text has no comma. -/
theorem C70_kernels_print_differently {S : Set ℝ} {rep : ℝ → String} {repInt : ℤ → String} (h1 : Set.InjOn rep S) (h2 : Function.Injective repInt)
    (h3 : ∀ x ∈ S, ',' ∉ (rep x).toList) (h4 : ∀ x, ',' ∉ (repInt x).toList)
    {k k' : NumKernel} (hk : k.FromConstructor) (hk' : k'.FromConstructor) (hS : k.ParamsIn S) (hS' : k'.ParamsIn S) (h : k.str rep repInt = k'.str rep repInt) : k = k' := by
  rw [← String.toList_inj] at h
  have r1 : ∀ {x y}, x ∈ S → y ∈ S → (rep x).toList = (rep y).toList → x = y := fun hx hy e => h1 hx hy (String.toList_inj.1 e)
  have r2 : ∀ {x y}, (repInt x).toList = (repInt y).toList → x = y := fun e => h2 (String.toList_inj.1 e)
  cases k <;> cases k' <;> simp [NumKernel.str] at h
  · rw [r1 hS hS' h]
  · obtain ⟨e1, h⟩ := split_at (h4 _) (h4 _) h
    simp at h
    obtain ⟨e2, h⟩ := split_at (h3 _ hS.1) (h3 _ hS'.1) h
    simp at h
    rw [r2 e1, r1 hS.1 hS'.1 e2, r1 hS.2 hS'.2 h]
  · obtain ⟨t, ht⟩ := hk
    obtain ⟨t', ht'⟩ := hk'
    have := r1 hS hS' h
    rw [mkGaussian] at ht ht'
    injection ht with e1 e2
    injection ht' with e3 e4
    rw [e2, e4, ← e1, ← e3, this]
  · rw [r1 hS hS' h]
  · rw [r1 hS hS' h]
  · obtain ⟨e1, h⟩ := split_at (h3 _ hS.1) (h3 _ hS'.1) h
    simp at h
    rw [r1 hS.1 hS'.1 e1, r1 hS.2 hS'.2 h]
  · rfl

/-- with natural numbers as parameters, printed in decimal notation, and a unary notation for the degree -/
example : ∃ (rep : ℝ → String) (repInt : ℤ → String), Set.InjOn rep (Set.range ((↑) : ℕ → ℝ)) ∧ Function.Injective repInt ∧
    (∀ x ∈ Set.range ((↑) : ℕ → ℝ), ',' ∉ (rep x).toList) ∧ (∀ x, ',' ∉ (repInt x).toList) ∧
    (NumKernel.sigmoid 2 3).ParamsIn (Set.range ((↑) : ℕ → ℝ)) := by
  refine ⟨fun x => toString ⌊x⌋₊, fun d => (if d < 0 then "-" else "+") ++ toString d.natAbs, ?_, ?_, ?_, ?_, ⟨2, by norm_num⟩, ⟨3, by norm_num⟩⟩
  · rintro _ ⟨n, rfl⟩ _ ⟨m, rfl⟩ h
    have := congrArg String.toList h
    simp [ToString.toString] at this
    rw [toDigits_inj this]
  · intro a b h
    have := congrArg String.toList h
    by_cases h1 : a < 0 <;> by_cases h2 : b < 0 <;> simp [h1, h2, ToString.toString] at this
    · have := toDigits_inj this; omega
    · have := toDigits_inj this; omega
  · rintro _ ⟨n, rfl⟩
    simpa [ToString.toString] using not_mem_toDigits (c := ',') (by decide) n
  · intro d
    have := not_mem_toDigits (c := ',') (by decide) d.natAbs
    by_cases h1 : d < 0 <;> simpa [h1, ToString.toString] using this

/-- **C70** `str` of a set or of a composite kernel raises exactly if `str` of a member does: otherwise it has the texts of all members in order. -/
theorem C70_set_text (name name' : String) (num : NumSamples) (l : List (Except PyErr String)) :
    ((∃ e, .error e ∈ l) → ∃ e, .error e ∈ l ∧ setStr name num l = .error e ∧ compositeStr name' (setStr name num l) = .error e) ∧
    ∀ ts : List String, l = ts.map .ok → setStr name num l =
      .ok s!"{name}({ts.length} kernels, {num.str} samples):\n\t{"\n\t".intercalate ts} " := by
  have key : ∀ l : List (Except PyErr String), (∃ e, .error e ∈ l) → ∃ e, .error e ∈ l ∧ l.mapM id = .error e := by
    intro l
    induction l with
    | nil => simp
    | cons x l ih =>
      rintro ⟨e, he⟩
      rcases x with e' | t
      · exact ⟨e', List.mem_cons_self, by simp [List.mapM_cons]; rfl⟩
      · obtain ⟨e', h1, h2⟩ := ih ⟨e, by simpa using he⟩
        refine ⟨e', List.mem_cons_of_mem _ h1, ?_⟩
        rw [List.mapM_cons, h2]
        rfl
  constructor
  · intro h
    obtain ⟨e, h1, h2⟩ := key l h
    have : setStr name num l = .error e := by unfold setStr; rw [h2]; rfl
    exact ⟨e, h1, this, by rw [this]; rfl⟩
  · rintro ts rfl
    have : (ts.map Except.ok : List (Except PyErr String)).mapM id = .ok ts := by
      induction ts with
      | nil => rfl
      | cons t ts ih => rw [List.map_cons, List.mapM_cons, ih]; rfl
    unfold setStr
    rw [this]
    show Except.ok _ = _
    simp [ToString.toString]

example : setStr "KernelSet" (.one 3) [.ok "a", .ok "b"] = .ok "KernelSet(2 kernels, 3 samples):\n\ta\n\tb " := by
  refine ((C70_set_text "KernelSet" "" (.one 3) _).2 ["a", "b"] rfl).trans (congrArg Except.ok ?_)
  decide +kernel

/-- **C70** The texts of precomputed and constant matrices of the same name determine their sizes (and the text of the constant, if it has no comma). -/
theorem C70_text_determines_sizes (name : String) :
    (∀ n n', precomputedStr name n = precomputedStr name n' → n = n') ∧
    ∀ v v' n n', ',' ∉ v.toList → ',' ∉ v'.toList → constantStr name v n = constantStr name v' n' → v = v' ∧ n = n' := by
  have dp := not_mem_toDigits (c := ')') (by decide)
  constructor
  · intro n n' h
    rw [← String.toList_inj] at h
    simp [precomputedStr, ToString.toString] at h
    exact toDigits_inj h
  · intro v v' n n' hv hv' h
    rw [← String.toList_inj] at h
    simp [constantStr, ToString.toString] at h
    obtain ⟨e, h⟩ := split_at hv hv' h
    simp at h
    exact ⟨String.toList_inj.1 e, toDigits_inj h⟩

/-- `Const(value=2,size=5)` and `Const(value=2,size=50)` -/
example : constantStr "Const" "2" 5 = "Const(value=2,size=5)" ∧ constantStr "Const" "2" 5 ≠ constantStr "Const" "2" 50 ∧ ',' ∉ "2".toList := by decide +kernel

/-- **C70** The number of samples shown for a set tells a new set, one sample and two samples, and their sizes, apart. -/
theorem C70_sample_numbers_print_differently : Function.Injective NumSamples.str := by
  have dN := not_mem_toDigits (c := 'N') (by decide)
  have dp := not_mem_toDigits (c := '(') (by decide)
  have dc := not_mem_toDigits (c := ',') (by decide)
  have key : ∀ (c : Char) (l : List Char) (n : Nat), c ∉ Nat.toDigits 10 n → c :: l ≠ Nat.toDigits 10 n := fun c l n h e => h (e ▸ List.mem_cons_self)
  intro a b h
  rw [← String.toList_inj] at h
  cases a <;> cases b <;> simp [NumSamples.str, tupleStr, ToString.toString] at h
  · rfl
  · exact absurd h (key _ _ _ (dN _))
  · exact absurd h.symm (key _ _ _ (dN _))
  · rw [toDigits_inj h]
  · exact absurd h.symm (key _ _ _ (dp _))
  · exact absurd h (key _ _ _ (dp _))
  · obtain ⟨e1, h⟩ := split_at (dc _) (dc _) h
    simp at h
    rw [toDigits_inj e1, toDigits_inj h]

/-- **C70** The text of a composite kernel has that of its set, and so its members'; that of a set of the same name determines the number of members and the sample numbers. -/
theorem C70_composite_text (name : String) :
    (∀ t t', compositeStr name (.ok t) = compositeStr name (.ok t') → t = t') ∧
    (∀ t, ∃ u, compositeStr name (.ok t) = .ok u ∧ t.toList <:+ u.toList) ∧
    ∀ num num' (ts ts' : List String), setStr name num (ts.map .ok) = setStr name num' (ts'.map .ok) → ts.length = ts'.length ∧ num = num' := by
  refine ⟨fun t t' h => ?_, fun t => ⟨_, rfl, ?_⟩, fun num num' ts ts' h => ?_⟩
  · have h := Except.ok.inj h
    rw [← String.toList_inj] at h
    simpa [String.toList_inj] using h
  · rw [String.toList_append]
    exact List.suffix_append _ _
  · rw [(C70_set_text name "" num _).2 ts rfl, (C70_set_text name "" num' _).2 ts' rfl] at h
    have h := Except.ok.inj h
    rw [← String.toList_inj] at h
    have dc := not_mem_toDigits (c := ' ') (by decide)
    have ds : ∀ num : NumSamples, 's' ∉ num.str.toList := fun num => by
      have := not_mem_toDigits (c := 's') (by decide)
      cases num <;> simp [NumSamples.str, tupleStr, ToString.toString, this]
    simp [ToString.toString] at h
    obtain ⟨e1, h⟩ := split_at (dc _) (dc _) h
    simp at h
    rw [List.append_cons, List.append_cons num'.str.toList] at h
    have e2 := split_at (by simp [ds]) (by simp [ds]) h
    exact ⟨toDigits_inj e1, C70_sample_numbers_print_differently (String.toList_inj.1 (List.append_cancel_right e2.1))⟩

example : NumSamples.str .unset = "None" ∧ NumSamples.str (.two 3 2) = "(3, 2)" ∧
    setStr "KernelSet" (.one 3) [.ok "a", .ok "b"] ≠ setStr "KernelSet" .unset [.ok "a", .ok "b"] := by
  refine ⟨by decide +kernel, by decide +kernel, fun h => ?_⟩
  exact absurd ((C70_composite_text "KernelSet").2.2 (.one 3) .unset ["a", "b"] ["a", "b"] h).2 (by simp)

end KMethods
