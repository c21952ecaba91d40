import Verif.Lemmas.Gives
import Verif.Lemmas.PSD
/-!
# `fit` of the composite kernels, `linear_combination`
-/
namespace KMethods
open PyM
variable {K X : Type} {env : Env K X F} {P : Fmt → Prop}

theorem linearCombination_run {n m : Nat} {h : Heap K X} {t : KSet} {Ks : List (Matrix (Fin n) (Fin m) ℝ)} {w : WeightsIn} {norm : Bool} {l : List ℝ}
    (hc : combWeights t.members.length w norm = .ok (l.map F.real)) (hl : l.length = t.members.length)
    (hn : t.numSamples = .two n m ∨ (n = m ∧ t.numSamples = .one n ∧ t.members ≠ [])) (hg : h.GivesAll env P t.members Ks) :
    ∃ h' f, linearCombination env t w norm h = (.ok (f, Mat.ofReal (wsum l Ks)), h') ∧ ((∀ g, P g → g = .dense) → f = .dense) := by
  show ∃ h' f, (lift (combWeights t.members.length w norm) >>= fun l => lift (zerosOf t.numSamples) >>= fun Z =>
    combLoop env (l.zip t.members) (.dense, Z) : PyM (Heap K X) _) h = _ ∧ _
  rw [hc]
  rcases hn with hn | ⟨rfl, hn, h0⟩
  · obtain ⟨h', r, e, d⟩ := combLoop_run (w := l) (f := .dense) (A := fun (_ : Fin n) (_ : Fin m) => (0:ℝ)) hg
    refine ⟨h', r, ?_, d rfl⟩
    rw [hn]
    refine Eq.trans e ?_
    simp only [zero_add]
  · obtain ⟨h', r, e, d⟩ := combLoop_row (w := l) (by
      rintro rfl
      exact h0 (List.length_eq_zero_iff.1 hl.symm)) h0 hg
    refine ⟨h', r, ?_, d⟩
    rw [hn]
    exact e

theorem isPSD_list_sum {n : Nat} (L : List (Matrix (Fin n) (Fin n) ℝ)) (h : ∀ A ∈ L, IsPSD A) : IsPSD fun i j => (L.map fun A => A i j).sum := by
  induction L with
  | nil => exact isPSD_zero
  | cons A L ih =>
    simp only [List.map_cons, List.sum_cons]
    exact (h A List.mem_cons_self).add (ih fun B hB => h B (List.mem_cons_of_mem _ hB))

theorem isPSD_wsum {n : Nat} {l : List ℝ} {Ks : List (Matrix (Fin n) (Fin n) ℝ)} (hl : ∀ x ∈ l, 0 ≤ x) (hK : ∀ A ∈ Ks, IsPSD A) :
    IsPSD (wsum l Ks) := by
  have := isPSD_list_sum ((l.zip Ks).map fun p => (fun i j => p.1 * p.2 i j : Matrix (Fin n) (Fin n) ℝ)) (by
    intro A hA
    obtain ⟨p, hp, rfl⟩ := List.mem_map.1 hA
    exact (hK _ (List.of_mem_zip hp).2).smul (hl _ (List.of_mem_zip hp).1))
  have e : wsum l Ks = fun i j => (((l.zip Ks).map fun p => (fun i j => p.1 * p.2 i j : Matrix (Fin n) (Fin n) ℝ)).map fun A => A i j).sum := by
    funext i j
    rw [List.map_map]
    rfl
  rw [e]; exact this

theorem isPSD_eprod {n : Nat} {Ks : List (Matrix (Fin n) (Fin n) ℝ)} (hK : ∀ A ∈ Ks, IsPSD A) : IsPSD (eprod Ks) := by
  induction Ks with
  | nil => exact isPSD_const zero_le_one
  | cons A L ih =>
    have := (hK A List.mem_cons_self).hadamard (ih fun B hB => hK B (List.mem_cons_of_mem _ hB))
    exact this

theorem isPSD_emean {n : Nat} {Ks : List (Matrix (Fin n) (Fin n) ℝ)} (hK : ∀ A ∈ Ks, IsPSD A) : IsPSD (emean Ks) := by
  have := (isPSD_list_sum Ks hK).smul (c := (Ks.length : ℝ)⁻¹) (by positivity)
  have e : emean Ks = fun i j => (Ks.length : ℝ)⁻¹ * (Ks.map fun A => A i j).sum := by
    funext i j; unfold emean; rw [div_eq_inv_mul]
  rw [e]; exact this

theorem wsum_replicate {n m : Nat} (c : ℝ) (Ks : List (Matrix (Fin n) (Fin m) ℝ)) :
    wsum (List.replicate Ks.length c) Ks = fun i j => c * (Ks.map fun A => A i j).sum := by
  funext i j
  unfold wsum
  induction Ks with
  | nil => simp
  | cons A L ih => simp only [List.length_cons, List.replicate_succ, List.zip_cons_cons, List.map_cons, List.sum_cons, ih, mul_add]

open CompSt

theorem fits_weighted {n : Nat} {s : CompSt K X} {Ks : List (Matrix (Fin n) (Fin n) ℝ)} {l : List ℝ} {w : Option WeightsIn}
    (hn : s.comp.numSamples = .one n) (hg : s.heap.GivesAll env P s.set.members Ks)
    (hb : fitBody env w s s = weightedSum env (l.map F.real) s) : s.Fits env P w (wsum l Ks) := by
  obtain ⟨h', r, e, -, d⟩ := weightedSum_run (w := l) hn hg
  rw [e] at hb
  refine ⟨_, r, fit_ok hb, ?_, d⟩
  rw [compositeKM_run rfl rfl]

theorem fits_average {n : Nat} {s : CompSt K X} {Ks : List (Matrix (Fin n) (Fin n) ℝ)} (hk : s.comp.kind = .average)
    (hn : s.comp.numSamples = .one n) (hne : s.set.members ≠ []) (hg : s.heap.GivesAll env P s.set.members Ks) : s.Fits env P none (emean Ks) := by
  have hlen : Ks.length = s.set.members.length := (List.Forall₂.length_eq hg).symm
  obtain ⟨h', r, e, -, d⟩ := weightedSum_run (env := env) (w := List.replicate s.set.members.length 1) hn hg
  have hb : fitBody env none s s = (.ok (), ⟨h', s.set, { s.comp with km := some (r, Mat.ofReal (emean Ks)) }⟩) := by
    unfold fitBody
    rw [hk]
    have hZ : ∀ f : Unit → PyM (CompSt K X) Unit, (lift (squareOf 0 s.comp.numSamples) >>= fun Z => setKM (.dense, Z) >>= fun _ =>
        forEach s.set.members (step env addStored) >>= f : PyM (CompSt K X) Unit) s = (weightedSum env ((List.replicate s.set.members.length 1).map F.real) >>= f) s := by
      intro f
      rw [weightedSum, bind_assoc_run, get_bind_run, bind_assoc_run]
      show _ = (lift (squareOf 0 s.comp.numSamples) >>= fun Z => (setKM (.dense, Z) >>= _) >>= f : PyM (CompSt K X) Unit) s
      rw [hn]
      show (forEach s.set.members (step env addStored) >>= f) _ = (forEach _ _ >>= f) _
      rw [bind_run, bind_run, plain_loop]
    refine (hZ _).trans ?_
    rw [bind_ok e]
    show (PyM.getAttr (fun s : CompSt K X => s.comp.km) >>= fun acc => setKM (acc.1, acc.2.map (· / .real s.set.members.length)) : PyM (CompSt K X) Unit) _ = _
    rw [bind_ok (getAttr_run_some (fun s : CompSt K X => s.comp.km) _ _ rfl)]
    have hmap : (Mat.ofReal (wsum (List.replicate s.set.members.length 1) Ks)).map (· / .real s.set.members.length) = Mat.ofReal (emean Ks) := by
      rw [← hlen, wsum_replicate]
      unfold Mat.map Mat.ofReal emean
      congr 1
      funext i j
      have h0 : (Ks.length : ℝ) ≠ 0 := by
        rw [hlen]
        exact_mod_cast fun h0 => hne (List.length_eq_zero_iff.1 h0)
      show F.real (1 * (List.map (fun A : Matrix (Fin n) (Fin n) ℝ => A i j) Ks).sum) / F.real Ks.length = _
      rw [F.real_div _ _ h0, one_mul]
    show (Except.ok (), (_ : CompSt K X)) = _
    rw [hmap]
  refine ⟨_, r, fit_ok hb, ?_, d⟩
  rw [compositeKM_run rfl rfl]

theorem fits_product {n : Nat} {s : CompSt K X} {Ks : List (Matrix (Fin n) (Fin n) ℝ)} (hk : s.comp.kind = .product)
    (hn : s.comp.numSamples = .one n) (hg : s.heap.GivesAll env IsDense s.set.members Ks) : s.Fits env IsDense none (eprod Ks) := by
  obtain ⟨h', e, -⟩ := prod_loop (env := env) (Ks := Ks)
    (s := ⟨s.heap, s.set, { s.comp with km := some (.dense, Mat.ofReal fun (_ _ : Fin n) => (1 : ℝ)) }⟩) rfl hg
  have hb : fitBody env none s s = (.ok (), ⟨h', s.set, { s.comp with km := some (.dense, Mat.ofReal (eprod Ks)) }⟩) := by
    unfold fitBody
    rw [hk, hn]
    refine Eq.trans e ?_
    simp only [one_mul]
  refine ⟨_, .dense, fit_ok hb, ?_, fun _ => rfl⟩
  rw [compositeKM_run rfl rfl]

end KMethods

namespace KMethods
open PyM
variable {K X : Type} {env : Env K X F}
namespace CompSt

/-- the same with another class -/
def withKind (k : CompKind) (s : CompSt K X) : CompSt K X := { s with comp := { s.comp with kind := k } }

theorem step_cases (g : Fmt × Mat F → Fmt × Mat F → Except PyErr (Fmt × Mat F)) (r : Nat) (s : CompSt K X) :
    step env g r s = match s.comp.km with
      | none => (.error .attributeError, s)
      | some acc => match Heap.full env r s.heap with
        | (.error e, h') => (.error e, ⟨h', s.set, s.comp⟩)
        | (.ok M, h') => match g acc M with
          | .error e => (.error e, ⟨h', s.set, s.comp⟩)
          | .ok acc' => (.ok (), ⟨h', s.set, { s.comp with km := some acc' }⟩) := by
  have hon : ∀ s : CompSt K X, onSet (SetSt.onHeap (Heap.full env r)) s =
      ((Heap.full env r s.heap).1, ⟨(Heap.full env r s.heap).2, s.set, s.comp⟩) := fun _ => rfl
  rcases hk : s.comp.km with _ | acc
  · show (PyM.getAttr (fun s : CompSt K X => s.comp.km) >>= _) s = _
    rw [bind_run, getAttr_run, hk]
  · unfold step
    rw [bind_ok (getAttr_run_some (fun s : CompSt K X => s.comp.km) s acc hk), bind_run, hon]
    rcases Heap.full env r s.heap with ⟨e | M, h'⟩
    · rfl
    · show (lift (g acc M) >>= fun acc' => setKM acc' : PyM (CompSt K X) Unit) _ = _
      rcases hg : g acc M with e | acc' <;> simp only <;> rw [hg] <;> rfl

theorem step_withKind (k : CompKind) (g : Fmt × Mat F → Fmt × Mat F → Except PyErr (Fmt × Mat F)) (r : Nat) (s : CompSt K X) :
    step env g r (s.withKind k) = ((step env g r s).1, (step env g r s).2.withKind k) := by
  rw [step_cases, step_cases]
  show (match s.comp.km with
      | none => _
      | some acc => match Heap.full env r s.heap with
        | (.error e, h') => _
        | (.ok M, h') => _) = _
  rcases s.comp.km with _ | acc
  · rfl
  · rcases Heap.full env r s.heap with ⟨e | M, h'⟩
    · rfl
    · simp only
      rcases g acc M with e | acc' <;> rfl

theorem forEach_step_withKind {ι : Type} (k : CompKind) (g : ι → Fmt × Mat F → Fmt × Mat F → Except PyErr (Fmt × Mat F)) (r : ι → Nat) (l : List ι)
    (s : CompSt K X) :
    forEach l (fun p => step env (g p) (r p)) (s.withKind k) =
      ((forEach l (fun p => step env (g p) (r p)) s).1, (forEach l (fun p => step env (g p) (r p)) s).2.withKind k) := by
  induction l generalizing s with
  | nil => rfl
  | cons p l ih =>
    show (step env (g p) (r p) >>= fun _ => forEach l _) (s.withKind k) = (((step env (g p) (r p) >>= fun _ => forEach l _) s).1, ((step env (g p) (r p) >>= fun _ => forEach l _) s).2.withKind k)
    rw [bind_run, bind_run, step_withKind]
    rcases step env (g p) (r p) s with ⟨e | _, s'⟩
    · rfl
    · exact ih s'

theorem weightedSum_withKind (k : CompKind) (w : List F) (s : CompSt K X) :
    weightedSum env w (s.withKind k) = ((weightedSum env w s).1, (weightedSum env w s).2.withKind k) := by
  unfold weightedSum
  rw [get_bind_run, get_bind_run]
  show (lift (squareOf 0 s.comp.numSamples) >>= fun Z => setKM (.dense, Z) >>= fun _ => forEach (w.zip s.set.members) _ : PyM (CompSt K X) Unit) _ = _
  rcases hz : squareOf 0 s.comp.numSamples with e | Z
  · rfl
  · exact forEach_step_withKind k (fun (p : F × Nat) acc M => addStored acc (scaleStored p.1 M)) (fun p => p.2) (w.zip s.set.members)
      (⟨s.heap, s.set, { s.comp with km := some (.dense, Z) }⟩ : CompSt K X)

/-- `ndarray * sparse`: the matrix product -/
theorem mulStored_sparse {n : Nat} (A B : Matrix (Fin n) (Fin n) ℝ) :
    mulStored (.dense, Mat.ofReal A) (.sparse, Mat.ofReal B) = .ok (.dense, Mat.ofReal (A * B)) := by
  show (if Fmt.dense = .dense ∧ Fmt.sparse = .dense then _ else _) = _
  rw [if_neg (by simp)]
  have : Mat.dot (Mat.ofReal A) (Mat.ofReal B) = .ok (Mat.ofReal (A * B)) := by
    unfold Mat.dot
    rw [dif_pos (show (Mat.ofReal A).ncols = (Mat.ofReal B).nrows from rfl)]
    show Except.ok (Mat.mk n n _) = Except.ok (Mat.mk n n _)
    congr 2
    exact matmul_real A B
  rw [this]
  rfl

/-- `obj.full` of an object that is not changed by it -/
theorem _root_.KMethods.Heap.full_fix {h : Heap K X} {r : Nat} {s : KMState K X F} {M : Fmt × Mat F} (ho : h.objs r = some (.km s))
    (hf : KMState.full env s = (.ok M, s)) : Heap.full env r h = (.ok M, h) := by
  unfold Heap.full
  rw [ho]
  refine (Heap.call_km _ ho).trans ?_
  rw [hf]
  show (_, { h with objs := Function.update h.objs r (some (Obj.km s)) }) = _
  rw [← ho, Function.update_eq_self]

/-- `ProductKernel.fit` of two members in sparse storage -/
theorem product_two_sparse {n : Nat} {h : Heap K X} {t : KSet} {c : Comp} {a b : Nat} {A B : Matrix (Fin n) (Fin n) ℝ}
    (ha : Heap.full env a h = (.ok (.sparse, Mat.ofReal A), h)) (hb : Heap.full env b h = (.ok (.sparse, Mat.ofReal B), h))
    (ht : t.members = [a, b]) (hk : c.kind = .product) (hn : c.numSamples = .one n) :
    (compositeKM (fit env none (⟨h, t, c⟩ : CompSt K X)).2).1 = .ok (.dense, Mat.ofReal ((Matrix.of fun (_ _ : Fin n) => (1 : ℝ)) * A * B)) := by
  have : fitBody env none (⟨h, t, c⟩ : CompSt K X) ⟨h, t, c⟩ =
      (.ok (), ⟨h, t, { c with km := some (.dense, Mat.ofReal ((Matrix.of fun (_ _ : Fin n) => (1 : ℝ)) * A * B)) }⟩) := by
    obtain ⟨m, ns, i⟩ := t
    obtain rfl : m = [a, b] := ht
    obtain ⟨kd, nm, fit, km⟩ := c
    obtain rfl : kd = .product := hk
    obtain rfl : nm = .one n := hn
    show (step env mulStored a >>= fun _ => step env mulStored b >>= fun _ => pure ())
      (⟨h, ⟨[a, b], ns, i⟩, ⟨.product, .one n, fit, some (.dense, Mat.ofReal (Matrix.of fun (_ _ : Fin n) => (1 : ℝ)))⟩⟩ : CompSt K X) = _
    rw [bind_ok (step_run rfl ha (mulStored_sparse _ A)), bind_ok (step_run rfl hb (mulStored_sparse _ B))]
    rfl
  rw [fit_ok this, compositeKM_run rfl rfl]

/-! what the loops do not change -/

theorem step_frame (g : Fmt × Mat F → Fmt × Mat F → Except PyErr (Fmt × Mat F)) (r : Nat) (s : CompSt K X) :
    (step env g r s).2.set = s.set ∧ ∃ v, (step env g r s).2.comp = { s.comp with km := v } := by
  rw [step_cases]
  rcases hk : s.comp.km with _ | acc
  · exact ⟨rfl, _, rfl⟩
  · rcases Heap.full env r s.heap with ⟨e | M, h'⟩
    · exact ⟨rfl, _, rfl⟩
    · simp only
      rcases g acc M with e | acc'
      · exact ⟨rfl, _, rfl⟩
      · exact ⟨rfl, _, rfl⟩

theorem forEach_step_frame {ι : Type} (g : ι → Fmt × Mat F → Fmt × Mat F → Except PyErr (Fmt × Mat F)) (r : ι → Nat) (l : List ι) (s : CompSt K X) :
    (forEach l (fun p => step env (g p) (r p)) s).2.set = s.set ∧
      ∃ v, (forEach l (fun p => step env (g p) (r p)) s).2.comp = { s.comp with km := v } := by
  induction l generalizing s with
  | nil => exact ⟨rfl, _, rfl⟩
  | cons p l ih =>
    show ((step env (g p) (r p) >>= fun _ => forEach l _) s).2.set = _ ∧ ∃ v, ((step env (g p) (r p) >>= fun _ => forEach l _) s).2.comp = _
    rw [bind_run]
    have h1 := step_frame (env := env) (g p) (r p) s
    rcases he : step env (g p) (r p) s with ⟨e | _, s'⟩
    · rw [he] at h1; exact h1
    · rw [he] at h1
      obtain ⟨a, v, b⟩ := h1
      obtain ⟨c, v', d⟩ := ih s'
      refine ⟨c.trans a, v', d.trans ?_⟩
      have b' : s'.comp = { s.comp with km := v } := b
      rw [b']

theorem weightedSum_frame (w : List F) (s : CompSt K X) :
    (weightedSum env w s).2.set = s.set ∧ ∃ v, (weightedSum env w s).2.comp = { s.comp with km := v } := by
  unfold weightedSum
  rw [get_bind_run]
  rcases hz : squareOf 0 s.comp.numSamples with e | Z
  · exact ⟨rfl, _, rfl⟩
  · exact forEach_step_frame (fun (p : F × Nat) acc M => addStored acc (scaleStored p.1 M)) (fun p => p.2) (w.zip s.set.members)
      (⟨s.heap, s.set, { s.comp with km := some (.dense, Z) }⟩ : CompSt K X)

theorem fitBody_frame (w : Option WeightsIn) (s : CompSt K X) :
    (fitBody env w s s).2.set = s.set ∧ ∃ v, (fitBody env w s s).2.comp = { s.comp with km := v } := by
  unfold fitBody
  rcases s.comp.kind with _ | _ | _ | l
  · show ((lift (sumWeights s.set.members.length w) >>= fun l => weightedSum env l : PyM (CompSt K X) Unit) s).2.set = _ ∧ _
    rcases sumWeights s.set.members.length w with e | l
    · exact ⟨rfl, _, rfl⟩
    · exact weightedSum_frame l s
  · cases w with
    | some w => exact ⟨rfl, _, rfl⟩
    | none =>
      show ((lift (squareOf 1 s.comp.numSamples) >>= fun Z => setKM (.dense, Z) >>= fun _ => _ : PyM (CompSt K X) Unit) s).2.set = _ ∧
        ∃ v, ((lift (squareOf 1 s.comp.numSamples) >>= fun Z => setKM (.dense, Z) >>= fun _ => _ : PyM (CompSt K X) Unit) s).2.comp = _
      rcases squareOf 1 s.comp.numSamples with e | Z
      · exact ⟨rfl, _, rfl⟩
      · exact forEach_step_frame (fun (_ : Nat) => mulStored) id s.set.members
          (⟨s.heap, s.set, { s.comp with km := some (.dense, Z) }⟩ : CompSt K X)
  · cases w with
    | some w => exact ⟨rfl, _, rfl⟩
    | none =>
      show ((lift (squareOf 0 s.comp.numSamples) >>= fun Z => setKM (.dense, Z) >>= fun _ => forEach s.set.members (step env addStored) >>= fun _ => _ : PyM (CompSt K X) Unit) s).2.set = _ ∧
        ∃ v, ((lift (squareOf 0 s.comp.numSamples) >>= fun Z => setKM (.dense, Z) >>= fun _ => forEach s.set.members (step env addStored) >>= fun _ => _ : PyM (CompSt K X) Unit) s).2.comp = _
      rcases squareOf 0 s.comp.numSamples with e | Z
      · exact ⟨rfl, _, rfl⟩
      · have h1 := forEach_step_frame (env := env) (fun (_ : Nat) => addStored) id s.set.members
          (⟨s.heap, s.set, { s.comp with km := some (.dense, Z) }⟩ : CompSt K X)
        show ((forEach s.set.members (step env addStored) >>= fun _ => PyM.getAttr (fun s : CompSt K X => s.comp.km) >>= fun acc =>
            setKM (acc.1, acc.2.map (· / .real s.set.members.length))) (⟨s.heap, s.set, { s.comp with km := some (.dense, Z) }⟩ : CompSt K X)).2.set = _ ∧
          ∃ v, ((forEach s.set.members (step env addStored) >>= fun _ => PyM.getAttr (fun s : CompSt K X => s.comp.km) >>= fun acc =>
            setKM (acc.1, acc.2.map (· / .real s.set.members.length))) (⟨s.heap, s.set, { s.comp with km := some (.dense, Z) }⟩ : CompSt K X)).2.comp = _
        rw [bind_run]
        change (forEach s.set.members (step env addStored) (⟨s.heap, s.set, { s.comp with km := some (.dense, Z) }⟩ : CompSt K X)).2.set = _ ∧
          ∃ v, (forEach s.set.members (step env addStored) (⟨s.heap, s.set, { s.comp with km := some (.dense, Z) }⟩ : CompSt K X)).2.comp = _ at h1
        rcases he : forEach s.set.members (step env addStored) (⟨s.heap, s.set, { s.comp with km := some (.dense, Z) }⟩ : CompSt K X) with ⟨e | _, s'⟩
        · rw [he] at h1; exact h1
        · rw [he] at h1
          obtain ⟨a, v, b⟩ := h1
          have a' : s'.set = s.set := a
          have b' : s'.comp = { s.comp with km := v } := b
          show ((PyM.getAttr (fun s : CompSt K X => s.comp.km) >>= fun acc => setKM (acc.1, acc.2.map (· / .real s.set.members.length))) s').2.set = _ ∧
            ∃ v, ((PyM.getAttr (fun s : CompSt K X => s.comp.km) >>= fun acc => setKM (acc.1, acc.2.map (· / .real s.set.members.length))) s').2.comp = _
          rw [bind_run, getAttr_run]
          rcases hv : s'.comp.km with _ | acc
          · exact ⟨a', v, b'⟩
          · refine ⟨a', some (acc.1, acc.2.map (· / .real s.set.members.length)), ?_⟩
            show ({ s'.comp with km := some (acc.1, acc.2.map (· / .real s.set.members.length)) } : Comp) = _
            rw [b']
  · cases w with
    | some w => exact ⟨rfl, _, rfl⟩
    | none => exact weightedSum_frame l s

/-- `fit` raises exactly if its body does -/
theorem fit_run (w : Option WeightsIn) (s : CompSt K X) :
    fit env w s = match fitBody env w s s with
      | (.ok _, s') => (.ok (), { s' with comp := { s'.comp with isFitted := true } })
      | (.error e, s') => (.error e, s') := by
  rcases h : fitBody env w s s with ⟨e | _, s'⟩
  · exact fit_error h
  · exact fit_ok h

theorem compositeKM_eq (s : CompSt K X) :
    compositeKM s = (if s.comp.isFitted then (match s.comp.km with | some M => .ok M | none => .error .attributeError) else .error .valueError, s) := by
  unfold compositeKM
  rw [get_bind_run]
  rcases hf : s.comp.isFitted with _ | _
  · rfl
  · show PyM.getAttr (fun s : CompSt K X => s.comp.km) s = _
    rw [getAttr_run]
    rcases s.comp.km with _ | M <;> rfl

end CompSt
end KMethods
