import Verif.Spec.RoundComposite
import Verif.Lemmas.Fits
import Verif.Lemmas.RoundKernels
import Verif.Lemmas.RoundOps
/-!
# Lemmas on composite kernels in floating point arithmetic
-/
namespace KMethods
open PyM KMState
variable {K X : Type} {env : Env K X F} {R : Rounding} {P : Fmt → Prop} {n m : Nat}

/-! ### matrices of finite numbers -/

theorem addStoredFl_ofReal (f g : Fmt) (A B : Matrix (Fin n) (Fin m) ℝ) :
    ∃ r, addStoredFl R (f, Mat.ofReal A) (g, Mat.ofReal B) = .ok (r, Mat.ofReal fun i j => R.fl (A i j + B i j)) ∧
      (f = .dense → g = .dense → r = .dense) := by
  obtain ⟨r, e, h⟩ := addStored_ofReal f g A B
  refine ⟨r, ?_, h⟩
  unfold addStoredFl
  rw [e]
  rfl

theorem addStoredFl_row (g : Fmt) (B : Matrix (Fin n) (Fin m) ℝ) :
    ∃ r, addStoredFl R (.dense, Mat.const 1 m 0) (g, Mat.ofReal B) = .ok (r, Mat.ofReal fun i j => R.fl (0 + B i j)) ∧ (g = .dense → r = .dense) := by
  obtain ⟨r, e, h⟩ := addStored_row g B
  refine ⟨r, ?_, h⟩
  unfold addStoredFl
  rw [e]
  simp only [zero_add]
  rfl

theorem scaleStoredFl_ofReal (w : ℝ) (f : Fmt) (A : Matrix (Fin n) (Fin m) ℝ) :
    scaleStoredFl R (.real w) (f, Mat.ofReal A) = (f, Mat.ofReal fun i j => R.fl (w * A i j)) := rfl

theorem mulStoredFl_ofReal (o : SumOrder) (A B : Matrix (Fin n) (Fin m) ℝ) :
    mulStoredFl R o (.dense, Mat.ofReal A) (.dense, Mat.ofReal B) = .ok (.dense, Mat.ofReal fun i j => R.fl (A i j * B i j)) := by
  have hz := zipBcast_ofReal (fun a b => R.round (a * b)) (fun a b => R.fl (a * b)) (fun _ _ => rfl) A B
  unfold mulStoredFl
  show (if Fmt.dense = .dense ∧ Fmt.dense = .dense then _ else _) = _
  rw [if_pos ⟨rfl, rfl⟩, hz]
  rfl

/-! ### the loops -/

namespace CompSt

/-- a loop over the members in which the stored matrix is changed entry by entry -/
theorem step_loop {ι : Type} {g : ι → Fmt × Mat F → Fmt × Mat F → Except PyErr (Fmt × Mat F)} {φ : ι → ℝ → ℝ → ℝ} {Q : Fmt → Prop} {r : ι → Nat}
    (hg : ∀ (p : ι) (f f' : Fmt) (A B : Matrix (Fin n) (Fin n) ℝ), Q f → P f' →
      ∃ f'', Q f'' ∧ g p (f, Mat.ofReal A) (f', Mat.ofReal B) = .ok (f'', Mat.ofReal fun i j => φ p (A i j) (B i j)))
    {l : List (ι × Matrix (Fin n) (Fin n) ℝ)} {s : CompSt K X} {f : Fmt} {A : Matrix (Fin n) (Fin n) ℝ} (hs : s.comp.km = some (f, Mat.ofReal A)) (hf : Q f)
    (hl : ∀ p ∈ l, s.heap.Gives env P (r p.1) (Mat.ofReal p.2)) :
    ∃ h' f', forEach (l.map Prod.fst) (fun p => step env (g p) (r p)) s =
        (.ok (), ⟨h', s.set, { s.comp with km := some (f', Mat.ofReal fun i j => l.foldl (fun x p => φ p.1 x (p.2 i j)) (A i j)) }⟩) ∧
      Heap.Keep env s.heap h' ∧ Q f' := by
  induction l generalizing s f A with
  | nil =>
    refine ⟨s.heap, f, ?_, .refl _, hf⟩
    obtain ⟨hp, st, ⟨a, b, c, d⟩⟩ := s
    obtain rfl : d = _ := hs
    rfl
  | cons x l ih =>
    obtain ⟨f', h1, hP, e1, k1⟩ := Heap.full_gives (hl x List.mem_cons_self)
    obtain ⟨f'', hQ, e2⟩ := hg x.1 f f' A x.2 hf hP
    have hstep := step_run hs e1 e2
    obtain ⟨h', r', e3, k3, q⟩ := ih (s := ⟨h1, s.set, { s.comp with km := some (f'', Mat.ofReal fun i j => φ x.1 (A i j) (x.2 i j)) }⟩) rfl hQ
      fun p hp => k1 _ _ _ (hl p (List.mem_cons_of_mem _ hp))
    refine ⟨h', r', ?_, k1.trans k3, q⟩
    show (step env _ (r x.1) >>= fun _ => forEach _ _) s = _
    rw [bind_ok hstep]
    exact e3

end CompSt

/-- the computed weighted sum -/
def Rounding.wsum (R : Rounding) (w : List ℝ) (Ks : List (Matrix (Fin n) (Fin m) ℝ)) : Matrix (Fin n) (Fin m) ℝ :=
  fun i j => (w.zip Ks).foldl (fun x p => R.fl (x + R.fl (p.1 * p.2 i j))) 0

/-- the computed sum -/
def Rounding.esum (R : Rounding) (Ks : List (Matrix (Fin n) (Fin m) ℝ)) : Matrix (Fin n) (Fin m) ℝ :=
  fun i j => Ks.foldl (fun x A => R.fl (x + A i j)) 0

/-- the computed product -/
def Rounding.eprod (R : Rounding) (Ks : List (Matrix (Fin n) (Fin m) ℝ)) : Matrix (Fin n) (Fin m) ℝ :=
  fun i j => Ks.foldl (fun x A => R.fl (x * A i j)) 1

theorem GivesAll.zip {h : Heap K X} {l : List Nat} {Ks : List (Matrix (Fin n) (Fin m) ℝ)} (hg : h.GivesAll env P l Ks) :
    ∀ p ∈ l.zip Ks, h.Gives env P p.1 (Mat.ofReal p.2) := by
  intro p hp
  exact List.forall₂_zip hg hp

theorem forEach_map {σ ι ι' : Type} (f : ι → ι') (b : ι' → PyM σ Unit) (l : List ι) : forEach (l.map f) b = forEach l fun p => b (f p) := by
  induction l with
  | nil => rfl
  | cons x l ih =>
    show (b (f x) >>= fun _ => forEach (l.map f) b) = (b (f x) >>= fun _ => forEach l _)
    rw [ih]

theorem zip_map_fst {α β : Type} {l : List α} {l' : List β} (h : l.length ≤ l'.length) : (l.zip l').map Prod.fst = l := List.map_fst_zip h

theorem foldl_zip_zip {α β γ δ : Type} (f : δ → α → γ → δ) (l : List α) (l' : List β) (l'' : List γ) (h : l'.length = l''.length) (d : δ) :
    ((l.zip l').zip l'').foldl (fun x p => f x p.1.1 p.2) d = (l.zip l'').foldl (fun x p => f x p.1 p.2) d := by
  induction l generalizing l' l'' d with
  | nil => simp
  | cons a l ih =>
    cases l' with
    | nil =>
      obtain rfl : l'' = [] := List.length_eq_zero_iff.1 h.symm
      simp
    | cons b l' =>
      cases l'' with
      | nil => cases h
      | cons c l'' =>
        simp only [List.zip_cons_cons, List.foldl_cons]
        exact ih l' l'' (Nat.succ.inj h) _

theorem mem_zip_zip {α β γ : Type} {l : List α} {l' : List β} {l'' : List γ} {p : (α × β) × γ} (h : p ∈ (l.zip l').zip l'') : (p.1.2, p.2) ∈ l'.zip l'' := by
  induction l generalizing l' l'' with
  | nil => simp at h
  | cons a l ih =>
    cases l' with
    | nil => simp at h
    | cons b l' =>
      cases l'' with
      | nil => simp at h
      | cons c l'' =>
        simp only [List.zip_cons_cons, List.mem_cons] at h ⊢
        rcases h with rfl | h
        · exact .inl rfl
        · exact .inr (ih h)

namespace CompSt

theorem weightedSumFl_run {l : List ℝ} {Ks : List (Matrix (Fin n) (Fin n) ℝ)} {s : CompSt K X}
    (hn : s.comp.numSamples = .one n) (hg : s.heap.GivesAll env P s.set.members Ks) :
    ∃ h' r, weightedSumFl env R (l.map F.real) s = (.ok (), ⟨h', s.set, { s.comp with km := some (r, Mat.ofReal (R.wsum l Ks)) }⟩) ∧
      ((∀ g, P g → g = .dense) → r = .dense) := by
  have hlen : s.set.members.length = Ks.length := List.Forall₂.length_eq hg
  obtain ⟨h', r, e, -, q⟩ := step_loop (env := env) (P := P) (Q := fun f => (∀ g, P g → g = .dense) → f = .dense)
    (g := fun (p : ℝ × Nat) acc M => addStoredFl R acc (scaleStoredFl R (.real p.1) M)) (φ := fun p x y => R.fl (x + R.fl (p.1 * y))) (r := Prod.snd)
    (fun p f f' A B hf hf' => by
      obtain ⟨r, e, h⟩ := addStoredFl_ofReal (R := R) f f' A fun i j => R.fl (p.1 * B i j)
      exact ⟨r, fun hd => h (hf hd) (hd _ hf'), e⟩)
    (l := (l.zip s.set.members).zip Ks)
    (s := ⟨s.heap, s.set, { s.comp with km := some (.dense, Mat.ofReal fun (_ _ : Fin n) => (0 : ℝ)) }⟩) rfl (fun _ => rfl)
    (fun p hp => GivesAll.zip hg _ (mem_zip_zip hp))
  refine ⟨h', r, ?_, q⟩
  unfold weightedSumFl
  rw [get_bind_run, hn]
  show forEach _ _ (⟨s.heap, s.set, { s.comp with km := some (.dense, Mat.ofReal fun (_ _ : Fin n) => (0 : ℝ)) }⟩ : CompSt K X) = _
  rw [List.zip_map_left, forEach_map]
  rw [List.map_fst_zip (by rw [List.length_zip, hlen]; exact Nat.min_le_right _ _)] at e
  have hM : (fun i j => ((l.zip s.set.members).zip Ks).foldl (fun x p => R.fl (x + R.fl (p.1.1 * p.2 i j))) 0) = R.wsum l Ks := by
    funext i j
    exact foldl_zip_zip (fun x w (A : Matrix (Fin n) (Fin n) ℝ) => R.fl (x + R.fl (w * A i j))) l s.set.members Ks hlen 0
  rw [hM] at e
  exact e

theorem esumFl_run {Ks : List (Matrix (Fin n) (Fin n) ℝ)} {s : CompSt K X} {A : Matrix (Fin n) (Fin n) ℝ} (hs : s.comp.km = some (.dense, Mat.ofReal A))
    (hg : s.heap.GivesAll env P s.set.members Ks) :
    ∃ h' r, forEach s.set.members (step env (addStoredFl R)) s =
        (.ok (), ⟨h', s.set, { s.comp with km := some (r, Mat.ofReal fun i j => Ks.foldl (fun x B => R.fl (x + B i j)) (A i j)) }⟩) ∧
      ((∀ g, P g → g = .dense) → r = .dense) := by
  have hlen : s.set.members.length = Ks.length := List.Forall₂.length_eq hg
  obtain ⟨h', r, e, -, q⟩ := step_loop (env := env) (P := P) (Q := fun f => (∀ g, P g → g = .dense) → f = .dense)
    (g := fun (_ : Nat) => addStoredFl R) (φ := fun _ x y => R.fl (x + y)) (r := id)
    (fun p f f' A B hf hf' => by
      obtain ⟨r, e, h⟩ := addStoredFl_ofReal (R := R) f f' A B
      exact ⟨r, fun hd => h (hf hd) (hd _ hf'), e⟩)
    (l := s.set.members.zip Ks) hs (fun _ => rfl) (fun p hp => GivesAll.zip hg _ hp)
  rw [List.map_fst_zip hlen.le] at e
  have hM : (fun i j => (s.set.members.zip Ks).foldl (fun x p => R.fl (x + p.2 i j)) (A i j)) = fun i j => Ks.foldl (fun x B => R.fl (x + B i j)) (A i j) := by
    funext i j
    conv_rhs => rw [← List.map_snd_zip hlen.ge, List.foldl_map]
  rw [hM] at e
  exact ⟨h', r, e, q⟩

theorem eprodFl_run (o : SumOrder) {Ks : List (Matrix (Fin n) (Fin n) ℝ)} {s : CompSt K X} {A : Matrix (Fin n) (Fin n) ℝ}
    (hs : s.comp.km = some (.dense, Mat.ofReal A)) (hg : s.heap.GivesAll env IsDense s.set.members Ks) :
    ∃ h', forEach s.set.members (step env (mulStoredFl R o)) s =
        (.ok (), ⟨h', s.set, { s.comp with km := some (.dense, Mat.ofReal fun i j => Ks.foldl (fun x B => R.fl (x * B i j)) (A i j)) }⟩) := by
  have hlen : s.set.members.length = Ks.length := List.Forall₂.length_eq hg
  obtain ⟨h', r, e, -, q⟩ := step_loop (env := env) (P := IsDense) (Q := IsDense)
    (g := fun (_ : Nat) => mulStoredFl R o) (φ := fun _ x y => R.fl (x * y)) (r := id)
    (fun p f f' A B hf hf' => by
      obtain rfl : f = .dense := hf
      obtain rfl : f' = .dense := hf'
      exact ⟨.dense, rfl, mulStoredFl_ofReal o A B⟩)
    (l := s.set.members.zip Ks) hs rfl (fun p hp => GivesAll.zip hg _ hp)
  obtain rfl : r = .dense := q
  rw [List.map_fst_zip hlen.le] at e
  have hM : (fun i j => (s.set.members.zip Ks).foldl (fun x p => R.fl (x * p.2 i j)) (A i j)) = fun i j => Ks.foldl (fun x B => R.fl (x * B i j)) (A i j) := by
    funext i j
    conv_rhs => rw [← List.map_snd_zip hlen.ge, List.foldl_map]
  rw [hM] at e
  exact ⟨h', e⟩

theorem fitFl_ok {o : SumOrder} {w : Option WeightsIn} {s s' : CompSt K X} (h : fitBodyFl env R o w s s = (.ok (), s')) :
    fitFl env R o w s = (.ok (), { s' with comp := { s'.comp with isFitted := true } }) := by
  unfold fitFl
  rw [get_bind_run, bind_ok h]
  rfl

theorem fitsFl_weighted {o : SumOrder} {s : CompSt K X} {Ks : List (Matrix (Fin n) (Fin n) ℝ)} {l : List ℝ} {w : Option WeightsIn}
    (hn : s.comp.numSamples = .one n) (hg : s.heap.GivesAll env P s.set.members Ks)
    (hb : fitBodyFl env R o w s s = weightedSumFl env R (l.map F.real) s) : s.FitsFl env R o P w (R.wsum l Ks) := by
  obtain ⟨h', r, e, d⟩ := weightedSumFl_run (R := R) (l := l) hn hg
  rw [e] at hb
  refine ⟨_, r, fitFl_ok hb, ?_, d⟩
  rw [compositeKM_run rfl rfl]

theorem fitsFl_average {o : SumOrder} {s : CompSt K X} {Ks : List (Matrix (Fin n) (Fin n) ℝ)} (hk : s.comp.kind = .average)
    (hn : s.comp.numSamples = .one n) (hne : s.set.members ≠ []) (hg : s.heap.GivesAll env P s.set.members Ks) :
    s.FitsFl env R o P none (fun i j => R.fl (R.esum Ks i j / s.set.members.length)) := by
  obtain ⟨h', r, e, d⟩ := esumFl_run (env := env) (R := R)
    (s := ⟨s.heap, s.set, { s.comp with km := some (.dense, Mat.ofReal fun (_ _ : Fin n) => (0 : ℝ)) }⟩) rfl hg
  have h0 : (s.set.members.length : ℝ) ≠ 0 := by
    exact_mod_cast fun h0 => hne (List.length_eq_zero_iff.1 h0)
  have hb : fitBodyFl env R o none s s = (.ok (), ⟨h', s.set, { s.comp with km := some (r, Mat.ofReal fun i j => R.fl (R.esum Ks i j / s.set.members.length)) }⟩) := by
    unfold fitBodyFl
    rw [hk, hn]
    show (forEach s.set.members (step env (addStoredFl R)) >>= _ : PyM (CompSt K X) Unit)
      (⟨s.heap, s.set, { s.comp with km := some (.dense, Mat.ofReal fun (_ _ : Fin n) => (0 : ℝ)) }⟩ : CompSt K X) = _
    rw [bind_ok e]
    rw [bind_ok (getAttr_run_some (fun s : CompSt K X => s.comp.km) _ _ rfl)]
    have hmap : (Mat.ofReal (R.esum Ks)).map (fun x => R.round (x / .real s.set.members.length)) = Mat.ofReal fun i j => R.fl (R.esum Ks i j / s.set.members.length) := by
      unfold Mat.map Mat.ofReal
      congr 1
      funext i j
      show R.round (F.real (R.esum Ks i j) / F.real s.set.members.length) = _
      rw [F.real_div _ _ h0]
      rfl
    show (Except.ok (), (⟨h', s.set, { s.comp with km := some (r, (Mat.ofReal (R.esum Ks)).map fun x => R.round (x / .real s.set.members.length)) }⟩ : CompSt K X)) = _
    rw [hmap]
  refine ⟨_, r, fitFl_ok hb, ?_, d⟩
  rw [compositeKM_run rfl rfl]

theorem fitsFl_product {o : SumOrder} {s : CompSt K X} {Ks : List (Matrix (Fin n) (Fin n) ℝ)} (hk : s.comp.kind = .product)
    (hn : s.comp.numSamples = .one n) (hg : s.heap.GivesAll env IsDense s.set.members Ks) : s.FitsFl env R o IsDense none (R.eprod Ks) := by
  obtain ⟨h', e⟩ := eprodFl_run (env := env) (R := R) o
    (s := ⟨s.heap, s.set, { s.comp with km := some (.dense, Mat.ofReal fun (_ _ : Fin n) => (1 : ℝ)) }⟩) rfl hg
  have hb : fitBodyFl env R o none s s = (.ok (), ⟨h', s.set, { s.comp with km := some (.dense, Mat.ofReal (R.eprod Ks)) }⟩) := by
    unfold fitBodyFl
    rw [hk, hn]
    exact e
  refine ⟨_, .dense, fitFl_ok hb, ?_, fun _ => rfl⟩
  rw [compositeKM_run rfl rfl]

end CompSt

theorem combLoopFl_run {w : List ℝ} {l : List Nat} {Ks : List (Matrix (Fin n) (Fin m) ℝ)} {h : Heap K X} {f : Fmt}
    {A : Matrix (Fin n) (Fin m) ℝ} (hg : h.GivesAll env P l Ks) :
    ∃ h' r, combLoopFl env R ((w.map F.real).zip l) (f, Mat.ofReal A) h =
        (.ok (r, Mat.ofReal fun i j => (w.zip Ks).foldl (fun x p => R.fl (x + R.fl (p.1 * p.2 i j))) (A i j)), h') ∧
      (f = .dense → (∀ g, P g → g = .dense) → r = .dense) := by
  induction l generalizing w Ks h f A with
  | nil =>
    cases hg
    refine ⟨h, f, ?_, fun h _ => h⟩
    simp [combLoopFl]
  | cons x l ih =>
    cases hg with
    | @cons _ B _ Ks hx hl =>
      cases w with
      | nil =>
        refine ⟨h, f, ?_, fun h _ => h⟩
        simp [combLoopFl]
      | cons w0 w =>
        obtain ⟨g, h1, hP, e1, k1⟩ := Heap.full_gives hx
        obtain ⟨r1, e2, d1⟩ := addStoredFl_ofReal (R := R) f g A (fun i j => R.fl (w0 * B i j))
        obtain ⟨h', r, e3, d3⟩ := ih (w := w) (Ks := Ks) (h := h1) (f := r1) (A := fun i j => R.fl (A i j + R.fl (w0 * B i j))) (GivesAll.keep k1 hl)
        refine ⟨h', r, ?_, ?_⟩
        · show (Heap.full env x >>= fun M => lift (addStoredFl R _ (scaleStoredFl R (.real w0) M)) >>= fun acc' => combLoopFl env R _ acc') h = _
          rw [bind_ok e1, scaleStoredFl_ofReal, e2]
          exact e3
        · exact fun hf hd => d3 (d1 hf (hd g hP)) hd

theorem combLoopFl_row {w : List ℝ} {l : List Nat} {Ks : List (Matrix (Fin n) (Fin m) ℝ)} {h : Heap K X}
    (hw : w ≠ []) (hl : l ≠ []) (hg : h.GivesAll env P l Ks) :
    ∃ h' r, combLoopFl env R ((w.map F.real).zip l) (.dense, Mat.const 1 m 0) h = (.ok (r, Mat.ofReal (R.wsum w Ks)), h') ∧
      ((∀ g, P g → g = .dense) → r = .dense) := by
  cases hg with
  | nil => exact absurd rfl hl
  | @cons x B l Ks hx hl' =>
    cases w with
    | nil => exact absurd rfl hw
    | cons w0 w =>
      obtain ⟨g, h1, hP, e1, k1⟩ := Heap.full_gives hx
      obtain ⟨r1, e2, d1⟩ := addStoredFl_row (R := R) g (fun i j => R.fl (w0 * B i j))
      obtain ⟨h', r, e3, d3⟩ := combLoopFl_run (R := R) (w := w) (Ks := Ks) (h := h1) (f := r1) (A := fun i j => R.fl (0 + R.fl (w0 * B i j))) (GivesAll.keep k1 hl')
      refine ⟨h', r, ?_, ?_⟩
      · show (Heap.full env x >>= fun M => lift (addStoredFl R _ (scaleStoredFl R (.real w0) M)) >>= fun acc' => combLoopFl env R _ acc') h = _
        rw [bind_ok e1, scaleStoredFl_ofReal, e2]
        exact e3
      · exact fun hd => d3 (d1 (hd g hP)) hd

theorem linearCombinationFl_run {h : Heap K X} {o : FlatOrder} {t : KSet} {Ks : List (Matrix (Fin n) (Fin m) ℝ)} {w : WeightsIn} {norm : Bool} {l : List ℝ}
    (hc : combWeightsFl R o t.members.length w norm = .ok (l.map F.real)) (hl : l.length = t.members.length)
    (hn : t.numSamples = .two n m ∨ (n = m ∧ t.numSamples = .one n ∧ t.members ≠ [])) (hg : h.GivesAll env P t.members Ks) :
    ∃ h' f, linearCombinationFl env R o t w norm h = (.ok (f, Mat.ofReal (R.wsum l Ks)), h') ∧ ((∀ g, P g → g = .dense) → f = .dense) := by
  show ∃ h' f, (lift (combWeightsFl R o t.members.length w norm) >>= fun l => lift (zerosOf t.numSamples) >>= fun Z =>
    combLoopFl env R (l.zip t.members) (.dense, Z) : PyM (Heap K X) _) h = _ ∧ _
  rw [hc]
  rcases hn with hn | ⟨rfl, hn, h0⟩
  · obtain ⟨h', r, e, d⟩ := combLoopFl_run (R := R) (w := l) (f := .dense) (A := fun (_ : Fin n) (_ : Fin m) => (0:ℝ)) hg
    refine ⟨h', r, ?_, d rfl⟩
    rw [hn]
    exact e
  · obtain ⟨h', r, e, d⟩ := combLoopFl_row (R := R) (w := l) (by
      rintro rfl
      exact h0 (List.length_eq_zero_iff.1 hl.symm)) h0 hg
    refine ⟨h', r, ?_, d⟩
    rw [hn]
    exact e

/-! ### errors -/

open Rounding SumTree

/-- a sum in the order of a loop -/
theorem foldl_add_err {ι : Type} (L : List ι) {t v : ι → ℝ} {k : Nat} {x S T : ℝ} (hx : |x - S| ≤ (R.w ^ k - 1) * T) (hS : |S| ≤ T)
    (ht : ∀ p ∈ L, |t p - v p| ≤ (R.w ^ k - 1) * |v p|) :
    |L.foldl (fun x p => R.fl (x + t p)) x - (S + (L.map v).sum)| ≤ (R.w ^ (k + L.length) - 1) * (T + (L.map fun p => |v p|).sum) := by
  induction L generalizing x S T k with
  | nil => simpa using hx
  | cons p L ih =>
    rw [List.foldl_cons, List.map_cons, List.sum_cons, List.map_cons, List.sum_cons, ← add_assoc, ← add_assoc, List.length_cons,
      show k + (L.length + 1) = k + 1 + L.length by omega]
    have hSv : |S + v p| ≤ T + |v p| := (abs_add_le _ _).trans (by linarith)
    refine ih (fl_step ?_ hSv) hSv ?_
    · rw [show x + t p - (S + v p) = (x - S) + (t p - v p) by ring, mul_add]
      exact (abs_add_le _ _).trans (add_le_add hx (ht p List.mem_cons_self))
    · intro q hq
      refine (ht q (List.mem_cons_of_mem _ hq)).trans (mul_le_mul_of_nonneg_right ?_ (abs_nonneg _))
      exact sub_le_sub_right (pow_le_pow_right₀ R.one_le_w (Nat.le_succ k)) 1

theorem Rounding.wsum_err (w : List ℝ) (Ks : List (Matrix (Fin n) (Fin m) ℝ)) (h : w.length = Ks.length) (i : Fin n) (j : Fin m) :
    |R.wsum w Ks i j - KMethods.wsum w Ks i j| ≤ (R.w ^ (Ks.length + 1) - 1) * wsumAbs w Ks i j := by
  have := foldl_add_err (R := R) (w.zip Ks) (t := fun p => R.fl (p.1 * p.2 i j)) (v := fun p => p.1 * p.2 i j) (k := 1) (x := 0) (S := 0) (T := 0)
    (by simp) (by simp) fun p _ => (rel_fl (p.1 * p.2 i j)).err
  rw [zero_add, zero_add, List.length_zip, h, min_self, add_comm 1] at this
  exact this

theorem Rounding.esum_err (Ks : List (Matrix (Fin n) (Fin m) ℝ)) (i : Fin n) (j : Fin m) :
    |R.esum Ks i j - (Ks.map fun A => A i j).sum| ≤ (R.w ^ Ks.length - 1) * (Ks.map fun A => |A i j|).sum := by
  have := foldl_add_err (R := R) Ks (t := fun A => A i j) (v := fun A => A i j) (k := 0) (x := 0) (S := 0) (T := 0)
    (by simp) (by simp) fun p _ => by simp
  rw [zero_add, zero_add, zero_add] at this
  exact this

theorem Rounding.eprod_rel (Ks : List (Matrix (Fin n) (Fin m) ℝ)) (i : Fin n) (j : Fin m) : R.Rel Ks.length (R.eprod Ks i j) (KMethods.eprod Ks i j) := by
  have : ∀ (L : List (Matrix (Fin n) (Fin m) ℝ)) (k : Nat) (x P : ℝ), R.Rel k x P →
      R.Rel (k + L.length) (L.foldl (fun x A => R.fl (x * A i j)) x) (P * (L.map fun A => A i j).prod) := by
    intro L
    induction L with
    | nil => intro k x P h; simpa using h
    | cons A L ih =>
      intro k x P h
      rw [List.foldl_cons, List.map_cons, List.prod_cons, ← mul_assoc, List.length_cons, show k + (L.length + 1) = k + 1 + L.length by omega]
      exact ih _ _ _ (by simpa using (h.mul (Rel.refl (A i j))).fl)
  have h := this Ks 0 1 1 (Rel.refl 1)
  rwa [zero_add, one_mul] at h

end KMethods
