import Verif.Lemmas.Missing
import Verif.Lemmas.Pipeline
/-! Kernel matrices of samples with missing values. -/
namespace KMethods
open F KMState

/-- the value of the kernel; exceptions count as NaN -/
noncomputable def NumKernel.valF (k : NumKernel) (x y : List F) : F := match k.evalF x y with
  | .ok v => v
  | .error _ => .nan

theorem Attachment.IsRow.length {a : Attachment (List F)} {d : Nat} (h1 : ∀ i, i < a.one.nrows → (a.one.row i).length = d)
    (h2 : ∀ B, a.two = some B → ∀ i, i < B.nrows → (B.row i).length = d) {x : List F} (hx : a.IsRow x) : x.length = d := by
  rcases hx with ⟨i, hi, rfl⟩ | ⟨B, i, hB, hi, rfl⟩
  · exact h1 i hi
  · exact h2 B hB i hi

theorem missing_kval (ops : Ops F) (k : NumKernel) {x y : List F} (h : x.length = y.length) : (missingEnv ops).kval k x y = k.valF x y := by
  show (match k.callF false (.vecF x) (.vecF y) with | .ok v => v | .error _ => .nan) = _
  rw [callF_vec k h]
  rfl

theorem missing_fails (ops : Ops F) (k : NumKernel) {x y : List F} (h : x.length = y.length) {v : F} (hv : k.evalF x y = .ok v) (t : Nat) :
    (missingEnv ops).fails t k x y = false := by
  show (match k.callF false (.vecF x) (.vecF y) with | .ok _ => false | .error _ => true) = false
  rw [callF_vec k h, hv]

/-- only the chi² kernel raises -/
theorem evalF_ok {k : NumKernel} {x y : List F} (h : ∀ γ, k = .chi2 γ → NonNegF x ∧ NonNegF y) : ∃ v, k.evalF x y = .ok v := by
  cases k with
  | chi2 γ =>
    obtain ⟨hx, hy⟩ := h γ rfl
    simp only [NumKernel.evalF]
    rw [if_neg (by rw [not_or]; exact ⟨(not_neg_iff _).2 hx, (not_neg_iff _).2 hy⟩)]
    exact ⟨_, rfl⟩
  | _ => exact ⟨_, rfl⟩

theorem valF_eq {k : NumKernel} {x y : List F} (h : ∀ γ, k = .chi2 γ → NonNegF x ∧ NonNegF y) : k.evalF x y = .ok (k.valF x y) := by
  obtain ⟨v, hv⟩ := evalF_ok h
  rw [NumKernel.valF, hv]

theorem missing_noFaultsOn (ops : Ops F) {k : NumKernel} {A : Arr2 (List F)} (hA : A.Rectangular)
    (h : ∀ γ, k = .chi2 γ → ∀ i, i < A.nrows → NonNegF (A.row i)) : NoFaultsOn (missingEnv ops) k ⟨A, none⟩ := by
  intro t x y hx hy
  obtain ⟨i, rfl⟩ := isRow_none hx
  obtain ⟨j, rfl⟩ := isRow_none hy
  obtain ⟨v, hv⟩ := evalF_ok (k := k) (x := A.row i) (y := A.row j) fun γ e => ⟨h γ e i i.2, h γ e j j.2⟩
  exact missing_fails ops k ((hA i i.2).trans (hA j j.2).symm) hv t

theorem missing_noFaultsOn_two (ops : Ops F) {k : NumKernel} {A B : Arr2 (List F)} (hA : A.Rectangular) (hB : B.Rectangular) (hc : A.ncols = B.ncols)
    (h : k.Propagates) : NoFaultsOn (missingEnv ops) k ⟨A, some B⟩ := by
  intro t x y hx hy
  obtain ⟨v, hv⟩ := evalF_ok (k := k) (x := x) (y := y) fun γ e => by subst e; exact h.elim
  have hl : ∀ {x}, Attachment.IsRow ⟨A, some B⟩ x → x.length = A.ncols := fun hx =>
    Attachment.IsRow.length (a := ⟨A, some B⟩) hA (fun B' e i hi => by cases e; rw [hc]; exact hB i hi) hx
  exact missing_fails ops k ((hl hx).trans (hl hy).symm) hv t

theorem missing_quiet (ops : Ops F) (k : NumKernel) (a : Attachment (List F)) : Quiet (missingEnv ops) k a := fun h => by cases h
theorem missing_quietNormed (ops : Ops F) (k : NumKernel) (a : Attachment (List F)) : QuietNormed (missingEnv ops) k a := fun h => by cases h

theorem evalF_comm (k : NumKernel) {x y : List F} : k.evalF x y = k.evalF y x := by
  have hs : ∀ {f : F → F → F}, (∀ a b, f a b = f b a) → ∀ x y, sumZipF f x y = sumZipF f y x := by
    intro f hf x
    induction x with
    | nil => intro y; cases y <;> rfl
    | cons a x ih =>
      intro y
      cases y with
      | nil => rfl
      | cons b y => rw [sumZipF_cons, sumZipF_cons, ih, hf]
  have hd : ∀ x y, dotF x y = dotF y x := hs F.mul_comm
  have hsub : ∀ a b : F, (a - b) * (a - b) = (b - a) * (b - a) := fun a b => by
    rcases a with a | _ <;> rcases b with b | _ <;> simp
    ring
  cases k with
  | hadamard α =>
    simp only [NumKernel.evalF]
    rw [hs]
    intro a b
    rcases a with a | _ <;> rcases b with b | _ <;> simp only [hadamardTermF]
    have e : hadamardTerm α a b = hadamardTerm α b a := by
      rw [hadamardTerm_eq, hadamardTerm_eq, _root_.mul_comm (|b| ^ α), _root_.add_comm (|b| ^ α)]
    simp only [or_comm, e]
  | poly => simp only [NumKernel.evalF, hd x y]
  | gaussian => simp only [NumKernel.evalF]; rw [hs hsub]
  | laplacian =>
    simp only [NumKernel.evalF]
    rw [hs]
    intro a b
    rcases a with a | _ <;> rcases b with b | _ <;> simp [F.map, abs_sub_comm]
  | chi2 γ =>
    simp only [NumKernel.evalF]
    have e : ∀ a b, chi2TermF a b = chi2TermF b a := fun a b => by
      rw [chi2TermF, chi2TermF, hsub, show a + b = b + a by rcases a with a | _ <;> rcases b with b | _ <;> simp [_root_.add_comm]]
    rw [hs (fun a b => by rw [e])]
    by_cases h : (∃ a ∈ x, F.lt a 0) ∨ ∃ a ∈ y, F.lt a 0
    · rw [if_pos h, if_pos h.symm]
    · rw [if_neg h, if_neg fun h' => h h'.symm]
  | sigmoid => simp only [NumKernel.evalF, hd x y]
  | linear => simp only [NumKernel.evalF, hd x y]

theorem valF_comm (k : NumKernel) (x y : List F) : k.valF x y = k.valF y x := by rw [NumKernel.valF, evalF_comm, NumKernel.valF]

theorem missing_entry (ops : Ops F) (k : NumKernel) {A : Arr2 (List F)} (hA : A.Rectangular) (i j : Fin A.nrows) :
    (Attachment.entry ⟨A, none⟩ ((missingEnv ops).kval k) i j) = k.valF (A.row i) (A.row j) := by
  show (missingEnv ops).kval k (A.row (min (i : Nat) j)) (A.row (max (i : Nat) j)) = _
  rcases le_total i j with h | h
  · rw [Nat.min_eq_left h, Nat.max_eq_right h, missing_kval ops k ((hA i i.2).trans (hA j j.2).symm)]
  · rw [Nat.min_eq_right h, Nat.max_eq_left h, missing_kval ops k ((hA j j.2).trans (hA i i.2).symm), valF_comm]

theorem valF_nan {k : NumKernel} (hk : k.Propagates) {x y : List F} (hl : x.length = y.length) (h : ¬ Complete x ∨ ¬ Complete y) : k.valF x y = .nan := by
  rw [NumKernel.valF, evalF_nan hk hl (h.imp not_not.1 not_not.1)]

theorem missing_gram (ops : Ops F) (k : NumKernel) {A : Arr2 (List F)} (hA : A.Rectangular) :
    Attachment.gram ⟨A, none⟩ ((missingEnv ops).kval k) = ⟨A.nrows, A.nrows, fun i j => k.valF (A.row i) (A.row j)⟩ := by
  show (⟨A.nrows, A.nrows, _⟩ : Mat F) = _
  congr 1
  funext i j
  exact missing_entry ops k hA i j

end KMethods
