import Verif.Model.Py
import Mathlib.Tactic.Common
/-! Rewriting lemmas for the Python effect monad. -/
namespace KMethods
namespace PyM
variable {σ α β ι : Type}

@[simp] theorem pure_run (a : α) (s : σ) : (pure a : PyM σ α) s = (.ok a, s) := rfl
theorem bind_run (m : PyM σ α) (f : α → PyM σ β) (s : σ) :
    (m >>= f) s = match m s with
      | (.ok a, s') => f a s'
      | (.error e, s') => (.error e, s') := rfl
@[simp] theorem get_run (s : σ) : (get : PyM σ σ) s = (.ok s, s) := rfl
@[simp] theorem modify_run (f : σ → σ) (s : σ) : (modify f : PyM σ Unit) s = (.ok (), f s) := rfl
@[simp] theorem throw_run (e : PyErr) (s : σ) : (throw e : PyM σ α) s = (.error e, s) := rfl
@[simp] theorem lift_run (r : Except PyErr α) (s : σ) : (lift r : PyM σ α) s = (r, s) := rfl
theorem catchAll_run (e : PyErr) (m : PyM σ α) (s : σ) :
    catchAll e m s = match m s with
      | (.ok a, s') => (.ok a, s')
      | (.error _, s') => (.error e, s') := rfl
theorem getAttr_run (f : σ → Option α) (s : σ) :
    getAttr f s = match f s with
      | some a => (.ok a, s)
      | none => (.error .attributeError, s) := rfl
@[simp] theorem getAttr_run_some (f : σ → Option α) (s : σ) (a : α) (h : f s = some a) :
    getAttr f s = (.ok a, s) := by rw [getAttr_run, h]
@[simp] theorem getAttr_run_none (f : σ → Option α) (s : σ) (h : f s = none) :
    getAttr f s = (.error .attributeError, s) := by rw [getAttr_run, h]

theorem bind_ok {m : PyM σ α} {f : α → PyM σ β} {s s' : σ} {a : α}
    (h : m s = (.ok a, s')) : (m >>= f) s = f a s' := by rw [bind_run, h]
theorem bind_error {m : PyM σ α} {f : α → PyM σ β} {s s' : σ} {e : PyErr}
    (h : m s = (.error e, s')) : (m >>= f) s = (.error e, s') := by rw [bind_run, h]

theorem bind_ok_iff {m : PyM σ α} {f : α → PyM σ β} {s s' : σ} {b : β} :
    (m >>= f) s = (.ok b, s') ↔ ∃ a s1, m s = (.ok a, s1) ∧ f a s1 = (.ok b, s') := by
  rw [bind_run]
  constructor
  · intro h
    rcases hm : m s with ⟨e | a, s1⟩
    · rw [hm] at h; simp at h
    · rw [hm] at h; exact ⟨a, s1, rfl, h⟩
  · rintro ⟨a, s1, h1, h2⟩
    rw [h1]; exact h2

theorem mapEach_cons_ok {x : ι} {l : List ι} {f : ι → PyM σ β} {s s' : σ} {ys : List β} :
    mapEach (x :: l) f s = (.ok ys, s') ↔ ∃ y s1 zs, f x s = (.ok y, s1) ∧
      mapEach l f s1 = (.ok zs, s') ∧ ys = y :: zs := by
  show (f x >>= fun y => mapEach l f >>= fun ys => pure (y :: ys)) s = _ ↔ _
  rw [bind_ok_iff]
  constructor
  · rintro ⟨y, s1, h1, h2⟩
    obtain ⟨zs, s2, h3, h4⟩ := bind_ok_iff.1 h2
    simp at h4
    obtain ⟨rfl, rfl⟩ := h4
    exact ⟨y, s1, zs, h1, h3, rfl⟩
  · rintro ⟨y, s1, zs, h1, h2, rfl⟩
    exact ⟨y, s1, h1, bind_ok_iff.2 ⟨zs, s', h2, rfl⟩⟩

@[simp] theorem get_bind_run (f : σ → PyM σ β) (s : σ) : (get >>= f) s = f s s := rfl
@[simp] theorem modify_bind_run (g : σ → σ) (f : Unit → PyM σ β) (s : σ) :
    (modify g >>= f) s = f () (g s) := rfl
@[simp] theorem throw_bind_run (e : PyErr) (f : α → PyM σ β) (s : σ) :
    (throw e >>= f) s = (.error e, s) := rfl
@[simp] theorem pure_bind_run (a : α) (f : α → PyM σ β) (s : σ) :
    (pure a >>= f) s = f a s := rfl
@[simp] theorem lift_ok_bind_run (a : α) (f : α → PyM σ β) (s : σ) :
    (lift (.ok a) >>= f) s = f a s := rfl
@[simp] theorem lift_error_bind_run (e : PyErr) (f : α → PyM σ β) (s : σ) :
    (lift (.error e) >>= f) s = (.error e, s) := rfl

@[simp] theorem when_true (m : PyM σ Unit) : when true m = m := rfl
@[simp] theorem when_false (m : PyM σ Unit) : when false m = pure () := rfl
@[simp] theorem raiseIf_true (e : PyErr) : (raiseIf true e : PyM σ Unit) = throw e := rfl
@[simp] theorem raiseIf_false (e : PyErr) : (raiseIf false e : PyM σ Unit) = pure () := rfl

/-- `(f <$> m)` in terms of bind, for unfolding do-blocks -/
theorem bind_assoc_run {γ : Type} (m : PyM σ α) (f : α → PyM σ β) (g : β → PyM σ γ) :
    (m >>= f) >>= g = m >>= fun a => f a >>= g := by
  funext s
  simp only [bind_run]
  rcases m s with ⟨_ | _, _⟩ <;> rfl

end PyM
end KMethods
