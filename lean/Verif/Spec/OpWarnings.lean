import Verif.Model.OpWarnings
import Verif.Spec.Operations
import Verif.Spec.Choice
/-!
# Notions used to state which warnings are issued
-/
namespace KMethods

/-- the warnings issued by a call -/
def Logged.warnings {α : Type} (m : Logged α) : List OpWarning := (m []).2

/-- Whatever was logged before, the call returns or raises `r`, and its warnings are added to the log. -/
def Logged.Gives {α : Type} (m : Logged α) (r : Except PyErr α) : Prop := ∀ l, m l = (r, l ++ m.warnings)

/-- all entries are finite numbers -/
def Mat.Finite (A : Mat F) : Prop := ∃ R : Matrix (Fin A.nrows) (Fin A.ncols) ℝ, A = Mat.ofReal R

end KMethods
