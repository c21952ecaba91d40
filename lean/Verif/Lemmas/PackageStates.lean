import Verif.Spec.Package
/-!
# Lemmas on the package as a whole: all states that the import system can reach
-/
namespace KMethods.Pkg

/-- numpy and scipy are installed; sklearn is as given -/
def av (b : Bool) : Ext → Bool
  | .sklearn => b
  | _ => true

deriving instance DecidableEq for Stmt
instance {α : Type} [DecidableEq α] : DecidableEq (Except ImpErr α)
  | .ok a, .ok b => if h : a = b then isTrue (by rw [h]) else isFalse fun h' => h (by injection h')
  | .error a, .error b => if h : a = b then isTrue (by rw [h]) else isFalse fun h' => h (by injection h')
  | .ok _, .error _ => isFalse nofun
  | .error _, .ok _ => isFalse nofun

/-- the given states, and those after one more import -/
def expand (a : Ext → Bool) (l : List St) : List St :=
  l.foldl (fun acc s => Mod.all.foldl (fun acc m => if (doImport a m s).2 ∈ acc then acc else acc ++ [(doImport a m s).2]) acc) l

/-- all states that can be reached by imports -/
def reach (a : Ext → Bool) : List St := expand a (expand a (expand a (expand a [[]])))

theorem Mod.mem_all (m : Mod) : m ∈ Mod.all := by cases m <;> decide

/-- the namespace of the package after its import -/
def pkgNS : NS := ((doImport (av true) .pkg []).2.lookup .pkg).getD []

/-- modules that are not imported together with the package -/
def later : NS := [("ranking", .mod .ranking), ("algorithms", .mod .algorithms), ("categorical", .mod .categorical)]

set_option synthInstance.maxSize 2000 in
set_option synthInstance.maxHeartbeats 200000 in
/-- all facts on these states that are needed, found by computation -/
theorem reach_facts (b : Bool) : [] ∈ reach (av b) ∧ ∀ s ∈ reach (av b),
    (∀ m ∈ Mod.all, (doImport (av b) m s).2 ∈ reach (av b) ∧ (doImport (av b) m s).1 = (if m = .algorithms ∧ b = false then .error .importError else .ok ()) ∧
      ((s.lookup .pkg).isSome → ((doImport (av b) m s).2.lookup .pkg).isSome)) ∧
    ((doImport (av b) .pkg s).2.lookup .pkg).isSome ∧
    (∀ d ∈ s.lookup .pkg, d.take pkgNS.length = pkgNS ∧ ∀ p ∈ d.drop pkgNS.length, p ∈ later) ∧
    ((s.lookup .pkg).isSome → (s.find .pkg "__getattr__").isSome) ∧
    (b = true → ∀ n ∈ lazyNames, (doImport (av b) .algorithms s).2.find .algorithms n = some (.defn .algorithms n)) ∧
    (b = false → (s.lookup .pkg).isSome → (doImport (av b) .algorithms s).2 = s) := by
  cases b <;> decide +kernel

end KMethods.Pkg
