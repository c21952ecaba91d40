import Verif.Model.Package
/-!
# Specifications for the package as a whole
-/
namespace KMethods.Pkg

/-- the states of the import system after any number of uses of the package in any order, successful or not, from the start of the interpreter -/
inductive Used (env : Env) : St → Prop where
  | start : Used env []
  | op {s : St} (o : UOp) : Used env s → Used env (o.exec env s).2

/-- after attributes of the package have been read, in any order, and nothing else -/
inductive UsedByReads (env : Env) : St → Prop where
  | start : UsedByReads env []
  | read {s : St} (n : String) : UsedByReads env s → UsedByReads env ((UOp.read n).exec env s).2

/-- after the attributes `l` of the package have been read, from the start of the interpreter -/
def afterReads (env : Env) (l : List String) : St := l.foldl (fun s n => ((UOp.read n).exec env s).2) []

/-- the module with the class statement (or definition) for a name, if there is only one -/
def DefinedIn (m : Mod) (n : String) : Prop := .define n ∈ body m ∧ ∀ m', .define n ∈ body m' → m' = m

/-- numpy, scipy and sklearn are installed -/
def Env.Complete (env : Env) : Prop := ∀ e, env.avail e = true

/-- numpy and scipy are installed, sklearn is not -/
def Env.NoSklearn (env : Env) : Prop := env.avail .numpy = true ∧ env.avail .scipy = true ∧ env.avail .sklearn = false

end KMethods.Pkg
