import Verif.Model.Params
/-!
# Keyword arguments as a dictionary
-/
namespace KMethods

/-- the name of a keyword argument -/
def NamedParam.name {N : Type} : NamedParam N → String
  | .kBucket _ => "k_bucket"
  | .method _ => "method"
  | .c _ => "C"
  | .epsilon _ => "epsilon"
  | .shrinking _ => "shrinking"
  | .tol _ => "tol"
  | .other n => n

/-- the names under which a constructor of the library takes arguments -/
def Est.paramNames : Est → List String
  | .svr => ["k_bucket", "method", "C", "epsilon", "shrinking", "tol"]
  | .svc => ["k_bucket", "method", "C", "shrinking", "tol"]

/-- keyword arguments as Python sees them: `other` is used for other names only, and no name occurs twice -/
structure IsKwargs {N : Type} (ps : List (NamedParam N)) : Prop where
  other : ∀ n, NamedParam.other n ∈ ps → n ∉ Est.paramNames .svr
  nodup : (ps.map NamedParam.name).Nodup

/-- the value given for a name, if there is one -/
def valueOf {N : Type} (ps : List (NamedParam N)) (name : String) : Option (NamedParam N) := ps.find? fun p => decide (p.name = name)

end KMethods
