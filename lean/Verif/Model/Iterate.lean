import Verif.Model.Derived
/-!
# Iteration over kernel matrices

`KernelMatrix` (base.py:149-793), `KernelMatrixPrecomputed` (base.py:796-866) and `ConstantKernelMatrix` (base.py:869-1036) define `__len__` and `__getitem__`, but not `__iter__`,
`__contains__` or `__reversed__`. Python then falls back on indexing: `for v in x` evaluates `x[0]`, `x[1]`, ... until `IndexError` is raised (`Objects/iterobject.c`), `v in x` does the same,
`reversed(x)` evaluates `x[len(x) - 1]`, ..., `x[0]` (`Objects/enumobject.c`).
-/
namespace KMethods
open PyM

/-- is the exception an `IndexError`? `kernel` says whether those raised by kernel functions are; none of the exceptions of this package (config.py:4-38) is -/
def isIndexError (kernel : Bool) : PyErr → Bool
  | .indexError => true
  | .kernelFault => kernel
  | _ => false

section
variable {σ α : Type}

/-- `for v in x: ...` from position `i` on, where `get i` is `x[i]`: the values seen by the body, how the loop ends, and the object afterwards (for base.py:597-629) -/
inductive Loop (stops : PyErr → Bool) (get : Nat → PyM σ α) : Nat → σ → List α → Except PyErr Unit → σ → Prop
  | next {i : Nat} {s s1 s2 : σ} {v : α} {l : List α} {r : Except PyErr Unit} : get i s = (.ok v, s1) → Loop stops get (i + 1) s1 l r s2 → Loop stops get i s (v :: l) r s2
  | stop {i : Nat} {s s1 : σ} {e : PyErr} : get i s = (.error e, s1) → stops e = true → Loop stops get i s [] (.ok ()) s1
  | fail {i : Nat} {s s1 : σ} {e : PyErr} : get i s = (.error e, s1) → stops e = false → Loop stops get i s [] (.error e) s1

/-- `w in x` from position `i` on; `eq` is the comparison with `w` (for base.py:597-629) -/
inductive Finds (stops : PyErr → Bool) (get : Nat → PyM σ α) (eq : α → Bool) : Nat → σ → Except PyErr Bool → σ → Prop
  | found {i : Nat} {s s1 : σ} {v : α} : get i s = (.ok v, s1) → eq v = true → Finds stops get eq i s (.ok true) s1
  | next {i : Nat} {s s1 s2 : σ} {v : α} {r : Except PyErr Bool} : get i s = (.ok v, s1) → eq v = false → Finds stops get eq (i + 1) s1 r s2 → Finds stops get eq i s r s2
  | absent {i : Nat} {s s1 : σ} {e : PyErr} : get i s = (.error e, s1) → stops e = true → Finds stops get eq i s (.ok false) s1
  | fail {i : Nat} {s s1 : σ} {e : PyErr} : get i s = (.error e, s1) → stops e = false → Finds stops get eq i s (.error e) s1

/-- `for v in reversed(x): ...`, where `i` positions are left (for base.py:597-629, 849-855) -/
def backwards (stops : PyErr → Bool) (get : Nat → PyM σ α) : Nat → σ → List α × Except PyErr Unit × σ
  | 0, s => ([], .ok (), s)
  | i + 1, s =>
    match get i s with
    | (.ok v, s1) => (v :: (backwards stops get i s1).1, (backwards stops get i s1).2)
    | (.error e, s1) => ([], if stops e then .ok () else .error e, s1)

end

/-- `km[i]` for a `KernelMatrix` (for base.py:597-629) -/
def kmAt {K X V : Type} (env : Env K X V) (i : Nat) : PyM (KMState K X V) (KMOut V) := KMState.exec env (.getItem (.linear i))

/-- `p[i]` for a `KernelMatrixPrecomputed`, whose methods do not change it (for base.py:849-855) -/
def preAt (p : Precomputed) (i : Nat) : PyM Unit (NpOut F) := lift (p.getItem (.single (.int i)))

/-- `c[i]` for a `ConstantKernelMatrix`: an integer is not an iterable of length 2 (base.py:962-965) -/
def constAt {V : Type} (_ : Nat) : PyM (ConstState V) (Mat V) := ConstState.getItem .other

/-- how `for v in reversed(km)` ends: with the values seen by the body; `len(km)` is `km.size` (base.py:397-401) -/
def kmReversed {K X V : Type} (stops : PyErr → Bool) (env : Env K X V) (s : KMState K X V) : List (KMOut V) × Except PyErr Unit × KMState K X V :=
  match KMState.size s with
  | (.ok n, s1) => backwards stops (kmAt env) n s1
  | (.error e, s1) => ([], .error e, s1)

/-- the same for `reversed(p)`; `len(p)` is the number of rows (base.py:822-832) -/
def preReversed (stops : PyErr → Bool) (p : Precomputed) : List (NpOut F) × Except PyErr Unit × Unit := backwards stops (preAt p) p.size ()

/-- the same for `reversed(c)` (base.py:921-930) -/
def constReversed {V : Type} (stops : PyErr → Bool) (s : ConstState V) : List (Mat V) × Except PyErr Unit × ConstState V := backwards stops constAt s.numSamples s

end KMethods
