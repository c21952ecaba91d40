import Verif.Model.Algorithms
import Verif.Model.Alias
import Verif.Model.Derived
import Verif.Model.Composite
/-!
# Arrays shared between the caller and kernel machines, precomputed matrices, composite kernels

scikit-learn's `check_X_y` and `check_array` do not copy a numeric two-dimensional array: `self._train_X` (algorithms.py:103-107, 354) is then the caller's array itself. `KernelMatrixPrecomputed` keeps an
ndarray as it is and copies anything else (base.py:803-804, 813). `ensure_ndarray_1D` returns a view of an ndarray (utils.py:40-57), which `WeightedAverageKernel` keeps (base.py:1560). Composite kernels
return their attribute `KM` (base.py:1411).
-/
namespace KMethods
open PyM

/-- the first argument of `fit` and `predict`: the caller's numeric array number `r`, of which no copy is made; something that `check_X_y`/`check_array` convert to a new array with the contents `A`; or something
that they reject. (Overlapping arrays can be treated as different arrays which the caller always writes to together.) (for algorithms.py:72-153) -/
inductive DataArg (X : Type) where
  | array (r : Nat)
  | other (A : Arr2 X)
  | bad (e : PyErr)

/-- the contents that the method sees (for algorithms.py:72-153) -/
def DataArg.checked {X : Type} (arrays : Nat → Arr2 X) : DataArg X → Except PyErr (Arr2 X)
  | .array r => .ok (arrays r)
  | .other A => .ok A
  | .bad e => .error e

/-- what `self._train_X` refers to after it has been assigned: one of the caller's arrays, or an array of its own (for algorithms.py:72-153) -/
def DataArg.kept {X : Type} : DataArg X → Option (Nat ⊕ Arr2 X)
  | .array r => some (.inl r)
  | .other A => some (.inr A)
  | .bad _ => none

/-- a class of estimators whose instances, with states `S`, have an attribute `_train_X`. `stores` says whether `fit`, given accepted data, gets as far as the assignment to this attribute. (for algorithms.py:103-107, 337-354) -/
structure EstClass (S X Y W U P : Type) where
  fit : Except PyErr (Arr2 X × Y) → W → PyM S Unit
  predict : Except PyErr (Arr2 X) → PyM S P
  setParams : U → PyM S Unit
  train : S → Option (Arr2 X)
  setTrain : Option (Arr2 X) → S → S
  stores : S → Bool

/-- `KernelMachine`, `KernelMachineRegressor` (algorithms.py:103-107: the assignment comes first) -/
noncomputable def Machine.cls {K X M Y W P : Type} (env : Env K X F) (L : Learner M Y W P) : EstClass (Machine K X M Y) X Y W (List (ParamUpdate K)) P where
  fit := Machine.fit env L
  predict := Machine.predict env L
  setParams := Machine.setParams
  train := (·.trainX)
  setTrain A s := { s with trainX := A }
  stores _ := true

/-- `OptimalKernelSVC`, `OptimalKernelSVR` (algorithms.py:337-354: the assignment comes after the choice of the bucket). The kernel matrices of these objects also refer to the training array, but `fit` and
`predict` attach those they use anew. -/
noncomputable def OptMachine.cls {K X H M W P : Type} (env : Env K X F) (mkB : String → PyM (Heap K X) Bucket) (cv : List F → CVScore) (L : SvmLearner H M W P) :
    EstClass (OptMachine K X H M) X (List F) W (List (OptMachine.Update H)) P where
  fit := OptMachine.fit env mkB cv L
  predict := OptMachine.predict env L
  setParams := OptMachine.setParams
  train := (·.trainX)
  setTrain A s := { s with trainX := A }
  stores s := match (OptMachine.chooseBucket mkB s).1 with
    | .ok _ => true
    | .error _ => false

/-- an estimator, the arrays of the caller, and what `_train_X` refers to. The contents of `_train_X` in `obj` are those it had at the last call. (for algorithms.py:72-153) -/
structure SharedEst (S X : Type) where
  arrays : Nat → Arr2 X
  obj : S
  train : Option (Nat ⊕ Arr2 X)

/-- what a program does: it overwrites one of its arrays in place, or calls a method (for algorithms.py:72-153) -/
inductive EstStep (X Y W U : Type) where
  | write (r : Nat) (row : Nat → X)
  | fit (d : DataArg X) (y : Y) (w : W)
  | predict (d : DataArg X)
  | setParams (u : U)

namespace SharedEst
variable {S X Y W U P : Type}

/-- the object with the present contents of `_train_X` (for algorithms.py:72-153) -/
def now (E : EstClass S X Y W U P) (w : SharedEst S X) : S := E.setTrain (w.train.map (Sum.elim w.arrays id)) w.obj

/-- one step; the result is that of the method (for algorithms.py:72-153) -/
def step (E : EstClass S X Y W U P) : EstStep X Y W U → SharedEst S X → Except PyErr (Option P) × SharedEst S X
  | .write r row, w => (.ok none, { w with arrays := fun q => if q = r then { w.arrays r with row := row } else w.arrays q })
  | .fit d y wt, w =>
    let res := E.fit ((d.checked w.arrays).map fun A => (A, y)) wt (w.now E)
    (res.1.map fun _ => none, { w with obj := res.2, train := if E.stores (w.now E) then (d.kept <|> w.train) else w.train })
  | .predict d, w =>
    let res := E.predict (d.checked w.arrays) (w.now E)
    (res.1.map some, { w with obj := res.2 })
  | .setParams u, w =>
    let res := E.setParams u (w.now E)
    (res.1.map fun _ => none, { w with obj := res.2 })

end SharedEst

/-! ### precomputed kernel matrices -/

/-- the argument of `KernelMatrixPrecomputed`: the caller's ndarray number `r`, or something of which `np.array` makes a new array (for base.py:801-819) -/
inductive MatArg where
  | array (r : Nat)
  | other (A : PreIn)

/-- an instance of `KernelMatrixPrecomputed` and the two-dimensional real arrays of the caller; `mat` is what `_KM` refers to (for base.py:801-819) -/
structure PreShared where
  arrays : Nat → Mat F
  numSamples : Nat
  mat : Nat ⊕ Mat F

/-- `KernelMatrixPrecomputed(matrix)` (base.py:801-819) -/
noncomputable def mkPreShared (arrays : Nat → Mat F) : MatArg → Except PyErr PreShared
  | .array r => (mkPrecomputed (.real (arrays r))).map fun p => ⟨arrays, p.numSamples, .inl r⟩
  | .other A => (mkPrecomputed A).map fun p => ⟨arrays, p.numSamples, .inr p.mat⟩

namespace PreShared

/-- the object with the present contents of its matrix (for base.py:796-866) -/
def now (s : PreShared) : Precomputed := ⟨s.mat.elim s.arrays id, s.numSamples⟩

/-- the caller overwrites the entries of one of its arrays (for base.py:796-866) -/
def write (r : Nat) (cell : Nat → Nat → F) (s : PreShared) : PreShared :=
  { s with arrays := fun q => if q = r then Mat.ofCells (s.arrays r).nrows (s.arrays r).ncols cell else s.arrays q }

end PreShared

/-! ### composite kernels -/

/-- what happens to a composite kernel, its set and its members: `fit`; anything done with the set or its members, which includes writing into their arrays; the caller writes into the matrix that
`composite_KM` returned; or into the array of weights that was passed to `WeightedAverageKernel` (for base.py:1367-1575) -/
inductive CompStep (K X : Type) where
  | fit (w : Option WeightsIn)
  | onSet (f : SetSt K X → SetSt K X)
  | writeKM (cell : Nat → Nat → F)
  | writeWeights (l : List F)

/-- one step (for base.py:1367-1575) -/
noncomputable def CompSt.after {K X : Type} (env : Env K X F) : CompStep K X → CompSt K X → CompSt K X
  | .fit w, s => (CompSt.fit env w s).2
  | .onSet f, s => ⟨(f ⟨s.heap, s.set⟩).heap, (f ⟨s.heap, s.set⟩).set, s.comp⟩
  | .writeKM c, s => { s with comp := { s.comp with km := s.comp.km.map fun A => (A.1, Mat.ofCells A.2.nrows A.2.ncols c) } }
  | .writeWeights l, s => { s with comp := { s.comp with kind := match s.comp.kind with
      | .weighted _ => .weighted l
      | k => k } }

end KMethods
