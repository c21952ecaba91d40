import Verif.Model.Slice
import Verif.Model.KernelMatrix
/-!
# Indexing of two-dimensional numpy arrays

`KernelMatrixPrecomputed.__getitem__` (`base.py:849-855`) hands the index object to the array, and the documentation of
`KernelMatrix.__getitem__` (`base.py:602-604`) says that it is meant to be compliant with numpy. This file models numpy's basic and advanced indexing
(`numpy/core/src/multiarray/mapping.c`) of a 2-D array by integers, slices and sequences of integers. Boolean masks, `Ellipsis`, `None`,
multi-dimensional index arrays and unsized iterables are not modelled. Every index of a sequence is checked, also
when the result has no entries (numpy before 1.20 skipped the check then).
-/
namespace KMethods

/-- index object for one axis; `bad` is any object that numpy rejects (strings, floats, sequences containing them) (for base.py:849-855) -/
inductive NpIdx where
  | int (i : Int)
  | slice (start stop step : Option Int)
  | list (l : List Int)
  | bad

/-- index object of a 2-D array: for the first axis only, a tuple of two, or one that numpy rejects (tuples of more than two, for instance) (for base.py:849-855) -/
inductive NpKey where
  | single (i : NpIdx)
  | pair (i j : NpIdx)
  | bad

/-- what indexing a 2-D array returns: a number or an array with one or two axes (for base.py:849-855) -/
inductive NpOut (V : Type) where
  | scalar (v : V)
  | vec (l : List V)
  | mat (A : Mat V)

/-- position of an integer index on an axis of length `n`: numpy counts negative ones from the end (for base.py:849-855) -/
def axisPos (n : Nat) (i : Int) : Except PyErr (Fin n) :=
  if h : 0 ≤ i ∧ i < n then .ok ⟨i.toNat, by omega⟩
  else if h : -(n : Int) ≤ i ∧ i < 0 then .ok ⟨(i + n).toNat, by omega⟩
  else .error .indexError

/-- positions of a sequence of integers, all checked (for base.py:849-855) -/
def axisPoss (n : Nat) : List Int → Except PyErr (List (Fin n))
  | [] => .ok []
  | i :: l => do
    let a ← axisPos n i
    let r ← axisPoss n l
    pure (a :: r)

/-- positions selected on an axis of length `n`, in the order and with the multiplicity in which numpy takes them (for base.py:849-855) -/
def NpIdx.positions (n : Nat) : NpIdx → Except PyErr (List (Fin n))
  | .int i => axisPoss n [i]
  | .slice a b c => do
    let l ← sliceIndices a b c n
    axisPoss n l
  | .list l => axisPoss n l
  | .bad => .error .indexError

/-- two index sequences are taken together, after stretching one of length 1 (for base.py:849-855) -/
def npBroadcast {α β : Type} (r : List α) (c : List β) : Except PyErr (List (α × β)) :=
  if r.length = c.length then .ok (r.zip c)
  else match r, c with
    | [x], c => .ok (c.map fun y => (x, y))
    | r, [y] => .ok (r.map fun x => (x, y))
    | _, _ => .error .indexError

/-- the array of all combinations of the given rows and columns (for base.py:849-855) -/
def Mat.outer {V : Type} (A : Mat V) (r : List (Fin A.nrows)) (c : List (Fin A.ncols)) : Mat V :=
  ⟨r.length, c.length, fun p q => A.get r[p] c[q]⟩

/-- `A[i, j]`: an integer removes its axis; a sequence together with a sequence or an integer is taken element by element; all other
combinations give the rectangular part (for base.py:849-855) -/
def Mat.npPair {V : Type} (A : Mat V) : NpIdx → NpIdx → Except PyErr (NpOut V)
  | .int i, .int j => do
    let a ← axisPos A.nrows i
    let b ← axisPos A.ncols j
    pure (.scalar (A.get a b))
  | .int i, j => do
    let a ← axisPos A.nrows i
    let c ← j.positions A.ncols
    pure (.vec (c.map fun b => A.get a b))
  | i, .int j => do
    let r ← i.positions A.nrows
    let b ← axisPos A.ncols j
    pure (.vec (r.map fun a => A.get a b))
  | .list l, .list m => do
    let r ← axisPoss A.nrows l
    let c ← axisPoss A.ncols m
    let z ← npBroadcast r c
    pure (.vec (z.map fun p => A.get p.1 p.2))
  | i, j => do
    let r ← i.positions A.nrows
    let c ← j.positions A.ncols
    pure (.mat (A.outer r c))

/-- `A[key]`; with an index for the first axis only, the second one is taken whole (for base.py:849-855) -/
def Mat.npIndex {V : Type} (A : Mat V) : NpKey → Except PyErr (NpOut V)
  | .single i => A.npPair i (.slice none none none)
  | .pair i j => A.npPair i j
  | .bad => .error .indexError

end KMethods
