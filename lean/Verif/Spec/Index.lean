import Verif.Model.KernelMatrix
/-!
# What an index object selects

Independent description of the index set on a dimension of size `n`.
-/
namespace KMethods
namespace IndexSpec

/-- a bound of a slice: negative values count from the end -/
def eff (n : Nat) (b : Int) : Int := if b < 0 then b + n else b

/-- `i` is one of the positions that Python selects with `seq[start:stop:step]`, `len(seq) = n`. -/
def SliceSelects (start stop step : Option Int) (n : Nat) (i : Int) : Prop :=
  let st := step.getD 1
  0 ≤ i ∧ i < n ∧
  if 0 < st then
    let first := match start with
      | none => 0
      | some b => max 0 (eff n b)
    first ≤ i ∧ (∀ z, stop = some z → i < eff n z) ∧ st ∣ i - first
  else
    let first := match start with
      | none => (n : Int) - 1
      | some b => min ((n : Int) - 1) (eff n b)
    i ≤ first ∧ (∀ z, stop = some z → eff n z < i) ∧ st ∣ i - first

/-- position `i` of a dimension of size `n` is selected by the index object -/
def Selects (n : Nat) : Idx → Nat → Prop
  | .int k, i => (i : Int) = k
  | .slice a b c, i => SliceSelects a b c n i
  | .iter l, i => IdxItem.int i ∈ l
  | .other, _ => False

/-- the index object is not acceptable on a dimension of size `n` -/
def Invalid (n : Nat) : Idx → Prop
  | .int k => k < 0 ∨ (n : Int) ≤ k
  | .slice a b c => c ≠ some 0 ∧ ∀ i : Nat, ¬ SliceSelects a b c n i
  | .iter l => l = [] ∨ IdxItem.other ∈ l ∨ ∃ k, IdxItem.int k ∈ l ∧ (k < 0 ∨ (n : Int) ≤ k)
  | .other => True

/-- a slice with step zero -/
def ZeroStep (i : Idx) : Prop := ∃ a b, i = .slice a b (some 0)

end IndexSpec
end KMethods

namespace KMethods
/-- the key selects every row and every column of an `n × m` matrix -/
def WholeKey (n m : Nat) : Key → Prop
  | .linear _ => n = 1 ∧ m = 1
  | .pair S T => (∀ i < n, IndexSpec.Selects n S i) ∧ (∀ j < m, IndexSpec.Selects m T j)
  | .other => False

/-- the call may leave the kernel matrix stored in sparse format: `full_sparse` of an unnormalised
matrix, or selecting the whole matrix by indexing -/
def KMOp.MayGoSparse {X : Type} (keepNormed : Bool) (n m : Nat) : KMOp X → Prop
  | .fullSparse => keepNormed = false
  | .getItem k => WholeKey n m k
  | _ => False
end KMethods
