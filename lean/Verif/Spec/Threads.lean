import Verif.Spec.History
import Verif.Model.Threads
/-!
# What threads that share a kernel matrix may expect
-/
namespace KMethods
variable {K X V : Type}

/-- the kernel function raises at some time on two rows of the samples -/
def HasFault (env : Env K X V) (a : Attachment X) (k : K) : Prop := ∃ t x y, a.IsRow x ∧ a.IsRow y ∧ env.fails t k x y = true

/-- the value `v` of cell `(i, j)` is right, or it is one of the two values of a cell that has not been written -/
def CellOk (env : Env K X V) (a : Attachment X) (k : K) (i j : Nat) (v : V) : Prop :=
  v = a.entry (env.kval k) i j ∨ v = env.ops.nan ∨ v = env.ops.zero

/-- a matrix of the right shape every cell of which is right or unwritten -/
def MatOk (env : Env K X V) (a : Attachment X) (k : K) (A : Mat V) : Prop :=
  ∃ c, A = Mat.ofCells a.nrows a.ncols c ∧ ∀ i j, CellOk env a k i j (c i j)

/-- exceptions while a part of the matrix is computed: the kernel's own -/
abbrev FaultErr (env : Env K X V) (a : Attachment X) (k : K) (e : PyErr) : Prop := e = .kernelFault ∧ HasFault env a k

/-- exceptions while the whole matrix is computed: the `RuntimeError` that replaces the kernel's own, and the `TypeError` of a
kernel that cannot be formatted in the warning about non-finite values -/
abbrev FillErr (env : Env K X V) (a : Attachment X) (k : K) (e : PyErr) : Prop :=
  (e = .runtimeError ∧ HasFault env a k) ∨ (e = .typeError ∧ env.fmtRaises k = true)

open IndexSpec in
/-- what `km[S, T]` may return: the kernel values of the selected rows and columns; if the key selects all rows and columns,
a matrix cells of which may be unwritten -/
def PartOk (env : Env K X V) (a : Attachment X) (k : K) (S T : Idx) (r : Fmt × Mat V) : Prop :=
  (WholeKey a.nrows a.ncols (.pair S T) ∧ MatOk env a k r.2) ∨
  (¬ WholeKey a.nrows a.ncols (.pair S T) ∧ ∃ rows cols, IsSelection a.nrows S rows ∧ IsSelection a.ncols T cols ∧
    r = (.dense, a.sub (env.kval k) rows cols))

open IndexSpec in
/-- what `km[S, T]` may raise -/
def PartErr (env : Env K X V) (a : Attachment X) (k : K) (S T : Idx) (e : PyErr) : Prop :=
  (e = .valueError ∧ (ZeroStep S ∨ ZeroStep T)) ∨ (e = .kmAccess ∧ (Invalid a.nrows S ∨ Invalid a.ncols T)) ∨
  FaultErr env a k e ∨ (WholeKey a.nrows a.ncols (.pair S T) ∧ FillErr env a k e)

/-- the value of a thread that has finished without exception -/
def Prog.finished {σ α : Type} : Prog σ α → Option α
  | .done (.ok x) => some x
  | _ => none

/-- Thread number `i` has finished all its calls, and `r` is the outcome of call number `n`, which was `op`. -/
def Outcome (calls : List (List (KMOp X))) (c : Threads (Shared K X V) (List (Except PyErr (KMOut V)))) (i n : Nat)
    (op : KMOp X) (r : Except PyErr (KMOut V)) : Prop :=
  ∃ ops rs, calls[i]? = some ops ∧ c.progs[i]? = some (.done (.ok rs)) ∧ ops[n]? = some op ∧ rs[n]? = some r

/-- A kernel matrix in state `s`, used by several threads from now on. -/
def sharedBy (env : Env K X V) (s : KMState K X V) (calls : List (List (KMOp X))) :
    Threads (Shared K X V) (List (Except PyErr (KMOut V))) :=
  Shared.start env (Shared.share ⟨.dense, fun _ _ => env.ops.nan⟩ s) calls

/-- none of the threads calls `attach_to` -/
def NoAttach (calls : List (List (KMOp X))) : Prop := ∀ ops ∈ calls, ∀ op ∈ ops, op.isAttach = false

/-- calls the outcome of which depends on what the others have done even if everything is computed: reading user-defined attributes, and
`normalize` with a method that may not be supported (it raises unless the matrix has been normalised by now) -/
def KMOp.SetByOthers : KMOp X → Bool
  | .getAttr _ _ | .attributes => true
  | .normalize m => m != "cosine"
  | _ => false

end KMethods
