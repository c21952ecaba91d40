import Verif.Model.Composite
import Verif.Spec.KernelSet
import Verif.Spec.Matrix
/-!
# Notions used to state the properties of composite kernels and of `linear_combination`
-/
namespace KMethods
open KMState
variable {K X : Type}

/-- asked for `full` any number of times, the object always returns the matrix `M`, in a storage satisfying `P` -/
def KMState.GivesFull (env : Env K X F) (s : KMState K X F) (P : Fmt → Prop) (M : Mat F) : Prop :=
  ∀ n, ∃ f, P f ∧ (exec env .full (run env (List.replicate n .full) s)).1 = .ok (.mat f M)

/-- the member `r` has the kernel matrix `M`, in a storage satisfying `P` -/
def Heap.Gives (env : Env K X F) (h : Heap K X) (P : Fmt → Prop) (r : Nat) (M : Mat F) : Prop :=
  match h.objs r with
  | some (.km s) => s.GivesFull env P M
  | some (.pre p) => P .dense ∧ M = p.full
  | none => False

/-- the members have the finite kernel matrices `Ks`, in storages satisfying `P` -/
def Heap.GivesAll {n m : Nat} (env : Env K X F) (h : Heap K X) (P : Fmt → Prop) (members : List Nat) (Ks : List (Matrix (Fin n) (Fin m) ℝ)) : Prop :=
  List.Forall₂ (fun r A => h.Gives env P r (Mat.ofReal A)) members Ks

/-- stored as an ndarray -/
def IsDense (f : Fmt) : Prop := f = .dense

/-- stored in any way -/
def AnyFmt (_ : Fmt) : Prop := True

/-- `sum_k w_k K_k` -/
def wsum {n m : Nat} (w : List ℝ) (Ks : List (Matrix (Fin n) (Fin m) ℝ)) : Matrix (Fin n) (Fin m) ℝ :=
  fun i j => ((w.zip Ks).map fun p => p.1 * p.2 i j).sum

/-- element-wise product of the matrices -/
def eprod {n m : Nat} (Ks : List (Matrix (Fin n) (Fin m) ℝ)) : Matrix (Fin n) (Fin m) ℝ :=
  fun i j => (Ks.map fun A => A i j).prod

/-- mean of the matrices -/
noncomputable def emean {n m : Nat} (Ks : List (Matrix (Fin n) (Fin m) ℝ)) : Matrix (Fin n) (Fin m) ℝ :=
  fun i j => (Ks.map fun A => A i j).sum / Ks.length

/-- the argument is (or converts to) a vector of the finite numbers `l`: any dtype that is numeric or can be cast, possibly with trailing axes of
length 1 -/
def WeightsIn.IsVec (w : WeightsIn) (l : List ℝ) : Prop :=
  ∃ d k, (d.isNumber = true ∨ d.castable = true) ∧ w = .arr ⟨d, l.length :: List.replicate k 1, l.map .real⟩

/-- `fit` succeeds and then `composite_KM` is the finite matrix `A`; if `P` only allows ndarrays, as an ndarray -/
def CompSt.Fits {n : Nat} (env : Env K X F) (P : Fmt → Prop) (w : Option WeightsIn) (s : CompSt K X) (A : Matrix (Fin n) (Fin n) ℝ) : Prop :=
  ∃ s' f, fit env w s = (.ok (), s') ∧ (compositeKM s').1 = .ok (f, Mat.ofReal A) ∧ ((∀ g, P g → g = .dense) → f = .dense)

/-- `fit` raises, and afterwards `composite_KM` is the finite matrix `A` -/
def CompSt.Leaves {n : Nat} (env : Env K X F) (w : Option WeightsIn) (s : CompSt K X) (A : Matrix (Fin n) (Fin n) ℝ) : Prop :=
  ∃ e s' f, fit env w s = (.error e, s') ∧ (compositeKM s').1 = .ok (f, Mat.ofReal A)

/-- anything done with the set or its members -/
inductive CompOp (X : Type) where
  | fit (w : Option WeightsIn)
  | append (a : AppendArg)
  | attach (sample : SetSample X) (attr : Option (String × String))
  | member (r : Nat) (op : KMOp X)

/-- one step of a program working with a composite kernel -/
noncomputable def CompSt.exec (env : Env K X F) : CompOp X → PyM (CompSt K X) Unit
  | .fit w => CompSt.fit env w
  | .append a => CompSt.onSet (SetSt.append a)
  | .attach sample attr => CompSt.onSet (SetSt.attach sample attr)
  | .member r op => PyM.discard (CompSt.onSet (SetSt.onHeap (Heap.call r (KMState.exec env op))))

/-- the states of a composite kernel, from its construction, before any `fit` has completed -/
inductive CompSt.NeverFitted (env : Env K X F) : CompSt K X → Prop
  | new {h : Heap K X} {t : KSet} {cls : CompClass} {c : Comp} : mkComposite cls (some t) = .ok c → NeverFitted env ⟨h, t, c⟩
  | step {s : CompSt K X} (op : CompOp X) : NeverFitted env s → (∀ w, op = .fit w → (CompSt.exec env op s).1 ≠ .ok ()) →
      NeverFitted env (CompSt.exec env op s).2

end KMethods
