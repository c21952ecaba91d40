import Verif.Model.Algorithms
import Verif.Model.Kernels
/-!
# Tags of estimators: `_more_tags`
-/
namespace KMethods

/-- A value of `k_func`: an instance of one of the classes of `numeric_kernels.py`, or a `KernelFromCallable`. (for algorithms.py:179-184) -/
inductive KernelArg (P : Type) where
  | num (k : NumKernel)
  | custom (k : CallableKernel (List ℝ) P)

/-- `KernelMatrix` on such kernels; `numEnv` and `callableEnv` put together (for base.py:573-580) -/
noncomputable def argEnv {P : Type} (ops : Ops F) : Env (KernelArg P) (List ℝ) F where
  kval
    | .num k => (numEnv ops).kval k
    | .custom k => (callableEnv ops).kval k
  fails t
    | .num k => (numEnv ops).fails t k
    | .custom k => (callableEnv ops).fails t k
  ops := ops
  fmtRaises
    | .num k => (numEnv ops).fmtRaises k
    | .custom k => (callableEnv (α := List ℝ) ops).fmtRaises k

/-- keys of the dictionaries that `_more_tags` returns; their value is `True` (algorithms.py:180, 182) -/
inductive Tag where
  | requiresPositiveX | poorScore
  deriving DecidableEq

/-- `_more_tags` (algorithms.py:174-184) of `KernelMachine` and `KernelMachineRegressor`. A `k_func` that is not a kernel function has no tags. -/
def Machine.moreTags {P X M Y : Type} (s : Machine (KernelArg P) X M Y) : List Tag :=
  match s.kFunc with
  | some (.num (.chi2 _)) => [.requiresPositiveX]
  | some (.num (.sigmoid ..)) => [.poorScore]
  | some (.num (.hadamard _)) => [.poorScore]
  | _ => []

end KMethods
