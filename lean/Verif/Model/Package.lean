/-!
# The package as a whole: imports between its modules, and the attributes of `kernelmethods`
-/
namespace KMethods.Pkg

/-- The package (`__init__.py`) and its modules; `tests` is not modelled. (for __init__.py:14-21, 36) -/
inductive Mod where
  | pkg | version | base | config | operations | utils | numericKernels | sampling | ranking | algorithms | categorical
  deriving DecidableEq, Repr

/-- all of them (for __init__.py:14-21, 36) -/
def Mod.all : List Mod := [.pkg, .version, .base, .config, .operations, .utils, .numericKernels, .sampling, .ranking, .algorithms, .categorical]

/-- the name by which a module becomes an attribute of the package (for __init__.py:14-21, 36) -/
def Mod.name : Mod → String
  | .pkg => "kernelmethods" | .version => "_version" | .base => "base" | .config => "config" | .operations => "operations" | .utils => "utils"
  | .numericKernels => "numeric_kernels" | .sampling => "sampling" | .ranking => "ranking" | .algorithms => "algorithms" | .categorical => "categorical"

/-- the packages that `kernelmethods` depends on; the standard library is assumed to be complete (for base.py:15, 24 and algorithms.py:12) -/
inductive Ext where
  | numpy | scipy | sklearn
  deriving DecidableEq, Repr

/-- What a name may refer to: a module; what the statement for this name at the top level of a module has created; an object from another package or the standard library;
an attribute that all module objects have, like `__name__`. (for __init__.py:14-51) -/
inductive Obj where
  | mod (m : Mod) | defn (m : Mod) (n : String) | ext (e : Ext) (n : String) | std (n : String) | special (n : String)
  deriving DecidableEq, Repr

/-- exceptions of the import system. `recursion`: see `importMod`. (for __init__.py:14-51) -/
inductive ImpErr where
  | importError | attributeError | nameError | recursion
  deriving DecidableEq, Repr

/-- Statements at the top level of modules. `std`: imports from the standard library. `ext`: imports from other packages. `fromMod m ns`: `from kernelmethods.m import ns`. `fromPkg m n`: `from kernelmethods import m as n`.
`define`: `class`, `def` and assignments (that evaluating the right-hand side does not raise is assumed). `alias`: `n = n'`. The name bound is given, not the name in the other package. (for __init__.py:5-27) -/
inductive Stmt where
  | std (ns : List String) | ext (e : Ext) (ns : List String) | fromMod (m : Mod) (ns : List String) | fromPkg (m : Mod) (n : String) | define (n : String) | alias (n n' : String)

/-- `__all__` (__init__.py:5-12) -/
def dunderAll : List String :=
  ["KernelMatrix", "BaseKernelFunction", "KernelMethodsException", "KMAccessError", "KMNormError", "KMSetAdditionError", "PolyKernel", "GaussianKernel", "LaplacianKernel", "LinearKernel",
   "Chi2Kernel", "SigmoidKernel", "HadamardKernel", "KernelBucket", "KernelSet", "KernelMachine", "OptimalKernelSVC", "OptimalKernelSVR"]

/-- the names treated by `__getattr__` (__init__.py:30-35); also those imported, and the keys of `exports` (__init__.py:36-48) -/
def lazyNames : List String := ["KernelMachine", "KernelMachineRegressor", "OptimalKernelSVC", "OptimalKernelSVR"]

/-- The top-level statements of each module, in order. (__init__.py:5-27, base.py:9-1538, operations.py:18-389, utils.py:2-184, config.py:1-69, numeric_kernels.py:1-449, sampling.py:1-292, ranking.py:11-153,
algorithms.py:8-563, categorical.py:14-120, _version.py:3-26; the two branches of the `try` in _version.py:23-26 both assign `__version__`) -/
def body : Mod → List Stmt
  | .pkg => [.define "__all__", .fromMod .base ["BaseKernelFunction", "KernelMatrix", "KernelSet"], .fromMod .config ["KMAccessError", "KMNormError", "KMSetAdditionError", "KernelMethodsException"],
      .fromMod .numericKernels ["Chi2Kernel", "GaussianKernel", "LaplacianKernel", "LinearKernel", "PolyKernel", "SigmoidKernel", "HadamardKernel"],
      .fromMod .sampling ["KernelBucket"], .fromMod .version ["__version__"], .define "__author__", .define "__email__", .define "__getattr__"]
  | .version => [.std ["PackageNotFoundError", "version"], .std ["Path"], .std ["subprocess"], .define "_version_from_git", .define "__version__"]
  | .base => [.std ["ABC", "abstractmethod"], .std ["Iterable"], .std ["copy"], .std ["iter_product"], .std ["warn"], .ext .numpy ["np"], .fromPkg .config "cfg",
      .fromMod .config ["KMAccessError", "KMSetAdditionError", "KernelMethodsWarning"], .fromMod .operations ["center_km", "frobenius_norm", "is_PSD", "normalize_km", "normalize_km_2sample"],
      .fromMod .utils ["check_callable", "contains_nan_inf", "ensure_ndarray_1D", "ensure_ndarray_2D", "get_callable_name", "not_symmetric"], .ext .scipy ["issparse", "lil_matrix"],
      .define "BaseKernelFunction", .define "KernelFromCallable", .define "KernelMatrix", .define "KernelMatrixPrecomputed", .define "ConstantKernelMatrix", .define "VALID_KERNEL_MATRIX_TYPES", .define "KernelSet",
      .define "CompositeKernel", .define "SumKernel", .define "ProductKernel", .define "AverageKernel", .define "WeightedAverageKernel"]
  | .operations => [.std ["traceback"], .std ["warn"], .ext .numpy ["np"], .fromMod .config ["KMNormError", "KernelMethodsException"], .fromMod .utils ["contains_nan_inf", "ensure_ndarray_1D"],
      .ext .numpy ["elem_wise_multiply"], .ext .scipy ["LinAlgError", "eigh"], .define "is_positive_semidefinite", .alias "is_PSD" "is_positive_semidefinite", .define "center_km", .define "normalize_km",
      .define "normalize_km_2sample", .define "frobenius_product", .define "frobenius_norm", .define "alignment_centered", .define "eval_similarity", .define "linear_combination"]
  | .utils => [.ext .numpy ["np"], .ext .scipy ["issparse"], .fromPkg .config "config", .std ["Iterable"], .define "check_input_arrays", .define "ensure_ndarray_2D", .define "ensure_ndarray_1D",
      .define "ensure_ndarray_size", .define "check_callable", .define "get_callable_name", .define "_float_eps", .define "_ensure_min_eps", .define "not_symmetric", .define "check_operation_kernel_matrix",
      .define "min_max_scale", .define "contains_nan_inf", .define "is_iterable_but_not_str"]
  | .config => [.std ["add", "mul"], .ext .numpy ["np"], .define "KernelMethodsException", .define "KMAccessError", .define "KMNormError", .define "KMSetAdditionError", .define "KernelMethodsWarning",
      .define "Chi2NegativeValuesException", .define "VALID_KERNEL_MATRIX_OPS", .define "OPER_KM_OPS", .define "kernel_bucket_strategies", .define "default_degree_values_poly_kernel",
      .define "default_sigma_values_gaussian_kernel", .define "default_gamma_values_laplacian_kernel", .define "default_gamma_values_sigmoid_kernel", .define "default_offset_values_sigmoid_kernel",
      .define "light_degree_values_poly_kernel", .define "light_sigma_values_gaussian_kernel", .define "light_gamma_values_laplacian_kernel", .define "light_gamma_values_sigmoid_kernel",
      .define "light_offset_values_sigmoid_kernel", .define "VALID_RANKING_METHODS", .define "km_dtype", .define "dtype_categorical"]
  | .numericKernels => [.ext .numpy ["np"], .fromMod .base ["BaseKernelFunction"], .fromMod .config ["Chi2NegativeValuesException"], .fromMod .utils ["_ensure_min_eps", "check_input_arrays"],
      .define "HadamardKernel", .define "PolyKernel", .define "GaussianKernel", .define "LaplacianKernel", .define "Chi2Kernel", .define "SigmoidKernel", .define "LinearKernel", .define "DEFINED_KERNEL_FUNCS"]
  | .sampling => [.std ["partial"], .std ["warn"], .ext .numpy ["np"], .fromPkg .config "cfg", .fromMod .base ["BaseKernelFunction", "KernelMatrix", "KernelSet"],
      .fromMod .config ["KernelMethodsException", "KernelMethodsWarning"], .fromMod .numericKernels ["GaussianKernel", "LaplacianKernel", "LinearKernel", "PolyKernel", "SigmoidKernel"],
      .fromMod .operations ["alignment_centered"], .fromMod .utils ["is_iterable_but_not_str"], .ext .scipy ["pearsonr"], .define "KernelBucket", .define "make_kernel_bucket", .define "ideal_kernel",
      .define "correlation_km", .define "pairwise_similarity"]
  | .ranking => [.ext .numpy ["np"], .fromPkg .config "cfg", .fromMod .operations ["alignment_centered"], .fromMod .sampling ["KernelBucket"], .fromMod .utils ["min_max_scale"], .define "find_optimal_kernel",
      .define "rank_kernels", .define "CV_ranking", .define "alignment_ranking", .define "get_estimator"]
  | .algorithms => [.std ["abstractmethod"], .std ["deepcopy"], .ext .numpy ["np"], .ext .sklearn ["BaseEstimator", "ClassifierMixin", "RegressorMixin", "is_classifier", "is_regressor"],
      .ext .sklearn ["NotFittedError"], .ext .sklearn ["SVC", "SVR"], .ext .sklearn ["check_X_y", "check_array"], .fromPkg .config "cfg", .fromMod .base ["KernelMatrix"], .fromMod .numericKernels ["GaussianKernel"],
      .fromMod .ranking ["find_optimal_kernel", "get_estimator"], .fromMod .sampling ["KernelBucket", "make_kernel_bucket"], .define "BaseKernelMachine", .define "KernelMachine", .define "KernelMachineRegressor",
      .define "BaseOptimalKernelMachine", .define "OptimalKernelSVR", .define "OptimalKernelSVC"]
  | .categorical => [.ext .numpy ["np"], .fromMod .base ["BaseKernelFunction"], .fromMod .utils ["check_input_arrays"], .fromPkg .config "cfg", .define "MatchCountKernel", .define "_check_categorical_arrays",
      .define "_ensure_type_size"]

/-- the namespace of a module, a dictionary in order of insertion (for __init__.py:5-27) -/
abbrev NS := List (String × Obj)

/-- assignment to a name (for __init__.py:5-27) -/
def NS.set (n : String) (o : Obj) (d : NS) : NS := if (d.lookup n).isSome then d.map fun p => if p.1 = n then (n, o) else p else d ++ [(n, o)]

/-- `sys.modules`, as far as the package is concerned: the modules of which the import has begun, with their namespaces (for __init__.py:14-36) -/
abbrev St := List (Mod × NS)

/-- assignment to a name in the namespace of a module (for __init__.py:5-27) -/
def St.bind (m : Mod) (n : String) (o : Obj) (s : St) : St := s.map fun p => if p.1 = m then (m, NS.set n o p.2) else p

/-- what a name in the namespace of a module refers to (for __init__.py:14-21) -/
def St.find (m : Mod) (n : String) (s : St) : Option Obj := (s.lookup m).bind (List.lookup n)

/-- one after the other, up to the first exception (for __init__.py:5-27) -/
def runAll {A : Type} (f : A → St → Except ImpErr Unit × St) : List A → St → Except ImpErr Unit × St
  | [], s => (.ok (), s)
  | a :: l, s =>
    match f a s with
    | (.error e, s') => (.error e, s')
    | (.ok (), s') => runAll f l s'

/-- `from kernelmethods.src import n` in the module `m`, once `src` is in `sys.modules`: `ImportError` if it has no such name, for example because its import has not got there yet (for __init__.py:14-21) -/
def pick (m src : Mod) (n : String) (s : St) : Except ImpErr Unit × St :=
  match s.find src n with
  | some o => (.ok (), s.bind m n o)
  | none => (.error .importError, s)

/-- a statement in the module `m`; `imp` imports a module of the package. (for __init__.py:5-27) -/
def step (avail : Ext → Bool) (imp : Mod → St → Except ImpErr Unit × St) (m : Mod) : Stmt → St → Except ImpErr Unit × St
  | .std ns, s => (.ok (), ns.foldl (fun s n => s.bind m n (.std n)) s)
  | .ext e ns, s => if avail e then (.ok (), ns.foldl (fun s n => s.bind m n (.ext e n)) s) else (.error .importError, s)
  | .fromMod m' ns, s =>
    match imp m' s with
    | (.error e, s') => (.error e, s')
    | (.ok (), s') => runAll (pick m m') ns s'
  | .fromPkg m' n, s =>
    match imp m' s with
    | (.error e, s') => (.error e, s')
    | (.ok (), s') => (.ok (), s'.bind m n (.mod m'))
  | .define n, s => (.ok (), s.bind m n (.defn m n))
  | .alias n n', s =>
    match s.find m n' with
    | some o => (.ok (), s.bind m n o)
    | none => (.error .nameError, s)

/-- Import of a module. If it is in `sys.modules`, also if its import has not been completed, nothing happens. Otherwise the package is imported first; then the statements of the module are executed. If one of them raises, the module
is removed from `sys.modules`; otherwise it becomes an attribute of the package. The number bounds the depth of nested imports. (for __init__.py:14-21, 36; the import statement is part of Python) -/
def importMod (avail : Ext → Bool) : Nat → Mod → St → Except ImpErr Unit × St
  | 0, _, s => (.error .recursion, s)
  | k + 1, m, s =>
    if (s.lookup m).isSome then (.ok (), s) else
    match (if m = .pkg then (.ok (), s) else importMod avail k .pkg s) with
    | (.error e, s') => (.error e, s')
    | (.ok (), s') =>
      if (s'.lookup m).isSome then (.ok (), s') else
      match runAll (step avail (importMod avail k) m) (body m) (s' ++ [(m, [])]) with
      | (.error e, s'') => (.error e, s''.filter fun p => p.1 ≠ m)
      | (.ok (), s'') => (.ok (), if m = .pkg then s'' else s''.bind .pkg m.name (.mod m))

/-- Import of a module. Each nested import adds one of the 11 modules to `sys.modules`, possibly after the package. (for __init__.py:14-21, 36) -/
def doImport (avail : Ext → Bool) (m : Mod) (s : St) : Except ImpErr Unit × St := importMod avail 12 m s

/-- Where the package runs: which packages are installed; and the attributes that all module objects have; their names begin with two underscores. (for __init__.py:27) -/
structure Env where
  avail : Ext → Bool
  special : String → Bool
  special_underscores : ∀ n, special n = true → n.toList.take 2 = ['_', '_']

/-- `__getattr__` (__init__.py:27-51). The four names are imported from `algorithms` into local variables. -/
def lazyAttr (env : Env) (n : String) (s : St) : Except ImpErr Obj × St :=
  if n ∈ lazyNames then
    match doImport env.avail .algorithms s with
    | (.error e, s') => (.error e, s')
    | (.ok (), s') =>
      if lazyNames.all fun n' => (s'.find .algorithms n').isSome then
        match s'.find .algorithms n with
        | some o => (.ok o, s')
        | none => (.error .nameError, s')
      else (.error .importError, s')
  else (.error .attributeError, s)

/-- `kernelmethods.n`: the namespace, the attributes of all modules, then `__getattr__` if it has been defined. Without `import kernelmethods`: `NameError`. (for __init__.py:27-51) -/
def attr (env : Env) (n : String) (s : St) : Except ImpErr Obj × St :=
  if (s.lookup .pkg).isNone then (.error .nameError, s) else
  match s.find .pkg n with
  | some o => (.ok o, s)
  | none =>
    if env.special n then (.ok (.special n), s)
    else if (s.find .pkg "__getattr__").isSome then lazyAttr env n s
    else (.error .attributeError, s)

/-- one attribute after the other (for __init__.py:5-12) -/
def attrs (env : Env) : List String → St → Except ImpErr (List Obj) × St
  | [], s => (.ok [], s)
  | n :: l, s =>
    match attr env n s with
    | (.error e, s') => (.error e, s')
    | (.ok o, s') =>
      match attrs env l s' with
      | (.error e, s'') => (.error e, s'')
      | (.ok os, s'') => (.ok (o :: os), s'')

/-- What a program may do with the package: `import kernelmethods` and `kernelmethods.n`; `import kernelmethods.m`; `from kernelmethods import n`; `from kernelmethods import *`. (for __init__.py:5-51) -/
inductive UOp where
  | read (n : String) | importSub (m : Mod) | fromImport (n : String) | star

/-- The objects that result. `from kernelmethods import n` also finds modules that have not been imported yet; it replaces `AttributeError` by `ImportError`. None of `__all__` is a module, so `*` just reads the attributes.
Assigning to attributes of the package, `del` and `importlib.reload` are not modelled. (for __init__.py:5-51) -/
def UOp.exec (env : Env) (op : UOp) (s : St) : Except ImpErr (List Obj) × St :=
  match op with
  | .read n =>
    match doImport env.avail .pkg s with
    | (.error e, s') => (.error e, s')
    | (.ok (), s') => ((attr env n s').1.map ([·]), (attr env n s').2)
  | .importSub m =>
    match doImport env.avail m s with
    | (.error e, s') => (.error e, s')
    | (.ok (), s') => ((doImport env.avail .pkg s').1.map fun _ => [], (doImport env.avail .pkg s').2)
  | .fromImport n =>
    match doImport env.avail .pkg s with
    | (.error e, s') => (.error e, s')
    | (.ok (), s') =>
      match attr env n s' with
      | (.ok o, s'') => (.ok [o], s'')
      | (.error .attributeError, s'') =>
        match Mod.all.find? fun m => m ≠ .pkg ∧ m.name = n with
        | none => (.error .importError, s'')
        | some m =>
          match doImport env.avail m s'' with
          | (.error e, s''') => (.error e, s''')
          | (.ok (), s''') => (.ok [.mod m], s''')
      | (.error e, s'') => (.error e, s'')
  | .star =>
    match doImport env.avail .pkg s with
    | (.error e, s') => (.error e, s')
    | (.ok (), s') => attrs env dunderAll s'

end KMethods.Pkg
