import Verif.Lemmas.Params
import Verif.Props.OptMachine
/-!
# C68: parameters of `OptimalKernelSVC`, `OptimalKernelSVR`
-/
namespace KMethods
open PyM
variable {K X M N W P : Type} {env : Env K X F}

/-- **C68** `get_params` never fails, changes nothing, and has an entry for exactly the arguments of the constructor; after construction it shows the arguments. -/
theorem C68_constructor (est : Est) (kb : BucketParam) (method : String) (p : SvmParams N) (eps0 : N) (heap : Heap K X) :
    (∀ s : OptMachine K X (SvmParams N) M, ∃ ps, OptMachine.getNamed s = (.ok ps, s) ∧ ps.map NamedParam.name = s.est.paramNames) ∧
    ∃ ps, (OptMachine.getNamed (OptMachine.new est kb method p eps0 heap : OptMachine K X (SvmParams N) M)).1 = .ok ps ∧
      valueOf ps "k_bucket" = some (.kBucket kb) ∧ valueOf ps "method" = some (.method method) ∧ valueOf ps "C" = some (.c p.c) ∧
      valueOf ps "shrinking" = some (.shrinking p.shrinking) ∧ valueOf ps "tol" = some (.tol p.tol) ∧
      valueOf ps "epsilon" = match est with
        | .svr => some (.epsilon p.epsilon)
        | .svc => none := by
  refine ⟨fun s => ⟨_, OptMachine.getNamed_eq s, s.shown_names⟩, _, by rw [OptMachine.getNamed_eq], ?_⟩
  cases est <;> simp [OptMachine.new, OptMachine.shown, NamedParam.name, valueOf]

/-- **C68** `set_params(**get_params())` changes nothing. -/
theorem C68_round_trip (s : OptMachine K X (SvmParams N) M) {ps : List (NamedParam N)} (h : (OptMachine.getNamed s).1 = .ok ps) :
    IsKwargs ps ∧ OptMachine.setNamed ps s = (.ok (), s) := by
  rw [OptMachine.getNamed_eq] at h
  obtain rfl : s.shown = ps := by injection h
  constructor
  · constructor
    · rcases s with ⟨_ | _, b, m, h, hp, bk, tx, ty, ok, md⟩ <;> simp [OptMachine.shown]
    · rw [OptMachine.shown_names]
      cases s.est <;> decide +kernel
  · rcases s with ⟨_ | _, b, m, h, hp, bk, tx, ty, ok, md⟩ <;> rfl

/-- **C68** `set_params` never fails. Afterwards `get_params` shows the values given, and for the other parameters the values from before. Nothing but parameters changes. -/
theorem C68_set_get (s : OptMachine K X (SvmParams N) M) {ps : List (NamedParam N)} (hps : IsKwargs ps) :
    ∃ s' before after, OptMachine.setNamed ps s = (.ok (), s') ∧ (OptMachine.getNamed s).1 = .ok before ∧ (OptMachine.getNamed s').1 = .ok after ∧
      (∀ n ∈ s.est.paramNames, valueOf after n = (valueOf ps n).or (valueOf before n)) ∧
      ∃ kb method hyper, s' = { s with kBucket := kb, method := method, hyper := hyper } :=
  ⟨_, _, _, by rw [OptMachine.setNamed_eq], by rw [OptMachine.getNamed_eq], by rw [OptMachine.getNamed_eq],
    fun n hn => by rw [← OptMachine.shown_setNamed ps s hps hn, OptMachine.setNamed_eq],
    ⟨_, _, _, (by rw [OptMachine.setNamed_eq] : _ = (OptMachine.setNamed ps s).2).trans (OptMachine.setNamed_frame ps s)⟩⟩

/-- **C68** Names that are not parameters are ignored without an error: in particular `epsilon` by `OptimalKernelSVC`, and `kernel` by both classes, so that `kernel='precomputed'` (see C56) cannot be
set in this way. -/
theorem C68_ignored (s : OptMachine K X (SvmParams N) M) {ps : List (NamedParam N)} (h : ∀ p ∈ ps, p.name ∉ s.est.paramNames) :
    OptMachine.setNamed ps s = (.ok (), s) := by
  induction ps with
  | nil => rfl
  | cons p ps ih =>
    have hp : OptMachine.setParam (OptMachine.toUpdate s.est p) s = s := by
      have hn := h p List.mem_cons_self
      rcases s with ⟨est, b, m, h, hp, bk, tx, ty, ok, md⟩
      cases p <;> cases est <;> first | rfl | exact absurd (by simp [NamedParam.name, Est.paramNames]) hn
    rw [OptMachine.setNamed_cons, hp]
    exact ih fun q hq => h q (List.mem_cons_of_mem _ hq)

/-- **C68** `set_params` does not change the `epsilon` of an `OptimalKernelSVC`. -/
theorem C68_epsilon (s : OptMachine K X (SvmParams N) M) (hs : s.est = .svc) (ps : List (NamedParam N)) : (OptMachine.setNamed ps s).2.hyper.epsilon = s.hyper.epsilon := by
  induction ps generalizing s with
  | nil => rfl
  | cons p ps ih =>
    rw [OptMachine.setNamed_cons, ih _ (by rw [OptMachine.est_setParam]; exact hs), hs]
    cases p <;> rfl

/-- **C68** `fit` depends on parameters and data, not on what happened before: with the same arguments a new object, constructed with the values shown by `get_params`, raises if and only if the
old one does (and the same exception), treats the kernel matrices in the bucket in the same way, and after success it is in the same state. -/
theorem C68_refit (mkB : String → PyM (Heap K X) Bucket) (cv : List F → CVScore) (L : SvmLearner (SvmParams N) M W P) (checked : Except PyErr (Arr2 X × List F)) (w : W)
    (s : OptMachine K X (SvmParams N) M) {eps0 : N} (he : s.est = .svc → s.hyper.epsilon = eps0) :
    let new := OptMachine.fit env mkB cv L checked w (OptMachine.new s.est s.kBucket s.method s.hyper eps0 s.heap)
    let old := OptMachine.fit env mkB cv L checked w s
    new.1 = old.1 ∧ new.2.heap = old.2.heap ∧ (old.1 = .ok () → new.2 = old.2) := by
  have h0 : (OptMachine.new s.est s.kBucket s.method s.hyper eps0 s.heap : OptMachine K X (SvmParams N) M) =
      { s with bucket := none, trainX := none, trainY := none, optKernel := none, model := none } := by
    rcases s with ⟨_ | _, b, m, h, hp, bk, tx, ty, ok, md⟩
    · obtain rfl := he rfl
      rfl
    · rfl
  obtain ⟨h1, h2, h3⟩ := OptMachine.fit_same (env := env) mkB cv L checked w s none none none none none
  dsimp only
  rw [h0]
  exact ⟨h1.symm, h2.symm, fun h => (h3 h).symm⟩

/-- an `OptimalKernelSVC` is made, `C` and `epsilon` are set: `C` is shown, `epsilon` is not; and a name that is not a parameter -/
example : ∃ s s' : OptMachine Bool Nat (SvmParams ℚ) Unit, s = OptMachine.new .svc (.str "light") "cv_risk" ⟨1, 0, 1, 1 / 1000⟩ 0 ⟨fun _ => none, 0⟩ ∧
    OptMachine.setNamed [.c 10, .epsilon 5, .other "kernel"] s = (.ok (), s') ∧
    (OptMachine.getNamed s').1 = .ok [.kBucket (.str "light"), .method "cv_risk", .c 10, .shrinking 1, .tol (1 / 1000)] ∧ s'.hyper.epsilon = 0 ∧
    IsKwargs ([.c 10, .epsilon 5, .other "kernel"] : List (NamedParam ℚ)) :=
  ⟨_, _, rfl, rfl, rfl, rfl, ⟨by simp [Est.paramNames], by simp [NamedParam.name]⟩⟩

end KMethods
