import Verif.Lemmas.Package
/-!
# C105–C108: importing the package, and its attributes
-/
namespace KMethods
open Pkg
variable {env : Pkg.Env} {s t : St}

/-- **C105** With numpy, scipy and sklearn installed, the package and each of its modules can be imported, in any order, and whatever has been done with the package before. In particular the imports between the modules are not
circular in a way that makes one of them fail. -/
theorem C105_modules (he : env.Complete) (hs : Used env s) (m : Mod) : ((UOp.importSub m).exec env s).1 = .ok [] := by
  have hm := reach_import true s (hs.mem he.eq) m (Mod.mem_all _)
  unfold UOp.exec
  dsimp only
  rw [he.eq]
  rcases hr : doImport (av true) m s with ⟨r, t⟩
  rw [hr] at hm
  have h1 : r = .ok () := hm.2.trans (if_neg (by rintro ⟨_, h⟩; cases h))
  subst h1
  dsimp only
  rw [(pkg_run hm.1).1]
  rfl

/-- **C105** Each name in `__all__` is an attribute of the package: the class of this name, from the only module that defines it. -/
theorem C105_names (he : env.Complete) (hs : Used env s) {n : String} (hn : n ∈ dunderAll) : ∃ m, DefinedIn m n ∧ ((UOp.read n).exec env s).1 = .ok [.defn m n] := by
  obtain ⟨m, h1, h2, h3⟩ := all_result env true hn fun _ => rfl
  exact ⟨m, h1, by rw [read_run he.eq (hs.mem he.eq) h2, h3]; rfl⟩

/-- **C105** `from kernelmethods import n` gives the same object. -/
theorem C105_from (he : env.Complete) (hs : Used env s) {n : String} (hn : n ∈ dunderAll) : ∃ m, DefinedIn m n ∧ ((UOp.fromImport n).exec env s).1 = .ok [.defn m n] := by
  obtain ⟨m, h1, _, h3⟩ := all_result env true hn fun _ => rfl
  have h4 : ∀ n ∈ dunderAll, ∀ m ∈ Mod.all, m.name ≠ n := by decide +kernel
  exact ⟨m, h1, by rw [fromImport_run he.eq (hs.mem he.eq) (h4 n hn), h3]⟩

/-- **C105** So does `from kernelmethods import *`, for all of them. -/
theorem C105_star (he : env.Complete) (hs : Used env s) : ∃ os, (UOp.star.exec env s).1 = .ok os ∧ List.Forall₂ (fun n o => ∃ m, DefinedIn m n ∧ o = .defn m n) dunderAll os := by
  obtain ⟨h1, h2, h3⟩ := pkg_run (hs.mem he.eq)
  rcases hr : doImport (av true) .pkg s with ⟨r, s'⟩
  rw [hr] at h1 h2 h3
  cases h1
  unfold UOp.exec
  dsimp only
  rw [he.eq, hr]
  exact attrs_run he.eq dunderAll _ (fun n hn => by
    obtain ⟨m, h1, h2, h3⟩ := all_result env true hn fun _ => rfl
    exact ⟨h2, _, h3, m, h1, rfl⟩) h2 h3

/-- **C105** A name that is not in `__all__`, is not `KernelMachineRegressor` (see C108), is not that of a module and does not begin with two underscores is not an attribute of the package, whether sklearn is installed or not:
`AttributeError`, and `ImportError` for `from kernelmethods import n`. -/
theorem C105_unknown (he : env.Complete ∨ env.NoSklearn) (hs : Used env s) {n : String} (h1 : n ∉ dunderAll) (h2 : n ≠ "KernelMachineRegressor") (h3 : ∀ m : Mod, m.name ≠ n) (h4 : n.toList.take 2 ≠ ['_', '_']) :
    ((UOp.read n).exec env s).1 = .error .attributeError ∧ ((UOp.fromImport n).exec env s).1 = .error .importError := by
  have hb : ∃ b, env.avail = av b := he.elim (fun h => ⟨_, h.eq⟩) fun h => ⟨_, h.eq⟩
  obtain ⟨b, hb⟩ := hb
  have hn : ∀ p ∈ later, p.1 ≠ n := by
    intro p hp
    simp only [later, List.mem_cons, List.not_mem_nil, or_false] at hp
    rcases hp with h | h | h <;> rw [h]
    · exact h3 .ranking
    · exact h3 .algorithms
    · exact h3 .categorical
  rw [read_run hb (hs.mem hb) hn, fromImport_run hb (hs.mem hb) fun m _ => h3 m, unknown_result env b h1 h2 h3 h4]
  exact ⟨rfl, rfl⟩

/-- **C106** Without sklearn the package can be imported, and so can all its modules but `algorithms`, in any order, and again after failures. -/
theorem C106_modules (he : env.NoSklearn) (hs : Used env s) (m : Mod) : ((UOp.importSub m).exec env s).1 = if m = .algorithms then .error .importError else .ok [] := by
  have hm := reach_import false s (hs.mem he.eq) m (Mod.mem_all _)
  unfold UOp.exec
  dsimp only
  rw [he.eq]
  rcases hr : doImport (av false) m s with ⟨r, t⟩
  rw [hr] at hm
  have h1 : r = if m = .algorithms then .error .importError else .ok () := hm.2.trans (by simp)
  by_cases h : m = .algorithms
  · rw [if_pos h] at h1 ⊢
    subst h1
    rfl
  · rw [if_neg h] at h1 ⊢
    subst h1
    dsimp only
    rw [(pkg_run hm.1).1]
    rfl

/-- **C106** Then all names in `__all__` except those of the three machines give the class of this name. -/
theorem C106_names (he : env.NoSklearn) (hs : Used env s) {n : String} (hn : n ∈ dunderAll) (h : n ∉ ["KernelMachine", "OptimalKernelSVC", "OptimalKernelSVR"]) :
    ∃ m, DefinedIn m n ∧ ((UOp.read n).exec env s).1 = .ok [.defn m n] := by
  have h0 : ∀ n ∈ dunderAll, n ∈ lazyNames → n ∈ ["KernelMachine", "OptimalKernelSVC", "OptimalKernelSVR"] := by decide +kernel
  obtain ⟨m, h1, h2, h3⟩ := all_result env false hn fun h' => absurd (h0 n hn h') h
  exact ⟨m, h1, by rw [read_run he.eq (hs.mem he.eq) h2, h3]; rfl⟩

/-- **C106** The four machines raise `ImportError`, each time. -/
theorem C106_machines (he : env.NoSklearn) (hs : Used env s) {n : String} (hn : n ∈ ["KernelMachine", "KernelMachineRegressor", "OptimalKernelSVC", "OptimalKernelSVR"]) :
    ((UOp.read n).exec env s).1 = .error .importError ∧ ((UOp.fromImport n).exec env s).1 = .error .importError := by
  obtain ⟨h2, h3⟩ := lazy_result env (n := n) hn
  have h4 : ∀ n ∈ lazyNames, ∀ m ∈ Mod.all, m.name ≠ n := by decide +kernel
  rw [read_run he.eq (hs.mem he.eq) h2, fromImport_run he.eq (hs.mem he.eq) (h4 n hn), h3]
  exact ⟨rfl, rfl⟩

/-- **C106** Without numpy or scipy everything raises `ImportError`, each time. -/
theorem C106_missing (he : env.avail .numpy = false ∨ env.avail .scipy = false) (hs : Used env s) (o : UOp) : (o.exec env s).1 = .error .importError := by
  have hr := reach_missing (env.avail .numpy) (env.avail .scipy) (env.avail .sklearn) (by rcases he with h | h <;> rw [h] <;> simp)
  have hm : s ∈ reach (av3 (env.avail .numpy) (env.avail .scipy) (env.avail .sklearn)) := by
    induction hs with
    | start => exact hr.1
    | op o' _ ih => exact (exec_missing (av3_eq _) hr.2 ih o').2
  exact (exec_missing (av3_eq _) hr.2 hm o).1

/-- **C107 (partial)** Full statement: reading an attribute of the package gives the same result whatever attributes have been read before. This is false, see `C107_violated`.
It is the same for all names but those of the three modules that are not imported together with the package; also if other imports have taken place. -/
theorem C107_partial (he : env.Complete ∨ env.NoSklearn) (hs : Used env s) (ht : Used env t) {n : String} (hn : n ∉ ["ranking", "algorithms", "categorical"]) :
    ((UOp.read n).exec env s).1 = ((UOp.read n).exec env t).1 := by
  have hb : ∃ b, env.avail = av b := he.elim (fun h => ⟨_, h.eq⟩) fun h => ⟨_, h.eq⟩
  obtain ⟨b, hb⟩ := hb
  have hn' : ∀ p ∈ later, p.1 ≠ n := fun p hp h => hn (by
    have h0 : ∀ p ∈ later, p.1 ∈ ["ranking", "algorithms", "categorical"] := by decide +kernel
    rw [← h]
    exact h0 p hp)
  rw [read_run hb (hs.mem hb) hn', read_run hb (ht.mem hb) hn']

/-- **C107** For all names, if sklearn is not installed: what an attribute of the package gives does not depend on which attributes have been read before, `l` or `l'`. -/
theorem C107_without_sklearn (he : env.avail .sklearn = false) (l l' : List String) (n : String) :
    ((UOp.read n).exec env (afterReads env l)).1 = ((UOp.read n).exec env (afterReads env l')).1 := by
  have hu : ∀ l : List String, Used env (afterReads env l) := fun l => by
    have : ∀ s, Used env s → Used env (l.foldl (fun s n => ((UOp.read n).exec env s).2) s) := by
      induction l with
      | nil => exact fun _ h => h
      | cons k l ih => exact fun _ h => ih _ (.op _ h)
    exact this _ .start
  by_cases h : env.avail .numpy = false ∨ env.avail .scipy = false
  · rw [C106_missing h (hu l), C106_missing h (hu l')]
  · rw [not_or, Bool.not_eq_false, Bool.not_eq_false] at h
    have ha := Env.NoSklearn.eq (env := env) ⟨h.1, h.2, he⟩
    unfold afterReads
    rw [read_fresh ha (reads_fresh ha (l := l) (fun hb => by cases hb) (.inl rfl)), read_fresh ha (reads_fresh ha (l := l') (fun hb => by cases hb) (.inl rfl))]

/-- **C107 (partial)** If sklearn is installed: for all names, as long as none of the four machines has been read. What is missing: that reading a machine does not change what other attributes give, see `C107_violated`. -/
theorem C107_reads_partial (he : env.Complete) {l l' : List String} (hl : ∀ k ∈ l ++ l', k ∉ ["KernelMachine", "KernelMachineRegressor", "OptimalKernelSVC", "OptimalKernelSVR"]) (n : String) :
    ((UOp.read n).exec env (afterReads env l)).1 = ((UOp.read n).exec env (afterReads env l')).1 := by
  unfold afterReads
  rw [read_fresh he.eq (reads_fresh he.eq (l := l) (fun _ k hk => hl k (List.mem_append_left _ hk)) (.inl rfl)),
    read_fresh he.eq (reads_fresh he.eq (l := l') (fun _ k hk => hl k (List.mem_append_right _ hk)) (.inl rfl))]

/-- **C107** violated: `kernelmethods.ranking` and `kernelmethods.algorithms` raise `AttributeError` at first; after `kernelmethods.KernelMachine` has been read, they are the modules. -/
theorem C107_violated (he : env.Complete) {n : String} (hn : n = "ranking" ∨ n = "algorithms") : ∃ s m, UsedByReads env s ∧ m.name = n ∧ ((UOp.read n).exec env []).1 = .error .attributeError ∧
    ((UOp.read n).exec env s).1 = .ok [.mod m] := by
  have h0 := plain_later
  refine ⟨((UOp.read "KernelMachine").exec env []).2, if n = "ranking" then .ranking else .algorithms, .read _ .start, ?_⟩
  rw [read_plain he.eq (n := "KernelMachine") (by decide +kernel)]
  rcases hn with hn | hn <;> subst hn
  · rw [read_plain he.eq (n := "ranking") (by decide +kernel), read_plain he.eq (n := "ranking") (by decide +kernel)]
    exact ⟨rfl, h0 ("ranking", .ranking) (by decide)⟩
  · rw [read_plain he.eq (n := "algorithms") (by decide +kernel), read_plain he.eq (n := "algorithms") (by decide +kernel)]
    exact ⟨rfl, h0 ("algorithms", .algorithms) (by decide)⟩

/-- **C108 (partial)** Full statement: every attribute of the package that is a class, a function or a constant and does not begin with two underscores is in `__all__`. This is false, see `C108_violated`.
The only exception is `KernelMachineRegressor`. -/
theorem C108_partial (he : env.Complete ∨ env.NoSklearn) (hs : Used env s) {n : String} {m : Mod} (hr : ((UOp.read n).exec env s).1 = .ok [.defn m n]) (h3 : ∀ m : Mod, m.name ≠ n) (h4 : n.toList.take 2 ≠ ['_', '_'])
    (h2 : n ≠ "KernelMachineRegressor") : n ∈ dunderAll := by
  by_contra h1
  rw [(C105_unknown he hs h1 h2 h3 h4).1] at hr
  cases hr

/-- **C108** violated: `KernelMachineRegressor` is an attribute of the package, like the three other machines, but is not in `__all__`; `from kernelmethods import *` does not import it. -/
theorem C108_violated (he : env.Complete) (hs : Used env s) : ((UOp.read "KernelMachineRegressor").exec env s).1 = .ok [.defn .algorithms "KernelMachineRegressor"] ∧ "KernelMachineRegressor" ∉ dunderAll := by
  obtain ⟨h1, h2, h3⟩ := lazy_home "KernelMachineRegressor" (by decide)
  refine ⟨?_, by decide⟩
  rw [read_run he.eq (hs.mem he.eq) h3]
  unfold readResult
  rw [h1]
  dsimp only
  rw [if_neg fun h' => h2 (env.special_underscores _ h'), if_pos (by decide), if_pos rfl]
  rfl

namespace Pkg.Demo
/-- all dependencies installed, and a few of the attributes that all modules have -/
def complete : Env := ⟨fun _ => true, fun n => n ∈ ["__name__", "__dict__", "__class__"], by simp only [decide_eq_true_eq]; decide +kernel⟩
/-- sklearn missing -/
def noSklearn : Env := { complete with avail := fun e => e ≠ .sklearn }
/-- scipy missing -/
def noScipy : Env := { complete with avail := fun e => e ≠ .scipy }
end Pkg.Demo

/-- the hypotheses of C105: after a failed read of an unknown name and the import of `categorical` -/
example : Pkg.Demo.complete.Complete ∧ Used Pkg.Demo.complete ((UOp.importSub .categorical).exec Pkg.Demo.complete ((UOp.read "kernel").exec Pkg.Demo.complete []).2).2 ∧ "OptimalKernelSVC" ∈ dunderAll ∧
    "kernel" ∉ dunderAll ∧ (∀ m : Mod, m.name ≠ "kernel") ∧ "kernel".toList.take 2 ≠ ['_', '_'] :=
  ⟨fun _ => rfl, .op _ (.op _ .start), by decide, by decide, by intro m; cases m <;> decide, by decide⟩

/-- those of C106; after the failure of `kernelmethods.KernelMachine`, the package is imported, and `ranking` is not -/
example : Pkg.Demo.noSklearn.NoSklearn ∧ Used Pkg.Demo.noSklearn ((UOp.read "KernelMachine").exec Pkg.Demo.noSklearn []).2 ∧ ((UOp.read "KernelMachine").exec Pkg.Demo.noSklearn []).2.map (·.1) =
    [.pkg, .base, .config, .operations, .utils, .numericKernels, .sampling, .version] ∧ Pkg.Demo.noScipy.avail .scipy = false ∧ ((UOp.read "KernelMachine").exec Pkg.Demo.noScipy []).2.map (·.1) = [.config] :=
  ⟨⟨rfl, rfl, rfl⟩, .op _ .start, by decide +kernel, rfl, by decide +kernel⟩

/-- those of `C107_reads_partial` and `C107_without_sklearn`: the names of the modules, which are not attributes, may have been read -/
example : (∀ k ∈ ["ranking", "KernelSet"] ++ ["algorithms"], k ∉ ["KernelMachine", "KernelMachineRegressor", "OptimalKernelSVC", "OptimalKernelSVR"]) ∧ Pkg.Demo.noSklearn.avail .sklearn = false ∧
    ((UOp.read "ranking").exec Pkg.Demo.noSklearn []).1 = .error .attributeError := ⟨by decide, rfl, by decide +kernel⟩

/-- those of `C108_partial` -/
example : ((UOp.read "KernelSet").exec Pkg.Demo.complete []).1 = .ok [.defn .base "KernelSet"] := by decide +kernel

end KMethods
