import Verif.Lemmas.PackageStates
import Mathlib.Data.List.Forall2
import Mathlib.Tactic.SplitIfs
/-!
# Lemmas on the package as a whole: what attributes give, in all states
-/
namespace KMethods.Pkg

theorem reach_import (b : Bool) (s : St) (hs : s ∈ reach (av b)) (m : Mod) (_ : m ∈ Mod.all) : (doImport (av b) m s).2 ∈ reach (av b) ∧ (doImport (av b) m s).1 = if m = .algorithms ∧ b = false then .error .importError else .ok () :=
  ⟨(((reach_facts b).2 s hs).1 m (Mod.mem_all m)).1, (((reach_facts b).2 s hs).1 m (Mod.mem_all m)).2.1⟩

variable {env : Env} {b : Bool} {s : St}

theorem Env.Complete.eq (h : env.Complete) : env.avail = av true := by
  funext e
  rw [h e]
  cases e <;> rfl

theorem Env.NoSklearn.eq (h : env.NoSklearn) : env.avail = av false := by
  funext e
  cases e
  · exact h.1
  · exact h.2.1
  · exact h.2.2

theorem start_mem (b : Bool) : [] ∈ reach (av b) := (reach_facts b).1

theorem lookup_mem {l : NS} {n : String} {o : Obj} (h : l.lookup n = some o) : (n, o) ∈ l := by
  induction l with
  | nil => cases h
  | cons p l ih =>
    rw [List.lookup_cons] at h
    split at h
    · rename_i h'
      rw [beq_iff_eq] at h'
      injection h with h
      rw [h', ← h]
      exact List.mem_cons_self
    · exact List.mem_cons_of_mem _ (ih h)

/-- apart from the modules imported later, the namespace of the package does not change -/
theorem find_pkg (hs : s ∈ reach (av b)) (hp : (s.lookup .pkg).isSome) (n : String) : s.find .pkg n = pkgNS.lookup n ∨ ∃ o, s.find .pkg n = some o ∧ (n, o) ∈ later := by
  obtain ⟨d, hd⟩ := Option.isSome_iff_exists.1 hp
  obtain ⟨h1, h2⟩ := ((reach_facts b).2 s hs).2.2.1 d hd
  have e : s.find .pkg n = d.lookup n := by rw [St.find, hd]; rfl
  rw [e, ← List.take_append_drop pkgNS.length d, h1, List.lookup_append]
  rcases h : List.lookup n pkgNS with _ | o
  · rcases h' : List.lookup n (d.drop pkgNS.length) with _ | o
    · exact Or.inl rfl
    · exact Or.inr ⟨o, rfl, h2 _ (lookup_mem h')⟩
  · exact Or.inl rfl

/-- the result of reading an attribute that is not one of the modules imported later -/
def readResult (env : Env) (b : Bool) (n : String) : Except ImpErr Obj :=
  match pkgNS.lookup n with
  | some o => .ok o
  | none => if env.special n then .ok (.special n) else if n ∈ lazyNames then (if b then .ok (.defn .algorithms n) else .error .importError) else .error .attributeError

theorem lazyAttr_run (ha : env.avail = av b) (hs : s ∈ reach (av b)) (hp : (s.lookup .pkg).isSome) (n : String) :
    (lazyAttr env n s).1 = (if n ∈ lazyNames then (if b then .ok (.defn .algorithms n) else .error .importError) else .error .attributeError) ∧
      (lazyAttr env n s).2 ∈ reach (av b) ∧ ((lazyAttr env n s).2.lookup .pkg).isSome := by
  unfold lazyAttr
  rw [ha]
  by_cases hn : n ∈ lazyNames
  · rw [if_pos hn, if_pos hn]
    have h1 := reach_import b s hs .algorithms (Mod.mem_all _)
    have h2 := (((reach_facts b).2 s hs).1 .algorithms (Mod.mem_all _)).2.2 hp
    rcases hr : doImport (av b) .algorithms s with ⟨r, s'⟩
    rw [hr] at h1 h2
    cases b
    · have h3 : r = .error .importError := h1.2
      subst h3
      exact ⟨rfl, h1.1, h2⟩
    · have h3 : r = .ok () := h1.2
      subst h3
      have h4 := ((reach_facts true).2 s hs).2.2.2.2.1 rfl
      rw [hr] at h4
      have h5 : (lazyNames.all fun n' => (St.find .algorithms n' s').isSome) = true := by
        rw [List.all_eq_true]
        intro n' hn'
        rw [h4 n' hn']
        rfl
      dsimp only
      rw [if_pos h5, h4 n hn]
      exact ⟨rfl, h1.1, h2⟩
  · rw [if_neg hn, if_neg hn]
    exact ⟨rfl, hs, hp⟩

theorem lazyAttr_fails (ha : env.avail = av false) (hs : s ∈ reach (av false)) (hp : (s.lookup .pkg).isSome) (n : String) : (lazyAttr env n s).2 = s := by
  unfold lazyAttr
  rw [ha]
  split_ifs
  · have h1 := (reach_import false s hs .algorithms (Mod.mem_all _)).2
    have h2 := ((reach_facts false).2 s hs).2.2.2.2.2 rfl hp
    rcases hr : doImport (av false) .algorithms s with ⟨r, s'⟩
    rw [hr] at h1 h2
    have h3 : r = .error .importError := h1
    subst h3
    exact h2
  · rfl

theorem attr_mem (ha : env.avail = av b) (hs : s ∈ reach (av b)) (hp : (s.lookup .pkg).isSome) (n : String) : (attr env n s).2 ∈ reach (av b) ∧ ((attr env n s).2.lookup .pkg).isSome := by
  unfold attr
  rcases St.find .pkg n s with _ | o <;> dsimp only <;> split_ifs
  all_goals first | exact ⟨hs, hp⟩ | exact (lazyAttr_run ha hs hp n).2

theorem attr_run (ha : env.avail = av b) (hs : s ∈ reach (av b)) (hp : (s.lookup .pkg).isSome) {n : String} (hn : ∀ p ∈ later, p.1 ≠ n) : (attr env n s).1 = readResult env b n := by
  have h1 := (find_pkg hs hp n).resolve_right fun ⟨o, _, h⟩ => hn _ h rfl
  unfold attr readResult
  generalize List.lookup n pkgNS = r at h1 ⊢
  rw [if_neg (by rw [Option.isNone_iff_eq_none]; intro h; rw [h] at hp; cases hp), h1]
  rcases r with _ | o
  · dsimp only
    rw [if_pos (((reach_facts b).2 s hs).2.2.2.1 hp)]
    by_cases hsp : env.special n = true
    · rw [if_pos hsp, if_pos hsp]
    · rw [if_neg hsp, if_neg hsp, (lazyAttr_run ha hs hp n).1]
  · rfl

theorem pkg_run (hs : s ∈ reach (av b)) : (doImport (av b) .pkg s).1 = .ok () ∧ (doImport (av b) .pkg s).2 ∈ reach (av b) ∧ ((doImport (av b) .pkg s).2.lookup .pkg).isSome := by
  have h := reach_import b s hs .pkg (Mod.mem_all _)
  exact ⟨h.2, h.1, ((reach_facts b).2 s hs).2.1⟩

theorem read_run (ha : env.avail = av b) (hs : s ∈ reach (av b)) {n : String} (hn : ∀ p ∈ later, p.1 ≠ n) : ((UOp.read n).exec env s).1 = (readResult env b n).map ([·]) := by
  obtain ⟨h1, h2, h3⟩ := pkg_run hs
  rcases hr : doImport (av b) .pkg s with ⟨r, s'⟩
  rw [hr] at h1 h2 h3
  cases h1
  unfold UOp.exec
  dsimp only
  rw [ha, hr]
  dsimp only
  rw [attr_run ha h2 h3 hn]

theorem attrs_mem (ha : env.avail = av b) (l : List String) : ∀ {s}, s ∈ reach (av b) → (s.lookup .pkg).isSome → (attrs env l s).2 ∈ reach (av b) := by
  induction l with
  | nil => exact fun hs _ => hs
  | cons n l ih =>
    intro s hs hp
    have h := attr_mem ha hs hp n
    unfold attrs
    rcases hr : attr env n s with ⟨_ | o, s'⟩
    · rw [hr] at h
      exact h.1
    · rw [hr] at h
      have h' := ih h.1 h.2
      dsimp only
      rcases hr' : attrs env l s' with ⟨_ | os, s''⟩ <;> rw [hr'] at h' <;> exact h'

theorem exec_mem (ha : env.avail = av b) (hs : s ∈ reach (av b)) (o : UOp) : (o.exec env s).2 ∈ reach (av b) := by
  obtain ⟨h1, h2, h3⟩ := pkg_run hs
  rcases hr : doImport (av b) .pkg s with ⟨r, s'⟩
  rw [hr] at h1 h2 h3
  cases h1
  unfold UOp.exec
  cases o with
  | read n =>
    dsimp only
    rw [ha, hr]
    exact (attr_mem ha h2 h3 n).1
  | importSub m =>
    dsimp only
    rw [ha]
    have h := (reach_import b s hs m (Mod.mem_all _)).1
    rcases hr' : doImport (av b) m s with ⟨_ | _, t⟩ <;> rw [hr'] at h
    · exact h
    · exact (reach_import b t h .pkg (Mod.mem_all _)).1
  | fromImport n =>
    dsimp only
    rw [ha, hr]
    dsimp only
    have h := attr_mem ha h2 h3 n
    rcases hr' : attr env n s' with ⟨_ | o, t⟩ <;> rw [hr'] at h
    · rename_i e
      cases e
      case attributeError =>
        dsimp only
        rcases List.find? (fun m => decide (m ≠ Mod.pkg ∧ m.name = n)) Mod.all with _ | m
        · exact h.1
        · have h' := (reach_import b t h.1 m (Mod.mem_all _)).1
          dsimp only
          rcases hr'' : doImport (av b) m t with ⟨_ | _, t'⟩ <;> rw [hr''] at h' <;> exact h'
      all_goals exact h.1
    · exact h.1
  | star =>
    dsimp only
    rw [ha, hr]
    exact attrs_mem ha dunderAll h2 h3

theorem Used.mem (ha : env.avail = av b) (h : Used env s) : s ∈ reach (av b) := by
  induction h with
  | start => exact start_mem b
  | op o _ ih => exact exec_mem ha ih o

theorem UsedByReads.used (h : UsedByReads env s) : Used env s := by
  induction h with
  | start => exact .start
  | read n _ ih => exact .op _ ih

/-- where each name of `__all__` comes from -/
theorem all_home : ∀ n ∈ dunderAll, ∃ m ∈ Mod.all, (.define n ∈ body m ∧ ∀ m' ∈ Mod.all, .define n ∈ body m' → m' = m) ∧ (∀ p ∈ later, p.1 ≠ n) ∧
    if n ∈ lazyNames then m = .algorithms ∧ pkgNS.lookup n = none ∧ n.toList.take 2 ≠ ['_', '_'] else pkgNS.lookup n = some (.defn m n) := by decide +kernel

theorem lazy_home : ∀ n ∈ lazyNames, pkgNS.lookup n = none ∧ n.toList.take 2 ≠ ['_', '_'] ∧ ∀ p ∈ later, p.1 ≠ n := by decide +kernel

theorem all_result (env : Env) (b : Bool) {n : String} (hn : n ∈ dunderAll) (hb : n ∈ lazyNames → b = true) : ∃ m, DefinedIn m n ∧ (∀ p ∈ later, p.1 ≠ n) ∧ readResult env b n = .ok (.defn m n) := by
  obtain ⟨m, _, h1, h2, h3⟩ := all_home n hn
  refine ⟨m, ⟨h1.1, fun m' => h1.2 m' (Mod.mem_all m')⟩, h2, ?_⟩
  unfold readResult
  split_ifs at h3 with h
  · rw [h3.2.1, if_pos h, hb h, h3.1]
    dsimp only
    rw [if_neg fun h' => h3.2.2 (env.special_underscores n h'), if_pos rfl]
  · rw [h3]

theorem lazy_result (env : Env) {n : String} (hn : n ∈ lazyNames) : (∀ p ∈ later, p.1 ≠ n) ∧ readResult env false n = .error .importError := by
  obtain ⟨h1, h2, h3⟩ := lazy_home n hn
  refine ⟨h3, ?_⟩
  unfold readResult
  rw [h1]
  dsimp only
  rw [if_neg fun h' => h2 (env.special_underscores n h'), if_pos hn]
  rfl

theorem attrs_run (ha : env.avail = av b) (l : List String) (P : String → Obj → Prop) (hl : ∀ n ∈ l, (∀ p ∈ later, p.1 ≠ n) ∧ ∃ o, readResult env b n = .ok o ∧ P n o) :
    ∀ {s}, s ∈ reach (av b) → (s.lookup .pkg).isSome → ∃ os, (attrs env l s).1 = .ok os ∧ List.Forall₂ P l os := by
  induction l with
  | nil => exact fun _ _ => ⟨[], rfl, .nil⟩
  | cons n l ih =>
    intro s hs hp
    have h := attr_mem ha hs hp n
    obtain ⟨hn, o, ho, hP⟩ := hl n List.mem_cons_self
    have h1 := attr_run ha hs hp hn
    rw [ho] at h1
    unfold attrs
    rcases hr : attr env n s with ⟨r, s'⟩
    rw [hr] at h h1
    have h2 : r = .ok o := h1
    subst h2
    obtain ⟨os, h3, h4⟩ := ih (fun n' hn' => hl n' (List.mem_cons_of_mem _ hn')) h.1 h.2
    refine ⟨o :: os, ?_, .cons hP h4⟩
    dsimp only
    rcases hr' : attrs env l s' with ⟨r', s''⟩
    rw [hr'] at h3
    have h5 : r' = .ok os := h3
    subst h5
    rfl

/-- `from kernelmethods import n` for names that are not modules -/
theorem fromImport_run (ha : env.avail = av b) (hs : s ∈ reach (av b)) {n : String} (hn : ∀ m ∈ Mod.all, m.name ≠ n) :
    ((UOp.fromImport n).exec env s).1 = match readResult env b n with | .ok o => .ok [o] | .error .attributeError => .error .importError | .error e => .error e := by
  obtain ⟨h1, h2, h3⟩ := pkg_run hs
  rcases hr : doImport (av b) .pkg s with ⟨r, s'⟩
  rw [hr] at h1 h2 h3
  cases h1
  have hn' : ∀ p ∈ later, p.1 ≠ n := by
    intro p hp
    simp only [later, List.mem_cons, List.not_mem_nil, or_false] at hp
    rcases hp with h | h | h <;> rw [h]
    · exact hn .ranking (Mod.mem_all _)
    · exact hn .algorithms (Mod.mem_all _)
    · exact hn .categorical (Mod.mem_all _)
  have h4 := attr_run ha h2 h3 hn'
  have hf : (Mod.all.find? fun m => decide (m ≠ Mod.pkg ∧ m.name = n)) = none := by
    rw [List.find?_eq_none]
    intro m hm h
    exact hn m hm (of_decide_eq_true h).2
  unfold UOp.exec
  dsimp only
  rw [ha, hr]
  dsimp only
  rcases hr' : attr env n s' with ⟨r', t⟩
  rw [hr'] at h4
  rw [← show r' = readResult env b n from h4]
  rcases r' with e | o
  · cases e
    case attributeError =>
      dsimp only
      rw [hf]
    all_goals rfl
  · rfl

/-- the names in the namespace of the package -/
theorem pkgNS_names : ∀ p ∈ pkgNS, p.1 ∈ dunderAll ∨ p.1.toList.take 2 = ['_', '_'] ∨ p.1 ∈ Mod.all.map Mod.name := by decide +kernel

theorem unknown_result (env : Env) (b : Bool) {n : String} (h1 : n ∉ dunderAll) (h2 : n ≠ "KernelMachineRegressor") (h3 : ∀ m : Mod, m.name ≠ n) (h4 : n.toList.take 2 ≠ ['_', '_']) :
    readResult env b n = .error .attributeError := by
  have h5 : pkgNS.lookup n = none := by
    rcases h : pkgNS.lookup n with _ | o
    · rfl
    · rcases pkgNS_names _ (lookup_mem h) with h' | h' | h'
      · exact absurd h' h1
      · exact absurd h' h4
      · obtain ⟨m, _, hm⟩ := List.mem_map.1 h'
        exact absurd hm (h3 m)
  have h6 : n ∉ lazyNames := by
    intro h
    simp only [lazyNames, List.mem_cons, List.not_mem_nil, or_false] at h
    rcases h with h | h | h | h
    · exact h1 (by rw [h]; decide)
    · exact h2 h
    · exact h1 (by rw [h]; decide)
    · exact h1 (by rw [h]; decide)
  unfold readResult
  rw [h5]
  dsimp only
  rw [if_neg fun h' => h4 (env.special_underscores n h'), if_neg h6]

/-- which packages are installed -/
def av3 (x y z : Bool) : Ext → Bool
  | .numpy => x
  | .scipy => y
  | .sklearn => z

theorem av3_eq (a : Ext → Bool) : a = av3 (a .numpy) (a .scipy) (a .sklearn) := by
  funext e
  cases e <;> rfl

theorem reach_missing : ∀ x y z : Bool, (x && y) = false → [] ∈ reach (av3 x y z) ∧ ∀ s ∈ reach (av3 x y z), (doImport (av3 x y z) .pkg s).1 = .error .importError ∧ ∀ m ∈ Mod.all,
    (doImport (av3 x y z) m s).2 ∈ reach (av3 x y z) ∧ ((doImport (av3 x y z) m s).1 = .error .importError ∨ (doImport (av3 x y z) m s).1 = .ok ()) := by decide +kernel

theorem exec_missing {a : Ext → Bool} (ha : env.avail = a) (hr : ∀ s ∈ reach a, (doImport a .pkg s).1 = .error .importError ∧ ∀ m ∈ Mod.all, (doImport a m s).2 ∈ reach a ∧
    ((doImport a m s).1 = .error .importError ∨ (doImport a m s).1 = .ok ())) (hs : s ∈ reach a) (o : UOp) : (o.exec env s).1 = .error .importError ∧ (o.exec env s).2 ∈ reach a := by
  obtain ⟨h1, h2⟩ := hr s hs
  have h3 := (h2 .pkg (Mod.mem_all _)).1
  rcases hp : doImport a .pkg s with ⟨r, s'⟩
  rw [hp] at h1 h3
  have h4 : r = .error .importError := h1
  subst h4
  unfold UOp.exec
  cases o with
  | importSub m =>
    obtain ⟨h5, h6⟩ := h2 m (Mod.mem_all _)
    dsimp only
    rw [ha]
    rcases hm : doImport a m s with ⟨r, t⟩
    rw [hm] at h5 h6
    rcases h6 with h6 | h6
    · have h6' : r = .error .importError := h6
      subst h6'
      exact ⟨rfl, h5⟩
    · have h6' : r = .ok () := h6
      subst h6'
      refine ⟨?_, ((hr t h5).2 .pkg (Mod.mem_all _)).1⟩
      dsimp only
      rw [(hr t h5).1]
      rfl
  | _ =>
    dsimp only
    rw [ha, hp]
    exact ⟨rfl, h3⟩

/-- no attributes that all modules have -/
def plain (b : Bool) : Env := ⟨av b, fun _ => false, nofun⟩

theorem read_plain (ha : env.avail = av b) {n : String} (hn : n.toList.take 2 ≠ ['_', '_']) (s : St) : (UOp.read n).exec env s = (UOp.read n).exec (plain b) s := by
  have hsp : env.special n = false := Bool.eq_false_iff.2 fun h' => hn (env.special_underscores n h')
  have ha' : (plain b).avail = av b := rfl
  have hsp' : (plain b).special n = false := rfl
  have e : ∀ s, attr env n s = attr (plain b) n s := by
    intro s
    unfold attr lazyAttr
    rw [hsp, hsp', ha, ha']
  unfold UOp.exec
  dsimp only
  rw [ha, ha']
  simp only [e]

theorem plain_later : ∀ p ∈ [("ranking", Mod.ranking), ("algorithms", Mod.algorithms)], ((UOp.read p.1).exec (plain true) []).1 = .error .attributeError ∧
    ((UOp.read p.1).exec (plain true) ((UOp.read "KernelMachine").exec (plain true) []).2).1 = .ok [.mod p.2] := by decide +kernel

/-- the state in which the package has just been imported -/
@[irreducible] def fresh (b : Bool) : St := (doImport (av b) .pkg []).2

theorem fresh_eq (b : Bool) : (doImport (av b) .pkg []).2 = fresh b := by unfold fresh; rfl

theorem fresh_again : ∀ b, (doImport (av b) .pkg (fresh b)).2 = fresh b := by decide +kernel

theorem fresh_facts (b : Bool) : fresh b ∈ reach (av b) ∧ ((fresh b).lookup .pkg).isSome ∧ doImport (av b) .pkg [] = (.ok (), fresh b) ∧ doImport (av b) .pkg (fresh b) = (.ok (), fresh b) := by
  obtain ⟨h1, h2, h3⟩ := pkg_run (start_mem b)
  rw [fresh_eq] at h2 h3
  exact ⟨h2, h3, Prod.ext h1 (fresh_eq b), Prod.ext (pkg_run h2).1 (fresh_again b)⟩

theorem attr_fresh (ha : env.avail = av b) {n : String} (hn : b = true → n ∉ lazyNames) : (attr env n (fresh b)).2 = fresh b := by
  obtain ⟨h1, h2, -, -⟩ := fresh_facts b
  have h3 : (lazyAttr env n (fresh b)).2 = fresh b := by
    cases b
    · exact lazyAttr_fails ha h1 h2 n
    · unfold lazyAttr
      rw [if_neg (hn rfl)]
  unfold attr
  generalize fresh b = P at h3 ⊢
  rcases St.find .pkg n P with _ | o <;> dsimp only <;> split_ifs
  all_goals first | rfl | exact h3

/-- after reads that do not import further modules -/
theorem read_fresh (ha : env.avail = av b) (hs : s = [] ∨ s = fresh b) (n : String) : ((UOp.read n).exec env s) = ((attr env n (fresh b)).1.map ([·]), (attr env n (fresh b)).2) := by
  obtain ⟨-, -, h3, h4⟩ := fresh_facts b
  generalize fresh b = P at hs h3 h4 ⊢
  unfold UOp.exec
  dsimp only
  rw [ha]
  have h5 : doImport (av b) .pkg s = (.ok (), P) := by
    rcases hs with h | h
    · rw [h]; exact h3
    · rw [h]; exact h4
  rw [h5]

theorem reads_fresh (ha : env.avail = av b) {l : List String} (hl : b = true → ∀ n ∈ l, n ∉ lazyNames) (hs : s = [] ∨ s = fresh b) :
    l.foldl (fun s n => ((UOp.read n).exec env s).2) s = [] ∨ l.foldl (fun s n => ((UOp.read n).exec env s).2) s = fresh b := by
  induction l generalizing s with
  | nil => exact hs
  | cons n l ih =>
    have h : ((UOp.read n).exec env s).2 = fresh b := by
      rw [read_fresh ha hs n]
      exact attr_fresh ha fun hb => hl hb n List.mem_cons_self
    rw [List.foldl_cons, h]
    exact ih (fun hb k hk => hl hb k (List.mem_cons_of_mem _ hk)) (.inr rfl)

end KMethods.Pkg
