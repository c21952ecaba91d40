import Verif.Lemmas.SessionComp
import Verif.Lemmas.World
/-!
# Sets, composite kernels, rankings and so on change kernel matrices by calling their methods only
-/
namespace KMethods
open PyM KMState
variable {K X α β : Type} {env : Env K X F} {P : KMOp X → Prop}

/-- what `m` does to a kernel matrix is the effect of calls satisfying `P` -/
def ActsBy (env : Env K X F) (P : KMOp X → Prop) (m : PyM (KMState K X F) α) : Prop := ∀ t, ∃ ops, (∀ o ∈ ops, P o) ∧ (m t).2 = KMState.run env ops t

theorem ActsBy.exec {op : KMOp X} (h : P op) : ActsBy env P (KMState.exec env op) := fun _ => ⟨[op], by simpa using h, rfl⟩
theorem ActsBy.of_exec {op : KMOp X} (h : P op) {m : PyM (KMState K X F) α} (hm : ∀ t, (m t).2 = (KMState.exec env op t).2) : ActsBy env P m := fun t => ⟨[op], by simpa using h, hm t⟩

/-- the basic calls are allowed -/
def AllowsBasic (P : KMOp X → Prop) : Prop := ∀ o : KMOp X, o.Basic → P o
/-- `attach_to` is allowed -/
def AllowsAttach (P : KMOp X → Prop) : Prop := ∀ o : KMOp X, o.isAttach = true → P o

/-- the invariant `J` of heaps is preserved by allocations and calls -/
structure Closed (env : Env K X F) (P : KMOp X → Prop) (J : Heap K X → Prop) : Prop where
  basic : AllowsBasic P
  km : ∀ k norm c, Pres J (Heap.alloc (.km (KMState.init k norm c)))
  pre : ∀ p, Pres J (Heap.alloc (.pre p))
  call : ∀ {α : Type} (r : Nat) {m : PyM (KMState K X F) α}, ActsBy env P m → Pres J (Heap.call r m)

variable {J : Heap K X → Prop}

namespace Closed

theorem full (hJ : Closed env P J) (r : Nat) : Pres J (Heap.full env r) := by
  intro h hh
  have := hJ.call r (m := KMState.full env) (.of_exec (op := .full) (hJ.basic _ trivial) fun t => by rw [exec_full_run]) h hh
  unfold Heap.full
  split
  · exact hh
  · exact this

theorem setAttr (hJ : Closed env P J) (r : Nat) (n v : String) : Pres J (Heap.call r (KMState.setAttr n v)) :=
  hJ.call r (.of_exec (op := .setAttr n v) (hJ.basic _ trivial) fun _ => rfl)

theorem getAttr (hJ : Closed env P J) (r : Nat) (n v : String) : Pres J (Heap.call r (KMState.getAttrVal n v)) :=
  hJ.call r (.of_exec (op := .getAttr n v) (hJ.basic _ trivial) fun _ => rfl)

theorem attach (hJ : Closed env P J) (hP : AllowsAttach P) (r : Nat) (one : SampleIn X) (two : Option (SampleIn X)) : Pres J (Heap.call r (KMState.attach one two)) :=
  hJ.call r (.of_exec (op := .attach one two) (hP _ rfl) fun t => by rw [exec_attach_run])

end Closed

/-! ## sets -/

/-- the heap of a set satisfies `J` -/
abbrev OnSet (J : Heap K X → Prop) (s : SetSt K X) : Prop := J s.heap

theorem onSet_onHeap {m : PyM (Heap K X) α} (h : Pres J m) : Pres (OnSet J) (SetSt.onHeap m) := fun s hs => h s.heap hs
theorem onSet_modSet (f : KSet → KSet) : Pres (OnSet J) (SetSt.modSet f : PyM (SetSt K X) Unit) := fun _ hs => hs
theorem onSet_when (c : Bool) {m : PyM (SetSt K X) Unit} (h : Pres (OnSet J) m) : Pres (OnSet J) (PyM.when c m) := by
  cases c
  · exact .pure _
  · exact h

theorem onSet_appendRef (r : Nat) : Pres (OnSet J) (SetSt.appendRef r : PyM (SetSt K X) Unit) :=
  .get fun _ => (Pres.lift _).bind fun _ => (onSet_when _ (onSet_modSet _)).bind fun _ => .get fun _ => (Pres.raiseIf _ _).bind fun _ => onSet_modSet _

namespace Closed

theorem append (hJ : Closed env P J) (a : AppendArg) : Pres (OnSet J) (SetSt.append a : PyM (SetSt K X) Unit) := by
  cases a with
  | ref r => exact onSet_appendRef r
  | kernelFunc => exact .of_eq fun _ => rfl
  | other x => exact (Pres.lift _).bind fun p => (onSet_onHeap (hJ.pre p)).bind fun r => onSet_appendRef r

theorem appendNew (hJ : Closed env P J) (norm : Bool) (k : Except PyErr K) : Pres (OnSet J) (SetSt.appendNew norm k : PyM (SetSt K X) Unit) :=
  (Pres.lift _).bind fun k => (onSet_onHeap (hJ.km k norm 0)).bind fun r => onSet_appendRef r

theorem addParametrized {V : Type} (hJ : Closed env P J) (f : BucketFlags) (cls : KernelClassArg K V) (param : String) (values : ValuesArg V) :
    Pres (OnSet J) (SetSt.addParametrized f cls param values : PyM (SetSt K X) Unit) := by
  cases cls with
  | other => exact .of_eq fun _ => rfl
  | cls build =>
    cases values with
    | none => exact .pure _
    | notIterable => exact .of_eq fun _ => rfl
    | unsized => exact .of_eq fun _ => rfl
    | seq l => exact (Pres.raiseIf _ _).bind fun _ => .forEach fun v => fun s hs => hJ.appendNew f.norm (build f.skip param v) s hs

theorem mkBucket {V : Type} (hJ : Closed env P J) (lib : KernelLib K V) (normalize skip : Option Bool) (vals : BucketValues V) : Pres J (mkBucket lib normalize skip vals) := by
  intro h hh
  rcases normalize with _ | n
  · exact hh
  rcases skip with _ | k
  · exact hh
  have : Pres (OnSet J) (bucketBody lib ⟨n, k⟩ vals : PyM (SetSt K X) Unit) :=
    (hJ.appendNew _ _).bind fun _ => (onSet_modSet _).bind fun _ => (hJ.addParametrized _ _ _ _).bind fun _ => (hJ.addParametrized _ _ _ _).bind fun _ => (hJ.addParametrized _ _ _ _).bind fun _ =>
      (hJ.addParametrized _ _ _ _).bind fun _ => hJ.addParametrized _ _ _ _
  exact this ⟨h, .new .unset⟩ hh

theorem mkSet (hJ : Closed env P J) (arg : InitArg) (num : NumSamples) : Pres J (mkSet arg num) := by
  intro h hh
  cases arg with
  | none => exact hh
  | one a => exact hJ.append a ⟨h, .new num⟩ hh
  | list l => exact (Pres.forEach (I := OnSet J) (l := l) fun a => hJ.append a) ⟨h, .new num⟩ hh
  | other => exact hh

theorem setAttach (hJ : Closed env P J) (hP : AllowsAttach P) (sample : SetSample X) (attr : Option (String × String)) : Pres (OnSet J) (SetSt.attach sample attr : PyM (SetSt K X) Unit) := by
  refine (Pres.lift _).bind fun n => .get fun s => (Pres.raiseIf _ _).bind fun _ => (onSet_modSet _).bind fun _ => (Pres.forEach fun r => onSet_onHeap (hJ.attach hP r _ _)).bind fun _ => ?_
  cases attr with
  | none => exact .pure _
  | some a => exact .forEach fun r => onSet_onHeap (hJ.setAttr r _ _)

theorem extend (t : KSet) : Pres (OnSet J) (SetSt.extend (some t) : PyM (SetSt K X) Unit) :=
  .get fun _ => (Pres.raiseIf _ _).bind fun _ => .forEach fun r => onSet_appendRef r

theorem setSetAttr (hJ : Closed env P J) (name : String) (values : AttrVals) : Pres (OnSet J) (SetSt.setAttr name values : PyM (SetSt K X) Unit) := by
  refine .get fun s => ?_
  cases values with
  | unsized => exact .of_eq fun _ => rfl
  | scalar v => exact .forEach fun r => onSet_onHeap (hJ.setAttr r _ _)
  | seq l => exact (Pres.raiseIf _ _).bind fun _ => .forEach fun p => onSet_onHeap (hJ.setAttr _ _ _)

theorem setGetAttr (hJ : Closed env P J) (name default : String) : Pres (OnSet J) (SetSt.getAttr name default : PyM (SetSt K X) (List String)) :=
  .get fun _ => .mapEach fun r => onSet_onHeap (hJ.getAttr r _ _)

theorem getItem (idx : SetIdx) : Pres (OnSet J) (SetSt.getItem idx : PyM (SetSt K X) Nat) := by
  cases idx with
  | other => exact .of_eq fun _ => rfl
  | intList => exact .of_eq fun _ => rfl
  | int i => exact .get fun _ => (Pres.raiseIf _ _).bind fun _ => .pure _

theorem rank (hJ : Closed env P J) (cv : CVScore) (targets : List F) (method : String) (p : MethodParams) : Pres (OnSet J) (rankKernels env cv targets method p : PyM (SetSt K X) (List F)) := by
  refine (Pres.raiseIf _ _).bind fun _ => ?_
  split_ifs
  · exact .get fun _ => .mapEach fun r => (onSet_onHeap (hJ.full r)).bind fun _ => (Pres.raiseIf _ _).bind fun _ => .lift _
  · exact (Pres.raiseIf _ _).bind fun _ => .get fun _ => (Pres.mapEach fun r => (Pres.lift _).bind fun _ => (onSet_onHeap (hJ.full r)).bind fun _ => .lift _).bind fun _ =>
      (Pres.lift _).bind fun _ => .pure _

theorem find (hJ : Closed env P J) (hP : AllowsAttach P) (cv : CVScore) (c : Bool) (sample : SetSample X) (targets : List F) (method : String) (p : MethodParams) :
    Pres (OnSet J) (findOptimalKernel env cv c sample targets method p : PyM (SetSt K X) Nat) :=
  (Pres.raiseIf _ _).bind fun _ => (Pres.raiseIf _ _).bind fun _ => (hJ.setAttach hP sample none).bind fun _ => (hJ.rank cv targets method p).bind fun _ => (Pres.lift _).bind fun _ => getItem _

/-! ## functions on sets -/

theorem combine (hJ : Closed env P J) (t : KSet) (w : WeightsIn) (norm : Bool) : Pres J (linearCombination env t w norm) := by
  refine (Pres.lift _).bind fun l => (Pres.lift _).bind fun Z => ?_
  have : ∀ (l : List (F × Nat)) acc, Pres J (combLoop env l acc) := by
    intro l
    induction l with
    | nil => exact fun _ => .pure _
    | cons p l ih => exact fun _ => (hJ.full _).bind fun _ => (Pres.lift _).bind fun _ => ih _
  exact this _ _

theorem similarity (hJ : Closed env P J) (t : KSet) (metric : String) : Pres J (pairwiseSimilarity env t metric) := by
  have : ∀ est (l : List (Nat × Nat)) acc, Pres J (pairLoop env est t.members l acc) := by
    intro est l
    induction l with
    | nil => exact fun _ => .pure _
    | cons p l ih => exact fun _ => (hJ.full _).bind fun _ => (hJ.full _).bind fun _ => (Pres.lift _).bind fun _ => ih _
  exact (Pres.lift _).bind fun est => (this est _ _).bind fun _ => .pure _

end Closed

/-! ## composite kernels -/

abbrev OnComp (J : Heap K X → Prop) (s : CompSt K X) : Prop := J s.heap

namespace Closed

theorem step (hJ : Closed env P J) (f : Fmt × Mat F → Fmt × Mat F → Except PyErr (Fmt × Mat F)) (r : Nat) : Pres (OnComp J) (CompSt.step env f r : PyM (CompSt K X) Unit) :=
  (Pres.getAttr _).bind fun _ => Pres.bind (fun s hs => hJ.full r s.heap hs) fun _ => (Pres.lift _).bind fun _ => fun _ hs => hs

theorem weightedSum (hJ : Closed env P J) (l : List F) : Pres (OnComp J) (CompSt.weightedSum env l : PyM (CompSt K X) Unit) :=
  .get fun _ => (Pres.lift _).bind fun _ => Pres.bind (fun _ hs => hs) fun _ => .forEach fun _ => hJ.step _ _

theorem fit (hJ : Closed env P J) (w : Option WeightsIn) : Pres (OnComp J) (CompSt.fit env w : PyM (CompSt K X) Unit) := by
  refine .get fun s => Pres.bind ?_ fun _ => fun _ hs => hs
  unfold CompSt.fitBody
  rcases s.comp.kind with _ | _ | _ | l
  · exact (Pres.lift _).bind fun _ => hJ.weightedSum _
  · exact (Pres.raiseIf _ _).bind fun _ => (Pres.lift _).bind fun _ => Pres.bind (fun _ hs => hs) fun _ => .forEach fun _ => hJ.step _ _
  · refine (Pres.raiseIf _ _).bind fun _ => (Pres.lift _).bind fun _ => Pres.bind (fun _ hs => hs) fun _ => Pres.bind (.forEach fun _ => hJ.step _ _) fun _ => ?_
    exact (Pres.getAttr _).bind fun _ => fun _ hs => hs
  · exact (Pres.raiseIf _ _).bind fun _ => hJ.weightedSum _

end Closed

/-! ## programs -/

/-- the heap of a program satisfies `J`, and its first variables are `vars` -/
def OnProg (J : Heap K X → Prop) (vars : List Nat) (s : ProgSt K X) : Prop := J s.heap ∧ vars <+: s.loc.vars

variable {vars : List Nat}

theorem onProg_onHeap {m : PyM (Heap K X) α} (h : Pres J m) : Pres (OnProg J vars) (ProgSt.onHeap m) := fun s hs => ⟨h s.heap hs.1, hs.2⟩
theorem onProg_var (l : Locals → List α) (v : Nat) : Pres (OnProg J vars) (ProgSt.var l v : PyM (ProgSt K X) α) := .of_eq fun s => by
  unfold ProgSt.var
  split <;> rfl
theorem onProg_bindVar (r : Nat) : Pres (OnProg J vars) (ProgSt.bindVar r : PyM (ProgSt K X) Unit) := fun _ hs => ⟨hs.1, hs.2.trans (List.prefix_append _ _)⟩
theorem onProg_bindSet (t : KSet) : Pres (OnProg J vars) (ProgSt.bindSet t : PyM (ProgSt K X) Unit) := fun _ hs => hs
theorem onProg_bindComp (i : Nat) (c : Comp) : Pres (OnProg J vars) (ProgSt.bindComp i c : PyM (ProgSt K X) Unit) := fun _ hs => hs
theorem onProg_onSet (i : Nat) {m : PyM (SetSt K X) α} (h : Pres (OnSet J) m) : Pres (OnProg J vars) (ProgSt.onSet i m) :=
  (onProg_var _ _).bind fun t => fun s hs => ⟨h ⟨s.heap, t⟩ hs.1, hs.2⟩
theorem onProg_onComp (c : Nat) {m : PyM (CompSt K X) α} (h : Pres (OnComp J) m) : Pres (OnProg J vars) (ProgSt.onComp c m) :=
  (onProg_var _ _).bind fun x => (onProg_var _ _).bind fun t => fun s hs => ⟨h ⟨s.heap, t, x.2⟩ hs.1, hs.2⟩

theorem Closed.exec (hJ : Closed env P J) (op : POp K X) (hop : ∀ o, op.MayCall o → P o) : Pres (OnProg J vars) (ProgSt.exec env op) := by
  cases op with
  | newKM k norm t => exact (onProg_onHeap (hJ.km k norm t)).bind fun r => (onProg_bindVar r).bind fun _ => .pure _
  | newPre x => exact (Pres.lift _).bind fun p => (onProg_onHeap (hJ.pre p)).bind fun r => (onProg_bindVar r).bind fun _ => .pure _
  | km v op => exact (onProg_var _ _).bind fun r => (onProg_onHeap (hJ.call r (.exec (hop _ rfl)))).bind fun _ => .pure _
  | full v => exact (onProg_var _ _).bind fun r => (onProg_onHeap (hJ.full r)).bind fun _ => .pure _
  | newSet arg num => exact Pres.get fun s => (Pres.lift _).bind fun _ => (onProg_onHeap (hJ.mkSet _ _)).bind fun t => (onProg_bindSet t).bind fun _ => .pure _
  | append i a => exact Pres.get fun s => (Pres.lift _).bind fun _ => (onProg_onSet i (hJ.append _)).bind fun _ => .pure _
  | item i idx => exact (onProg_onSet i (Closed.getItem idx)).bind fun r => (onProg_bindVar r).bind fun _ => .pure _
  | size i => exact (onProg_onSet i (.get fun _ => .pure _)).bind fun _ => .pure _
  | take i idx => exact (onProg_onSet i (.get fun _ => (Pres.lift _).bind fun _ => .lift _)).bind fun t => (onProg_bindSet t).bind fun _ => .pure _
  | extend i j => exact (onProg_var _ _).bind fun t => (onProg_onSet i (Closed.extend t)).bind fun _ => .pure _
  | attach i sample attr => exact (onProg_onSet i (hJ.setAttach hop _ _)).bind fun _ => .pure _
  | setAttr i name values => exact (onProg_onSet i (hJ.setSetAttr _ _)).bind fun _ => .pure _
  | getAttr i name default => exact (onProg_onSet i (hJ.setGetAttr _ _)).bind fun _ => .pure _
  | newComposite cls i => exact (onProg_var _ _).bind fun t => (Pres.lift _).bind fun y => (onProg_bindComp i y).bind fun _ => .pure _
  | fit d w => exact (onProg_onComp d (hJ.fit w)).bind fun _ => .pure _
  | composite d => exact (onProg_onComp d (.get fun _ => (Pres.raiseIf _ _).bind fun _ => .getAttr _)).bind fun _ => .pure _
  | combine i w norm => exact (onProg_var _ _).bind fun t => (onProg_onHeap (hJ.combine _ _ _)).bind fun _ => .pure _
  | rank i cv targets method p => exact (onProg_onSet i (hJ.rank _ _ _ _)).bind fun _ => .pure _
  | find i isBucket cv sample targets method p => exact (onProg_onSet i (hJ.find hop _ _ _ _ _ _)).bind fun r => (onProg_bindVar r).bind fun _ => .pure _
  | similarity i metric => exact (onProg_var _ _).bind fun t => (onProg_onHeap (hJ.similarity _ _)).bind fun _ => .pure _
  | newBucket lib normalize skip vals => exact (onProg_onHeap (hJ.mkBucket _ _ _ _)).bind fun t => (onProg_bindSet t.set).bind fun _ => .pure _
  | addKernels i flags cls param values => exact (onProg_onSet i (hJ.addParametrized _ _ _ _)).bind fun _ => .pure _

theorem Closed.run (hJ : Closed env P J) (l : List (POp K X)) (hl : ∀ op ∈ l, ∀ o, op.MayCall o → P o) {s : ProgSt K X} (hs : OnProg J vars s) : OnProg J vars (ProgSt.run env l s).2 := by
  induction l generalizing s with
  | nil => exact hs
  | cons op l ih => exact ih (fun o ho => hl o (List.mem_cons_of_mem _ ho)) (hJ.exec op (hl op List.mem_cons_self) s hs)

/-! ## invariants -/

theorem reachable_run {k : K} {norm : Bool} {t : KMState K X F} (h : Reachable env k norm t) (ops : List (KMOp X)) : Reachable env k norm (KMState.run env ops t) := by
  induction ops generalizing t with
  | nil => exact h
  | cons o l ih => exact ih (h.call o)

/-- the heap after `h₀`: the objects of `h₀` have changed by calls satisfying `P` only -/
structure After (env : Env K X F) (P : KMOp X → Prop) (h₀ h : Heap K X) : Prop where
  fresh : ∀ r, h.next ≤ r → h.objs r = none
  km : ∀ r t, h₀.objs r = some (.km t) → ∃ ops, (∀ o ∈ ops, P o) ∧ h.objs r = some (.km (KMState.run env ops t))
  pre : ∀ r p, h₀.objs r = some (.pre p) → h.objs r = some (.pre p)

theorem After.refl {h : Heap K X} (hf : ∀ r, h.next ≤ r → h.objs r = none) : After env P h h := ⟨hf, fun _ _ ht => ⟨[], nofun, ht⟩, fun _ _ hp => hp⟩

theorem After.alloc {h₀ h : Heap K X} (hh : After env P h₀ h) (o : Obj K X) : After env P h₀ (Heap.alloc o h).2 := by
  have hne : ∀ {r x}, h.objs r = some x → r ≠ h.next := fun hx e => by rw [e, hh.fresh _ le_rfl] at hx; cases hx
  refine ⟨fun r hr => ?_, fun r t ht => ?_, fun r p hp => ?_⟩
  · change h.next + 1 ≤ r at hr
    show Function.update h.objs h.next (some o) r = none
    rw [Function.update_of_ne (by omega)]
    exact hh.fresh r (by omega)
  · obtain ⟨ops, h1, h2⟩ := hh.km r t ht
    refine ⟨ops, h1, ?_⟩
    show Function.update h.objs h.next (some o) r = _
    rw [Function.update_of_ne (hne h2), h2]
  · show Function.update h.objs h.next (some o) r = _
    rw [Function.update_of_ne (hne (hh.pre r p hp)), hh.pre r p hp]

theorem After.call {h₀ h : Heap K X} (hh : After env P h₀ h) (r : Nat) {m : PyM (KMState K X F) α} (hm : ActsBy env P m) : After env P h₀ (Heap.call r m h).2 := by
  unfold Heap.call
  split
  · rename_i t ht
    refine ⟨fun q hq => ?_, fun q u hu => ?_, fun q p hp => ?_⟩
    · show Function.update h.objs r _ q = none
      have hq' := hh.fresh q hq
      rw [Function.update_of_ne ?_, hq']
      rintro rfl
      rw [hq'] at ht
      cases ht
    · obtain ⟨ops, h1, h2⟩ := hh.km q u hu
      show ∃ ops, _ ∧ Function.update h.objs r _ q = _
      by_cases hq : q = r
      · subst hq
        rw [h2] at ht
        cases ht
        obtain ⟨ops', h3, h4⟩ := hm (KMState.run env ops u)
        refine ⟨ops ++ ops', fun o ho => (List.mem_append.1 ho).elim (h1 o) (h3 o), ?_⟩
        rw [Function.update_self, h4]
        unfold KMState.run
        rw [List.foldl_append]
      · exact ⟨ops, h1, by rw [Function.update_of_ne hq, h2]⟩
    · show Function.update h.objs r _ q = _
      have hp' := hh.pre q p hp
      rw [Function.update_of_ne ?_, hp']
      rintro rfl
      rw [hp'] at ht
      cases ht
  · exact hh

theorem After.closed (hP : AllowsBasic P) (h₀ : Heap K X) : Closed env P (After env P h₀) :=
  ⟨hP, fun _ _ _ _ hh => hh.alloc _, fun _ _ hh => hh.alloc _, fun r _ hm _ hh => hh.call r hm⟩

theorem ok_closed : Closed env (fun _ => True) (Heap.Ok (X := X) env) := by
  refine ⟨fun _ _ => trivial, fun k norm c h hh => ?_, fun p h hh => ?_, fun r m hm h hh => hh.call r m fun k norm t ht => ?_⟩
  · exact (Heap.Ok.alloc hh _ fun t ht => by cases ht; exact ⟨k, norm, .new c⟩).1
  · exact (Heap.Ok.alloc hh _ fun t ht => by cases ht).1
  · obtain ⟨ops, -, h2⟩ := hm t
    rw [h2]
    exact reachable_run ht ops

theorem empty_onProg : OnProg (Heap.Ok env) [] (ProgSt.empty : ProgSt K X) := by
  refine ⟨⟨fun _ _ => rfl, fun r t h => ?_⟩, List.nil_prefix⟩
  have h' : (none : Option (Obj K X)) = some (.km t) := h
  cases h'

/-- programs have no dangling references -/
theorem ok_run (l : List (POp K X)) : Heap.Ok env (ProgSt.run env l (ProgSt.empty : ProgSt K X)).2.heap := (ok_closed.run l (fun _ _ _ _ => trivial) empty_onProg).1

theorem after_run (hP : AllowsBasic P) {s : ProgSt K X} (hs : Heap.Ok env s.heap) (l : List (POp K X)) (hl : ∀ op ∈ l, ∀ o, op.MayCall o → P o) :
    After env P s.heap (ProgSt.run env l s).2.heap ∧ s.loc.vars <+: (ProgSt.run env l s).2.loc.vars :=
  (After.closed hP s.heap).run l hl ⟨.refl hs.1, List.prefix_rfl⟩

theorem since_runs {k : K} {norm : Bool} {a : Attachment X} {t : KMState K X F} (h : Since env k norm a P t) (ops : List (KMOp X)) (ho : ∀ o ∈ ops, o.isAttach = false ∧ P o) :
    Since env k norm a P (KMState.run env ops t) := by
  induction ops generalizing t with
  | nil => exact h
  | cons o l ih => exact ih (h.call o (ho o List.mem_cons_self).1 (ho o List.mem_cons_self).2) fun q hq => ho q (List.mem_cons_of_mem _ hq)

theorem prefix_get {α : Type} {l l' : List α} (h : l <+: l') {i : Nat} {x : α} (hx : l[i]? = some x) : l'[i]? = some x := by
  obtain ⟨t, rfl⟩ := h
  rw [List.getElem?_append_left (List.getElem?_eq_some_iff.1 hx).1, hx]

theorem exec_km_obj {s : ProgSt K X} {v : Nat} {t : KMState K X F} (h : s.obj v = some (.km t)) (op : KMOp X) : (ProgSt.exec env (.km v op) s).1 = (KMState.exec env op t).1.map .km := by
  obtain ⟨r, hv, ht⟩ := Option.bind_eq_some_iff.1 h
  have e1 : ProgSt.var (K := K) (X := X) (·.vars) v s = (.ok r, s) := by
    unfold ProgSt.var
    dsimp only
    rw [hv]
  show ((ProgSt.var (·.vars) v >>= fun r => ProgSt.onHeap (Heap.call r (KMState.exec env op)) >>= fun o => pure (POut.km o) : PyM (ProgSt K X) POut) s).1 = _
  rw [bind_ok e1, bind_run]
  unfold ProgSt.onHeap Heap.call
  rw [ht]
  dsimp only
  rcases (KMState.exec env op t).1 with e | o <;> rfl

theorem run_snoc (l : List (POp K X)) (op : POp K X) (s : ProgSt K X) : (ProgSt.run env (l ++ [op]) s).2 = (ProgSt.exec env op (ProgSt.run env l s).2).2 := by
  induction l generalizing s with
  | nil => rfl
  | cons o l ih => exact ih (ProgSt.exec env o s).2

theorem run_app (l l' : List (POp K X)) (s : ProgSt K X) : (ProgSt.run env (l ++ l') s).2 = (ProgSt.run env l' (ProgSt.run env l s).2).2 := by
  induction l generalizing s with
  | nil => rfl
  | cons o l ih => exact ih (ProgSt.exec env o s).2

/-- a call on a kernel matrix in a program leaves its variable with the state after the call -/
theorem exec_km_state {s : ProgSt K X} {v : Nat} {t : KMState K X F} (h : s.obj v = some (.km t)) (op : KMOp X) :
    (ProgSt.exec env (.km v op) s).2.obj v = some (.km (KMState.exec env op t).2) := by
  obtain ⟨r, hv, ht⟩ := Option.bind_eq_some_iff.1 h
  have e1 : ProgSt.var (K := K) (X := X) (·.vars) v s = (.ok r, s) := by
    unfold ProgSt.var
    dsimp only
    rw [hv]
  show ((ProgSt.var (·.vars) v >>= fun r => ProgSt.onHeap (Heap.call r (KMState.exec env op)) >>= fun o => pure (POut.km o) : PyM (ProgSt K X) POut) s).2.obj v = _
  rw [bind_ok e1, bind_run]
  unfold ProgSt.onHeap Heap.call
  rw [ht]
  dsimp only
  rcases e : KMState.exec env op t with ⟨_ | _, t'⟩ <;> exact Option.bind_eq_some_iff.2 ⟨r, hv, by simp⟩

end KMethods
