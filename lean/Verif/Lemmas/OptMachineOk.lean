import Verif.Lemmas.OptMachine
import Verif.Lemmas.World
import Verif.Lemmas.Sampling
/-!
# Machines that choose a kernel only refer to kernel matrices with a history
-/
namespace KMethods
open PyM KMState

/-- the invariant `I` is preserved -/
def Pres {σ α : Type} (I : σ → Prop) (m : PyM σ α) : Prop := ∀ s, I s → I (m s).2

namespace Pres
variable {σ α β ι : Type} {I : σ → Prop}
theorem of_eq {m : PyM σ α} (h : ∀ s, (m s).2 = s) : Pres I m := fun s hs => by rw [h s]; exact hs
theorem bind {m : PyM σ α} {f : α → PyM σ β} (h1 : Pres I m) (h2 : ∀ a, Pres I (f a)) : Pres I (m >>= f) := by
  intro s hs
  have := h1 s hs
  rcases e : m s with ⟨_ | a, s'⟩
  · rw [bind_error e]; rw [e] at this; exact this
  · rw [bind_ok e]; rw [e] at this; exact h2 a s' this
theorem lift (x : Except PyErr α) : Pres I (lift x : PyM σ α) := .of_eq fun _ => rfl
theorem pure (x : α) : Pres I (pure x : PyM σ α) := .of_eq fun _ => rfl
theorem raiseIf (b : Bool) (e : PyErr) : Pres I (raiseIf b e : PyM σ Unit) := .of_eq fun _ => by cases b <;> rfl
theorem getAttr (f : σ → Option α) : Pres I (getAttr f) := .of_eq fun s => by
  unfold PyM.getAttr
  rcases f s with _ | _ <;> rfl
theorem get {f : σ → PyM σ β} (h : ∀ s, Pres I (f s)) : Pres I (PyM.get >>= f) := fun s hs => h s s hs
theorem modify {f : σ → σ} (h : ∀ s, I s → I (f s)) : Pres I (modify f) := fun s hs => h s hs
theorem forEach {l : List ι} {f : ι → PyM σ Unit} (h : ∀ x, Pres I (f x)) : Pres I (PyM.forEach l f) := by
  induction l with
  | nil => exact .of_eq fun _ => rfl
  | cons x l ih => exact (h x).bind fun _ => ih
theorem mapEach {l : List ι} {f : ι → PyM σ β} (h : ∀ x, Pres I (f x)) : Pres I (PyM.mapEach l f) := by
  induction l with
  | nil => exact .of_eq fun _ => rfl
  | cons x l ih => exact (h x).bind fun _ => ih.bind fun _ => .of_eq fun _ => rfl
end Pres

variable {K X M W P H α : Type} {env : Env K X F}

theorem pres_full (r : Nat) : Pres (Heap.Ok env) (Heap.full env r) := by
  intro h hok
  unfold Heap.full
  split
  · exact hok
  · refine hok.call r _ fun k norm s hs => ?_
    have := hs.call .full
    rw [exec_full_run] at this
    exact this

theorem pres_attach (r : Nat) (one : SampleIn X) (two : Option (SampleIn X)) : Pres (Heap.Ok env) (Heap.call r (KMState.attach one two)) := fun _ hok =>
  hok.call r _ fun k norm s hs => reachable_attach one two k norm s hs

theorem pres_copyMembers (l : List Nat) (memo : List (Nat × Nat)) : Pres (Heap.Ok env) (copyMembers l memo : PyM (Heap K X) (List Nat)) := by
  induction l generalizing memo with
  | nil => exact .of_eq fun _ => rfl
  | cons r l ih =>
    unfold copyMembers
    split
    · exact (ih memo).bind fun _ => .of_eq fun _ => rfl
    · intro h hok
      rcases ho : h.objs r with _ | o
      · rw [bind_error (getAttr_run_none (fun x : Heap K X => x.objs r) h ho)]
        exact hok
      rw [bind_ok (getAttr_run_some (fun x : Heap K X => x.objs r) h _ ho)]
      change Heap.Ok env ((copyMembers l ((r, h.next) :: memo) >>= _ : PyM (Heap K X) (List Nat)) (Heap.alloc o h).2).2
      refine ((ih ((r, h.next) :: memo)).bind fun _ => .of_eq fun _ => rfl) _ (hok.alloc o fun s hs => ?_).1
      subst hs
      exact hok.2 r s ho

theorem pres_onHeap_set {m : PyM (Heap K X) α} (h : Pres (Heap.Ok env) m) : Pres (fun s : SetSt K X => s.heap.Ok env) (SetSt.onHeap m) := fun s hs => h s.heap hs

theorem pres_findOptimalKernel (cv : CVScore) (b : Bool) (sample : SetSample X) (targets : List F) (method : String) (p : MethodParams) :
    Pres (fun s : SetSt K X => s.heap.Ok env) (findOptimalKernel env cv b sample targets method p) := by
  refine (Pres.raiseIf _ _).bind fun _ => (Pres.raiseIf _ _).bind fun _ => Pres.bind ?_ fun _ => Pres.bind ?_ fun _ => (Pres.lift _).bind fun i => .of_eq fun s => ?_
  · refine (Pres.lift _).bind fun n => Pres.get fun s => (Pres.raiseIf _ _).bind fun _ => Pres.bind (m := SetSt.modSet _) (fun _ hs => hs) fun _ =>
      Pres.bind (.forEach fun r => pres_onHeap_set (pres_attach r _ _)) fun _ => .of_eq fun _ => rfl
  · refine (Pres.raiseIf _ _).bind fun _ => ?_
    by_cases h : method.toLower = "align/corr"
    · rw [if_pos h]
      exact Pres.get fun s => Pres.mapEach fun r => (pres_onHeap_set (pres_full r)).bind fun _ => (Pres.raiseIf _ _).bind fun _ => Pres.lift _
    · rw [if_neg h]
      exact (Pres.raiseIf _ _).bind fun _ => Pres.get fun s => Pres.bind
        (Pres.mapEach fun r => (Pres.lift _).bind fun _ => (pres_onHeap_set (pres_full r)).bind fun _ => Pres.lift _)
        fun _ => (Pres.lift _).bind fun _ => .of_eq fun _ => rfl
  · show ((raiseIf (decide ((i : Int) < 0) || decide ((i : Int) ≥ (s.set.members.length : Int))) .indexError >>= fun _ => _ : PyM (SetSt K X) Nat) s).2 = s
    rcases (decide ((i : Int) < 0) || decide ((i : Int) ≥ (s.set.members.length : Int))) <;> rfl

theorem pres_appendNew (norm : Bool) (k : Except PyErr K) : Pres (fun s : SetSt K X => s.heap.Ok env) (SetSt.appendNew norm k) :=
  (Pres.lift _).bind fun k => Pres.bind (pres_onHeap_set fun h hok => (hok.alloc _ fun s hs => by cases hs; exact ⟨k, norm, .new 0⟩).1) fun r s hs => by
    rcases SetSt.appendRef_cases s r with ⟨n, -, -, h⟩ | ⟨e, h⟩ <;> rw [h] <;> exact hs

theorem pres_addParametrized {V : Type} (b : BucketFlags) (cls : KernelClassArg K V) (param : String) (values : ValuesArg V) :
    Pres (fun s : SetSt K X => s.heap.Ok env) (SetSt.addParametrized b cls param values) := by
  cases cls with
  | other => exact .of_eq fun _ => rfl
  | cls build =>
    cases values with
    | none => exact .of_eq fun _ => rfl
    | notIterable => exact .of_eq fun _ => rfl
    | unsized => exact .of_eq fun _ => rfl
    | seq l => exact (Pres.raiseIf _ _).bind fun _ => Pres.forEach fun v s hs => pres_appendNew b.norm (build b.skip param v) s hs

theorem pres_mkBucket {V : Type} (lib : KernelLib K V) (normalize skip : Option Bool) (vals : BucketValues V) : Pres (Heap.Ok env) (mkBucket lib normalize skip vals : PyM (Heap K X) Bucket) := by
  intro h hok
  rcases normalize with _ | n
  · exact hok
  rcases skip with _ | s
  · exact hok
  exact ((pres_appendNew n (.ok lib.linear)).bind fun _ => Pres.bind (m := SetSt.modSet _) (fun _ hs => hs) fun _ => (pres_addParametrized _ _ _ _).bind fun _ => (pres_addParametrized _ _ _ _).bind fun _ =>
    (pres_addParametrized _ _ _ _).bind fun _ => (pres_addParametrized _ _ _ _).bind fun _ => pres_addParametrized _ _ _ _ : Pres (fun s : SetSt K X => s.heap.Ok env) (bucketBody lib ⟨n, s⟩ vals))
    ⟨h, .new .unset⟩ hok

namespace OptMachine

theorem pres_onHeap {m : PyM (Heap K X) α} (h : Pres (Heap.Ok env) m) : Pres (fun s : OptMachine K X H M => s.heap.Ok env) (onHeap m) := fun s hs => h s.heap hs

theorem pres_fit {mkB : String → PyM (Heap K X) Bucket} (hB : ∀ n, Pres (Heap.Ok env) (mkB n)) (cv : List F → CVScore) (L : SvmLearner H M W P) (checked : Except PyErr (Arr2 X × List F)) (w : W) :
    Pres (fun s : OptMachine K X H M => s.heap.Ok env) (fit env mkB cv L checked w) := by
  refine Pres.bind ?_ fun _ => (Pres.lift _).bind fun d => Pres.bind ?_ fun _ => Pres.bind ?_ fun r => Pres.bind ?_ fun _ =>
    (pres_onHeap (pres_full r)).bind fun A => Pres.get fun s => (Pres.lift _).bind fun m => ?_
  · intro s hs
    rcases hk : s.kBucket with n | t | _
    · have := hB n s.heap hs
      rw [choose_str mkB s hk]
      rcases he : mkB n s.heap with ⟨e | b, h'⟩ <;> rw [he] at this <;> exact this
    · have : Heap.Ok env (copyBucket t s.heap).2 := ((pres_copyMembers t.members []).bind fun _ => .of_eq fun _ => rfl) s.heap hs
      rw [choose_bucket mkB s hk]
      rcases he : copyBucket t s.heap with ⟨e | b, h'⟩ <;> rw [he] at this <;> exact this
    · rw [choose_other mkB s hk]
      exact hs
  · exact Pres.modify fun _ hs => hs
  · refine Pres.get fun s' => fun s hs => ?_
    unfold onBucket
    rcases s.bucket with _ | t
    · exact hs
    · exact pres_findOptimalKernel (env := env) _ _ _ _ _ _ ⟨s.heap, t⟩ hs
  · exact Pres.modify fun _ hs => hs
  · exact Pres.modify fun _ hs => hs

theorem pres_predict (L : SvmLearner H M W P) (checked : Except PyErr (Arr2 X)) : Pres (fun s : OptMachine K X H M => s.heap.Ok env) (predict env L checked) :=
  Pres.get fun _ => (Pres.raiseIf _ _).bind fun _ => (Pres.getAttr _).bind fun r => (Pres.lift _).bind fun _ => (Pres.getAttr _).bind fun _ =>
    (pres_onHeap (pres_attach r _ _)).bind fun _ => (pres_onHeap (pres_full r)).bind fun _ => (Pres.getAttr _).bind fun _ => (Pres.lift _).bind fun _ => Pres.lift _

end OptMachine
end KMethods
