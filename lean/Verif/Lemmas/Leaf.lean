import Verif.Lemmas.Fill
/-!
# Invariants of all calls other than `attach_to`, from a few elementary steps
-/
namespace KMethods
namespace KMState
variable {K X V α β ι : Type}
open PyM

/-- `Q` is preserved by the elementary steps that calls other than `attach_to` consist of -/
structure Leaf (env : Env K X V) (Q : KMState K X V → Prop) : Prop where
  eval : ∀ i j, Holds Q (evalKernel env i j) fun _ => True
  upper : ∀ d, Holds Q (populateUpper env d) fun _ => True
  lower : ∀ l, Holds Q (populateLower env l) fun _ => True
  dens : ∀ d, Holds Q (densify d) fun _ => True
  clock : ∀ s t, Q s → Q { s with clock := t }
  normed : ∀ s N, Q s → Q { s with normedKm := some N, isNormed := true }
  centered : ∀ s C, Q s → Q { s with centeredKm := some C, isCentered := true }
  frob : ∀ s v, Q s → Q { s with frobNorm := some v }
  attrs : ∀ s l, Q s → Q { s with attrs := l }

namespace Leaf
variable {env : Env K X V} {Q : KMState K X V → Prop} (h : Leaf env Q)

theorem attr (f : KMState K X V → Option α) : Holds Q (getAttr f) fun _ => True := Holds.getAttr fun _ _ _ _ => trivial

theorem fullMat : Holds Q (fullMat : PyM (KMState K X V) _) fun _ => True :=
  (attr _).bind fun _ _ => (attr _).bind fun _ _ => Holds.pure trivial

theorem warn (M : Mat V) : Holds Q (warnNonFinite env M) fun _ => True := Holds.get.bind fun _ _ => Holds.raiseIf

include h

theorem populateFully (d l : Bool) : Holds Q (populateFully env d l) fun _ => True :=
  (h.upper d).bind fun _ _ => (h.lower l).bind fun _ _ => (h.dens d).bind fun _ _ => fullMat.bind fun _ _ => warn _

theorem ensurePopulated : Holds Q (ensurePopulated env) fun _ => True :=
  Holds.get.bind fun _ _ => Holds.when (h.populateFully _ _)

theorem freshDiagonal (f : KMState K X V → Option (Arr2 X)) : Holds Q (freshDiagonal env f) fun _ => True :=
  (attr _).bind fun _ _ => Holds.get.bind fun _ _ => (Holds.modify fun s hs => h.clock s _ hs).bind fun _ _ => Holds.lift

theorem computeNormed (m : String) : Holds Q (computeNormed env m) fun _ => True :=
  (attr _).bind fun _ _ => Holds.ite (fullMat.bind fun _ _ => Holds.lift.bind fun _ _ => Holds.pure trivial)
    ((h.freshDiagonal _).bind fun _ _ => (h.freshDiagonal _).bind fun _ _ => fullMat.bind fun _ _ => Holds.lift.bind fun _ _ => Holds.pure trivial)

theorem normalize (m : String) : Holds Q (normalize env m) fun _ => True :=
  h.ensurePopulated.bind fun _ _ => Holds.get.bind fun _ _ => Holds.when <| (h.computeNormed m).bind fun N _ =>
    (Holds.modify fun s hs => h.normed s N hs).bind fun _ _ => warn _

theorem normedKmVal : Holds Q (normedKmVal env) fun _ => True :=
  Holds.get.bind fun _ _ => (Holds.when (h.normalize _)).bind fun _ _ => attr _

theorem full : Holds Q (full env) fun _ => True :=
  Holds.get.bind fun _ _ => Holds.raiseIf.bind fun _ _ => h.ensurePopulated.bind fun _ _ => Holds.ite h.normedKmVal fullMat

theorem fullSparse : Holds Q (fullSparse env) fun _ => True :=
  Holds.get.bind fun _ _ => Holds.ite h.normedKmVal ((h.populateFully _ _).bind fun _ _ => fullMat)

theorem center : Holds Q (center env) fun _ => True :=
  (attr _).bind fun _ _ => Holds.raiseIf.bind fun _ _ => h.ensurePopulated.bind fun _ _ => fullMat.bind fun _ _ =>
    Holds.raiseIf.bind fun _ _ => Holds.lift.bind fun _ _ => Holds.modify fun s hs => h.centered s _ hs

theorem centeredVal : Holds Q (KMState.centered env) fun _ => True :=
  (attr _).bind fun _ _ => Holds.raiseIf.bind fun _ _ => Holds.get.bind fun _ _ => (Holds.when h.center).bind fun _ _ => attr _

theorem frobNormVal : Holds Q (frobNormVal env) fun _ => True :=
  h.ensurePopulated.bind fun _ _ => Holds.get.bind fun _ _ => (Holds.when <| fullMat.bind fun _ _ => Holds.lift.bind fun v _ =>
    Holds.modify fun s hs => h.frob s v hs).bind fun _ _ => attr _

theorem diagonal : Holds Q (diagonal env) fun _ => True :=
  (attr _).bind fun _ _ => Holds.ite Holds.throw ((attr _).bind fun _ _ => Holds.mapEach fun _ => h.eval _ _)

omit h in
theorem size : Holds Q (size : PyM (KMState K X V) _) fun _ => True := by
  refine (attr _).bind fun b _ => Holds.get.bind fun s _ => ?_
  cases b <;> rcases s.numSamples with _ | _ | _ <;> first | exact Holds.throw | exact Holds.pure trivial

omit h in
theorem keyPair (key : Key) : Holds Q (keyPair key) fun _ => True := by
  cases key with
  | linear q => exact (attr _).bind fun _ _ => Holds.lift.bind fun _ _ => Holds.pure trivial
  | pair S T => exact Holds.pure trivial
  | other => exact Holds.throw

theorem getItem (key : Key) : Holds Q (getItem env key) fun _ => True :=
  (keyPair key).bind fun _ _ => Holds.get.bind fun _ _ => Holds.lift.bind fun _ _ => Holds.lift.bind fun _ _ =>
    Holds.ite ((h.populateFully _ _).bind fun _ _ => fullMat) (Holds.bind (Holds.mapEach fun _ => h.eval _ _) fun _ _ => Holds.pure trivial)

theorem exec (op : KMOp X) (ha : op.isAttach = false) {s : KMState K X V} (hs : Q s) : Q (exec env op s).2 := by
  have run : ∀ {α : Type} {m : PyM (KMState K X V) α} (f : α → KMOut V),
      Holds Q m (fun _ => True) → Q ((m >>= fun x => pure (f x)) s).2 :=
    fun f hm => ((hm.bind (R' := fun _ => True) fun _ _ => Holds.pure trivial) s hs).1
  cases op with
  | attach => simp [KMOp.isAttach] at ha
  | setAttr n v => exact h.attrs s _ hs
  | getAttr n d => exact hs
  | attributes => exact hs
  | numSamples => exact hs
  | shape => rw [exec_shape_run]; exact hs
  | size => exact run _ size
  | full => exact run _ h.full
  | fullSparse => exact run _ h.fullSparse
  | center => exact run _ h.center
  | centered => exact run _ h.centeredVal
  | normalize m => exact run _ (h.normalize m)
  | normedKm => exact run _ h.normedKmVal
  | frobNorm => exact run _ h.frobNormVal
  | diagonal => exact run _ h.diagonal
  | getItem key => exact run _ (h.getItem key)

end Leaf
end KMState
end KMethods
