import Verif.Spec.Describe
import Verif.Lemmas.History
import Std.Data.String.ToNat
/-!
# Printing
-/
namespace KMethods
open PyM

namespace Labelled
variable {K X V : Type} {env : Env K X V} {kstr : K → String} {s : Labelled K X V}

theorem attach_run (one : SampleIn X) (n1 : String) (two : Option (SampleIn X)) (n2 : Option String) (s : Labelled K X V) :
    (∃ a, Attaches one two a ∧ attach one n1 two n2 s = (.ok (), ⟨(KMState.attach one two s.km).2, s.name, some (a.describe n1 n2)⟩) ∧ (KMState.attach one two s.km).1 = .ok ()) ∨
    ((¬ ∃ a, Attaches one two a) ∧ attach one n1 two n2 s = ((KMState.attach one two s.km).1, { s with km := (KMState.attach one two s.km).2 }) ∧
      ∃ e, (KMState.attach one two s.km).1 = .error e) := by
  rcases hof : Attachment.ofArgs one two with e | a
  · right
    have h1 := KMState.attach_error one two s.km e hof
    refine ⟨?_, ?_, e, h1⟩
    · rintro ⟨a, ha⟩
      rw [(ofArgs_iff one two a).2 ha] at hof
      cases hof
    · unfold attach
      have : onKm (KMState.attach one two) s = (.error e, { s with km := (KMState.attach one two s.km).2 }) := by
        unfold onKm; rw [h1]
      rw [bind_error this, h1]
  · left
    have ha := (ofArgs_iff one two a).1 hof
    have h1 := KMState.attach_ok one two s.km a hof
    refine ⟨a, ha, ?_, by rw [h1]⟩
    have hk : onKm (KMState.attach one two) s = (.ok (), { s with km := (KMState.attach one two s.km).2 }) := by
      unfold onKm; rw [h1]
    unfold attach
    rw [bind_ok hk, h1]
    rcases a with ⟨A, B⟩
    cases two with
    | none =>
      cases B with
      | some _ => exact ha.2.elim
      | none =>
        show (Except.ok (), (Labelled.mk _ _ (some _) : Labelled K X V)) = _
        congr 3
        simp [Attachment.describe, tupleStr, ← String.toList_inj, ToString.toString]
    | some t =>
      cases B with
      | none => exact ha.2.elim
      | some B =>
        show (Except.ok (), (Labelled.mk _ _ (some _) : Labelled K X V)) = _
        congr 3
        simp [Attachment.describe, tupleStr, ← String.toList_inj, ToString.toString]

/-- the corresponding call on the object without labels -/
def _root_.KMethods.LOp.toKM : LOp X → Option (KMOp X)
  | .attach one _ two _ => some (.attach one two)
  | .call op => some op
  | _ => none

theorem exec_attach_run (one : SampleIn X) (n1 : String) (two : Option (SampleIn X)) (n2 : Option String) (s : Labelled K X V) :
    exec env kstr (.attach one n1 two n2) s = ((attach one n1 two n2 s).1.map fun _ => .none, (attach one n1 two n2 s).2) := by
  show (attach one n1 two n2 >>= fun _ => pure _) s = _
  rw [bind_run]
  rcases attach one n1 two n2 s with ⟨_ | _, _⟩ <;> rfl

theorem str_state : (str kstr s).2 = s := by
  unfold str
  rw [get_bind_run]
  rcases s.km.sample with _ | a
  · rfl
  · simp only
    rcases h : s.descr with _ | d
    · have : (getAttr (fun s : Labelled K X V => s.descr)) s = (.error .attributeError, s) := by rw [getAttr_run, h]
      rw [bind_error this]
    · have : (getAttr (fun s : Labelled K X V => s.descr)) s = (.ok d, s) := by rw [getAttr_run, h]
      rw [bind_ok this]; rfl

theorem exec_print {op : LOp X} (h : op.isPrint = true) : (exec env kstr op s).2 = s := by
  cases op <;> simp [LOp.isPrint] at h
  · show ((str kstr >>= fun t => pure (KMOut.str t)) s).2 = s
    rw [bind_run]
    have := str_state (kstr := kstr) (s := s)
    rcases h' : str kstr s with ⟨_ | _, _⟩ <;> rw [h'] at this <;> exact this
  · rfl

theorem exec_attach_km (one : SampleIn X) (n1 : String) (two : Option (SampleIn X)) (n2 : Option String) (s : Labelled K X V) :
    (exec env kstr (.attach one n1 two n2) s).1 = (KMState.exec env (.attach one two) s.km).1 ∧
    (exec env kstr (.attach one n1 two n2) s).2.km = (KMState.exec env (.attach one two) s.km).2 ∧
    (exec env kstr (.attach one n1 two n2) s).2.name = s.name := by
  rw [exec_attach_run, KMState.exec_attach_run]
  rcases attach_run one n1 two n2 s with ⟨a, _, h1, h2⟩ | ⟨_, h1, _⟩
  · rw [h1, h2]; exact ⟨rfl, rfl, rfl⟩
  · rw [h1]; exact ⟨rfl, rfl, rfl⟩

theorem exec_km {op : LOp X} {op' : KMOp X} (h : op.toKM = some op') :
    (exec env kstr op s).1 = (KMState.exec env op' s.km).1 ∧ (exec env kstr op s).2.km = (KMState.exec env op' s.km).2 ∧ (exec env kstr op s).2.name = s.name := by
  cases op with
  | attach one n1 two n2 => simp [LOp.toKM] at h; subst h; exact exec_attach_km ..
  | call op =>
    simp [LOp.toKM] at h; subst h
    cases op with
    | attach one two => exact exec_attach_km (kstr := kstr) one "sample" two none s
    | _ => exact ⟨rfl, rfl, rfl⟩
  | _ => simp [LOp.toKM] at h

theorem exec_descr {op : LOp X} (h : op.isAttach = false) : (exec env kstr op s).2.descr = s.descr := by
  cases op with
  | attach => simp [LOp.isAttach] at h
  | call op => cases op <;> first | rfl | simp [LOp.isAttach, KMOp.isAttach] at h
  | str => rw [exec_print rfl]
  | format => rfl

variable {k : K} {norm : Bool} {name : String} {a : Attachment X} {n1 : String} {n2 : Option String}

theorem Reachable.km (h : Reachable env kstr k norm name s) : KMState.Reachable env k norm s.km ∧ s.name = name := by
  induction h with
  | new t => exact ⟨.new t, rfl⟩
  | call op h ih =>
    rcases h' : op.toKM with _ | op'
    · rw [exec_print (by cases op <;> simp [LOp.toKM] at h' <;> rfl)]
      exact ih
    · obtain ⟨_, h2, h3⟩ := exec_km (env := env) (kstr := kstr) (s := _) h'
      rw [h2, h3]
      exact ⟨ih.1.call _, ih.2⟩

theorem Since.spec (h : Since env kstr k norm name a n1 n2 s) : KMState.SinceAny env k norm a s.km ∧ s.name = name ∧ s.descr = some (a.describe n1 n2) := by
  induction h with
  | @attached s s' one two n1 n2 hr ha h =>
    obtain ⟨h1, h2, h3⟩ := exec_attach_km (env := env) (kstr := kstr) one n1 two n2 s
    rw [h] at h1 h2 h3
    refine ⟨.attached hr.km.1 ha (Prod.ext h1.symm h2.symm), h3.trans hr.km.2, ?_⟩
    rw [exec_attach_run] at h
    rcases attach_run one n1 two n2 s with ⟨b, hb, e, _⟩ | ⟨hno, _⟩
    · rw [e] at h
      have : a = b := by
        have := (ofArgs_iff one two a).2 ha
        rw [(ofArgs_iff one two b).2 hb] at this
        injection this with this; exact this.symm
      injection h with _ h
      rw [← h, this]
    · exact absurd ⟨a, ha⟩ hno
  | @attachedDefault s s' one two hr ha h =>
    change exec env kstr (.attach one "sample" two none) s = _ at h
    obtain ⟨h1, h2, h3⟩ := exec_attach_km (env := env) (kstr := kstr) one "sample" two none s
    rw [h] at h1 h2 h3
    refine ⟨.attached hr.km.1 ha (Prod.ext h1.symm h2.symm), h3.trans hr.km.2, ?_⟩
    rw [exec_attach_run] at h
    rcases attach_run one "sample" two none s with ⟨b, hb, e, _⟩ | ⟨hno, _⟩
    · rw [e] at h
      have : a = b := by
        have := (ofArgs_iff one two a).2 ha
        rw [(ofArgs_iff one two b).2 hb] at this
        injection this with this; exact this.symm
      injection h with _ h
      rw [← h, this]
    · exact absurd ⟨a, ha⟩ hno
  | call op h ho ih =>
    rcases h' : op.toKM with _ | op'
    · rw [exec_print (by cases op <;> simp [LOp.toKM] at h' <;> rfl)]
      exact ih
    · obtain ⟨_, h2, h3⟩ := exec_km (env := env) (kstr := kstr) (s := _) h'
      rw [h2, h3, exec_descr ho]
      refine ⟨ih.1.call _ ?_ trivial, ih.2⟩
      cases op <;> simp [LOp.toKM] at h'
      · simp [LOp.isAttach] at ho
      · subst h'; exact ho

end Labelled

/-! ## reading texts back -/

theorem split_at {c : Char} {u v r r' : List Char} (hu : c ∉ u) (hv : c ∉ v) (h : u ++ c :: r = v ++ c :: r') : u = v ∧ r = r' := by
  induction u generalizing v with
  | nil =>
    cases v with
    | nil => simpa using h
    | cons d v => simp at h hv; exact absurd h.1 (fun e => hv.1 e)
  | cons d u ih =>
    cases v with
    | nil => simp at h hu; exact absurd h.1.symm (fun e => hu.1 e)
    | cons e v =>
      simp at h hu hv
      obtain ⟨h1, h2⟩ := ih hu.2 hv.2 h.2
      exact ⟨by rw [h.1, h1], h2⟩

theorem toDigits_inj {n m : Nat} (h : Nat.toDigits 10 n = Nat.toDigits 10 m) : n = m := by
  have := congrArg (fun l => Nat.ofDigitChars 10 l 0) h
  simpa [Nat.ofDigitChars_toDigits] using this

theorem not_mem_toDigits {c : Char} (hc : c.isDigit = false) (n : Nat) : c ∉ Nat.toDigits 10 n := fun h => by
  rw [Nat.isDigit_of_mem_toDigits (by decide) (by decide) h] at hc
  cases hc

end KMethods
