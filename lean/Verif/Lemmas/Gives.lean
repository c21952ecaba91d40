import Verif.Lemmas.Composite
import Verif.Props.FullMatrix
import Verif.Lemmas.Pipeline
/-!
# Kernel matrix objects that give a known matrix
-/
namespace KMethods
open PyM KMState
variable {K X : Type} {env : Env K X F}

theorem Since.full {k : K} {norm : Bool} {a : Attachment X} {Q : KMOp X → Prop} (hQ : Q .full) {s : KMState K X F} (h : Since env k norm a Q s) :
    Since env k norm a Q (exec env .full s).2 := .call .full h rfl hQ

/-- not normalising, never asked for sparse storage -/
theorem givesFull_dense (hops : env.ops = realOps) {k : K} {κ : X → X → ℝ} {A : Arr2 X} {s : KMState K X F} (hf : NoFaultsOn env k ⟨A, none⟩)
    (hκ : RealOn (env.kval k) κ ⟨A, none⟩) (h : SinceDense env k false ⟨A, none⟩ s) :
    s.GivesFull env IsDense (Mat.ofReal (A.gramR κ)) := by
  refine givesFull_of_inv (P := IsDense) (Q := SinceDense env k false ⟨A, none⟩) (fun s h => Since.full (by simp [KMOp.MayGoSparse]) h) (fun s h => ⟨.dense, rfl, ?_⟩) h
  rw [C08_full_is_gram hf (quiet_of_real hops hκ) h, gram_ofReal hκ]

/-- not normalising, `full` never asked for sparse storage -/
theorem givesFull_any (hops : env.ops = realOps) {k : K} {κ : X → X → ℝ} {A : Arr2 X} {s : KMState K X F} (hf : NoFaultsOn env k ⟨A, none⟩)
    (hκ : RealOn (env.kval k) κ ⟨A, none⟩) (h : Since env k false ⟨A, none⟩ (fun op => op ≠ .fullSparse) s) :
    s.GivesFull env AnyFmt (Mat.ofReal (A.gramR κ)) := by
  refine givesFull_of_inv (Q := Since env k false ⟨A, none⟩ (fun op => op ≠ .fullSparse)) (fun s h => Since.full (by simp) h) (fun s h => ?_) h
  obtain ⟨f, hr⟩ := C10_full_contents_partial hf (quiet_of_real hops hκ) h
  exact ⟨f, trivial, by rw [hr, gram_ofReal hκ]⟩

/-- normalising -/
theorem givesFull_normalised (hops : env.ops = realOps) {k : K} {κ : X → X → ℝ} {A : Arr2 X} {s : KMState K X F} (hf : NoFaultsOn env k ⟨A, none⟩)
    (hκ : RealOn (env.kval k) κ ⟨A, none⟩) (h : SinceAny env k true ⟨A, none⟩ s)
    (hpos : ∀ i : Fin A.nrows, 0 ≤ κ (A.row i) (A.row i) ∧ ¬ NearZero (κ (A.row i) (A.row i))) :
    s.GivesFull env IsDense (Mat.ofReal (cosNorm (A.gramR κ))) := by
  refine givesFull_of_inv (P := IsDense) (Q := SinceAny env k true ⟨A, none⟩) (fun s h => Since.full trivial h) (fun s h => ⟨.dense, rfl, ?_⟩) h
  exact (C09_one_sample hops hf hκ h fun i => (hpos i).1).2 fun ⟨i, hi⟩ => (hpos i).2 hi

end KMethods
