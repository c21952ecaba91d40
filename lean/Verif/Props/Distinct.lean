import Verif.Lemmas.Distinct
/-!
# C94: a kernel bucket contains no kernel twice
-/
namespace KMethods
open PyM KMState

/-- **C94** Parameter values without repetitions: any two members of a kernel bucket are different, with and without normalisation: the bucket can be attached to two samples on which
the full matrices of the two differ. Missing: lists that contain both defaults of the sigmoid kernel, and values of `sigma` outside the range of `ensure_min_eps`, for which it is false,
`C94_violated_sigmoid`, `C94_violated_sigma`. -/
theorem C94_distinct_partial (norm skip : Bool) {vals : BucketValues NumVal} {ds : List ℤ} {ss ls gs os : List ℝ} (h1 : vals.polyDegree.Ints ds)
    (h2 : vals.rbfSigma.Reals ss) (h3 : vals.laplaceGamma.Reals ls) (h4 : vals.sigmoidGamma.Reals gs) (h5 : vals.sigmoidOffset.Reals os)
    (hv : ProperValues ds ss ls gs os) (h : Heap LibKernel (List ℝ)) :
    ∃ b h', mkBucket numericLib (some norm) (some skip) vals h = (.ok b, h') ∧ b.set.members.length = 1 + ds.length + ss.length + ls.length + gs.length + os.length ∧
      SetSt.AllDiffer (libEnv realOps) ⟨h', b.set⟩ := by
  obtain ⟨b, h', ks, e, hn, g, hk, -⟩ := numeric_bucket_real norm skip h1 h2 h3 h4 h5 h
  have g' := g.fresh rfl
  refine ⟨b, h', e, ?_, allDiffer_of g' hn (fun k hks => ?_) (hk ▸ bucketKernels_nodup hv)⟩
  · rw [show b.set.members.length = ks.length from g'.length_eq, ← List.length_map (f := fun k : LibKernel => k.kernel), hk]
    simp only [bucketKernels, List.length_cons, List.length_append, List.length_map]
    omega
  · exact bucketKernels_proper hv (hk ▸ List.mem_map_of_mem (f := fun k : LibKernel => k.kernel) hks)

/-- some values; the default offset among the offsets, the default gamma not among the gammas -/
example : ProperValues [1, 2, 5] [1 / 2, 3] [1, 2] [2, 1 / 3] [1, 0] := by
  have he : floatEps ≤ 1 / 18 := by norm_num [floatEps]
  refine ⟨by norm_num, by simp, ?_, by simp, by simp, by norm_num⟩
  intro s hs
  simp only [List.mem_cons, List.not_mem_nil, or_false] at hs
  rcases hs with rfl | rfl <;> constructor <;> refine he.trans ?_ <;> norm_num

/-- **C94** The members of the default buckets are pairwise different. -/
theorem C94_default {strategy : String} (hs : strategy.toLower ∈ ["exhaustive", "light", "linear_only"]) (norm skip : Bool) (h : Heap LibKernel (List ℝ)) :
    ∃ b h', makeKernelBucket (.str strategy) (some norm) (some skip) h = (.ok b, h') ∧ SetSt.AllDiffer (libEnv realOps) ⟨h', b.set⟩ := by
  have run : ∀ {vals : BucketValues NumVal}, strategyValues strategy = .ok vals →
      (∃ b h', mkBucket numericLib (some norm) (some skip) vals h = (.ok b, h') ∧ SetSt.AllDiffer (libEnv realOps) ⟨h', b.set⟩) →
      ∃ b h', makeKernelBucket (.str strategy) (some norm) (some skip) h = (.ok b, h') ∧ SetSt.AllDiffer (libEnv realOps) ⟨h', b.set⟩ := fun {vals} hv ⟨b, h', e, hd⟩ => by
    refine ⟨b, h', ?_, hd⟩
    show (lift (strategyValues strategy) >>= _ : PyM (Heap LibKernel (List ℝ)) Bucket) h = _
    rw [hv]
    exact e
  simp only [List.mem_cons, List.not_mem_nil, or_false] at hs
  rcases hs with hs | hs | hs
  · refine run (vals := exhaustiveValues) (by rw [strategyValues, if_pos hs]) ?_
    obtain ⟨b, h', e, -, hd⟩ := C94_distinct_partial norm skip (vals := exhaustiveValues) (.inr ⟨rfl, by simp⟩) (.inr ⟨rfl, by simp⟩) (.inr ⟨rfl, by simp⟩) (.inr ⟨rfl, by simp⟩)
      (.inr ⟨rfl, by simp⟩) (powers_proper (ds := [2, 3, 4]) (es := [-5, -3, -1, 1, 3, 5]) (ls := [-5, -3, -1, 1, 3, 5]) (gs := [-5, -3, -1, 1, 3, 5]) (os := [-2, 1, 2])
        (by decide) (by decide) (by decide) (by decide) (by norm_num)) h
    exact ⟨b, h', e, hd⟩
  · refine run (vals := lightValues) (by rw [strategyValues, if_neg (by rw [hs]; decide), if_pos hs]) ?_
    obtain ⟨b, h', e, -, hd⟩ := C94_distinct_partial norm skip (vals := lightValues) (.inr ⟨rfl, by simp⟩) (.inr ⟨rfl, by simp⟩) (.inr ⟨rfl, by simp⟩) (.inr ⟨rfl, by simp⟩)
      (.inr ⟨rfl, by simp⟩) (powers_proper (ds := [2, 3]) (es := [-3, -1, 1]) (ls := [-3, -1, 1]) (gs := [-3, -1, 1, 3, 5]) (os := [1])
        (by decide) (by decide) (by decide) (by decide) (by norm_num)) h
    exact ⟨b, h', e, hd⟩
  · refine run (vals := linearOnlyValues) (by rw [strategyValues, if_neg (by rw [hs]; decide), if_neg (by rw [hs]; decide), if_pos hs]) ?_
    obtain ⟨b, h', e, -, hd⟩ := C94_distinct_partial norm skip (vals := linearOnlyValues) (.inl ⟨rfl, rfl⟩) (.inl ⟨rfl, rfl⟩) (.inl ⟨rfl, rfl⟩) (.inl ⟨rfl, rfl⟩)
      (.inl ⟨rfl, rfl⟩) (powers_proper (ds := []) (es := []) (ls := []) (gs := []) (os := []) (by decide) (by decide) (by decide) (by decide) (by norm_num)) h
    exact ⟨b, h', e, hd⟩

example : "Exhaustive".toLower ∈ ["exhaustive", "light", "linear_only"] := by decide +kernel

/-- **C94** (violated) The gammas and the offsets of sigmoid kernels overlap: `KernelBucket(sigmoid_gamma_values=[1], sigmoid_offset_values=[1])`, lists without repetitions,
contains the sigmoid kernel with gamma = 1 and offset = 1 twice. -/
theorem C94_violated_sigmoid (norm skip : Bool) (h : Heap LibKernel (List ℝ)) :
    ∃ b h', mkBucket numericLib (some norm) (some skip) ⟨.none, .none, .none, .seq [.real 1], .seq [.real 1]⟩ h = (.ok b, h') ∧
      ¬ SetSt.AllDiffer (libEnv realOps) ⟨h', b.set⟩ := by
  obtain ⟨b, h', ks, e, hn, g, -, hks⟩ := numeric_bucket_real (X := List ℝ) norm skip (vals := ⟨.none, .none, .none, .seq [.real 1], .seq [.real 1]⟩) (ds := []) (ss := [])
    (ls := []) (gs := [1]) (os := [1]) (.inl ⟨rfl, rfl⟩) (.inl ⟨rfl, rfl⟩) (.inl ⟨rfl, rfl⟩) (.inr ⟨rfl, by simp⟩) (.inr ⟨rfl, by simp⟩) h
  exact ⟨b, h', e, not_allDiffer (g.fresh rfl) hn (i := 1) (j := 2) (by decide) (k := ⟨.sigmoid 1 1, skip⟩) trivial (by rw [hks]; rfl) (by rw [hks]; rfl)⟩

/-- **C94** (violated) All `sigma` below the machine precision give the same Gaussian kernel. -/
theorem C94_violated_sigma (norm skip : Bool) (h : Heap LibKernel (List ℝ)) {σ τ : ℝ} (hσ : σ ≤ floatEps) (hτ : τ ≤ floatEps) :
    ∃ b h', mkBucket numericLib (some norm) (some skip) ⟨.none, .seq [.real σ, .real τ], .none, .none, .none⟩ h = (.ok b, h') ∧
      ¬ SetSt.AllDiffer (libEnv realOps) ⟨h', b.set⟩ := by
  obtain ⟨b, h', ks, e, hn, g, -, hks⟩ := numeric_bucket_real (X := List ℝ) norm skip (vals := ⟨.none, .seq [.real σ, .real τ], .none, .none, .none⟩) (ds := []) (ss := [σ, τ])
    (ls := []) (gs := []) (os := []) (.inl ⟨rfl, rfl⟩) (.inr ⟨rfl, by simp⟩) (.inl ⟨rfl, rfl⟩) (.inl ⟨rfl, rfl⟩) (.inl ⟨rfl, rfl⟩) h
  have hst : mkGaussian σ = mkGaussian τ := by
    unfold mkGaussian ensureMinEps
    rw [max_eq_left hσ, max_eq_left hτ]
  refine ⟨b, h', e, not_allDiffer (g.fresh rfl) hn (i := 1) (j := 2) (by decide) (k := ⟨mkGaussian σ, skip⟩) trivial (by rw [hks]; rfl) ?_⟩
  rw [hks, hst]
  rfl

/-- `sigma` 0 and 10⁻²⁰ -/
example : (0 : ℝ) ≤ floatEps ∧ (1e-20 : ℝ) ≤ floatEps ∧ (0 : ℝ) ≠ 1e-20 := by norm_num [floatEps]

end KMethods
