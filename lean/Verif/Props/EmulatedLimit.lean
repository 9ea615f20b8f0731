import Verif.Props.DrawnLaw
import Verif.Props.SimpleFun3
import Mathlib.Probability.Distributions.Gaussian.Real

/-!
# C151: probabilities from emulated points, for many points
-/

set_option linter.unusedSectionVars false
set_option linter.unusedSimpArgs false
set_option autoImplicit false

namespace BET

open Spec MeasureTheory ProbabilityTheory Filter Topology

variable {Ω : Type} [MeasurableSpace Ω] {P : Measure Ω} {d : Nat}

/-! ## Specification -/

namespace Spec

/-- Distances of order 2 are Euclidean. -/
def IsEuclidean (d : Nat) (G : Geometry ℝ) : Prop :=
  ∀ x c : Fin d → ℝ, G.dist 2 (List.ofFn x) (List.ofFn c) = √(∑ j, (x j - c j) ^ 2)

/-- The points to which no sample is nearer than sample `i`. -/
def nearestTo (d : Nat) (samples : List (List ℝ)) (i : Nat) : Set (Fin d → ℝ) :=
  {x | ∃ c : Fin d → ℝ, samples[i]? = some (List.ofFn c) ∧
    ∀ c' : Fin d → ℝ, List.ofFn c' ∈ samples → ∑ j, (x j - c j) ^ 2 ≤ ∑ j, (x j - c' j) ^ 2}

/-- Distinct samples with `d` coordinates, at least one. -/
structure DistinctSamples (d : Nat) (samples : List (List ℝ)) : Prop where
  rows : ∀ c ∈ samples, c.length = d
  distinct : samples.Nodup
  pos : 0 < samples.length

/-- The points that the processes draw when `n` points are wanted. -/
def drawnChunks (size n : Nat) (X : ℕ → ℕ → Fin d → ℝ) : Chunks (List ℝ) :=
  (List.range size).map fun r => (List.range (numLocal n size r)).map fun k => List.ofFn (X r k)

/-- The probability of cell `i` in the set that a call returns. -/
def cellProbability (r : Except Err (SampleSet ℝ × DataSet ℝ)) (i : Nat) : Option ℝ :=
  r.toOption.bind fun p => p.1.glob.probabilities.bind fun l => l[i]?

/-- The rectangle with the centre `q` and the sides `rs`. -/
noncomputable def centredBox (q rs : List ℝ) : List (ℝ × ℝ) := List.zipWith (fun c r => (c - r / 2, c + r / 2)) q rs

/-- The normal law with the mean `q` and the standard deviations `sd`, independent in every direction. -/
noncomputable def normalLaw (d : Nat) (q sd : List ℝ) : Measure (Fin d → ℝ) :=
  Measure.pi fun j : Fin d => gaussianReal (q.getD j 0) (Real.toNNReal (sd.getD j 0 ^ 2))

/-- Its density. -/
noncomputable def normalDensity (d : Nat) (q sd : List ℝ) (x : Fin d → ℝ) : ℝ :=
  ∏ j : Fin d, gaussianPDFReal (q.getD j 0) (Real.toNNReal (sd.getD j 0 ^ 2)) (x j)

end Spec

/-! ## Cells of the nearest sample -/

theorem treeSet_ready {samples : List (List ℝ)} (hS : DistinctSamples d samples) :
    Ready (treeSet d samples none) samples.length := by
  have h1 : SampleSet.setValues ({ dim := d } : SampleSet ℝ) samples =
      .ok { dim := d, glob := { values := some samples } } := by
    unfold SampleSet.setValues
    rw [if_pos]
    rw [SampleSet.colsOk_iff]
    intro v hv row hrow
    cases hv
    exact hS.rows row hrow
  exact (ready_tree h1 rfl hS.pos).1

theorem asVector {samples : List (List ℝ)} (hS : DistinctSamples d samples) {c : List ℝ} (hc : c ∈ samples) :
    ∃ c' : Fin d → ℝ, c = List.ofFn c' := by
  have hl := hS.rows c hc
  subst hl
  exact ⟨fun j => c[j], by simp⟩

theorem nearestTo_eq {G : Geometry ℝ} (hE : IsEuclidean d G) {samples : List (List ℝ)} (hS : DistinctSamples d samples)
    (i : Nat) : cellSet d G (treeSet d samples none) i = nearestTo d samples i := by
  ext x
  simp only [cellSet, nearestTo, IsCell, treeSet, Set.mem_ofPred_eq, Option.some.injEq, forall_eq', IsNearest]
  constructor
  · rintro ⟨c, h1, h2⟩
    obtain ⟨c', rfl⟩ := asVector hS (List.mem_of_getElem? h1)
    refine ⟨c', h1, fun c'' h => ?_⟩
    have := h2 _ h
    rw [hE, hE] at this
    exact (Real.sqrt_le_sqrt_iff (Finset.sum_nonneg fun j _ => sq_nonneg _)).1 this
  · rintro ⟨c, h1, h2⟩
    refine ⟨_, h1, fun c' h => ?_⟩
    obtain ⟨c'', rfl⟩ := asVector hS h
    rw [hE, hE]
    exact Real.sqrt_le_sqrt (h2 _ h)

theorem nearestTo_clear {G : Geometry ℝ} (hE : IsEuclidean d G) {samples : List (List ℝ)}
    (hS : DistinctSamples d samples) {μ : Measure (Fin d → ℝ)} (hμ : μ ≪ volume) :
    ClearCells G (treeSet d samples none) μ := by
  have h := C130_clear_euclidean (G := G) (s := treeSet d samples none) rfl rfl hS.rows hS.distinct hE Set.univ
  rw [Measure.restrict_univ] at h
  exact ⟨hμ.ae_le h.one, fun i => (h.meas i).mono_ac hμ⟩

/-- Almost everywhere, the search for the nearest sample finds `i` in the cell of `i`. -/
theorem nn_ae {G : Geometry ℝ} (hG : Sound G) (hE : IsEuclidean d G) {samples : List (List ℝ)}
    (hS : DistinctSamples d samples) {μ : Measure (Fin d → ℝ)} (hμ : μ ≪ volume) (i : Nat) :
    {x : Fin d → ℝ | G.nn 2 samples (List.ofFn x) = i} =ᵐ[μ] nearestTo d samples i := by
  have h := cell_ae hG (treeSet_ready hS) (nearestTo_clear hE hS hμ) i
  rw [nearestTo_eq hE hS] at h
  exact h

theorem nn_meas {G : Geometry ℝ} (hG : Sound G) (hE : IsEuclidean d G) {samples : List (List ℝ)}
    (hS : DistinctSamples d samples) {μ : Measure (Fin d → ℝ)} (hμ : μ ≪ volume) (i : Nat) :
    NullMeasurableSet {x : Fin d → ℝ | G.nn 2 samples (List.ofFn x) = i} μ := by
  have h := (nearestTo_clear hE hS hμ).meas i
  rw [nearestTo_eq hE hS] at h
  exact h.congr (nn_ae hG hE hS hμ i).symm

theorem nearestTo_measurable {G : Geometry ℝ} (hE : IsEuclidean d G) {samples : List (List ℝ)}
    (hS : DistinctSamples d samples) {μ : Measure (Fin d → ℝ)} (hμ : μ ≪ volume) (i : Nat) :
    NullMeasurableSet (nearestTo d samples i) μ := by
  have h := (nearestTo_clear hE hS hμ).meas i
  rwa [nearestTo_eq hE hS] at h

/-- The share of the points of a cell. -/
noncomputable def shareOf (G : Geometry ℝ) (samples : List (List ℝ)) (size n : Nat) (X : ℕ → ℕ → Fin d → ℝ)
    (i : Nat) : ℝ :=
  (∑ r ∈ Finset.range size, ∑ k ∈ Finset.range (numLocal n size r),
    ind {x | G.nn 2 samples (List.ofFn x) = i} (X r k)) / n

theorem share_hits (G : Geometry ℝ) (samples : List (List ℝ)) (size n : Nat) (X : ℕ → ℕ → Fin d → ℝ) (i : Nat) :
    (hits ((drawnChunks size n X).flatten.map (G.nn 2 samples)) i : ℝ) / n = shareOf G samples size n X i := by
  rw [shareOf, drawnChunks, hits_drawn]

section
variable [IsProbabilityMeasure P]

theorem share_limit {G : Geometry ℝ} (hG : Sound G) (hE : IsEuclidean d G) {samples : List (List ℝ)}
    (hS : DistinctSamples d samples) {μ : Measure (Fin d → ℝ)} (hμ : μ ≪ volume) {X : ℕ → ℕ → Ω → Fin d → ℝ}
    (hX : RandomSamples P μ X) {size : Nat} (hsize : 0 < size) :
    ∀ᵐ ω ∂P, ∀ i, Tendsto (fun n => shareOf G samples size n (fun r k => X r k ω) i) atTop
      (𝓝 (μ.real (nearestTo d samples i))) := by
  refine ae_all_iff.2 fun i => ?_
  have h := frequency (P := P) hsize hX.law hX.indep (nn_meas hG hE hS hμ i)
  rw [measureReal_congr (nn_ae hG hE hS hμ i)] at h
  exact h

theorem share_far {G : Geometry ℝ} (hG : Sound G) (hE : IsEuclidean d G) {samples : List (List ℝ)}
    (hS : DistinctSamples d samples) {μ : Measure (Fin d → ℝ)} (hμ : μ ≪ volume) {X : ℕ → ℕ → Ω → Fin d → ℝ}
    (hlaw : ∀ r k, HasLaw (X r k) μ P) (hind : iIndepFun (fun rk : ℕ × ℕ => X rk.1 rk.2) P) {size n : Nat}
    (hsize : 0 < size) (hn : 0 < n) {ε : ℝ} (hε : 0 ≤ ε) :
    P.real {ω | ∃ i < samples.length, ε ≤ |shareOf G samples size n (fun r k => X r k ω) i -
      μ.real (nearestTo d samples i)|} ≤ 2 * samples.length * Real.exp (-2 * n * ε ^ 2) := by
  have hone : ∀ i ∈ Finset.range samples.length, P.real {ω | ε ≤ |shareOf G samples size n (fun r k => X r k ω) i -
      μ.real (nearestTo d samples i)|} ≤ 2 * Real.exp (-2 * n * ε ^ 2) := by
    intro i _
    have hinj : Function.Injective (fun rk : (_ : ℕ) × ℕ => (rk.1, rk.2)) := by
      rintro ⟨a, b⟩ ⟨c, e⟩ h
      obtain ⟨rfl, rfl⟩ := Prod.mk.inj h
      rfl
    have h := frequency_far (P := P) (ι := (_ : ℕ) × ℕ) (Z := fun rk => X rk.1 rk.2) (fun rk => hlaw rk.1 rk.2)
      (hind.precomp hinj) (nn_meas hG hE hS hμ i) (s := drawSet size n) (by rw [card_drawSet hsize]; exact hn) hε
    rw [measureReal_congr (nn_ae hG hE hS hμ i), card_drawSet hsize] at h
    simpa only [shareOf, drawSet, Finset.sum_sigma] using h
  have hun : {ω | ∃ i < samples.length, ε ≤ |shareOf G samples size n (fun r k => X r k ω) i -
      μ.real (nearestTo d samples i)|} = ⋃ i ∈ Finset.range samples.length,
        {ω | ε ≤ |shareOf G samples size n (fun r k => X r k ω) i - μ.real (nearestTo d samples i)|} := by
    ext ω
    simp
  rw [hun]
  refine (measureReal_biUnion_finset_le _ _).trans ((Finset.sum_le_sum hone).trans (le_of_eq ?_))
  rw [Finset.sum_const, Finset.card_range, nsmul_eq_mul]
  ring

end

/-! ## What the calls return -/

theorem binned_probability {G : Geometry ℝ} (hG : Sound G) {size : Nat} {samples : List (List ℝ)}
    (hS : ∀ c ∈ samples, c.length = d) (hpos : 0 < samples.length) {emu : Chunks (List ℝ)} {n : Nat} (hn : 0 < n)
    {ds : DataSet ℝ} {r : SampleSet ℝ × DataSet ℝ} {s : SampleSet ℝ}
    (h : binnedSet G size d samples.length samples emu (n : ℝ) = .ok s) (h' : ds.attach G size s = .ok r) {i : Nat}
    (hi : i < samples.length) :
    cellProbability (.ok r) i = some ((hits (emu.flatten.map (G.nn 2 samples)) i : ℝ) / n) := by
  have hn' : (n : ℝ) ≠ 0 := by exact_mod_cast hn.ne'
  rw [binnedSet_ok hS hpos hn'] at h
  cases h
  obtain ⟨-, hg, -⟩ := attach_ready hG (ready_treeSet hS hpos (by simp)) (ps := r.1) (ds' := r.2) h'
  have hp : r.1.glob.probabilities = some ((List.range samples.length).map fun i =>
      (hits (emu.flatten.map (G.nn 2 samples)) i : ℝ) / n) := by rw [hg]; rfl
  simp only [cellProbability, Except.toOption, Option.bind_some, hp]
  rw [List.getElem?_map, List.getElem?_range hi]
  rfl

theorem stretch_ofFn (c : ℝ) {rs q : List ℝ} (hr : rs.length = d) (hq : q.length = d) (u : Fin d → ℝ) :
    stretch c rs q (List.ofFn u) = List.ofFn fun j : Fin d => c * rs.getD j 0 * (u j - 1 / 2) + q.getD j 0 := by
  apply List.ext_getElem
  · simp [stretch, hr, hq]
  · intro k h1 h2
    simp only [List.length_ofFn] at h2
    simp [stretch, List.getD_eq_getElem?_getD, List.getElem?_eq_getElem (show k < rs.length by omega),
      List.getElem?_eq_getElem (show k < q.length by omega)]

theorem centredBox_getD {q rs : List ℝ} (hr : rs.length = d) (hq : q.length = d) (j : Fin d) :
    (centredBox q rs).getD j (0, 0) = (q.getD j 0 - rs.getD j 0 / 2, q.getD j 0 + rs.getD j 0 / 2) := by
  have h1 : (j : ℕ) < rs.length := by rw [hr]; exact j.2
  have h2 : (j : ℕ) < q.length := by rw [hq]; exact j.2
  simp [centredBox, List.getD_eq_getElem?_getD, List.getElem?_eq_getElem h1, List.getElem?_eq_getElem h2,
    List.getElem?_zipWith]

theorem stretch_box {rs q : List ℝ} (hr : rs.length = d) (hq : q.length = d) (u : Fin d → ℝ) :
    stretch 1 rs q (List.ofFn u) = List.ofFn (boxMap (centredBox q rs) u) := by
  rw [stretch_ofFn 1 hr hq]
  congr 1
  funext j
  simp only [boxMap, toBox, centredBox_getD hr hq]
  ring

theorem centredBox_proper {rs q : List ℝ} (hr : rs.length = d) (hq : q.length = d) (hpos : ∀ r ∈ rs, 0 < r) :
    ProperBox d (centredBox q rs) := by
  refine ⟨by simp [centredBox, hr, hq], fun ab hab => ?_⟩
  obtain ⟨k, hk, rfl⟩ := List.mem_iff_getElem.1 hab
  simp only [centredBox, List.length_zipWith] at hk
  simp only [centredBox, List.getElem_zipWith]
  have := hpos _ (List.getElem_mem (show k < rs.length by omega))
  linarith

/-- Distinct numbers give distinct samples. -/
theorem stretched {c : ℝ} (hc : c ≠ 0) {rs q : List ℝ} (hr : rs.length = d) (hq : q.length = d) (hpos : ∀ r ∈ rs, 0 < r)
    {unif : List (List ℝ)} (hU : DistinctSamples d unif) : DistinctSamples d (unif.map (stretch c rs q)) := by
  refine ⟨?_, ?_, by simpa using hU.pos⟩
  · intro row hrow
    obtain ⟨u, hu, rfl⟩ := List.mem_map.1 hrow
    obtain ⟨u', rfl⟩ := asVector hU hu
    rw [stretch_ofFn c hr hq]
    simp
  · refine List.Nodup.map_on ?_ hU.distinct
    intro a ha b hb hab
    obtain ⟨a', rfl⟩ := asVector hU ha
    obtain ⟨b', rfl⟩ := asVector hU hb
    rw [stretch_ofFn c hr hq, stretch_ofFn c hr hq] at hab
    have := List.ofFn_injective hab
    congr 1
    funext j
    have hj := congrFun this j
    have hp : 0 < rs.getD j 0 := by
      have h1 : (j : ℕ) < rs.length := by rw [hr]; exact j.2
      rw [List.getD_eq_getElem?_getD, List.getElem?_eq_getElem h1]
      exact hpos _ (List.getElem_mem h1)
    have h2 : c * rs.getD j 0 * (a' j - 1 / 2) = c * rs.getD j 0 * (b' j - 1 / 2) := by linarith
    have h3 := mul_left_cancel₀ (mul_ne_zero hc hp.ne') h2
    linarith

theorem flatten_stretch {rs q : List ℝ} (hr : rs.length = d) (hq : q.length = d) (size n : Nat)
    (U : ℕ → ℕ → Fin d → ℝ) :
    (drawnChunks size n U).map (fun ch => ch.map (stretch 1 rs q)) =
      drawnChunks size n fun r k => boxMap (centredBox q rs) (U r k) := by
  simp only [drawnChunks, List.map_map, Function.comp_def, stretch_box hr hq]

theorem uniformSize_probability {G : Geometry ℝ} (hG : Sound G) {size n : Nat} (hn : 0 < n) {ds : DataSet ℝ}
    {given : Option (List ℝ)} {q : List ℝ} (hgiven : UsedReference ds given q) (hq : q.length = d)
    {rectSize : NumArg ℝ} {rs : List ℝ} (hrs : UsedSizes rectSize rs) (hr : rs.length = d) {unif : List (List ℝ)}
    (hU : DistinctSamples d unif) {U : ℕ → ℕ → Fin d → ℝ}
    (hok : (uniformSize G size ds given rectSize unif (drawnChunks size n U) n).isOk) {i : Nat} (hi : i < unif.length) :
    cellProbability (uniformSize G size ds given rectSize unif (drawnChunks size n U) n) i =
      some (shareOf G (unif.map (stretch (3 / 2) rs q)) size n (fun r k => boxMap (centredBox q rs) (U r k)) i) ∧
    ∀ r ∈ rs, 0 < r := by
  cases hcall : uniformSize G size ds given rectSize unif (drawnChunks size n U) n with
  | error e => rw [hcall] at hok; cases hok
  | ok r =>
    have h := hcall
    simp only [uniformSize, bind_eq_ok, raiseIf_eq_ok, pure_eq_ok] at h
    obtain ⟨⟨inp, qr⟩, hc, rs', hrs', -, hpos, -, -, -, hlen, s, hs, h⟩ := h
    simp only [not_or, not_not] at hlen
    have hq' : qr = q := by
      rcases checkInputs_reference hc with h1 | ⟨h1, h2⟩ <;> rcases hgiven with h3 | ⟨h3, h4⟩
      · rw [h1] at h3; exact Option.some.inj h3
      · rw [h1] at h3; cases h3
      · rw [h1] at h3; cases h3
      · rw [h2] at h4; exact Option.some.inj (Except.ok.inj h4)
    subst hq'
    have hrs'' : rs' = rs := by
      have hl : rs'.length = rs.length := by rw [hr, hlen.1, ← hlen.2, hq]
      rcases sizeArray_used hrs' with h1 | h1 | ⟨x, h1, h2⟩ <;> rcases hrs with h3 | h3 | ⟨y, h3, h4⟩ <;>
        rw [h1] at h3 <;> cases h3
      · rfl
      · rfl
      · rw [h2, h4, hl]
    subst hrs''
    have hp : ∀ r ∈ rs', 0 < r := by
      intro r hr
      by_contra hn
      exact hpos ⟨r, hr, not_lt.mp hn⟩
    refine ⟨?_, hp⟩
    have hS := stretched (c := 3 / 2) (by norm_num) hr hq hp hU
    have hdim : inp.dim = d := by rw [← hlen.2, hq]
    simp only [hdim] at hs
    rw [show unif.length = (unif.map (stretch (3 / 2) rs' qr)).length by simp] at hs hi
    rw [binned_probability hG hS.rows hS.pos hn hs h hi, flatten_stretch hr hq, share_hits]

section
variable [IsProbabilityMeasure P]

theorem boxMap_samples {U : ℕ → ℕ → Ω → Fin d → ℝ} (hU : UniformRows P U) {D : List (ℝ × ℝ)} (hD : ProperBox d D) :
    RandomSamples P ((volume (domainBox d D))⁻¹ • volume.restrict (domainBox d D)) fun r k ω => boxMap D (U r k ω) :=
  ⟨fun r k => hasLaw_boxMap (hU.law r k) hD, fun r _ _ hjk => (hU.indep r hjk).comp (measurable_boxMap D) (measurable_boxMap D)⟩

theorem boxLaw_ac (B : Set (Fin d → ℝ)) (c : ENNReal) : c • volume.restrict B ≪ (volume : Measure (Fin d → ℝ)) :=
  Measure.AbsolutelyContinuous.trans Measure.smul_absolutelyContinuous Measure.restrict_le_self.absolutelyContinuous

/-- **C151.** `uniform_partition_uniform_distribution_rectangle_size` on any number of processes: with more and more
emulated points the probability of every cell tends, with probability one, to the part of the rectangle that is nearest
to the sample of the cell. -/
theorem C151_uniform {G : Geometry ℝ} (hG : Sound G) (hE : IsEuclidean d G) {size : Nat} (hsize : 0 < size)
    {ds : DataSet ℝ} {given : Option (List ℝ)} {q : List ℝ} (hgiven : UsedReference ds given q) (hq : q.length = d)
    {rectSize : NumArg ℝ} {rs : List ℝ} (hrs : UsedSizes rectSize rs) (hr : rs.length = d) {unif : List (List ℝ)}
    (hunif : DistinctSamples d unif) {U : ℕ → ℕ → Ω → Fin d → ℝ} (hU : UniformRows P U)
    (hok : ∀ n ω, 0 < n →
      (uniformSize G size ds given rectSize unif (drawnChunks size n fun r k => U r k ω) n).isOk) :
    ∀ᵐ ω ∂P, ∀ i < unif.length, Tendsto (fun n => (cellProbability
        (uniformSize G size ds given rectSize unif (drawnChunks size n fun r k => U r k ω) n) i).getD 0) atTop
      (𝓝 (volume.real (nearestTo d (unif.map (stretch (3 / 2) rs q)) i ∩ domainBox d (centredBox q rs)) /
        volume.real (domainBox d (centredBox q rs)))) := by
  obtain ⟨ω₀⟩ : Nonempty Ω := nonempty_of_isProbabilityMeasure P
  have hp := (uniformSize_probability hG Nat.one_pos hgiven hq hrs hr hunif (hok 1 ω₀ Nat.one_pos) hunif.pos).2
  have hD := centredBox_proper hr hq hp
  have hbox : MeasurableSet (domainBox d (centredBox q rs)) := by
    rw [domainBox_eq hD.1]; exact MeasurableSet.univ_pi fun j => measurableSet_Ico
  filter_upwards [share_limit hG hE (stretched (c := 3 / 2) (by norm_num) hr hq hp hunif) (boxLaw_ac _ _)
    (boxMap_samples hU hD) hsize] with ω hω i hi
  rw [← law_real hbox]
  refine (hω i).congr' ?_
  filter_upwards [eventually_gt_atTop 0] with n hn
  rw [(uniformSize_probability hG hn hgiven hq hrs hr hunif (hok n ω hn) hi).1]
  rfl

/-- **C151.** If all rows are independent, the probability that some cell is wrong by `ε` or more is at most
`2 M exp(-2 n ε²)` for `M` cells and `n` emulated points, whatever the number of processes. -/
theorem C151_uniform_bound {G : Geometry ℝ} (hG : Sound G) (hE : IsEuclidean d G) {size : Nat} (hsize : 0 < size)
    {ds : DataSet ℝ} {given : Option (List ℝ)} {q : List ℝ} (hgiven : UsedReference ds given q) (hq : q.length = d)
    {rectSize : NumArg ℝ} {rs : List ℝ} (hrs : UsedSizes rectSize rs) (hr : rs.length = d) {unif : List (List ℝ)}
    (hunif : DistinctSamples d unif) {U : ℕ → ℕ → Ω → Fin d → ℝ} (hU : IndependentRows P U) {n : Nat} (hn : 0 < n)
    (hok : ∀ ω, (uniformSize G size ds given rectSize unif (drawnChunks size n fun r k => U r k ω) n).isOk) {ε : ℝ}
    (hε : 0 ≤ ε) :
    P.real {ω | ∃ i < unif.length, ε ≤ |(cellProbability
        (uniformSize G size ds given rectSize unif (drawnChunks size n fun r k => U r k ω) n) i).getD 0 -
      volume.real (nearestTo d (unif.map (stretch (3 / 2) rs q)) i ∩ domainBox d (centredBox q rs)) /
        volume.real (domainBox d (centredBox q rs))|} ≤ 2 * unif.length * Real.exp (-2 * n * ε ^ 2) := by
  obtain ⟨ω₀⟩ : Nonempty Ω := nonempty_of_isProbabilityMeasure P
  have hp := (uniformSize_probability hG hn hgiven hq hrs hr hunif (hok ω₀) hunif.pos).2
  have hD := centredBox_proper hr hq hp
  have hbox : MeasurableSet (domainBox d (centredBox q rs)) := by
    rw [domainBox_eq hD.1]; exact MeasurableSet.univ_pi fun j => measurableSet_Ico
  have h := share_far (P := P) hG hE (stretched (c := 3 / 2) (by norm_num) hr hq hp hunif)
    (boxLaw_ac (domainBox d (centredBox q rs)) (volume (domainBox d (centredBox q rs)))⁻¹)
    (X := fun r k ω => boxMap (centredBox q rs) (U r k ω)) (fun r k => hasLaw_boxMap (hU.law r k) hD)
    (hU.indep.comp (fun _ => boxMap (centredBox q rs)) fun _ => measurable_boxMap _) hsize hn hε
  rw [List.length_map] at h
  refine le_trans (le_of_eq ?_) h
  congr 1
  ext ω
  simp only [Set.mem_ofPred_eq, law_real hbox]
  refine exists_congr fun i => and_congr_right fun hi => ?_
  rw [(uniformSize_probability hG hn hgiven hq hrs hr hunif (hok ω) hi).1]
  rfl

end

/-! ## Normal distributions -/

theorem gaussian_density (m : ℝ) {v : NNReal} (hv : v ≠ 0) : IsDensity (gaussianPDFReal m v) :=
  ⟨gaussianPDFReal_nonneg m v, integrable_gaussianPDFReal m v, integral_gaussianPDFReal_eq_one m hv⟩

theorem variance_ne {sd : List ℝ} (hl : sd.length = d) (hsd : ∀ x ∈ sd, 0 < x) (j : Fin d) :
    Real.toNNReal (sd.getD j 0 ^ 2) ≠ 0 := by
  have h1 : (j : ℕ) < sd.length := by rw [hl]; exact j.2
  have h2 : 0 < sd.getD j 0 := by
    rw [List.getD_eq_getElem?_getD, List.getElem?_eq_getElem h1]
    exact hsd _ (List.getElem_mem h1)
  have := Real.toNNReal_pos.2 (pow_pos h2 2)
  exact this.ne'

/-- The normal law has the normal density. -/
theorem normalLaw_eq (q : List ℝ) {sd : List ℝ} (hl : sd.length = d) (hsd : ∀ x ∈ sd, 0 < x) :
    normalLaw d q sd = lawOf (normalDensity d q sd) ∧ IsDensity (normalDensity d q sd) ∧
      ∀ x, 0 < normalDensity d q sd x := by
  have hv := variance_ne hl hsd
  refine ⟨?_, density_prod _ fun j => gaussian_density _ (hv j), fun x =>
    Finset.prod_pos fun j _ => gaussianPDFReal_pos _ _ _ (hv j)⟩
  unfold normalDensity
  rw [← pi_lawOf fun j => gaussian_density (q.getD j 0) (hv j), normalLaw]
  congr 1
  funext j
  rw [gaussianReal_of_var_ne_zero _ (hv j), lawOf]
  rfl

theorem lawOf_ac (f : (Fin d → ℝ) → ℝ) : lawOf f ≪ volume := withDensity_absolutelyContinuous _ _

theorem uniformNormal_probability {G : Geometry ℝ} (hG : Sound G) {size n : Nat} (hn : 0 < n) {ds : DataSet ℝ}
    {q sd : List ℝ} (hq : q.length = d) (hl : sd.length = d) (hsd : ∀ x ∈ sd, 0 < x) {unif : List (List ℝ)}
    (hU : DistinctSamples d unif) {X : ℕ → ℕ → Fin d → ℝ}
    (hok : (uniformNormal G size ds (.array q) (.array sd) unif (drawnChunks size n X) n).isOk) {i : Nat}
    (hi : i < unif.length) :
    cellProbability (uniformNormal G size ds (.array q) (.array sd) unif (drawnChunks size n X) n) i =
      some (shareOf G (unif.map (stretch 4 sd q)) size n X i) := by
  cases hcall : uniformNormal G size ds (.array q) (.array sd) unif (drawnChunks size n X) n with
  | error e => rw [hcall] at hok; cases hok
  | ok r =>
    have h := hcall
    simp only [uniformNormal, bind_eq_ok, raiseIf_eq_ok, pure_eq_ok, DataSet.orInferArg, checkType] at h
    obtain ⟨_, rfl, qr, ⟨_, -, hqr⟩, sd', ⟨_, -, rfl⟩, -, -, s, hs, h⟩ := h
    cases hqr
    have hS := stretched (c := 4) (by norm_num) hl hq hsd hU
    rw [hq] at hs
    rw [show unif.length = (unif.map (stretch 4 sd q)).length by simp] at hs hi
    rw [binned_probability hG hS.rows hS.pos hn hs h hi, share_hits]

section
variable [IsProbabilityMeasure P]

/-- **C151.** `uniform_partition_normal_distribution` on any number of processes: with more and more emulated points
the probability of every cell tends, with probability one, to that of the cell under the normal law. -/
theorem C151_normal {G : Geometry ℝ} (hG : Sound G) (hE : IsEuclidean d G) {size : Nat} (hsize : 0 < size)
    {ds : DataSet ℝ} {q sd : List ℝ} (hq : q.length = d) (hl : sd.length = d) (hsd : ∀ x ∈ sd, 0 < x)
    {unif : List (List ℝ)} (hunif : DistinctSamples d unif) {S : ℕ → Fin d → ℕ → Ω → ℝ}
    (hS : RandomNumbers P (fun j => gaussianReal (q.getD j 0) (Real.toNNReal (sd.getD j 0 ^ 2))) S)
    (hok : ∀ n ω, 0 < n →
      (uniformNormal G size ds (.array q) (.array sd) unif (drawnChunks size n fun r k j => S r j k ω) n).isOk) :
    ∀ᵐ ω ∂P, ∀ i < unif.length, Tendsto (fun n => (cellProbability
        (uniformNormal G size ds (.array q) (.array sd) unif (drawnChunks size n fun r k j => S r j k ω) n) i).getD 0)
      atTop (𝓝 ((normalLaw d q sd).real (nearestTo d (unif.map (stretch 4 sd q)) i))) := by
  have hac : normalLaw d q sd ≪ volume := by
    rw [(normalLaw_eq q hl hsd).1]; exact lawOf_ac _
  filter_upwards [share_limit hG hE (stretched (c := 4) (by norm_num) hl hq hsd hunif) hac (RandomNumbers.points hS) hsize] with ω hω i hi
  refine (hω i).congr' ?_
  filter_upwards [eventually_gt_atTop 0] with n hn
  rw [uniformNormal_probability hG hn hq hl hsd hunif (hok n ω hn) hi]
  rfl

end

/-! ## Partitions by the user -/

theorem userPartition_probability {G : Geometry ℝ} (hG : Sound G) {size n : Nat} (hsize : 0 < size) (hn : 0 < n)
    {ds partition distribution : DataSet ℝ} {samples : List (List ℝ)} (hS : DistinctSamples d samples)
    (hpar : partition.inputs size = .ok ⟨samples.length, d, some samples⟩) {X : ℕ → Fin d → ℝ}
    (hdist : distribution.inputs size = .ok ⟨n, d, some ((List.range n).map fun k => List.ofFn (X k))⟩)
    (hok : (userPartition G size ds partition distribution).isOk) {i : Nat} (hi : i < samples.length) :
    cellProbability (userPartition G size ds partition distribution) i =
      some (shareOf G samples 1 n (fun _ => X) i) := by
  cases hcall : userPartition G size ds partition distribution with
  | error e => rw [hcall] at hok; cases hok
  | ok r =>
    have h := hcall
    simp only [userPartition, bind_eq_ok, raiseIf_eq_ok, pure_eq_ok, orErr_eq_ok, hpar, hdist,
      Except.ok.injEq] at h
    obtain ⟨dim, -, par, rfl, samples', hsa, dist, rfl, pts', hpts, -, hdim, s, hs, h⟩ := h
    cases hsa
    cases hpts
    simp only [not_or, not_not] at hdim
    obtain ⟨rfl, -⟩ := hdim
    have hn' : (n : ℝ) ≠ 0 := by exact_mod_cast hn.ne'
    have hs' : (size : ℝ) ≠ 0 := by exact_mod_cast hsize.ne'
    rw [binned_probability hG hS.rows hS.pos (Nat.mul_pos hn hsize) hs h hi, ← share_hits]
    have e : (drawnChunks 1 n fun _ => X).flatten = (List.range n).map fun k => List.ofFn (X k) := by
      simp [drawnChunks, numLocal, Nat.mod_one]
    rw [e, List.map_flatten, List.map_replicate, hits_replicate]
    push_cast
    congr 1
    field_simp

section
variable [IsProbabilityMeasure P]

/-- **C151.** `user_partition_user_distribution` with points of any law with a density (and more): the probability of
every cell tends, with probability one, to that of the cell under the law of the points. -/
theorem C151_user {G : Geometry ℝ} (hG : Sound G) (hE : IsEuclidean d G) {size : Nat} (hsize : 0 < size)
    {ds partition : DataSet ℝ} {distribution : ℕ → Ω → DataSet ℝ} {samples : List (List ℝ)}
    (hS : DistinctSamples d samples) (hpar : partition.inputs size = .ok ⟨samples.length, d, some samples⟩)
    {μ : Measure (Fin d → ℝ)} (hμ : μ ≪ volume) {X : ℕ → Ω → Fin d → ℝ} (hlaw : ∀ k, HasLaw (X k) μ P)
    (hind : Pairwise fun j k => IndepFun (X j) (X k) P)
    (hdist : ∀ n ω, (distribution n ω).inputs size =
      .ok ⟨n, d, some ((List.range n).map fun k => List.ofFn (X k ω))⟩)
    (hok : ∀ n ω, 0 < n → (userPartition G size ds partition (distribution n ω)).isOk) :
    ∀ᵐ ω ∂P, ∀ i < samples.length, Tendsto
      (fun n => (cellProbability (userPartition G size ds partition (distribution n ω)) i).getD 0) atTop
      (𝓝 (μ.real (nearestTo d samples i))) := by
  filter_upwards [share_limit (X := fun _ => X) hG hE hS hμ ⟨fun _ => hlaw, fun _ => hind⟩ Nat.one_pos] with ω hω i hi
  refine (hω i).congr' ?_
  filter_upwards [eventually_gt_atTop 0] with n hn
  rw [userPartition_probability hG hsize hn hS hpar (hdist n ω) (hok n ω hn) hi]
  rfl

end

/-! ## Normal partitions -/

/-- The number of points in a cell, and the sum of `1 / f` over them. -/
noncomputable def countOf (G : Geometry ℝ) (samples : List (List ℝ)) (size n : Nat) (X : ℕ → ℕ → Fin d → ℝ)
    (i : Nat) : ℝ :=
  ∑ r ∈ Finset.range size, ∑ k ∈ Finset.range (numLocal n size r), ind {x | G.nn 2 samples (List.ofFn x) = i} (X r k)

noncomputable def weightOf (G : Geometry ℝ) (samples : List (List ℝ)) (f : (Fin d → ℝ) → ℝ) (size n : Nat)
    (X : ℕ → ℕ → Fin d → ℝ) (i : Nat) : ℝ :=
  ∑ r ∈ Finset.range size, ∑ k ∈ Finset.range (numLocal n size r),
    {x | G.nn 2 samples (List.ofFn x) = i}.indicator (fun x => 1 / f x) (X r k)

theorem maskSel_map_sum (xs : List (List ℝ)) (c : List ℝ → Nat) (g : List ℝ → ℝ) (i : Nat) :
    ((maskSel xs (npEqual (xs.map c) i)).map g).sum = (xs.map fun x => if c x = i then g x else 0).sum := by
  induction xs with
  | nil => rfl
  | cons x xs ih =>
    by_cases h : c x = i
    · simp only [List.map_cons, npEqual, h, beq_self_eq_true, maskSel, if_true, List.sum_cons, ← ih]
    · have : (c x == i) = false := by simpa using h
      simp only [List.map_cons, npEqual, this, maskSel, h, if_false, List.sum_cons, zero_add, ← ih]
      rfl

theorem weightOf_eq (G : Geometry ℝ) (samples : List (List ℝ)) {pdf : List ℝ → ℝ} {f : (Fin d → ℝ) → ℝ}
    (hpdf : ∀ x, pdf (List.ofFn x) = f x) (size n : Nat) (X : ℕ → ℕ → Fin d → ℝ) (i : Nat) :
    allreduceSum (List.zipWith (fun c xs => ((maskSel xs (npEqual c i)).map fun x => 1 / pdf x).sum)
      ((drawnChunks size n X).map fun c => c.map (G.nn 2 samples)) (drawnChunks size n X)) =
      weightOf G samples f size n X i := by
  rw [List.zipWith_map_left, List.zipWith_self, allreduceSum, weightOf]
  simp only [maskSel_map_sum, drawnChunks, List.map_map, Function.comp_def]
  rw [sum_range_map]
  refine Finset.sum_congr rfl fun r _ => ?_
  rw [sum_range_map]
  refine Finset.sum_congr rfl fun k _ => ?_
  simp only [Set.indicator, Set.mem_ofPred_eq, hpdf]

theorem normalNormal_probability {G : Geometry ℝ} (hG : Sound G) {size n : Nat} {ds : DataSet ℝ}
    {q std : NumArg ℝ} {pdf : List ℝ → ℝ} {f : (Fin d → ℝ) → ℝ} (hpdf : ∀ x, pdf (List.ofFn x) = f x)
    {samples : List (List ℝ)} (hpos : 0 < samples.length) {X : ℕ → ℕ → Fin d → ℝ}
    (hok : (normalNormal G size ds q std pdf samples (drawnChunks size n X)).isOk) {i : Nat} (hi : i < samples.length) :
    cellProbability (normalNormal G size ds q std pdf samples (drawnChunks size n X)) i =
      some (countOf G samples size n X i * weightOf G samples f size n X i /
        ∑ j ∈ Finset.range samples.length, countOf G samples size n X j * weightOf G samples f size n X j) := by
  cases hcall : normalNormal G size ds q std pdf samples (drawnChunks size n X) with
  | error e => rw [hcall] at hok; cases hok
  | ok r =>
    have h := hcall
    simp only [normalNormal, bind_eq_ok, raiseIf_eq_ok, pure_eq_ok] at h
    obtain ⟨q', -, qr, -, sd, -, -, -, s1, h1, s2, h2, ⟨s3, ptr⟩, h3, _, h4, h⟩ := h
    obtain ⟨hr, hk, hv, -, -⟩ := ready_tree h1 h2 hpos
    obtain ⟨t, ht, hrt, hct, hvt⟩ := SampleSet.query_ready (G := G) (size := size) hr (drawnChunks size n X)
    rw [h3] at ht
    simp only [Except.ok.injEq, Prod.mk.injEq] at ht
    obtain ⟨rfl, rfl⟩ := ht
    have hcell : s2.cell G = G.nn 2 samples := by
      unfold SampleSet.setValues at h1
      split at h1
      · cases h1
        simp only [SampleSet.setKdtree, bind_eq_ok, orErr_eq_ok, pure_eq_ok] at h2
        obtain ⟨v, hv', rfl⟩ := h2
        cases hv'
        rfl
      · cases h1
    simp only [hcell] at h h4
    have hc : ∀ i, allreduceSum (((drawnChunks size n X).map fun c => c.map (G.nn 2 samples)).map fun c =>
        (((npEqual c i).count true : Nat) : ℝ)) = countOf G samples size n X i := by
      intro i
      have := countVec_eq (K := ℝ) ((drawnChunks size n X).map fun c => c.map (G.nn 2 samples)) (i + 1)
      have h5 := congrArg (fun l => l[i]?) this
      simp only [List.getElem?_map, List.getElem?_range (Nat.lt_succ_self i), Option.map_some, Option.some.injEq] at h5
      rw [h5, ← List.map_flatten, drawnChunks, hits_drawn, countOf]
    simp only [hc, weightOf_eq G samples hpdf] at h h4
    rw [List.zipWith_map, List.zipWith_self] at h h4
    have hready := ready_setVolumes (ready_probabilities hrt (p := ((List.range samples.length).map fun i =>
      countOf G samples size n X i * weightOf G samples f size n X i).map (· / ((List.range samples.length).map fun i =>
      countOf G samples size n X i * weightOf G samples f size n X i).sum)) (by simp))
      (p := (List.range samples.length).map (weightOf G samples f size n X)) (by simp)
    obtain ⟨-, hg, -⟩ := attach_ready hG hready (ps := r.1) (ds' := r.2) h
    have hp : r.1.glob.probabilities = some (((List.range samples.length).map fun i =>
      countOf G samples size n X i * weightOf G samples f size n X i).map (· / ((List.range samples.length).map fun i =>
      countOf G samples size n X i * weightOf G samples f size n X i).sum)) := by rw [hg]
    simp only [cellProbability, Except.toOption, Option.bind_some, hp]
    rw [List.getElem?_map, List.getElem?_map, List.getElem?_range hi, sum_range_map]
    rfl

/-- Every point is in a cell. -/
theorem nearest_cover {G : Geometry ℝ} (hG : Sound G) (hE : IsEuclidean d G) {samples : List (List ℝ)}
    (hS : DistinctSamples d samples) : (⋃ i ∈ Finset.range samples.length, nearestTo d samples i) = Set.univ := by
  refine Set.eq_univ_of_forall fun x => ?_
  have h := SampleSet.cell_isCell hG (treeSet_ready hS) (List.ofFn x)
  have hx : x ∈ nearestTo d samples ((treeSet d samples none).cell G (List.ofFn x)) := by
    rw [← nearestTo_eq hE hS]; exact h
  obtain ⟨c, h1, -⟩ := hx
  simp only [Set.mem_iUnion, Finset.mem_range]
  exact ⟨_, (List.getElem?_eq_some_iff.1 h1).1, by rw [← nearestTo_eq hE hS]; exact h⟩

/-- Some cell is infinite. -/
theorem infinite_cell {G : Geometry ℝ} (hG : Sound G) (hE : IsEuclidean d G) (hd : 0 < d) {samples : List (List ℝ)}
    (hS : DistinctSamples d samples) : ∃ j < samples.length, volume (nearestTo d samples j) = ⊤ := by
  by_contra hno
  push Not at hno
  have : Nonempty (Fin d) := ⟨⟨0, hd⟩⟩
  have h1 : (volume : Measure (Fin d → ℝ)) Set.univ = ⊤ := measure_univ_of_isAddLeftInvariant _
  rw [← nearest_cover hG hE hS] at h1
  have h2 := measure_biUnion_finset_le (μ := (volume : Measure (Fin d → ℝ))) (Finset.range samples.length)
    (nearestTo d samples)
  rw [h1, top_le_iff, ENNReal.sum_eq_top] at h2
  obtain ⟨j, hj, h3⟩ := h2
  exact hno j (Finset.mem_range.1 hj) h3

/-- Every cell has volume. -/
theorem nearestTo_pos {samples : List (List ℝ)} (hS : DistinctSamples d samples) {i : Nat} (hi : i < samples.length) :
    0 < volume (nearestTo d samples i) := by
  obtain ⟨c, hc⟩ := asVector hS (List.getElem_mem hi)
  let O : Set (Fin d → ℝ) := ⋂ c' ∈ {c' | c' ∈ samples ∧ c' ≠ List.ofFn c},
    {x | ∑ j, (x j - c j) ^ 2 < ∑ j : Fin d, (x j - c'.getD j 0) ^ 2}
  have hfin : {c' | c' ∈ samples ∧ c' ≠ List.ofFn c}.Finite := (List.finite_toSet samples).subset fun _ h => h.1
  have hO : IsOpen O := hfin.isOpen_biInter fun c' _ => isOpen_lt (by fun_prop) (by fun_prop)
  have hcO : c ∈ O := by
    simp only [O, Set.mem_iInter, Set.mem_ofPred_eq]
    rintro c' ⟨h1, h2⟩
    obtain ⟨c'', rfl⟩ := asVector hS h1
    have hne : c'' ≠ c := fun h => h2 (by rw [h])
    obtain ⟨j, hj⟩ := Function.ne_iff.1 hne
    simp only [sub_self, ne_eq, OfNat.ofNat_ne_zero, not_false_eq_true, zero_pow, Finset.sum_const_zero]
    refine Finset.sum_pos' (fun _ _ => sq_nonneg _) ⟨j, Finset.mem_univ j, ?_⟩
    have : (List.ofFn c'').getD j 0 = c'' j := by simp [List.getD_eq_getElem?_getD]
    rw [this]
    have h3 : c j - c'' j ≠ 0 := sub_ne_zero.2 (Ne.symm hj)
    positivity
  refine lt_of_lt_of_le (hO.measure_pos volume ⟨c, hcO⟩) (measure_mono fun x hx => ?_)
  refine ⟨c, by rw [List.getElem?_eq_getElem hi, hc], fun c' h => ?_⟩
  by_cases h2 : List.ofFn c' = List.ofFn c
  · rw [List.ofFn_injective h2]
  · simp only [O, Set.mem_iInter, Set.mem_ofPred_eq] at hx
    have := hx _ ⟨h, h2⟩
    simp only [List.getD_eq_getElem?_getD, List.getElem?_ofFn] at this
    refine le_of_lt (lt_of_lt_of_eq this (Finset.sum_congr rfl fun j _ => by simp))

theorem lawOf_pos {f : (Fin d → ℝ) → ℝ} (hf : IsDensity f) (hpos : ∀ x, 0 < f x) {A : Set (Fin d → ℝ)}
    (hA : volume A ≠ 0) : 0 < (lawOf f).real A := by
  have := lawOf_prob hf
  have hac : volume ≪ lawOf f := withDensity_absolutelyContinuous' hf.integrable.aemeasurable.ennreal_ofReal
    (Eventually.of_forall fun x => by simpa using hpos x)
  rw [Measure.real]
  exact ENNReal.toReal_pos (fun h => hA (hac h)) (measure_ne_top _ _)

/-- The mean of `1 / f` over a set of finite volume is this volume. -/
theorem inverse_finite {f : (Fin d → ℝ) → ℝ} (hf : IsDensity f) (hpos : ∀ x, 0 < f x) {A : Set (Fin d → ℝ)}
    (hA : NullMeasurableSet A volume) (hfin : volume A ≠ ⊤) :
    Integrable (A.indicator fun x => 1 / f x) (lawOf f) ∧
      ∫ x, A.indicator (fun x => 1 / f x) x ∂lawOf f = volume.real A := by
  have e : ∀ x, f x * A.indicator (fun x => 1 / f x) x = A.indicator (fun _ => (1 : ℝ)) x := by
    intro x
    by_cases hx : x ∈ A
    · simp [hx, (hpos x).ne']
    · simp [hx]
  constructor
  · unfold lawOf
    rw [integrable_withDensity_iff_integrable_smul₀' hf.integrable.aemeasurable.ennreal_ofReal
      (Eventually.of_forall fun x => ENNReal.ofReal_lt_top)]
    simp only [ENNReal.toReal_ofReal (hf.nonneg _), smul_eq_mul, e]
    exact (integrableOn_const hfin).integrable_indicator₀ hA
  · rw [integral_lawOf hf]
    simp only [mul_comm _ (f _), e]
    rw [integral_indicator₀ hA]
    simp

/-- Over a set of infinite volume the means of `min (1 / f) K` are as large as one likes. -/
theorem inverse_infinite {f : (Fin d → ℝ) → ℝ} (hf : IsDensity f) (hpos : ∀ x, 0 < f x) {A : Set (Fin d → ℝ)}
    (hA : NullMeasurableSet A volume) (hinf : volume A = ⊤) (B : ℝ) :
    ∃ K : ℕ, Integrable (A.indicator fun x => min (1 / f x) K) (lawOf f) ∧
      B < ∫ x, A.indicator (fun x => min (1 / f x) K) x ∂lawOf f := by
  have hprob := lawOf_prob hf
  have hAf : NullMeasurableSet A (lawOf f) := hA.mono_ac (lawOf_ac f)
  have hfm : AEMeasurable f (lawOf f) := hf.integrable.aemeasurable.mono_ac (lawOf_ac f)
  have hint : ∀ K : ℕ, Integrable (A.indicator fun x => min (1 / f x) (K : ℝ)) (lawOf f) := by
    intro K
    refine Integrable.indicator₀ ?_ hAf
    refine Integrable.of_mem_Icc 0 K ((aemeasurable_const.div hfm).min aemeasurable_const)
      (Eventually.of_forall fun x => ⟨le_min (by have := hpos x; positivity) (by positivity), min_le_right _ _⟩)
  have e : ∀ (K : ℕ) x, A.indicator (fun x => min (1 / f x) (K : ℝ)) x * f x =
      A.indicator (fun x => min 1 (K * f x)) x := by
    intro K x
    by_cases hx : x ∈ A
    · simp only [hx, Set.indicator_of_mem]
      rw [min_mul_of_nonneg _ _ (hpos x).le, one_div_mul_cancel (hpos x).ne']
    · simp [hx]
  have hlim : Tendsto (fun K : ℕ => ∫⁻ x in A, ENNReal.ofReal (min 1 (K * f x))) atTop (𝓝 (∫⁻ _ in A, 1)) := by
    refine lintegral_tendsto_of_tendsto_of_monotone (fun K => ?_) ?_ ?_
    · exact (aemeasurable_const.min (hf.integrable.aemeasurable.restrict.const_mul _)).ennreal_ofReal
    · refine Eventually.of_forall fun x K L hKL => ENNReal.ofReal_le_ofReal (min_le_min_left _ ?_)
      exact mul_le_mul_of_nonneg_right (by exact_mod_cast hKL) (hpos x).le
    · refine Eventually.of_forall fun x => ?_
      refine tendsto_const_nhds.congr' ?_
      obtain ⟨K0, hK0⟩ := exists_nat_ge (1 / f x)
      filter_upwards [eventually_ge_atTop K0] with K hK
      have h1 : 1 / f x ≤ K := hK0.trans (by exact_mod_cast hK)
      rw [div_le_iff₀ (hpos x)] at h1
      rw [min_eq_left h1, ENNReal.ofReal_one]
  rw [setLIntegral_one, hinf] at hlim
  obtain ⟨K, hK⟩ := (hlim.eventually (lt_mem_nhds (ENNReal.ofReal_lt_top (r := B)))).exists
  refine ⟨K, hint K, ?_⟩
  have hval : ∫⁻ x in A, ENNReal.ofReal (min 1 (K * f x)) =
      ENNReal.ofReal (∫ x, A.indicator (fun x => min (1 / f x) (K : ℝ)) x ∂lawOf f) := by
    rw [integral_lawOf hf]
    simp only [e]
    rw [integral_indicator₀ hA, ofReal_integral_eq_lintegral_ofReal]
    · have h := hint K
      unfold lawOf at h
      rw [integrable_withDensity_iff_integrable_smul₀' hf.integrable.aemeasurable.ennreal_ofReal
        (Eventually.of_forall fun x => ENNReal.ofReal_lt_top)] at h
      simp only [ENNReal.toReal_ofReal (hf.nonneg _), smul_eq_mul, mul_comm (f _), e] at h
      refine (h.integrableOn (s := A)).congr ?_
      filter_upwards [ae_restrict_mem₀ hA] with x hx
      simp [hx]
    · exact Eventually.of_forall fun x => le_min zero_le_one (mul_nonneg (by positivity) (hpos x).le)
  rw [hval] at hK
  exact (ENNReal.ofReal_lt_ofReal_iff'.1 hK).1

theorem countOf_nonneg (G : Geometry ℝ) (samples : List (List ℝ)) (size n : Nat) (X : ℕ → ℕ → Fin d → ℝ) (i : Nat) :
    0 ≤ countOf G samples size n X i :=
  Finset.sum_nonneg fun _ _ => Finset.sum_nonneg fun _ _ => (ind_mem _ _).1

theorem weightOf_nonneg (G : Geometry ℝ) (samples : List (List ℝ)) {f : (Fin d → ℝ) → ℝ} (hpos : ∀ x, 0 < f x)
    (size n : Nat) (X : ℕ → ℕ → Fin d → ℝ) (i : Nat) : 0 ≤ weightOf G samples f size n X i :=
  Finset.sum_nonneg fun _ _ => Finset.sum_nonneg fun _ _ => Set.indicator_nonneg (fun x _ => by
    have := hpos x; positivity) _

section
variable [IsProbabilityMeasure P]

/-- The weight of a finite cell, per point, tends to its volume. -/
theorem weight_finite {G : Geometry ℝ} (hG : Sound G) (hE : IsEuclidean d G) {samples : List (List ℝ)}
    (hS : DistinctSamples d samples) {f : (Fin d → ℝ) → ℝ} (hf : IsDensity f) (hpos : ∀ x, 0 < f x)
    {X : ℕ → ℕ → Ω → Fin d → ℝ} (hX : RandomSamples P (lawOf f) X) {size : Nat} (hsize : 0 < size) {i : Nat}
    (hfin : volume (nearestTo d samples i) ≠ ⊤) :
    ∀ᵐ ω ∂P, Tendsto (fun n : ℕ => weightOf G samples f size n (fun r k => X r k ω) i / n) atTop
      (𝓝 (volume.real (nearestTo d samples i))) := by
  have hae := nn_ae hG hE hS (Measure.AbsolutelyContinuous.refl volume) i
  have h := inverse_finite hf hpos (nn_meas hG hE hS (Measure.AbsolutelyContinuous.refl volume) i)
    (by rw [measure_congr hae]; exact hfin)
  have h2 := streams_mean hsize hX.law hX.indep h.1
  rw [h.2, measureReal_congr hae] at h2
  exact h2

/-- The weight of an infinite cell, per point, tends to infinity. -/
theorem weight_infinite {G : Geometry ℝ} (hG : Sound G) (hE : IsEuclidean d G) {samples : List (List ℝ)}
    (hS : DistinctSamples d samples) {f : (Fin d → ℝ) → ℝ} (hf : IsDensity f) (hpos : ∀ x, 0 < f x)
    {X : ℕ → ℕ → Ω → Fin d → ℝ} (hX : RandomSamples P (lawOf f) X) {size : Nat} (hsize : 0 < size) {i : Nat}
    (hinf : volume (nearestTo d samples i) = ⊤) :
    ∀ᵐ ω ∂P, Tendsto (fun n : ℕ => weightOf G samples f size n (fun r k => X r k ω) i / n) atTop atTop := by
  have hae := nn_ae hG hE hS (Measure.AbsolutelyContinuous.refl volume) i
  have hbound : ∀ B : ℕ, ∀ᵐ ω ∂P, ∀ᶠ n : ℕ in atTop, (B : ℝ) ≤ weightOf G samples f size n (fun r k => X r k ω) i / n := by
    intro B
    obtain ⟨K, h1, h2⟩ := inverse_infinite hf hpos (nn_meas hG hE hS (Measure.AbsolutelyContinuous.refl volume) i)
      (by rw [measure_congr hae]; exact hinf) B
    filter_upwards [streams_mean hsize hX.law hX.indep h1] with ω hω
    filter_upwards [hω.eventually (lt_mem_nhds h2)] with n hn
    refine hn.le.trans (div_le_div_of_nonneg_right ?_ (by positivity))
    refine Finset.sum_le_sum fun r _ => Finset.sum_le_sum fun k _ => ?_
    exact Set.indicator_le_indicator (min_le_left _ _)
  filter_upwards [ae_all_iff.2 hbound] with ω hω
  refine tendsto_atTop.2 fun b => ?_
  obtain ⟨B, hB⟩ := exists_nat_ge b
  filter_upwards [hω B] with n hn
  exact hB.trans hn

/-- **C151, negation for `normal_partition_normal_distribution`.** For every positive density of the points and all
distinct samples, the probability of every cell of finite volume tends to zero with more and more emulated points, with
probability one, although the cell has positive probability under the law of the points. -/
theorem C151_negation_normal_partition {G : Geometry ℝ} (hG : Sound G) (hE : IsEuclidean d G) (hd : 0 < d)
    {samples : List (List ℝ)} (hS : DistinctSamples d samples) {f : (Fin d → ℝ) → ℝ} (hf : IsDensity f)
    (hpos : ∀ x, 0 < f x) {pdf : List ℝ → ℝ} (hpdf : ∀ x, pdf (List.ofFn x) = f x) {X : ℕ → ℕ → Ω → Fin d → ℝ}
    (hX : RandomSamples P (lawOf f) X) {size : Nat} (hsize : 0 < size) {ds : DataSet ℝ} {q std : NumArg ℝ}
    (hok : ∀ n ω, 0 < n → (normalNormal G size ds q std pdf samples (drawnChunks size n fun r k => X r k ω)).isOk)
    {i : Nat} (hi : i < samples.length) (hfin : volume (nearestTo d samples i) ≠ ⊤) :
    0 < (lawOf f).real (nearestTo d samples i) ∧
    ∀ᵐ ω ∂P, Tendsto (fun n => (cellProbability
      (normalNormal G size ds q std pdf samples (drawnChunks size n fun r k => X r k ω)) i).getD 0) atTop (𝓝 0) := by
  refine ⟨lawOf_pos hf hpos (nearestTo_pos hS hi).ne', ?_⟩
  obtain ⟨j, hj, hinf⟩ := infinite_cell hG hE hd hS
  have hjpos : 0 < (lawOf f).real (nearestTo d samples j) := lawOf_pos hf hpos (nearestTo_pos hS hj).ne'
  filter_upwards [share_limit hG hE hS (lawOf_ac f) hX hsize, weight_finite hG hE hS hf hpos hX hsize hfin,
    weight_infinite hG hE hS hf hpos hX hsize hinf] with ω hc hwi hwj
  have hnum := (hc i).mul hwi
  have hden := Tendsto.pos_mul_atTop hjpos (hc j) hwj
  refine tendsto_of_tendsto_of_tendsto_of_le_of_le' tendsto_const_nhds (hnum.div_atTop hden) ?_ ?_
  · filter_upwards [eventually_gt_atTop 0] with n hn
    rw [normalNormal_probability hG hpdf hS.pos (hok n ω hn) hi, Option.getD_some]
    exact div_nonneg (mul_nonneg (countOf_nonneg _ _ _ _ _ _) (weightOf_nonneg _ _ hpos _ _ _ _))
      (Finset.sum_nonneg fun k _ => mul_nonneg (countOf_nonneg _ _ _ _ _ _) (weightOf_nonneg _ _ hpos _ _ _ _))
  · filter_upwards [eventually_gt_atTop 0, hden.eventually_gt_atTop 0] with n hn hpos'
    rw [normalNormal_probability hG hpdf hS.pos (hok n ω hn) hi, Option.getD_some]
    have hn' : (0 : ℝ) < n := by exact_mod_cast hn
    have e : ∀ k, shareOf G samples size n (fun r k => X r k ω) k * (weightOf G samples f size n (fun r k => X r k ω) k / n) =
        countOf G samples size n (fun r k => X r k ω) k * weightOf G samples f size n (fun r k => X r k ω) k / (n * n) := by
      intro k
      rw [shareOf, ← countOf]
      field_simp
    simp only [e] at hpos' ⊢
    rw [div_div_div_cancel_right₀ (mul_pos hn' hn').ne']
    have hpos2 : 0 < countOf G samples size n (fun r k => X r k ω) j * weightOf G samples f size n (fun r k => X r k ω) j := by
      have := mul_pos hpos' (mul_pos hn' hn')
      rwa [div_mul_cancel₀ _ (mul_pos hn' hn').ne'] at this
    refine div_le_div_of_nonneg_left (mul_nonneg (countOf_nonneg _ _ _ _ _ _) (weightOf_nonneg _ _ hpos _ _ _ _)) hpos2 ?_
    exact Finset.single_le_sum (f := fun k => countOf G samples size n (fun r k => X r k ω) k *
      weightOf G samples f size n (fun r k => X r k ω) k)
      (fun k _ => mul_nonneg (countOf_nonneg _ _ _ _ _ _) (weightOf_nonneg _ _ hpos _ _ _ _)) (Finset.mem_range.2 hj)

end

/-! ## The calls succeed -/

/-- **C151.** With a data array, all calls of `uniform_partition_normal_distribution` with one emulated point or more
succeed. -/
theorem C151_normal_accepts {G : Geometry ℝ} {size n : Nat} (hn : 0 < n) (k : Nat) (v : List (List ℝ)) {q sd : List ℝ}
    (hq : q.length = d) (hl : sd.length = d) {unif : List (List ℝ)} (hU : DistinctSamples d unif)
    (emu : Chunks (List ℝ)) :
    (uniformNormal G size (.array k v) (.array q) (.array sd) unif emu n).isOk := by
  have hn' : (n : ℝ) ≠ 0 := by exact_mod_cast hn.ne'
  have hrows : ∀ row ∈ unif.map (stretch 4 sd q), row.length = q.length := by
    intro row hrow
    obtain ⟨u, hu, rfl⟩ := List.mem_map.1 hrow
    simp [stretch, hU.rows u hu, hq, hl]
  have h := binnedSet_ok (G := G) (size := size) (emu := emu) hrows (by simpa using hU.pos) hn'
  rw [List.length_map] at h
  have e : uniformNormal G size (.array k v) (.array q) (.array sd) unif emu n =
      (binnedSet G size q.length unif.length (unif.map (stretch 4 sd q)) emu (n : ℝ)) >>=
        fun s => DataSet.attach G size (.array k v) s := by
    simp only [uniformNormal, DataSet.orInferArg, checkType, DataSet.typeDim, pure, Except.pure, ok_bind, raiseIf,
      hq, hl, ne_eq, not_true_eq_false, if_false]
  rw [e, h]
  rfl

/-- **C151.** So do all calls of `user_partition_user_distribution` with one point or more. -/
theorem C151_user_accepts {G : Geometry ℝ} {size : Nat} (hsize : 0 < size) (v : List (List ℝ))
    {partition distribution : DataSet ℝ} {samples pts : List (List ℝ)} (hS : DistinctSamples d samples)
    (hpts : pts ≠ []) (hpar : partition.inputs size = .ok ⟨samples.length, d, some samples⟩)
    (hdist : distribution.inputs size = .ok ⟨pts.length, d, some pts⟩) :
    (userPartition G size (.array d v) partition distribution).isOk := by
  have hn : ((pts.length * size : Nat) : ℝ) ≠ 0 := by
    have := List.length_pos_of_ne_nil hpts
    exact_mod_cast (Nat.mul_pos this hsize).ne'
  have h := binnedSet_ok (G := G) (size := size) (emu := List.replicate size pts) hS.rows hS.pos hn
  have e : userPartition G size (.array d v) partition distribution =
      (binnedSet G size d samples.length samples (List.replicate size pts) ((pts.length * size : Nat) : ℝ)) >>=
        fun s => DataSet.attach G size (.array d v) s := by
    simp only [userPartition, DataSet.dimOf, hpar, hdist, ok_bind, orErr_some, raiseIf, ne_eq, not_true_eq_false,
      or_self, if_false]
  rw [e, h]
  rfl

/-- **C151.** So do all calls of `normal_partition_normal_distribution`, if the density is positive. -/
theorem C151_normal_partition_accepts {G : Geometry ℝ} (hG : Sound G) {size n : Nat} (hsize : 0 < size) (hn : 0 < n)
    (k : Nat) (v : List (List ℝ)) {q sd : List ℝ} (hq : q.length = d) (hl : sd.length = d) {samples : List (List ℝ)}
    (hS : DistinctSamples d samples) {f : (Fin d → ℝ) → ℝ} (hpos : ∀ x, 0 < f x) {pdf : List ℝ → ℝ}
    (hpdf : ∀ x, pdf (List.ofFn x) = f x) (X : ℕ → ℕ → Fin d → ℝ) :
    (normalNormal G size (.array k v) (.array q) (.array sd) pdf samples (drawnChunks size n X)).isOk := by
  have h1 : SampleSet.setValues ({ dim := d } : SampleSet ℝ) samples =
      .ok { dim := d, glob := { values := some samples } } := by
    unfold SampleSet.setValues
    rw [if_pos]
    rw [SampleSet.colsOk_iff]
    intro v hv row hrow
    cases hv
    exact hS.rows row hrow
  have h2 : SampleSet.setKdtree ({ dim := d, glob := { values := some samples } } : SampleSet ℝ) =
      .ok (treeSet d samples none) := rfl
  obtain ⟨t, ht, -⟩ := SampleSet.query_ready (G := G) (size := size) (treeSet_ready hS) (drawnChunks size n X)
  have hcell : (treeSet d samples none).cell G = G.nn 2 samples := rfl
  rw [hcell] at ht
  have hc : ∀ i, allreduceSum (((drawnChunks size n X).map fun c => c.map (G.nn 2 samples)).map fun c =>
      (((npEqual c i).count true : Nat) : ℝ)) = countOf G samples size n X i := by
    intro i
    have := countVec_eq (K := ℝ) ((drawnChunks size n X).map fun c => c.map (G.nn 2 samples)) (i + 1)
    have h5 := congrArg (fun l => l[i]?) this
    simp only [List.getElem?_map, List.getElem?_range (Nat.lt_succ_self i), Option.map_some, Option.some.injEq] at h5
    rw [h5, ← List.map_flatten, drawnChunks, hits_drawn, countOf]
  have hsum : ¬ (List.zipWith (· * ·) ((List.range samples.length).map (countOf G samples size n X))
      ((List.range samples.length).map (weightOf G samples f size n X))).sum = 0 := by
    rw [List.zipWith_map, List.zipWith_self, sum_range_map]
    have hne : (drawSet size n).Nonempty := by
      rw [← Finset.card_pos, card_drawSet hsize]; exact hn
    obtain ⟨⟨r, m⟩, hrm⟩ := hne
    rw [drawSet, Finset.mem_sigma] at hrm
    obtain ⟨hr, hm⟩ := hrm
    have hi : G.nn 2 samples (List.ofFn (X r m)) < samples.length := by
      obtain ⟨c, h, -⟩ := hG 2 samples (List.ofFn (X r m)) (List.ne_nil_of_length_pos hS.pos)
      exact (List.getElem?_eq_some_iff.1 h).1
    refine ne_of_gt (Finset.sum_pos' (fun i _ => mul_nonneg (countOf_nonneg _ _ _ _ _ _)
      (weightOf_nonneg _ _ hpos _ _ _ _)) ⟨_, Finset.mem_range.2 hi, mul_pos ?_ ?_⟩)
    · refine Finset.sum_pos' (fun _ _ => Finset.sum_nonneg fun _ _ => (ind_mem _ _).1) ⟨r, hr, ?_⟩
      refine Finset.sum_pos' (fun _ _ => (ind_mem _ _).1) ⟨m, hm, ?_⟩
      simp [ind, Set.indicator]
    · have hnn : ∀ x, 0 ≤ Set.indicator {x | G.nn 2 samples (List.ofFn x) = G.nn 2 samples (List.ofFn (X r m))}
          (fun x => 1 / f x) x := fun x => Set.indicator_nonneg (fun x _ => by have := hpos x; positivity) _
      refine Finset.sum_pos' (fun _ _ => Finset.sum_nonneg fun _ _ => hnn _) ⟨r, hr, ?_⟩
      refine Finset.sum_pos' (fun _ _ => hnn _) ⟨m, hm, ?_⟩
      simpa [Set.indicator] using hpos (X r m)
  simp only [normalNormal, DataSet.orInferArg, checkType, DataSet.typeDim, pure, Except.pure, ok_bind, raiseIf,
    hq, hl, ne_eq, not_true_eq_false, if_false, h1, h2, ht, hc, weightOf_eq G samples hpdf]
  rw [if_neg hsum]
  rfl

end BET

namespace BET.Ex

open BET.Spec MeasureTheory ProbabilityTheory Filter Topology

theorem euclid_isEuclidean (d : Nat) : IsEuclidean d euclid := fun x c => euclid_dist _ x c

theorem twoRows : DistinctSamples 2 [[(0 : ℝ), 0], [1 / 2, 3 / 4]] := ⟨by simp, by simp, by norm_num⟩

/-- **C151.** A rectangle with two cells on three processes. -/
example : ∃ (Ω : Type) (_ : MeasurableSpace Ω) (P : Measure Ω) (U : ℕ → ℕ → Ω → Fin 2 → ℝ), IsProbabilityMeasure P ∧
    ∀ᵐ ω ∂P, ∀ i < 2, Tendsto (fun n => (cellProbability (uniformSize euclid 3 (.array 2 [[5, 5]]) (some [1, 2])
        (.scalar 4) [[0, 0], [1 / 2, 3 / 4]] (drawnChunks 3 n fun r k => U r k ω) n) i).getD 0) atTop
      (𝓝 (volume.real (nearestTo 2 ([[0, 0], [1 / 2, 3 / 4]].map (stretch (3 / 2) [4, 4] [1, 2])) i ∩
        domainBox 2 (centredBox [1, 2] [4, 4])) / volume.real (domainBox 2 (centredBox [1, 2] [4, 4])))) := by
  obtain ⟨Ω, i, P, U, hP, hI, hU⟩ := independentRows 2
  refine ⟨Ω, i, P, U, hP, C151_uniform euclid_sound (euclid_isEuclidean 2) (by norm_num) (Or.inl rfl) rfl
    (Or.inr (Or.inr ⟨4, rfl, rfl⟩)) rfl twoRows hU fun n ω hn => ?_⟩
  obtain ⟨ps, h⟩ := C68_accepts_partial (G := euclid) (size := 3) (d := 2) (num := n) (v := [[5, 5]]) (q := [1, 2]) rfl
    (a := .scalar 4) (rs := [4, 4]) (by simp) (Or.inl ⟨4, rfl, rfl⟩) twoRows.pos twoRows.rows
    (drawnChunks 3 n fun r k => U r k ω) hn
  rw [h]
  rfl

/-- **C151.** A normal distribution in two directions, with two cells on three processes. -/
example : ∃ (Ω : Type) (_ : MeasurableSpace Ω) (P : Measure Ω) (S : ℕ → Fin 2 → ℕ → Ω → ℝ), IsProbabilityMeasure P ∧
    ∀ᵐ ω ∂P, ∀ i < 2, Tendsto (fun n => (cellProbability (uniformNormal euclid 3 (.array 2 [[5, 5]]) (.array [1, 2])
        (.array [1, 3]) [[0, 0], [1 / 2, 3 / 4]] (drawnChunks 3 n fun r k j => S r j k ω) n) i).getD 0) atTop
      (𝓝 ((normalLaw 2 [1, 2] [1, 3]).real (nearestTo 2 ([[0, 0], [1 / 2, 3 / 4]].map (stretch 4 [1, 3] [1, 2])) i))) := by
  obtain ⟨Ω, i, P, Z, hP, hZ, -⟩ := randomNumbers fun (_ : ℕ) (j : Fin 2) =>
    gaussianReal ([(1 : ℝ), 2].getD j 0) (Real.toNNReal ([(1 : ℝ), 3].getD j 0 ^ 2))
  exact ⟨Ω, i, P, fun r => Z r 0, hP, C151_normal (d := 2) (q := [1, 2]) (sd := [1, 3]) euclid_sound
    (euclid_isEuclidean 2) (by norm_num) rfl rfl (by simp) twoRows (hZ 0) fun n ω hn =>
      C151_normal_accepts (d := 2) (q := [1, 2]) (sd := [1, 3]) hn 2 [[5, 5]] rfl rfl twoRows _⟩

/-- **C151.** A partition by the user with points of a normal law. -/
example : ∃ (Ω : Type) (_ : MeasurableSpace Ω) (P : Measure Ω) (X : ℕ → Ω → Fin 2 → ℝ), IsProbabilityMeasure P ∧
    ∀ᵐ ω ∂P, ∀ i < 2, Tendsto (fun n => (cellProbability (userPartition euclid 3 (.array 2 [])
        (.array 2 [[0, 0], [1 / 2, 3 / 4]]) (.array 2 ((List.range n).map fun k => List.ofFn (X k ω)))) i).getD 0) atTop
      (𝓝 ((normalLaw 2 [1, 2] [1, 3]).real (nearestTo 2 [[0, 0], [1 / 2, 3 / 4]] i))) := by
  obtain ⟨Ω, i, P, Z, hP, hZ, -⟩ := randomNumbers fun (_ : ℕ) (j : Fin 2) =>
    gaussianReal ([(1 : ℝ), 2].getD j 0) (Real.toNNReal ([(1 : ℝ), 3].getD j 0 ^ 2))
  have hX := RandomNumbers.points (hZ 0)
  have hac : normalLaw 2 [1, 2] [1, 3] ≪ volume := by
    rw [(normalLaw_eq (d := 2) [1, 2] (sd := [1, 3]) rfl (by simp)).1]; exact lawOf_ac _
  refine ⟨Ω, i, P, fun k ω j => Z 0 0 j k ω, hP, C151_user euclid_sound (euclid_isEuclidean 2) (by norm_num) twoRows rfl
    hac (fun k => hX.law 0 k) (hX.indep 0) (fun n ω => by simp [DataSet.inputs, pure, Except.pure]) fun n ω hn => ?_⟩
  refine C151_user_accepts (by norm_num) _ twoRows (pts := (List.range n).map fun k => List.ofFn fun j => Z 0 0 j k ω)
    (by simpa using hn.ne') rfl rfl

theorem threeOnLine : DistinctSamples 1 [[(-1 : ℝ)], [0], [1]] := ⟨by simp, by norm_num, by norm_num⟩

/-- The middle of three cells on the line is finite. -/
theorem middle_finite : volume (nearestTo 1 [[(-1 : ℝ)], [0], [1]] 1) ≠ ⊤ := by
  refine ne_top_of_le_ne_top (b := volume (Set.univ.pi fun _ : Fin 1 => Set.Icc (-1 : ℝ) 1)) ?_ (measure_mono ?_)
  · rw [volume_pi_pi]
    simp
  · rintro x ⟨c, h1, h2⟩ j -
    have hc : c 0 = 0 := by
      have := (Option.some.inj h1).symm
      simpa using this
    have ha := h2 (fun _ => 1) (by simp)
    have hb := h2 (fun _ => -1) (by simp)
    simp only [Fin.sum_univ_one, hc] at ha hb
    rw [Fin.eq_zero j]
    constructor <;> nlinarith

/-- **C151.** The middle cell of three under the standard normal law: its probability is positive, what is computed
tends to zero. -/
example : ∃ (Ω : Type) (_ : MeasurableSpace Ω) (P : Measure Ω) (S : ℕ → Fin 1 → ℕ → Ω → ℝ), IsProbabilityMeasure P ∧
    0 < (normalLaw 1 [0] [1]).real (nearestTo 1 [[-1], [0], [1]] 1) ∧
    ∀ᵐ ω ∂P, Tendsto (fun n => (cellProbability (normalNormal euclid 3 (.array 1 []) (.array [0]) (.array [1])
        (fun x => normalDensity 1 [0] [1] fun j => x.getD j 0) [[-1], [0], [1]]
        (drawnChunks 3 n fun r k j => S r j k ω)) 1).getD 0) atTop (𝓝 0) := by
  obtain ⟨Ω, i, P, Z, hP, hZ, -⟩ := randomNumbers fun (_ : ℕ) (j : Fin 1) =>
    gaussianReal ([(0 : ℝ)].getD j 0) (Real.toNNReal ([(1 : ℝ)].getD j 0 ^ 2))
  obtain ⟨hlaw, hf, hpos⟩ := normalLaw_eq (d := 1) [0] (sd := [1]) rfl (by simp)
  have hX := RandomNumbers.points (hZ 0)
  rw [← normalLaw, hlaw] at hX
  have hpdf : ∀ x : Fin 1 → ℝ, normalDensity 1 [0] [1] (fun j => (List.ofFn x).getD j 0) = normalDensity 1 [0] [1] x := by
    intro x
    congr 1
    funext j
    rw [Fin.eq_zero j]
    simp [List.getD_eq_getElem?_getD]
  rw [hlaw]
  refine ⟨Ω, i, P, fun r => Z r 0, hP, C151_negation_normal_partition euclid_sound (euclid_isEuclidean 1) (by norm_num)
    threeOnLine hf hpos hpdf hX (by norm_num) (fun n ω hn => ?_) (by norm_num) middle_finite⟩
  exact C151_normal_partition_accepts (d := 1) (q := [0]) (sd := [1]) euclid_sound (by norm_num) hn 1 [] rfl rfl
    threeOnLine hpos hpdf _

end BET.Ex
