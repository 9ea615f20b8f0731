import Verif.Model.DrawsRadii
import Verif.Props.Convergence
import Verif.Props.Radii

/-!
# C142: estimated radii converge
-/

set_option linter.unusedSectionVars false
set_option linter.unusedSimpArgs false
set_option autoImplicit false

namespace BET

open Spec MeasureTheory ProbabilityTheory Filter Topology

variable {Ω : Type} [MeasurableSpace Ω] {P : Measure Ω} {d : Nat}

/-! ## Specification -/

namespace Spec

/-- The radius of cell `i` after a call. -/
def cellRadius (normalize : Bool) (r : Except Err (SampleSet ℝ)) (i : Nat) : Option ℝ :=
  r.toOption.bind fun s => (radiiOf normalize s).bind fun v => v[i]?

/-- The distance of a point from sample `i`, in coordinates relative to the domain if `normalize`. -/
noncomputable def sampleDistance (G : Geometry ℝ) (s : SampleSet ℝ) (normalize : Bool) (D : List (ℝ × ℝ)) (i : Nat)
    (x : Fin d → ℝ) : ℝ :=
  separation G s.pNorm normalize D (List.ofFn x) ((s.glob.values.getD []).getD i [])

/-- `R` is the radius of cell `i`: almost no point of the cell in the domain is further than `R` from the sample, but
for every `ε` a part of the cell that has a volume is further than `R - ε`. -/
structure TrueRadius (d : Nat) (G : Geometry ℝ) (s : SampleSet ℝ) (normalize : Bool) (D : List (ℝ × ℝ)) (i : Nat)
    (R : ℝ) : Prop where
  within : ∀ᵐ x ∂volume.restrict (cellSet d G s i ∩ domainBox d D), sampleDistance G s normalize D i x ≤ R
  reached : ∀ ε > 0, volume ({x | R - ε < sampleDistance G s normalize D i x} ∩
    (cellSet d G s i ∩ domainBox d D)) ≠ 0

end Spec

/-! ## What the calls do, in terms of the cells that the code finds -/

theorem estimateRadii_cell {G : Geometry ℝ} {size m : Nat} {s : SampleSet ℝ} (hr : Ready s m)
    {D : List (ℝ × ℝ)} (hD : s.domain = some D) {values : List (List ℝ)}
    (hv : s.glob.values = some values) {mc : Chunks (List ℝ)} (hne : mc ≠ []) (normalize : Bool) :
    ((∀ c ∈ mc, ∀ i < m, i ∈ c.map (s.cell G)) →
      ∃ s' rad, s.estimateRadii G size mc normalize = .ok s' ∧ radiiOf normalize s' = some rad ∧
        LargestDistances (separation G s.pNorm normalize D) values mc.flatten (mc.flatten.map (s.cell G)) rad) ∧
    ((∃ c ∈ mc, ∃ i < m, i ∉ c.map (s.cell G)) →
      s.estimateRadii G size mc normalize = .error .valueError) := by
  obtain ⟨h1, h2⟩ := findRadii_cases (G := G) (size := size) hr hD hv hne normalize
  refine ⟨fun hall => ?_, fun h => ?_⟩
  · obtain ⟨q, rad, h3, ⟨s', h4, rfl⟩, h5⟩ := h1 hall
    obtain ⟨s'', h6, h7, -, h8⟩ := SampleSet.query_ready (G := G) (size := size) hr mc
    rw [h4] at h6
    have h6 := (Prod.mk.inj (Except.ok.inj h6)).1
    subst h6
    have hm : values.length = m := hr.consistent.1.values values hv
    have hcons := consistent_storeRadii h7.consistent h7.values (h5.length.trans hm) normalize
    refine ⟨SampleSet.splitSet size m (q.storeRadii normalize rad), rad, ?_, ?_, h5⟩
    · simp only [SampleSet.estimateRadii, h3, ok_bind]
      exact SampleSet.globalToLocal_ok hcons size
    · cases normalize <;> rfl
  · simp only [SampleSet.estimateRadii, h2 h]
    rfl

theorem estimateRadiiAndVolume_cell {G : Geometry ℝ} {size m n : Nat} {s : SampleSet ℝ} (hr : Ready s m)
    {D : List (ℝ × ℝ)} (hD : s.domain = some D) {values : List (List ℝ)}
    (hv : s.glob.values = some values) {mc : Chunks (List ℝ)} (hne : mc ≠ []) (hn : mc.flatten.length = n)
    (hpos : 0 < n) (normalize : Bool) :
    ((∀ c ∈ mc, ∀ i < m, i ∈ c.map (s.cell G)) →
      ∃ s' rad, s.estimateRadiiAndVolume G size n mc normalize = .ok s' ∧ radiiOf normalize s' = some rad ∧
        LargestDistances (separation G s.pNorm normalize D) values mc.flatten (mc.flatten.map (s.cell G)) rad ∧
        s'.glob.volumes = some (cellFractions G s m mc.flatten)) ∧
    ((∃ c ∈ mc, ∃ i < m, i ∉ c.map (s.cell G)) →
      s.estimateRadiiAndVolume G size n mc normalize = .error .valueError) := by
  obtain ⟨h1, h2⟩ := findRadii_cases (G := G) (size := size) hr hD hv hne normalize
  refine ⟨fun hall => ?_, fun h => ?_⟩
  · obtain ⟨q, rad, h3, ⟨s', h4, rfl⟩, h5⟩ := h1 hall
    obtain ⟨s'', h6, h7, -, h8⟩ := SampleSet.query_ready (G := G) (size := size) hr mc
    rw [h4] at h6
    have h6 := (Prod.mk.inj (Except.ok.inj h6)).1
    subst h6
    have hm : values.length = m := hr.consistent.1.values values hv
    have hcons := consistent_setVolumes (vol := cellFractions G s m mc.flatten)
      (consistent_storeRadii h7.consistent h7.values (h5.length.trans hm) normalize)
      (by simp [cellFractions])
    have hvol : ((List.range m).map fun i => allreduceSum ((mc.map fun c => c.map (s.cell G)).map fun c =>
        (((npEqual c i).count true : Nat) : ℝ))).map (· / (n : ℝ)) = cellFractions G s m mc.flatten := by
      rw [countVec_eq, List.map_map, cellFractions, hn, List.map_flatten]
      rfl
    refine ⟨SampleSet.splitSet size m { q.storeRadii normalize rad with
      glob := { (q.storeRadii normalize rad).glob with
        volumes := some (cellFractions G s m mc.flatten) } }, rad, ?_, ?_, h5, ?_⟩
    · simp only [SampleSet.estimateRadiiAndVolume, SampleSet.checkNum_consistent (size := size) hr.consistent,
        h3, ok_bind, raiseIf_false hpos.ne', hvol]
      exact SampleSet.globalToLocal_ok hcons size
    · cases normalize <;> rfl
    · cases normalize <;> rfl
  · simp only [SampleSet.estimateRadiiAndVolume, SampleSet.checkNum_consistent (size := size) hr.consistent,
      ok_bind, h2 h]
    rfl

/-- The points that the processes draw. -/
theorem mcPoints_ofFn {D : List (ℝ × ℝ)} (hD : D.length = d) (size n : Nat) (U : ℕ → ℕ → Fin d → ℝ) :
    mcPoints D size n (fun r k => List.ofFn (U r k)) =
      (List.range size).map fun r => (List.range (numLocal n size r)).map fun k =>
        List.ofFn (boxMap D (U r k)) := by
  unfold mcPoints
  simp only [boxPoint_ofFn hD]

/-- Every process has a point in every cell. -/
def AllHit (c : (Fin d → ℝ) → Nat) (m size n : Nat) (Z : ℕ → ℕ → Fin d → ℝ) : Prop :=
  ∀ r < size, ∀ i < m, ∃ k < numLocal n size r, c (Z r k) = i

theorem allHit_iff {c : List ℝ → Nat} {m size n : Nat} {Z : ℕ → ℕ → Fin d → ℝ} :
    AllHit (fun x => c (List.ofFn x)) m size n Z ↔ ∀ ch ∈ (List.range size).map fun r =>
      (List.range (numLocal n size r)).map fun k => List.ofFn (Z r k), ∀ i < m, i ∈ ch.map c := by
  simp only [List.mem_map, List.mem_range, forall_exists_index, and_imp, forall_apply_eq_imp_iff₂]
  refine forall_congr' fun r => forall_congr' fun hr => forall_congr' fun i => forall_congr' fun hi => ?_
  simp only [List.map_map, List.mem_map, List.mem_range, Function.comp]
  constructor
  · rintro ⟨k, hk, h⟩; exact ⟨_, ⟨k, hk, rfl⟩, h⟩
  · rintro ⟨_, ⟨k, hk, rfl⟩, h⟩; exact ⟨k, hk, h⟩

/-- A radius: the largest distance of the points of the cell. -/
structure LargestDrawn (f : (Fin d → ℝ) → ℝ) (c : (Fin d → ℝ) → Nat) (i size n : Nat) (Z : ℕ → ℕ → Fin d → ℝ)
    (ρ : ℝ) : Prop where
  bound : ∀ r < size, ∀ k < numLocal n size r, c (Z r k) = i → f (Z r k) ≤ ρ
  attained : ∃ r < size, ∃ k < numLocal n size r, c (Z r k) = i ∧ f (Z r k) = ρ

theorem mem_drawn {size n : Nat} {Z : ℕ → ℕ → Fin d → ℝ} {x : List ℝ} :
    x ∈ (((List.range size).map fun r => (List.range (numLocal n size r)).map fun k => List.ofFn (Z r k)).flatten) ↔
      ∃ r < size, ∃ k < numLocal n size r, List.ofFn (Z r k) = x := by
  simp only [List.mem_flatten, List.mem_map, List.mem_range]
  constructor
  · rintro ⟨l, ⟨r, hr, rfl⟩, h⟩
    simp only [List.mem_map, List.mem_range] at h
    exact ⟨r, hr, h⟩
  · rintro ⟨r, hr, h⟩
    exact ⟨_, ⟨r, hr, rfl⟩, by simpa only [List.mem_map, List.mem_range] using h⟩

theorem largestDrawn_of {G : Geometry ℝ} {s : SampleSet ℝ} {normalize : Bool} {D : List (ℝ × ℝ)} {m : Nat}
    {values : List (List ℝ)} (hv : s.glob.values = some values) (hm : values.length = m) {c : List ℝ → Nat}
    {size n : Nat} {Z : ℕ → ℕ → Fin d → ℝ} {rad : List ℝ}
    (h : LargestDistances (separation G s.pNorm normalize D) values
      (((List.range size).map fun r => (List.range (numLocal n size r)).map fun k => List.ofFn (Z r k)).flatten)
      ((((List.range size).map fun r => (List.range (numLocal n size r)).map fun k => List.ofFn (Z r k)).flatten).map c)
      rad) {i : Nat} (hi : i < m) :
    ∃ ρ, rad[i]? = some ρ ∧
      LargestDrawn (sampleDistance G s normalize D i) (fun x => c (List.ofFn x)) i size n Z ρ := by
  have hi' : i < values.length := by omega
  have hir : i < rad.length := by rw [h.length]; exact hi'
  have hval : (s.glob.values.getD []).getD i [] = values[i] := by
    rw [hv, Option.getD_some, List.getD_eq_getElem?_getD, List.getElem?_eq_getElem hi']
    rfl
  refine ⟨rad[i], List.getElem?_eq_getElem hir, fun r hr k hk hc => ?_, ?_⟩
  · obtain ⟨j, hj⟩ := List.mem_iff_getElem?.1 (mem_drawn.2 ⟨r, hr, k, hk, rfl⟩)
    have := h.bound j i (List.ofFn (Z r k)) values[i] rad[i] hj (by rw [List.getElem?_map, hj]; exact congrArg some hc)
      (List.getElem?_eq_getElem hi') (List.getElem?_eq_getElem hir)
    unfold sampleDistance
    rw [hval]
    exact this
  · obtain ⟨j, x, hj, hc, hd⟩ := h.attained i values[i] rad[i] (List.getElem?_eq_getElem hi')
      (List.getElem?_eq_getElem hir)
    obtain ⟨r, hr, k, hk, rfl⟩ := mem_drawn.1 (List.mem_of_getElem? hj)
    rw [List.getElem?_map, hj] at hc
    refine ⟨r, hr, k, hk, Option.some.inj hc, ?_⟩
    unfold sampleDistance
    rw [hval]
    exact hd

theorem radii_drawn {G : Geometry ℝ} {s : SampleSet ℝ} {m : Nat} (hr : Ready s m) {D : List (ℝ × ℝ)}
    (hdom : s.domain = some D) (hD : D.length = d) {size : Nat} (hsize : 0 < size) (n : Nat)
    (U : ℕ → ℕ → Fin d → ℝ) (normalize : Bool) :
    (AllHit (fun x => s.cell G (List.ofFn x)) m size n (fun r k => boxMap D (U r k)) →
      (s.estimateRadiiDrawn G size n (fun r k => List.ofFn (U r k)) normalize).toOption.isSome ∧ ∀ i < m,
      ∃ ρ, cellRadius normalize (s.estimateRadiiDrawn G size n (fun r k => List.ofFn (U r k)) normalize) i = some ρ ∧
        LargestDrawn (sampleDistance G s normalize D i) (fun x => s.cell G (List.ofFn x)) i size n
          (fun r k => boxMap D (U r k)) ρ) ∧
    (¬ AllHit (fun x => s.cell G (List.ofFn x)) m size n (fun r k => boxMap D (U r k)) →
      s.estimateRadiiDrawn G size n (fun r k => List.ofFn (U r k)) normalize = .error .valueError) := by
  obtain ⟨values, hv, -⟩ := SampleSet.ready_values hr
  have hm : values.length = m := hr.consistent.1.values values hv
  unfold SampleSet.estimateRadiiDrawn
  rw [hdom, Option.getD_some, mcPoints_ofFn hD, allHit_iff]
  obtain ⟨h1, h2⟩ := estimateRadii_cell (G := G) (size := size) hr hdom hv
    (mc := (List.range size).map fun r => (List.range (numLocal n size r)).map fun k => List.ofFn (boxMap D (U r k)))
    (by simp; omega) normalize
  refine ⟨fun h => ?_, fun h => h2 (by push Not at h; exact h)⟩
  obtain ⟨s', rad, h3, h4, h5⟩ := h1 h
  refine ⟨by rw [h3]; rfl, fun i hi => ?_⟩
  obtain ⟨ρ, h6, h7⟩ := largestDrawn_of hv hm h5 hi
  exact ⟨ρ, by rw [cellRadius, h3]; simp only [Except.toOption, Option.bind_some, h4, h6], h7⟩

theorem radiiAndVolume_drawn {G : Geometry ℝ} {s : SampleSet ℝ} {m : Nat} (hr : Ready s m) {D : List (ℝ × ℝ)}
    (hdom : s.domain = some D) (hD : D.length = d) {size : Nat} (hsize : 0 < size) {n : Nat} (hn : 0 < n)
    (U : ℕ → ℕ → Fin d → ℝ) (normalize : Bool) :
    (AllHit (fun x => s.cell G (List.ofFn x)) m size n (fun r k => boxMap D (U r k)) →
      (s.estimateRadiiAndVolumeDrawn G size n (fun r k => List.ofFn (U r k)) normalize).toOption.isSome ∧ ∀ i < m,
      cellRadius normalize (s.estimateRadiiAndVolumeDrawn G size n (fun r k => List.ofFn (U r k)) normalize) i =
        cellRadius normalize (s.estimateRadiiDrawn G size n (fun r k => List.ofFn (U r k)) normalize) i ∧
      cellVolume (s.estimateRadiiAndVolumeDrawn G size n (fun r k => List.ofFn (U r k)) normalize) i =
        cellVolume (s.estimateVolumeDrawn G size n (fun r k => List.ofFn (U r k))) i) ∧
    (¬ AllHit (fun x => s.cell G (List.ofFn x)) m size n (fun r k => boxMap D (U r k)) →
      s.estimateRadiiAndVolumeDrawn G size n (fun r k => List.ofFn (U r k)) normalize = .error .valueError) := by
  obtain ⟨values, hv, -⟩ := SampleSet.ready_values hr
  have hm : values.length = m := hr.consistent.1.values values hv
  unfold SampleSet.estimateRadiiDrawn SampleSet.estimateRadiiAndVolumeDrawn SampleSet.estimateVolumeDrawn
  rw [hdom, Option.getD_some, mcPoints_ofFn hD, allHit_iff]
  obtain ⟨h1, -⟩ := estimateRadii_cell (G := G) (size := size) hr hdom hv
    (mc := (List.range size).map fun r => (List.range (numLocal n size r)).map fun k => List.ofFn (boxMap D (U r k)))
    (by simp; omega) normalize
  obtain ⟨h2, h3⟩ := estimateRadiiAndVolume_cell (G := G) (size := size) hr hdom hv
    (mc := (List.range size).map fun r => (List.range (numLocal n size r)).map fun k => List.ofFn (boxMap D (U r k)))
    (by simp; omega) (length_drawn hsize n _) hn normalize
  refine ⟨fun h => ?_, fun h => h3 (by push Not at h; exact h)⟩
  obtain ⟨s1, rad1, h11, h12, h13⟩ := h1 h
  obtain ⟨s2, rad2, h21, h22, h23, h24⟩ := h2 h
  obtain ⟨s3, h31, h32, -⟩ := estimateVolume_ok (G := G) (size := size) hr (by rw [hdom]; rfl)
    (mc := (List.range size).map fun r => (List.range (numLocal n size r)).map fun k => List.ofFn (boxMap D (U r k)))
    (length_drawn hsize n _) hn
  have hrad := C87_determined h13 h23
  subst hrad
  refine ⟨by rw [h21]; rfl, fun i hi => ⟨?_, ?_⟩⟩
  · rw [cellRadius, cellRadius, h11, h21]; simp only [Except.toOption, Option.bind_some, h12, h22]
  · rw [cellVolume, cellVolume, h31, h21]; simp only [Except.toOption, Option.bind_some, h24, h32]

/-! ## Hitting events -/

theorem nullMeasurable_part {B A : Set (Fin d → ℝ)} (hB : MeasurableSet B)
    (hA : NullMeasurableSet A (volume.restrict B)) : NullMeasurableSet (A ∩ B) volume := by
  obtain ⟨C, hC, hAC⟩ := hA
  have h : (A ∩ B : Set (Fin d → ℝ)) =ᵐ[volume] (C ∩ B : Set (Fin d → ℝ)) := by
    have := (ae_restrict_iff' hB).1 hAC
    filter_upwards [this] with x hx
    refine propext ⟨fun h => ⟨(hx h.2).to_iff.1 h.1, h.2⟩, fun h => ⟨(hx h.2).to_iff.2 h.1, h.2⟩⟩
  exact ((hC.inter hB).nullMeasurableSet).congr h.symm

section
variable [IsProbabilityMeasure P]

/-- An event of positive probability is hit. -/
theorem ae_hit {E : Type} [MeasurableSpace E] {μ : Measure E} {Z : ℕ → Ω → E} (hlaw : ∀ k, HasLaw (Z k) μ P)
    (hind : Pairwise fun j k => IndepFun (Z j) (Z k) P) {A : Set E} (hA : NullMeasurableSet A μ)
    (hpos : μ.real A ≠ 0) : ∀ᵐ ω ∂P, ∃ k, Z k ω ∈ A := by
  filter_upwards [stream_frequency hlaw hind hA] with ω hω
  by_contra hno
  push Not at hno
  have : (fun n : ℕ => (∑ k ∈ Finset.range n, ind A (Z k ω)) / n) = fun _ => (0 : ℝ) := by
    funext n
    rw [Finset.sum_eq_zero fun k _ => by simp [ind, hno k], zero_div]
  rw [this] at hω
  exact hpos (tendsto_nhds_unique hω tendsto_const_nhds)

/-- The probability that finitely many independent draws all miss an event. -/
theorem prob_miss {E ι : Type} [MeasurableSpace E] {μ : Measure E} {Z : ι → Ω → E} (hlaw : ∀ k, HasLaw (Z k) μ P)
    (hind : iIndepFun Z P) {A : Set E} (hA : NullMeasurableSet A μ) (S : Finset ι) :
    P.real {ω | ∀ k ∈ S, Z k ω ∉ A} = (1 - μ.real A) ^ S.card := by
  obtain ⟨B, hB, hAB⟩ := hA
  have hae : {ω | ∀ k ∈ S, Z k ω ∉ A} =ᵐ[P] (⋂ k ∈ S, Z k ⁻¹' Bᶜ : Set Ω) := by
    have h : ∀ᵐ ω ∂P, ∀ k ∈ S, (Z k ω ∈ A ↔ Z k ω ∈ B) := by
      refine (Finset.eventually_all S).2 fun k _ => ?_
      have h2 := hAB
      rw [← (hlaw k).map_eq] at h2
      filter_upwards [ae_of_ae_map (hlaw k).aemeasurable h2] with ω hω
      exact hω.to_iff
    filter_upwards [h] with ω hω
    refine propext ?_
    show (∀ k ∈ S, Z k ω ∉ A) ↔ ω ∈ (⋂ k ∈ S, Z k ⁻¹' Bᶜ : Set Ω)
    simp only [Set.mem_iInter, Set.mem_preimage, Set.mem_compl_iff]
    exact forall_congr' fun k => forall_congr' fun hk => not_congr (hω k hk)
  have hμ : IsProbabilityMeasure μ ∨ S = ∅ := by
    by_cases hS : S = ∅
    · exact Or.inr hS
    · obtain ⟨k, -⟩ := Finset.nonempty_iff_ne_empty.2 hS
      exact Or.inl (by rw [← (hlaw k).map_eq]; exact Measure.isProbabilityMeasure_map (hlaw k).aemeasurable)
  rw [measureReal_congr hae, measureReal_congr hAB, Measure.real,
    hind.measure_inter_preimage_eq_mul S (fun _ _ => hB.compl), ENNReal.toReal_prod]
  rcases hμ with hμ | rfl
  swap
  · simp
  rw [← Finset.prod_const]
  refine Finset.prod_congr rfl fun k _ => ?_
  rw [← Measure.map_apply_of_aemeasurable (hlaw k).aemeasurable hB.compl, (hlaw k).map_eq]
  exact probReal_compl_eq_one_sub hB

/-! ## The theorems -/

/-- What holds of the draws with probability one: a point is never further from the sample of its cell than the
radius. -/
theorem draws_within {G : Geometry ℝ} (hG : Sound G) {s : SampleSet ℝ} {m : Nat} (hr : Ready s m) {D : List (ℝ × ℝ)}
    (hD : ProperBox d D) {U : ℕ → ℕ → Ω → Fin d → ℝ}
    (hlaw : ∀ r k, HasLaw (U r k) (volume.restrict (Set.univ.pi fun _ => Set.Ico (0 : ℝ) 1)) P)
    (hc : ClearCells G s (volume.restrict (domainBox d D))) {normalize : Bool} {R : ℕ → ℝ}
    (hR : ∀ i < m, TrueRadius d G s normalize D i (R i)) :
    ∀ᵐ ω ∂P, ∀ r k, ∀ i < m, s.cell G (List.ofFn (boxMap D (U r k ω))) = i →
      sampleDistance G s normalize D i (boxMap D (U r k ω)) ≤ R i := by
  have hbox : MeasurableSet (domainBox d D) := by
    rw [domainBox_eq hD.1]; exact MeasurableSet.univ_pi fun j => measurableSet_Ico
  refine ae_all_iff.2 fun r => ae_all_iff.2 fun k => ae_all_iff.2 fun i => ?_
  by_cases hi : i < m
  swap
  · exact Eventually.of_forall fun ω h => absurd h hi
  have h1 := (ae_restrict_iff'₀ (nullMeasurable_part hbox (hc.meas i))).1 (hR i hi).within
  have h2 : ∀ᵐ x ∂volume.restrict (domainBox d D), x ∈ cellSet d G s i →
      sampleDistance G s normalize D i x ≤ R i := by
    refine (ae_restrict_iff' hbox).2 ?_
    filter_upwards [h1] with x hx hb hcx using hx ⟨hcx, hb⟩
  have h3 := Measure.ae_smul_measure h2 (volume (domainBox d D))⁻¹
  rw [← (hasLaw_boxMap (hlaw r k) hD).map_eq] at h3
  filter_upwards [ae_of_ae_map (hasLaw_boxMap (hlaw r k) hD).aemeasurable h3] with ω hω _ hcell
  refine hω ?_
  have := SampleSet.cell_isCell hG hr (List.ofFn (boxMap D (U r k ω)))
  rw [hcell] at this
  exact this

/-- The part of a cell that is further from the sample than a bound, relative to the domain. -/
noncomputable def Spec.farVolume (d : Nat) (G : Geometry ℝ) (s : SampleSet ℝ) (normalize : Bool) (D : List (ℝ × ℝ))
    (i : Nat) (a : ℝ) : ℝ :=
  volume.real ({x | a < sampleDistance G s normalize D i x} ∩ (cellSet d G s i ∩ domainBox d D)) /
    volume.real (domainBox d D)

theorem box_finite (D : List (ℝ × ℝ)) (hD : D.length = d) : volume (domainBox d D) ≠ ⊤ := by
  rw [domainBox_eq hD, volume_pi_pi]
  simp only [Real.volume_Ico]
  exact ENNReal.prod_ne_top fun _ _ => ENNReal.ofReal_ne_top

theorem box_pos {D : List (ℝ × ℝ)} (hD : ProperBox d D) : volume.real (domainBox d D) ≠ 0 := by
  rw [domainBox_eq hD.1, Measure.real, volume_pi_pi]
  simp only [Real.volume_Ico]
  refine (ENNReal.toReal_pos (Finset.prod_ne_zero_iff.2 fun j _ => ?_) ?_).ne'
  · have hj : (j : ℕ) < D.length := by rw [hD.1]; exact j.2
    rw [List.getD_eq_getElem?_getD, List.getElem?_eq_getElem hj]
    have := hD.2 _ (List.getElem_mem hj)
    simpa using this
  · exact ENNReal.prod_ne_top fun _ _ => ENNReal.ofReal_ne_top

/-- The event that a draw lies in the cell, further from the sample than a bound. -/
theorem far_law {G : Geometry ℝ} (hG : Sound G) {s : SampleSet ℝ} {m : Nat} (hr : Ready s m) {D : List (ℝ × ℝ)}
    (hD : ProperBox d D) (hc : ClearCells G s (volume.restrict (domainBox d D))) {normalize : Bool} {i : Nat}
    (hm : Measurable fun x : Fin d → ℝ => sampleDistance G s normalize D i x) (a : ℝ) :
    NullMeasurableSet {x : Fin d → ℝ | s.cell G (List.ofFn x) = i ∧ a < sampleDistance G s normalize D i x}
      ((volume (domainBox d D))⁻¹ • volume.restrict (domainBox d D)) ∧
    ((volume (domainBox d D))⁻¹ • volume.restrict (domainBox d D)).real
      {x : Fin d → ℝ | s.cell G (List.ofFn x) = i ∧ a < sampleDistance G s normalize D i x} =
      farVolume d G s normalize D i a := by
  have hbox : MeasurableSet (domainBox d D) := by
    rw [domainBox_eq hD.1]; exact MeasurableSet.univ_pi fun j => measurableSet_Ico
  have hcl := clear_scale hc (volume (domainBox d D))⁻¹
  have hae := cell_ae hG hr hcl i
  have hfar : MeasurableSet {x : Fin d → ℝ | a < sampleDistance G s normalize D i x} :=
    measurableSet_lt measurable_const hm
  have hset : {x : Fin d → ℝ | s.cell G (List.ofFn x) = i ∧ a < sampleDistance G s normalize D i x} =
      {x : Fin d → ℝ | s.cell G (List.ofFn x) = i} ∩ {x | a < sampleDistance G s normalize D i x} := rfl
  have hae2 : {x : Fin d → ℝ | s.cell G (List.ofFn x) = i ∧ a < sampleDistance G s normalize D i x}
      =ᵐ[(volume (domainBox d D))⁻¹ • volume.restrict (domainBox d D)]
      (cellSet d G s i ∩ {x | a < sampleDistance G s normalize D i x} : Set (Fin d → ℝ)) := by
    rw [hset]
    exact hae.inter (ae_eq_refl _)
  refine ⟨((hcl.meas i).inter hfar.nullMeasurableSet).congr hae2.symm, ?_⟩
  rw [measureReal_congr hae2, law_real hbox, farVolume, Set.inter_comm (cellSet d G s i), Set.inter_assoc]

/-- **C142.** `estimate_radii` on any number of processes: with probability one, every call with enough points
succeeds, and the radius of every cell tends to its true radius. -/
theorem C142_radii {G : Geometry ℝ} (hG : Sound G) {s : SampleSet ℝ} {m : Nat} (hr : Ready s m) {D : List (ℝ × ℝ)}
    (hdom : s.domain = some D) (hD : ProperBox d D) {size : Nat} (hsize : 0 < size) {U : ℕ → ℕ → Ω → Fin d → ℝ}
    (hU : UniformRows P U) (hc : ClearCells G s (volume.restrict (domainBox d D))) (normalize : Bool)
    (hm : ∀ i < m, Measurable fun x : Fin d → ℝ => sampleDistance G s normalize D i x) {R : ℕ → ℝ}
    (hR : ∀ i < m, TrueRadius d G s normalize D i (R i)) :
    ∀ᵐ ω ∂P, (∀ᶠ n in atTop,
        (s.estimateRadiiDrawn G size n (fun r k => List.ofFn (U r k ω)) normalize).toOption.isSome) ∧
      ∀ i < m, Tendsto (fun n => (cellRadius normalize
        (s.estimateRadiiDrawn G size n (fun r k => List.ofFn (U r k ω)) normalize) i).getD 0) atTop (𝓝 (R i)) := by
  have hhit : ∀ᵐ ω ∂P, ∀ r, ∀ i < m, ∀ j : ℕ, ∃ k, s.cell G (List.ofFn (boxMap D (U r k ω))) = i ∧
      R i - 1 / (j + 1) < sampleDistance G s normalize D i (boxMap D (U r k ω)) := by
    refine ae_all_iff.2 fun r => ae_all_iff.2 fun i => ?_
    by_cases hi : i < m
    swap
    · exact Eventually.of_forall fun ω h => absurd h hi
    have : ∀ j : ℕ, ∀ᵐ ω ∂P, ∃ k, s.cell G (List.ofFn (boxMap D (U r k ω))) = i ∧
        R i - 1 / (j + 1) < sampleDistance G s normalize D i (boxMap D (U r k ω)) := by
      intro j
      obtain ⟨h1, h2⟩ := far_law hG hr hD hc (hm i hi) (R i - 1 / (j + 1))
      refine ae_hit (fun k => hasLaw_boxMap (hU.law r k) hD)
        (fun k l hkl => (hU.indep r hkl).comp (measurable_boxMap D) (measurable_boxMap D)) h1 ?_
      rw [h2, farVolume]
      refine div_ne_zero ?_ (box_pos hD)
      have h3 := (hR i hi).reached (1 / (j + 1)) (by positivity)
      rw [Measure.real, ENNReal.toReal_ne_zero]
      exact ⟨h3, measure_ne_top_of_subset (Set.inter_subset_right.trans Set.inter_subset_right)
        (box_finite D hD.1)⟩
    exact (ae_all_iff.2 this).mono fun ω h _ => h
  filter_upwards [hhit, draws_within hG hr hD hU.law hc hR] with ω hω hin
  have hev : ∀ᶠ n in atTop, AllHit (fun x => s.cell G (List.ofFn x)) m size n (fun r k => boxMap D (U r k ω)) := by
    have : ∀ r ∈ Finset.range size, ∀ i ∈ Finset.range m, ∀ᶠ n in atTop, ∃ k < numLocal n size r,
        s.cell G (List.ofFn (boxMap D (U r k ω))) = i := by
      intro r _ i hi
      obtain ⟨k, hk, -⟩ := hω r i (Finset.mem_range.1 hi) 0
      filter_upwards [(numLocal_share hsize r).2.eventually_gt_atTop k] with n hn
      exact ⟨k, hn, hk⟩
    have h2 := (Finset.eventually_all _).2 fun r hr => (Finset.eventually_all _).2 (this r hr)
    filter_upwards [h2] with n hn r hr i hi
    exact hn r (Finset.mem_range.2 hr) i (Finset.mem_range.2 hi)
  refine ⟨hev.mono fun n hn => ((radii_drawn hr hdom hD.1 hsize n _ normalize).1 hn).1, fun i hi => ?_⟩
  refine tendsto_order.2 ⟨fun a ha => ?_, fun a ha => ?_⟩
  · obtain ⟨j, hj⟩ := exists_nat_one_div_lt (sub_pos.2 ha)
    obtain ⟨k, hk, hfar⟩ := hω 0 i hi j
    filter_upwards [hev, (numLocal_share hsize 0).2.eventually_gt_atTop k] with n hn hkn
    obtain ⟨ρ, h1, h2⟩ := ((radii_drawn hr hdom hD.1 hsize n _ normalize).1 hn).2 i hi
    rw [h1, Option.getD_some]
    have := h2.bound 0 hsize k hkn hk
    linarith
  · filter_upwards [hev] with n hn
    obtain ⟨ρ, h1, h2⟩ := ((radii_drawn hr hdom hD.1 hsize n _ normalize).1 hn).2 i hi
    rw [h1, Option.getD_some]
    obtain ⟨r, hr', k, hk, hcell, rfl⟩ := h2.attained
    exact (hin r k i hi hcell).trans_lt ha

/-- **C142.** With probability one no call gives a radius above the true one. -/
theorem C142_below {G : Geometry ℝ} (hG : Sound G) {s : SampleSet ℝ} {m : Nat} (hr : Ready s m) {D : List (ℝ × ℝ)}
    (hdom : s.domain = some D) (hD : ProperBox d D) {size : Nat} (hsize : 0 < size) {U : ℕ → ℕ → Ω → Fin d → ℝ}
    (hlaw : ∀ r k, HasLaw (U r k) (volume.restrict (Set.univ.pi fun _ => Set.Ico (0 : ℝ) 1)) P)
    (hc : ClearCells G s (volume.restrict (domainBox d D))) (normalize : Bool) {R : ℕ → ℝ}
    (hR : ∀ i < m, TrueRadius d G s normalize D i (R i)) :
    ∀ᵐ ω ∂P, ∀ n, ∀ i < m, ∀ ρ, cellRadius normalize
      (s.estimateRadiiDrawn G size n (fun r k => List.ofFn (U r k ω)) normalize) i = some ρ → ρ ≤ R i := by
  filter_upwards [draws_within hG hr hD hlaw hc hR] with ω hin n i hi ρ hρ
  have hcase := radii_drawn (G := G) hr hdom hD.1 hsize n (fun r k => U r k ω) normalize
  by_cases h : AllHit (fun x => s.cell G (List.ofFn x)) m size n (fun r k => boxMap D (U r k ω))
  · obtain ⟨ρ', h1, h2⟩ := (hcase.1 h).2 i hi
    rw [h1] at hρ
    obtain rfl := Option.some.inj hρ
    obtain ⟨r, hr', k, hk, hcell, rfl⟩ := h2.attained
    exact hin r k i hi hcell
  · rw [cellRadius, hcase.2 h] at hρ
    cases hρ

/-- **C142.** `estimate_radii_and_volume` likewise; its volumes tend to those of the cells. -/
theorem C142_both {G : Geometry ℝ} (hG : Sound G) {s : SampleSet ℝ} {m : Nat} (hr : Ready s m) {D : List (ℝ × ℝ)}
    (hdom : s.domain = some D) (hD : ProperBox d D) {size : Nat} (hsize : 0 < size) {U : ℕ → ℕ → Ω → Fin d → ℝ}
    (hU : UniformRows P U) (hc : ClearCells G s (volume.restrict (domainBox d D))) (normalize : Bool)
    (hm : ∀ i < m, Measurable fun x : Fin d → ℝ => sampleDistance G s normalize D i x) {R : ℕ → ℝ}
    (hR : ∀ i < m, TrueRadius d G s normalize D i (R i)) :
    ∀ᵐ ω ∂P, (∀ᶠ n in atTop,
        (s.estimateRadiiAndVolumeDrawn G size n (fun r k => List.ofFn (U r k ω)) normalize).toOption.isSome) ∧
      ∀ i < m, Tendsto (fun n => (cellRadius normalize
        (s.estimateRadiiAndVolumeDrawn G size n (fun r k => List.ofFn (U r k ω)) normalize) i).getD 0) atTop
          (𝓝 (R i)) ∧
        Tendsto (fun n => (cellVolume
        (s.estimateRadiiAndVolumeDrawn G size n (fun r k => List.ofFn (U r k ω)) normalize) i).getD 0) atTop
          (𝓝 (relativeVolume d G s D i)) := by
  filter_upwards [C142_radii hG hr hdom hD hsize hU hc normalize hm hR, (C130_volumes hG hr hdom hD hsize hU hc).2]
    with ω h1 h2
  have hev : ∀ᶠ n in atTop, 0 < n ∧
      AllHit (fun x => s.cell G (List.ofFn x)) m size n (fun r k => boxMap D (U r k ω)) := by
    filter_upwards [h1.1, eventually_gt_atTop 0] with n hn hpos
    refine ⟨hpos, ?_⟩
    by_contra hno
    rw [(radii_drawn hr hdom hD.1 hsize n _ normalize).2 hno] at hn
    cases hn
  refine ⟨hev.mono fun n hn => ((radiiAndVolume_drawn hr hdom hD.1 hsize hn.1 _ normalize).1 hn.2).1,
    fun i hi => ⟨?_, ?_⟩⟩
  · refine (h1.2 i hi).congr' (hev.mono fun n hn => ?_)
    dsimp only
    rw [(((radiiAndVolume_drawn hr hdom hD.1 hsize hn.1 _ normalize).1 hn.2).2 i hi).1]
  · refine (h2 i hi).congr' (hev.mono fun n hn => ?_)
    dsimp only
    rw [(((radiiAndVolume_drawn hr hdom hD.1 hsize hn.1 _ normalize).1 hn.2).2 i hi).2]

/-- **C142.** For independent rows, the probability that a call with `n` points does not give every radius with an
error below `ε` is at most the sum over processes and cells of the probability that the process misses the cell, and
over the cells of the probability that all points miss the part of the cell further than `R - ε`. -/
theorem C142_bound {G : Geometry ℝ} (hG : Sound G) {s : SampleSet ℝ} {m : Nat} (hr : Ready s m) {D : List (ℝ × ℝ)}
    (hdom : s.domain = some D) (hD : ProperBox d D) {size : Nat} (hsize : 0 < size) {U : ℕ → ℕ → Ω → Fin d → ℝ}
    (hU : IndependentRows P U) (hc : ClearCells G s (volume.restrict (domainBox d D))) (normalize : Bool)
    (hm : ∀ i < m, Measurable fun x : Fin d → ℝ => sampleDistance G s normalize D i x) {R : ℕ → ℝ}
    (hR : ∀ i < m, TrueRadius d G s normalize D i (R i)) (n : Nat) (ε : ℝ) :
    P.real {ω | ¬ ∀ i < m, ∃ ρ, cellRadius normalize
        (s.estimateRadiiDrawn G size n (fun r k => List.ofFn (U r k ω)) normalize) i = some ρ ∧
        R i - ε < ρ ∧ ρ ≤ R i} ≤
      (∑ r ∈ Finset.range size, ∑ i ∈ Finset.range m, (1 - relativeVolume d G s D i) ^ numLocal n size r) +
      ∑ i ∈ Finset.range m, (1 - farVolume d G s normalize D i (R i - ε)) ^ n := by
  have hbox : MeasurableSet (domainBox d D) := by
    rw [domainBox_eq hD.1]; exact MeasurableSet.univ_pi fun j => measurableSet_Ico
  have hcl := clear_scale hc (volume (domainBox d D))⁻¹
  let bad : Set Ω := {ω | ¬ ∀ r k, ∀ i < m, s.cell G (List.ofFn (boxMap D (U r k ω))) = i →
      sampleDistance G s normalize D i (boxMap D (U r k ω)) ≤ R i}
  let miss : ℕ → ℕ → Set Ω := fun r i => {ω | ∀ k ∈ Finset.range (numLocal n size r),
    boxMap D (U r k ω) ∉ {x : Fin d → ℝ | s.cell G (List.ofFn x) = i}}
  let near : ℕ → Set Ω := fun i => {ω | ∀ rk ∈ drawSet size n, boxMap D (U rk.1 rk.2 ω) ∉
    {x : Fin d → ℝ | s.cell G (List.ofFn x) = i ∧ R i - ε < sampleDistance G s normalize D i x}}
  have hbad : P.real bad = 0 := by
    rw [Measure.real, show P bad = 0 from draws_within hG hr hD hU.law hc hR]
    rfl
  have hmiss : ∀ r i, P.real (miss r i) = (1 - relativeVolume d G s D i) ^ numLocal n size r := by
    intro r i
    have hinj : Function.Injective (fun k : ℕ => (r, k)) := fun a b h => (Prod.mk.inj h).2
    have hae := cell_ae hG hr hcl i
    have h := prob_miss (P := P) (Z := fun k ω => boxMap D (U r k ω)) (fun k => hasLaw_boxMap (hU.law r k) hD)
      ((hU.indep.precomp hinj).comp (fun _ => boxMap D) fun _ => measurable_boxMap D)
      ((hcl.meas i).congr hae.symm) (Finset.range (numLocal n size r))
    rw [measureReal_congr hae, law_real hbox, Finset.card_range] at h
    exact h
  have hnear : ∀ i ∈ Finset.range m, P.real (near i) = (1 - farVolume d G s normalize D i (R i - ε)) ^ n := by
    intro i hi
    have hinj : Function.Injective (fun rk : (_ : ℕ) × ℕ => (rk.1, rk.2)) := by
      rintro ⟨a, b⟩ ⟨c, e⟩ h
      obtain ⟨rfl, rfl⟩ := Prod.mk.inj h
      rfl
    obtain ⟨h1, h2⟩ := far_law hG hr hD hc (hm i (Finset.mem_range.1 hi)) (R i - ε)
    have h := prob_miss (P := P) (ι := (_ : ℕ) × ℕ) (Z := fun rk ω => boxMap D (U rk.1 rk.2 ω))
      (fun rk => hasLaw_boxMap (hU.law rk.1 rk.2) hD)
      ((hU.indep.precomp hinj).comp (fun _ => boxMap D) fun _ => measurable_boxMap D) h1 (drawSet size n)
    rw [h2, card_drawSet hsize] at h
    exact h
  have hsub : {ω | ¬ ∀ i < m, ∃ ρ, cellRadius normalize
        (s.estimateRadiiDrawn G size n (fun r k => List.ofFn (U r k ω)) normalize) i = some ρ ∧
        R i - ε < ρ ∧ ρ ≤ R i} ⊆
      (bad ∪ ⋃ r ∈ Finset.range size, ⋃ i ∈ Finset.range m, miss r i) ∪ ⋃ i ∈ Finset.range m, near i := by
    intro ω hω
    by_contra hno
    simp only [Set.mem_union, Set.mem_iUnion, not_or, not_exists, Finset.mem_range] at hno
    obtain ⟨⟨h1, h2⟩, h3⟩ := hno
    have h1 : ∀ r k, ∀ i < m, s.cell G (List.ofFn (boxMap D (U r k ω))) = i →
      sampleDistance G s normalize D i (boxMap D (U r k ω)) ≤ R i := not_not.1 h1
    have hall : AllHit (fun x => s.cell G (List.ofFn x)) m size n (fun r k => boxMap D (U r k ω)) := by
      intro r hr' i hi
      have h4 : ¬ ∀ k ∈ Finset.range (numLocal n size r),
        boxMap D (U r k ω) ∉ {x : Fin d → ℝ | s.cell G (List.ofFn x) = i} := h2 r hr' i hi
      push Not at h4
      obtain ⟨k, hk, h5⟩ := h4
      exact ⟨k, Finset.mem_range.1 hk, h5⟩
    refine hω fun i hi => ?_
    obtain ⟨ρ, h4, h5⟩ := ((radii_drawn hr hdom hD.1 hsize n _ normalize).1 hall).2 i hi
    refine ⟨ρ, h4, ?_, ?_⟩
    · have h6 : ¬ ∀ rk ∈ drawSet size n, boxMap D (U rk.1 rk.2 ω) ∉
        {x : Fin d → ℝ | s.cell G (List.ofFn x) = i ∧ R i - ε < sampleDistance G s normalize D i x} := h3 i hi
      push Not at h6
      obtain ⟨⟨r, k⟩, hrk, hcell, hfar⟩ := h6
      rw [drawSet, Finset.mem_sigma, Finset.mem_range, Finset.mem_range] at hrk
      exact hfar.trans_le (h5.bound r hrk.1 k hrk.2 hcell)
    · obtain ⟨r, hr', k, hk, hcell, rfl⟩ := h5.attained
      exact h1 r k i hi hcell
  refine (measureReal_mono hsub).trans ?_
  refine (measureReal_union_le _ _).trans (add_le_add ?_ ?_)
  · refine (measureReal_union_le _ _).trans ?_
    rw [hbad, zero_add]
    refine (measureReal_biUnion_finset_le _ _).trans (Finset.sum_le_sum fun r _ => ?_)
    refine (measureReal_biUnion_finset_le _ _).trans (Finset.sum_le_sum fun i _ => (hmiss r i).le)
  · exact (measureReal_biUnion_finset_le _ _).trans (Finset.sum_le_sum fun i hi => (hnear i hi).le)

/-- **C142 (negation).** If a cell has no volume in the domain, with probability one no call succeeds, however many
points there are. -/
theorem C142_negation_null {G : Geometry ℝ} (hG : Sound G) {s : SampleSet ℝ} {m : Nat} (hr : Ready s m)
    {D : List (ℝ × ℝ)} (hdom : s.domain = some D) (hD : ProperBox d D) {size : Nat} (hsize : 0 < size)
    {U : ℕ → ℕ → Ω → Fin d → ℝ}
    (hlaw : ∀ r k, HasLaw (U r k) (volume.restrict (Set.univ.pi fun _ => Set.Ico (0 : ℝ) 1)) P)
    {i : Nat} (hi : i < m) (hnull : volume (cellSet d G s i ∩ domainBox d D) = 0) (normalize : Bool) :
    ∀ᵐ ω ∂P, ∀ n, s.estimateRadiiDrawn G size n (fun r k => List.ofFn (U r k ω)) normalize = .error .valueError := by
  have hbox : MeasurableSet (domainBox d D) := by
    rw [domainBox_eq hD.1]; exact MeasurableSet.univ_pi fun j => measurableSet_Ico
  have h1 : ∀ᵐ x ∂volume.restrict (domainBox d D), x ∉ cellSet d G s i := by
    refine (ae_restrict_iff' hbox).2 ?_
    have : ∀ᵐ x ∂(volume : Measure (Fin d → ℝ)), x ∉ cellSet d G s i ∩ domainBox d D := measure_eq_zero_iff_ae_notMem.1 hnull
    filter_upwards [this] with x hx hb hcx using hx ⟨hcx, hb⟩
  have h3 := Measure.ae_smul_measure h1 (volume (domainBox d D))⁻¹
  have h4 : ∀ᵐ ω ∂P, ∀ k, boxMap D (U 0 k ω) ∉ cellSet d G s i := by
    refine ae_all_iff.2 fun k => ?_
    rw [← (hasLaw_boxMap (hlaw 0 k) hD).map_eq] at h3
    exact ae_of_ae_map (hasLaw_boxMap (hlaw 0 k) hD).aemeasurable h3
  filter_upwards [h4] with ω hω n
  refine (radii_drawn hr hdom hD.1 hsize n _ normalize).2 fun hall => ?_
  obtain ⟨k, -, hk⟩ := hall 0 hsize i hi
  refine hω k ?_
  have := SampleSet.cell_isCell hG hr (List.ofFn (boxMap D (U 0 k ω)))
  dsimp only at hk
  rw [hk] at this
  exact this

end

/-- **C142.** More points: if a call succeeds, so does a call with more points, and no radius is smaller. -/
theorem C142_monotone {G : Geometry ℝ} {s : SampleSet ℝ} {m : Nat} (hr : Ready s m) {D : List (ℝ × ℝ)}
    (hdom : s.domain = some D) (hD : D.length = d) {size : Nat} (hsize : 0 < size) {n n' : Nat} (hn : n ≤ n')
    (U : ℕ → ℕ → Fin d → ℝ) (normalize : Bool)
    (hok : (s.estimateRadiiDrawn G size n (fun r k => List.ofFn (U r k)) normalize).toOption.isSome) :
    (s.estimateRadiiDrawn G size n' (fun r k => List.ofFn (U r k)) normalize).toOption.isSome ∧ ∀ i < m, ∃ ρ ρ',
      cellRadius normalize (s.estimateRadiiDrawn G size n (fun r k => List.ofFn (U r k)) normalize) i = some ρ ∧
      cellRadius normalize (s.estimateRadiiDrawn G size n' (fun r k => List.ofFn (U r k)) normalize) i = some ρ' ∧
      ρ ≤ ρ' := by
  have hmono : ∀ r, numLocal n size r ≤ numLocal n' size r := by
    intro r
    have h1 := Nat.div_le_div_right (c := size) hn
    have e1 := Nat.div_add_mod n size
    have e2 := Nat.div_add_mod n' size
    unfold numLocal
    rcases h1.lt_or_eq with h | h
    · split <;> split <;> omega
    · rw [h] at e1 ⊢
      split <;> split <;> omega
  have hall : AllHit (fun x => s.cell G (List.ofFn x)) m size n (fun r k => boxMap D (U r k)) := by
    by_contra hno
    rw [(radii_drawn hr hdom hD hsize n _ normalize).2 hno] at hok
    cases hok
  have hall' : AllHit (fun x => s.cell G (List.ofFn x)) m size n' (fun r k => boxMap D (U r k)) := by
    intro r hr' i hi
    obtain ⟨k, hk, h⟩ := hall r hr' i hi
    exact ⟨k, hk.trans_le (hmono r), h⟩
  obtain ⟨-, h1⟩ := (radii_drawn hr hdom hD hsize n U normalize).1 hall
  obtain ⟨h2, h3⟩ := (radii_drawn hr hdom hD hsize n' U normalize).1 hall'
  refine ⟨h2, fun i hi => ?_⟩
  obtain ⟨ρ, h4, h5⟩ := h1 i hi
  obtain ⟨ρ', h6, h7⟩ := h3 i hi
  refine ⟨ρ, ρ', h4, h6, ?_⟩
  obtain ⟨r, hr', k, hk, hcell, rfl⟩ := h5.attained
  exact h7.bound r hr' k (hk.trans_le (hmono r)) hcell

/-- **C142.** The true radius is the supremum of the distances in the cell, where the cell is the closure of its
interior and the distance is continuous. -/
theorem C142_supremum {G : Geometry ℝ} {s : SampleSet ℝ} {normalize : Bool} {D : List (ℝ × ℝ)} {i : Nat} {R : ℝ}
    (hcont : Continuous fun x : Fin d → ℝ => sampleDistance G s normalize D i x)
    (hcell : cellSet d G s i ∩ domainBox d D ⊆ closure (interior (cellSet d G s i ∩ domainBox d D)))
    (hR : IsLUB (sampleDistance G s normalize D i '' (cellSet d G s i ∩ domainBox d D)) R)
    (hmeas : NullMeasurableSet (cellSet d G s i ∩ domainBox d D)) :
    TrueRadius d G s normalize D i R := by
  refine ⟨?_, fun ε hε => ?_⟩
  · refine (ae_restrict_iff'₀ hmeas).2 (Eventually.of_forall fun x hx => hR.1 ⟨x, hx, rfl⟩)
  · obtain ⟨_, ⟨x, hx, rfl⟩, hlt⟩ := (lt_isLUB_iff hR).1 (show R - ε < R by linarith)
    have hopen : IsOpen {y : Fin d → ℝ | R - ε < sampleDistance G s normalize D i y} :=
      isOpen_lt continuous_const hcont
    obtain ⟨y, hy1, hy2⟩ := mem_closure_iff.1 (hcell hx) _ hopen hlt
    have h1 : 0 < volume ({y : Fin d → ℝ | R - ε < sampleDistance G s normalize D i y} ∩
        interior (cellSet d G s i ∩ domainBox d D)) :=
      (hopen.inter isOpen_interior).measure_pos _ ⟨y, hy1, hy2⟩
    exact (h1.trans_le (measure_mono (Set.inter_subset_inter_right _ interior_subset))).ne'

/-- **C142.** Euclidean distances are continuous, also in coordinates relative to the domain. -/
theorem C142_euclidean {G : Geometry ℝ} {s : SampleSet ℝ} {v : List (List ℝ)} (hv : s.glob.values = some v)
    (hrow : ∀ c ∈ v, c.length = d) {D : List (ℝ × ℝ)} (hD : D.length = d)
    (hE : ∀ x c : Fin d → ℝ, G.dist s.pNorm (List.ofFn x) (List.ofFn c) = √(∑ j, (x j - c j) ^ 2))
    (normalize : Bool) {i : Nat} (hi : i < v.length) :
    Continuous fun x : Fin d → ℝ => sampleDistance G s normalize D i x := by
  have hval : ∃ c : Fin d → ℝ, (s.glob.values.getD []).getD i [] = List.ofFn c := by
    rw [hv, Option.getD_some, List.getD_eq_getElem?_getD, List.getElem?_eq_getElem hi]
    have hl := hrow _ (List.getElem_mem hi)
    subst hl
    exact ⟨fun j => v[i][j], by simp⟩
  obtain ⟨c, hc⟩ := hval
  have hrel : ∀ x : Fin d → ℝ, relative D (List.ofFn x) = List.ofFn fun j : Fin d =>
      (x j - (D.getD j (0, 0)).1) / ((D.getD j (0, 0)).2 - (D.getD j (0, 0)).1) := by
    intro x
    apply List.ext_getElem
    · simp [relative, hD]
    · intro k h1 h2
      simp only [relative, List.length_zipWith, List.length_ofFn] at h1
      simp [relative, List.getD_eq_getElem?_getD, List.getElem?_eq_getElem (show k < D.length by omega)]
  unfold sampleDistance separation
  rw [hc]
  cases normalize
  · simp only [Bool.false_eq_true, if_false, hE]
    fun_prop
  · simp only [if_true, hrel, hE]
    fun_prop

/-- **C142.** Voronoi cells with Euclidean distances and distinct samples inside the domain: every hypothesis on the
cells holds, and the true radius of a cell is the supremum of the distances of its points in the domain. -/
theorem C142_voronoi {G : Geometry ℝ} {s : SampleSet ℝ} (hk : s.kind = .voronoi) {v : List (List ℝ)}
    (hv : s.glob.values = some v) (hrow : ∀ c ∈ v, c.length = d) (hdis : v.Nodup) {D : List (ℝ × ℝ)} (hD : D.length = d)
    (hE : ∀ x c : Fin d → ℝ, G.dist s.pNorm (List.ofFn x) (List.ofFn c) = √(∑ j, (x j - c j) ^ 2))
    (hin : ∀ c ∈ v, ∀ (j : ℕ) y ab, c[j]? = some y → D[j]? = some ab → ab.1 < y ∧ y < ab.2)
    (normalize : Bool) :
    ClearCells G s (volume.restrict (domainBox d D)) ∧ ∀ i < v.length,
      (Measurable fun x : Fin d → ℝ => sampleDistance G s normalize D i x) ∧
      TrueRadius d G s normalize D i (sSup (sampleDistance G s normalize D i '' (cellSet d G s i ∩ domainBox d D))) := by
  have hclear := C130_clear_euclidean (G := G) hk hv hrow hdis hE (domainBox d D)
  refine ⟨hclear, fun i hi => ?_⟩
  have hcont := C142_euclidean (G := G) hv hrow hD hE normalize hi
  refine ⟨hcont.measurable, ?_⟩
  have hbox : MeasurableSet (domainBox d D) := by
    rw [domainBox_eq hD]; exact MeasurableSet.univ_pi fun j => measurableSet_Ico
  have hform : ∀ c ∈ v, ∃ c' : Fin d → ℝ, c = List.ofFn c' := by
    intro c hc
    have hl := hrow c hc
    subst hl
    exact ⟨fun j => c[j], by simp⟩
  obtain ⟨a, ha⟩ := hform _ (List.getElem_mem hi)
  have hcell : ∀ x : Fin d → ℝ, x ∈ cellSet d G s i ↔
      ∀ c : Fin d → ℝ, List.ofFn c ∈ v → ∑ j, (x j - a j) ^ 2 ≤ ∑ j, (x j - c j) ^ 2 := by
    intro x
    show IsCell G s (List.ofFn x) i ↔ _
    unfold IsCell
    rw [hk]
    simp only [hv, Option.some.injEq, forall_eq']
    constructor
    · rintro ⟨c0, h0, h1⟩ c hc
      rw [List.getElem?_eq_getElem hi, ha] at h0
      obtain rfl := Option.some.inj h0
      have := h1 _ hc
      rw [hE, hE] at this
      exact (Real.sqrt_le_sqrt_iff (Finset.sum_nonneg fun j _ => sq_nonneg _)).1 this
    · intro h
      refine ⟨List.ofFn a, by rw [List.getElem?_eq_getElem hi, ha], fun c hc => ?_⟩
      obtain ⟨c', rfl⟩ := hform c hc
      rw [hE, hE]
      exact Real.sqrt_le_sqrt (h c' hc)
  have hconv : Convex ℝ (cellSet d G s i ∩ domainBox d D) := by
    refine Convex.inter ?_ ?_
    · have : cellSet d G s i = ⋂ c : Fin d → ℝ, ⋂ _ : List.ofFn c ∈ v,
          {x | (∑ j, (c j - a j) * x j) ≤ (∑ j, (c j ^ 2 - a j ^ 2)) / 2} := by
        ext x
        simp only [Set.mem_iInter, Set.mem_ofPred_eq]
        rw [hcell]
        refine forall_congr' fun c => forall_congr' fun hc => ?_
        have e : (∑ j, (x j - c j) ^ 2) - ∑ j, (x j - a j) ^ 2 =
            (∑ j, (c j ^ 2 - a j ^ 2)) - 2 * ∑ j, (c j - a j) * x j := by
          rw [Finset.mul_sum, ← Finset.sum_sub_distrib, ← Finset.sum_sub_distrib]
          exact Finset.sum_congr rfl fun j _ => by ring
        constructor <;> intro h <;> linarith
      rw [this]
      refine convex_iInter fun c => convex_iInter fun hc => convex_halfSpace_le ⟨fun x y => ?_, fun r x => ?_⟩ _
      · rw [← Finset.sum_add_distrib]
        exact Finset.sum_congr rfl fun j _ => by simp [mul_add]
      · rw [smul_eq_mul, Finset.mul_sum]
        exact Finset.sum_congr rfl fun j _ => by simp; ring
    · rw [domainBox_eq hD]
      exact convex_pi fun j _ => convex_Ico _ _
  have hint : a ∈ interior (cellSet d G s i ∩ domainBox d D) := by
    have hO : IsOpen ((⋂ c ∈ {c : Fin d → ℝ | List.ofFn c ∈ v ∧ c ≠ a},
        {x : Fin d → ℝ | ∑ j, (x j - a j) ^ 2 < ∑ j, (x j - c j) ^ 2}) ∩
        Set.univ.pi fun j : Fin d => Set.Ioo (D.getD j (0, 0)).1 (D.getD j (0, 0)).2) := by
      refine IsOpen.inter ?_ (isOpen_set_pi Set.finite_univ fun j _ => isOpen_Ioo)
      refine Set.Finite.isOpen_biInter ?_ fun c _ => isOpen_lt (by fun_prop) (by fun_prop)
      have hfin : {c : Fin d → ℝ | List.ofFn c ∈ v}.Finite := by
        have := (List.finite_toSet v).preimage (f := fun c : Fin d → ℝ => List.ofFn c)
          (fun x _ y _ h => List.ofFn_injective h)
        exact this
      exact hfin.subset fun c hc => hc.1
    refine mem_interior.2 ⟨_, fun x hx => ⟨(hcell x).2 fun c hc => ?_, ?_⟩, hO, ?_, ?_⟩
    · by_cases hca : c = a
      · rw [hca]
      · exact (Set.mem_iInter₂.1 hx.1 c ⟨hc, hca⟩ : _ < _).le
    · rw [domainBox_eq hD]
      exact fun j hj => Set.Ioo_subset_Ico_self (hx.2 j hj)
    · refine Set.mem_iInter₂.2 fun c hc => ?_
      show ∑ j, (a j - a j) ^ 2 < ∑ j, (a j - c j) ^ 2
      simp only [sub_self, ne_eq, OfNat.ofNat_ne_zero, not_false_eq_true, zero_pow, Finset.sum_const_zero]
      obtain ⟨j, hj⟩ := Function.ne_iff.1 hc.2
      exact Finset.sum_pos' (fun j _ => sq_nonneg _) ⟨j, Finset.mem_univ _, sq_pos_of_ne_zero (sub_ne_zero.2 (Ne.symm hj))⟩
    · intro j _
      have hj : (j : ℕ) < D.length := by rw [hD]; exact j.2
      dsimp only
      rw [List.getD_eq_getElem?_getD, List.getElem?_eq_getElem hj]
      refine hin _ (List.getElem_mem hi) j (a j) D[(j : ℕ)] ?_ (List.getElem?_eq_getElem hj)
      rw [ha]
      simp
  refine C142_supremum hcont ?_ ?_ (nullMeasurable_part hbox (hclear.meas i))
  · rw [hconv.closure_interior_eq_closure_of_nonempty_interior ⟨a, hint⟩]
    exact subset_closure
  · refine isLUB_csSup ⟨_, a, interior_subset (s := cellSet d G s i ∩ domainBox d D) hint, rfl⟩ ?_
    have hK : IsCompact (Set.univ.pi fun j : Fin d => Set.Icc (D.getD j (0, 0)).1 (D.getD j (0, 0)).2) :=
      isCompact_univ_pi fun j => isCompact_Icc
    refine (hK.image hcont).bddAbove.mono (Set.image_mono fun x hx => ?_)
    have hx2 := hx.2
    rw [domainBox_eq hD] at hx2
    exact fun j hj => Set.Ico_subset_Icc_self (hx2 j hj)

end BET

namespace BET.Ex

open BET.Spec MeasureTheory ProbabilityTheory

/-- Three samples inside a rectangle. -/
noncomputable def insideSet : SampleSet ℝ :=
  { dim := 2, domain := some [(0, 4), (-1, 1)], glob := { values := some [[1, 0], [2, 1 / 2], [3, 0]] } }

/-- Hypotheses of `C142_voronoi`. -/
theorem insideSet_clear (normalize : Bool) :
    ClearCells euclid insideSet (volume.restrict (domainBox 2 [(0, 4), (-1, 1)])) ∧ ∀ i < 3,
      (Measurable fun x : Fin 2 → ℝ => sampleDistance euclid insideSet normalize [(0, 4), (-1, 1)] i x) ∧
      TrueRadius 2 euclid insideSet normalize [(0, 4), (-1, 1)] i
        (sSup (sampleDistance euclid insideSet normalize [(0, 4), (-1, 1)] i ''
          (cellSet 2 euclid insideSet i ∩ domainBox 2 [(0, 4), (-1, 1)]))) := by
  refine C142_voronoi (d := 2) (s := insideSet) (D := [(0, 4), (-1, 1)]) (v := [[1, 0], [2, 1 / 2], [3, 0]]) rfl rfl (by simp) (by simp) rfl (fun x c => euclid_dist _ x c)
    (fun c hc j y ab hy hab => ?_) normalize
  match j with
  | 0 =>
    obtain rfl := Option.some.inj hab
    simp only [List.mem_cons, List.not_mem_nil, or_false] at hc
    rcases hc with rfl | rfl | rfl <;> obtain rfl := Option.some.inj hy <;> norm_num
  | 1 =>
    obtain rfl := Option.some.inj hab
    simp only [List.mem_cons, List.not_mem_nil, or_false] at hc
    rcases hc with rfl | rfl | rfl <;> obtain rfl := Option.some.inj hy <;> norm_num
  | j + 2 => cases hab

/-- Hypotheses of `C142_radii`, `C142_below`, `C142_both` and `C142_bound`. -/
example : Sound euclid ∧ Ready insideSet 3 ∧ insideSet.domain = some [(0, 4), (-1, 1)] ∧
    ProperBox 2 [(0, 4), (-1, 1)] ∧ ∃ R : ℕ → ℝ, ∀ i < 3, TrueRadius 2 euclid insideSet true [(0, 4), (-1, 1)] i (R i) :=
  ⟨euclid_sound, ⟨SampleSet.consistent_of_checkNum (size := 1) rfl rfl, by norm_num, rfl, Or.inl rfl, nofun, nofun⟩, rfl,
    ⟨rfl, by simp⟩, _, fun i hi => ((insideSet_clear true).2 i hi).2⟩

/-- A sample outside the domain whose cell has no point in the domain. -/
noncomputable def awaySet : SampleSet ℝ :=
  { dim := 1, domain := some [(0, 1)], glob := { values := some [[1 / 2], [5]] } }

/-- Hypotheses of `C142_negation_null`. -/
example : Ready awaySet 2 ∧ ProperBox 1 [(0, 1)] ∧
    volume (cellSet 1 euclid awaySet 1 ∩ domainBox 1 [(0, 1)]) = 0 := by
  refine ⟨⟨SampleSet.consistent_of_checkNum (size := 1) rfl rfl, by norm_num, rfl, Or.inl rfl, nofun, nofun⟩, ⟨rfl, by simp⟩, ?_⟩
  have : cellSet 1 euclid awaySet 1 ∩ domainBox 1 [(0, 1)] = ∅ := by
    rw [Set.eq_empty_iff_forall_notMem]
    rintro x ⟨h1, h2⟩
    have h3 := h2 0 (0, 1) rfl
    obtain ⟨c, hc, h4⟩ : IsNearest (euclid.dist 2) [[(1 : ℝ) / 2], [5]] (List.ofFn x) 1 := h1 _ rfl
    obtain rfl := Option.some.inj hc
    have h5 := h4 [1 / 2] (by simp)
    simp only [euclid, List.ofFn_succ, List.ofFn_zero, List.zipWith_cons_cons, List.zipWith_nil_left, List.sum_cons,
      List.sum_nil, add_zero, Real.sqrt_sq_eq_abs] at h5
    have h6 : x 0 - 5 < 0 := by linarith [h3.2]
    rw [abs_of_neg h6] at h5
    have h7 := (le_abs_self (x 0 - 1 / 2)).trans' (le_refl _)
    have h8 : |x 0 - 1 / 2| ≤ 1 / 2 := by rw [abs_le]; constructor <;> linarith [h3.1, h3.2]
    linarith [h3.2]
  rw [this, measure_empty]

end BET.Ex
