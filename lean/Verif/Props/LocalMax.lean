import Verif.Model.LocalMax
import Verif.Props.LocalLimit

/-!
# C159: local volumes in the maximum norm
-/

set_option autoImplicit false
set_option linter.unusedSectionVars false
set_option linter.unusedSimpArgs false

namespace BET

open Spec MeasureTheory ProbabilityTheory Filter Topology

variable {Ω : Type} [MeasurableSpace Ω] {P : Measure Ω} {d : Nat}

/-! ## Specification -/

namespace Spec

/-- Distances are those of the maximum norm. -/
def IsMaxNorm (d : Nat) (G : Geometry ℝ) (p : Nat) : Prop :=
  ∀ x y : Fin d → ℝ, (∀ i, |x i - y i| ≤ G.dist p (List.ofFn x) (List.ofFn y)) ∧
    ∃ i, G.dist p (List.ofFn x) (List.ofFn y) = |x i - y i|

/-- The numbers drawn are uniformly distributed in the unit cube, and those of one round are independent. -/
structure CubeDraws (P : Measure Ω) (draw : ℕ → ℕ → ℕ → Ω → Fin d → ℝ) : Prop where
  indep : ∀ i t, iIndepFun (draw i t) P
  meas : ∀ i t k, Measurable (draw i t k)
  law : ∀ i t k, P.map (draw i t k) = volume.restrict (Set.univ.pi fun _ => Set.Ico 0 1)

end Spec

/-! ## The norm -/

theorem IsMaxNorm.eq_norm {G : Geometry ℝ} {p : Nat} (h : IsMaxNorm d G p) (x y : Fin d → ℝ) :
    G.dist p (List.ofFn x) (List.ofFn y) = ‖x - y‖ := by
  obtain ⟨h1, i, h2⟩ := h x y
  refine le_antisymm ?_ ?_
  · rw [h2]
    exact norm_le_pi_norm (x - y) i
  · refine (pi_norm_le_iff_of_nonneg (by rw [h2]; exact abs_nonneg _)).2 h1

theorem IsMaxNorm.lt_iff {G : Geometry ℝ} {p : Nat} (h : IsMaxNorm d G p) (x y : Fin d → ℝ) (r : ℝ) :
    G.dist p (List.ofFn x) (List.ofFn y) < r ↔ ∀ i, |x i - y i| < r := by
  obtain ⟨h1, i, h2⟩ := h x y
  exact ⟨fun h3 j => (h1 j).trans_lt h3, fun h3 => by rw [h2]; exact h3 i⟩

/-! ## One sample -/

theorem cubeCount_le (G : Geometry ℝ) (p dim : Nat) (pts : List (List ℝ)) (r : ℝ) (i : Nat) (draw : Nat → List ℝ)
    (t : Nat) : cubeCount G p dim pts r i draw t ≤ t := by
  unfold cubeCount
  exact (List.length_filter_le _ _).trans (by simp)

theorem cubeCount_sum (G : Geometry ℝ) (p dim : Nat) (pts : List (List ℝ)) (r : ℝ) (i : Nat) (draw : Nat → List ℝ)
    (X : ℕ → Fin d → ℝ)
    (h : ∀ k, lpUniformInf (draw k) (List.replicate dim r) (pts.getD i []) = List.ofFn (X k)) (t : Nat) :
    (cubeCount G p dim pts r i draw t : ℝ) = ∑ k ∈ Finset.range t, ind (countedSet d G p pts r i) (X k) := by
  classical
  unfold cubeCount
  simp only [h]
  induction t with
  | zero => simp
  | succ t ih =>
    rw [List.range_succ, List.filter_append, List.length_append, Nat.cast_add, ih, Finset.sum_range_succ]
    congr 1
    by_cases hx : X t ∈ countedSet d G p pts r i
    · have h1 := (foundIn_ofFn G p pts r i _).2 hx
      rw [ind, Set.indicator_of_mem hx]
      simp [h1]
    · have h1 : foundIn G p pts r i (.ok (List.ofFn (X t))) = false :=
        Bool.eq_false_iff.2 fun hh => hx ((foundIn_ofFn G p pts r i _).1 hh)
      rw [ind, Set.indicator_of_notMem hx]
      simp [h1]

theorem pBox_eq (r : ℝ) (c : Fin d → ℝ) :
    pBox (fun _ => r) c = Set.Icc (fun i => c i - r) (fun i => c i + r) := by
  ext x
  simp only [pBox, Set.mem_ofPred_eq, Set.mem_Icc, Pi.le_def, abs_le, ← forall_and]
  exact forall_congr' fun i => ⟨fun h => ⟨by linarith [h.1], by linarith [h.2]⟩,
    fun h => ⟨by linarith [h.1], by linarith [h.2]⟩⟩

theorem pBox_volume {r : ℝ} (hr : 0 < r) (c : Fin d → ℝ) : volume.real (pBox (fun _ => r) c) = cubeVolume d r := by
  rw [pBox_eq, measureReal_def, Real.volume_Icc_pi, ENNReal.toReal_prod]
  have e : ∀ i : Fin d, (ENNReal.ofReal (c i + r - (c i - r))).toReal = 2 * r := by
    intro i
    rw [ENNReal.toReal_ofReal (by linarith)]
    ring
  rw [Finset.prod_congr rfl fun i _ => e i]
  simp [cubeVolume]

theorem measurable_pBox (r : ℝ) (c : Fin d → ℝ) : MeasurableSet (pBox (fun _ => r) c) := by
  rw [pBox_eq]
  exact measurableSet_Icc

theorem reached_max {G : Geometry ℝ} {s : SampleSet ℝ} (hN : IsMaxNorm d G s.pNorm) {D : List (ℝ × ℝ)} {v : List (List ℝ)}
    (hv : s.glob.values = some v) (hrow : ∀ x ∈ v, x.length = d) (hD : D.length = d)
    (hcl : ClearCells G (inUnits s D) (volume.restrict (domainBox d (unitDomain d)))) {r : Nat → ℝ} {i : Nat}
    (hi : i < v.length) :
    NullMeasurableSet (reachedSet d G s D r i) ∧
      reachedSet d G s D r i ⊆ pBox (fun _ => r i) (unitVec d s D i) := by
  have hbox : MeasurableSet (domainBox d (unitDomain d)) := by
    rw [unitDomain_box]; exact MeasurableSet.univ_pi fun j => measurableSet_Ico
  have e : {y : Fin d → ℝ | G.dist s.pNorm (List.ofFn y) ((relativeSamples s D).getD i []) < r i} =
      {y | ∀ j, |y j - unitVec d s D i j| < r i} := by
    ext y
    rw [Set.mem_ofPred_eq, relativeSamples_row hv hrow hD hi, IsMaxNorm.lt_iff hN]
    rfl
  constructor
  · unfold reachedSet
    rw [e]
    refine NullMeasurableSet.inter (MeasurableSet.nullMeasurableSet ?_) ?_
    · have : {y : Fin d → ℝ | ∀ j, |y j - unitVec d s D i j| < r i} = ⋂ j, {y | |y j - unitVec d s D i j| < r i} := by
        ext y; simp
      rw [this]
      exact MeasurableSet.iInter fun j => measurableSet_lt (by fun_prop) measurable_const
    · exact (nullMeasurableSet_restrict hbox.nullMeasurableSet).1 (hcl.meas i)
  · rintro y ⟨h1, -⟩
    rw [e] at h1
    exact fun j => (h1 j).le

/-- The share of the points found for one sample tends to the share of the cube. -/
theorem one_sample_max [IsProbabilityMeasure P] {G : Geometry ℝ} (hG : Sound G) {s : SampleSet ℝ} (hdim : s.dim = d)
    (hN : IsMaxNorm d G s.pNorm) {D : List (ℝ × ℝ)} {v : List (List ℝ)}
    (hv : s.glob.values = some v) (hrow : ∀ x ∈ v, x.length = d) (hD : D.length = d)
    (hcl : ClearCells G (inUnits s D) (volume.restrict (domainBox d (unitDomain d)))) {r : Nat → ℝ} {i : Nat}
    (hi : i < v.length) (hr : 0 < r i) {draw : ℕ → ℕ → ℕ → Ω → Fin d → ℝ} (hdraw : CubeDraws P draw) :
    ∀ᵐ ω ∂P, Tendsto (fun n : ℕ => (cubeCount G s.pNorm s.dim (relativeSamples s D) (r i) i
        (fun k => List.ofFn (draw i (10 ^ n) k ω)) (10 ^ n) : ℝ) / (10 ^ n : ℕ)) atTop
      (𝓝 (volume.real (reachedSet d G s D r i) / cubeVolume d (r i))) := by
  obtain ⟨hnull, hsub⟩ := reached_max hN hv hrow hD hcl hi (r := r)
  have hX := fun n => C148_inf (hdraw.indep i (10 ^ n)) (hdraw.meas i (10 ^ n)) (hdraw.law i (10 ^ n)) (s := fun _ => r i)
    (c := unitVec d s D i) fun _ => hr
  choose X h1 h2 h3 using hX
  have hae : countedSet d G s.pNorm (relativeSamples s D) (r i) i =ᵐ[volume] reachedSet d G s D r i :=
    counted_ae hG hcl (by simpa [relativeSamples, hv] using hi)
  have hac : volume[|pBox (fun _ => r i) (unitVec d s D i)] ≪ (volume : Measure (Fin d → ℝ)) :=
    cond_absolutelyContinuous
  have hfreq := batch_frequency (Z := X) (fun n k => ⟨(h3 n k).1.aemeasurable, (h3 n k).2⟩) h2
    ((hnull.congr hae.symm).mono_ac hac)
  have hval : (volume[|pBox (fun _ => r i) (unitVec d s D i)]).real
      (countedSet d G s.pNorm (relativeSamples s D) (r i) i) =
      volume.real (reachedSet d G s D r i) / cubeVolume d (r i) := by
    rw [measureReal_congr (hac.ae_le hae), measureReal_def, cond_apply (measurable_pBox _ _), ENNReal.toReal_mul,
      ENNReal.toReal_inv, inv_mul_eq_div, Set.inter_eq_self_of_subset_right hsub, ← pBox_volume hr (unitVec d s D i)]
    rfl
  rw [hval] at hfreq
  filter_upwards [hfreq] with ω h4
  refine h4.congr fun n => ?_
  rw [cubeCount_sum G s.pNorm s.dim (relativeSamples s D) (r i) i _ fun k => X n k ω]
  intro k
  have := h1 n k ω
  rw [relativeSamples_row hv hrow hD hi, hdim]
  simpa [List.ofFn_const] using this

/-! ## All samples -/

/-- **C159.** `estimate_local_volume` with `p = np.inf` on any number of processes, with balls of any positive radii:
when both bounds on the numbers of points grow, the volume of every cell tends, with probability one, to the volume of
the part of the cell that its ball reaches, relative to the total of these volumes. -/
theorem C159_reached [IsProbabilityMeasure P] {G : Geometry ℝ} (hG : Sound G) {s : SampleSet ℝ} {m : Nat}
    (hc : Consistent s m) (hdim : s.dim = d) {v : List (List ℝ)} (hv : s.glob.values = some v) {D : List (ℝ × ℝ)}
    (hdom : s.domain = some D) (hD : ProperBox d D) (hN : IsMaxNorm d G s.pNorm) {size : Nat}
    (hsize : 0 < size) {rad : List ℝ} (hrad : rad.length = m) {other : Nat → ℝ}
    (hr : ∀ i < m, 0 < s.localRadius rad other i)
    (hcl : ClearCells G (inUnits s D) (volume.restrict (domainBox d (unitDomain d))))
    {draw : ℕ → ℕ → ℕ → Ω → Fin d → ℝ} (hdraw : CubeDraws P draw)
    (hpos : ∑ j ∈ Finset.range m, volume.real (reachedSet d G s D (s.localRadius rad other) j) ≠ 0) :
    ∀ᵐ ω ∂P, (∀ᶠ e : ℕ × ℕ in atTop, ∃ s', s.estimateLocalVolumeMax G size rad other
        (fun i t k => List.ofFn (draw i t k ω)) e.1 e.2 = .ok s') ∧
      ∀ i < m, Tendsto (fun e : ℕ × ℕ => (cellVolume (s.estimateLocalVolumeMax G size rad other
        (fun i t k => List.ofFn (draw i t k ω)) e.1 e.2) i).getD 0) atTop
        (𝓝 (volume.real (reachedSet d G s D (s.localRadius rad other) i) /
          ∑ j ∈ Finset.range m, volume.real (reachedSet d G s D (s.localRadius rad other) j))) := by
  have hvl : v.length = m := hc.1.values v hv
  have hrow : ∀ x ∈ v, x.length = d := fun x hx => by rw [← hdim]; exact hc.2.2 v hv x hx
  set r := s.localRadius rad other with hrdef
  have hone : ∀ᵐ ω ∂P, ∀ i < m, Tendsto (fun n : ℕ => (cubeCount G s.pNorm s.dim (relativeSamples s D) (r i) i
        (fun k => List.ofFn (draw i (10 ^ n) k ω)) (10 ^ n) : ℝ) / (10 ^ n : ℕ)) atTop
      (𝓝 (volume.real (reachedSet d G s D r i) / cubeVolume d (r i))) := by
    refine ae_all_iff.2 fun i => ?_
    by_cases hi : i < m
    · filter_upwards [one_sample_max hG hdim hN hv hrow hD.1 hcl (r := r) (by rw [hvl]; exact hi) (hr i hi) hdraw] with ω h _
      exact h
    · exact Eventually.of_forall fun ω h => absurd h hi
  filter_upwards [hone] with ω hω
  set bv : Nat → ℝ := fun i => cubeVolume s.dim (r i) with hbv
  set cnt : Nat → Nat → Nat := fun i t => cubeCount G s.pNorm s.dim (relativeSamples s D) (r i) i
    (fun k => List.ofFn (draw i t k ω)) t with hcnt
  have hcall : ∀ e : ℕ × ℕ, s.estimateLocalVolumeMax G size rad other (fun i t k => List.ofFn (draw i t k ω)) e.1 e.2 =
      s.estimateLocalVolume size rad bv cnt e.1 e.2 := by
    intro e
    rw [SampleSet.estimateLocalVolumeMax, unitSamples_eq hdom]
  have hraw : ∀ i < m, Tendsto (fun e : ℕ × ℕ => rawVolume e.1 e.2 cnt bv i) atTop
      (𝓝 (volume.real (reachedSet d G s D r i))) := by
    intro i hi
    have h1 := (loop_limit (count := cnt i) (fun t => cubeCount_le _ _ _ _ _ _ _ _) (hω i hi)).const_mul (bv i)
    have hri := hr i hi
    have h2 : bv i * (volume.real (reachedSet d G s D r i) / cubeVolume d (r i)) = volume.real (reachedSet d G s D r i) := by
      have : cubeVolume d (r i) ≠ 0 := (pow_pos (by linarith) d).ne'
      rw [hbv, hdim]
      field_simp
    rw [h2] at h1
    refine h1.congr fun e => ?_
    rw [rawVolume, mul_div_assoc]
  have htotal : Tendsto (fun e : ℕ × ℕ => ((List.range m).map (rawVolume e.1 e.2 cnt bv)).sum) atTop
      (𝓝 (∑ j ∈ Finset.range m, volume.real (reachedSet d G s D r j))) := by
    have h1 : Tendsto (fun e : ℕ × ℕ => ∑ j ∈ Finset.range m, rawVolume e.1 e.2 cnt bv j) atTop
        (𝓝 (∑ j ∈ Finset.range m, volume.real (reachedSet d G s D r j))) :=
      tendsto_finsetSum _ fun j hj => hraw j (Finset.mem_range.1 hj)
    refine h1.congr fun e => ?_
    rw [Finset.sum_range, ← List.sum_ofFn, List.ofFn_eq_map, ← List.map_coe_finRange_eq_range, List.map_map]
    rfl
  have hev : ∀ᶠ e : ℕ × ℕ in atTop, ((List.range m).map (rawVolume e.1 e.2 cnt bv)).sum ≠ 0 :=
    htotal.eventually_ne hpos
  have hok := fun e : ℕ × ℕ => (estimateLocalVolume_ok hsize hc (by rw [hv]; rfl) (by rw [hdom]; rfl) hrad bv cnt e.1 e.2).2
  refine ⟨?_, fun i hi => ?_⟩
  · filter_upwards [hev] with e he
    obtain ⟨s', -, -, h1, -⟩ := hok e he
    exact ⟨s', by rw [hcall]; exact h1⟩
  · have hlim := (hraw i hi).div htotal hpos
    refine hlim.congr' ?_
    filter_upwards [hev] with e he
    obtain ⟨s', vol, l, h1, h2, h3, -⟩ := hok e he
    rw [hcall, cellVolume, h1]
    simp only [Except.toOption, Option.bind_some, h2, h3, List.getElem?_map, List.getElem?_range hi, Option.map_some,
      Option.getD_some, Pi.div_apply]

/-- **C159.** If every ball covers its cell, the volumes tend to those of the cells in coordinates relative to the
domain. -/
theorem C159_covered [IsProbabilityMeasure P] {G : Geometry ℝ} (hG : Sound G) {s : SampleSet ℝ} {m : Nat}
    (hm : 0 < m) (hc : Consistent s m) (hdim : s.dim = d) {v : List (List ℝ)} (hv : s.glob.values = some v)
    {D : List (ℝ × ℝ)} (hdom : s.domain = some D) (hD : ProperBox d D) (hN : IsMaxNorm d G s.pNorm)
    {size : Nat} (hsize : 0 < size) {rad : List ℝ} (hrad : rad.length = m) {other : Nat → ℝ}
    (hr : ∀ i < m, 0 < s.localRadius rad other i)
    (hcl : ClearCells G (inUnits s D) (volume.restrict (domainBox d (unitDomain d))))
    {draw : ℕ → ℕ → ℕ → Ω → Fin d → ℝ} (hdraw : CubeDraws P draw)
    (hcov : ∀ i < m, CoversCell d G s D (s.localRadius rad other) i) :
    ∀ᵐ ω ∂P, (∀ᶠ e : ℕ × ℕ in atTop, ∃ s', s.estimateLocalVolumeMax G size rad other
        (fun i t k => List.ofFn (draw i t k ω)) e.1 e.2 = .ok s') ∧
      ∀ i < m, Tendsto (fun e : ℕ × ℕ => (cellVolume (s.estimateLocalVolumeMax G size rad other
        (fun i t k => List.ofFn (draw i t k ω)) e.1 e.2) i).getD 0) atTop
        (𝓝 (relativeVolume d G (inUnits s D) (unitDomain d) i)) := by
  have hl : (relativeSamples s D).length = m := by simpa [relativeSamples, hv] using hc.1.values v hv
  have hsum : ∑ j ∈ Finset.range m, volume.real (reachedSet d G s D (s.localRadius rad other) j) = 1 := by
    rw [← sum_unitCells hG hl hm hcl]
    exact Finset.sum_congr rfl fun j hj => by rw [covers_reached (hcov j (Finset.mem_range.1 hj))]
  have h := C159_reached hG hc hdim hv hdom hD hN hsize hrad hr hcl hdraw (by rw [hsum]; exact one_ne_zero)
  filter_upwards [h] with ω hω
  refine ⟨hω.1, fun i hi => ?_⟩
  have h1 := hω.2 i hi
  rw [hsum, div_one, covers_reached (hcov i hi)] at h1
  rw [relativeVolume, measureReal_def (s := domainBox d (unitDomain d)), unit_box_volume, ENNReal.toReal_one, div_one]
  exact h1

/-! ## Cubes -/

theorem row_form {v : List (List ℝ)} (hrow : ∀ x ∈ v, x.length = d) {c : List ℝ} (hc : c ∈ v) :
    c = List.ofFn fun j : Fin d => c.getD j 0 := by
  apply List.ext_getElem
  · simpa using hrow c hc
  · intro k h1 h2
    simp [List.getD_eq_getElem?_getD, h1]

theorem max_measurable {G : Geometry ℝ} {p : Nat} (hN : IsMaxNorm d G p) {v : List (List ℝ)}
    (hrow : ∀ x ∈ v, x.length = d) {c : List ℝ} (hc : c ∈ v) :
    Measurable fun x : Fin d → ℝ => G.dist p (List.ofFn x) c := by
  rw [row_form hrow hc]
  simp only [IsMaxNorm.eq_norm hN]
  fun_prop

theorem cubic_cell_max {G : Geometry ℝ} {s : SampleSet ℝ} (hk : s.kind = .voronoi)
    (hN : IsMaxNorm d G s.pNorm) {v : List (List ℝ)} (hv : s.glob.values = some v) (hrow : ∀ x ∈ v, x.length = d)
    {D : List (ℝ × ℝ)} (hD : ProperBox d D) {w : ℝ} (hw : 0 < w) (hcube : Cubic D w) (i : Nat) :
    boxMap D ⁻¹' cellSet d G s i = cellSet d G (inUnits s D) i := by
  have hwj : ∀ j : Fin d, (D.getD j (0, 0)).2 - (D.getD j (0, 0)).1 = w := by
    intro j
    have hj : (j : ℕ) < D.length := by rw [hD.1]; exact j.2
    rw [List.getD_eq_getElem?_getD, List.getElem?_eq_getElem hj, Option.getD_some]
    exact hcube _ (List.getElem_mem hj)
  refine cubic_cell_of hk hv hw i fun u c hc => ?_
  have hl := hrow c hc
  have e2 : List.zipWith (fun ab y => (y - ab.1) / (ab.2 - ab.1)) D c =
      List.ofFn fun j : Fin d => (c.getD j 0 - (D.getD j (0, 0)).1) / w := by
    apply List.ext_getElem
    · simp [hD.1, hl]
    · intro k h1 h2
      have hk1 : k < D.length := by simp at h1; omega
      have hk2 : k < c.length := by simp at h1; omega
      have := hwj ⟨k, by rw [← hl]; exact hk2⟩
      simp [List.getD_eq_getElem?_getD, hk1, hk2] at this ⊢
      rw [this]
  rw [e2, IsMaxNorm.eq_norm hN]
  conv_lhs => rw [row_form hrow hc, IsMaxNorm.eq_norm hN]
  have e3 : (boxMap D u - fun j : Fin d => c.getD j 0) =
      w • (u - fun j : Fin d => (c.getD j 0 - (D.getD j (0, 0)).1) / w) := by
    funext j
    simp only [Pi.sub_apply, Pi.smul_apply, smul_eq_mul, boxMap, toBox]
    rw [hwj j]
    field_simp
    ring
  rw [e3, norm_smul, Real.norm_eq_abs, abs_of_pos hw]

/-- **C159.** If moreover all sides of the domain have the same length, they tend to the volumes of the cells, relative
to the domain. -/
theorem C159_cubic [IsProbabilityMeasure P] {G : Geometry ℝ} (hG : Sound G) {s : SampleSet ℝ} {m : Nat} (hd : 0 < d)
    (hm : 0 < m) (hc : Consistent s m) (hk : s.kind = .voronoi) (hdim : s.dim = d) {v : List (List ℝ)}
    (hv : s.glob.values = some v)
    {D : List (ℝ × ℝ)} (hdom : s.domain = some D) (hD : ProperBox d D) {w : ℝ} (hcube : Cubic D w)
    (hN : IsMaxNorm d G s.pNorm)
    {size : Nat} (hsize : 0 < size) {rad : List ℝ} (hrad : rad.length = m) {other : Nat → ℝ}
    (hr : ∀ i < m, 0 < s.localRadius rad other i)
    (hcl : ClearCells G (inUnits s D) (volume.restrict (domainBox d (unitDomain d))))
    {draw : ℕ → ℕ → ℕ → Ω → Fin d → ℝ} (hdraw : CubeDraws P draw)
    (hcov : ∀ i < m, CoversCell d G s D (s.localRadius rad other) i) :
    ∀ᵐ ω ∂P, ∀ i < m, Tendsto (fun e : ℕ × ℕ => (cellVolume (s.estimateLocalVolumeMax G size rad other
        (fun i t k => List.ofFn (draw i t k ω)) e.1 e.2) i).getD 0) atTop
        (𝓝 (relativeVolume d G s D i)) := by
  have hvl : v.length = m := hc.1.values v hv
  have hrow : ∀ x ∈ v, x.length = d := fun x hx => by rw [← hdim]; exact hc.2.2 v hv x hx
  have hw : 0 < w := by
    have h0 : 0 < D.length := by rw [hD.1]; exact hd
    have h1 := hD.2 _ (List.getElem_mem h0)
    have h2 := hcube _ (List.getElem_mem h0)
    linarith
  filter_upwards [C159_covered hG hm hc hdim hv hdom hD hN hsize hrad hr hcl hdraw hcov] with ω hω i hi
  rw [← cubic_volume_of hD (cell_measurable_of hk hv (by rw [hvl]; exact hi) fun c => max_measurable hN hrow)
    (cubic_cell_max hk hN hv hrow hD hw hcube i)]
  exact hω.2 i hi

/-! ## Balls that do not cover the cells -/

/-- **C159.** If some ball does not reach all of its cell, the volume of every cell that is covered is overestimated,
however many points are drawn. -/
theorem C159_negation_radius [IsProbabilityMeasure P] {G : Geometry ℝ} (hG : Sound G) {s : SampleSet ℝ} {m : Nat} 
    (hc : Consistent s m) (hdim : s.dim = d) {v : List (List ℝ)} (hv : s.glob.values = some v)
    {D : List (ℝ × ℝ)} (hdom : s.domain = some D) (hD : ProperBox d D) (hN : IsMaxNorm d G s.pNorm)
    {size : Nat} (hsize : 0 < size) {rad : List ℝ} (hrad : rad.length = m) {other : Nat → ℝ}
    (hr : ∀ i < m, 0 < s.localRadius rad other i)
    (hcl : ClearCells G (inUnits s D) (volume.restrict (domainBox d (unitDomain d))))
    {draw : ℕ → ℕ → ℕ → Ω → Fin d → ℝ} (hdraw : CubeDraws P draw)
    {j : Nat} (hj : j < m) (hcov : CoversCell d G s D (s.localRadius rad other) j)
    (hvol : 0 < relativeVolume d G (inUnits s D) (unitDomain d) j)
    {i : Nat} (hi : i < m) (hmiss : volume.real (reachedSet d G s D (s.localRadius rad other) i) <
      relativeVolume d G (inUnits s D) (unitDomain d) i) :
    ∃ l, relativeVolume d G (inUnits s D) (unitDomain d) j < l ∧
      ∀ᵐ ω ∂P, Tendsto (fun e : ℕ × ℕ => (cellVolume (s.estimateLocalVolumeMax G size rad other
        (fun i t k => List.ofFn (draw i t k ω)) e.1 e.2) j).getD 0) atTop (𝓝 l) := by
  have hl : (relativeSamples s D).length = m := by simpa [relativeSamples, hv] using hc.1.values v hv
  have hrel : ∀ k, relativeVolume d G (inUnits s D) (unitDomain d) k =
      volume.real (cellSet d G (inUnits s D) k ∩ domainBox d (unitDomain d)) := by
    intro k
    rw [relativeVolume, measureReal_def (s := domainBox d (unitDomain d)), unit_box_volume, ENNReal.toReal_one, div_one]
  have hle : ∀ k, volume.real (reachedSet d G s D (s.localRadius rad other) k) ≤
      relativeVolume d G (inUnits s D) (unitDomain d) k := by
    intro k
    rw [hrel]
    refine measureReal_mono Set.inter_subset_right ?_
    exact ne_top_of_le_ne_top (by simp [unit_box_volume d]) (measure_mono (Set.inter_subset_right (t := domainBox d (unitDomain d))))
  have hj1 : volume.real (reachedSet d G s D (s.localRadius rad other) j) = relativeVolume d G (inUnits s D) (unitDomain d) j := by
    rw [covers_reached hcov, hrel]
  set S := ∑ k ∈ Finset.range m, volume.real (reachedSet d G s D (s.localRadius rad other) k) with hS
  have hS1 : S < 1 := by
    rw [← sum_unitCells hG hl (by omega) hcl, hS]
    exact Finset.sum_lt_sum (fun k _ => (hle k).trans_eq (hrel k)) ⟨i, Finset.mem_range.2 hi, hmiss.trans_eq (hrel i)⟩
  have hS0 : 0 < S := by
    refine lt_of_lt_of_le ?_ (Finset.single_le_sum (f := fun k => volume.real (reachedSet d G s D (s.localRadius rad other) k))
      (fun k _ => measureReal_nonneg) (Finset.mem_range.2 hj))
    simpa only [hj1] using hvol
  refine ⟨relativeVolume d G (inUnits s D) (unitDomain d) j / S, ?_, ?_⟩
  · rw [lt_div_iff₀ hS0]
    exact mul_lt_of_lt_one_right hvol hS1
  · filter_upwards [C159_reached hG hc hdim hv hdom hD hN hsize hrad hr hcl hdraw hS0.ne'] with ω hω
    have := hω.2 j hj
    rwa [hj1] at this

/-! ## When the cells are clear -/

theorem coordinate_null {i j : Fin d} {a b : ℝ} (h : i = j → a ≠ b) :
    volume {x : Fin d → ℝ | |x i - a| = |x j - b|} = 0 := by
  have hsub : {x : Fin d → ℝ | |x i - a| = |x j - b|} ⊆
      {x | x i - x j = a - b} ∪ {x | x i + x j = a + b} := by
    intro x hx
    rcases abs_eq_abs.1 hx with h1 | h1
    · left
      show x i - x j = a - b
      linarith
    · right
      show x i + x j = a + b
      linarith
  refine measure_mono_null hsub (measure_union_null ?_ ?_)
  · by_cases hij : i = j
    · subst hij
      have hab : a - b ≠ 0 := sub_ne_zero.2 (h rfl)
      convert measure_empty (μ := (volume : Measure (Fin d → ℝ)))
      ext x
      simp only [sub_self, Set.mem_ofPred_eq, Set.mem_empty_iff_false, iff_false]
      exact fun hh => hab hh.symm
    · have := hyperplane_null (d := d) (a := Pi.single i 1 - Pi.single j 1) (fun h0 => by
        have := congrFun h0 i
        simp [Pi.single_apply, hij] at this) (a - b)
      convert this using 3 with x
      simp [sub_mul, Finset.sum_sub_distrib, Pi.single_apply]
  · have := hyperplane_null (d := d) (a := Pi.single i 1 + Pi.single j 1) (fun h0 => by
        have := congrFun h0 i
        by_cases hij : i = j
        · subst hij; norm_num at this
        · simp [Pi.single_apply, hij] at this) (a + b)
    convert this using 3 with x
    simp [add_mul, Finset.sum_add_distrib, Pi.single_apply]

/-- No coordinate of one sample is that of another. -/
def Spec.CoordinatesDiffer (d : Nat) (v : List (List ℝ)) : Prop :=
  ∀ i j : Nat, i ≠ j → ∀ a b : List ℝ, v[i]? = some a → v[j]? = some b → ∀ k < d, a.getD k 0 ≠ b.getD k 0

theorem clear_max {G : Geometry ℝ} {s : SampleSet ℝ} (hk : s.kind = .voronoi) {v : List (List ℝ)}
    (hv : s.glob.values = some v) (hrow : ∀ c ∈ v, c.length = d) (hdis : CoordinatesDiffer d v)
    (hN : IsMaxNorm d G s.pNorm) (B : Set (Fin d → ℝ)) : ClearCells G s (volume.restrict B) := by
  refine C130_clear_voronoi hk hv (fun c hc => max_measurable hN hrow hc) fun i j a b hij ha hb => ?_
  have ha' := row_form hrow (List.mem_of_getElem? ha)
  have hb' := row_form hrow (List.mem_of_getElem? hb)
  have hsub : {x : Fin d → ℝ | G.dist s.pNorm (List.ofFn x) a = G.dist s.pNorm (List.ofFn x) b} ⊆
      ⋃ k : Fin d, ⋃ l : Fin d, {x | |x k - a.getD k 0| = |x l - b.getD l 0|} := by
    intro x hx
    simp only [Set.mem_ofPred_eq] at hx
    rw [ha', hb'] at hx
    obtain ⟨-, k, h1⟩ := hN x fun j => a.getD j 0
    obtain ⟨-, l, h2⟩ := hN x fun j => b.getD j 0
    rw [h1, h2] at hx
    exact Set.mem_iUnion.2 ⟨k, Set.mem_iUnion.2 ⟨l, hx⟩⟩
  refine measure_mono_null hsub (Measure.absolutelyContinuous_of_le Measure.restrict_le_self ?_)
  refine measure_iUnion_null fun k => measure_iUnion_null fun l => coordinate_null fun hkl => ?_
  subst hkl
  exact hdis i j hij a b ha hb k k.2

/-- **C159.** The condition on the cells holds if no coordinate of one sample is that of another. -/
theorem C159_clear {G : Geometry ℝ} {s : SampleSet ℝ} {v : List (List ℝ)}
    (hv : s.glob.values = some v) (hrow : ∀ c ∈ v, c.length = d) (hdis : CoordinatesDiffer d v)
    {D : List (ℝ × ℝ)} (hD : ProperBox d D) (hN : IsMaxNorm d G s.pNorm) (B : Set (Fin d → ℝ)) :
    ClearCells G (inUnits s D) (volume.restrict B) := by
  have hrel : relativeSamples s D = v.map (List.zipWith (fun ab y => (y - ab.1) / (ab.2 - ab.1)) D) := by
    rw [relativeSamples, hv]; rfl
  refine clear_max (s := inUnits s D) rfl rfl (fun c hc => ?_) (fun i j hij a b ha hb k hk => ?_) hN B
  · rw [hrel] at hc
    obtain ⟨x, hx, rfl⟩ := List.mem_map.1 hc
    simp [hD.1, hrow x hx]
  · rw [hrel, List.getElem?_map] at ha hb
    obtain ⟨x, hx, rfl⟩ := Option.map_eq_some_iff.1 ha
    obtain ⟨y, hy, rfl⟩ := Option.map_eq_some_iff.1 hb
    have h1 := hdis i j hij x y hx hy k hk
    have l1 := hrow x (List.mem_of_getElem? hx)
    have l2 := hrow y (List.mem_of_getElem? hy)
    have hDk : k < D.length := by rw [hD.1]; exact hk
    have hw : 0 < D[k].2 - D[k].1 := sub_pos.2 (hD.2 _ (List.getElem_mem hDk))
    have g1 : k < x.length := by omega
    have g2 : k < y.length := by omega
    simp only [List.getD_eq_getElem?_getD, List.getElem?_zipWith, List.getElem?_eq_getElem hDk, List.getElem?_eq_getElem g1,
      List.getElem?_eq_getElem g2, Option.getD_some] at h1 ⊢
    intro h2
    rw [div_left_inj' hw.ne'] at h2
    exact h1 (by linarith)

/-! ## Examples -/

namespace Ex

/-- The search that compares all distances and returns the first nearest. -/
theorem argmin_sound (f : List ℝ → List ℝ → ℝ) :
    Sound { dist := fun _ => f, nn := fun _ pts x => ((List.range pts.length).argmin fun i => f x (pts.getD i [])).getD 0 } := by
  intro p pts x hne
  cases h : (List.range pts.length).argmin fun i => f x (pts.getD i []) with
  | none =>
    rw [List.argmin_eq_none] at h
    have : pts.length = 0 := by simpa using h
    exact absurd (List.length_eq_zero_iff.1 this) hne
  | some i =>
    have hi := List.mem_range.1 (List.argmin_mem h)
    refine ⟨pts[i], by simp only [h, Option.getD_some]; exact List.getElem?_eq_getElem hi, fun c' hc' => ?_⟩
    obtain ⟨j, hj, rfl⟩ := List.getElem_of_mem hc'
    have := List.le_of_mem_argmin (List.mem_range.2 hj) h
    simpa [List.getD_eq_getElem?_getD, List.getElem?_eq_getElem hi, List.getElem?_eq_getElem hj] using this

/-- The maximum norm. -/
noncomputable def cheb : Geometry ℝ where
  dist _ x c := (List.zipWith (fun a b => |a - b|) x c).foldr max 0
  nn _ pts x := ((List.range pts.length).argmin fun i =>
    (List.zipWith (fun a b => |a - b|) x (pts.getD i [])).foldr max 0).getD 0

theorem cheb_sound : Sound cheb := argmin_sound _

theorem cheb_max {d : Nat} (hd : 0 < d) (p : Nat) : IsMaxNorm d cheb p := by
  intro x y
  have key : ∀ l : List ℝ, (∀ a ∈ l, 0 ≤ a) → l ≠ [] → (∀ a ∈ l, a ≤ l.foldr max 0) ∧ l.foldr max 0 ∈ l := by
    intro l
    induction l with
    | nil => intro _ h; exact absurd rfl h
    | cons a l ih =>
      intro h0 _
      rcases eq_or_ne l [] with rfl | hl
      · have := h0 a (by simp)
        simp [this]
      · obtain ⟨h1, h2⟩ := ih (fun b hb => h0 b (by simp [hb])) hl
        refine ⟨?_, ?_⟩
        · intro b hb
          rcases List.mem_cons.1 hb with rfl | hb
          · exact le_max_left _ _
          · exact (h1 b hb).trans (le_max_right _ _)
        · rw [List.foldr_cons]
          rcases max_choice a (l.foldr max 0) with h | h <;> rw [h]
          · simp
          · simp [h2]
  have e : List.zipWith (fun a b => |a - b|) (List.ofFn x) (List.ofFn y) = List.ofFn fun i => |x i - y i| := by
    apply List.ext_getElem
    · simp
    · intro k h1 h2; simp
  have hd0 : d ≠ 0 := hd.ne'
  obtain ⟨h1, h2⟩ := key (List.ofFn fun i => |x i - y i|) (by
    intro a ha
    obtain ⟨i, rfl⟩ := (List.mem_ofFn' _ _).1 ha
    exact abs_nonneg _) (by simp [hd0])
  obtain ⟨i, hi⟩ := (List.mem_ofFn' _ _).1 h2
  simp only [cheb, e]
  exact ⟨fun j => h1 _ ((List.mem_ofFn' _ _).2 ⟨j, rfl⟩), i, hi.symm⟩

/-- Three samples in a square, with radii. -/
noncomputable def diagonal : SampleSet ℝ :=
  { dim := 2, pNorm := 0, domain := some [(0, 4), (1, 5)],
    glob := { values := some [[0, 1], [1, 4], [3, 2]], normalizedRadii := some [2, 2, 3] } }

theorem diagonal_radius (i : Nat) (hi : i < 3) : 2 ≤ diagonal.localRadius [1, 1, 1] (fun _ => 0) i := by
  interval_cases i <;> simp [SampleSet.localRadius, SampleSet.localRadii, diagonal] <;> norm_num

theorem diagonal_differ : CoordinatesDiffer 2 [[0, 1], [1, 4], [3, 2]] := by
  intro i j hij a b ha hb k hk
  have hi : i < 3 := by simpa using (List.getElem?_eq_some_iff.1 ha).1
  have hj : j < 3 := by simpa using (List.getElem?_eq_some_iff.1 hb).1
  interval_cases i <;> interval_cases j <;> simp at hij ha hb <;> subst ha <;> subst hb <;> interval_cases k <;> norm_num

/-- Every ball covers its cell. -/
theorem diagonal_covers (i : Nat) (hi : i < 3) :
    CoversCell 2 cheb diagonal [(0, 4), (1, 5)] (diagonal.localRadius [1, 1, 1] fun _ => 0) i := by
  intro y _ hy
  refine lt_of_lt_of_le ?_ (diagonal_radius i hi)
  rw [unitDomain_box] at hy
  rw [relativeSamples_row (d := 2) (v := [[0, 1], [1, 4], [3, 2]]) rfl (by simp) rfl hi,
    IsMaxNorm.lt_iff (cheb_max (by norm_num) _)]
  intro j
  have hj := hy j trivial
  simp only [Set.mem_Ico] at hj
  have : 0 ≤ unitVec 2 diagonal [(0, 4), (1, 5)] i j ∧ unitVec 2 diagonal [(0, 4), (1, 5)] i j ≤ 1 := by
    interval_cases i <;> fin_cases j <;> simp [unitVec, relativeSamples, diagonal] <;> norm_num
  rw [abs_lt]
  constructor <;> linarith [this.1, this.2, hj.1, hj.2]

/-- Hypotheses of `C159_reached`, `C159_covered`, `C159_cubic` and `C159_clear`. -/
example {P : Measure Ω} [IsProbabilityMeasure P] {draw : ℕ → ℕ → ℕ → Ω → Fin 2 → ℝ} (h : CubeDraws P draw) :
    ∀ᵐ ω ∂P, ∀ i < 3, Tendsto (fun e : ℕ × ℕ => (cellVolume (diagonal.estimateLocalVolumeMax cheb 2 [1, 1, 1] (fun _ => 0)
        (fun i t k => List.ofFn (draw i t k ω)) e.1 e.2) i).getD 0) atTop
        (𝓝 (relativeVolume 2 cheb diagonal [(0, 4), (1, 5)] i)) :=
  C159_cubic (d := 2) cheb_sound (by norm_num) (by norm_num)
    (SampleSet.consistent_of_checkNum (size := 1) rfl rfl : Consistent diagonal 3) rfl rfl rfl rfl ⟨rfl, by simp⟩ (w := 4)
    (by intro ab h; simp at h; rcases h with rfl | rfl <;> norm_num) (cheb_max (by norm_num) _) (by norm_num) rfl
    (fun i hi => lt_of_lt_of_le (by norm_num) (diagonal_radius i hi))
    (C159_clear rfl (by simp) diagonal_differ ⟨rfl, by simp⟩ (cheb_max (by norm_num) _) _) h diagonal_covers

/-- Such draws exist. -/
example : ∃ (Ω : Type) (_ : MeasurableSpace Ω) (P : Measure Ω) (draw : ℕ → ℕ → ℕ → Ω → Fin 2 → ℝ),
    IsProbabilityMeasure P ∧ CubeDraws P draw := by
  have : IsProbabilityMeasure ((volume : Measure (Fin 2 → ℝ)).restrict (Set.univ.pi fun _ => Set.Ico 0 1)) :=
    ⟨by rw [Measure.restrict_apply_univ, volume_pi_pi]; simp⟩
  refine ⟨ℕ → Fin 2 → ℝ, inferInstance, Measure.infinitePi fun _ => volume.restrict (Set.univ.pi fun _ => Set.Ico 0 1),
    fun _ _ k ω => ω k, inferInstance, ⟨fun _ _ => ?_, fun _ _ k => measurable_pi_apply k, fun _ _ k => ?_⟩⟩
  · exact iIndepFun_infinitePi (X := fun _ x => x) fun _ => measurable_id
  · exact (measurePreserving_eval_infinitePi _ k).map_eq

/-- Two samples of the same height. -/
noncomputable def level : SampleSet ℝ :=
  { dim := 2, pNorm := 0, domain := some [(0, 1), (0, 1)], glob := { values := some [[0, 0], [1, 0]] } }

/-- **Negation, C159.** If two samples have a coordinate in common, a part of the domain of positive volume can be
equally far from both, so the cells have no definite volumes. -/
theorem C159_negation_ties :
    0 < volume.real {y : Fin 2 → ℝ | IsCell cheb level (List.ofFn y) 0 ∧ IsCell cheb level (List.ofFn y) 1 ∧
      y ∈ domainBox 2 (unitDomain 2)} := by
  have hv : volume.real (Set.univ.pi ![Set.Ico (1 / 4 : ℝ) (3 / 4), Set.Ico (3 / 4 : ℝ) 1]) = 1 / 8 := by
    rw [measureReal_def, volume_pi_pi]
    simp
    norm_num
  refine lt_of_lt_of_le (by rw [hv]; norm_num) (measureReal_mono (μ := volume)
    (s₁ := Set.univ.pi ![Set.Ico (1 / 4 : ℝ) (3 / 4), Set.Ico (3 / 4 : ℝ) 1]) ?_ ?_)
  · intro y hy
    have h0 := hy 0 trivial
    have h1 := hy 1 trivial
    simp only [Matrix.cons_val_zero, Matrix.cons_val_one, Set.mem_Ico] at h0 h1
    have d0 : cheb.dist 0 (List.ofFn y) [0, 0] = y 1 := by
      have a0 : |y 0| = y 0 := abs_of_nonneg (by linarith)
      have a1 : |y 1| = y 1 := abs_of_nonneg (by linarith)
      simp only [cheb, List.ofFn_succ, List.ofFn_zero, List.zipWith_cons_cons, List.zipWith_nil_left, List.foldr_cons, List.foldr_nil,
        Fin.succ_zero_eq_one, sub_zero, a0, a1]
      rw [max_eq_left (by linarith : (0 : ℝ) ≤ y 1), max_eq_right (by linarith)]
    have d1 : cheb.dist 0 (List.ofFn y) [1, 0] = y 1 := by
      have a0 : |y 0 - 1| = 1 - y 0 := by rw [abs_of_nonpos (by linarith)]; ring
      have a1 : |y 1| = y 1 := abs_of_nonneg (by linarith)
      simp only [cheb, List.ofFn_succ, List.ofFn_zero, List.zipWith_cons_cons, List.zipWith_nil_left, List.foldr_cons, List.foldr_nil,
        Fin.succ_zero_eq_one, sub_zero, a0, a1]
      rw [max_eq_left (by linarith : (0 : ℝ) ≤ y 1), max_eq_right (by linarith)]
    have hall : ∀ c ∈ [[(0 : ℝ), 0], [1, 0]], cheb.dist 0 (List.ofFn y) c = y 1 := by
      intro c hc
      simp only [List.mem_cons, List.not_mem_nil, or_false] at hc
      rcases hc with rfl | rfl
      · exact d0
      · exact d1
    refine ⟨?_, ?_, ?_⟩
    · simp only [IsCell, level, Option.some.injEq, forall_eq']
      exact ⟨[0, 0], rfl, fun c hc => by rw [d0, hall c hc]⟩
    · simp only [IsCell, level, Option.some.injEq, forall_eq']
      exact ⟨[1, 0], rfl, fun c hc => by rw [d1, hall c hc]⟩
    · rw [unitDomain_box]
      intro j _
      fin_cases j
      · exact ⟨by simp only [Fin.zero_eta]; linarith [h0.1], by simp only [Fin.zero_eta]; linarith [h0.2]⟩
      · exact ⟨by simp only [Fin.mk_one]; linarith [h1.1], h1.2⟩
  · exact ne_top_of_le_ne_top (by simp [unit_box_volume 2]) (measure_mono (show _ ⊆ domainBox 2 (unitDomain 2) from fun y hy => hy.2.2))

end Ex

end BET
