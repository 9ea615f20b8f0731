import Verif.Model.PairwiseRadii
import Verif.Props.LocalLimit

/-!
# C150: samples without a radius
-/

set_option autoImplicit false
set_option linter.unusedSectionVars false
set_option linter.unusedSimpArgs false

namespace BET

open Spec MeasureTheory ProbabilityTheory Filter Topology

/-- All other samples that have a positive distance from sample `i` have the same. -/
def Spec.SameDistance (pair : Nat → Nat → ℝ) (m i : Nat) : Prop :=
  ∀ j < m, ∀ k < m, 0 < pair j i → 0 < pair k i → pair j i = pair k i

theorem stdDev_nonneg (l : List ℝ) : 0 ≤ stdDev l := Real.sqrt_nonneg _

theorem stdDev_eq_zero {l : List ℝ} : stdDev l = 0 ↔ ∀ x ∈ l, ∀ y ∈ l, x = y := by
  have hnn : ∀ x ∈ l.map fun x => (x - l.sum / l.length) ^ 2, 0 ≤ x := by
    intro x hx
    obtain ⟨y, -, rfl⟩ := List.mem_map.1 hx
    positivity
  rw [stdDev, Real.sqrt_eq_zero (div_nonneg (List.sum_nonneg hnn) (Nat.cast_nonneg _))]
  rcases List.eq_nil_or_concat l with rfl | ⟨l0, a, hl⟩
  · simp
  have hlen : (l.length : ℝ) ≠ 0 := by
    rw [hl]
    simp
    positivity
  constructor
  · intro h x hx y hy
    rw [div_eq_zero_iff, or_iff_left hlen] at h
    have hz : ∀ x ∈ l, x = l.sum / l.length := by
      intro x hx
      have := List.all_zero_of_le_zero_le_of_sum_eq_zero hnn h (List.mem_map_of_mem (f := fun x => (x - l.sum / l.length) ^ 2) hx)
      have := pow_eq_zero_iff (two_ne_zero) |>.1 this
      linarith
    rw [hz x hx, hz y hy]
  · intro h
    have ha : a ∈ l := by rw [hl]; simp
    have hrep : l = List.replicate l.length a := List.eq_replicate_iff.2 ⟨rfl, fun b hb => h b hb a ha⟩
    have hsum : l.sum = l.length * a := by
      conv_lhs => rw [hrep]
      simp
    have hm : l.sum / l.length = a := by rw [hsum]; field_simp
    rw [hm]
    have : (l.map fun x => (x - a) ^ 2) = l.map fun _ => (0 : ℝ) :=
      List.map_congr_left fun x hx => by rw [h x hx a ha]; simp
    rw [this]
    simp

/-- **C150.** The radius from pairwise distances is zero exactly if all samples that have a positive distance from the
sample have the same. -/
theorem C150_radius (pair : Nat → Nat → ℝ) (m i : Nat) :
    0 ≤ pairwiseRadius pair m i ∧ (pairwiseRadius pair m i = 0 ↔ SameDistance pair m i) := by
  refine ⟨mul_nonneg (stdDev_nonneg _) (by norm_num), ?_⟩
  rw [pairwiseRadius, mul_eq_zero, or_iff_left (by norm_num), stdDev_eq_zero]
  simp only [List.mem_map, List.mem_filter, List.mem_range, decide_eq_true_eq]
  constructor
  · intro h j hj k hk h1 h2
    have := h _ ⟨pair j i, ⟨⟨j, hj, rfl⟩, h1⟩, rfl⟩ _ ⟨pair k i, ⟨⟨k, hk, rfl⟩, h2⟩, rfl⟩
    linarith
  · rintro h x ⟨a, ⟨⟨j, hj, rfl⟩, h1⟩, rfl⟩ y ⟨b, ⟨⟨k, hk, rfl⟩, h2⟩, rfl⟩
    rw [h j hj k hk h1 h2]

open Classical in
/-- The samples at a positive distance from sample `i`. -/
noncomputable def Spec.apart (pair : Nat → Nat → ℝ) (m i : Nat) : Finset Nat := (Finset.range m).filter fun j => 0 < pair j i

/-- The mean of `f` over the samples `J`. -/
noncomputable def Spec.meanOver (J : Finset Nat) (f : Nat → ℝ) : ℝ := (∑ j ∈ J, f j) / J.card

theorem stdDev_halves (l : List ℝ) :
    stdDev (l.map fun x => x * (1 / 2)) * 2 = √((l.map fun x => (x - l.sum / l.length) ^ 2).sum / l.length) := by
  have h1 : (l.map fun x : ℝ => x * (1 / 2)).sum = l.sum * (1 / 2) := by
    simpa using List.sum_map_mul_right l id (1 / 2 : ℝ)
  have h2 : ((l.map fun x : ℝ => x * (1 / 2)).map fun x : ℝ => (x - l.sum * (1 / 2) / (l.length : ℝ)) ^ 2).sum
      = (l.map fun x : ℝ => (x - l.sum / (l.length : ℝ)) ^ 2).sum * (1 / 4) := by
    rw [← List.sum_map_mul_right, List.map_map]
    congr 1
    refine List.map_congr_left fun x _ => ?_
    simp only [Function.comp_apply]
    ring
  rw [stdDev, h1, List.length_map, h2, mul_div_right_comm, Real.sqrt_mul' _ (by norm_num),
    show (1 / 4 : ℝ) = (1 / 2) ^ 2 by norm_num, Real.sqrt_sq (by norm_num)]
  ring

/-- **C150.** The radius is the standard deviation of the positive distances from the sample. -/
theorem C150_value (pair : Nat → Nat → ℝ) (m i : Nat) :
    pairwiseRadius pair m i =
      √(meanOver (apart pair m i) fun j => (pair j i - meanOver (apart pair m i) fun j => pair j i) ^ 2) := by
  classical
  have hl : (((List.range m).map fun j => pair j i).filter fun x => decide (0 < x)) =
      ((List.range m).filter fun j => decide (0 < pair j i)).map fun j => pair j i := by
    rw [List.filter_map]
    rfl
  have hnd : ((List.range m).filter fun j => decide (0 < pair j i)).Nodup := List.nodup_range.filter _
  have hJ : ((List.range m).filter fun j => decide (0 < pair j i)).toFinset = apart pair m i := by
    ext j
    simp [apart]
  have hsum : ∀ f : Nat → ℝ, (((List.range m).filter fun j => decide (0 < pair j i)).map f).sum = ∑ j ∈ apart pair m i, f j := by
    intro f
    rw [← hJ, List.sum_toFinset _ hnd]
  have hcard : ((List.range m).filter fun j => decide (0 < pair j i)).length = (apart pair m i).card := by
    rw [← hJ, List.toFinset_card_of_nodup hnd]
  rw [pairwiseRadius, stdDev_halves, hl, List.map_map, List.length_map, hcard, hsum]
  simp only [Function.comp_def]
  rw [hsum]
  rfl

/-- Sample `i` has no positive radius. -/
def Spec.NoRadius (s : SampleSet ℝ) (i : Nat) : Prop :=
  ∃ l x, s.glob.normalizedRadii = some l ∧ l[i]? = some x ∧ x ≤ 0

theorem noRadius_local {s : SampleSet ℝ} {rad : List ℝ} {other : Nat → ℝ} {i : Nat} (h : NoRadius s i) :
    s.localRadius rad other i = other i := by
  obtain ⟨l, x, h1, h2, h3⟩ := h
  have : (s.localRadii rad).getD i 0 = x := by
    unfold SampleSet.localRadii
    rw [h1]
    simp [List.getD_eq_getElem?_getD, h2]
  rw [SampleSet.localRadius, this, if_pos h3]

section
variable {s : SampleSet ℝ} {m : Nat} (hc : Consistent s m) {v : List (List ℝ)} (hv : s.glob.values = some v)
  {D : List (ℝ × ℝ)} (hdom : s.domain = some D) (hdim : 0 < s.dim) {size : Nat} (hsize : 0 < size) {rad : List ℝ}
  (hrad : rad.length = m) (G : Geometry ℝ) (pair : Nat → Nat → ℝ) (draw : Nat → Nat → Nat → LpDraw) (numEm maxEm : Nat)
include hc hv hdom hdim hsize hrad

theorem raw_zero {i : Nat} (h : NoRadius s i) (hsame : SameDistance pair m i) (cnt : Nat → Nat → Nat) :
    rawVolume numEm maxEm cnt (fun i => localBallVolume s.pNorm s.dim
      (s.localRadius rad (pairwiseRadius pair (s.glob.values.getD []).length) i)) i = 0 := by
  have hvl : (s.glob.values.getD []).length = m := by rw [hv]; exact hc.1.values v hv
  rw [rawVolume, noRadius_local h, hvl, (C150_radius pair m i).2.2 hsame, localBallVolume, zero_pow hdim.ne']
  simp

/-- **C150.** If a sample has no positive radius and all others have the same distance from it, its cell gets the
volume zero, whatever is drawn. -/
theorem C150_negation_volume {i : Nat} (hi : i < m) (h : NoRadius s i) (hsame : SameDistance pair m i) {s' : SampleSet ℝ}
    (hok : s.estimateLocalVolumePaired G size rad pair draw numEm maxEm = .ok s') :
    ∃ vol, s'.glob.volumes = some vol ∧ vol[i]? = some 0 := by
  set cnt : Nat → Nat → Nat := fun i t => cellCount G s.pNorm s.dim s.unitSamples
    (s.localRadius rad (pairwiseRadius pair (s.glob.values.getD []).length) i) i (draw i t) t with hcnt
  have h0 := raw_zero hc hv hdom hdim hsize hrad pair numEm maxEm h hsame cnt
  have h1 := estimateLocalVolume_ok hsize hc (by rw [hv]; rfl) (by rw [hdom]; rfl) hrad (fun i => localBallVolume s.pNorm s.dim
      (s.localRadius rad (pairwiseRadius pair (s.glob.values.getD []).length) i)) cnt numEm maxEm
  have hcall : s.estimateLocalVolume size rad (fun i => localBallVolume s.pNorm s.dim
      (s.localRadius rad (pairwiseRadius pair (s.glob.values.getD []).length) i)) cnt numEm maxEm = .ok s' := hok
  by_cases hsum : ((List.range m).map (rawVolume numEm maxEm cnt (fun i => localBallVolume s.pNorm s.dim
      (s.localRadius rad (pairwiseRadius pair (s.glob.values.getD []).length) i)))).sum = 0
  · rw [h1.1 hsum] at hcall
    cases hcall
  · obtain ⟨t, vol, l, h2, h3, h4, -⟩ := h1.2 hsum
    rw [hcall] at h2
    cases h2
    refine ⟨vol, h3, ?_⟩
    rw [h4, List.getElem?_map, List.getElem?_range hi, Option.map_some, h0, zero_div]

/-- **C150.** If this holds of all samples, for instance of both of two, the volumes are zero divided by zero. -/
theorem C150_negation_all (h : ∀ i < m, NoRadius s i ∧ SameDistance pair m i) :
    s.estimateLocalVolumePaired G size rad pair draw numEm maxEm = .error .zeroDivision := by
  refine (estimateLocalVolume_ok hsize hc (by rw [hv]; rfl) (by rw [hdom]; rfl) hrad _ _ numEm maxEm).1 ?_
  apply List.sum_eq_zero
  intro x hx
  obtain ⟨i, hi, rfl⟩ := List.mem_map.1 hx
  obtain ⟨h1, h2⟩ := h i (List.mem_range.1 hi)
  exact raw_zero hc hv hdom hdim hsize hrad pair numEm maxEm h1 h2 _

end

/-- With two samples all other samples have the same distance. -/
theorem sameDistance_two {pair : Nat → Nat → ℝ} (h : ∀ i, pair i i = 0) (i : Nat) (hi : i < 2) : SameDistance pair 2 i := by
  intro j hj k hk h1 h2
  have e : ∀ a < 2, 0 < pair a i → a = 1 - i := by
    intro a ha h3
    have : a ≠ i := fun he => by rw [he, h] at h3; exact lt_irrefl _ h3
    omega
  rw [e j hj h1, e k hk h2]

/-- **C150.** With two samples without positive radii there are no volumes, for every metric. -/
theorem C150_negation_two {s : SampleSet ℝ} (hc : Consistent s 2) {v : List (List ℝ)} (hv : s.glob.values = some v)
    {D : List (ℝ × ℝ)} (hdom : s.domain = some D) (hdim : 0 < s.dim) {size : Nat} (hsize : 0 < size) {rad : List ℝ}
    (hrad : rad.length = 2) (G : Geometry ℝ) {pair : Nat → Nat → ℝ} (hpair : ∀ i, pair i i = 0)
    (hno : ∀ i < 2, NoRadius s i) (draw : Nat → Nat → Nat → LpDraw) (numEm maxEm : Nat) :
    s.estimateLocalVolumePaired G size rad pair draw numEm maxEm = .error .zeroDivision :=
  C150_negation_all hc hv hdom hdim hsize hrad G pair draw numEm maxEm fun i hi => ⟨hno i hi, sameDistance_two hpair i hi⟩

/-- **C150.** If every sample has a positive radius, or two others at different positive distances, then all balls have
a positive radius, and the volumes converge to those of the parts of the cells that the balls reach (C149). -/
theorem C150_converges {Ω : Type} [MeasurableSpace Ω] {P : Measure Ω} [IsProbabilityMeasure P] {d : Nat} {G : Geometry ℝ}
    (hG : Sound G) {s : SampleSet ℝ} {m : Nat} (hd : 0 < d)
    (hc : Consistent s m) (hdim : s.dim = d) {v : List (List ℝ)} (hv : s.glob.values = some v) {D : List (ℝ × ℝ)}
    (hdom : s.domain = some D) (hD : ProperBox d D) (hp : 0 < s.pNorm) (hN : IsPNorm d G s.pNorm) {size : Nat}
    (hsize : 0 < size) {rad : List ℝ} (hrad : rad.length = m) {pair : Nat → Nat → ℝ} {l : List ℝ}
    (hl : s.glob.normalizedRadii = some l)
    (hok : ∀ i < m, (∃ x, l[i]? = some x ∧ 0 < x) ∨ ∃ j < m, ∃ k < m, 0 < pair j i ∧ 0 < pair k i ∧ pair j i ≠ pair k i)
    (hcl : ClearCells G (inUnits s D) (volume.restrict (domainBox d (unitDomain d))))
    {draw : ℕ → ℕ → ℕ → Ω → (Fin d → ℝ × ℝ) × ℝ} (hdraw : LocalDraws P (s.pNorm : ℝ) draw) :
    ∃ r : Nat → ℝ, (∀ i < m, 0 < r i) ∧ (∀ i x, l[i]? = some x → 0 < x → r i = x) ∧
      (∀ i x, l[i]? = some x → x ≤ 0 → r i = pairwiseRadius pair m i) ∧
      (∑ j ∈ Finset.range m, volume.real (reachedSet d G s D r j) ≠ 0 →
        ∀ᵐ ω ∂P, ∀ i < m, Tendsto (fun e : ℕ × ℕ => (cellVolume (s.estimateLocalVolumePaired G size rad pair
          (fun i t k => asDraw (draw i t k ω)) e.1 e.2) i).getD 0) atTop
          (𝓝 (volume.real (reachedSet d G s D r i) / ∑ j ∈ Finset.range m, volume.real (reachedSet d G s D r j)))) := by
  have hvl : (s.glob.values.getD []).length = m := by rw [hv]; exact hc.1.values v hv
  have h1 : ∀ i x, l[i]? = some x → 0 < x → s.localRadius rad (pairwiseRadius pair m) i = x :=
    fun i x h2 h3 => (C149_radii rad _).1 l hl h2 h3
  have h2 : ∀ i x, l[i]? = some x → x ≤ 0 → s.localRadius rad (pairwiseRadius pair m) i = pairwiseRadius pair m i :=
    fun i x h2 h3 => noRadius_local ⟨l, x, hl, h2, h3⟩
  have hll : l.length = m := hc.1.normalizedRadii l hl
  have hr : ∀ i < m, 0 < s.localRadius rad (pairwiseRadius pair m) i := by
    intro i hi
    have hx : l[i]? = some l[i] := List.getElem?_eq_getElem (by omega)
    rcases lt_or_ge 0 l[i] with h3 | h3
    · rw [h1 i _ hx h3]; exact h3
    · rw [h2 i _ hx h3]
      rcases hok i hi with ⟨x, h4, h5⟩ | ⟨j, hj, k, hk, h4, h5, h6⟩
      · rw [hx] at h4
        cases h4
        linarith
      · refine lt_of_le_of_ne (C150_radius pair m i).1 fun h7 => h6 ((C150_radius pair m i).2.1 h7.symm j hj k hk h4 h5)
  refine ⟨s.localRadius rad (pairwiseRadius pair m), hr, h1, h2, fun hpos => ?_⟩
  filter_upwards [C149_reached hG hd hc hdim hv hdom hD hp hN hsize hrad hr hcl hdraw hpos] with ω hω
  unfold SampleSet.estimateLocalVolumePaired
  rw [hvl]
  exact hω.2

namespace Ex

/-- Three samples of an interval; the first has no radius. -/
noncomputable def partRadii : SampleSet ℝ :=
  { dim := 1, pNorm := 2, domain := some [(0, 1)],
    glob := { values := some [[0], [1 / 4], [3 / 4]], normalizedRadii := some [0, 1 / 2, 1 / 2] } }

/-- Hypotheses of `C150_converges`. -/
example : Consistent partRadii 3 ∧ (∀ i < 3, (∃ x, [0, (1 / 2 : ℝ), 1 / 2][i]? = some x ∧ 0 < x) ∨
    ∃ j < 3, ∃ k < 3, (0 : ℝ) < |[0, 1 / 4, 3 / 4].getD j 0 - [0, 1 / 4, 3 / 4].getD i 0| ∧
      (0 : ℝ) < |[0, 1 / 4, 3 / 4].getD k 0 - [0, 1 / 4, 3 / 4].getD i 0| ∧
      |[0, (1 / 4 : ℝ), 3 / 4].getD j 0 - [0, 1 / 4, 3 / 4].getD i 0| ≠ |[0, 1 / 4, 3 / 4].getD k 0 - [0, 1 / 4, 3 / 4].getD i 0|) := by
  refine ⟨SampleSet.consistent_of_checkNum (size := 1) rfl rfl, fun i hi => ?_⟩
  interval_cases i
  · refine Or.inr ⟨1, by norm_num, 2, by norm_num, ?_, ?_, ?_⟩ <;> norm_num [abs_of_pos]
  · exact Or.inl ⟨_, rfl, by norm_num⟩
  · exact Or.inl ⟨_, rfl, by norm_num⟩

/-- Two samples without radii. -/
noncomputable def noRadii : SampleSet ℝ :=
  { dim := 1, pNorm := 2, domain := some [(0, 1)],
    glob := { values := some [[1 / 4], [3 / 4]], normalizedRadii := some [0, 0] } }

/-- Hypotheses of `C150_negation_two` and `C150_negation_all`. -/
example (draw : Nat → Nat → Nat → LpDraw) (numEm maxEm : Nat) :
    noRadii.estimateLocalVolumePaired euclid 2 [1, 1] (fun i j => if i = j then 0 else 1 / 2) draw numEm maxEm =
      .error .zeroDivision := by
  refine C150_negation_two (SampleSet.consistent_of_checkNum (size := 1) rfl rfl) rfl rfl (by norm_num [noRadii])
    (by norm_num) rfl euclid (by simp) (fun i hi => ?_) draw numEm maxEm
  interval_cases i
  · exact ⟨_, 0, rfl, rfl, le_rfl⟩
  · exact ⟨_, 0, rfl, rfl, le_rfl⟩

/-- The first of two samples has no radius: hypotheses of `C150_negation_volume`. -/
noncomputable def oneRadius : SampleSet ℝ :=
  { dim := 1, pNorm := 2, domain := some [(0, 1)],
    glob := { values := some [[1 / 4], [3 / 4]], normalizedRadii := some [0, 1] } }

example : Consistent oneRadius 2 ∧ NoRadius oneRadius 0 ∧ SameDistance (fun i j => if i = j then 0 else 1 / 2) 2 0 :=
  ⟨SampleSet.consistent_of_checkNum (size := 1) rfl rfl, ⟨_, 0, rfl, rfl, le_rfl⟩, sameDistance_two (by simp) 0 (by norm_num)⟩

/-- Draws for which the call returns. -/
example : ∃ s', oneRadius.estimateLocalVolumePaired euclid 1 [1, 1] (fun i j => if i = j then 0 else 1 / 2)
    (fun _ _ _ => ([1], [1], 0)) 1 1000 = .ok s' := by
  have hunits : oneRadius.unitSamples = [[1 / 4], [3 / 4]] := by
    simp only [SampleSet.unitSamples, unitCoords, oneRadius, Option.getD_some, List.map_cons, List.map_nil,
      List.zipWith_cons_cons, List.zipWith_nil_left]
    norm_num
  have hr : oneRadius.localRadius [1, 1] (pairwiseRadius (fun i j => if i = j then 0 else 1 / 2) 2) 1 = 1 := by
    simp [SampleSet.localRadius, SampleSet.localRadii, oneRadius]
  have hnn : euclid.nn 2 [[1 / 4], [3 / 4]] [3 / 4] = 1 := by
    obtain ⟨c, h1, h2⟩ := euclid_sound 2 [[1 / 4], [3 / 4]] [3 / 4] (by simp)
    generalize euclid.nn 2 [[1 / 4], [3 / 4]] [3 / 4] = k at h1 h2
    match k with
    | 0 =>
      simp only [List.getElem?_cons_zero, Option.some.injEq] at h1
      subst h1
      have := h2 [3 / 4] (by simp)
      norm_num [euclid] at this
      exact absurd this (not_le.2 (Real.sqrt_pos.2 (by norm_num)))
    | 1 => rfl
    | k + 2 => simp at h1
  have hpt : lpUniform 2 [1] [1] 0 [1] [3 / 4] = .ok [3 / 4] := by
    simp [lpUniform, onSphere, lpNormal, lpNorm, place]
  have hcount : ∀ t, cellCount euclid 2 1 [[1 / 4], [3 / 4]] 1 1 (fun _ => ([1], [1], 0)) t = t := by
    intro t
    unfold cellCount
    have : ∀ k : Nat, foundIn euclid 2 [[1 / 4], [3 / 4]] 1 1 (lpUniform (2 : ℕ) [1] [1] 0 (List.replicate 1 1)
        ([[1 / 4], [3 / 4]].getD 1 [])) = true := by
      intro k
      have e : lpUniform (2 : ℕ) [1] [1] 0 (List.replicate 1 1) ([[(1 / 4 : ℝ)], [3 / 4]].getD 1 []) = .ok [3 / 4] := by
        simpa using hpt
      rw [e]
      simp only [foundIn, nnWithin, hnn]
      norm_num [euclid]
    rw [List.filter_eq_self.2 fun k _ => this k, List.length_range]
  have hok := (estimateLocalVolume_ok (size := 1) (n := 2) (by norm_num)
    (SampleSet.consistent_of_checkNum (size := 1) rfl rfl : Consistent oneRadius 2) rfl rfl (rad := [1, 1]) rfl
    (fun i => localBallVolume oneRadius.pNorm oneRadius.dim (oneRadius.localRadius [1, 1] (pairwiseRadius (fun i j => if i = j then 0 else 1 / 2) 2) i))
    (fun i t => cellCount euclid oneRadius.pNorm oneRadius.dim oneRadius.unitSamples (oneRadius.localRadius [1, 1]
      (pairwiseRadius (fun i j => if i = j then 0 else 1 / 2) 2) i) i (fun _ => ([1], [1], 0)) t) 1 1000).2
  have hsum : ∀ f : Nat → ℝ, ((List.range 2).map f).sum = f 0 + f 1 := by
    intro f
    simp [List.range_succ]
  obtain ⟨s', -, -, h, -⟩ := hok (by
    have h0 := raw_zero (s := oneRadius) (SampleSet.consistent_of_checkNum (size := 1) rfl rfl : Consistent oneRadius 2) rfl rfl
      (by norm_num [oneRadius]) (size := 1) (by norm_num) (rad := [1, 1]) rfl (fun i j => if i = j then 0 else 1 / 2) 1 1000 (i := 0)
      ⟨_, 0, rfl, rfl, le_rfl⟩ (sameDistance_two (by simp) 0 (by norm_num)) (fun i t => cellCount euclid oneRadius.pNorm oneRadius.dim oneRadius.unitSamples (oneRadius.localRadius [1, 1]
      (pairwiseRadius (fun i j => if i = j then 0 else 1 / 2) 2) i) i (fun _ => ([1], [1], 0)) t)
    rw [hsum]
    have h0' := h0
    change rawVolume _ _ _ (fun i => localBallVolume oneRadius.pNorm oneRadius.dim (oneRadius.localRadius [1, 1] (pairwiseRadius (fun i j => if i = j then 0 else 1 / 2) 2) i)) 0 = 0 at h0'
    rw [h0', zero_add, rawVolume, hunits, hr]
    have h1 : (fun t => cellCount euclid oneRadius.pNorm oneRadius.dim [[1 / 4], [3 / 4]] 1 1 (fun _ => ([1], [1], 0)) t) = fun t => t :=
      funext hcount
    rw [h1]
    have e1 : emulateLoop 1 1000 (fun t => t) 0 10 = (100, 100) := by simp [emulateLoop]
    rw [e1]
    have : 0 < localBallVolume oneRadius.pNorm oneRadius.dim 1 := by
      unfold localBallVolume
      have h1 := Real.Gamma_pos_of_pos (show (0 : ℝ) < 1 + 1 / (oneRadius.pNorm : ℝ) by positivity)
      have h2 := Real.Gamma_pos_of_pos (show (0 : ℝ) < 1 + (oneRadius.dim : ℝ) / (oneRadius.pNorm : ℝ) by positivity)
      positivity
    positivity)
  exact ⟨s', h⟩

end Ex

end BET
