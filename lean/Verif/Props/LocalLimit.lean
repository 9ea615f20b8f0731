import Verif.Model.LocalDrawn
import Verif.Lemmas.Batches
import Verif.Props.LpLaws
import Verif.Props.LocalVolume
import Verif.Props.Convergence
import Mathlib.MeasureTheory.Measure.Lebesgue.VolumeOfBalls

/-!
# C149: local volumes converge

The numbers drawn have the laws that numpy documents (`LocalDraws`); those of different samples or rounds may depend on
each other. The estimate of radii that are not positive is a parameter, and so are the radii that `estimate_radii` finds.
-/

set_option autoImplicit false
set_option linter.unusedSectionVars false
set_option linter.unusedSimpArgs false

namespace BET

open Spec MeasureTheory ProbabilityTheory Filter Topology

variable {Ω : Type} [MeasurableSpace Ω] {P : Measure Ω} {d : Nat}

/-! ## Specification -/

namespace Spec

/-- The samples in coordinates relative to the domain. -/
noncomputable def relativeSamples (s : SampleSet ℝ) (D : List (ℝ × ℝ)) : List (List ℝ) :=
  (s.glob.values.getD []).map fun x => List.zipWith (fun ab y => (y - ab.1) / (ab.2 - ab.1)) D x

/-- The set with these samples. -/
noncomputable def inUnits (s : SampleSet ℝ) (D : List (ℝ × ℝ)) : SampleSet ℝ :=
  { dim := s.dim, pNorm := s.pNorm, glob := { values := some (relativeSamples s D) } }

/-- The unit cube as a domain. -/
def unitDomain (d : Nat) : List (ℝ × ℝ) := List.replicate d (0, 1)

/-- The points of cell `i`, in relative coordinates, that a ball of radius `r` around its sample can reach. -/
def reachedSet (d : Nat) (G : Geometry ℝ) (s : SampleSet ℝ) (D : List (ℝ × ℝ)) (r : Nat → ℝ) (i : Nat) : Set (Fin d → ℝ) :=
  {y | G.dist s.pNorm (List.ofFn y) ((relativeSamples s D).getD i []) < r i} ∩
    (cellSet d G (inUnits s D) i ∩ domainBox d (unitDomain d))

/-- Distances are those of the `p`-norm. -/
def IsPNorm (d : Nat) (G : Geometry ℝ) (p : Nat) : Prop :=
  ∀ x y : Fin d → ℝ, G.dist p (List.ofFn x) (List.ofFn y) = (∑ i, |x i - y i| ^ (p : ℝ)) ^ (1 / (p : ℝ))

/-- The numbers drawn have the laws that numpy documents, and those of one round are independent. -/
def LocalDraws (P : Measure Ω) (p : ℝ) (draw : ℕ → ℕ → ℕ → Ω → (Fin d → ℝ × ℝ) × ℝ) : Prop :=
  ∀ i t, LpDraws P p 1 (betaMeasure d 1) (draw i t)

end Spec

/-- The numbers drawn for one point, as the model takes them. -/
def asDraw (q : (Fin d → ℝ × ℝ) × ℝ) : LpDraw := (gammas q, normals q, q.2)

/-! ## The loop -/

theorem cellCount_le (G : Geometry ℝ) (p dim : Nat) (pts : List (List ℝ)) (r : ℝ) (i : Nat) (draw : Nat → LpDraw)
    (t : Nat) : cellCount G p dim pts r i draw t ≤ t := by
  unfold cellCount
  exact (List.length_filter_le _ _).trans (by simp)

/-- With larger and larger bounds the loop draws more and more points, and what it returns belongs to the last
round. -/
theorem loop_limit {count : Nat → Nat} (hc : ∀ t, count t ≤ t) {a : ℝ}
    (h : Tendsto (fun n : ℕ => (count (10 ^ n) : ℝ) / (10 ^ n : ℕ)) atTop (𝓝 a)) :
    Tendsto (fun e : ℕ × ℕ => ((emulateLoop e.1 e.2 count 0 10).1 : ℝ) / ((emulateLoop e.1 e.2 count 0 10).2 : ℝ)) atTop
      (𝓝 a) := by
  have key : ∀ e : ℕ × ℕ, ∃ n : ℕ, WhileStops (emulateGuard e.1 e.2) (emulateStep count) (0, 10) n
      (emulateLoop e.1 e.2 count 0 10) ∧ (emulateLoop e.1 e.2 count 0 10).2 = 10 ^ (n + 1) := by
    intro e
    obtain ⟨n, h1, -, h2⟩ := C28_terminates e.1 e.2 count
    exact ⟨n, h1, h2⟩
  choose rounds hstop htot using key
  have hfirst : ∀ e, 0 < rounds e → (emulateLoop e.1 e.2 count 0 10).1 = count (10 ^ (rounds e + 1)) := by
    intro e he
    obtain ⟨n, hn⟩ := Nat.exists_eq_succ_of_ne_zero he.ne'
    have h1 := (hstop e).1
    rw [hn, Function.iterate_succ_apply'] at h1
    have h2 := htot e
    rw [← h1] at h2 ⊢
    simp only [emulateStep] at h2 ⊢
    rw [h2]
  have hlarge : Tendsto rounds atTop atTop := by
    rw [tendsto_atTop]
    intro N
    filter_upwards [eventually_ge_atTop ((10 ^ (N + 2) + 1, 10 ^ (N + 2) + 1) : ℕ × ℕ)] with e he
    by_contra hlt
    push Not at hlt
    obtain ⟨-, hng, -⟩ := hstop e
    refine hng ⟨?_, ?_⟩
    · rcases Nat.eq_zero_or_pos (rounds e) with h0 | h0
      · have h1 := (hstop e).1
        rw [h0] at h1
        rw [← h1]
        simp only [Function.iterate_zero, id_eq]
        exact lt_of_lt_of_le (Nat.succ_pos _) he.1
      · rw [hfirst e h0]
        have h2 : 10 ^ (rounds e + 1) ≤ 10 ^ (N + 2) := Nat.pow_le_pow_right (by norm_num) (by omega)
        have h3 := he.1
        have h4 := hc (10 ^ (rounds e + 1))
        simp only at h3
        omega
    · rw [htot e]
      have h2 : 10 ^ (rounds e + 1) ≤ 10 ^ (N + 2) := Nat.pow_le_pow_right (by norm_num) (by omega)
      have h3 := he.2
      simp only at h3
      omega
  have h1 : Tendsto (fun e => rounds e + 1) atTop atTop := (tendsto_add_atTop_nat 1).comp hlarge
  refine (h.comp h1).congr' ?_
  filter_upwards [hlarge.eventually_gt_atTop 0] with e he
  rw [hfirst e he, htot e]
  rfl

/-! ## One sample -/

/-- Sample `i` in relative coordinates. -/
noncomputable def unitVec (d : Nat) (s : SampleSet ℝ) (D : List (ℝ × ℝ)) (i : Nat) : Fin d → ℝ :=
  fun j => ((relativeSamples s D).getD i []).getD j 0

theorem relativeSamples_row {s : SampleSet ℝ} {D : List (ℝ × ℝ)} {v : List (List ℝ)} (hv : s.glob.values = some v)
    (hrow : ∀ x ∈ v, x.length = d) (hD : D.length = d) {i : Nat} (hi : i < v.length) :
    (relativeSamples s D).getD i [] = List.ofFn (unitVec d s D i) := by
  have hl : ((relativeSamples s D).getD i []).length = d := by
    rw [relativeSamples, hv, Option.getD_some, List.getD_eq_getElem?_getD, List.getElem?_map,
      List.getElem?_eq_getElem hi]
    simp [hD, hrow _ (List.getElem_mem hi)]
  apply List.ext_getElem
  · simpa using hl
  · intro k h1 h2
    rw [List.getElem_ofFn, unitVec]
    dsimp only
    rw [List.getD_eq_getElem?_getD (l := (relativeSamples s D).getD i []), List.getElem?_eq_getElem h1, Option.getD_some]

theorem ball_iff {p : ℝ} (hp : 0 < p) {r : ℝ} (hr : 0 < r) (c y : Fin d → ℝ) :
    y ∈ pBall p (fun _ => r) c ↔ (∑ i, |y i - c i| ^ p) ^ (1 / p) < r := by
  rw [← mem_pBall hp]
  have e : (fun i => (y i - c i) / r) = r⁻¹ • fun i => y i - c i := by
    funext i
    simp [div_eq_inv_mul]
  rw [e, pNorm_smul hp _ _ (inv_pos.2 hr), inv_mul_lt_iff₀ hr, mul_one]
  rfl

theorem ball_volume {p r : ℝ} (hr : 0 < r) (c : Fin d → ℝ) :
    volume.real (pBall p (fun _ => r) c) = r ^ d * volume.real (pBall p (fun _ => 1) (0 : Fin d → ℝ)) := by
  have h1 := map_toBox (a := c) (b := fun j => c j + r) (d := d) fun j => by linarith
  have h2 : Measure.map (toBox c fun j => c j + r) volume (pBall p (fun _ => r) c) =
      ((ENNReal.ofReal (∏ j : Fin d, (c j + r - c j)))⁻¹ • (volume : Measure (Fin d → ℝ))) (pBall p (fun _ => r) c) := by
    rw [h1]
  rw [Measure.map_apply (measurable_toBox _ _) (measurable_pBall _ _), Measure.smul_apply, smul_eq_mul] at h2
  have h3 : toBox c (fun j => c j + r) ⁻¹' pBall p (fun _ => r) c = pBall p (fun _ => 1) (0 : Fin d → ℝ) := by
    ext u
    simp only [pBall, toBox, Set.mem_preimage, Set.mem_ofPred_eq]
    have e : ∀ j, ((c j + r - c j) * u j + c j - c j) / r = (u j - (0 : Fin d → ℝ) j) / 1 := by
      intro j
      simp only [Pi.zero_apply]
      field_simp
      ring
    simp only [e]
  rw [h3] at h2
  simp only [add_sub_cancel_left, Finset.prod_const, Finset.card_univ, Fintype.card_fin] at h2
  rw [measureReal_def, measureReal_def, h2, ENNReal.toReal_mul, ENNReal.toReal_inv, ENNReal.toReal_ofReal (by positivity),
    ← mul_assoc, mul_inv_cancel₀ (by positivity), one_mul]

theorem unitDomain_proper (d : Nat) : ProperBox d (unitDomain d) :=
  ⟨by simp [unitDomain], fun ab h => by rw [unitDomain] at h; rw [List.eq_of_mem_replicate h]; norm_num⟩

theorem unitDomain_box (d : Nat) : domainBox d (unitDomain d) = Set.univ.pi fun _ => Set.Ico (0 : ℝ) 1 := by
  rw [domainBox_eq (unitDomain_proper d).1]
  congr 1
  funext j
  simp [unitDomain, List.getD_eq_getElem?_getD]

theorem unit_closed_ae (d : Nat) : {y : Fin d → ℝ | ∀ j, 0 ≤ y j ∧ y j ≤ 1} =ᵐ[volume] domainBox d (unitDomain d) := by
  rw [unitDomain_box]
  have e : {y : Fin d → ℝ | ∀ j, 0 ≤ y j ∧ y j ≤ 1} = Set.Icc (fun _ => 0) (fun _ => 1) := by
    ext y
    simp [Set.mem_Icc, Pi.le_def, forall_and]
  rw [e]
  exact (Measure.univ_pi_Ico_ae_eq_Icc (μ := fun _ : Fin d => (volume : Measure ℝ))).symm

/-- The points that are counted for sample `i`. -/
def countedSet (d : Nat) (G : Geometry ℝ) (p : Nat) (pts : List (List ℝ)) (r : ℝ) (i : Nat) : Set (Fin d → ℝ) :=
  {y | (∀ j, 0 ≤ y j ∧ y j ≤ 1) ∧ nnWithin G p pts r (List.ofFn y) = i}

theorem foundIn_ofFn (G : Geometry ℝ) (p : Nat) (pts : List (List ℝ)) (r : ℝ) (i : Nat) (y : Fin d → ℝ) :
    foundIn G p pts r i (.ok (List.ofFn y)) = true ↔ y ∈ countedSet d G p pts r i := by
  simp [foundIn, countedSet, List.all_eq_true, List.mem_ofFn]

theorem counted_ae {G : Geometry ℝ} (hG : Sound G) {s : SampleSet ℝ} {D : List (ℝ × ℝ)}
    (hcl : ClearCells G (inUnits s D) (volume.restrict (domainBox d (unitDomain d)))) {r : Nat → ℝ} {i : Nat}
    (hi : i < (relativeSamples s D).length) :
    countedSet d G s.pNorm (relativeSamples s D) (r i) i =ᵐ[volume] reachedSet d G s D r i := by
  have hbox : MeasurableSet (domainBox d (unitDomain d)) := by
    rw [unitDomain_box]; exact MeasurableSet.univ_pi fun j => measurableSet_Ico
  have h1 := (ae_restrict_iff' hbox).1 hcl.one
  have hne : relativeSamples s D ≠ [] := List.ne_nil_of_length_pos (by omega)
  filter_upwards [h1, unit_closed_ae d] with y hy hcube
  have hcube : (∀ j, 0 ≤ y j ∧ y j ≤ 1) ↔ y ∈ domainBox d (unitDomain d) := hcube.to_iff
  have hcell : ∀ j, IsCell G (inUnits s D) (List.ofFn y) j ↔
      IsNearest (G.dist s.pNorm) (relativeSamples s D) (List.ofFn y) j := by
    intro j
    simp [IsCell, inUnits]
  have hnn := hG s.pNorm (relativeSamples s D) (List.ofFn y) hne
  have hlt : G.nn s.pNorm (relativeSamples s D) (List.ofFn y) < (relativeSamples s D).length := by
    obtain ⟨c, hc, -⟩ := hnn
    exact (List.getElem?_eq_some_iff.1 hc).1
  refine propext ⟨fun h => ?_, fun h => ?_⟩
  · obtain ⟨h2, h3⟩ : (∀ j, 0 ≤ y j ∧ y j ≤ 1) ∧ nnWithin G s.pNorm (relativeSamples s D) (r i) (List.ofFn y) = i := h
    unfold nnWithin at h3
    split_ifs at h3 with h4
    · rw [h3] at h4 hnn
      exact ⟨h4, (hcell i).2 hnn, hcube.1 h2⟩
    · omega
  · obtain ⟨h2, h3, h4⟩ := h
    have h5 : G.nn s.pNorm (relativeSamples s D) (List.ofFn y) = i := hy h4 _ _ ((hcell _).2 hnn) h3
    refine ⟨hcube.2 h4, ?_⟩
    unfold nnWithin
    rw [h5]
    exact if_pos h2

theorem cellCount_sum (G : Geometry ℝ) (p dim : Nat) (pts : List (List ℝ)) (r : ℝ) (i : Nat) (draw : Nat → LpDraw)
    (X : ℕ → Fin d → ℝ)
    (h : ∀ k, lpUniform p (draw k).1 (draw k).2.1 (draw k).2.2 (List.replicate dim r) (pts.getD i []) = .ok (List.ofFn (X k)))
    (t : Nat) :
    (cellCount G p dim pts r i draw t : ℝ) = ∑ k ∈ Finset.range t, ind (countedSet d G p pts r i) (X k) := by
  classical
  unfold cellCount
  simp only [h]
  induction t with
  | zero => simp
  | succ t ih =>
    rw [List.range_succ, List.filter_append, List.length_append, Nat.cast_add, ih, Finset.sum_range_succ]
    congr 1
    by_cases hx : X t ∈ countedSet d G p pts r i
    · have h1 := (foundIn_ofFn G p pts r i _).2 hx
      rw [ind, Set.indicator_of_mem hx]
      simp [h1]
    · have h1 : foundIn G p pts r i (.ok (List.ofFn (X t))) = false :=
        Bool.eq_false_iff.2 fun hh => hx ((foundIn_ofFn G p pts r i _).1 hh)
      rw [ind, Set.indicator_of_notMem hx]
      simp [h1]

theorem reached_meas {G : Geometry ℝ} {s : SampleSet ℝ} (hp : 0 < s.pNorm) (hN : IsPNorm d G s.pNorm) {D : List (ℝ × ℝ)} {v : List (List ℝ)}
    (hv : s.glob.values = some v) (hrow : ∀ x ∈ v, x.length = d) (hD : D.length = d)
    (hcl : ClearCells G (inUnits s D) (volume.restrict (domainBox d (unitDomain d)))) {r : Nat → ℝ} {i : Nat}
    (hi : i < v.length) (hr : 0 < r i) :
    NullMeasurableSet (reachedSet d G s D r i) ∧
      reachedSet d G s D r i = pBall s.pNorm (fun _ => r i) (unitVec d s D i) ∩ (cellSet d G (inUnits s D) i ∩ domainBox d (unitDomain d)) := by
  have hbox : MeasurableSet (domainBox d (unitDomain d)) := by
    rw [unitDomain_box]; exact MeasurableSet.univ_pi fun j => measurableSet_Ico
  have e : reachedSet d G s D r i = pBall s.pNorm (fun _ => r i) (unitVec d s D i) ∩ (cellSet d G (inUnits s D) i ∩ domainBox d (unitDomain d)) := by
    unfold reachedSet
    congr 1
    ext y
    rw [ball_iff (Nat.cast_pos.2 hp) hr, Set.mem_ofPred_eq, relativeSamples_row hv hrow hD hi, hN]
  refine ⟨?_, e⟩
  rw [e]
  refine (measurable_pBall _ _).nullMeasurableSet.inter ?_
  exact (nullMeasurableSet_restrict hbox.nullMeasurableSet).1 (hcl.meas i)

/-- The share of the points found for one sample tends to the share of the ball. -/
theorem one_sample [IsProbabilityMeasure P] {G : Geometry ℝ} (hG : Sound G) {s : SampleSet ℝ} (hd : 0 < d) (hdim : s.dim = d)
    (hp : 0 < s.pNorm) (hN : IsPNorm d G s.pNorm) {D : List (ℝ × ℝ)} {v : List (List ℝ)}
    (hv : s.glob.values = some v) (hrow : ∀ x ∈ v, x.length = d) (hD : D.length = d)
    (hcl : ClearCells G (inUnits s D) (volume.restrict (domainBox d (unitDomain d)))) {r : Nat → ℝ} {i : Nat}
    (hi : i < v.length) (hr : 0 < r i) {draw : ℕ → ℕ → ℕ → Ω → (Fin d → ℝ × ℝ) × ℝ}
    (hdraw : LocalDraws P (s.pNorm : ℝ) draw) :
    ∀ᵐ ω ∂P, Tendsto (fun n : ℕ => (cellCount G s.pNorm s.dim (relativeSamples s D) (r i) i
        (fun k => asDraw (draw i (10 ^ n) k ω)) (10 ^ n) : ℝ) / (10 ^ n : ℕ)) atTop
      (𝓝 (volume.real (reachedSet d G s D r i) / volume.real (pBall s.pNorm (fun _ => r i) (unitVec d s D i)))) := by
  have hp' : (0 : ℝ) < s.pNorm := Nat.cast_pos.2 hp
  obtain ⟨hnull, hre⟩ := reached_meas hp hN hv hrow hD hcl hi hr
  have hX := fun n => C148_uniform hp' hd (hdraw i (10 ^ n)) (s := fun _ => r i) (c := unitVec d s D i) fun _ => hr
  choose X h1 h2 h3 using hX
  have hae : countedSet d G s.pNorm (relativeSamples s D) (r i) i =ᵐ[volume] reachedSet d G s D r i :=
    counted_ae hG hcl (by simpa [relativeSamples, hv] using hi)
  have hac : volume[|pBall (s.pNorm : ℝ) (fun _ => r i) (unitVec d s D i)] ≪ (volume : Measure (Fin d → ℝ)) :=
    cond_absolutelyContinuous
  have hfreq := batch_frequency (Z := X) (fun n k => ⟨(h3 n k).1.aemeasurable, (h3 n k).2⟩) h2
    ((hnull.congr hae.symm).mono_ac hac)
  have hval : (volume[|pBall (s.pNorm : ℝ) (fun _ => r i) (unitVec d s D i)]).real
      (countedSet d G s.pNorm (relativeSamples s D) (r i) i) =
      volume.real (reachedSet d G s D r i) / volume.real (pBall s.pNorm (fun _ => r i) (unitVec d s D i)) := by
    rw [measureReal_congr (hac.ae_le hae), measureReal_def, cond_apply (measurable_pBall _ _), ENNReal.toReal_mul,
      ENNReal.toReal_inv, inv_mul_eq_div, Set.inter_eq_self_of_subset_right (by rw [hre]; exact Set.inter_subset_left)]
    rfl
  rw [hval] at hfreq
  filter_upwards [hfreq, ae_all_iff.2 fun n => ae_all_iff.2 (h1 n)] with ω h4 h5
  refine h4.congr fun n => ?_
  rw [cellCount_sum G s.pNorm s.dim (relativeSamples s D) (r i) i _ fun k => X n k ω]
  intro k
  have := h5 n k
  rw [relativeSamples_row hv hrow hD hi, hdim]
  simpa [asDraw, List.ofFn_const] using this

/-! ## All samples -/

theorem unitSamples_eq {s : SampleSet ℝ} {D : List (ℝ × ℝ)} (hdom : s.domain = some D) :
    s.unitSamples = relativeSamples s D := by
  unfold SampleSet.unitSamples relativeSamples unitCoords
  rw [hdom]
  rfl

theorem unit_ball_volume {p : ℝ} (hp : 1 ≤ p) :
    volume.real (pBall p (fun _ => 1) (0 : Fin d → ℝ)) =
      (2 * Real.Gamma (1 + 1 / p)) ^ d / Real.Gamma (1 + (d : ℝ) / p) := by
  have h := volume_sum_rpow_lt_one (ι := Fin d) hp
  have e : pBall p (fun _ => 1) (0 : Fin d → ℝ) = {x | ∑ i, |x i| ^ p < 1} := by
    ext x
    simp [pBall]
  have hp0 : 0 < p := by linarith
  have h1 := Real.Gamma_pos_of_pos (show 0 < 1 / p + 1 by positivity)
  have h2 := Real.Gamma_pos_of_pos (show 0 < (d : ℝ) / p + 1 by positivity)
  rw [measureReal_def, e, h, ENNReal.toReal_ofReal (by rw [Fintype.card_fin]; positivity), Fintype.card_fin, add_comm 1,
    add_comm 1]

/-- **C149.** `estimate_local_volume` on any number of processes, with balls of any positive radii: when both bounds
on the numbers of points grow, the volume of every cell tends, with probability one, to the volume of the part of the
cell that its ball reaches, relative to the total of these volumes. -/
theorem C149_reached [IsProbabilityMeasure P] {G : Geometry ℝ} (hG : Sound G) {s : SampleSet ℝ} {m : Nat} (hd : 0 < d)
    (hc : Consistent s m) (hdim : s.dim = d) {v : List (List ℝ)} (hv : s.glob.values = some v) {D : List (ℝ × ℝ)}
    (hdom : s.domain = some D) (hD : ProperBox d D) (hp : 0 < s.pNorm) (hN : IsPNorm d G s.pNorm) {size : Nat}
    (hsize : 0 < size) {rad : List ℝ} (hrad : rad.length = m) {other : Nat → ℝ}
    (hr : ∀ i < m, 0 < s.localRadius rad other i)
    (hcl : ClearCells G (inUnits s D) (volume.restrict (domainBox d (unitDomain d))))
    {draw : ℕ → ℕ → ℕ → Ω → (Fin d → ℝ × ℝ) × ℝ} (hdraw : LocalDraws P (s.pNorm : ℝ) draw)
    (hpos : ∑ j ∈ Finset.range m, volume.real (reachedSet d G s D (s.localRadius rad other) j) ≠ 0) :
    ∀ᵐ ω ∂P, (∀ᶠ e : ℕ × ℕ in atTop, ∃ s', s.estimateLocalVolumeDrawn G size rad other
        (fun i t k => asDraw (draw i t k ω)) e.1 e.2 = .ok s') ∧
      ∀ i < m, Tendsto (fun e : ℕ × ℕ => (cellVolume (s.estimateLocalVolumeDrawn G size rad other
        (fun i t k => asDraw (draw i t k ω)) e.1 e.2) i).getD 0) atTop
        (𝓝 (volume.real (reachedSet d G s D (s.localRadius rad other) i) /
          ∑ j ∈ Finset.range m, volume.real (reachedSet d G s D (s.localRadius rad other) j))) := by
  have hp' : (0 : ℝ) < s.pNorm := Nat.cast_pos.2 hp
  have hvl : v.length = m := hc.1.values v hv
  have hrow : ∀ x ∈ v, x.length = d := fun x hx => by rw [← hdim]; exact hc.2.2 v hv x hx
  set r := s.localRadius rad other with hrdef
  set κ : ℝ := Real.Gamma (1 + 1 / (s.pNorm : ℝ)) / Real.Gamma (1 + (d : ℝ) / (s.pNorm : ℝ)) with hκ
  have hκp : 0 < κ := div_pos (Real.Gamma_pos_of_pos (by positivity)) (Real.Gamma_pos_of_pos (by positivity))
  set V := volume.real (pBall (s.pNorm : ℝ) (fun _ => 1) (0 : Fin d → ℝ)) with hV
  have hVp : 0 < V := by
    rw [hV, unit_ball_volume (by exact_mod_cast hp)]
    exact div_pos (pow_pos (mul_pos two_pos (Real.Gamma_pos_of_pos (by positivity))) _) (Real.Gamma_pos_of_pos (by positivity))
  have hone : ∀ᵐ ω ∂P, ∀ i < m, Tendsto (fun n : ℕ => (cellCount G s.pNorm s.dim (relativeSamples s D) (r i) i
        (fun k => asDraw (draw i (10 ^ n) k ω)) (10 ^ n) : ℝ) / (10 ^ n : ℕ)) atTop
      (𝓝 (volume.real (reachedSet d G s D r i) / volume.real (pBall s.pNorm (fun _ => r i) (unitVec d s D i)))) := by
    refine ae_all_iff.2 fun i => ?_
    by_cases hi : i < m
    · filter_upwards [one_sample hG hd hdim hp hN hv hrow hD.1 hcl (r := r) (by rw [hvl]; exact hi) (hr i hi) hdraw] with ω h _
      exact h
    · exact Eventually.of_forall fun ω h => absurd h hi
  filter_upwards [hone] with ω hω
  set bv : Nat → ℝ := fun i => localBallVolume s.pNorm s.dim (r i) with hbv
  set cnt : Nat → Nat → Nat := fun i t => cellCount G s.pNorm s.dim (relativeSamples s D) (r i) i
    (fun k => asDraw (draw i t k ω)) t with hcnt
  have hcall : ∀ e : ℕ × ℕ, s.estimateLocalVolumeDrawn G size rad other (fun i t k => asDraw (draw i t k ω)) e.1 e.2 =
      s.estimateLocalVolume size rad bv cnt e.1 e.2 := by
    intro e
    rw [SampleSet.estimateLocalVolumeDrawn, unitSamples_eq hdom]
  have hraw : ∀ i < m, Tendsto (fun e : ℕ × ℕ => rawVolume e.1 e.2 cnt bv i) atTop
      (𝓝 (κ / V * volume.real (reachedSet d G s D r i))) := by
    intro i hi
    have h1 := (loop_limit (count := cnt i) (fun t => cellCount_le _ _ _ _ _ _ _ _) (hω i hi)).const_mul (bv i)
    have hri := hr i hi
    have h2 : bv i * (volume.real (reachedSet d G s D r i) / volume.real (pBall s.pNorm (fun _ => r i) (unitVec d s D i))) =
        κ / V * volume.real (reachedSet d G s D r i) := by
      rw [ball_volume hri, ← hV, hbv, hκ]
      dsimp only
      rw [localBallVolume, hdim]
      have : (r i) ^ d ≠ 0 := (pow_pos hri d).ne'
      field_simp
    rw [h2] at h1
    refine h1.congr fun e => ?_
    rw [rawVolume, mul_div_assoc]
  have htotal : Tendsto (fun e : ℕ × ℕ => ((List.range m).map (rawVolume e.1 e.2 cnt bv)).sum) atTop
      (𝓝 (κ / V * ∑ j ∈ Finset.range m, volume.real (reachedSet d G s D r j))) := by
    rw [Finset.mul_sum]
    have h1 : Tendsto (fun e : ℕ × ℕ => ∑ j ∈ Finset.range m, rawVolume e.1 e.2 cnt bv j) atTop
        (𝓝 (∑ j ∈ Finset.range m, κ / V * volume.real (reachedSet d G s D r j))) :=
      tendsto_finsetSum _ fun j hj => hraw j (Finset.mem_range.1 hj)
    refine h1.congr fun e => ?_
    rw [Finset.sum_range, ← List.sum_ofFn, List.ofFn_eq_map, ← List.map_coe_finRange_eq_range, List.map_map]
    rfl
  have hne : κ / V * ∑ j ∈ Finset.range m, volume.real (reachedSet d G s D r j) ≠ 0 :=
    mul_ne_zero (div_pos hκp hVp).ne' hpos
  have hev : ∀ᶠ e : ℕ × ℕ in atTop, ((List.range m).map (rawVolume e.1 e.2 cnt bv)).sum ≠ 0 :=
    htotal.eventually_ne hne
  have hok := fun e : ℕ × ℕ => (estimateLocalVolume_ok hsize hc (by rw [hv]; rfl) (by rw [hdom]; rfl) hrad bv cnt e.1 e.2).2
  refine ⟨?_, fun i hi => ?_⟩
  · filter_upwards [hev] with e he
    obtain ⟨s', -, -, h1, -⟩ := hok e he
    exact ⟨s', by rw [hcall]; exact h1⟩
  · have hlim := (hraw i hi).div htotal hne
    rw [mul_div_mul_left _ _ (div_pos hκp hVp).ne'] at hlim
    refine hlim.congr' ?_
    filter_upwards [hev] with e he
    obtain ⟨s', vol, l, h1, h2, h3, -⟩ := hok e he
    rw [hcall, cellVolume, h1]
    simp only [Except.toOption, Option.bind_some, h2, h3, List.getElem?_map, List.getElem?_range hi, Option.map_some,
      Option.getD_some, Pi.div_apply]

/-! ## Balls that cover the cells -/

theorem unit_box_volume (d : Nat) : volume (domainBox d (unitDomain d)) = 1 := by
  rw [unitDomain_box, volume_pi_pi]
  simp

/-- The cells fill the cube. -/
theorem sum_unitCells {G : Geometry ℝ} (hG : Sound G) {s : SampleSet ℝ} {D : List (ℝ × ℝ)} {m : Nat}
    (hm : (relativeSamples s D).length = m) (hpos : 0 < m)
    (hcl : ClearCells G (inUnits s D) (volume.restrict (domainBox d (unitDomain d)))) :
    ∑ i ∈ Finset.range m, volume.real (cellSet d G (inUnits s D) i ∩ domainBox d (unitDomain d)) = 1 := by
  have hbox : MeasurableSet (domainBox d (unitDomain d)) := by
    rw [unitDomain_box]; exact MeasurableSet.univ_pi fun j => measurableSet_Ico
  have hone := (ae_restrict_iff' hbox).1 hcl.one
  have hdis : ((Finset.range m : Set ℕ)).Pairwise
      (Function.onFun (AEDisjoint volume) fun i => cellSet d G (inUnits s D) i ∩ domainBox d (unitDomain d)) := by
    intro i _ j _ hij
    change volume _ = 0
    refine measure_mono_null ?_ (ae_iff.1 hone)
    rintro x ⟨⟨h1, h2⟩, h3, -⟩ hx
    exact hij (hx h2 _ _ h1 h3)
  have hmeas : ∀ i ∈ Finset.range m, NullMeasurableSet (cellSet d G (inUnits s D) i ∩ domainBox d (unitDomain d)) volume :=
    fun i _ => (nullMeasurableSet_restrict hbox.nullMeasurableSet).1 (hcl.meas i)
  have h1 := measure_biUnion_finset₀ hdis hmeas
  have h2 : (⋃ i ∈ Finset.range m, cellSet d G (inUnits s D) i ∩ domainBox d (unitDomain d)) = domainBox d (unitDomain d) := by
    ext x
    simp only [Set.mem_iUnion, Set.mem_inter_iff, Finset.mem_range]
    constructor
    · rintro ⟨i, -, -, h⟩
      exact h
    · intro h
      have hn := hG s.pNorm (relativeSamples s D) (List.ofFn x) (List.ne_nil_of_length_pos (by omega))
      refine ⟨G.nn s.pNorm (relativeSamples s D) (List.ofFn x), ?_, ?_, h⟩
      · obtain ⟨c, hc, -⟩ := hn
        rw [← hm]
        exact (List.getElem?_eq_some_iff.1 hc).1
      · simpa [cellSet, IsCell, inUnits] using hn
  rw [h2, unit_box_volume] at h1
  simp only [measureReal_def]
  rw [← ENNReal.toReal_sum, ← h1, ENNReal.toReal_one]
  intro i _
  exact ne_top_of_le_ne_top (by simp [unit_box_volume d]) (measure_mono (Set.inter_subset_right (t := domainBox d (unitDomain d))))

/-- The ball of sample `i` covers its cell. -/
def Spec.CoversCell (d : Nat) (G : Geometry ℝ) (s : SampleSet ℝ) (D : List (ℝ × ℝ)) (r : Nat → ℝ) (i : Nat) : Prop :=
  ∀ y : Fin d → ℝ, y ∈ cellSet d G (inUnits s D) i → y ∈ domainBox d (unitDomain d) →
    G.dist s.pNorm (List.ofFn y) ((relativeSamples s D).getD i []) < r i

theorem covers_reached {G : Geometry ℝ} {s : SampleSet ℝ} {D : List (ℝ × ℝ)} {r : Nat → ℝ} {i : Nat}
    (h : CoversCell d G s D r i) :
    reachedSet d G s D r i = cellSet d G (inUnits s D) i ∩ domainBox d (unitDomain d) := by
  unfold reachedSet
  rw [Set.inter_eq_right]
  rintro y ⟨h1, h2⟩
  exact h y h1 h2

/-- **C149.** If every ball covers its cell, the volumes tend to those of the cells in coordinates relative to the
domain. -/
theorem C149_covered [IsProbabilityMeasure P] {G : Geometry ℝ} (hG : Sound G) {s : SampleSet ℝ} {m : Nat} (hd : 0 < d)
    (hm : 0 < m) (hc : Consistent s m) (hdim : s.dim = d) {v : List (List ℝ)} (hv : s.glob.values = some v)
    {D : List (ℝ × ℝ)} (hdom : s.domain = some D) (hD : ProperBox d D) (hp : 0 < s.pNorm) (hN : IsPNorm d G s.pNorm)
    {size : Nat} (hsize : 0 < size) {rad : List ℝ} (hrad : rad.length = m) {other : Nat → ℝ}
    (hr : ∀ i < m, 0 < s.localRadius rad other i)
    (hcl : ClearCells G (inUnits s D) (volume.restrict (domainBox d (unitDomain d))))
    {draw : ℕ → ℕ → ℕ → Ω → (Fin d → ℝ × ℝ) × ℝ} (hdraw : LocalDraws P (s.pNorm : ℝ) draw)
    (hcov : ∀ i < m, CoversCell d G s D (s.localRadius rad other) i) :
    ∀ᵐ ω ∂P, (∀ᶠ e : ℕ × ℕ in atTop, ∃ s', s.estimateLocalVolumeDrawn G size rad other
        (fun i t k => asDraw (draw i t k ω)) e.1 e.2 = .ok s') ∧
      ∀ i < m, Tendsto (fun e : ℕ × ℕ => (cellVolume (s.estimateLocalVolumeDrawn G size rad other
        (fun i t k => asDraw (draw i t k ω)) e.1 e.2) i).getD 0) atTop
        (𝓝 (relativeVolume d G (inUnits s D) (unitDomain d) i)) := by
  have hl : (relativeSamples s D).length = m := by simpa [relativeSamples, hv] using hc.1.values v hv
  have hsum : ∑ j ∈ Finset.range m, volume.real (reachedSet d G s D (s.localRadius rad other) j) = 1 := by
    rw [← sum_unitCells hG hl hm hcl]
    exact Finset.sum_congr rfl fun j hj => by rw [covers_reached (hcov j (Finset.mem_range.1 hj))]
  have h := C149_reached hG hd hc hdim hv hdom hD hp hN hsize hrad hr hcl hdraw (by rw [hsum]; exact one_ne_zero)
  filter_upwards [h] with ω hω
  refine ⟨hω.1, fun i hi => ?_⟩
  have h1 := hω.2 i hi
  rw [hsum, div_one, covers_reached (hcov i hi)] at h1
  rw [relativeVolume, measureReal_def (s := domainBox d (unitDomain d)), unit_box_volume, ENNReal.toReal_one, div_one]
  exact h1

/-! ## Cubes -/

theorem cell_measurable_of {G : Geometry ℝ} {s : SampleSet ℝ} (hk : s.kind = .voronoi) {v : List (List ℝ)}
    (hv : s.glob.values = some v) {i : Nat} (hi : i < v.length)
    (hmeas : ∀ c ∈ v, Measurable fun x : Fin d → ℝ => G.dist s.pNorm (List.ofFn x) c) :
    MeasurableSet (cellSet d G s i) := by
  have e : cellSet d G s i = ⋂ c ∈ {c | c ∈ v}, {x : Fin d → ℝ | G.dist s.pNorm (List.ofFn x) v[i] ≤ G.dist s.pNorm (List.ofFn x) c} := by
    ext x
    simp only [cellSet, IsCell, hk, Set.mem_ofPred_eq, Set.mem_iInter]
    constructor
    · intro h
      obtain ⟨c, h1, h2⟩ := h v hv
      rw [List.getElem?_eq_getElem hi] at h1
      cases h1
      exact h2
    · intro h v' hv'
      rw [hv] at hv'
      cases hv'
      exact ⟨v[i], List.getElem?_eq_getElem hi, h⟩
  rw [e]
  exact MeasurableSet.biInter (List.finite_toSet v).countable fun c hc =>
    measurableSet_le (hmeas _ (List.getElem_mem hi)) (hmeas c hc)

theorem cell_measurable {G : Geometry ℝ} {s : SampleSet ℝ} (hk : s.kind = .voronoi) (hN : IsPNorm d G s.pNorm)
    {v : List (List ℝ)} (hv : s.glob.values = some v) (hrow : ∀ x ∈ v, x.length = d) {i : Nat} (hi : i < v.length) :
    MeasurableSet (cellSet d G s i) := by
  have hform : ∀ c ∈ v, ∃ c' : Fin d → ℝ, c = List.ofFn c' := by
    intro c hc
    have hl := hrow c hc
    subst hl
    exact ⟨fun j => c[j], by simp⟩
  have hmeas : ∀ c ∈ v, Measurable fun x : Fin d → ℝ => G.dist s.pNorm (List.ofFn x) c := by
    intro c hc
    obtain ⟨c', rfl⟩ := hform c hc
    have e : (fun x : Fin d → ℝ => G.dist s.pNorm (List.ofFn x) (List.ofFn c')) =
        fun x => (∑ i, |x i - c' i| ^ (s.pNorm : ℝ)) ^ (1 / (s.pNorm : ℝ)) := funext fun x => hN x c'
    rw [e]
    fun_prop
  exact cell_measurable_of hk hv hi hmeas

/-- Every side of the domain has the length `w`. -/
def Spec.Cubic (D : List (ℝ × ℝ)) (w : ℝ) : Prop := ∀ ab ∈ D, ab.2 - ab.1 = w

/-- If distances follow the scale, the cells in relative coordinates are the cells. -/
theorem cubic_cell_of {G : Geometry ℝ} {s : SampleSet ℝ} (hk : s.kind = .voronoi) {v : List (List ℝ)}
    (hv : s.glob.values = some v) {D : List (ℝ × ℝ)} {w : ℝ} (hw : 0 < w) (i : Nat)
    (hdist : ∀ (u : Fin d → ℝ) (c : List ℝ), c ∈ v → G.dist s.pNorm (List.ofFn (boxMap D u)) c =
      w * G.dist s.pNorm (List.ofFn u) (List.zipWith (fun ab y => (y - ab.1) / (ab.2 - ab.1)) D c)) :
    boxMap D ⁻¹' cellSet d G s i = cellSet d G (inUnits s D) i := by
  ext u
  have hu : (inUnits s D).kind = .voronoi := rfl
  have huv : (inUnits s D).glob.values = some (relativeSamples s D) := rfl
  simp only [Set.mem_preimage, cellSet, IsCell, hk, hu, Set.mem_ofPred_eq, hv, huv, Option.some.injEq, forall_eq']
  unfold IsNearest
  have hrel : relativeSamples s D = v.map (List.zipWith (fun ab y => (y - ab.1) / (ab.2 - ab.1)) D) := by
    rw [relativeSamples, hv]; rfl
  rw [hrel]
  constructor
  · rintro ⟨c, h1, h2⟩
    refine ⟨_, by rw [List.getElem?_map, h1]; rfl, ?_⟩
    intro c' hc'
    obtain ⟨b, hb, rfl⟩ := List.mem_map.1 hc'
    have h3 := h2 b hb
    rw [hdist _ _ hb, hdist _ _ (List.mem_of_getElem? h1)] at h3
    exact le_of_mul_le_mul_left h3 hw
  · rintro ⟨c, h1, h2⟩
    rw [List.getElem?_map] at h1
    obtain ⟨b, hb, rfl⟩ := Option.map_eq_some_iff.1 h1
    refine ⟨b, hb, fun b' hb' => ?_⟩
    rw [hdist _ _ hb', hdist _ _ (List.mem_of_getElem? hb)]
    exact mul_le_mul_of_nonneg_left (h2 _ (List.mem_map_of_mem hb')) hw.le

theorem cubic_cell {G : Geometry ℝ} {s : SampleSet ℝ} (hk : s.kind = .voronoi) (hp : 0 < s.pNorm)
    (hN : IsPNorm d G s.pNorm) {v : List (List ℝ)} (hv : s.glob.values = some v) (hrow : ∀ x ∈ v, x.length = d)
    {D : List (ℝ × ℝ)} (hD : ProperBox d D) {w : ℝ} (hw : 0 < w) (hcube : Cubic D w) (i : Nat) :
    boxMap D ⁻¹' cellSet d G s i = cellSet d G (inUnits s D) i := by
  have hp' : (0 : ℝ) < s.pNorm := Nat.cast_pos.2 hp
  have hwj : ∀ j : Fin d, (D.getD j (0, 0)).2 - (D.getD j (0, 0)).1 = w := by
    intro j
    have hj : (j : ℕ) < D.length := by rw [hD.1]; exact j.2
    rw [List.getD_eq_getElem?_getD, List.getElem?_eq_getElem hj, Option.getD_some]
    exact hcube _ (List.getElem_mem hj)
  have hdist : ∀ (u : Fin d → ℝ) (c : List ℝ), c ∈ v → G.dist s.pNorm (List.ofFn (boxMap D u)) c =
      w * G.dist s.pNorm (List.ofFn u) (List.zipWith (fun ab y => (y - ab.1) / (ab.2 - ab.1)) D c) := by
    intro u c hc
    have hl := hrow c hc
    have e1 : c = List.ofFn fun j : Fin d => c.getD j 0 := by
      apply List.ext_getElem
      · simpa using hl
      · intro k h1 h2
        simp [List.getD_eq_getElem?_getD, h1]
    have e2 : List.zipWith (fun ab y => (y - ab.1) / (ab.2 - ab.1)) D c =
        List.ofFn fun j : Fin d => (c.getD j 0 - (D.getD j (0, 0)).1) / w := by
      apply List.ext_getElem
      · simp [hD.1, hl]
      · intro k h1 h2
        have hk1 : k < D.length := by simp at h1; omega
        have hk2 : k < c.length := by simp at h1; omega
        have := hwj ⟨k, by rw [← hl]; exact hk2⟩
        simp [List.getD_eq_getElem?_getD, hk1, hk2] at this ⊢
        rw [this]
    rw [e2, hN]
    conv_lhs => rw [e1, hN]
    have e3 : ∀ j : Fin d, |boxMap D u j - c.getD j 0| ^ (s.pNorm : ℝ) =
        w ^ (s.pNorm : ℝ) * |u j - (c.getD j 0 - (D.getD j (0, 0)).1) / w| ^ (s.pNorm : ℝ) := by
      intro j
      rw [← Real.mul_rpow hw.le (abs_nonneg _)]
      congr 1
      rw [show w * |u j - (c.getD j 0 - (D.getD j (0, 0)).1) / w| = |w * (u j - (c.getD j 0 - (D.getD j (0, 0)).1) / w)| by
        rw [abs_mul, abs_of_pos hw], boxMap, toBox, hwj j]
      congr 1
      field_simp
      ring
    simp only [e3]
    rw [← Finset.mul_sum, Real.mul_rpow (by positivity) (Finset.sum_nonneg fun j _ => by positivity), ← Real.rpow_mul hw.le,
      mul_one_div_cancel hp'.ne', Real.rpow_one]
  exact cubic_cell_of hk hv hw i hdist

/-- If the cells in relative coordinates are the cells, they have the same volumes, relative to the domain. -/
theorem cubic_volume_of {G : Geometry ℝ} {s : SampleSet ℝ} {D : List (ℝ × ℝ)} (hD : ProperBox d D) {i : Nat}
    (hms : MeasurableSet (cellSet d G s i)) (h3 : boxMap D ⁻¹' cellSet d G s i = cellSet d G (inUnits s D) i) :
    relativeVolume d G (inUnits s D) (unitDomain d) i = relativeVolume d G s D i := by
  have hlt : ∀ j : Fin d, (D.getD j (0, 0)).1 < (D.getD j (0, 0)).2 := by
    intro j
    have hj : (j : ℕ) < D.length := by rw [hD.1]; exact j.2
    rw [List.getD_eq_getElem?_getD, List.getElem?_eq_getElem hj, Option.getD_some]
    exact hD.2 _ (List.getElem_mem hj)
  have h1 := map_toBox_cube hlt
  have h2 := law_real (A := cellSet d G s i) (B := domainBox d D) (by rw [domainBox_eq hD.1]; exact MeasurableSet.univ_pi fun j => measurableSet_Ico)
  rw [domainBox_eq hD.1, ← h1, measureReal_def, Measure.map_apply (measurable_toBox _ _) hms] at h2
  rw [boxMap] at h3
  rw [h3, Measure.restrict_apply' (MeasurableSet.univ_pi fun j => measurableSet_Ico), ← unitDomain_box, ← domainBox_eq hD.1] at h2
  rw [relativeVolume, relativeVolume, ← h2, measureReal_def (s := domainBox d (unitDomain d)), unit_box_volume,
    ENNReal.toReal_one, div_one, measureReal_def]

/-- In a cube the cells in relative coordinates have the volumes of the cells, relative to the domain. -/
theorem cubic_volume {G : Geometry ℝ} {s : SampleSet ℝ} (hk : s.kind = .voronoi) (hp : 0 < s.pNorm)
    (hN : IsPNorm d G s.pNorm) {v : List (List ℝ)} (hv : s.glob.values = some v) (hrow : ∀ x ∈ v, x.length = d)
    {D : List (ℝ × ℝ)} (hD : ProperBox d D) {w : ℝ} (hw : 0 < w) (hcube : Cubic D w) {i : Nat} (hi : i < v.length) :
    relativeVolume d G (inUnits s D) (unitDomain d) i = relativeVolume d G s D i :=
  cubic_volume_of hD (cell_measurable hk hN hv hrow hi) (cubic_cell hk hp hN hv hrow hD hw hcube i)

/-- **C149.** If moreover all sides of the domain have the same length, they tend to the volumes of the cells, relative
to the domain. -/
theorem C149_cubic [IsProbabilityMeasure P] {G : Geometry ℝ} (hG : Sound G) {s : SampleSet ℝ} {m : Nat} (hd : 0 < d)
    (hm : 0 < m) (hc : Consistent s m) (hk : s.kind = .voronoi) (hdim : s.dim = d) {v : List (List ℝ)}
    (hv : s.glob.values = some v)
    {D : List (ℝ × ℝ)} (hdom : s.domain = some D) (hD : ProperBox d D) {w : ℝ} (hcube : Cubic D w) (hp : 0 < s.pNorm)
    (hN : IsPNorm d G s.pNorm)
    {size : Nat} (hsize : 0 < size) {rad : List ℝ} (hrad : rad.length = m) {other : Nat → ℝ}
    (hr : ∀ i < m, 0 < s.localRadius rad other i)
    (hcl : ClearCells G (inUnits s D) (volume.restrict (domainBox d (unitDomain d))))
    {draw : ℕ → ℕ → ℕ → Ω → (Fin d → ℝ × ℝ) × ℝ} (hdraw : LocalDraws P (s.pNorm : ℝ) draw)
    (hcov : ∀ i < m, CoversCell d G s D (s.localRadius rad other) i) :
    ∀ᵐ ω ∂P, ∀ i < m, Tendsto (fun e : ℕ × ℕ => (cellVolume (s.estimateLocalVolumeDrawn G size rad other
        (fun i t k => asDraw (draw i t k ω)) e.1 e.2) i).getD 0) atTop
        (𝓝 (relativeVolume d G s D i)) := by
  have hvl : v.length = m := hc.1.values v hv
  have hrow : ∀ x ∈ v, x.length = d := fun x hx => by rw [← hdim]; exact hc.2.2 v hv x hx
  have hw : 0 < w := by
    have h0 : 0 < D.length := by rw [hD.1]; exact hd
    have h1 := hD.2 _ (List.getElem_mem h0)
    have h2 := hcube _ (List.getElem_mem h0)
    linarith
  filter_upwards [C149_covered hG hd hm hc hdim hv hdom hD hp hN hsize hrad hr hcl hdraw hcov] with ω hω i hi
  rw [← cubic_volume hk hp hN hv hrow hD hw hcube (by rw [hvl]; exact hi)]
  exact hω.2 i hi

/-! ## Balls that do not -/

/-- **C149.** If some ball does not reach all of its cell, the volume of every cell that is covered is overestimated,
however many points are drawn. -/
theorem C149_negation_radius [IsProbabilityMeasure P] {G : Geometry ℝ} (hG : Sound G) {s : SampleSet ℝ} {m : Nat} (hd : 0 < d)
    (hc : Consistent s m) (hdim : s.dim = d) {v : List (List ℝ)} (hv : s.glob.values = some v)
    {D : List (ℝ × ℝ)} (hdom : s.domain = some D) (hD : ProperBox d D) (hp : 0 < s.pNorm) (hN : IsPNorm d G s.pNorm)
    {size : Nat} (hsize : 0 < size) {rad : List ℝ} (hrad : rad.length = m) {other : Nat → ℝ}
    (hr : ∀ i < m, 0 < s.localRadius rad other i)
    (hcl : ClearCells G (inUnits s D) (volume.restrict (domainBox d (unitDomain d))))
    {draw : ℕ → ℕ → ℕ → Ω → (Fin d → ℝ × ℝ) × ℝ} (hdraw : LocalDraws P (s.pNorm : ℝ) draw)
    {j : Nat} (hj : j < m) (hcov : CoversCell d G s D (s.localRadius rad other) j)
    (hvol : 0 < relativeVolume d G (inUnits s D) (unitDomain d) j)
    {i : Nat} (hi : i < m) (hmiss : volume.real (reachedSet d G s D (s.localRadius rad other) i) <
      relativeVolume d G (inUnits s D) (unitDomain d) i) :
    ∃ l, relativeVolume d G (inUnits s D) (unitDomain d) j < l ∧
      ∀ᵐ ω ∂P, Tendsto (fun e : ℕ × ℕ => (cellVolume (s.estimateLocalVolumeDrawn G size rad other
        (fun i t k => asDraw (draw i t k ω)) e.1 e.2) j).getD 0) atTop (𝓝 l) := by
  have hl : (relativeSamples s D).length = m := by simpa [relativeSamples, hv] using hc.1.values v hv
  have hrel : ∀ k, relativeVolume d G (inUnits s D) (unitDomain d) k =
      volume.real (cellSet d G (inUnits s D) k ∩ domainBox d (unitDomain d)) := by
    intro k
    rw [relativeVolume, measureReal_def (s := domainBox d (unitDomain d)), unit_box_volume, ENNReal.toReal_one, div_one]
  have hle : ∀ k, volume.real (reachedSet d G s D (s.localRadius rad other) k) ≤
      relativeVolume d G (inUnits s D) (unitDomain d) k := by
    intro k
    rw [hrel]
    refine measureReal_mono Set.inter_subset_right ?_
    exact ne_top_of_le_ne_top (by simp [unit_box_volume d]) (measure_mono (Set.inter_subset_right (t := domainBox d (unitDomain d))))
  have hj1 : volume.real (reachedSet d G s D (s.localRadius rad other) j) = relativeVolume d G (inUnits s D) (unitDomain d) j := by
    rw [covers_reached hcov, hrel]
  set S := ∑ k ∈ Finset.range m, volume.real (reachedSet d G s D (s.localRadius rad other) k) with hS
  have hS1 : S < 1 := by
    rw [← sum_unitCells hG hl (by omega) hcl, hS]
    exact Finset.sum_lt_sum (fun k _ => (hle k).trans_eq (hrel k)) ⟨i, Finset.mem_range.2 hi, hmiss.trans_eq (hrel i)⟩
  have hS0 : 0 < S := by
    refine lt_of_lt_of_le ?_ (Finset.single_le_sum (f := fun k => volume.real (reachedSet d G s D (s.localRadius rad other) k))
      (fun k _ => measureReal_nonneg) (Finset.mem_range.2 hj))
    simpa only [hj1] using hvol
  refine ⟨relativeVolume d G (inUnits s D) (unitDomain d) j / S, ?_, ?_⟩
  · rw [lt_div_iff₀ hS0]
    exact mul_lt_of_lt_one_right hvol hS1
  · filter_upwards [C149_reached hG hd hc hdim hv hdom hD hp hN hsize hrad hr hcl hdraw hS0.ne'] with ω hω
    have := hω.2 j hj
    rwa [hj1] at this

/-- **C149.** The radii are those that the set has, or 1.5 times those that `estimate_radii` finds. -/
theorem C149_radii {s : SampleSet ℝ} (rad : List ℝ) (other : Nat → ℝ) {i : Nat} {x : ℝ} :
    (∀ l, s.glob.normalizedRadii = some l → l[i]? = some x → 0 < x → s.localRadius rad other i = x) ∧
      (s.glob.normalizedRadii = none → rad[i]? = some x → 0 < x → s.localRadius rad other i = 3 / 2 * x) := by
  constructor
  · intro l hl hx h0
    have : (s.localRadii rad).getD i 0 = x := by
      unfold SampleSet.localRadii
      rw [hl]
      simp [List.getD_eq_getElem?_getD, hx]
    rw [SampleSet.localRadius, this, if_neg (not_le.2 h0)]
  · intro hl hx h0
    have : (s.localRadii rad).getD i 0 = 3 / 2 * x := by
      unfold SampleSet.localRadii
      rw [hl]
      simp [List.getD_eq_getElem?_getD, hx]
    rw [SampleSet.localRadius, this, if_neg (not_le.2 (by positivity))]

/-- **C149.** The volume that the code uses for a ball is not that of the ball, except in one dimension up to the
factor 2: the factor is `2^d Γ(1+1/p)^(d-1)`. It is the same for all balls and cancels. -/
theorem C149_ball {p : ℝ} (hp : 1 ≤ p) {r : ℝ} (hr : 0 < r) (c : Fin (d + 1) → ℝ) :
    volume.real (pBall p (fun _ => r) c) = 2 ^ (d + 1) * Real.Gamma (1 + 1 / p) ^ d * localBallVolume p (d + 1) r := by
  have hp0 : 0 < p := by linarith
  rw [ball_volume hr, unit_ball_volume hp, localBallVolume]
  rw [mul_pow, pow_succ (Real.Gamma _)]
  ring

/-! ## Examples -/

namespace Ex

theorem euclid_pNorm (d : Nat) : IsPNorm d euclid 2 := by
  intro x y
  rw [euclid_dist, Real.sqrt_eq_rpow]
  simp

/-- Two samples in a long rectangle, with radii. -/
noncomputable def longSet : SampleSet ℝ :=
  { dim := 2, pNorm := 2, domain := some [(0, 8), (0, 1)],
    glob := { values := some [[0, 0], [2, 1]], normalizedRadii := some [2, 2] } }

theorem long_relative : relativeSamples longSet [(0, 8), (0, 1)] = [[0, 0], [1 / 4, 1]] := by
  simp only [relativeSamples, longSet, Option.getD_some, List.map_cons, List.map_nil, List.zipWith_cons_cons, List.zipWith_nil_left]
  norm_num

theorem long_clear : ClearCells euclid (inUnits longSet [(0, 8), (0, 1)]) (volume.restrict (domainBox 2 (unitDomain 2))) := by
  refine C130_clear_euclidean rfl (v := [[0, 0], [1 / 4, 1]]) (by rw [← long_relative]; rfl) (by simp) (by simp)
    (fun x c => euclid_dist _ x c) _

theorem long_radius (i : Nat) (hi : i < 2) : longSet.localRadius [1, 1] (fun _ => 0) i = 2 := by
  interval_cases i <;> simp [SampleSet.localRadius, SampleSet.localRadii, longSet]

theorem long_covers (i : Nat) (hi : i < 2) : CoversCell 2 euclid longSet [(0, 8), (0, 1)] (longSet.localRadius [1, 1] fun _ => 0) i := by
  intro y _ hy
  rw [unitDomain_box] at hy
  have h0 := hy 0 trivial
  have h1 := hy 1 trivial
  simp only [Set.mem_Ico] at h0 h1
  rw [long_radius i hi, long_relative]
  have hlt : ∀ a b : ℝ, 0 ≤ a → a ≤ 1 → 0 ≤ b → b ≤ 1 → euclid.dist longSet.pNorm (List.ofFn y) [a, b] < 2 := by
    intro a b ha0 ha1 hb0 hb1
    have e : ([a, b] : List ℝ) = List.ofFn ![a, b] := by simp
    rw [e, euclid_dist, Real.sqrt_lt' (by norm_num)]
    simp only [Fin.sum_univ_two, Matrix.cons_val_zero, Matrix.cons_val_one]
    nlinarith
  interval_cases i
  · simpa using hlt 0 0 (by norm_num) (by norm_num) (by norm_num) (by norm_num)
  · simpa using hlt (1 / 4) 1 (by norm_num) (by norm_num) (by norm_num) (by norm_num)

/-- Draws for all samples and rounds. -/
theorem localDraws (d : ℕ) (hd : 0 < d) {p : ℝ} (hp : 0 < p) :
    ∃ (Ω : Type) (_ : MeasurableSpace Ω) (P : Measure Ω) (D : ℕ → ℕ → ℕ → Ω → (Fin d → ℝ × ℝ) × ℝ),
      IsProbabilityMeasure P ∧ LocalDraws P p D := by
  have := isProbabilityMeasureBeta (α := (d : ℕ)) (β := 1) (by exact_mod_cast hd) one_pos
  obtain ⟨Ω, _, P, D, hP, h⟩ := lpDraws d hp one_pos (betaMeasure (d : ℕ) 1)
  exact ⟨Ω, _, P, fun _ _ => D, hP, fun _ _ => h⟩

/-- Hypotheses of `C149_reached` and `C149_covered`. -/
example : ∃ (Ω : Type) (_ : MeasurableSpace Ω) (P : Measure Ω) (draw : ℕ → ℕ → ℕ → Ω → (Fin 2 → ℝ × ℝ) × ℝ),
    IsProbabilityMeasure P ∧ ∀ᵐ ω ∂P, ∀ i < 2, Tendsto (fun e : ℕ × ℕ => (cellVolume (longSet.estimateLocalVolumeDrawn
      euclid 3 [1, 1] (fun _ => 0) (fun i t k => asDraw (draw i t k ω)) e.1 e.2) i).getD 0) atTop
      (𝓝 (relativeVolume 2 euclid (inUnits longSet [(0, 8), (0, 1)]) (unitDomain 2) i)) := by
  obtain ⟨Ω, _, P, D, hP, h⟩ := localDraws 2 (by norm_num) (p := (2 : ℕ)) (by norm_num)
  refine ⟨Ω, _, P, D, hP, ?_⟩
  filter_upwards [C149_covered euclid_sound (d := 2) (by norm_num) (by norm_num)
    (SampleSet.consistent_of_checkNum (size := 1) rfl rfl : Consistent longSet 2) rfl rfl rfl ⟨rfl, by simp⟩ (by norm_num [longSet])
    (euclid_pNorm 2) (size := 3) (by norm_num) (rad := [1, 1]) rfl (other := fun _ => 0)
    (fun i hi => by rw [long_radius i hi]; norm_num) long_clear h long_covers] with ω hω
  exact hω.2

end Ex

open Ex in
/-- **C149.** If the sides of the domain have different lengths, the limits are not the volumes of the cells that
queries find: cells are formed in coordinates relative to the domain. -/
theorem C149_negation_shape [IsProbabilityMeasure P] {size : Nat} (hsize : 0 < size)
    {draw : ℕ → ℕ → ℕ → Ω → (Fin 2 → ℝ × ℝ) × ℝ} (hdraw : LocalDraws P (2 : ℕ) draw) :
    ∃ l, relativeVolume 2 euclid longSet [(0, 8), (0, 1)] 0 + 1 / 8 ≤ l ∧
      ∀ᵐ ω ∂P, Tendsto (fun e : ℕ × ℕ => (cellVolume (longSet.estimateLocalVolumeDrawn
        euclid size [1, 1] (fun _ => 0) (fun i t k => asDraw (draw i t k ω)) e.1 e.2) 0).getD 0) atTop (𝓝 l) := by
  refine ⟨relativeVolume 2 euclid (inUnits longSet [(0, 8), (0, 1)]) (unitDomain 2) 0, ?_, ?_⟩
  · have hlow : 9 / 32 ≤ relativeVolume 2 euclid (inUnits longSet [(0, 8), (0, 1)]) (unitDomain 2) 0 := by
      rw [relativeVolume, measureReal_def (s := domainBox 2 (unitDomain 2)), unit_box_volume, ENNReal.toReal_one, div_one]
      have hv : volume.real (Set.univ.pi ![Set.Ico (0 : ℝ) 1, Set.Ico (0 : ℝ) (9 / 32)]) = 9 / 32 := by
        rw [measureReal_def, volume_pi_pi]
        simp
        norm_num
      rw [← hv]
      refine measureReal_mono ?_ ?_
      · intro y hy
        have h0 := hy 0 trivial
        have h1 := hy 1 trivial
        simp only [Matrix.cons_val_zero, Matrix.cons_val_one, Set.mem_Ico] at h0 h1
        refine ⟨?_, ?_⟩
        · simp only [cellSet, IsCell, inUnits, Set.mem_ofPred_eq, long_relative, Option.some.injEq, forall_eq']
          refine ⟨[0, 0], rfl, ?_⟩
          have e1 : ([0, 0] : List ℝ) = List.ofFn ![(0 : ℝ), 0] := by simp
          have e2 : ([1 / 4, 1] : List ℝ) = List.ofFn ![(1 / 4 : ℝ), 1] := by simp
          intro c hc
          simp only [List.mem_cons, List.not_mem_nil, or_false] at hc
          rcases hc with rfl | rfl
          · exact le_rfl
          · rw [e1, e2, euclid_dist, euclid_dist]
            refine Real.sqrt_le_sqrt ?_
            simp only [Fin.sum_univ_two, Matrix.cons_val_zero, Matrix.cons_val_one]
            nlinarith
        · rw [unitDomain_box]
          intro j _
          fin_cases j
          · exact h0
          · exact ⟨h1.1, by simp only [Fin.mk_one]; linarith [h1.2]⟩
      · exact ne_top_of_le_ne_top (by simp [unit_box_volume 2]) (measure_mono (Set.inter_subset_right (t := domainBox 2 (unitDomain 2))))
    have hup : relativeVolume 2 euclid longSet [(0, 8), (0, 1)] 0 ≤ 5 / 32 := by
      have hb : domainBox 2 [((0 : ℝ), (8 : ℝ)), (0, 1)] = Set.univ.pi ![Set.Ico (0 : ℝ) 8, Set.Ico (0 : ℝ) 1] := by
        rw [domainBox_eq (d := 2) rfl]
        congr 1
        funext j
        fin_cases j <;> simp
      have hbv : volume.real (domainBox 2 [((0 : ℝ), (8 : ℝ)), (0, 1)]) = 8 := by
        rw [hb, measureReal_def, volume_pi_pi]
        simp
      rw [relativeVolume, hbv, div_le_iff₀ (by norm_num)]
      have hv : volume.real (Set.univ.pi ![Set.Icc (0 : ℝ) (5 / 4), Set.Icc (0 : ℝ) 1]) = 5 / 4 := by
        rw [measureReal_def, volume_pi_pi]
        simp
        norm_num
      refine (measureReal_mono (μ := volume) (s₂ := Set.univ.pi ![Set.Icc (0 : ℝ) (5 / 4), Set.Icc (0 : ℝ) 1]) ?_ ?_).trans ?_
      · rintro y ⟨h1, h2⟩
        rw [hb] at h2
        have h3 := h2 0 trivial
        have h4 := h2 1 trivial
        simp only [Matrix.cons_val_zero, Matrix.cons_val_one, Set.mem_Ico] at h3 h4
        simp only [cellSet, IsCell, longSet, Set.mem_ofPred_eq, Option.some.injEq, forall_eq'] at h1
        obtain ⟨c, hc, h5⟩ := h1
        simp only [List.getElem?_cons_zero, Option.some.injEq] at hc
        subst hc
        have e1 : ([0, 0] : List ℝ) = List.ofFn ![(0 : ℝ), 0] := by simp
        have e2 : ([2, 1] : List ℝ) = List.ofFn ![(2 : ℝ), 1] := by simp
        have h6 := h5 [2, 1] (by simp)
        rw [e1, e2, euclid_dist, euclid_dist, Real.sqrt_le_sqrt_iff (by positivity)] at h6
        simp only [Fin.sum_univ_two, Matrix.cons_val_zero, Matrix.cons_val_one] at h6
        intro j _
        fin_cases j
        · exact ⟨h3.1, by simp only [Fin.zero_eta]; nlinarith⟩
        · exact ⟨h4.1, h4.2.le⟩
      · rw [volume_pi_pi]
        simp
      · rw [hv]
        norm_num
    linarith
  · filter_upwards [C149_covered euclid_sound (d := 2) (by norm_num) (by norm_num)
      (SampleSet.consistent_of_checkNum (size := 1) rfl rfl : Consistent longSet 2) rfl rfl rfl ⟨rfl, by simp⟩ (by norm_num [longSet])
      (euclid_pNorm 2) hsize (rad := [1, 1]) rfl (other := fun _ => 0)
      (fun i hi => by rw [long_radius i hi]; norm_num) long_clear hdraw long_covers] with ω hω
    exact hω.2 0 (by norm_num)

namespace Ex

/-- Two samples in a square, with radii. -/
noncomputable def boxedSet : SampleSet ℝ :=
  { dim := 2, pNorm := 2, domain := some [(0, 4), (1, 5)],
    glob := { values := some [[1, 2], [3, 2]], normalizedRadii := some [2, 2] } }

theorem boxed_relative : relativeSamples boxedSet [(0, 4), (1, 5)] = [[1 / 4, 1 / 4], [3 / 4, 1 / 4]] := by
  simp only [relativeSamples, boxedSet, Option.getD_some, List.map_cons, List.map_nil, List.zipWith_cons_cons, List.zipWith_nil_left]
  norm_num

/-- Hypotheses of `C149_radii`. -/
example : (∃ l, longSet.glob.normalizedRadii = some l ∧ l[1]? = some 2 ∧ (0 : ℝ) < 2) ∧
    planeSet.glob.normalizedRadii = none :=
  ⟨⟨[2, 2], rfl, rfl, by norm_num⟩, rfl⟩

/-- Hypotheses of `C149_cubic`. -/
example : Consistent boxedSet 2 ∧ ProperBox 2 [(0, 4), (1, 5)] ∧ Cubic [(0, 4), (1, 5)] 4 ∧ IsPNorm 2 euclid boxedSet.pNorm ∧
    (∀ i < 2, 0 < boxedSet.localRadius [1, 1] (fun _ => 0) i) ∧
    ClearCells euclid (inUnits boxedSet [(0, 4), (1, 5)]) (volume.restrict (domainBox 2 (unitDomain 2))) ∧
    ∀ i < 2, CoversCell 2 euclid boxedSet [(0, 4), (1, 5)] (boxedSet.localRadius [1, 1] fun _ => 0) i := by
  have hr : ∀ i < 2, boxedSet.localRadius [1, 1] (fun _ => 0) i = 2 := by
    intro i hi
    interval_cases i <;> simp [SampleSet.localRadius, SampleSet.localRadii, boxedSet]
  refine ⟨SampleSet.consistent_of_checkNum (size := 1) rfl rfl, ⟨rfl, by intro ab h; simp at h; rcases h with rfl | rfl <;> norm_num⟩,
    by intro ab h; simp at h; rcases h with rfl | rfl <;> norm_num, euclid_pNorm 2,
    fun i hi => by rw [hr i hi]; norm_num,
    C130_clear_euclidean rfl (v := [[1 / 4, 1 / 4], [3 / 4, 1 / 4]]) (by rw [← boxed_relative]; rfl) (by simp)
      (by norm_num) (fun x c => euclid_dist _ x c) _, ?_⟩
  intro i hi y _ hy
  rw [unitDomain_box] at hy
  have h0 := hy 0 trivial
  have h1 := hy 1 trivial
  simp only [Set.mem_Ico] at h0 h1
  rw [hr i hi, boxed_relative]
  have hlt : ∀ a b : ℝ, 0 ≤ a → a ≤ 1 → 0 ≤ b → b ≤ 1 → euclid.dist boxedSet.pNorm (List.ofFn y) [a, b] < 2 := by
    intro a b ha0 ha1 hb0 hb1
    have e : ([a, b] : List ℝ) = List.ofFn ![a, b] := by simp
    rw [e, euclid_dist, Real.sqrt_lt' (by norm_num)]
    simp only [Fin.sum_univ_two, Matrix.cons_val_zero, Matrix.cons_val_one]
    nlinarith
  interval_cases i
  · simpa using hlt (1 / 4) (1 / 4) (by norm_num) (by norm_num) (by norm_num) (by norm_num)
  · simpa using hlt (3 / 4) (1 / 4) (by norm_num) (by norm_num) (by norm_num) (by norm_num)

/-- Two samples of the unit interval; the second ball is small. -/
noncomputable def smallBall : SampleSet ℝ :=
  { dim := 1, pNorm := 2, domain := some [(0, 1)],
    glob := { values := some [[1 / 4], [3 / 4]], normalizedRadii := some [1, 1 / 8] } }

theorem small_relative : relativeSamples smallBall [(0, 1)] = [[1 / 4], [3 / 4]] := by
  simp only [relativeSamples, smallBall, Option.getD_some, List.map_cons, List.map_nil, List.zipWith_cons_cons, List.zipWith_nil_left]
  norm_num

/-- Hypotheses of `C149_negation_radius`. -/
example : CoversCell 1 euclid smallBall [(0, 1)] (smallBall.localRadius [1, 1] fun _ => 0) 0 ∧
    0 < relativeVolume 1 euclid (inUnits smallBall [(0, 1)]) (unitDomain 1) 0 ∧
    volume.real (reachedSet 1 euclid smallBall [(0, 1)] (smallBall.localRadius [1, 1] fun _ => 0) 1) <
      relativeVolume 1 euclid (inUnits smallBall [(0, 1)]) (unitDomain 1) 1 := by
  have hdist : ∀ (y : Fin 1 → ℝ) (a : ℝ), euclid.dist smallBall.pNorm (List.ofFn y) [a] = |y 0 - a| := by
    intro y a
    have e : ([a] : List ℝ) = List.ofFn ![a] := by simp
    rw [e, euclid_dist, Fin.sum_univ_one, Real.sqrt_sq_eq_abs]
    simp
  have hcell : ∀ y : Fin 1 → ℝ, (y ∈ cellSet 1 euclid (inUnits smallBall [(0, 1)]) 0 ↔ |y 0 - 1 / 4| ≤ |y 0 - 3 / 4|) ∧
      (y ∈ cellSet 1 euclid (inUnits smallBall [(0, 1)]) 1 ↔ |y 0 - 3 / 4| ≤ |y 0 - 1 / 4|) := by
    intro y
    simp only [cellSet, IsCell, inUnits, Set.mem_ofPred_eq, small_relative, Option.some.injEq, forall_eq', IsNearest]
    refine ⟨⟨?_, fun h => ⟨[1 / 4], rfl, ?_⟩⟩, ⟨?_, fun h => ⟨[3 / 4], rfl, ?_⟩⟩⟩
    · rintro ⟨c, hc, h⟩
      simp only [List.getElem?_cons_zero, Option.some.injEq] at hc
      subst hc
      have := h [3 / 4] (by simp)
      rwa [hdist, hdist] at this
    · intro c hc
      simp only [List.mem_cons, List.not_mem_nil, or_false] at hc
      rcases hc with rfl | rfl
      · exact le_rfl
      · rw [hdist, hdist]; exact h
    · rintro ⟨c, hc, h⟩
      simp only [List.getElem?_cons_succ, List.getElem?_cons_zero, Option.some.injEq] at hc
      subst hc
      have := h [1 / 4] (by simp)
      rwa [hdist, hdist] at this
    · intro c hc
      simp only [List.mem_cons, List.not_mem_nil, or_false] at hc
      rcases hc with rfl | rfl
      · rw [hdist, hdist]; exact h
      · exact le_rfl
  have hint : ∀ a b : ℝ, volume.real (Set.univ.pi fun _ : Fin 1 => Set.Ioo a b) = max (b - a) 0 := by
    intro a b
    rw [measureReal_def, volume_pi_pi]
    simp [ENNReal.toReal_ofReal']
  have hfin : ∀ k, volume (cellSet 1 euclid (inUnits smallBall [(0, 1)]) k ∩ domainBox 1 (unitDomain 1)) ≠ ⊤ := fun k =>
    ne_top_of_le_ne_top (by simp [unit_box_volume 1]) (measure_mono (Set.inter_subset_right (t := domainBox 1 (unitDomain 1))))
  have hrel : ∀ k, relativeVolume 1 euclid (inUnits smallBall [(0, 1)]) (unitDomain 1) k =
      volume.real (cellSet 1 euclid (inUnits smallBall [(0, 1)]) k ∩ domainBox 1 (unitDomain 1)) := by
    intro k
    rw [relativeVolume, measureReal_def (s := domainBox 1 (unitDomain 1)), unit_box_volume, ENNReal.toReal_one, div_one]
  have hlow : ∀ (k : Nat) (a b : ℝ), 0 ≤ a → b ≤ 1 → (∀ y : Fin 1 → ℝ, a < y 0 → y 0 < b →
      y ∈ cellSet 1 euclid (inUnits smallBall [(0, 1)]) k) →
      max (b - a) 0 ≤ relativeVolume 1 euclid (inUnits smallBall [(0, 1)]) (unitDomain 1) k := by
    intro k a b ha hb h
    rw [hrel, ← hint]
    refine measureReal_mono (fun y hy => ?_) (hfin k)
    have h0 := hy 0 trivial
    simp only [Set.mem_Ioo] at h0
    refine ⟨h y h0.1 h0.2, ?_⟩
    rw [unitDomain_box]
    intro j _
    fin_cases j
    exact ⟨by simp only [Fin.zero_eta]; linarith, by simp only [Fin.zero_eta]; linarith⟩
  refine ⟨?_, ?_, ?_⟩
  · intro y _ hy
    rw [unitDomain_box] at hy
    have h0 := hy 0 trivial
    simp only [Set.mem_Ico] at h0
    rw [small_relative]
    have : smallBall.localRadius [1, 1] (fun _ => 0) 0 = 1 := by simp [SampleSet.localRadius, SampleSet.localRadii, smallBall]
    rw [this]
    have := hdist y (1 / 4)
    simp only [List.getD_cons_zero]
    rw [this, abs_lt]
    constructor <;> linarith
  · refine lt_of_lt_of_le ?_ (hlow 0 0 (1 / 2) le_rfl (by norm_num) fun y h1 h2 => (hcell y).1.2 ?_)
    · norm_num
    · exact sq_le_sq.1 (by nlinarith)
  · refine lt_of_le_of_lt (b := 1 / 4) ?_ (lt_of_lt_of_le ?_ (hlow 1 (1 / 2) 1 (by norm_num) le_rfl fun y h1 h2 => (hcell y).2.2 ?_))
    · have hv : volume.real (Set.univ.pi fun _ : Fin 1 => Set.Ioo (5 / 8 : ℝ) (7 / 8)) = 1 / 4 := by
        rw [hint]; norm_num
      rw [← hv]
      refine measureReal_mono (fun y hy => ?_) (by rw [volume_pi_pi]; simp)
      have h1 := hy.1
      rw [small_relative] at h1
      have hr : smallBall.localRadius [1, 1] (fun _ => 0) 1 = 1 / 8 := by
        simp [SampleSet.localRadius, SampleSet.localRadii, smallBall]
      have h2 : euclid.dist smallBall.pNorm (List.ofFn y) [3 / 4] < 1 / 8 := by rw [← hr]; exact h1
      rw [hdist, abs_lt] at h2
      intro j _
      fin_cases j
      exact ⟨by simp only [Fin.zero_eta]; linarith, by simp only [Fin.zero_eta]; linarith⟩
    · norm_num
    · exact sq_le_sq.1 (by nlinarith)

end Ex

end BET
