import Verif.Model.Draws
import Verif.Lemmas.Shares
import Verif.Props.Volumes
import Verif.Lemmas.CheckNum
import Mathlib.MeasureTheory.Measure.Lebesgue.EqHaar
import Mathlib.MeasureTheory.Constructions.BorelSpace.Basic
import Mathlib.Probability.Independence.InfinitePi
import Mathlib.Data.List.MinMax

/-!
# C130: Monte Carlo volumes converge

The random numbers are now random: `P` is a probability on the sample space `Ω`, and what the processes draw are
random variables on it.
-/

set_option linter.unusedSectionVars false
set_option linter.unusedSimpArgs false
set_option autoImplicit false

namespace BET

open Spec MeasureTheory ProbabilityTheory Filter Topology

variable {Ω : Type} [MeasurableSpace Ω] {P : Measure Ω} {d : Nat}

/-! ## Specification -/

namespace Spec

/-- The points of the domain `D`: in direction `j` from `D[j].1` to `D[j].2`, without the right end. -/
def domainBox (d : Nat) (D : List (ℝ × ℝ)) : Set (Fin d → ℝ) :=
  {x | ∀ (j : Fin d) ab, D[(j : ℕ)]? = some ab → x j ∈ Set.Ico ab.1 ab.2}

/-- The points that belong to cell `i`. -/
def cellSet (d : Nat) (G : Geometry ℝ) (s : SampleSet ℝ) (i : Nat) : Set (Fin d → ℝ) :=
  {x | IsCell G s (List.ofFn x) i}

/-- The rows of random numbers that the processes draw: each is uniform on the unit cube (`np.random.random`), and
those of one process are pairwise independent. Nothing is said about rows of different processes, which may have the
same seed. -/
structure UniformRows (P : Measure Ω) (U : ℕ → ℕ → Ω → Fin d → ℝ) : Prop where
  law : ∀ r k, HasLaw (U r k) (volume.restrict (Set.univ.pi fun _ => Set.Ico (0 : ℝ) 1)) P
  indep : ∀ r, Pairwise fun j k => IndepFun (U r j) (U r k) P

/-- The same, where all rows of all processes are independent. -/
structure IndependentRows (P : Measure Ω) (U : ℕ → ℕ → Ω → Fin d → ℝ) : Prop where
  law : ∀ r k, HasLaw (U r k) (volume.restrict (Set.univ.pi fun _ => Set.Ico (0 : ℝ) 1)) P
  indep : iIndepFun (fun rk : ℕ × ℕ => U rk.1 rk.2) P

/-- The cells are clear for a measure: almost every point belongs to one cell only, and the cells have a measure. -/
structure ClearCells (G : Geometry ℝ) (s : SampleSet ℝ) (μ : Measure (Fin d → ℝ)) : Prop where
  one : ∀ᵐ x ∂μ, ∀ i j, IsCell G s (List.ofFn x) i → IsCell G s (List.ofFn x) j → i = j
  meas : ∀ i, NullMeasurableSet (cellSet d G s i) μ

/-- The volume of cell `i` after a call. -/
def cellVolume (r : Except Err (SampleSet ℝ)) (i : Nat) : Option ℝ :=
  r.toOption.bind fun s => s.glob.volumes.bind fun v => v[i]?

/-- `D` is a box with `d` sides of positive length. -/
def ProperBox (d : Nat) (D : List (ℝ × ℝ)) : Prop := D.length = d ∧ ∀ ab ∈ D, ab.1 < ab.2

/-- The part of the domain that belongs to cell `i`, relative to the whole domain. -/
noncomputable def relativeVolume (d : Nat) (G : Geometry ℝ) (s : SampleSet ℝ) (D : List (ℝ × ℝ)) (i : Nat) : ℝ :=
  volume.real (cellSet d G s i ∩ domainBox d D) / volume.real (domainBox d D)

end Spec

/-! ## The law of the points -/

/-- The map from the unit cube to the box. -/
def toBox (a b : Fin d → ℝ) (u : Fin d → ℝ) : Fin d → ℝ := fun j => (b j - a j) * u j + a j

theorem measurable_toBox (a b : Fin d → ℝ) : Measurable (toBox a b) := by
  unfold toBox
  fun_prop

theorem map_toBox {a b : Fin d → ℝ} (h : ∀ j, a j < b j) :
    Measure.map (toBox a b) volume = (ENNReal.ofReal (∏ j, (b j - a j)))⁻¹ • volume := by
  have hpos : 0 < ∏ j, (b j - a j) := Finset.prod_pos fun j _ => by linarith [h j]
  have hdet : (Matrix.diagonal fun j => b j - a j).det ≠ 0 := by
    rw [Matrix.det_diagonal]; exact hpos.ne'
  have h1 := Real.smul_map_diagonal_volume_pi hdet
  rw [Matrix.det_diagonal, abs_of_pos hpos] at h1
  have hne : ENNReal.ofReal (∏ j, (b j - a j)) ≠ 0 := by
    simpa using hpos
  have h2 : Measure.map (Matrix.toLin' (Matrix.diagonal fun j => b j - a j)) volume =
      (ENNReal.ofReal (∏ j, (b j - a j)))⁻¹ • (volume : Measure (Fin d → ℝ)) := by
    rw [← h1, smul_smul, ENNReal.inv_mul_cancel hne ENNReal.ofReal_ne_top, one_smul]
    rw [h1]
  have h3 : toBox a b = (fun x => x + a) ∘ Matrix.toLin' (Matrix.diagonal fun j => b j - a j) := by
    funext u j
    simp [toBox, Matrix.toLin'_apply, Matrix.mulVec_diagonal]
  have hm : Measurable (Matrix.toLin' (Matrix.diagonal fun j => b j - a j) : (Fin d → ℝ) → Fin d → ℝ) :=
    (LinearMap.continuous_on_pi _).measurable
  rw [h3, ← Measure.map_map (measurable_add_const a) hm, h2, Measure.map_smul, map_add_right_eq_self]

theorem toBox_preimage {a b : Fin d → ℝ} (h : ∀ j, a j < b j) :
    toBox a b ⁻¹' (Set.univ.pi fun j => Set.Ico (a j) (b j)) = Set.univ.pi fun _ => Set.Ico (0 : ℝ) 1 := by
  ext u
  simp only [Set.mem_preimage, Set.mem_univ_pi, Set.mem_Ico, toBox]
  refine forall_congr' fun j => ?_
  have hw : 0 < b j - a j := by linarith [h j]
  constructor
  · rintro ⟨h1, h2⟩
    refine ⟨?_, ?_⟩
    · by_contra hn; push Not at hn
      nlinarith
    · by_contra hn; push Not at hn
      nlinarith
  · rintro ⟨h1, h2⟩
    refine ⟨?_, ?_⟩ <;> nlinarith

/-- The law of the image of a uniform row is uniform on the box. -/
theorem map_toBox_cube {a b : Fin d → ℝ} (h : ∀ j, a j < b j) :
    Measure.map (toBox a b) (volume.restrict (Set.univ.pi fun _ => Set.Ico (0 : ℝ) 1)) =
      (volume (Set.univ.pi fun j => Set.Ico (a j) (b j)))⁻¹ •
        volume.restrict (Set.univ.pi fun j => Set.Ico (a j) (b j)) := by
  have hbox : MeasurableSet (Set.univ.pi fun j => Set.Ico (a j) (b j)) :=
    MeasurableSet.univ_pi fun j => measurableSet_Ico
  rw [← toBox_preimage h, ← Measure.restrict_map (measurable_toBox a b) hbox, map_toBox h, Measure.restrict_smul]
  congr 2
  rw [volume_pi_pi]
  simp only [Real.volume_Ico]
  rw [ENNReal.ofReal_prod_of_nonneg fun j _ => by linarith [h j]]

theorem hasLaw_toBox {U : Ω → Fin d → ℝ}
    (hU : HasLaw U (volume.restrict (Set.univ.pi fun _ => Set.Ico (0 : ℝ) 1)) P) {a b : Fin d → ℝ}
    (h : ∀ j, a j < b j) :
    HasLaw (fun ω => toBox a b (U ω)) ((volume (Set.univ.pi fun j => Set.Ico (a j) (b j)))⁻¹ •
        volume.restrict (Set.univ.pi fun j => Set.Ico (a j) (b j))) P :=
  HasLaw.comp (μ := volume.restrict (Set.univ.pi fun _ => Set.Ico (0 : ℝ) 1))
    ⟨(measurable_toBox a b).aemeasurable, map_toBox_cube h⟩ hU

/-- The map of `estimate_volume`. -/
def boxMap (D : List (ℝ × ℝ)) : (Fin d → ℝ) → Fin d → ℝ :=
  toBox (fun j => (D.getD j (0, 0)).1) fun j => (D.getD j (0, 0)).2

theorem measurable_boxMap (D : List (ℝ × ℝ)) : Measurable (boxMap (d := d) D) := measurable_toBox _ _

theorem domainBox_eq {D : List (ℝ × ℝ)} (hD : D.length = d) :
    domainBox d D = Set.univ.pi fun j : Fin d => Set.Ico (D.getD j (0, 0)).1 (D.getD j (0, 0)).2 := by
  ext x
  simp only [domainBox, Set.mem_ofPred_eq, Set.mem_univ_pi]
  refine forall_congr' fun j => ?_
  rw [List.getD_eq_getElem?_getD, List.getElem?_eq_getElem (by omega)]
  simp

theorem boxPoint_ofFn {D : List (ℝ × ℝ)} (hD : D.length = d) (u : Fin d → ℝ) :
    boxPoint D (List.ofFn u) = List.ofFn (boxMap D u) := by
  apply List.ext_getElem
  · simp [boxPoint, hD]
  · intro k h1 h2
    simp only [boxPoint, List.length_zipWith, List.length_ofFn] at h1
    simp [boxPoint, boxMap, toBox, List.getD_eq_getElem?_getD, List.getElem?_eq_getElem (show k < D.length by omega)]

theorem hasLaw_boxMap {U : Ω → Fin d → ℝ}
    (hU : HasLaw U (volume.restrict (Set.univ.pi fun _ => Set.Ico (0 : ℝ) 1)) P) {D : List (ℝ × ℝ)}
    (hD : ProperBox d D) :
    HasLaw (fun ω => boxMap D (U ω)) ((volume (domainBox d D))⁻¹ • volume.restrict (domainBox d D)) P := by
  rw [domainBox_eq hD.1]
  refine hasLaw_toBox hU fun j => ?_
  have hj : (j : ℕ) < D.length := by rw [hD.1]; exact j.2
  rw [List.getD_eq_getElem?_getD, List.getElem?_eq_getElem hj]
  exact hD.2 _ (List.getElem_mem _)

/-! ## Counting -/

theorem count_map_range (n : Nat) (f : Nat → Nat) (i : Nat) :
    (((List.range n).map f).count i : ℝ) = ∑ k ∈ Finset.range n, if f k = i then (1 : ℝ) else 0 := by
  induction n with
  | zero => simp
  | succ n ih =>
    rw [List.range_succ, List.map_append, List.count_append, Finset.sum_range_succ, ← ih]
    by_cases h : f n = i <;> simp [h]

theorem sum_list_range (n : Nat) (f : Nat → Nat) :
    (((List.range n).map f).sum : ℕ) = ∑ k ∈ Finset.range n, f k := by
  induction n with
  | zero => simp
  | succ n ih => rw [List.range_succ, List.map_append, List.sum_append, Finset.sum_range_succ, ← ih]; simp

/-- The points of a cell that the processes draw. -/
theorem hits_drawn (size n : Nat) (Z : ℕ → ℕ → Fin d → ℝ) (c : List ℝ → Nat) (i : Nat) :
    (hits ((((List.range size).map fun r => (List.range (numLocal n size r)).map fun k =>
      List.ofFn (Z r k)).flatten).map c) i : ℝ) =
    ∑ r ∈ Finset.range size, ∑ k ∈ Finset.range (numLocal n size r), ind {x | c (List.ofFn x) = i} (Z r k) := by
  have key : ∀ m, (hits ((((List.range m).map fun r => (List.range (numLocal n size r)).map fun k =>
      List.ofFn (Z r k)).flatten).map c) i : ℝ) =
      ∑ r ∈ Finset.range m, ∑ k ∈ Finset.range (numLocal n size r), ind {x | c (List.ofFn x) = i} (Z r k) := by
    intro m
    induction m with
    | zero => simp [hits]
    | succ m ih =>
      rw [List.range_succ, List.map_append, List.flatten_append, List.map_append, hits, List.count_append,
        Finset.sum_range_succ, ← ih, hits]
      push_cast
      congr 1
      rw [List.map_cons, List.map_nil, List.flatten_cons, List.flatten_nil, List.append_nil, List.map_map]
      rw [count_map_range]
      refine Finset.sum_congr rfl fun k _ => ?_
      simp [ind, Set.indicator]
  exact key size

theorem length_drawn {size : Nat} (hsize : 0 < size) (n : Nat) (Z : ℕ → ℕ → List ℝ) :
    (((List.range size).map fun r => (List.range (numLocal n size r)).map fun k => Z r k).flatten).length = n := by
  rw [List.length_flatten, List.map_map]
  have : (List.length ∘ fun r => (List.range (numLocal n size r)).map fun k => Z r k) = numLocal n size := by
    funext r; simp
  rw [this, C19_sum n size hsize]

theorem card_drawSet {size : Nat} (hsize : 0 < size) (n : Nat) : (drawSet size n).card = n := by
  rw [drawSet, Finset.card_sigma]
  simp only [Finset.card_range]
  rw [← sum_list_range, C19_sum n size hsize]

/-- Almost everywhere, the set where the computed cell is `i` is the cell `i`. -/
theorem cell_ae {G : Geometry ℝ} (hG : Sound G) {s : SampleSet ℝ} {m : Nat} (hr : Ready s m)
    {μ : Measure (Fin d → ℝ)} (hc : ClearCells G s μ) (i : Nat) :
    {x : Fin d → ℝ | s.cell G (List.ofFn x) = i} =ᵐ[μ] cellSet d G s i := by
  filter_upwards [hc.one] with x hx
  refine propext ⟨fun h => ?_, fun h => ?_⟩
  · have h' : s.cell G (List.ofFn x) = i := h
    have := SampleSet.cell_isCell hG hr (List.ofFn x)
    rw [h'] at this
    exact this
  · exact hx _ _ (SampleSet.cell_isCell hG hr (List.ofFn x)) h

/-- The volumes of `estimate_volume` are relative frequencies. -/
theorem cellVolume_drawn {G : Geometry ℝ} {s : SampleSet ℝ} {m : Nat} (hr : Ready s m) {D : List (ℝ × ℝ)}
    (hdom : s.domain = some D) (hD : D.length = d) {size n : Nat} (hsize : 0 < size) (hn : 0 < n)
    (U : ℕ → ℕ → Fin d → ℝ) {i : Nat} (hi : i < m) :
    cellVolume (s.estimateVolumeDrawn G size n fun r k => List.ofFn (U r k)) i =
      some ((∑ r ∈ Finset.range size, ∑ k ∈ Finset.range (numLocal n size r),
        ind {x | s.cell G (List.ofFn x) = i} (boxMap D (U r k))) / n) := by
  have hmc : mcPoints D size n (fun r k => List.ofFn (U r k)) =
      (List.range size).map fun r => (List.range (numLocal n size r)).map fun k =>
        List.ofFn (boxMap D (U r k)) := by
    unfold mcPoints
    simp only [boxPoint_ofFn hD]
  obtain ⟨s', h1, h2, -⟩ := estimateVolume_ok (G := G) (size := size) hr (by rw [hdom]; rfl)
    (mc := mcPoints D size n fun r k => List.ofFn (U r k)) (by rw [hmc]; exact length_drawn hsize n _) hn
  unfold SampleSet.estimateVolumeDrawn cellVolume
  rw [hdom, Option.getD_some, h1]
  simp only [Except.toOption, Option.bind_some, h2, cellFractions, List.getElem?_map]
  rw [List.getElem?_range hi, Option.map_some, hmc, length_drawn hsize, hits_drawn]

section
variable [IsProbabilityMeasure P]

theorem clear_scale {G : Geometry ℝ} {s : SampleSet ℝ} {B : Set (Fin d → ℝ)} (hc : ClearCells G s (volume.restrict B))
    (c : ENNReal) : ClearCells G s (c • volume.restrict B) :=
  ⟨Measure.ae_smul_measure hc.one c, fun i => (hc.meas i).mono_ac Measure.smul_absolutelyContinuous⟩

theorem law_real {B A : Set (Fin d → ℝ)} (hB : MeasurableSet B) :
    ((volume B)⁻¹ • volume.restrict B).real A = volume.real (A ∩ B) / volume.real B := by
  simp only [Measure.real, Measure.smul_apply, smul_eq_mul, ENNReal.toReal_mul, ENNReal.toReal_inv]
  rw [Measure.restrict_apply' hB, div_eq_inv_mul]

/-- **C130.** `estimate_volume` on any number of processes, for any sample set whose cells are clear in its domain:
with more and more points the volume of every cell tends, with probability one, to the Lebesgue measure of the part of
the domain that belongs to the cell, relative to the domain. -/
theorem C130_volumes {G : Geometry ℝ} (hG : Sound G) {s : SampleSet ℝ} {m : Nat} (hr : Ready s m) {D : List (ℝ × ℝ)}
    (hdom : s.domain = some D) (hD : ProperBox d D) {size : Nat} (hsize : 0 < size) {U : ℕ → ℕ → Ω → Fin d → ℝ}
    (hU : UniformRows P U) (hc : ClearCells G s (volume.restrict (domainBox d D))) :
    (∀ n ω, 0 < n → ∀ i < m,
      (cellVolume (s.estimateVolumeDrawn G size n fun r k => List.ofFn (U r k ω)) i).isSome) ∧
    ∀ᵐ ω ∂P, ∀ i < m, Tendsto
      (fun n => (cellVolume (s.estimateVolumeDrawn G size n fun r k => List.ofFn (U r k ω)) i).getD 0) atTop
      (𝓝 (relativeVolume d G s D i)) := by
  have hDl := hD.1
  refine ⟨fun n ω hn i hi => by rw [cellVolume_drawn hr hdom hDl hsize hn _ hi]; rfl, ?_⟩
  have hbox : MeasurableSet (domainBox d D) := by
    rw [domainBox_eq hDl]; exact MeasurableSet.univ_pi fun j => measurableSet_Ico
  refine ae_all_iff.2 fun i => ?_
  by_cases hi : i < m
  swap
  · exact Eventually.of_forall fun ω h => absurd h hi
  have hcl := clear_scale hc (volume (domainBox d D))⁻¹
  have hae := cell_ae hG hr hcl i
  have hlim := frequency (P := P) hsize (Z := fun r k ω => boxMap D (U r k ω)) (μ := (volume (domainBox d D))⁻¹ • volume.restrict (domainBox d D))
    (fun r k => hasLaw_boxMap (hU.law r k) hD)
    (fun r j k hjk => (hU.indep r hjk).comp (measurable_boxMap D) (measurable_boxMap D))
    ((hcl.meas i).congr hae.symm)
  rw [measureReal_congr hae, law_real hbox] at hlim
  filter_upwards [hlim] with ω hω _
  refine hω.congr' ?_
  filter_upwards [eventually_gt_atTop 0] with n hn
  rw [cellVolume_drawn hr hdom hDl hsize hn _ hi]
  rfl

/-- **C130.** The expected volume of a cell is right for every number of points. -/
theorem C130_mean {G : Geometry ℝ} (hG : Sound G) {s : SampleSet ℝ} {m : Nat} (hr : Ready s m) {D : List (ℝ × ℝ)}
    (hdom : s.domain = some D) (hD : ProperBox d D) {size : Nat} (hsize : 0 < size) {U : ℕ → ℕ → Ω → Fin d → ℝ}
    (hU : UniformRows P U) (hc : ClearCells G s (volume.restrict (domainBox d D))) {n : Nat} (hn : 0 < n) {i : Nat}
    (hi : i < m) :
    ∫ ω, (cellVolume (s.estimateVolumeDrawn G size n fun r k => List.ofFn (U r k ω)) i).getD 0 ∂P =
      relativeVolume d G s D i := by
  have hDl := hD.1
  have hbox : MeasurableSet (domainBox d D) := by
    rw [domainBox_eq hDl]; exact MeasurableSet.univ_pi fun j => measurableSet_Ico
  have hcl := clear_scale hc (volume (domainBox d D))⁻¹
  have hae := cell_ae hG hr hcl i
  have h := mean_frequency (P := P) (ι := (_ : ℕ) × ℕ)
    (Z := fun rk ω => boxMap D (U rk.1 rk.2 ω))
    (μ := (volume (domainBox d D))⁻¹ • volume.restrict (domainBox d D))
    (fun rk => hasLaw_boxMap (hU.law rk.1 rk.2) hD)
    ((hcl.meas i).congr hae.symm) (s := drawSet size n) (by rw [card_drawSet hsize]; exact hn)
  rw [measureReal_congr hae, law_real hbox, card_drawSet hsize] at h
  refine Eq.trans (integral_congr_ae (Eventually.of_forall fun ω => ?_)) h
  show (cellVolume (s.estimateVolumeDrawn G size n fun r k => List.ofFn (U r k ω)) i).getD 0 = _
  rw [cellVolume_drawn hr hdom hDl hsize hn _ hi, drawSet, Finset.sum_sigma]
  rfl

/-- **C130.** If all rows are independent, the probability that some volume is wrong by `ε` or more is at most
`2 m exp(-2 n ε²)` for `m` cells and `n` points, whatever the number of processes. -/
theorem C130_bound {G : Geometry ℝ} (hG : Sound G) {s : SampleSet ℝ} {m : Nat} (hr : Ready s m) {D : List (ℝ × ℝ)}
    (hdom : s.domain = some D) (hD : ProperBox d D) {size : Nat} (hsize : 0 < size) {U : ℕ → ℕ → Ω → Fin d → ℝ}
    (hU : IndependentRows P U) (hc : ClearCells G s (volume.restrict (domainBox d D))) {n : Nat} (hn : 0 < n) {ε : ℝ}
    (hε : 0 ≤ ε) :
    P.real {ω | ∃ i < m, ε ≤ |(cellVolume (s.estimateVolumeDrawn G size n fun r k => List.ofFn (U r k ω)) i).getD 0 -
      relativeVolume d G s D i|} ≤ 2 * m * Real.exp (-2 * n * ε ^ 2) := by
  have hDl := hD.1
  have hbox : MeasurableSet (domainBox d D) := by
    rw [domainBox_eq hDl]; exact MeasurableSet.univ_pi fun j => measurableSet_Ico
  have hcl := clear_scale hc (volume (domainBox d D))⁻¹
  have hone : ∀ i ∈ Finset.range m, P.real {ω | ε ≤ |(cellVolume (s.estimateVolumeDrawn G size n fun r k =>
      List.ofFn (U r k ω)) i).getD 0 - relativeVolume d G s D i|} ≤ 2 * Real.exp (-2 * n * ε ^ 2) := by
    intro i hi
    have hi := Finset.mem_range.1 hi
    have hae := cell_ae hG hr hcl i
    have hinj : Function.Injective (fun rk : (_ : ℕ) × ℕ => (rk.1, rk.2)) := by
      rintro ⟨a, b⟩ ⟨c, e⟩ h
      obtain ⟨rfl, rfl⟩ := Prod.mk.inj h
      rfl
    have h := frequency_far (P := P) (ι := (_ : ℕ) × ℕ)
      (Z := fun rk ω => boxMap D (U rk.1 rk.2 ω))
      (μ := (volume (domainBox d D))⁻¹ • volume.restrict (domainBox d D))
      (fun rk => hasLaw_boxMap (hU.law rk.1 rk.2) hD)
      ((hU.indep.precomp hinj).comp (fun _ => boxMap D) fun _ => measurable_boxMap D)
      ((hcl.meas i).congr hae.symm) (s := drawSet size n) (by rw [card_drawSet hsize]; exact hn) hε
    rw [measureReal_congr hae, law_real hbox, card_drawSet hsize] at h
    refine le_trans (le_of_eq ?_) h
    congr 1
    ext ω
    simp only [Set.mem_ofPred_eq]
    rw [cellVolume_drawn hr hdom hDl hsize hn _ hi, drawSet, Finset.sum_sigma]
    rfl
  have hun : {ω | ∃ i < m, ε ≤ |(cellVolume (s.estimateVolumeDrawn G size n fun r k => List.ofFn (U r k ω)) i).getD 0 -
      relativeVolume d G s D i|} = ⋃ i ∈ Finset.range m, {ω | ε ≤ |(cellVolume (s.estimateVolumeDrawn G size n
        fun r k => List.ofFn (U r k ω)) i).getD 0 - relativeVolume d G s D i|} := by
    ext ω
    simp
  rw [hun]
  refine (measureReal_biUnion_finset_le _ _).trans ((Finset.sum_le_sum hone).trans (le_of_eq ?_))
  rw [Finset.sum_const, Finset.card_range, nsmul_eq_mul]
  ring

/-- **C130.** `estimate_volume_emulated` with points of any law `μ`: the volumes tend, with probability one, to the
probabilities of the cells under `μ`. -/
theorem C130_emulated {G : Geometry ℝ} (hG : Sound G) {s : SampleSet ℝ} {m : Nat} (hr : Ready s m)
    {μ : Measure (Fin d → ℝ)} {X : ℕ → Ω → Fin d → ℝ} (hlaw : ∀ k, HasLaw (X k) μ P)
    (hind : Pairwise fun j k => IndepFun (X j) (X k) P) (hc : ClearCells G s μ) {size : Nat} (hsize : 0 < size)
    {em : ℕ → Ω → SampleSet ℝ} (hem : ∀ n ω, Consistent (em n ω) n)
    (hx : ∀ n ω, (em n ω).glob.values = some ((List.range n).map fun k => List.ofFn (X k ω)))
    (hl : ∀ n ω, (em n ω).loc.values = none) :
    (∀ n ω, 0 < n → ∀ i < m,
      (cellVolume ((s.estimateVolumeEmulated G size (em n ω)).map Prod.fst) i).isSome) ∧
    ∀ᵐ ω ∂P, ∀ i < m, Tendsto
      (fun n => (cellVolume ((s.estimateVolumeEmulated G size (em n ω)).map Prod.fst) i).getD 0) atTop
      (𝓝 (μ.real (cellSet d G s i))) := by
  have hvol : ∀ n ω, 0 < n → ∀ i < m, cellVolume ((s.estimateVolumeEmulated G size (em n ω)).map Prod.fst) i =
      some ((∑ k ∈ Finset.range n, ind {x | s.cell G (List.ofFn x) = i} (X k ω)) / n) := by
    intro n ω hn i hi
    obtain ⟨s', em', h1, h2, -⟩ := estimateVolumeEmulated_ok (G := G) hsize hr (hem n ω) hn (hx n ω) (hl n ω)
    rw [h1]
    simp only [cellVolume, Except.map, Except.toOption, Option.bind_some, h2, cellFractions, List.getElem?_map]
    rw [List.getElem?_range hi, Option.map_some, hits, List.map_map, count_map_range]
    simp only [List.length_map, List.length_range]
    congr 2
    refine Finset.sum_congr rfl fun k _ => ?_
    simp [ind, Set.indicator]
  refine ⟨fun n ω hn i hi => by rw [hvol n ω hn i hi]; rfl, ?_⟩
  refine ae_all_iff.2 fun i => ?_
  by_cases hi : i < m
  swap
  · exact Eventually.of_forall fun ω h => absurd h hi
  have hae := cell_ae hG hr hc i
  have hlim := stream_frequency (P := P) hlaw hind ((hc.meas i).congr hae.symm)
  rw [measureReal_congr hae] at hlim
  filter_upwards [hlim] with ω hω _
  refine hω.congr' ?_
  filter_upwards [eventually_gt_atTop 0] with n hn
  rw [hvol n ω hn i hi]
  rfl

end

/-! ## When cells are clear -/

/-- Voronoi cells are clear if distances are measurable and ties have probability zero. -/
theorem C130_clear_voronoi {G : Geometry ℝ} {s : SampleSet ℝ} (hk : s.kind = .voronoi) {v : List (List ℝ)}
    (hv : s.glob.values = some v) {μ : Measure (Fin d → ℝ)}
    (hm : ∀ c ∈ v, Measurable fun x : Fin d → ℝ => G.dist s.pNorm (List.ofFn x) c)
    (ht : ∀ (i j : Nat) a b, i ≠ j → v[i]? = some a → v[j]? = some b →
      μ {x | G.dist s.pNorm (List.ofFn x) a = G.dist s.pNorm (List.ofFn x) b} = 0) : ClearCells G s μ := by
  have hcell : ∀ x i, IsCell G s x i ↔ IsNearest (G.dist s.pNorm) v x i := by
    intro x i
    unfold IsCell
    rw [hk]
    simp only [hv, Option.some.injEq, forall_eq']
  refine ⟨?_, fun i => ?_⟩
  · have hall : ∀ᵐ x ∂μ, ∀ (i j : Nat) a b, i ≠ j → v[i]? = some a → v[j]? = some b →
        ¬ G.dist s.pNorm (List.ofFn x) a = G.dist s.pNorm (List.ofFn x) b := by
      refine ae_all_iff.2 fun i => ae_all_iff.2 fun j => ?_
      by_cases hij : i ≠ j
      swap
      · exact Eventually.of_forall fun x a b h => absurd h hij
      cases hi : v[i]? with
      | none => exact Eventually.of_forall fun x a b _ h => by cases h
      | some a =>
        cases hj : v[j]? with
        | none => exact Eventually.of_forall fun x a b _ _ h => by cases h
        | some b =>
          have h0 := ht i j a b hij hi hj
          have : ∀ᵐ x ∂μ, ¬ G.dist s.pNorm (List.ofFn x) a = G.dist s.pNorm (List.ofFn x) b := by
            rw [ae_iff]; simpa using h0
          filter_upwards [this] with x hx a' b' _ ha hb
          obtain rfl := Option.some.inj ha
          obtain rfl := Option.some.inj hb
          exact hx
    filter_upwards [hall] with x hx i j h1 h2
    by_contra hij
    obtain ⟨a, ha, hla⟩ := (hcell _ _).1 h1
    obtain ⟨b, hb, hlb⟩ := (hcell _ _).1 h2
    exact hx i j a b hij ha hb (le_antisymm (hla b (List.mem_of_getElem? hb)) (hlb a (List.mem_of_getElem? ha)))
  · refine MeasurableSet.nullMeasurableSet ?_
    have hset : cellSet d G s i = {x | IsNearest (G.dist s.pNorm) v (List.ofFn x) i} := by
      ext x; exact hcell _ _
    rw [hset]
    cases hi : v[i]? with
    | none =>
      convert MeasurableSet.empty
      ext x
      simp [IsNearest, hi]
    | some c =>
      have : {x : Fin d → ℝ | IsNearest (G.dist s.pNorm) v (List.ofFn x) i} =
          ⋂ c' ∈ {c' | c' ∈ v}, {x | G.dist s.pNorm (List.ofFn x) c ≤ G.dist s.pNorm (List.ofFn x) c'} := by
        ext x
        simp [IsNearest, hi]
      rw [this]
      exact MeasurableSet.biInter (List.finite_toSet v).countable fun c' hc' =>
        measurableSet_le (hm c (List.mem_of_getElem? hi)) (hm c' hc')

/-- A hyperplane has Lebesgue measure zero. -/
theorem hyperplane_null {a : Fin d → ℝ} (ha : a ≠ 0) (c : ℝ) : volume {x : Fin d → ℝ | ∑ j, a j * x j = c} = 0 := by
  by_cases hne : ∃ x0 : Fin d → ℝ, ∑ j, a j * x0 j = c
  swap
  · convert measure_empty (μ := (volume : Measure (Fin d → ℝ)))
    ext x
    simp only [Set.mem_ofPred_eq, Set.mem_empty_iff_false, iff_false]
    exact fun h => hne ⟨x, h⟩
  obtain ⟨x0, h0⟩ := hne
  let f : (Fin d → ℝ) →ₗ[ℝ] ℝ := ∑ j, a j • LinearMap.proj j
  have hf : ∀ x, f x = ∑ j, a j * x j := by intro x; simp [f]
  have hker : LinearMap.ker f ≠ ⊤ := by
    intro h
    apply ha
    funext j
    have : f (Pi.single j 1) = 0 := by
      rw [← LinearMap.mem_ker, h]; trivial
    rw [hf] at this
    simpa [Pi.single_apply] using this
  have hset : {x : Fin d → ℝ | ∑ j, a j * x j = c} = (AffineSubspace.mk' x0 (LinearMap.ker f) : Set (Fin d → ℝ)) := by
    ext x
    simp only [Set.mem_ofPred_eq, SetLike.mem_coe, AffineSubspace.mem_mk', vsub_eq_sub, LinearMap.mem_ker]
    rw [map_sub, hf, hf, h0, sub_eq_zero]
  rw [hset]
  refine Measure.addHaar_affineSubspace _ _ fun h => hker ?_
  have := congrArg AffineSubspace.direction h
  rwa [AffineSubspace.direction_mk', AffineSubspace.direction_top] at this

/-- **C130.** With the Euclidean norm and distinct samples, Voronoi cells are clear in every domain. -/
theorem C130_clear_euclidean {G : Geometry ℝ} {s : SampleSet ℝ} (hk : s.kind = .voronoi) {v : List (List ℝ)}
    (hv : s.glob.values = some v) (hrow : ∀ c ∈ v, c.length = d) (hdis : v.Nodup)
    (hE : ∀ x c : Fin d → ℝ, G.dist s.pNorm (List.ofFn x) (List.ofFn c) = √(∑ j, (x j - c j) ^ 2))
    (B : Set (Fin d → ℝ)) : ClearCells G s (volume.restrict B) := by
  have hform : ∀ c ∈ v, ∃ c' : Fin d → ℝ, c = List.ofFn c' := by
    intro c hc
    have hl := hrow c hc
    subst hl
    exact ⟨fun j => c[j], by simp⟩
  refine C130_clear_voronoi hk hv (fun c hc => ?_) fun i j a b hij ha hb => ?_
  · obtain ⟨c', rfl⟩ := hform c hc
    simp only [hE]
    fun_prop
  · obtain ⟨a', rfl⟩ := hform a (List.mem_of_getElem? ha)
    obtain ⟨b', rfl⟩ := hform b (List.mem_of_getElem? hb)
    have hne : a' ≠ b' := by
      rintro rfl
      obtain ⟨h1, h2⟩ := List.getElem?_eq_some_iff.1 ha
      obtain ⟨h3, h4⟩ := List.getElem?_eq_some_iff.1 hb
      exact hij ((List.Nodup.getElem_inj_iff hdis).1 (h2.trans h4.symm))
    have hsub : {x : Fin d → ℝ | G.dist s.pNorm (List.ofFn x) (List.ofFn a') =
        G.dist s.pNorm (List.ofFn x) (List.ofFn b')} ⊆
        {x | ∑ j, (b' j - a' j) * x j = (∑ j, (b' j ^ 2 - a' j ^ 2)) / 2} := by
      intro x hx
      simp only [Set.mem_ofPred_eq, hE] at hx ⊢
      have h := (Real.sqrt_inj (Finset.sum_nonneg fun j _ => sq_nonneg _)
        (Finset.sum_nonneg fun j _ => sq_nonneg _)).1 hx
      rw [← sub_eq_zero, ← Finset.sum_sub_distrib] at h
      rw [eq_div_iff two_ne_zero, Finset.sum_mul, ← sub_eq_zero, ← Finset.sum_sub_distrib, ← h]
      refine Finset.sum_congr rfl fun j _ => by ring
    refine measure_mono_null hsub (Measure.absolutelyContinuous_of_le Measure.restrict_le_self
      (hyperplane_null (a := fun j => b' j - a' j) (fun h => hne ?_) _))
    funext j
    have := congrFun h j
    simp only [Pi.zero_apply, sub_eq_zero] at this
    exact this.symm

theorem measurable_isFirst {m : Nat} {inside : Nat → Set (Fin d → ℝ)} (h : ∀ j, MeasurableSet (inside j)) (i : Nat) :
    MeasurableSet {x | IsFirst m (fun j => x ∈ inside j) i} := by
  have hn : ∀ k, MeasurableSet {x : Fin d → ℝ | ∀ j < k, x ∉ inside j} := by
    intro k
    have : {x : Fin d → ℝ | ∀ j < k, x ∉ inside j} = ⋂ j ∈ {j | j < k}, (inside j)ᶜ := by
      ext x; simp
    rw [this]
    exact MeasurableSet.biInter (Set.to_countable _) fun j _ => (h j).compl
  have : {x | IsFirst m (fun j => x ∈ inside j) i} =
      ({x | i < m} ∩ (inside i ∩ {x | ∀ j < i, x ∉ inside j})) ∪ ({x | i = m} ∩ {x | ∀ j < m, x ∉ inside j}) := by
    ext x; rfl
  rw [this]
  exact ((MeasurableSet.const _).inter ((h i).inter (hn i))).union ((MeasurableSet.const _).inter (hn m))

theorem isFirst_unique {m : Nat} {inside : Nat → Prop} {i j : Nat} (hi : IsFirst m inside i)
    (hj : IsFirst m inside j) : i = j := by
  rcases hi with ⟨h1, h2, h3⟩ | ⟨rfl, h3⟩ <;> rcases hj with ⟨k1, k2, k3⟩ | ⟨rfl, k3⟩
  · rcases lt_trichotomy i j with h | h | h
    · exact absurd h2 (k3 i h)
    · exact h
    · exact absurd k2 (h3 j h)
  · exact absurd h2 (k3 i h1)
  · exact absurd k2 (h3 j k1)
  · rfl

theorem measurable_inBox (l r : List ℝ) : MeasurableSet {x : Fin d → ℝ | InBox l r (List.ofFn x)} := by
  have : {x : Fin d → ℝ | InBox l r (List.ofFn x)} =
      (⋂ j : Fin d, {x | ∀ b, r[(j : ℕ)]? = some b → x j ≤ b}) ∩
        ⋂ j : Fin d, {x | ∀ b, l[(j : ℕ)]? = some b → b < x j} := by
    ext x
    simp only [InBox, Set.mem_ofPred_eq, Set.mem_inter_iff, Set.mem_iInter]
    constructor
    · rintro ⟨h1, h2⟩
      exact ⟨fun j b hb => h1 j _ b (by simp) hb, fun j b hb => h2 j _ b (by simp) hb⟩
    · rintro ⟨h1, h2⟩
      refine ⟨fun i a b ha hb => ?_, fun i a b ha hb => ?_⟩
      all_goals
        obtain ⟨hi, rfl⟩ := List.getElem?_eq_some_iff.1 ha
        rw [List.length_ofFn] at hi
        rw [List.getElem_ofFn]
      · exact h1 ⟨i, hi⟩ b hb
      · exact h2 ⟨i, hi⟩ b hb
  rw [this]
  refine (MeasurableSet.iInter fun j => ?_).inter (MeasurableSet.iInter fun j => ?_)
  · cases hr : r[(j : ℕ)]? with
    | none => convert MeasurableSet.univ; simp
    | some b =>
      simp only [Option.some.injEq, forall_eq']
      exact measurableSet_le (measurable_pi_apply j) measurable_const
  · cases hl : l[(j : ℕ)]? with
    | none => convert MeasurableSet.univ; simp
    | some b =>
      simp only [Option.some.injEq, forall_eq']
      exact measurableSet_lt measurable_const (measurable_pi_apply j)

/-- **C130.** Rectangles are clear for every law. -/
theorem C130_clear_rectangles {G : Geometry ℝ} {s : SampleSet ℝ} (hk : s.kind = .rectangle) {v r l : List (List ℝ)}
    (hv : s.glob.values = some v) (hr : s.glob.right = some r) (hl : s.glob.left = some l)
    (μ : Measure (Fin d → ℝ)) : ClearCells G s μ := by
  have hcell : ∀ x i, IsCell G s x i ↔ IsFirst (v.length - 1)
      (fun j => ∃ a b, l[j]? = some a ∧ r[j]? = some b ∧ InBox a b x) i := by
    intro x i
    unfold IsCell
    rw [hk]
    simp only [hv, hr, hl, Option.some.injEq]
    exact ⟨fun h => h v r l rfl rfl rfl, by rintro h _ _ _ rfl rfl rfl; exact h⟩
  refine ⟨Eventually.of_forall fun x i j h1 h2 => isFirst_unique ((hcell _ _).1 h1) ((hcell _ _).1 h2), fun i => ?_⟩
  have hset : cellSet d G s i = {x | IsFirst (v.length - 1)
      (fun j => x ∈ {x : Fin d → ℝ | ∃ a b, l[j]? = some a ∧ r[j]? = some b ∧ InBox a b (List.ofFn x)}) i} := by
    ext x; exact hcell _ _
  rw [hset]
  refine (measurable_isFirst (fun j => ?_) i).nullMeasurableSet
  cases hlj : l[j]? with
  | none => convert MeasurableSet.empty; simp
  | some a =>
    cases hrj : r[j]? with
    | none => convert MeasurableSet.empty; simp
    | some b =>
      convert measurable_inBox (d := d) a b using 1
      ext x
      simp

/-- **C130.** So are balls whose distances are measurable. -/
theorem C130_clear_balls {G : Geometry ℝ} {s : SampleSet ℝ} (hk : s.kind = .ball) {v : List (List ℝ)} {rad : List ℝ}
    (hv : s.glob.values = some v) (hr : s.glob.radii = some rad)
    (hm : ∀ c ∈ v, Measurable fun x : Fin d → ℝ => G.dist s.pNorm (List.ofFn x) c)
    (μ : Measure (Fin d → ℝ)) : ClearCells G s μ := by
  have hcell : ∀ x i, IsCell G s x i ↔ IsFirst (v.length - 1)
      (fun j => ∃ c ρ, v[j]? = some c ∧ rad[j]? = some ρ ∧ G.dist s.pNorm x c < ρ) i := by
    intro x i
    unfold IsCell
    rw [hk]
    simp only [hv, hr, Option.some.injEq]
    exact ⟨fun h => h v rad rfl rfl, by rintro h _ _ rfl rfl; exact h⟩
  refine ⟨Eventually.of_forall fun x i j h1 h2 => isFirst_unique ((hcell _ _).1 h1) ((hcell _ _).1 h2), fun i => ?_⟩
  have hset : cellSet d G s i = {x | IsFirst (v.length - 1) (fun j => x ∈ {x : Fin d → ℝ |
      ∃ c ρ, v[j]? = some c ∧ rad[j]? = some ρ ∧ G.dist s.pNorm (List.ofFn x) c < ρ}) i} := by
    ext x; exact hcell _ _
  rw [hset]
  refine (measurable_isFirst (fun j => ?_) i).nullMeasurableSet
  cases hvj : v[j]? with
  | none => convert MeasurableSet.empty; simp
  | some c =>
    cases hrj : rad[j]? with
    | none => convert MeasurableSet.empty; simp
    | some ρ =>
      convert measurableSet_lt (hm c (List.mem_of_getElem? hvj)) (measurable_const (a := ρ)) using 1
      ext x
      simp

/-- A sample set where one sample stands twice. -/
noncomputable def twinSet : SampleSet ℝ :=
  { dim := 1, domain := some [(0, 1)], glob := { values := some [[1 / 2], [1 / 2]] } }

theorem twin_ready : Ready twinSet 2 :=
  ⟨SampleSet.consistent_of_checkNum (size := 1) rfl rfl, by norm_num, rfl, Or.inl rfl, nofun, nofun⟩

/-- **C130, negation.** Without clear cells it fails: where a sample stands twice both cells have the relative volume
one, but whatever is drawn the two volumes have the sum one. -/
theorem C130_negation_twins {G : Geometry ℝ} (hG : Sound G) {size n : Nat} (hsize : 0 < size) (hn : 0 < n)
    (U : ℕ → ℕ → Fin 1 → ℝ) :
    relativeVolume 1 G twinSet [(0, 1)] 0 = 1 ∧ relativeVolume 1 G twinSet [(0, 1)] 1 = 1 ∧
    ∃ a b, cellVolume (twinSet.estimateVolumeDrawn G size n fun r k => List.ofFn (U r k)) 0 = some a ∧
      cellVolume (twinSet.estimateVolumeDrawn G size n fun r k => List.ofFn (U r k)) 1 = some b ∧ a + b = 1 := by
  have hbox : volume.real (domainBox 1 [(0, 1)]) = 1 := by
    have : domainBox 1 [((0 : ℝ), (1 : ℝ))] = Set.univ.pi fun _ => Set.Ico (0 : ℝ) 1 := by
      ext x; simp [domainBox]
    rw [this, Measure.real, volume_pi_pi]
    simp
  have hcell : ∀ i < 2, relativeVolume 1 G twinSet [(0, 1)] i = 1 := by
    intro i hi
    have : cellSet 1 G twinSet i = Set.univ := by
      ext x
      simp only [cellSet, Set.mem_ofPred_eq, Set.mem_univ, iff_true]
      show ∀ v, some [[(1 : ℝ) / 2], [1 / 2]] = some v → IsNearest _ v _ i
      rintro v hv
      obtain rfl := Option.some.inj hv
      refine ⟨[1 / 2], ?_, fun c hc => ?_⟩
      · match i, hi with
        | 0, _ => rfl
        | 1, _ => rfl
      · simp only [List.mem_cons, List.not_mem_nil, or_false, or_self] at hc
        rw [hc]
    rw [relativeVolume, this, Set.univ_inter, hbox, div_one]
  refine ⟨hcell 0 (by norm_num), hcell 1 (by norm_num), _, _,
    cellVolume_drawn (d := 1) (D := [(0, 1)]) twin_ready rfl rfl hsize hn U (by norm_num),
    cellVolume_drawn (d := 1) (D := [(0, 1)]) twin_ready rfl rfl hsize hn U (by norm_num), ?_⟩
  rw [← add_div, ← Finset.sum_add_distrib]
  simp only [← Finset.sum_add_distrib]
  have hone : ∀ x : Fin 1 → ℝ, ind {x : Fin 1 → ℝ | twinSet.cell G (List.ofFn x) = 0} x +
      ind {x : Fin 1 → ℝ | twinSet.cell G (List.ofFn x) = 1} x = 1 := by
    intro x
    have hlt := SampleSet.cell_lt hG twin_ready (List.ofFn x)
    have : twinSet.cell G (List.ofFn x) = 0 ∨ twinSet.cell G (List.ofFn x) = 1 := by omega
    rcases this with h | h <;> simp only [ind, Set.indicator, Set.mem_ofPred_eq, h] <;> norm_num
  rw [Finset.sum_congr rfl fun r _ => Finset.sum_congr rfl fun k _ => hone (boxMap _ (U r k))]
  simp only [Finset.sum_const, Finset.card_range, nsmul_eq_mul, mul_one]
  rw [← Nat.cast_sum, ← sum_list_range, C19_sum n size hsize]
  exact div_self (by positivity)

end BET

namespace BET.Ex

open BET.Spec MeasureTheory ProbabilityTheory

/-- Independent uniform rows, for every dimension: the product of uniform laws. -/
theorem independentRows (d : Nat) :
    ∃ (Ω : Type) (_ : MeasurableSpace Ω) (P : Measure Ω) (U : ℕ → ℕ → Ω → Fin d → ℝ),
      IsProbabilityMeasure P ∧ IndependentRows P U ∧ UniformRows P U := by
  let μ : Measure (Fin d → ℝ) := volume.restrict (Set.univ.pi fun _ => Set.Ico (0 : ℝ) 1)
  have hμ : IsProbabilityMeasure μ := by
    refine ⟨?_⟩
    rw [Measure.restrict_apply MeasurableSet.univ, Set.univ_inter, volume_pi_pi]
    simp
  let P : Measure (ℕ × ℕ → Fin d → ℝ) := Measure.infinitePi fun _ => μ
  have hlaw : ∀ rk : ℕ × ℕ, HasLaw (fun ω : ℕ × ℕ → Fin d → ℝ => ω rk) μ P := fun rk =>
    ⟨(measurable_pi_apply rk).aemeasurable, Measure.infinitePi_map_eval _ rk⟩
  have hind : iIndepFun (fun (rk : ℕ × ℕ) (ω : ℕ × ℕ → Fin d → ℝ) => ω rk) P :=
    iIndepFun_infinitePi (P := fun _ => μ) (X := fun _ x => x) fun _ => measurable_id
  refine ⟨_, inferInstance, P, fun r k ω => ω (r, k), inferInstance, ⟨fun r k => hlaw (r, k), hind⟩,
    ⟨fun r k => hlaw (r, k), fun r j k hjk => hind.indepFun fun h => hjk (Prod.mk.inj h).2⟩⟩

/-- The Euclidean distance of rows, and a nearest row. -/
noncomputable def euclid : Geometry ℝ where
  dist _ x c := √((List.zipWith (fun a b => (a - b) ^ 2) x c).sum)
  nn _ pts x := ((List.range pts.length).argmin fun i =>
    √((List.zipWith (fun a b => (a - b) ^ 2) x (pts.getD i [])).sum)).getD 0

theorem euclid_sound : Sound euclid := by
  intro p pts x hne
  cases h : (List.range pts.length).argmin fun i =>
      √((List.zipWith (fun a b => (a - b) ^ 2) x (pts.getD i [])).sum) with
  | none =>
    rw [List.argmin_eq_none] at h
    have : pts.length = 0 := by simpa using h
    exact absurd (List.length_eq_zero_iff.1 this) hne
  | some i =>
    have hi := List.mem_range.1 (List.argmin_mem h)
    have hn : euclid.nn p pts x = i := by
      show Option.getD _ 0 = i
      rw [h]; rfl
    refine ⟨pts[i], by rw [hn, List.getElem?_eq_getElem hi], fun c' hc' => ?_⟩
    obtain ⟨j, hj, rfl⟩ := List.getElem_of_mem hc'
    have := List.le_of_mem_argmin (List.mem_range.2 hj) h
    simpa [euclid, List.getD_eq_getElem?_getD, List.getElem?_eq_getElem hi, List.getElem?_eq_getElem hj] using this

theorem euclid_dist {d : Nat} (p : Nat) (x c : Fin d → ℝ) :
    euclid.dist p (List.ofFn x) (List.ofFn c) = √(∑ j, (x j - c j) ^ 2) := by
  have : List.zipWith (fun a b => (a - b) ^ 2) (List.ofFn x) (List.ofFn c) = List.ofFn fun j => (x j - c j) ^ 2 := by
    apply List.ext_getElem
    · simp
    · intro k h1 h2; simp
  simp only [euclid, this, List.sum_ofFn]

/-- Three samples in the plane, in a rectangle. -/
noncomputable def planeSet : SampleSet ℝ :=
  { dim := 2, domain := some [(0, 4), (-1, 1)], glob := { values := some [[0, 0], [1, 1 / 2], [3, 0]] } }

/-- Hypotheses of `C130_volumes`, `C130_mean` and `C130_bound`. -/
example : Sound euclid ∧ Ready planeSet 3 ∧ planeSet.domain = some [(0, 4), (-1, 1)] ∧
    ProperBox 2 [(0, 4), (-1, 1)] ∧
    ClearCells euclid planeSet (volume.restrict (domainBox 2 [(0, 4), (-1, 1)])) := by
  refine ⟨euclid_sound, ⟨SampleSet.consistent_of_checkNum (size := 1) rfl rfl, by norm_num, rfl, Or.inl rfl, nofun, nofun⟩, rfl,
    ⟨rfl, by simp⟩, C130_clear_euclidean rfl rfl (by simp) (by simp) (fun x c => euclid_dist _ x c) _⟩

end BET.Ex
