import Verif.Model.Query
import Mathlib.Probability.StrongLaw
import Mathlib.Probability.HasLaw
import Mathlib.Probability.Moments.SubGaussian

/-!
# Relative frequencies of independent draws
-/

set_option linter.unusedSectionVars false
set_option linter.unusedSimpArgs false
set_option autoImplicit false

namespace BET

open MeasureTheory ProbabilityTheory Filter Topology Function

variable {Ω E : Type} [MeasurableSpace Ω] [MeasurableSpace E] {P : Measure Ω} {μ : Measure E}

/-- 1 in the event, 0 outside. -/
noncomputable def ind (A : Set E) : E → ℝ := A.indicator 1

theorem ind_mem (A : Set E) (x : E) : ind A x ∈ Set.Icc (0 : ℝ) 1 := by
  unfold ind Set.indicator
  split <;> simp

theorem measurable_ind {A : Set E} (hA : MeasurableSet A) : Measurable (ind A) :=
  measurable_one.indicator hA

theorem integral_ind {Z : Ω → E} (hZ : HasLaw Z μ P) {A : Set E} (hA : MeasurableSet A) :
    ∫ ω, ind A (Z ω) ∂P = μ.real A := by
  have h := hZ.integral_comp (f := ind A) (measurable_ind hA).aestronglyMeasurable
  rw [show (∫ ω, ind A (Z ω) ∂P) = ∫ ω, (ind A ∘ Z) ω ∂P from rfl, h]
  unfold ind
  rw [integral_indicator hA]
  simp

/-- Two events that differ by a null set are hit by the same draws, almost surely. -/
theorem ae_ind_eq {Z : Ω → E} (hZ : HasLaw Z μ P) {A B : Set E} (h : A =ᵐ[μ] B) :
    ∀ᵐ ω ∂P, ind A (Z ω) = ind B (Z ω) := by
  rw [← hZ.map_eq] at h
  filter_upwards [ae_of_ae_map hZ.aemeasurable h] with ω hω
  have hω' : Z ω ∈ A ↔ Z ω ∈ B := hω.to_iff
  unfold ind Set.indicator
  by_cases hB : Z ω ∈ B <;> simp [hB, hω']

variable [IsProbabilityMeasure P]

/-- The relative frequency of an event in one stream of pairwise independent draws tends to its probability. -/
theorem stream_frequency {Z : ℕ → Ω → E} (hlaw : ∀ k, HasLaw (Z k) μ P)
    (hind : Pairwise fun j k => IndepFun (Z j) (Z k) P) {A : Set E} (hA : NullMeasurableSet A μ) :
    ∀ᵐ ω ∂P, Tendsto (fun n : ℕ => (∑ k ∈ Finset.range n, ind A (Z k ω)) / n) atTop (𝓝 (μ.real A)) := by
  obtain ⟨B, hB, hAB⟩ := hA
  have hmeas : ∀ k, AEMeasurable (fun ω => ind B (Z k ω)) P := fun k =>
    (measurable_ind hB).comp_aemeasurable (hlaw k).aemeasurable
  have hint : Integrable (fun ω => ind B (Z 0 ω)) P :=
    Integrable.of_mem_Icc 0 1 (hmeas 0) (Eventually.of_forall fun ω => ind_mem B _)
  have hpair : Pairwise ((IndepFun · · P) on fun k ω => ind B (Z k ω)) := fun j k hjk =>
    (hind hjk).comp (measurable_ind hB) (measurable_ind hB)
  have hid : ∀ k, IdentDistrib (fun ω => ind B (Z k ω)) (fun ω => ind B (Z 0 ω)) P P := fun k =>
    IdentDistrib.comp (u := ind B)
      ⟨(hlaw k).aemeasurable, (hlaw 0).aemeasurable, by rw [(hlaw k).map_eq, (hlaw 0).map_eq]⟩ (measurable_ind hB)
  have hlim := strong_law_ae_real (fun k ω => ind B (Z k ω)) hint hpair hid
  rw [integral_ind (hlaw 0) hB] at hlim
  have heq : ∀ᵐ ω ∂P, ∀ k, ind A (Z k ω) = ind B (Z k ω) := ae_all_iff.2 fun k => ae_ind_eq (hlaw k) hAB
  filter_upwards [hlim, heq] with ω h1 h2
  simp only [h2]
  rwa [measureReal_congr hAB]

/-- The share of the draws of one process tends to one over the number of processes. -/
theorem numLocal_share {size : Nat} (hsize : 0 < size) (r : Nat) :
    Tendsto (fun n : ℕ => (numLocal n size r : ℝ) / n) atTop (𝓝 (1 / size)) ∧
      Tendsto (fun n : ℕ => numLocal n size r) atTop atTop := by
  have hs : (0 : ℝ) < size := by exact_mod_cast hsize
  refine ⟨?_, ?_⟩
  · have hlow : ∀ n : ℕ, (n : ℝ) / size - 1 ≤ (numLocal n size r : ℝ) := by
      intro n
      have h1 : (n : ℝ) / size < ((n / size : ℕ) : ℝ) + 1 := by
        rw [div_lt_iff₀ hs]
        exact_mod_cast (by rw [Nat.mul_comm]; exact Nat.lt_mul_div_succ n hsize)
      have h2 : ((n / size : ℕ) : ℝ) ≤ (numLocal n size r : ℝ) := by
        unfold numLocal
        exact_mod_cast Nat.le_add_right _ _
      linarith
    have hup : ∀ n : ℕ, (numLocal n size r : ℝ) ≤ (n : ℝ) / size + 1 := by
      intro n
      have h1 : ((n / size : ℕ) : ℝ) ≤ (n : ℝ) / size := Nat.cast_div_le
      have h2 : (numLocal n size r : ℝ) ≤ ((n / size : ℕ) : ℝ) + 1 := by
        unfold numLocal
        split <;> push_cast <;> linarith
      linarith
    have hz : Tendsto (fun n : ℕ => (1 : ℝ) / n) atTop (𝓝 0) := tendsto_one_div_atTop_nhds_zero_nat
    have ha : Tendsto (fun n : ℕ => (1 : ℝ) / size - 1 / n) atTop (𝓝 (1 / size)) := by
      simpa using hz.const_sub (1 / (size : ℝ))
    have hb : Tendsto (fun n : ℕ => (1 : ℝ) / size + 1 / n) atTop (𝓝 (1 / size)) := by
      simpa using hz.const_add (1 / (size : ℝ))
    refine tendsto_of_tendsto_of_tendsto_of_le_of_le' ha hb ?_ ?_
    · filter_upwards [eventually_gt_atTop 0] with n hn
      have hn' : (0 : ℝ) < n := by exact_mod_cast hn
      rw [le_div_iff₀ hn']
      have : (1 / (size : ℝ) - 1 / n) * n = n / size - 1 := by field_simp
      rw [this]; exact hlow n
    · filter_upwards [eventually_gt_atTop 0] with n hn
      have hn' : (0 : ℝ) < n := by exact_mod_cast hn
      rw [div_le_iff₀ hn']
      have : (1 / (size : ℝ) + 1 / n) * n = n / size + 1 := by field_simp
      rw [this]; exact hup n
  · refine tendsto_atTop.2 fun b => ?_
    filter_upwards [eventually_ge_atTop (b * size)] with n hn
    unfold numLocal
    exact le_trans ((Nat.le_div_iff_mul_le hsize).2 hn) (Nat.le_add_right _ _)

/-- The same for the draws of all processes together: each process has its own stream. -/
theorem frequency {size : Nat} (hsize : 0 < size) {Z : ℕ → ℕ → Ω → E} (hlaw : ∀ r k, HasLaw (Z r k) μ P)
    (hind : ∀ r, Pairwise fun j k => IndepFun (Z r j) (Z r k) P) {A : Set E} (hA : NullMeasurableSet A μ) :
    ∀ᵐ ω ∂P, Tendsto (fun n : ℕ => (∑ r ∈ Finset.range size, ∑ k ∈ Finset.range (numLocal n size r),
      ind A (Z r k ω)) / n) atTop (𝓝 (μ.real A)) := by
  have hs : (size : ℝ) ≠ 0 := by exact_mod_cast hsize.ne'
  have h := ae_all_iff.2 fun r => stream_frequency (hlaw r) (hind r) hA
  filter_upwards [h] with ω hω
  have hr : ∀ r ∈ Finset.range size, Tendsto (fun n : ℕ => (∑ k ∈ Finset.range (numLocal n size r),
      ind A (Z r k ω)) / n) atTop (𝓝 (μ.real A * (1 / size))) := by
    intro r _
    have h1 := ((hω r).comp (numLocal_share hsize r).2).mul (numLocal_share hsize r).1
    refine h1.congr' ?_
    filter_upwards [(numLocal_share hsize r).2.eventually_gt_atTop 0] with n hn
    have hn' : (numLocal n size r : ℝ) ≠ 0 := by exact_mod_cast hn.ne'
    simp only [Function.comp]
    field_simp
  have hsum := tendsto_finsetSum (Finset.range size) hr
  simp only [Finset.sum_const, Finset.card_range, nsmul_eq_mul] at hsum
  rw [show (size : ℝ) * (μ.real A * (1 / size)) = μ.real A by field_simp] at hsum
  refine hsum.congr fun n => ?_
  rw [Finset.sum_div]

/-- The expected relative frequency is the probability. -/
theorem mean_frequency {ι : Type} {Z : ι → Ω → E} (hlaw : ∀ k, HasLaw (Z k) μ P) {A : Set E}
    (hA : NullMeasurableSet A μ) {s : Finset ι} (hs : 0 < s.card) :
    ∫ ω, (∑ k ∈ s, ind A (Z k ω)) / s.card ∂P = μ.real A := by
  obtain ⟨B, hB, hAB⟩ := hA
  have hmeas : ∀ k, AEMeasurable (fun ω => ind B (Z k ω)) P := fun k =>
    (measurable_ind hB).comp_aemeasurable (hlaw k).aemeasurable
  have h1 : ∀ k, ∫ ω, ind A (Z k ω) ∂P = μ.real A := fun k => by
    rw [integral_congr_ae (ae_ind_eq (hlaw k) hAB), integral_ind (hlaw k) hB, measureReal_congr hAB]
  have h2 : ∀ k, Integrable (fun ω => ind A (Z k ω)) P := fun k =>
    (Integrable.of_mem_Icc 0 1 (hmeas k) (Eventually.of_forall fun ω => ind_mem B _)).congr
      ((ae_ind_eq (hlaw k) hAB).mono fun ω h => h.symm)
  rw [integral_div, integral_finsetSum _ fun k _ => h2 k]
  simp only [h1, Finset.sum_const, nsmul_eq_mul]
  have : (s.card : ℝ) ≠ 0 := by exact_mod_cast hs.ne'
  field_simp

/-- Hoeffding's bound for the relative frequency of an event in independent draws. -/
theorem frequency_far {ι : Type} {Z : ι → Ω → E} (hlaw : ∀ k, HasLaw (Z k) μ P)
    (hind : iIndepFun Z P) {A : Set E} (hA : NullMeasurableSet A μ) {s : Finset ι} (hs : 0 < s.card) {ε : ℝ}
    (hε : 0 ≤ ε) :
    P.real {ω | ε ≤ |(∑ k ∈ s, ind A (Z k ω)) / s.card - μ.real A|} ≤ 2 * Real.exp (-2 * s.card * ε ^ 2) := by
  obtain ⟨B, hB, hAB⟩ := hA
  have hmeas : ∀ k, AEMeasurable (fun ω => ind B (Z k ω)) P := fun k =>
    (measurable_ind hB).comp_aemeasurable (hlaw k).aemeasurable
  have hc : (0 : ℝ) < s.card := by exact_mod_cast hs
  have hi : iIndepFun (fun k ω => ind B (Z k ω)) P := hind.comp (fun _ => ind B) fun _ => measurable_ind hB
  have hsub : ∀ k, HasSubgaussianMGF (fun ω => ind B (Z k ω) - μ.real B) ((‖(1 : ℝ) - 0‖₊ / 2) ^ 2) P := fun k => by
    have := hasSubgaussianMGF_of_mem_Icc (hmeas k) (Eventually.of_forall fun ω => ind_mem B (Z k ω))
    rwa [integral_ind (hlaw k) hB] at this
  have hi1 : iIndepFun (fun k ω => ind B (Z k ω) - μ.real B) P :=
    hi.comp (fun _ x => x - μ.real B) fun _ => measurable_id.sub_const _
  have hi2 : iIndepFun (fun k ω => -(ind B (Z k ω) - μ.real B)) P :=
    hi1.comp (fun _ x => -x) fun _ => measurable_neg
  have hu := HasSubgaussianMGF.measure_sum_ge_le_of_iIndepFun hi1 (s := s) (fun k _ => hsub k)
    (ε := s.card * ε) (by positivity)
  have hl := HasSubgaussianMGF.measure_sum_ge_le_of_iIndepFun hi2 (s := s) (fun k _ => (hsub k).neg)
    (ε := s.card * ε) (by positivity)
  have hexp : -((s.card : ℝ) * ε) ^ 2 / (2 * ((∑ k ∈ s, (‖(1 : ℝ) - 0‖₊ / 2) ^ 2 : NNReal) : ℝ)) =
      -2 * s.card * ε ^ 2 := by
    rw [Finset.sum_const]
    push_cast
    simp only [sub_zero, norm_one, nnnorm_one, NNReal.coe_one, nsmul_eq_mul]
    field_simp
  have key : ∀ᵐ ω ∂P, ε ≤ |(∑ k ∈ s, ind A (Z k ω)) / s.card - μ.real A| →
      ω ∈ {ω | s.card * ε ≤ ∑ k ∈ s, (ind B (Z k ω) - μ.real B)} ∪
        {ω | s.card * ε ≤ ∑ k ∈ s, -(ind B (Z k ω) - μ.real B)} := by
    have heq : ∀ᵐ ω ∂P, ∀ k ∈ s, ind A (Z k ω) = ind B (Z k ω) :=
      (Finset.eventually_all s).2 fun k _ => ae_ind_eq (hlaw k) hAB
    filter_upwards [heq] with ω hω h
    rw [Finset.sum_congr rfl hω, measureReal_congr hAB] at h
    have hdiff : (∑ k ∈ s, ind B (Z k ω)) / s.card - μ.real B = (∑ k ∈ s, (ind B (Z k ω) - μ.real B)) / s.card := by
      rw [Finset.sum_sub_distrib, Finset.sum_const, nsmul_eq_mul]
      field_simp
    rw [hdiff, abs_div, abs_of_pos hc, le_div_iff₀ hc, mul_comm, le_abs] at h
    rcases h with h | h
    · exact .inl h
    · right
      rw [← Finset.sum_neg_distrib] at h
      exact h
  have hle : P.real {ω | ε ≤ |(∑ k ∈ s, ind A (Z k ω)) / s.card - μ.real A|} ≤
      P.real ({ω | s.card * ε ≤ ∑ k ∈ s, (ind B (Z k ω) - μ.real B)} ∪
        {ω | s.card * ε ≤ ∑ k ∈ s, -(ind B (Z k ω) - μ.real B)}) := by
    unfold Measure.real
    exact ENNReal.toReal_mono (measure_ne_top _ _) (measure_mono_ae key)
  refine hle.trans ((measureReal_union_le _ _).trans ?_)
  rw [hexp] at hu hl
  linarith

end BET
