import Verif.Lemmas.Chance
import Mathlib.Analysis.SpecificLimits.Basic

/-!
# Frequencies in larger and larger batches
-/

set_option autoImplicit false
set_option linter.unusedSectionVars false

namespace BET

open MeasureTheory ProbabilityTheory Filter Topology

variable {Ω : Type} [MeasurableSpace Ω] {P : Measure Ω} {E : Type} [MeasurableSpace E] {μ : Measure E}

/-- The relative frequency of an event in batches of independent draws tends to its probability when the batches grow
like powers of ten; nothing is assumed about draws of different batches. -/
theorem batch_frequency [IsProbabilityMeasure P] {Z : ℕ → ℕ → Ω → E} (hlaw : ∀ n k, HasLaw (Z n k) μ P)
    (hind : ∀ n, iIndepFun (Z n) P) {A : Set E} (hA : NullMeasurableSet A μ) :
    ∀ᵐ ω ∂P, Tendsto (fun n : ℕ => (∑ k ∈ Finset.range (10 ^ n), ind A (Z n k ω)) / (10 ^ n : ℕ)) atTop
      (𝓝 (μ.real A)) := by
  have key : ∀ m : ℕ, ∀ᵐ ω ∂P, ∀ᶠ n in atTop,
      |(∑ k ∈ Finset.range (10 ^ n), ind A (Z n k ω)) / (10 ^ n : ℕ) - μ.real A| < 1 / ((m : ℝ) + 1) := by
    intro m
    set ε : ℝ := 1 / ((m : ℝ) + 1) with hε
    have hεp : 0 < ε := by positivity
    have hsum : Summable fun n : ℕ => 2 * Real.exp (-2 * ε ^ 2) ^ n := by
      refine (summable_geometric_of_lt_one (Real.exp_pos _).le ?_).mul_left 2
      rw [Real.exp_lt_one_iff]
      have : 0 < ε ^ 2 := by positivity
      linarith
    have h1 := ae_eventually_notMem (μ := P)
      (s := fun n => {ω | ε ≤ |(∑ k ∈ Finset.range (10 ^ n), ind A (Z n k ω)) / (10 ^ n : ℕ) - μ.real A|}) ?_
    · filter_upwards [h1] with ω hω
      filter_upwards [hω] with n hn
      exact not_le.1 hn
    · refine ne_top_of_le_ne_top hsum.tsum_ofReal_ne_top (ENNReal.tsum_le_tsum fun n => ?_)
      have h2 := frequency_far (hlaw n) (hind n) hA (s := Finset.range (10 ^ n)) (by simp) hεp.le
      rw [Finset.card_range] at h2
      refine (ENNReal.le_ofReal_iff_toReal_le (measure_ne_top _ _) (by positivity)).2 (le_trans h2 ?_)
      rw [← Real.exp_nat_mul]
      have h3 : (n : ℝ) ≤ ((10 ^ n : ℕ) : ℝ) := by exact_mod_cast (Nat.lt_pow_self (by norm_num)).le
      have h4 : -2 * ((10 ^ n : ℕ) : ℝ) * ε ^ 2 ≤ n * (-2 * ε ^ 2) := by nlinarith [sq_nonneg ε]
      exact mul_le_mul_of_nonneg_left (Real.exp_le_exp.2 h4) (by norm_num)
  filter_upwards [ae_all_iff.2 key] with ω hω
  rw [Metric.tendsto_atTop]
  intro δ hδ
  obtain ⟨m, hm⟩ := exists_nat_one_div_lt hδ
  obtain ⟨N, hN⟩ := eventually_atTop.1 (hω m)
  exact ⟨N, fun n hn => by rw [Real.dist_eq]; exact (hN n hn).trans hm⟩

end BET
