import Verif.Lemmas.Shares

/-!
# Means over draws in sets that move
-/

set_option linter.unusedSectionVars false
set_option linter.unusedSimpArgs false
set_option autoImplicit false

namespace BET

open MeasureTheory ProbabilityTheory Filter Topology Function

variable {Ω E : Type} [MeasurableSpace Ω] [MeasurableSpace E] {P : Measure Ω} {μ : Measure E}
  [IsProbabilityMeasure P]

theorem mul_ind (f : E → ℝ) (A : Set E) (x : E) : f x * ind A x = A.indicator f x := by
  classical
  simp only [ind, Set.indicator]
  split <;> simp

theorem sum_drawSet {size : Nat} {n : Nat} (F : ℕ → ℕ → ℝ) :
    ∑ rk ∈ drawSet size n, F rk.1 rk.2 =
      ∑ r ∈ Finset.range size, ∑ k ∈ Finset.range (numLocal n size r), F r k := by
  rw [drawSet, Finset.sum_sigma]

/-- Sums with shared weights, label by label. -/
theorem draw_shares {size n m : Nat} {z : ℕ → ℕ → E} {L : E → ℕ} (hm : ∀ x, L x < m) (p : ℕ → ℝ) (f : E → ℝ) :
    ∑ rk ∈ drawSet size n, p (L (z rk.1 rk.2)) /
        (∑ rj ∈ drawSet size n, ind {x | L x = L (z rk.1 rk.2)} (z rj.1 rj.2)) * f (z rk.1 rk.2) =
      ∑ c ∈ Finset.range m, p c * ((∑ rk ∈ drawSet size n, f (z rk.1 rk.2) * ind {x | L x = c} (z rk.1 rk.2)) /
        ∑ rk ∈ drawSet size n, ind {x | L x = c} (z rk.1 rk.2)) := by
  have key : ∀ rk : (_ : ℕ) × ℕ, p (L (z rk.1 rk.2)) /
        (∑ rj ∈ drawSet size n, ind {x | L x = L (z rk.1 rk.2)} (z rj.1 rj.2)) * f (z rk.1 rk.2) =
      ∑ c ∈ Finset.range m, p c / (∑ rj ∈ drawSet size n, ind {x | L x = c} (z rj.1 rj.2)) *
        (f (z rk.1 rk.2) * ind {x | L x = c} (z rk.1 rk.2)) := by
    intro rk
    rw [Finset.sum_eq_single (L (z rk.1 rk.2))]
    · simp [ind, Set.indicator]
    · intro c _ hc
      simp [ind, Set.indicator, Ne.symm hc]
    · intro hc
      exact absurd (Finset.mem_range.2 (hm _)) hc
  rw [Finset.sum_congr rfl fun rk _ => key rk, Finset.sum_comm]
  refine Finset.sum_congr rfl fun c _ => ?_
  rw [← Finset.mul_sum]
  ring

/-- Sets that differ from `A` only in sets that shrink to nothing: the means over the draws in them tend to the mean
over `A`. -/
theorem moving_mean {size : Nat} (hsize : 0 < size) {Z : ℕ → ℕ → Ω → E} (hlaw : ∀ r k, HasLaw (Z r k) μ P)
    (hind : ∀ r, Pairwise fun j k => IndepFun (Z r j) (Z r k) P) {f : E → ℝ} (hf : Integrable f μ) {A : Set E}
    (hA : NullMeasurableSet A μ) {B : ℕ → Set E} (hB : ∀ m, MeasurableSet (B m)) (hanti : Antitone B)
    (h0 : μ (⋂ m, B m) = 0) :
    ∀ᵐ ω ∂P, ∀ An : ℕ → Set E, (∀ m, ∀ᶠ n in atTop, ∀ x ∉ B m, (x ∈ An n ↔ x ∈ A)) →
      Tendsto (fun n : ℕ => (∑ rk ∈ drawSet size n, f (Z rk.1 rk.2 ω) * ind (An n) (Z rk.1 rk.2 ω)) / n) atTop
        (𝓝 (∫ x in A, f x ∂μ)) := by
  have h1 := streams_mean hsize hlaw hind (f := A.indicator f) (hf.indicator₀ hA)
  have h2 := ae_all_iff.2 fun m => streams_mean hsize hlaw hind (f := (B m).indicator fun x => |f x|)
    (hf.abs.indicator (hB m))
  have hzero : Tendsto (fun m => ∫ x in B m, |f x| ∂μ) atTop (𝓝 0) := by
    have := tendsto_setIntegral_of_antitone (μ := μ) (f := fun x => |f x|) hB hanti ⟨0, hf.abs.integrableOn⟩
    rwa [Measure.restrict_eq_zero.2 h0, integral_zero_measure] at this
  filter_upwards [h1, h2] with ω h1 h2 An hAn
  rw [integral_indicator₀ hA] at h1
  have h1' : Tendsto (fun n : ℕ => (∑ rk ∈ drawSet size n, A.indicator f (Z rk.1 rk.2 ω)) / n) atTop
      (𝓝 (∫ x in A, f x ∂μ)) := by
    refine h1.congr fun n => ?_
    rw [sum_drawSet (fun r k => A.indicator f (Z r k ω))]
  refine tendsto_of_tendsto_of_dist h1' ?_
  rw [NormedAddGroup.tendsto_nhds_zero]
  intro ε hε
  obtain ⟨m, hm⟩ := ((tendsto_order.1 hzero).2 ε hε).exists
  have h3 := h2 m
  rw [integral_indicator (hB m)] at h3
  filter_upwards [(tendsto_order.1 h3).2 ε hm, hAn m, eventually_gt_atTop 0] with n hn1 hn2 hn3
  refine lt_of_le_of_lt ?_ hn1
  rw [← sum_drawSet (fun r k => (B m).indicator (fun x => |f x|) (Z r k ω)), Real.norm_eq_abs, abs_of_nonneg dist_nonneg,
    Real.dist_eq, ← sub_div, ← Finset.sum_sub_distrib, abs_div, abs_of_nonneg (Nat.cast_nonneg n : (0 : ℝ) ≤ n)]
  refine div_le_div_of_nonneg_right ?_ (Nat.cast_nonneg n)
  refine (Finset.abs_sum_le_sum_abs _ _).trans (Finset.sum_le_sum fun rk _ => ?_)
  set x := Z rk.1 rk.2 ω
  rw [mul_ind]
  classical
  by_cases hx : x ∈ B m
  · simp only [Set.indicator, hx, if_true]
    split <;> split <;> simp
  · have := hn2 x hx
    simp only [Set.indicator, hx, if_false, this]
    simp

/-- The conditional means too. -/
theorem moving_conditional {size : Nat} (hsize : 0 < size) {Z : ℕ → ℕ → Ω → E} (hlaw : ∀ r k, HasLaw (Z r k) μ P)
    (hind : ∀ r, Pairwise fun j k => IndepFun (Z r j) (Z r k) P) {f : E → ℝ} (hf : Integrable f μ) {A : Set E}
    (hA : NullMeasurableSet A μ) (hpos : μ A ≠ 0) {B : ℕ → Set E} (hB : ∀ m, MeasurableSet (B m))
    (hanti : Antitone B) (h0 : μ (⋂ m, B m) = 0) :
    ∀ᵐ ω ∂P, ∀ An : ℕ → Set E, (∀ m, ∀ᶠ n in atTop, ∀ x ∉ B m, (x ∈ An n ↔ x ∈ A)) →
      Tendsto (fun n : ℕ => (∑ rk ∈ drawSet size n, f (Z rk.1 rk.2 ω) * ind (An n) (Z rk.1 rk.2 ω)) /
        ∑ rk ∈ drawSet size n, ind (An n) (Z rk.1 rk.2 ω)) atTop (𝓝 ((∫ x in A, f x ∂μ) / μ.real A)) := by
  have hμ : IsProbabilityMeasure μ := by
    rw [← (hlaw 0 0).map_eq]
    exact Measure.isProbabilityMeasure_map (hlaw 0 0).aemeasurable
  have hne : μ.real A ≠ 0 := ENNReal.toReal_ne_zero.2 ⟨hpos, measure_ne_top _ _⟩
  have h1 := moving_mean hsize hlaw hind hf hA hB hanti h0
  have h2 := moving_mean hsize hlaw hind (integrable_const (1 : ℝ)) hA hB hanti h0
  filter_upwards [h1, h2] with ω h1 h2 An hAn
  have h1 := h1 An hAn
  have h2 := h2 An hAn
  simp only [one_mul, integral_const, smul_eq_mul, mul_one, measureReal_restrict_apply MeasurableSet.univ,
    Set.univ_inter] at h2
  refine (h1.div h2 hne).congr' ?_
  filter_upwards [eventually_gt_atTop 0] with n hn
  have hn' : (n : ℝ) ≠ 0 := by exact_mod_cast hn.ne'
  simp only [Pi.div_apply]
  rw [div_div_div_cancel_right₀ hn']

end BET
