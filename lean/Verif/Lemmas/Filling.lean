import Verif.Lemmas.Moving
import Mathlib.MeasureTheory.Integral.DominatedConvergence
import Mathlib.MeasureTheory.Integral.Bochner.Set

/-!
# Sums over cells that shrink
-/

set_option linter.unusedSectionVars false
set_option linter.unusedSimpArgs false
set_option autoImplicit false

namespace BET

open MeasureTheory Filter Topology

variable {E : Type} [PseudoMetricSpace E] [MeasurableSpace E] {μ : Measure E}

/-- The cell sum of a function is the integral of the function at the points of the cells. -/
theorem cell_integral [IsFiniteMeasure μ] {N : ℕ} {C : ℕ → Set E} (hC : ∀ i, NullMeasurableSet (C i) μ) (w : ℕ → ℝ) :
    ∑ i ∈ Finset.range N, μ.real (C i) * w i = ∫ x, ∑ i ∈ Finset.range N, ind (C i) x * w i ∂μ := by
  have hint : ∀ i, Integrable (fun x => ind (C i) x * w i) μ := fun i =>
    ((integrable_const (1 : ℝ)).indicator₀ (hC i)).mul_const _
  rw [integral_finsetSum _ fun i _ => hint i]
  refine Finset.sum_congr rfl fun i _ => ?_
  rw [integral_mul_const]
  congr 1
  have : ∫ x, ind (C i) x ∂μ = ∫ x, (C i).indicator (fun _ => (1 : ℝ)) x ∂μ := rfl
  rw [this, integral_indicator₀ (hC i)]
  simp

/-- A sum in which one set counts. -/
theorem cell_pick {N : ℕ} {C : ℕ → Set E} {x : E} {i : ℕ} (hi : i < N) (hx : x ∈ C i)
    (hone : ∀ j < N, x ∈ C j → j = i) (w : ℕ → ℝ) : ∑ j ∈ Finset.range N, ind (C j) x * w j = w i := by
  rw [Finset.sum_eq_single i]
  · simp [ind, Set.indicator, hx]
  · intro j hj hji
    have : x ∉ C j := fun h => hji (hone j (Finset.mem_range.1 hj) h)
    simp [ind, Set.indicator, this]
  · intro h; exact absurd (Finset.mem_range.2 hi) h

/-- If almost every point is the limit of the points `z n i` of the cells `C n i` it lies in, the cell sums of a bounded
function that is continuous almost everywhere tend to its integral. -/
theorem shrinking_sum [IsFiniteMeasure μ] {N : ℕ → ℕ} {C : ℕ → ℕ → Set E} {z : ℕ → ℕ → E}
    (hC : ∀ n i, NullMeasurableSet (C n i) μ)
    (hcell : ∀ n, ∀ᵐ x ∂μ, ∃ i < N n, x ∈ C n i ∧ ∀ j < N n, x ∈ C n j → j = i)
    (hnear : ∀ᵐ x ∂μ, ∀ ε > 0, ∀ᶠ n in atTop, ∀ i < N n, x ∈ C n i → dist (z n i) x < ε)
    {h : E → ℝ} {K : ℝ} (hK : ∀ x, |h x| ≤ K) (hcont : ∀ᵐ x ∂μ, ContinuousAt h x) :
    Tendsto (fun n => ∑ i ∈ Finset.range (N n), μ.real (C n i) * h (z n i)) atTop (𝓝 (∫ x, h x ∂μ)) := by
  simp only [cell_integral (hC _)]
  refine tendsto_integral_of_dominated_convergence (fun _ => K) (fun n => ?_) (integrable_const K) (fun n => ?_) ?_
  · have hint : ∀ i, Integrable (fun x => ind (C n i) x * h (z n i)) μ := fun i =>
      ((integrable_const (1 : ℝ)).indicator₀ (hC n i)).mul_const _
    exact (integrable_finsetSum _ fun i _ => hint i).aestronglyMeasurable
  · filter_upwards [hcell n] with x hx
    obtain ⟨i, hi, hxi, hone⟩ := hx
    rw [cell_pick hi hxi hone fun i => h (z n i), Real.norm_eq_abs]
    exact hK _
  · filter_upwards [ae_all_iff.2 hcell, hnear, hcont] with x h1 h2 h3
    rw [Metric.tendsto_atTop]
    intro ε hε
    obtain ⟨δ, hδ, hδ'⟩ := Metric.continuousAt_iff.1 h3 ε hε
    obtain ⟨n₀, hn₀⟩ := eventually_atTop.1 (h2 δ hδ)
    refine ⟨n₀, fun n hn => ?_⟩
    obtain ⟨i, hi, hxi, hone⟩ := h1 n
    rw [cell_pick hi hxi hone fun i => h (z n i)]
    exact hδ' (hn₀ n hn i hi hxi)

/-- Cells that share the probabilities of labels: the sums over the cells, label by label. -/
theorem cell_shares {N m : ℕ} {L : ℕ → ℕ} (hm : ∀ i < N, L i < m) (p : ℕ → ℝ) (hp : ∀ c, 0 ≤ p c) (v w : ℕ → ℝ)
    (hv : ∀ i < N, 0 ≤ v i) :
    ∑ i ∈ Finset.range N, (if 0 < p (L i) ∧ 0 < ∑ j ∈ Finset.range N with L j = L i, v j then
        p (L i) * v i / ∑ j ∈ Finset.range N with L j = L i, v j else 0) * w i =
      ∑ c ∈ Finset.range m, p c * ((∑ i ∈ Finset.range N, v i * (w i * if L i = c then 1 else 0)) /
        ∑ i ∈ Finset.range N, v i * if L i = c then 1 else 0) := by
  have hS : ∀ c, ∑ j ∈ Finset.range N with L j = c, v j = ∑ i ∈ Finset.range N, v i * if L i = c then 1 else 0 := by
    intro c
    rw [Finset.sum_filter]
    refine Finset.sum_congr rfl fun i _ => ?_
    split <;> simp
  have key : ∀ i ∈ Finset.range N, (if 0 < p (L i) ∧ 0 < ∑ j ∈ Finset.range N with L j = L i, v j then
        p (L i) * v i / ∑ j ∈ Finset.range N with L j = L i, v j else 0) * w i =
      ∑ c ∈ Finset.range m, p c * ((v i * (w i * if L i = c then 1 else 0)) /
        ∑ j ∈ Finset.range N, v j * if L j = c then 1 else 0) := by
    intro i hi
    have hi' := Finset.mem_range.1 hi
    rw [Finset.sum_eq_single (s := Finset.range m) (L i)]
    · rw [← hS]
      simp only [if_true, mul_one]
      have h0 : 0 ≤ ∑ j ∈ Finset.range N with L j = L i, v j :=
        Finset.sum_nonneg fun j hj => hv j (Finset.mem_range.1 (Finset.mem_filter.1 hj).1)
      split
      · ring
      · next hn =>
        rw [not_and_or, not_lt, not_lt] at hn
        rcases hn with hn | hn
        · rw [le_antisymm hn (hp _)]; ring
        · rw [le_antisymm hn h0]; simp
    · intro c _ hc
      simp [Ne.symm hc]
    · intro hc
      exact absurd (Finset.mem_range.2 (hm i hi')) hc
  rw [Finset.sum_congr rfl key, Finset.sum_comm]
  refine Finset.sum_congr rfl fun c _ => ?_
  rw [← Finset.mul_sum, Finset.sum_div]

end BET
