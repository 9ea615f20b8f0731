import Verif.Lemmas.Moving
import Mathlib.MeasureTheory.Integral.DominatedConvergence

/-!
# Means over draws of functions that converge
-/

set_option linter.unusedSectionVars false
set_option linter.unusedSimpArgs false
set_option autoImplicit false

namespace BET

open MeasureTheory ProbabilityTheory Filter Topology Function

variable {Ω E : Type} [MeasurableSpace Ω] [MeasurableSpace E] {P : Measure Ω} {μ : Measure E}
  [IsProbabilityMeasure P]

/-- Functions that tend to `h` almost everywhere, with an integrable bound: the mean of the `n`-th function over `M n`
draws tends to the integral of `h`, however slowly or fast `M n` grows. -/
theorem moving_function {size : Nat} (hsize : 0 < size) {Z : ℕ → ℕ → Ω → E} (hlaw : ∀ r k, HasLaw (Z r k) μ P)
    (hind : ∀ r, Pairwise fun j k => IndepFun (Z r j) (Z r k) P) {f : ℕ → E → ℝ} {h B : E → ℝ}
    (hf : ∀ n, AEStronglyMeasurable (f n) μ) (hB : Integrable B μ) (hdom : ∀ n, ∀ᵐ x ∂μ, |f n x| ≤ B x)
    (hlim : ∀ᵐ x ∂μ, Tendsto (fun n => f n x) atTop (𝓝 (h x))) {M : ℕ → ℕ} (hM : Tendsto M atTop atTop) :
    ∀ᵐ ω ∂P, Tendsto (fun n => (∑ rk ∈ drawSet size (M n), f n (Z rk.1 rk.2 ω)) / M n) atTop (𝓝 (∫ x, h x ∂μ)) := by
  have hall : ∀ᵐ x ∂μ, ∀ n, |f n x| ≤ B x := ae_all_iff.2 hdom
  have hh : AEStronglyMeasurable h μ := aestronglyMeasurable_of_tendsto_ae atTop hf hlim
  have hhB : ∀ᵐ x ∂μ, |h x| ≤ B x := by
    filter_upwards [hall, hlim] with x h1 h2
    exact le_of_tendsto h2.abs (Eventually.of_forall h1)
  have hhi : Integrable h μ := hB.mono' hh hhB
  set H : ℕ → E → ℝ := fun N x => ⨆ k, |f (N + k) x - h x| with hH
  have hbd : ∀ᵐ x ∂μ, ∀ n, |f n x - h x| ≤ 2 * B x := by
    filter_upwards [hall, hhB] with x h1 h2 n
    have := abs_sub (f n x) (h x)
    linarith [h1 n]
  have hbdd : ∀ᵐ x ∂μ, ∀ N, BddAbove (Set.range fun k => |f (N + k) x - h x|) := by
    filter_upwards [hbd] with x hx N
    exact ⟨2 * B x, by rintro _ ⟨k, rfl⟩; exact hx _⟩
  have hHm : ∀ N, AEStronglyMeasurable (H N) μ := fun N =>
    (AEMeasurable.iSup fun k => ((hf (N + k)).aemeasurable.sub hh.aemeasurable).abs).aestronglyMeasurable
  have hH0 : ∀ N x, 0 ≤ H N x := fun N x => Real.iSup_nonneg fun k => abs_nonneg _
  have hHb : ∀ N, ∀ᵐ x ∂μ, ‖H N x‖ ≤ 2 * B x := by
    intro N
    filter_upwards [hbd] with x hx
    rw [Real.norm_of_nonneg (hH0 N x)]
    exact ciSup_le fun k => hx _
  have hHi : ∀ N, Integrable (H N) μ := fun N => (hB.const_mul 2).mono' (hHm N) (hHb N)
  have hzero : Tendsto (fun N => ∫ x, H N x ∂μ) atTop (𝓝 0) := by
    have := tendsto_integral_of_dominated_convergence (F := H) (f := fun _ => (0 : ℝ)) (fun x => 2 * B x) hHm
      (hB.const_mul 2) hHb (by
        filter_upwards [hlim] with x hx
        rw [Metric.tendsto_atTop] at hx ⊢
        intro ε hε
        obtain ⟨n₀, hn₀⟩ := hx (ε / 2) (by linarith)
        refine ⟨n₀, fun N hN => ?_⟩
        rw [Real.dist_eq, sub_zero, abs_of_nonneg (hH0 N x)]
        have : H N x ≤ ε / 2 := ciSup_le fun k => by
          have := hn₀ (N + k) (by omega)
          rw [Real.dist_eq] at this
          exact this.le
        linarith)
    simpa using this
  have h1 := streams_mean hsize hlaw hind hhi
  have h2 := ae_all_iff.2 fun N => streams_mean hsize hlaw hind (hHi N)
  filter_upwards [h1, h2, ae_draws hlaw hbdd] with ω h1 h2 h3
  have h1' : Tendsto (fun n => (∑ rk ∈ drawSet size (M n), h (Z rk.1 rk.2 ω)) / M n) atTop (𝓝 (∫ x, h x ∂μ)) := by
    refine (h1.comp hM).congr fun n => ?_
    rw [sum_drawSet (fun r k => h (Z r k ω))]
    rfl
  refine tendsto_of_tendsto_of_dist h1' ?_
  rw [NormedAddGroup.tendsto_nhds_zero]
  intro ε hε
  obtain ⟨N, hN⟩ := ((tendsto_order.1 hzero).2 ε hε).exists
  filter_upwards [(tendsto_order.1 ((h2 N).comp hM)).2 ε hN, eventually_ge_atTop N] with n hn1 hn2
  refine lt_of_le_of_lt ?_ hn1
  simp only [Function.comp]
  rw [← sum_drawSet (fun r k => H N (Z r k ω)), Real.norm_eq_abs, abs_of_nonneg dist_nonneg, Real.dist_eq, ← sub_div,
    ← Finset.sum_sub_distrib, abs_div, abs_of_nonneg (Nat.cast_nonneg (M n) : (0 : ℝ) ≤ M n)]
  refine div_le_div_of_nonneg_right ?_ (Nat.cast_nonneg _)
  refine (Finset.abs_sum_le_sum_abs _ _).trans (Finset.sum_le_sum fun rk _ => ?_)
  rw [abs_sub_comm]
  have := le_ciSup (h3 rk.1 rk.2 N) (n - N)
  simpa [hH, Nat.add_sub_cancel' hn2] using this

end BET
