import Verif.Lemmas.Chance

/-!
# Means over independent draws, and draws that share a probability
-/

set_option linter.unusedSectionVars false
set_option linter.unusedSimpArgs false
set_option autoImplicit false

namespace BET

open MeasureTheory ProbabilityTheory Filter Topology Function

variable {Ω E : Type} [MeasurableSpace Ω] [MeasurableSpace E] {P : Measure Ω} {μ : Measure E}

/-- What holds almost everywhere for a law holds almost surely for all draws. -/
theorem ae_draws {Z : ℕ → ℕ → Ω → E} (hlaw : ∀ r k, HasLaw (Z r k) μ P) {p : E → Prop} (h : ∀ᵐ x ∂μ, p x) :
    ∀ᵐ ω ∂P, ∀ r k, p (Z r k ω) := by
  refine ae_all_iff.2 fun r => ae_all_iff.2 fun k => ?_
  rw [← (hlaw r k).map_eq] at h
  exact ae_of_ae_map (hlaw r k).aemeasurable h

variable [IsProbabilityMeasure P]

/-- The mean of an integrable function over one stream of pairwise independent draws tends to its integral. -/
theorem stream_mean {Z : ℕ → Ω → E} (hlaw : ∀ k, HasLaw (Z k) μ P)
    (hind : Pairwise fun j k => IndepFun (Z j) (Z k) P) {f : E → ℝ} (hf : Integrable f μ) :
    ∀ᵐ ω ∂P, Tendsto (fun n : ℕ => (∑ k ∈ Finset.range n, f (Z k ω)) / n) atTop (𝓝 (∫ x, f x ∂μ)) := by
  set g := hf.1.mk f with hg
  have hgm : Measurable g := hf.1.stronglyMeasurable_mk.measurable
  have hfg : f =ᵐ[μ] g := hf.1.ae_eq_mk
  have hgi : Integrable g μ := hf.congr hfg
  have hint : Integrable (fun ω => g (Z 0 ω)) P := by
    have := hgi
    rw [← (hlaw 0).map_eq] at this
    exact this.comp_aemeasurable (hlaw 0).aemeasurable
  have hpair : Pairwise ((IndepFun · · P) on fun k ω => g (Z k ω)) := fun j k hjk =>
    (hind hjk).comp hgm hgm
  have hid : ∀ k, IdentDistrib (fun ω => g (Z k ω)) (fun ω => g (Z 0 ω)) P P := fun k =>
    IdentDistrib.comp (u := g)
      ⟨(hlaw k).aemeasurable, (hlaw 0).aemeasurable, by rw [(hlaw k).map_eq, (hlaw 0).map_eq]⟩ hgm
  have hlim := strong_law_ae_real (fun k ω => g (Z k ω)) hint hpair hid
  have hval : ∫ ω, g (Z 0 ω) ∂P = ∫ x, f x ∂μ := by
    rw [integral_congr_ae hfg]
    exact (hlaw 0).integral_comp (f := g) hgm.aestronglyMeasurable
  rw [hval] at hlim
  have heq : ∀ᵐ ω ∂P, ∀ k, f (Z k ω) = g (Z k ω) := ae_all_iff.2 fun k => by
    rw [← (hlaw k).map_eq] at hfg
    exact ae_of_ae_map (hlaw k).aemeasurable hfg
  filter_upwards [hlim, heq] with ω h1 h2
  simpa only [h2] using h1

/-- The same for the draws of several processes together. -/
theorem streams_mean {size : Nat} (hsize : 0 < size) {Z : ℕ → ℕ → Ω → E} (hlaw : ∀ r k, HasLaw (Z r k) μ P)
    (hind : ∀ r, Pairwise fun j k => IndepFun (Z r j) (Z r k) P) {f : E → ℝ} (hf : Integrable f μ) :
    ∀ᵐ ω ∂P, Tendsto (fun n : ℕ => (∑ r ∈ Finset.range size, ∑ k ∈ Finset.range (numLocal n size r),
      f (Z r k ω)) / n) atTop (𝓝 (∫ x, f x ∂μ)) := by
  have hs : (size : ℝ) ≠ 0 := by exact_mod_cast hsize.ne'
  have h := ae_all_iff.2 fun r => stream_mean (hlaw r) (hind r) hf
  filter_upwards [h] with ω hω
  have hr : ∀ r ∈ Finset.range size, Tendsto (fun n : ℕ => (∑ k ∈ Finset.range (numLocal n size r),
      f (Z r k ω)) / n) atTop (𝓝 ((∫ x, f x ∂μ) * (1 / size))) := by
    intro r _
    have h1 := ((hω r).comp (numLocal_share hsize r).2).mul (numLocal_share hsize r).1
    refine h1.congr' ?_
    filter_upwards [(numLocal_share hsize r).2.eventually_gt_atTop 0] with n hn
    have hn' : (numLocal n size r : ℝ) ≠ 0 := by exact_mod_cast hn.ne'
    simp only [Function.comp]
    field_simp
  have hsum := tendsto_finsetSum (Finset.range size) hr
  simp only [Finset.sum_const, Finset.card_range, nsmul_eq_mul] at hsum
  rw [show (size : ℝ) * ((∫ x, f x ∂μ) * (1 / size)) = ∫ x, f x ∂μ by field_simp] at hsum
  refine hsum.congr fun n => ?_
  rw [Finset.sum_div]

/-- The draws of all processes. -/
def drawSet (size n : Nat) : Finset ((_ : ℕ) × ℕ) :=
  (Finset.range size).sigma fun r => Finset.range (numLocal n size r)

/-- The mean over the draws that hit an event tends to the conditional mean; if the event has no probability no draw
hits it. -/
theorem conditional_mean {size : Nat} (hsize : 0 < size) {Z : ℕ → ℕ → Ω → E} (hlaw : ∀ r k, HasLaw (Z r k) μ P)
    (hind : ∀ r, Pairwise fun j k => IndepFun (Z r j) (Z r k) P) {f : E → ℝ} (hf : Integrable f μ) {A : Set E}
    (hA : NullMeasurableSet A μ) :
    ∀ᵐ ω ∂P, Tendsto (fun n : ℕ => (∑ rk ∈ drawSet size n, f (Z rk.1 rk.2 ω) * ind A (Z rk.1 rk.2 ω)) /
      ∑ rk ∈ drawSet size n, ind A (Z rk.1 rk.2 ω)) atTop (𝓝 ((∫ x in A, f x ∂μ) / μ.real A)) := by
  have hμ : IsProbabilityMeasure μ := by
    rw [← (hlaw 0 0).map_eq]
    exact Measure.isProbabilityMeasure_map (hlaw 0 0).aemeasurable
  by_cases h0 : μ A = 0
  · have hnot : ∀ᵐ x ∂μ, x ∉ A := measure_eq_zero_iff_ae_notMem.1 h0
    filter_upwards [ae_draws hlaw hnot] with ω hω
    have : ∀ r k, ind A (Z r k ω) = 0 := fun r k => by simp [ind, Set.indicator, hω r k]
    simp only [this, mul_zero, Finset.sum_const_zero, div_zero, Measure.real, h0, ENNReal.toReal_zero]
    exact tendsto_const_nhds
  · have hpos : μ.real A ≠ 0 := by
      rw [Measure.real]
      exact ENNReal.toReal_ne_zero.2 ⟨h0, measure_ne_top _ _⟩
    have e1 : ∀ x, f x * ind A x = A.indicator f x := fun x => by
      simp only [ind, Set.indicator]
      split <;> simp
    have h1 := streams_mean hsize hlaw hind (f := A.indicator f) (hf.indicator₀ hA)
    have h2 := frequency hsize hlaw hind hA
    filter_upwards [h1, h2] with ω h1 h2
    rw [integral_indicator₀ hA] at h1
    have h3 := h1.div h2 hpos
    refine h3.congr' ?_
    filter_upwards [eventually_gt_atTop 0] with n hn
    have hn' : (n : ℝ) ≠ 0 := by exact_mod_cast hn.ne'
    simp only [Pi.div_apply, drawSet, Finset.sum_sigma, e1]
    rw [div_div_div_cancel_right₀ hn']

/-- Draws that share the probabilities `p` of labels: a draw has the part of the probability of its label that is left
when it is shared equally by all draws with this label. The mean of a function with these weights tends to the sum of
its conditional means, and it does so when the probabilities themselves only tend to a limit `q`. -/
theorem shares_mean {size : Nat} (hsize : 0 < size) {Z : ℕ → ℕ → Ω → E} (hlaw : ∀ r k, HasLaw (Z r k) μ P)
    (hind : ∀ r, Pairwise fun j k => IndepFun (Z r j) (Z r k) P) {f : E → ℝ} (hf : Integrable f μ) {m : Nat}
    {L : E → ℕ} (hL : ∀ c, NullMeasurableSet {x | L x = c} μ) (hm : ∀ x, L x < m) :
    ∀ᵐ ω ∂P, ∀ (p : ℕ → ℕ → ℝ) (q : ℕ → ℝ), (∀ c < m, Tendsto (fun n => p n c) atTop (𝓝 (q c))) →
      Tendsto (fun n : ℕ => ∑ rk ∈ drawSet size n, p n (L (Z rk.1 rk.2 ω)) /
        (∑ rj ∈ drawSet size n, ind {x | L x = L (Z rk.1 rk.2 ω)} (Z rj.1 rj.2 ω)) * f (Z rk.1 rk.2 ω)) atTop
        (𝓝 (∑ c ∈ Finset.range m, q c * ((∫ x in {x | L x = c}, f x ∂μ) / μ.real {x | L x = c}))) := by
  have h := ae_all_iff.2 fun c => conditional_mean hsize hlaw hind hf (hL c)
  filter_upwards [h] with ω hω p q hpq
  have hsum := tendsto_finsetSum (Finset.range m) fun c hc => (hpq c (Finset.mem_range.1 hc)).mul (hω c)
  refine hsum.congr fun n => ?_
  have key : ∀ rk : (_ : ℕ) × ℕ, p n (L (Z rk.1 rk.2 ω)) /
        (∑ rj ∈ drawSet size n, ind {x | L x = L (Z rk.1 rk.2 ω)} (Z rj.1 rj.2 ω)) * f (Z rk.1 rk.2 ω) =
      ∑ c ∈ Finset.range m, p n c / (∑ rj ∈ drawSet size n, ind {x | L x = c} (Z rj.1 rj.2 ω)) *
        (f (Z rk.1 rk.2 ω) * ind {x | L x = c} (Z rk.1 rk.2 ω)) := by
    intro rk
    rw [Finset.sum_eq_single (L (Z rk.1 rk.2 ω))]
    · simp [ind, Set.indicator]
    · intro c _ hc
      simp [ind, Set.indicator, Ne.symm hc]
    · intro hc
      exact absurd (Finset.mem_range.2 (hm _)) hc
  rw [Finset.sum_congr rfl fun rk _ => key rk, Finset.sum_comm]
  refine Finset.sum_congr rfl fun c _ => ?_
  rw [← Finset.mul_sum]
  ring

end BET
