import Mathlib.MeasureTheory.Measure.Lebesgue.EqHaar
import Mathlib.MeasureTheory.Constructions.Pi
import Mathlib.MeasureTheory.Measure.WithDensity
import Mathlib.MeasureTheory.Function.JacobianOneDim
import Mathlib.Probability.ConditionalProbability
import Mathlib.Probability.Distributions.Gamma
import Mathlib.Probability.Distributions.Beta
import Mathlib.Probability.Distributions.Gaussian.Real

/-!
# Directions and radii

The law of `(r / N z) • z` where `z` has a density that depends on the homogeneous function `N` only and `r` has a
density of its own.
-/

set_option autoImplicit false
set_option linter.unusedSectionVars false

namespace BET

open MeasureTheory ProbabilityTheory ENNReal

variable {d : ℕ}

theorem lintegral_dilate {u : ℝ} (hu : 0 < u) {f : (Fin d → ℝ) → ℝ≥0∞} (hf : Measurable f) :
    ∫⁻ z, f (u • z) = ENNReal.ofReal (u ^ d)⁻¹ * ∫⁻ z, f z := by
  rw [← lintegral_map hf (measurable_const_smul u), Measure.map_addHaar_smul volume hu.ne', lintegral_smul_measure,
    abs_of_pos (by positivity)]
  simp

theorem lintegral_stretch {n : ℝ} (hn : 0 < n) {f : ℝ → ℝ≥0∞} (hf : Measurable f) :
    ∫⁻ r in Set.Ioi 0, f r = ENNReal.ofReal n * ∫⁻ u in Set.Ioi 0, f (n * u) := by
  have hg : Measurable ((Set.Ioi (0 : ℝ)).indicator f) := hf.indicator measurableSet_Ioi
  have key : ∫⁻ u, (Set.Ioi (0 : ℝ)).indicator f (n * u) = ENNReal.ofReal n⁻¹ * ∫⁻ r, (Set.Ioi (0 : ℝ)).indicator f r := by
    have h1 := Measure.map_addHaar_smul (E := ℝ) volume hn.ne'
    rw [Module.finrank_self, pow_one, abs_of_pos (by positivity)] at h1
    have h2 : ∫⁻ u, (Set.Ioi (0 : ℝ)).indicator f (n * u) =
        ∫⁻ r, (Set.Ioi (0 : ℝ)).indicator f r ∂Measure.map (n • ·) volume :=
      (lintegral_map hg (measurable_const_smul n)).symm
    rw [h2, h1, lintegral_smul_measure]
    rfl
  have e : ∀ u, (Set.Ioi (0 : ℝ)).indicator f (n * u) = (Set.Ioi (0 : ℝ)).indicator (fun u => f (n * u)) u := by
    intro u
    by_cases h : 0 < u
    · rw [Set.indicator_of_mem (Set.mem_Ioi.2 (mul_pos hn h)), Set.indicator_of_mem (Set.mem_Ioi.2 h)]
    · rw [Set.indicator_of_notMem (by rw [Set.mem_Ioi]; exact fun h' => h ((pos_iff_pos_of_mul_pos h').1 hn)),
        Set.indicator_of_notMem (show u ∉ Set.Ioi 0 from h)]
  simp only [e] at key
  rw [lintegral_indicator measurableSet_Ioi, lintegral_indicator measurableSet_Ioi] at key
  rw [key, ← mul_assoc, ← ENNReal.ofReal_mul hn.le, mul_inv_cancel₀ hn.ne', ENNReal.ofReal_one, one_mul]

/-- The integral of a function of `(r / N z) • z`. -/
theorem radial_lintegral {N : (Fin d → ℝ) → ℝ} (hN : Measurable N) (hom : ∀ u z, 0 < u → N (u • z) = u * N z)
    (hpos : ∀ᵐ z, 0 < N z) {F ρ : ℝ → ℝ≥0∞} (hF : Measurable F) (hρ : Measurable ρ) {h : (Fin d → ℝ) → ℝ≥0∞}
    (hh : Measurable h) :
    ∫⁻ z, F (N z) * ∫⁻ r in Set.Ioi 0, ρ r * h ((r / N z) • z) =
      (∫⁻ v in Set.Ioi 0, ENNReal.ofReal (v ^ d)⁻¹ * (ENNReal.ofReal v⁻¹ * F v⁻¹)) *
        ∫⁻ w, ρ (N w) * ENNReal.ofReal (N w * (N w ^ d)⁻¹) * h w := by
  have hsm : Measurable fun q : ℝ × (Fin d → ℝ) => q.1 • q.2 := measurable_fst.smul measurable_snd
  set G : ℝ → (Fin d → ℝ) → ℝ≥0∞ := fun u w =>
    F (N w / u) * (ENNReal.ofReal (N w / u) * (ρ (N w) * h w)) with hG
  have hGm : Measurable (Function.uncurry G) := by
    rw [hG]
    exact (hF.comp ((hN.comp measurable_snd).div measurable_fst)).mul
      (((hN.comp measurable_snd).div measurable_fst).ennreal_ofReal.mul
        ((hρ.comp (hN.comp measurable_snd)).mul (hh.comp measurable_snd)))
  -- substitute `r = N z * u`
  have s1 : ∫⁻ z, F (N z) * ∫⁻ r in Set.Ioi 0, ρ r * h ((r / N z) • z) =
      ∫⁻ z, ∫⁻ u in Set.Ioi 0, G u (u • z) := by
    refine lintegral_congr_ae ?_
    filter_upwards [hpos] with z hz
    have m1 : Measurable fun r : ℝ => ρ r * h ((r / N z) • z) :=
      hρ.mul (hh.comp ((measurable_id.div_const _).smul measurable_const))
    have m2 : Measurable fun u : ℝ => ρ (N z * u) * h ((N z * u / N z) • z) := m1.comp (measurable_const_mul _)
    rw [lintegral_stretch hz m1, ← lintegral_const_mul _ m2, ← lintegral_const_mul _ (m2.const_mul _)]
    refine setLIntegral_congr_fun measurableSet_Ioi fun u hu => ?_
    rw [Set.mem_Ioi] at hu
    simp only [hG, hom u z hu, mul_div_cancel_left₀ _ hz.ne', mul_div_cancel_left₀ _ hu.ne']
    rw [mul_comm u (N z)]
  have m3 : Measurable (Function.uncurry fun (z : Fin d → ℝ) (u : ℝ) => G u (u • z)) :=
    hGm.comp (measurable_snd.prodMk (hsm.comp (measurable_snd.prodMk measurable_fst)))
  rw [s1, lintegral_lintegral_swap m3.aemeasurable]
  -- substitute `w = u • z`
  have s2 : ∫⁻ u in Set.Ioi 0, ∫⁻ z, G u (u • z) = ∫⁻ u in Set.Ioi 0, ∫⁻ w, ENNReal.ofReal (u ^ d)⁻¹ * G u w := by
    refine setLIntegral_congr_fun measurableSet_Ioi fun u hu => ?_
    have m4 : Measurable (G u) := hGm.comp (measurable_const.prodMk measurable_id)
    rw [lintegral_dilate hu m4, lintegral_const_mul _ m4]
  have m5 : Measurable (Function.uncurry fun (u : ℝ) (w : Fin d → ℝ) => ENNReal.ofReal (u ^ d)⁻¹ * G u w) :=
    ((measurable_fst.pow_const d).inv.ennreal_ofReal).mul hGm
  rw [s2, lintegral_lintegral_swap m5.aemeasurable]
  have mB : Measurable fun w => ρ (N w) * ENNReal.ofReal (N w * (N w ^ d)⁻¹) * h w :=
    ((hρ.comp hN).mul (hN.mul (hN.pow_const d).inv).ennreal_ofReal).mul hh
  rw [← lintegral_const_mul _ mB]
  refine lintegral_congr_ae ?_
  filter_upwards [hpos] with w hw
  have m6 : Measurable fun u : ℝ => ENNReal.ofReal (u ^ d)⁻¹ * G u w :=
    m5.comp (measurable_id.prodMk measurable_const)
  have m7 : Measurable fun v : ℝ => ENNReal.ofReal (v ^ d)⁻¹ * (ENNReal.ofReal v⁻¹ * F v⁻¹) :=
    (measurable_id.pow_const d).inv.ennreal_ofReal.mul (measurable_inv.ennreal_ofReal.mul (hF.comp measurable_inv))
  have m8 : Measurable fun u : ℝ => ENNReal.ofReal ((N w * u) ^ d)⁻¹ * G (N w * u) w := m6.comp (measurable_const_mul _)
  rw [lintegral_stretch hw m6, mul_comm (∫⁻ v in Set.Ioi 0, _), ← lintegral_const_mul _ m7, ← lintegral_const_mul _ m8]
  refine setLIntegral_congr_fun measurableSet_Ioi fun v hv => ?_
  rw [Set.mem_Ioi] at hv
  have e1 : N w / (N w * v) = v⁻¹ := by
    field_simp
  simp only [hG, e1]
  rw [mul_pow, mul_inv, ENNReal.ofReal_mul (by positivity), ENNReal.ofReal_mul hw.le]
  ring

/-- The law of `(r / N z) • z`. -/
theorem radial_map {N : (Fin d → ℝ) → ℝ} (hN : Measurable N) (hom : ∀ u z, 0 < u → N (u • z) = u * N z)
    (hpos : ∀ᵐ z, 0 < N z) {F ρ : ℝ → ℝ≥0∞} (hF : Measurable F) (hρ : Measurable ρ) (h0 : ∀ r ≤ 0, ρ r = 0)
    [SFinite (volume.withDensity ρ)] :
    Measure.map (fun q : (Fin d → ℝ) × ℝ => (q.2 / N q.1) • q.1)
        ((volume.withDensity fun z => F (N z)).prod (volume.withDensity ρ)) =
      (∫⁻ v in Set.Ioi 0, ENNReal.ofReal (v ^ d)⁻¹ * (ENNReal.ofReal v⁻¹ * F v⁻¹)) •
        volume.withDensity fun w => ρ (N w) * ENNReal.ofReal (N w * (N w ^ d)⁻¹) := by
  have hT : Measurable fun q : (Fin d → ℝ) × ℝ => (q.2 / N q.1) • q.1 :=
    (measurable_snd.div (hN.comp measurable_fst)).smul measurable_fst
  have hFN : Measurable fun z => F (N z) := hF.comp hN
  have hD : Measurable fun w => ρ (N w) * ENNReal.ofReal (N w * (N w ^ d)⁻¹) :=
    (hρ.comp hN).mul (hN.mul (hN.pow_const d).inv).ennreal_ofReal
  ext A hA
  have hind : Measurable (A.indicator (1 : (Fin d → ℝ) → ℝ≥0∞)) := measurable_one.indicator hA
  have hc : Measurable fun q : (Fin d → ℝ) × ℝ => A.indicator (1 : (Fin d → ℝ) → ℝ≥0∞) ((q.2 / N q.1) • q.1) :=
    hind.comp hT
  rw [← lintegral_indicator_one hA, lintegral_map hind hT, lintegral_prod _ hc.aemeasurable,
    lintegral_withDensity_eq_lintegral_mul _ hFN hc.lintegral_prod_right',
    Measure.smul_apply, withDensity_apply _ hA, ← lintegral_indicator hA, smul_eq_mul]
  have key := radial_lintegral hN hom hpos hF hρ hind
  have e1 : ∀ w, A.indicator (fun w => ρ (N w) * ENNReal.ofReal (N w * (N w ^ d)⁻¹)) w =
      ρ (N w) * ENNReal.ofReal (N w * (N w ^ d)⁻¹) * A.indicator 1 w := by
    intro w
    by_cases h : w ∈ A <;> simp [h]
  simp only [e1]
  rw [← key]
  refine lintegral_congr fun z => ?_
  have m1 : Measurable fun r : ℝ => A.indicator (1 : (Fin d → ℝ) → ℝ≥0∞) ((r / N z) • z) :=
    hind.comp ((measurable_id.div_const _).smul measurable_const)
  simp only [Pi.mul_apply]
  rw [lintegral_withDensity_eq_lintegral_mul _ hρ m1]
  congr 1
  rw [← lintegral_indicator measurableSet_Ioi]
  refine lintegral_congr fun r => ?_
  by_cases hr : 0 < r
  · rw [Set.indicator_of_mem (Set.mem_Ioi.2 hr)]
    rfl
  · rw [Set.indicator_of_notMem (show r ∉ Set.Ioi 0 from hr), Pi.mul_apply, h0 r (not_lt.1 hr), zero_mul]

/-- A probability measure proportional to a restricted measure is the conditional one. -/
theorem eq_cond {α : Type} [MeasurableSpace α] {μ ν : Measure α} [IsProbabilityMeasure ν] {B : Set α} {c : ℝ≥0∞}
    (h : ν = c • μ.restrict B) : ν = ProbabilityTheory.cond μ B := by
  have h1 : c * μ B = 1 := by
    have := congrArg (fun m : Measure α => m Set.univ) h
    simpa using this.symm
  rw [h, ProbabilityTheory.cond, ENNReal.eq_inv_of_mul_eq_one_left h1]

/-! ### Products of densities -/

theorem lintegral_pi_prod : ∀ {n : ℕ} (f : Fin n → ℝ → ℝ≥0∞), (∀ i, Measurable (f i)) →
    ∫⁻ x : Fin n → ℝ, ∏ i, f i (x i) = ∏ i, ∫⁻ y, f i y
  | 0, f, _ => by simp [volume_pi]
  | n + 1, f, hf => by
    have e := (volume_preserving_piFinSuccAbove (fun _ : Fin (n + 1) => ℝ) 0).symm
    rw [← e.lintegral_comp_emb (MeasurableEquiv.measurableEmbedding _)]
    simp only [Fin.prod_univ_succ]
    have m : Measurable fun y : Fin n → ℝ => ∏ i : Fin n, f i.succ (y i) :=
      Finset.measurable_prod _ fun i _ => (hf _).comp (measurable_pi_apply i)
    have e2 : ∀ q : ℝ × (Fin n → ℝ), f 0 ((MeasurableEquiv.piFinSuccAbove (fun _ : Fin (n + 1) => ℝ) 0).symm q 0) *
        ∏ i : Fin n, f i.succ ((MeasurableEquiv.piFinSuccAbove (fun _ : Fin (n + 1) => ℝ) 0).symm q i.succ) =
        f 0 q.1 * ∏ i : Fin n, f i.succ (q.2 i) := by
      intro q
      simp [MeasurableEquiv.piFinSuccAbove, Fin.insertNthEquiv]
    simp only [e2]
    rw [show (volume : Measure (ℝ × (Fin n → ℝ))) = (volume : Measure ℝ).prod volume from rfl,
      lintegral_prod_mul (hf 0).aemeasurable m.aemeasurable, lintegral_pi_prod (fun i : Fin n => f i.succ) fun i => hf _]

theorem pi_density {f : ℝ → ℝ≥0∞} (hf : Measurable f) [SigmaFinite ((volume : Measure ℝ).withDensity f)] :
    (Measure.pi fun _ : Fin d => (volume : Measure ℝ).withDensity f) =
      (volume : Measure (Fin d → ℝ)).withDensity fun x => ∏ i, f (x i) := by
  refine (Measure.pi_eq (μ := fun _ : Fin d => (volume : Measure ℝ).withDensity f) fun s hs => ?_)
  have hS : MeasurableSet (Set.univ.pi s) := MeasurableSet.univ_pi hs
  rw [withDensity_apply _ hS, ← lintegral_indicator hS]
  have e : ∀ x, (Set.univ.pi s).indicator (fun x : Fin d → ℝ => ∏ i, f (x i)) x =
      ∏ i, (s i).indicator f (x i) := by
    intro x
    by_cases h : x ∈ Set.univ.pi s
    · rw [Set.indicator_of_mem h]
      exact Finset.prod_congr rfl fun i _ => (Set.indicator_of_mem (h i trivial) f).symm
    · rw [Set.indicator_of_notMem h]
      obtain ⟨i, hi⟩ : ∃ i, x i ∉ s i := by simpa [Set.mem_pi] using h
      exact (Finset.prod_eq_zero (Finset.mem_univ i) (Set.indicator_of_notMem hi f)).symm
  simp only [e]
  rw [lintegral_pi_prod (fun i => (s i).indicator f) fun i => hf.indicator (hs i)]
  exact Finset.prod_congr rfl fun i _ => by rw [lintegral_indicator (hs i), withDensity_apply _ (hs i)]

end BET
