import Verif.Lemmas.Radial
import Verif.Lemmas.Basic

/-!
# Laws of the ingredients of samples of a p-ball
-/

set_option autoImplicit false
set_option linter.unusedSectionVars false
set_option linter.unusedSimpArgs false

namespace BET

open MeasureTheory ProbabilityTheory ENNReal

variable {d : ℕ}

/-! ### One coordinate -/

theorem gauss_half : gaussianReal 0 1 (Set.Ioi 0) = 1 / 2 ∧ gaussianReal 0 1 (Set.Iio 0) = 1 / 2 := by
  have hn : (gaussianReal 0 1).map (fun y => -y) = gaussianReal 0 1 := by
    rw [gaussianReal_map_neg]; simp
  have h1 : gaussianReal 0 1 (Set.Iio 0) = gaussianReal 0 1 (Set.Ioi 0) := by
    conv_lhs => rw [← hn]
    rw [Measure.map_apply measurable_neg measurableSet_Iio]
    congr 1
    ext y
    simp
  have : NullSingletonClass (gaussianReal 0 1) := nullSingletonClass_gaussianReal one_ne_zero
  have h2 : gaussianReal 0 1 (Set.Iio 0) + gaussianReal 0 1 (Set.Ioi 0) = 1 := by
    rw [← measure_union (by rw [Set.disjoint_left]; intro x hx hy; exact lt_asymm (Set.mem_Iio.1 hx) (Set.mem_Ioi.1 hy)) measurableSet_Ioi,
      Set.Iio_union_Ioi, prob_compl_eq_one_sub (measurableSet_singleton _), measure_singleton, tsub_zero]
  rw [h1, ← two_mul] at h2
  have h3 : gaussianReal 0 1 (Set.Ioi 0) = 1 / 2 := by
    rw [ENNReal.eq_div_iff (by norm_num) (by norm_num)]
    exact h2
  exact ⟨h3, h1.trans h3⟩

theorem lintegral_power {p : ℝ} (hp : 0 < p) (f : ℝ → ℝ≥0∞) :
    ∫⁻ x in Set.Ioi 0, f x = ∫⁻ z in Set.Ioi (0 : ℝ), ENNReal.ofReal (p * z ^ (p - 1)) * f (z ^ p) := by
  have hi : (fun z : ℝ => z ^ p) '' Set.Ioi 0 = Set.Ioi 0 := by
    ext x
    constructor
    · rintro ⟨z, hz, rfl⟩
      exact Real.rpow_pos_of_pos hz p
    · intro hx
      exact ⟨x ^ p⁻¹, Real.rpow_pos_of_pos hx _, Real.rpow_inv_rpow (le_of_lt hx) hp.ne'⟩
  have hd : ∀ z ∈ Set.Ioi (0 : ℝ), HasDerivWithinAt (fun z : ℝ => z ^ p) (p * z ^ (p - 1)) (Set.Ioi 0) z :=
    fun z hz => (Real.hasDerivAt_rpow_const (Or.inl (ne_of_gt hz))).hasDerivWithinAt
  have hinj : Set.InjOn (fun z : ℝ => z ^ p) (Set.Ioi 0) := fun a ha b hb h =>
    Real.rpow_left_injOn hp.ne' (le_of_lt (Set.mem_Ioi.1 ha) : (0 : ℝ) ≤ a) (le_of_lt (Set.mem_Ioi.1 hb) : (0 : ℝ) ≤ b) h
  conv_lhs => rw [← hi]
  rw [lintegral_image_eq_lintegral_abs_deriv_mul measurableSet_Ioi hd hinj]
  refine setLIntegral_congr_fun measurableSet_Ioi fun z hz => ?_
  have hz : 0 < z := hz
  rw [abs_of_pos (by positivity)]

/-- The density, at distance `v` from zero, of the numbers with law proportional to `exp (- b |z| ^ p)`. -/
noncomputable def expPower (p b v : ℝ) : ℝ≥0∞ :=
  ENNReal.ofReal (p * b ^ (1 / p) / (2 * Real.Gamma (1 / p)) * Real.exp (-(b * v ^ p)))

theorem measurable_expPower (p b : ℝ) : Measurable (expPower p b) := by
  unfold expPower
  fun_prop

theorem lintegral_line {f : ℝ → ℝ≥0∞} (hf : Measurable f) :
    ∫⁻ z, f z = ∫⁻ z in Set.Ioi 0, (f z + f (-z)) := by
  rw [lintegral_add_left hf]
  have h1 : ∫⁻ z in Set.Ioi (0 : ℝ), f (-z) = ∫⁻ z in Set.Iic 0, f z := by
    have h2 : (volume : Measure ℝ).map Neg.neg = volume := Measure.map_neg_eq_self volume
    rw [← restrict_Iio_eq_restrict_Iic]
    conv_rhs => rw [← h2]
    rw [setLIntegral_map measurableSet_Iio hf measurable_neg]
    congr 2
    ext z
    simp
  rw [h1, ← lintegral_add_compl f (measurableSet_Ioi (a := (0 : ℝ))), Set.compl_Ioi]

theorem gamma_power {p b z : ℝ} (hp : 0 < p) (hb : 0 < b) (hz : 0 < z) :
    ENNReal.ofReal (p * z ^ (p - 1)) * gammaPDF (1 / p) b (z ^ p) = 2 * expPower p b z := by
  rw [gammaPDF_eq, if_pos (Real.rpow_nonneg hz.le p), expPower, ← ENNReal.ofReal_mul (by positivity),
    show (2 : ℝ≥0∞) = ENNReal.ofReal 2 by simp, ← ENNReal.ofReal_mul (by norm_num)]
  congr 1
  have h1 : (z ^ p) ^ (1 / p - 1) = z ^ (1 - p) := by
    rw [← Real.rpow_mul hz.le]
    congr 1
    field_simp
  have h2 : z ^ (p - 1) * z ^ (1 - p) = 1 := by
    rw [← Real.rpow_add hz]
    simp
  have hG := (Real.Gamma_pos_of_pos (one_div_pos.2 hp)).ne'
  rw [h1]
  calc p * z ^ (p - 1) * (b ^ (1 / p) / Real.Gamma (1 / p) * z ^ (1 - p) * Real.exp (-(b * z ^ p)))
      = p * (b ^ (1 / p) / Real.Gamma (1 / p)) * (z ^ (p - 1) * z ^ (1 - p)) * Real.exp (-(b * z ^ p)) := by ring
    _ = _ := by rw [h2]; field_simp

theorem measurable_signed (p : ℝ) : Measurable fun q : ℝ × ℝ => |q.1| ^ (1 / p) * (SignType.sign q.2 : ℝ) := by
  have hs : Measurable fun y : ℝ => ((SignType.sign y : SignType) : ℝ) := by
    have : (fun y : ℝ => ((SignType.sign y : SignType) : ℝ)) = fun y => if 0 < y then 1 else if y < 0 then -1 else 0 := by
      funext y
      rcases lt_trichotomy y 0 with h | h | h
      · rw [sign_neg h]; simp [h, h.le.not_gt]
      · subst h; simp
      · rw [sign_pos h]; simp [h]
    rw [this]
    exact Measurable.ite measurableSet_Ioi measurable_const
      (Measurable.ite measurableSet_Iio measurable_const measurable_const)
  refine Measurable.mul ?_ (hs.comp measurable_snd)
  fun_prop

theorem coord_law {p b : ℝ} (hp : 0 < p) (hb : 0 < b) :
    ((gammaMeasure (1 / p) b).prod (gaussianReal 0 1)).map
        (fun q : ℝ × ℝ => |q.1| ^ (1 / p) * (SignType.sign q.2 : ℝ)) =
      volume.withDensity fun z => expPower p b |z| := by
  have hT := measurable_signed p
  have hFm : Measurable fun z : ℝ => expPower p b |z| := (measurable_expPower p b).comp measurable_abs
  have hgm : Measurable (gammaPDF (1 / p) b) := (measurable_gammaPDFReal _ _).ennreal_ofReal
  have := isProbabilityMeasure_gammaMeasure (one_div_pos.2 hp) hb
  classical
  ext A hA
  rw [Measure.map_apply hT hA, Measure.prod_apply (hT hA), withDensity_apply _ hA, ← lintegral_indicator hA,
    lintegral_line (hFm.indicator hA)]
  have key : ∀ x : ℝ, 0 < x → gaussianReal 0 1 (Prod.mk x ⁻¹' ((fun q : ℝ × ℝ => |q.1| ^ (1 / p) * (SignType.sign q.2 : ℝ)) ⁻¹' A)) =
      A.indicator 1 (x ^ (1 / p)) * (1 / 2) + A.indicator 1 (-x ^ (1 / p)) * (1 / 2) := by
    intro x hx
    have : NullSingletonClass (gaussianReal 0 1) := nullSingletonClass_gaussianReal one_ne_zero
    set S : Set ℝ := Prod.mk x ⁻¹' ((fun q : ℝ × ℝ => |q.1| ^ (1 / p) * (SignType.sign q.2 : ℝ)) ⁻¹' A) with hS
    have hSm : MeasurableSet S := measurable_prodMk_left (hT hA)
    have h1 : gaussianReal 0 1 S = gaussianReal 0 1 (S ∩ Set.Ioi 0) + gaussianReal 0 1 (S ∩ Set.Iio 0) := by
      rw [← measure_inter_add_sdiff S (measurableSet_Ioi (a := (0 : ℝ)))]
      congr 1
      refine measure_congr ?_
      have : ∀ᵐ y ∂(gaussianReal 0 1), y ≠ 0 := by
        rw [ae_iff]; simp
      filter_upwards [this] with y hy
      refine propext ⟨fun h => ⟨h.1, lt_of_le_of_ne (not_lt.1 h.2) hy⟩, fun h => ⟨h.1, ?_⟩⟩
      exact not_lt.2 (le_of_lt (Set.mem_Iio.1 h.2))
    have hpos : S ∩ Set.Ioi 0 = if x ^ (1 / p) ∈ A then Set.Ioi 0 else ∅ := by
      ext y
      split_ifs with h
      · constructor
        · exact fun hy => hy.2
        · intro hy
          refine ⟨?_, hy⟩
          change |x| ^ (1 / p) * (SignType.sign y : ℝ) ∈ A
          rw [sign_pos hy, abs_of_pos hx]
          simpa using h
      · constructor
        · intro hy
          have h1 : |x| ^ (1 / p) * (SignType.sign y : ℝ) ∈ A := hy.1
          rw [sign_pos hy.2, abs_of_pos hx] at h1
          exact h (by simpa using h1)
        · exact fun hy => hy.elim
    have hneg : S ∩ Set.Iio 0 = if -x ^ (1 / p) ∈ A then Set.Iio 0 else ∅ := by
      ext y
      split_ifs with h
      · constructor
        · exact fun hy => hy.2
        · intro hy
          refine ⟨?_, hy⟩
          change |x| ^ (1 / p) * (SignType.sign y : ℝ) ∈ A
          rw [sign_neg hy, abs_of_pos hx]
          simpa using h
      · constructor
        · intro hy
          have h1 : |x| ^ (1 / p) * (SignType.sign y : ℝ) ∈ A := hy.1
          rw [sign_neg hy.2, abs_of_pos hx] at h1
          exact h (by simpa using h1)
        · exact fun hy => hy.elim
    rw [h1, hpos, hneg]
    congr 1
    · by_cases h : x ^ (1 / p) ∈ A
      · rw [if_pos h, gauss_half.1, Set.indicator_of_mem h]; simp
      · rw [if_neg h, Set.indicator_of_notMem h]; simp
    · by_cases h : -x ^ (1 / p) ∈ A
      · rw [if_pos h, gauss_half.2, Set.indicator_of_mem h]; simp
      · rw [if_neg h, Set.indicator_of_notMem h]; simp
  have hm : Measurable fun x => gaussianReal 0 1 (Prod.mk x ⁻¹' ((fun q : ℝ × ℝ => |q.1| ^ (1 / p) * (SignType.sign q.2 : ℝ)) ⁻¹' A)) :=
    measurable_measure_prodMk_left (hT hA)
  rw [gammaMeasure, lintegral_withDensity_eq_lintegral_mul _ hgm hm]
  have hsupp : ∫⁻ x, (gammaPDF (1 / p) b * fun x => gaussianReal 0 1 (Prod.mk x ⁻¹' ((fun q : ℝ × ℝ => |q.1| ^ (1 / p) * (SignType.sign q.2 : ℝ)) ⁻¹' A))) x =
      ∫⁻ x in Set.Ioi 0, gammaPDF (1 / p) b x * (A.indicator 1 (x ^ (1 / p)) * (1 / 2) + A.indicator 1 (-x ^ (1 / p)) * (1 / 2)) := by
    rw [← lintegral_add_compl _ (measurableSet_Ioi (a := (0 : ℝ))), Set.compl_Ioi, ← restrict_Iio_eq_restrict_Iic]
    rw [setLIntegral_eq_zero (s := Set.Iio 0) measurableSet_Iio, add_zero]
    · exact setLIntegral_congr_fun measurableSet_Ioi fun x hx => by simp only [Pi.mul_apply]; rw [key x hx]
    · intro x hx
      simp [gammaPDF_of_neg hx]
  rw [hsupp, lintegral_power hp]
  refine setLIntegral_congr_fun measurableSet_Ioi fun z hz => ?_
  have hz : 0 < z := hz
  rw [← mul_assoc, gamma_power hp hb hz, ← Real.rpow_mul hz.le, mul_one_div_cancel hp.ne', Real.rpow_one]
  have e : ∀ y : ℝ, A.indicator (fun z => expPower p b |z|) y = A.indicator 1 y * expPower p b |y| := by
    intro y
    by_cases h : y ∈ A <;> simp [h]
  rw [e, e, abs_neg, abs_of_pos hz]
  have h2 : (2 : ℝ≥0∞) * (1 / 2) = 1 := by rw [one_div]; exact ENNReal.mul_inv_cancel (by norm_num) (by norm_num)
  calc 2 * expPower p b z * (A.indicator 1 z * (1 / 2) + A.indicator 1 (-z) * (1 / 2))
      = (2 * (1 / 2)) * (A.indicator 1 z * expPower p b z + A.indicator 1 (-z) * expPower p b z) := by ring
    _ = _ := by rw [h2, one_mul]

/-! ### All coordinates -/

/-- The `p`-norm. -/
noncomputable def pNorm (p : ℝ) (x : Fin d → ℝ) : ℝ := (∑ i, |x i| ^ p) ^ (1 / p)

theorem pSum_nonneg (p : ℝ) (x : Fin d → ℝ) : 0 ≤ ∑ i, |x i| ^ p :=
  Finset.sum_nonneg fun _ _ => Real.rpow_nonneg (abs_nonneg _) _

theorem pNorm_rpow {p : ℝ} (hp : 0 < p) (x : Fin d → ℝ) : pNorm p x ^ p = ∑ i, |x i| ^ p := by
  rw [pNorm, ← Real.rpow_mul (pSum_nonneg p x), one_div_mul_cancel hp.ne', Real.rpow_one]

theorem pNorm_nonneg (p : ℝ) (x : Fin d → ℝ) : 0 ≤ pNorm p x := Real.rpow_nonneg (pSum_nonneg p x) _

theorem measurable_pNorm (p : ℝ) : Measurable (pNorm (d := d) p) := by
  unfold pNorm
  fun_prop

theorem pNorm_smul {p : ℝ} (hp : 0 < p) (u : ℝ) (x : Fin d → ℝ) (hu : 0 < u) :
    pNorm p (u • x) = u * pNorm p x := by
  unfold pNorm
  simp only [Pi.smul_apply, smul_eq_mul, abs_mul, abs_of_pos hu, Real.mul_rpow hu.le (abs_nonneg _)]
  rw [← Finset.mul_sum, Real.mul_rpow (Real.rpow_nonneg hu.le _) (pSum_nonneg p x), ← Real.rpow_mul hu.le,
    mul_one_div_cancel hp.ne', Real.rpow_one]

theorem pNorm_eq_zero {p : ℝ} (hp : 0 < p) {x : Fin d → ℝ} (h : pNorm p x = 0) : x = 0 := by
  have h1 := pNorm_rpow hp x
  rw [h, Real.zero_rpow hp.ne'] at h1
  funext i
  have h2 := (Finset.sum_eq_zero_iff_of_nonneg fun j _ => Real.rpow_nonneg (abs_nonneg (x j)) p).1 h1.symm i
    (Finset.mem_univ i)
  rw [Real.rpow_eq_zero_iff_of_nonneg (abs_nonneg _)] at h2
  exact abs_eq_zero.1 h2.1

theorem pNorm_pos_ae {p : ℝ} (hp : 0 < p) (hd : 0 < d) : ∀ᵐ x : Fin d → ℝ, 0 < pNorm p x := by
  have : Nonempty (Fin d) := ⟨⟨0, hd⟩⟩
  have h0 : ∀ᵐ x : Fin d → ℝ, x ≠ 0 := by
    rw [ae_iff]
    simp
  filter_upwards [h0] with x hx
  exact lt_of_le_of_ne (pNorm_nonneg p x) fun h => hx (pNorm_eq_zero hp h.symm)

/-- The density of independent coordinates at distance `v` from zero. -/
noncomputable def expPowers (d : ℕ) (p b v : ℝ) : ℝ≥0∞ :=
  ENNReal.ofReal ((p * b ^ (1 / p) / (2 * Real.Gamma (1 / p))) ^ d * Real.exp (-(b * v ^ p)))

theorem prod_expPower {p b : ℝ} (hp : 0 < p) (hb : 0 < b) (x : Fin d → ℝ) :
    ∏ i, expPower p b |x i| = expPowers d p b (pNorm p x) := by
  have hG := Real.Gamma_pos_of_pos (one_div_pos.2 hp)
  unfold expPower expPowers
  rw [← ENNReal.ofReal_prod_of_nonneg fun i _ => by positivity, Finset.prod_mul_distrib, Finset.prod_const,
    Finset.card_univ, Fintype.card_fin, ← Real.exp_sum, Finset.sum_neg_distrib, ← Finset.mul_sum, pNorm_rpow hp]

theorem expPower_sigma {p b : ℝ} (hp : 0 < p) (hb : 0 < b) :
    IsProbabilityMeasure ((volume : Measure ℝ).withDensity fun z => expPower p b |z|) := by
  have := isProbabilityMeasure_gammaMeasure (one_div_pos.2 hp) hb
  rw [← coord_law hp hb]
  exact Measure.isProbabilityMeasure_map (measurable_signed p).aemeasurable

/-- The law of the numbers before they are divided by their norm. -/
theorem normal_law {p b : ℝ} (hp : 0 < p) (hb : 0 < b) :
    (Measure.pi fun _ : Fin d => (gammaMeasure (1 / p) b).prod (gaussianReal 0 1)).map
        (fun q i => |(q i).1| ^ (1 / p) * (SignType.sign (q i).2 : ℝ)) =
      volume.withDensity fun x => expPowers d p b (pNorm p x) := by
  have := isProbabilityMeasure_gammaMeasure (one_div_pos.2 hp) hb
  have h2 := expPower_sigma hp hb
  have h3 : ∀ i : Fin d, SigmaFinite (Measure.map (fun q : ℝ × ℝ => |q.1| ^ (1 / p) * (SignType.sign q.2 : ℝ))
      ((gammaMeasure (1 / p) b).prod (gaussianReal 0 1))) := by
    intro i
    rw [coord_law hp hb]
    infer_instance
  rw [Measure.pi_map_pi (f := fun (_ : Fin d) (q : ℝ × ℝ) => |q.1| ^ (1 / p) * (SignType.sign q.2 : ℝ))
    fun i => (measurable_signed p).aemeasurable, coord_law hp hb,
    pi_density (f := fun z => expPower p b |z|) ((measurable_expPower p b).comp measurable_abs)]
  simp only [prod_expPower hp hb]

/-! ### Radii -/


theorem measurable_betaPDF (a b : ℝ) : Measurable (betaPDF a b) := (measurable_betaPDFReal a b).ennreal_ofReal

theorem beta_one_radius (hd : 0 < d) {r : ℝ} (hr : 0 < r) :
    betaPDF d 1 r * ENNReal.ofReal (r * (r ^ d)⁻¹) =
      ENNReal.ofReal (1 / beta d 1) * (Set.Iio 1).indicator (fun _ => 1) r := by
  have hb : 0 < beta d 1 := beta_pos (Nat.cast_pos.2 hd) one_pos
  by_cases h : r < 1
  · rw [betaPDF_of_pos_lt_one hr h, Set.indicator_of_mem (show r ∈ Set.Iio 1 from h), mul_one,
      ← ENNReal.ofReal_mul (by have : 0 ≤ 1 - r := by linarith
                               positivity)]
    congr 1
    have h1 : r ^ ((d : ℝ) - 1) * (r * (r ^ d)⁻¹) = 1 := by
      rw [Real.rpow_sub_one hr.ne', Real.rpow_natCast]
      field_simp
    rw [sub_self, Real.rpow_zero, mul_one, mul_assoc, h1, mul_one]
  · rw [betaPDF_eq_zero_of_one_le (not_lt.1 h), Set.indicator_of_notMem (show r ∉ Set.Iio 1 from h)]
    simp

/-- The density of the `p`-th root of a number with a beta law. -/
noncomputable def rootDensity (p a b r : ℝ) : ℝ≥0∞ :=
  (Set.Ioi 0).indicator (fun r => ENNReal.ofReal (p * r ^ (p - 1)) * betaPDF a b (r ^ p)) r

theorem measurable_rootDensity (p a b : ℝ) : Measurable (rootDensity p a b) := by
  unfold rootDensity
  refine Measurable.indicator ?_ measurableSet_Ioi
  exact Measurable.mul (by fun_prop) ((measurable_betaPDF a b).comp (by fun_prop))

theorem root_law {p : ℝ} (hp : 0 < p) (a b : ℝ) :
    (betaMeasure a b).map (fun x => x ^ (1 / p)) = volume.withDensity (rootDensity p a b) := by
  classical
  have hm : Measurable fun x : ℝ => x ^ (1 / p) := by fun_prop
  ext A hA
  rw [Measure.map_apply hm hA, betaMeasure, withDensity_apply _ (hm hA), withDensity_apply _ hA,
    ← lintegral_indicator (hm hA), ← lintegral_indicator hA]
  have h1 : ∫⁻ x, ((fun x : ℝ => x ^ (1 / p)) ⁻¹' A).indicator (betaPDF a b) x =
      ∫⁻ x in Set.Ioi 0, ((fun x : ℝ => x ^ (1 / p)) ⁻¹' A).indicator (betaPDF a b) x := by
    rw [← lintegral_add_compl _ (measurableSet_Ioi (a := (0 : ℝ))), Set.compl_Ioi,
      setLIntegral_eq_zero (s := Set.Iic 0) measurableSet_Iic, add_zero]
    intro x hx
    rw [Set.indicator_apply, betaPDF_eq_zero_of_nonpos hx]
    simp
  rw [h1, lintegral_power hp, ← lintegral_indicator measurableSet_Ioi]
  refine lintegral_congr fun r => ?_
  by_cases hr : r ∈ Set.Ioi (0 : ℝ)
  · have hr' : 0 < r := hr
    have e : (r ^ p) ^ (1 / p) = r := by
      rw [← Real.rpow_mul hr'.le, mul_one_div_cancel hp.ne', Real.rpow_one]
    rw [Set.indicator_of_mem hr]
    by_cases hA : r ∈ A
    · rw [Set.indicator_of_mem hA, rootDensity, Set.indicator_of_mem hr,
        Set.indicator_of_mem (show r ^ p ∈ (fun x : ℝ => x ^ (1 / p)) ⁻¹' A by
          change (r ^ p) ^ (1 / p) ∈ A; rw [e]; exact hA)]
    · rw [Set.indicator_of_notMem hA,
        Set.indicator_of_notMem (show r ^ p ∉ (fun x : ℝ => x ^ (1 / p)) ⁻¹' A by
          change ¬ (r ^ p) ^ (1 / p) ∈ A; rw [e]; exact hA), mul_zero]
  · rw [Set.indicator_of_notMem hr, Set.indicator_apply, rootDensity, Set.indicator_of_notMem hr]
    simp

theorem root_radius {p q : ℝ} (hp : 0 < p) (hq : 0 < q) (hd : 0 < d) {r : ℝ} (hr : 0 < r) :
    rootDensity p (d / p) (q / p) r * ENNReal.ofReal (r * (r ^ d)⁻¹) =
      ENNReal.ofReal (p / beta (d / p) (q / p)) *
        (Set.Iio 1).indicator (fun r => ENNReal.ofReal ((1 - r ^ p) ^ (q / p - 1))) r := by
  have hd' : (0 : ℝ) < d := Nat.cast_pos.2 hd
  have hb : 0 < beta (d / p) (q / p) := beta_pos (by positivity) (by positivity)
  rw [rootDensity, Set.indicator_of_mem (show r ∈ Set.Ioi 0 from hr)]
  by_cases h : r < 1
  · have h1 : r ^ p < 1 := Real.rpow_lt_one hr.le h hp
    have h2 : 0 ≤ 1 - r ^ p := by linarith
    rw [betaPDF_of_pos_lt_one (Real.rpow_pos_of_pos hr p) h1, Set.indicator_of_mem (show r ∈ Set.Iio 1 from h),
      ← ENNReal.ofReal_mul (by positivity), ← ENNReal.ofReal_mul (by positivity),
      ← ENNReal.ofReal_mul (by positivity)]
    congr 1
    have h3 : r ^ (p - 1) * (r ^ p) ^ (d / p - 1) * (r * (r ^ d)⁻¹) = 1 := by
      rw [← Real.rpow_mul hr.le, ← Real.rpow_add hr,
        show p - 1 + p * (d / p - 1) = (d : ℝ) - 1 by field_simp; ring, Real.rpow_sub_one hr.ne', Real.rpow_natCast]
      field_simp
    calc p * r ^ (p - 1) * (1 / beta (d / p) (q / p) * (r ^ p) ^ (d / p - 1) * (1 - r ^ p) ^ (q / p - 1)) *
          (r * (r ^ d)⁻¹)
        = p / beta (d / p) (q / p) * (1 - r ^ p) ^ (q / p - 1) *
          (r ^ (p - 1) * (r ^ p) ^ (d / p - 1) * (r * (r ^ d)⁻¹)) := by ring
      _ = _ := by rw [h3, mul_one]
  · rw [betaPDF_eq_zero_of_one_le (Real.one_le_rpow (not_lt.1 h) hp.le),
      Set.indicator_of_notMem (show r ∉ Set.Iio 1 from h)]
    simp

/-! ### Directions and radii together -/

theorem ball_law {p : ℝ} (hp : 0 < p) (hd : 0 < d) {ρ k : ℝ → ℝ≥0∞} (hρ : Measurable ρ)
    (h0 : ∀ r ≤ 0, ρ r = 0) [SFinite ((volume : Measure ℝ).withDensity ρ)] {c : ℝ≥0∞}
    (hk : ∀ r, 0 < r → ρ r * ENNReal.ofReal (r * (r ^ d)⁻¹) = c * k r) (hkm : Measurable k) :
    ∃ C : ℝ≥0∞, ((Measure.pi fun _ : Fin d => (gammaMeasure (1 / p) 1).prod (gaussianReal 0 1)).prod
        (volume.withDensity ρ)).map (fun q => (q.2 / pNorm p fun i => |(q.1 i).1| ^ (1 / p) * (SignType.sign (q.1 i).2 : ℝ)) •
          fun i => |(q.1 i).1| ^ (1 / p) * (SignType.sign (q.1 i).2 : ℝ)) =
      C • volume.withDensity fun w => k (pNorm p w) := by
  have := isProbabilityMeasure_gammaMeasure (one_div_pos.2 hp) one_pos
  have hm1 : Measurable fun (q : Fin d → ℝ × ℝ) i => |(q i).1| ^ (1 / p) * (SignType.sign (q i).2 : ℝ) :=
    measurable_pi_iff.2 fun i => (measurable_signed p).comp (measurable_pi_apply i)
  have hm2 : Measurable fun q : (Fin d → ℝ) × ℝ => (q.2 / pNorm p q.1) • q.1 :=
    (measurable_snd.div ((measurable_pNorm p).comp measurable_fst)).smul measurable_fst
  have e : (fun q : (Fin d → ℝ × ℝ) × ℝ => (q.2 / pNorm p fun i => |(q.1 i).1| ^ (1 / p) * (SignType.sign (q.1 i).2 : ℝ)) •
          fun i => |(q.1 i).1| ^ (1 / p) * (SignType.sign (q.1 i).2 : ℝ)) =
      (fun q : (Fin d → ℝ) × ℝ => (q.2 / pNorm p q.1) • q.1) ∘
        Prod.map (fun (q : Fin d → ℝ × ℝ) i => |(q i).1| ^ (1 / p) * (SignType.sign (q i).2 : ℝ)) id := rfl
  rw [e, ← Measure.map_map hm2 (hm1.prodMap measurable_id), ← Measure.map_prod_map _ _ hm1 measurable_id,
    normal_law hp one_pos, Measure.map_id,
    radial_map (measurable_pNorm p) (fun u z hu => pNorm_smul hp u z hu) (pNorm_pos_ae hp hd) (F := expPowers d p 1)
      (by unfold expPowers; fun_prop) hρ h0]
  refine ⟨(∫⁻ v in Set.Ioi 0, ENNReal.ofReal (v ^ d)⁻¹ * (ENNReal.ofReal v⁻¹ * expPowers d p 1 v⁻¹)) * c, ?_⟩
  rw [mul_smul, ← withDensity_smul _ (show Measurable fun w : Fin d → ℝ => k (pNorm p w) from hkm.comp (measurable_pNorm p))]
  congr 1
  refine withDensity_congr_ae ?_
  filter_upwards [pNorm_pos_ae hp hd] with w hw
  exact hk _ hw

/-! ### Scale and location -/

theorem affine_volume {s c : Fin d → ℝ} (hs : ∀ i, 0 < s i) :
    ∃ K : ℝ≥0∞, (volume : Measure (Fin d → ℝ)).map (fun x i => x i * s i + c i) = K • volume := by
  have hdet : (Matrix.diagonal s).det ≠ 0 := by
    rw [Matrix.det_diagonal]
    exact Finset.prod_ne_zero_iff.2 fun i _ => (hs i).ne'
  have h1 := Real.map_matrix_volume_pi_eq_smul_volume_pi hdet
  refine ⟨ENNReal.ofReal |(Matrix.diagonal s).det⁻¹|, ?_⟩
  have e : (fun (x : Fin d → ℝ) i => x i * s i + c i) = (fun y => y + c) ∘ (Matrix.toLin' (Matrix.diagonal s)) := by
    funext x i
    simp [Matrix.mulVec_diagonal, mul_comm]
  rw [e, ← Measure.map_map (measurable_add_const c) (by
    exact (LinearMap.continuous_of_finiteDimensional (Matrix.toLin' (Matrix.diagonal s))).measurable), h1,
    Measure.map_smul, map_add_right_eq_self]

theorem affine_density {s c : Fin d → ℝ} (hs : ∀ i, 0 < s i) {k : (Fin d → ℝ) → ℝ≥0∞} (hk : Measurable k) :
    ∃ K : ℝ≥0∞, (volume.withDensity k).map (fun x i => x i * s i + c i) =
      K • volume.withDensity fun y => k fun i => (y i - c i) / s i := by
  obtain ⟨K, hK⟩ := affine_volume (c := c) hs
  refine ⟨K, ?_⟩
  have hA : Measurable fun (x : Fin d → ℝ) i => x i * s i + c i := by fun_prop
  have hk2 : Measurable fun y : Fin d → ℝ => k fun i => (y i - c i) / s i := hk.comp (by fun_prop)
  ext B hB
  rw [Measure.map_apply hA hB, withDensity_apply _ (hA hB), Measure.smul_apply, withDensity_apply _ hB, smul_eq_mul,
    ← lintegral_indicator hB, ← smul_eq_mul, ← lintegral_smul_measure, ← hK, lintegral_map (hk2.indicator hB) hA,
    ← lintegral_indicator (hA hB)]
  refine lintegral_congr fun x => ?_
  have e : (fun i => (x i * s i + c i - c i) / s i) = x := by
    funext i
    rw [add_sub_cancel_right, mul_div_cancel_right₀ _ (hs i).ne']
  by_cases h : (fun i => x i * s i + c i) ∈ B
  · rw [Set.indicator_of_mem h, Set.indicator_of_mem (show x ∈ (fun (x : Fin d → ℝ) i => x i * s i + c i) ⁻¹' B from h), e]
  · rw [Set.indicator_of_notMem h,
      Set.indicator_of_notMem (show x ∉ (fun (x : Fin d → ℝ) i => x i * s i + c i) ⁻¹' B from h)]

theorem eq_normalised {α : Type} [MeasurableSpace α] {μ ν : Measure α} [IsProbabilityMeasure ν] {k : α → ℝ≥0∞} {C : ℝ≥0∞}
    (h : ν = C • μ.withDensity k) : ν = (∫⁻ x, k x ∂μ)⁻¹ • μ.withDensity k := by
  have h1 : C * ∫⁻ x, k x ∂μ = 1 := by
    have := congrArg (fun m : Measure α => m Set.univ) h
    simpa using this.symm
  rw [h, ENNReal.eq_inv_of_mul_eq_one_left h1]

end BET
