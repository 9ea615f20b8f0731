import Verif.Lemmas.Moving

/-!
# How far shares of independent draws are from their limits
-/

set_option linter.unusedSectionVars false
set_option linter.unusedSimpArgs false
set_option autoImplicit false

namespace BET

open MeasureTheory ProbabilityTheory Filter Topology Function

/-! ## Quotients and weighted sums -/

/-- Quotients of close numbers are close. -/
theorem ratio_close {a b a' b' δ κ : ℝ} (ha : 0 ≤ a) (hab : a ≤ b) (ha' : 0 ≤ a') (hab' : a' ≤ b') (hκ : 0 < κ)
    (hb : κ ≤ b') (h1 : |a - a'| < δ) (h2 : |b - b'| < δ) : |a / b - a' / b'| < 2 * δ / κ := by
  have hb' : 0 < b' := hκ.trans_le hb
  have hδ : 0 < δ := (abs_nonneg _).trans_lt h1
  rcases (ha.trans hab).eq_or_lt with h0 | hb0
  · have : b' < δ := by
      rw [← h0, zero_sub, abs_neg, abs_of_pos hb'] at h2
      exact h2
    rw [← h0, div_zero, zero_sub, abs_neg, abs_of_nonneg (div_nonneg ha' hb'.le)]
    calc a' / b' ≤ 1 := (div_le_one hb').2 hab'
      _ < 2 := one_lt_two
      _ < 2 * δ / κ := by rw [lt_div_iff₀ hκ]; nlinarith
  · have e : a / b - a' / b' = (a * (b' - b) + b * (a - a')) / (b * b') := by field_simp; ring
    have hbb := mul_pos hb0 hb'
    have h3 : |a * (b' - b) + b * (a - a')| < 2 * b * δ := by
      calc |a * (b' - b) + b * (a - a')| ≤ |a * (b' - b)| + |b * (a - a')| := abs_add_le _ _
        _ = a * |b - b'| + b * |a - a'| := by
          rw [abs_mul, abs_mul, abs_of_nonneg ha, abs_of_pos hb0, abs_sub_comm b' b]
        _ < b * δ + b * δ := by
          have i1 : a * |b - b'| ≤ b * δ := mul_le_mul hab h2.le (abs_nonneg _) hb0.le
          have i2 := mul_lt_mul_of_pos_left h1 hb0
          linarith
        _ = 2 * b * δ := by ring
    rw [e, abs_div, abs_of_pos hbb]
    calc |a * (b' - b) + b * (a - a')| / (b * b') < 2 * b * δ / (b * b') := div_lt_div_of_pos_right h3 hbb
      _ = 2 * δ / b' := by field_simp
      _ ≤ 2 * δ / κ := by gcongr

/-- Sums of close terms with close weights. -/
theorem weighted_close {m : Nat} {p q R M : ℕ → ℝ} {ε η : ℝ} (hε : 0 < ε) (hp : ∀ c < m, 0 ≤ p c)
    (hp1 : ∑ c ∈ Finset.range m, p c ≤ 1) (hpq : ∀ c < m, |p c - q c| ≤ η) (h0 : ∀ c < m, q c = 0 → p c = 0)
    (hM : ∀ c < m, |M c| ≤ 1) (hR : ∀ c < m, q c ≠ 0 → |R c - M c| < ε) :
    |∑ c ∈ Finset.range m, p c * R c - ∑ c ∈ Finset.range m, q c * M c| < ε + m * η := by
  have e : ∑ c ∈ Finset.range m, p c * R c - ∑ c ∈ Finset.range m, q c * M c =
      ∑ c ∈ Finset.range m, p c * (R c - M c) + ∑ c ∈ Finset.range m, (p c - q c) * M c := by
    rw [← Finset.sum_sub_distrib, ← Finset.sum_add_distrib]
    exact Finset.sum_congr rfl fun c _ => by ring
  have h2 : |∑ c ∈ Finset.range m, (p c - q c) * M c| ≤ m * η := by
    calc |∑ c ∈ Finset.range m, (p c - q c) * M c| ≤ ∑ c ∈ Finset.range m, |(p c - q c) * M c| :=
          Finset.abs_sum_le_sum_abs _ _
      _ ≤ ∑ c ∈ Finset.range m, η := Finset.sum_le_sum fun c hc => by
          have hc := Finset.mem_range.1 hc
          rw [abs_mul]
          calc |p c - q c| * |M c| ≤ |p c - q c| * 1 := by gcongr; exact hM c hc
            _ ≤ η := by rw [mul_one]; exact hpq c hc
      _ = m * η := by rw [Finset.sum_const, Finset.card_range, nsmul_eq_mul]
  have h1 : |∑ c ∈ Finset.range m, p c * (R c - M c)| < ε := by
    have hle : ∀ c ∈ Finset.range m, |p c * (R c - M c)| ≤ p c * ε := by
      intro c hc
      have hc := Finset.mem_range.1 hc
      rw [abs_mul, abs_of_nonneg (hp c hc)]
      by_cases hq : q c = 0
      · rw [h0 c hc hq, zero_mul, zero_mul]
      · exact mul_le_mul_of_nonneg_left (hR c hc hq).le (hp c hc)
    by_cases hz : ∀ c ∈ Finset.range m, p c = 0
    · rw [Finset.sum_eq_zero fun c hc => by rw [hz c hc, zero_mul], abs_zero]
      exact hε
    · push Not at hz
      obtain ⟨c, hc, hc0⟩ := hz
      have hcm := Finset.mem_range.1 hc
      have hpc := lt_of_le_of_ne (hp c hcm) (Ne.symm hc0)
      calc |∑ c ∈ Finset.range m, p c * (R c - M c)| ≤ ∑ c ∈ Finset.range m, |p c * (R c - M c)| :=
            Finset.abs_sum_le_sum_abs _ _
        _ < ∑ c ∈ Finset.range m, p c * ε := by
            refine Finset.sum_lt_sum hle ⟨c, hc, ?_⟩
            rw [abs_mul, abs_of_nonneg (hp c hcm)]
            exact mul_lt_mul_of_pos_left (hR c hcm fun hq => hc0 (h0 c hcm hq)) hpc
        _ = (∑ c ∈ Finset.range m, p c) * ε := by rw [Finset.sum_mul]
        _ ≤ 1 * ε := by gcongr
        _ = ε := one_mul ε
  rw [e]
  exact (abs_add_le _ _).trans_lt (by linarith)

variable {Ω E : Type} [MeasurableSpace Ω] [MeasurableSpace E] {P : Measure Ω} {μ : Measure E}
  [IsProbabilityMeasure P]

/-! ## Hoeffding's bound for functions -/

/-- Hoeffding's bound for the mean of a function with values between 0 and 1 over independent draws. -/
theorem mean_far {ι : Type} {Z : ι → Ω → E} (hlaw : ∀ k, HasLaw (Z k) μ P) (hind : iIndepFun Z P) {f : E → ℝ}
    (hf : Measurable f) (hf01 : ∀ x, f x ∈ Set.Icc (0 : ℝ) 1) {s : Finset ι} (hs : 0 < s.card) {ε : ℝ} (hε : 0 ≤ ε) :
    P.real {ω | ε ≤ |(∑ k ∈ s, f (Z k ω)) / s.card - ∫ x, f x ∂μ|} ≤ 2 * Real.exp (-2 * s.card * ε ^ 2) := by
  have hmeas : ∀ k, AEMeasurable (fun ω => f (Z k ω)) P := fun k => hf.comp_aemeasurable (hlaw k).aemeasurable
  have hc : (0 : ℝ) < s.card := by exact_mod_cast hs
  have hI : ∀ k, ∫ ω, f (Z k ω) ∂P = ∫ x, f x ∂μ := fun k => by
    rw [← (hlaw k).map_eq, integral_map (hlaw k).aemeasurable hf.aestronglyMeasurable]
  set I := ∫ x, f x ∂μ with hIdef
  have hi : iIndepFun (fun k ω => f (Z k ω)) P := hind.comp (fun _ => f) fun _ => hf
  have hsub : ∀ k, HasSubgaussianMGF (fun ω => f (Z k ω) - I) ((‖(1 : ℝ) - 0‖₊ / 2) ^ 2) P := fun k => by
    have := hasSubgaussianMGF_of_mem_Icc (hmeas k) (Eventually.of_forall fun ω => hf01 (Z k ω))
    rwa [hI] at this
  have hi1 : iIndepFun (fun k ω => f (Z k ω) - I) P := hi.comp (fun _ x => x - I) fun _ => measurable_id.sub_const _
  have hi2 : iIndepFun (fun k ω => -(f (Z k ω) - I)) P := hi1.comp (fun _ x => -x) fun _ => measurable_neg
  have hu := HasSubgaussianMGF.measure_sum_ge_le_of_iIndepFun hi1 (s := s) (fun k _ => hsub k)
    (ε := s.card * ε) (by positivity)
  have hl := HasSubgaussianMGF.measure_sum_ge_le_of_iIndepFun hi2 (s := s) (fun k _ => (hsub k).neg)
    (ε := s.card * ε) (by positivity)
  have hexp : -((s.card : ℝ) * ε) ^ 2 / (2 * ((∑ k ∈ s, (‖(1 : ℝ) - 0‖₊ / 2) ^ 2 : NNReal) : ℝ)) =
      -2 * s.card * ε ^ 2 := by
    rw [Finset.sum_const]
    push_cast
    simp only [sub_zero, norm_one, nnnorm_one, NNReal.coe_one, nsmul_eq_mul]
    field_simp
  have hsubset : {ω | ε ≤ |(∑ k ∈ s, f (Z k ω)) / s.card - I|} ⊆
      {ω | s.card * ε ≤ ∑ k ∈ s, (f (Z k ω) - I)} ∪ {ω | s.card * ε ≤ ∑ k ∈ s, -(f (Z k ω) - I)} := by
    intro ω h
    have h : ε ≤ |(∑ k ∈ s, f (Z k ω)) / s.card - I| := h
    have hdiff : (∑ k ∈ s, f (Z k ω)) / s.card - I = (∑ k ∈ s, (f (Z k ω) - I)) / s.card := by
      rw [Finset.sum_sub_distrib, Finset.sum_const, nsmul_eq_mul]
      field_simp
    rw [hdiff, abs_div, abs_of_pos hc, le_div_iff₀ hc, mul_comm, le_abs] at h
    rcases h with h | h
    · exact .inl h
    · right
      rw [← Finset.sum_neg_distrib] at h
      exact h
  rw [hexp] at hu hl
  refine (measureReal_mono hsubset (measure_ne_top _ _)).trans ((measureReal_union_le _ _).trans ?_)
  linarith

/-- The same for a function on an event that may be changed on a set without measure. -/
theorem mean_on_far {ι : Type} {Z : ι → Ω → E} (hlaw : ∀ k, HasLaw (Z k) μ P) (hind : iIndepFun Z P) {g : E → ℝ}
    (hg : Measurable g) (hg01 : ∀ x, g x ∈ Set.Icc (0 : ℝ) 1) {A : Set E} (hA : NullMeasurableSet A μ) {s : Finset ι}
    (hs : 0 < s.card) {ε : ℝ} (hε : 0 ≤ ε) :
    P.real {ω | ε ≤ |(∑ k ∈ s, g (Z k ω) * ind A (Z k ω)) / s.card - ∫ x in A, g x ∂μ|} ≤
      2 * Real.exp (-2 * s.card * ε ^ 2) := by
  obtain ⟨B, hB, hAB⟩ := hA
  have h := mean_far hlaw hind (f := fun x => g x * ind B x) (hg.mul (measurable_ind hB))
    (fun x => ⟨mul_nonneg (hg01 x).1 (ind_mem B x).1, mul_le_one₀ (hg01 x).2 (ind_mem B x).1 (ind_mem B x).2⟩) hs hε
  have hI : ∫ x, g x * ind B x ∂μ = ∫ x in A, g x ∂μ := by
    simp only [mul_ind]
    rw [integral_indicator hB, setIntegral_congr_set hAB]
  rw [hI] at h
  refine le_trans ?_ h
  have heq : ∀ᵐ ω ∂P, ∀ k ∈ s, ind A (Z k ω) = ind B (Z k ω) :=
    (Finset.eventually_all s).2 fun k _ => ae_ind_eq (hlaw k) hAB
  unfold Measure.real
  refine ENNReal.toReal_mono (measure_ne_top _ _) (measure_mono_ae ?_)
  filter_upwards [heq] with ω hω h
  have h : ε ≤ |(∑ k ∈ s, g (Z k ω) * ind A (Z k ω)) / s.card - ∫ x in A, g x ∂μ| := h
  show ε ≤ |(∑ k ∈ s, g (Z k ω) * ind B (Z k ω)) / s.card - ∫ x in A, g x ∂μ|
  rwa [Finset.sum_congr rfl fun k hk => by rw [hω k hk]] at h

/-- The means over the draws in each of some events, and how far they are from the conditional means. -/
theorem conditional_far {ι : Type} {Z : ι → Ω → E} (hlaw : ∀ k, HasLaw (Z k) μ P) (hind : iIndepFun Z P) {g : E → ℝ}
    (hg : Measurable g) (hg01 : ∀ x, g x ∈ Set.Icc (0 : ℝ) 1) {A : ℕ → Set E} (hA : ∀ c, NullMeasurableSet (A c) μ)
    {s : Finset ι} (hs : 0 < s.card) {κ ε : ℝ} (hκ : 0 < κ) (hε : 0 < ε) {S : Finset ℕ}
    (hgood : ∀ c ∈ S, κ ≤ μ.real (A c)) :
    P.real {ω | ∃ c ∈ S, ε ≤ |(∑ k ∈ s, g (Z k ω) * ind (A c) (Z k ω)) / (∑ k ∈ s, ind (A c) (Z k ω)) -
      (∫ x in A c, g x ∂μ) / μ.real (A c)|} ≤ 4 * S.card * Real.exp (-(s.card * (ε * κ) ^ 2 / 2)) := by
  obtain ⟨k₀, -⟩ := Finset.card_pos.1 hs
  have hμ : IsProbabilityMeasure μ := by
    rw [← (hlaw k₀).map_eq]
    exact Measure.isProbabilityMeasure_map (hlaw k₀).aemeasurable
  set δ := ε * κ / 2 with hδ
  have hδ0 : 0 < δ := by positivity
  have hn : (0 : ℝ) < s.card := by exact_mod_cast hs
  let B₁ : ℕ → Set Ω := fun c => {ω | δ ≤ |(∑ k ∈ s, g (Z k ω) * ind (A c) (Z k ω)) / s.card - ∫ x in A c, g x ∂μ|}
  let B₂ : ℕ → Set Ω := fun c => {ω | δ ≤ |(∑ k ∈ s, ind (A c) (Z k ω)) / s.card - μ.real (A c)|}
  have hexp : -2 * (s.card : ℝ) * δ ^ 2 = -(s.card * (ε * κ) ^ 2 / 2) := by rw [hδ]; ring
  have hB : ∀ c, P.real (B₁ c ∪ B₂ c) ≤ 4 * Real.exp (-(s.card * (ε * κ) ^ 2 / 2)) := by
    intro c
    have h1 := mean_on_far hlaw hind hg hg01 (hA c) hs hδ0.le
    have h2 := frequency_far hlaw hind (hA c) hs hδ0.le
    rw [hexp] at h1 h2
    refine (measureReal_union_le _ _).trans ?_
    have h1 : P.real (B₁ c) ≤ _ := h1
    have h2 : P.real (B₂ c) ≤ _ := h2
    linarith
  have hsub : {ω | ∃ c ∈ S, ε ≤ |(∑ k ∈ s, g (Z k ω) * ind (A c) (Z k ω)) / (∑ k ∈ s, ind (A c) (Z k ω)) -
      (∫ x in A c, g x ∂μ) / μ.real (A c)|} ⊆ ⋃ c ∈ S, (B₁ c ∪ B₂ c) := by
    rintro ω ⟨c, hc, h⟩
    rw [Set.mem_iUnion₂]
    refine ⟨c, hc, ?_⟩
    by_contra hno
    rw [Set.mem_union, not_or] at hno
    have h1 : |(∑ k ∈ s, g (Z k ω) * ind (A c) (Z k ω)) / s.card - ∫ x in A c, g x ∂μ| < δ := not_le.1 hno.1
    have h2 : |(∑ k ∈ s, ind (A c) (Z k ω)) / s.card - μ.real (A c)| < δ := not_le.1 hno.2
    have i0 : ∀ k, 0 ≤ g (Z k ω) * ind (A c) (Z k ω) := fun k => mul_nonneg (hg01 _).1 (ind_mem _ _).1
    have i1 : ∀ k, g (Z k ω) * ind (A c) (Z k ω) ≤ ind (A c) (Z k ω) := fun k =>
      mul_le_of_le_one_left (ind_mem _ _).1 (hg01 _).2
    have j0 : 0 ≤ ∫ x in A c, g x ∂μ := integral_nonneg fun x => (hg01 x).1
    have j1 : ∫ x in A c, g x ∂μ ≤ μ.real (A c) := by
      have hint : Integrable g μ := Integrable.of_mem_Icc 0 1 hg.aemeasurable (Eventually.of_forall hg01)
      calc ∫ x in A c, g x ∂μ ≤ ∫ _ in A c, (1 : ℝ) ∂μ :=
            integral_mono hint.integrableOn (integrable_const _) fun x => (hg01 x).2
        _ = μ.real (A c) := by simp
    have h3 := ratio_close (a := (∑ k ∈ s, g (Z k ω) * ind (A c) (Z k ω)) / s.card)
      (b := (∑ k ∈ s, ind (A c) (Z k ω)) / s.card)
      (div_nonneg (Finset.sum_nonneg fun k _ => i0 k) hn.le)
      (div_le_div_of_nonneg_right (Finset.sum_le_sum fun k _ => i1 k) hn.le) j0 j1 hκ (hgood c hc) h1 h2
    rw [div_div_div_cancel_right₀ hn.ne'] at h3
    have : 2 * δ / κ = ε := by rw [hδ]; field_simp
    rw [this] at h3
    exact absurd h (not_le.2 h3)
  refine (measureReal_mono hsub (measure_ne_top _ _)).trans ((measureReal_biUnion_finset_le _ _).trans
    ((Finset.sum_le_sum fun c _ => hB c).trans (le_of_eq ?_)))
  rw [Finset.sum_const, nsmul_eq_mul]
  ring

end BET
