import Verif.Model.Clusters
import Verif.Lemmas.LpLaw
import Verif.Lemmas.Chance
import Mathlib.Probability.StrongLaw
import Mathlib.Probability.ProductMeasure
import Mathlib.Probability.Independence.InfinitePi

/-!
# C148: the laws of samples of a p-ball

The numbers drawn have the laws numpy documents; what comes out has the law the function is named after.
-/

set_option autoImplicit false
set_option linter.unusedSectionVars false
set_option linter.unusedSimpArgs false

open MeasureTheory ProbabilityTheory ENNReal Filter Topology

namespace BET

variable {d : ℕ}

/-! ### Specification -/

/-- The law with a density proportional to `k`. -/
noncomputable def Spec.proportional (k : (Fin d → ℝ) → ℝ≥0∞) : Measure (Fin d → ℝ) :=
  (∫⁻ x, k x)⁻¹ • volume.withDensity k

/-- The ball of the `p`-norm around `c`, with radius `s i` in coordinate `i`. -/
def Spec.pBall (p : ℝ) (s c : Fin d → ℝ) : Set (Fin d → ℝ) := {x | ∑ i, |(x i - c i) / s i| ^ p < 1}

/-- The box around `c`. -/
def Spec.pBox (s c : Fin d → ℝ) : Set (Fin d → ℝ) := {x | ∀ i, |x i - c i| ≤ s i}

/-- For each sample: one gamma number and one normal number for each coordinate, and one more number. All of them are
independent; the gamma law has shape `1 / p` and scale `sc`, the last number the law `β`. -/
structure Spec.LpDraws {Ω : Type} [MeasurableSpace Ω] (P : Measure Ω) (p sc : ℝ) (β : Measure ℝ)
    (D : ℕ → Ω → (Fin d → ℝ × ℝ) × ℝ) : Prop where
  indep : iIndepFun D P
  meas : ∀ k, Measurable (D k)
  law : ∀ k, P.map (D k) =
    (Measure.pi fun _ : Fin d => (gammaMeasure (1 / p) (1 / sc)).prod (gaussianReal 0 1)).prod β

open Spec

/-- The gamma numbers of sample `k`. -/
def gammas (q : (Fin d → ℝ × ℝ) × ℝ) : List ℝ := List.ofFn fun i => (q.1 i).1

/-- The normal numbers. -/
def normals (q : (Fin d → ℝ × ℝ) × ℝ) : List ℝ := List.ofFn fun i => (q.1 i).2

/-! ### Lists and vectors -/

theorem zipWith_vectors {α β γ : Type} (f : α → β → γ) (a : Fin d → α) (b : Fin d → β) :
    List.zipWith f (List.ofFn a) (List.ofFn b) = List.ofFn fun i => f (a i) (b i) := by
  refine List.ext_getElem (by simp) ?_
  intro i h1 h2
  simp

/-- The signed roots of the gamma numbers. -/
noncomputable def signed (p : ℝ) (q : Fin d → ℝ × ℝ) : Fin d → ℝ :=
  fun i => |(q i).1| ^ (1 / p) * (SignType.sign (q i).2 : ℝ)

theorem measurable_signs (p : ℝ) : Measurable (signed (d := d) p) :=
  measurable_pi_iff.2 fun i => (measurable_signed p).comp (measurable_pi_apply i)

theorem lpNormal_ofFn (p : ℝ) (q : (Fin d → ℝ × ℝ) × ℝ) :
    lpNormal p (gammas q) (normals q) = List.ofFn (signed p q.1) := by
  rw [lpNormal, gammas, normals, zipWith_vectors]
  rfl

theorem lpNorm_ofFn (p : ℝ) (z : Fin d → ℝ) : lpNorm p (List.ofFn z) = pNorm p z := by
  rw [lpNorm, pNorm, List.map_ofFn, List.sum_ofFn]
  rfl

theorem place_ofFn (p r : ℝ) (z s c : Fin d → ℝ) :
    place ((List.ofFn z).map fun x => x / pNorm p z) r (List.ofFn s) (List.ofFn c) =
      List.ofFn fun i => ((r / pNorm p z) • z) i * s i + c i := by
  rw [List.map_ofFn, place, zipWith_vectors, zipWith_vectors]
  congr 1
  funext i
  simp only [Function.comp_apply, Pi.smul_apply, smul_eq_mul]
  ring

theorem placed_ok {p : ℝ} (q : (Fin d → ℝ × ℝ) × ℝ) (h : 0 < pNorm p (signed p q.1)) (r : ℝ) (s c : Fin d → ℝ) :
    (onSphere p (lpNormal p (gammas q) (normals q)) >>= fun u => pure (place u r (List.ofFn s) (List.ofFn c))) =
      .ok (List.ofFn fun i => ((r / pNorm p (signed p q.1)) • signed p q.1) i * s i + c i) := by
  rw [lpNormal_ofFn, onSphere, lpNorm_ofFn, if_neg h.ne', ok_bind, place_ofFn]
  rfl

/-! ### Laws -/

variable {Ω : Type} [MeasurableSpace Ω] {P : Measure Ω}

theorem norm_pos_ae {p : ℝ} (hp : 0 < p) (hd : 0 < d) :
    ∀ᵐ q ∂(Measure.pi fun _ : Fin d => (gammaMeasure (1 / p) 1).prod (gaussianReal 0 1)), 0 < pNorm p (signed p q) := by
  have h1 := normal_law (d := d) hp one_pos
  have h2 : ∀ᵐ x ∂((Measure.pi fun _ : Fin d => (gammaMeasure (1 / p) 1).prod (gaussianReal 0 1)).map (signed p)),
      0 < pNorm p x := by
    change ∀ᵐ x ∂((Measure.pi fun _ : Fin d => (gammaMeasure (1 / p) 1).prod (gaussianReal 0 1)).map
        (fun q i => |(q i).1| ^ (1 / p) * (SignType.sign (q i).2 : ℝ))), 0 < pNorm p x
    rw [h1]
    exact (withDensity_absolutelyContinuous _ _).ae_le (pNorm_pos_ae hp hd)
  exact ae_of_ae_map (measurable_signs p).aemeasurable h2

/-- What all samples of a ball have in common: `rad` is the radius as a function of the last number. -/
theorem placed_law {p : ℝ} (hp : 0 < p) (hd : 0 < d) {β : Measure ℝ} [IsProbabilityMeasure β] {rad : ℝ → ℝ} (hrad : Measurable rad)
    {ρ k : ℝ → ℝ≥0∞} (hβ : β.map rad = volume.withDensity ρ) (hρ : Measurable ρ) (h0 : ∀ r ≤ 0, ρ r = 0) {C : ℝ≥0∞}
    (hk : ∀ r, 0 < r → ρ r * ENNReal.ofReal (r * (r ^ d)⁻¹) = C * k r) (hkm : Measurable k)
    {D : ℕ → Ω → (Fin d → ℝ × ℝ) × ℝ} (h : LpDraws P p 1 β D) {s c : Fin d → ℝ} (hs : ∀ i, 0 < s i) :
    ∃ X : ℕ → Ω → Fin d → ℝ,
      (∀ j, ∀ᵐ ω ∂P, (onSphere p (lpNormal p (gammas (D j ω)) (normals (D j ω))) >>= fun u =>
        pure (place u (rad (D j ω).2) (List.ofFn s) (List.ofFn c))) = .ok (List.ofFn (X j ω))) ∧
      iIndepFun X P ∧
      ∀ j, Measurable (X j) ∧ P.map (X j) = proportional fun y => k (pNorm p fun i => (y i - c i) / s i) := by
  have hg := isProbabilityMeasure_gammaMeasure (one_div_pos.2 hp) one_pos
  have hlaw : ∀ j, P.map (D j) =
      (Measure.pi fun _ : Fin d => (gammaMeasure (1 / p) 1).prod (gaussianReal 0 1)).prod β := by
    intro j
    rw [h.law j, one_div_one]
  let Φ : (Fin d → ℝ × ℝ) × ℝ → Fin d → ℝ := fun q => (q.2 / pNorm p (signed p q.1)) • signed p q.1
  have hΦ : Measurable Φ :=
    (measurable_snd.div (((measurable_pNorm p).comp (measurable_signs p)).comp measurable_fst)).smul
      ((measurable_signs p).comp measurable_fst)
  let A : (Fin d → ℝ) → Fin d → ℝ := fun x i => x i * s i + c i
  have hA : Measurable A := by fun_prop
  have hR : Measurable (Prod.map id rad : (Fin d → ℝ × ℝ) × ℝ → _) := measurable_id.prodMap hrad
  have hAll : Measurable (A ∘ Φ ∘ Prod.map id rad) := hA.comp (hΦ.comp hR)
  refine ⟨fun j => (A ∘ Φ ∘ Prod.map id rad) ∘ D j, fun j => ?_, h.indep.comp _ fun _ => hAll, fun j =>
    ⟨hAll.comp (h.meas j), ?_⟩⟩
  · have h1 : ∀ᵐ q ∂(P.map (D j)), 0 < pNorm p (signed p q.1) := by
      rw [hlaw j]
      exact Measure.quasiMeasurePreserving_fst.ae (norm_pos_ae hp hd)
    filter_upwards [ae_of_ae_map (h.meas j).aemeasurable h1] with ω hω
    exact placed_ok _ hω _ s c
  · rw [← Measure.map_map hAll (h.meas j), hlaw j, ← Measure.map_map hA (hΦ.comp hR), ← Measure.map_map hΦ hR,
      ← Measure.map_prod_map _ _ measurable_id hrad, Measure.map_id, hβ]
    have hβp : IsProbabilityMeasure (volume.withDensity ρ) := by
      rw [← hβ]
      exact Measure.isProbabilityMeasure_map hrad.aemeasurable
    obtain ⟨C1, hC1⟩ := ball_law hp hd hρ h0 hk hkm
    obtain ⟨K, hK⟩ := affine_density (c := c) hs (hkm.comp (measurable_pNorm (d := d) p))
    have e : (((Measure.pi fun _ : Fin d => (gammaMeasure (1 / p) 1).prod (gaussianReal 0 1)).prod
        (volume.withDensity ρ)).map Φ).map A =
        (C1 * K) • volume.withDensity fun y => k (pNorm p fun i => (y i - c i) / s i) := by
      have e1 : ((Measure.pi fun _ : Fin d => (gammaMeasure (1 / p) 1).prod (gaussianReal 0 1)).prod
        (volume.withDensity ρ)).map Φ = C1 • volume.withDensity fun w => k (pNorm p w) := hC1
      rw [e1, Measure.map_smul, mul_smul]
      congr 1
    have : IsProbabilityMeasure ((((Measure.pi fun _ : Fin d => (gammaMeasure (1 / p) 1).prod (gaussianReal 0 1)).prod
        (volume.withDensity ρ)).map Φ).map A) := by
      have := Measure.isProbabilityMeasure_map (μ := (Measure.pi fun _ : Fin d => (gammaMeasure (1 / p) 1).prod (gaussianReal 0 1)).prod
        (volume.withDensity ρ)) hΦ.aemeasurable
      exact Measure.isProbabilityMeasure_map hA.aemeasurable
    exact eq_normalised e

theorem mem_pBall {p : ℝ} (hp : 0 < p) (s c y : Fin d → ℝ) :
    (pNorm p fun i => (y i - c i) / s i) < 1 ↔ y ∈ pBall p s c := by
  rw [pBall, Set.mem_ofPred_eq, ← pNorm_rpow hp fun i => (y i - c i) / s i]
  constructor
  · exact fun h => Real.rpow_lt_one (pNorm_nonneg _ _) h hp
  · intro h
    by_contra h1
    exact absurd h (not_lt.2 (Real.one_le_rpow (not_lt.1 h1) hp.le))

theorem measurable_pBall {p : ℝ} (s c : Fin d → ℝ) : MeasurableSet (pBall p s c) :=
  measurableSet_lt (by fun_prop) measurable_const

theorem proportional_ball {p : ℝ} (hp : 0 < p) (s c : Fin d → ℝ) :
    (proportional fun y => (Set.Iio 1).indicator (fun _ => 1) (pNorm p fun i => (y i - c i) / s i)) =
      volume[|pBall p s c] := by
  have e : (fun y : Fin d → ℝ => (Set.Iio 1).indicator (fun _ => (1 : ℝ≥0∞)) (pNorm p fun i => (y i - c i) / s i)) =
      (pBall p s c).indicator 1 := by
    funext y
    by_cases h : y ∈ pBall p s c
    · rw [Set.indicator_of_mem h, Set.indicator_of_mem (show _ ∈ Set.Iio (1 : ℝ) from (mem_pBall hp s c y).2 h)]
      rfl
    · rw [Set.indicator_of_notMem h,
        Set.indicator_of_notMem (show _ ∉ Set.Iio (1 : ℝ) from fun h1 => h ((mem_pBall hp s c y).1 h1))]
  rw [proportional, e, withDensity_indicator_one (measurable_pBall s c), lintegral_indicator_one (measurable_pBall s c)]
  rfl

/-- **C148.** `Lp_generalized_uniform` with finite `p`: almost surely there are samples, and they are independent and
uniformly distributed in the ball. -/
theorem C148_uniform {p : ℝ} (hp : 0 < p) (hd : 0 < d) {D : ℕ → Ω → (Fin d → ℝ × ℝ) × ℝ}
    (h : LpDraws P p 1 (betaMeasure d 1) D) {s c : Fin d → ℝ} (hs : ∀ i, 0 < s i) :
    ∃ X : ℕ → Ω → Fin d → ℝ,
      (∀ j, ∀ᵐ ω ∂P, lpUniform p (gammas (D j ω)) (normals (D j ω)) (D j ω).2 (List.ofFn s) (List.ofFn c) =
        .ok (List.ofFn (X j ω))) ∧
      iIndepFun X P ∧ ∀ j, Measurable (X j) ∧ P.map (X j) = volume[|pBall p s c] := by
  have := isProbabilityMeasureBeta (α := d) (β := 1) (Nat.cast_pos.2 hd) one_pos
  obtain ⟨X, h1, h2, h3⟩ := placed_law hp hd (rad := id) (ρ := betaPDF d 1) (k := (Set.Iio 1).indicator fun _ => 1)
    measurable_id (by rw [Measure.map_id]; rfl) (measurable_betaPDF d 1) (fun r hr => betaPDF_eq_zero_of_nonpos hr)
    (fun r hr => beta_one_radius hd hr) (measurable_const.indicator measurableSet_Iio) h (c := c) hs
  exact ⟨X, h1, h2, fun j => ⟨(h3 j).1, (h3 j).2.trans (proportional_ball hp s c)⟩⟩

/-- **C148.** `Lp_generalized_beta` with shape `q`: the density of the samples is proportional to the power `q / p - 1`
of one minus the `p`-th power of the distance from the centre. -/
theorem C148_beta {p q : ℝ} (hp : 0 < p) (hq : 0 < q) (hd : 0 < d) {D : ℕ → Ω → (Fin d → ℝ × ℝ) × ℝ}
    (h : LpDraws P p 1 (betaMeasure (d / p) (q / p)) D) {s c : Fin d → ℝ} (hs : ∀ i, 0 < s i) :
    ∃ X : ℕ → Ω → Fin d → ℝ,
      (∀ j, ∀ᵐ ω ∂P, lpBeta p (gammas (D j ω)) (normals (D j ω)) (D j ω).2 (List.ofFn s) (List.ofFn c) =
        .ok (List.ofFn (X j ω))) ∧
      iIndepFun X P ∧ ∀ j, Measurable (X j) ∧ P.map (X j) = proportional ((pBall p s c).indicator fun x =>
        ENNReal.ofReal ((1 - ∑ i, |(x i - c i) / s i| ^ p) ^ (q / p - 1))) := by
  have hd' : (0 : ℝ) < d := Nat.cast_pos.2 hd
  have := isProbabilityMeasureBeta (α := d / p) (β := q / p) (by positivity) (by positivity)
  obtain ⟨X, h1, h2, h3⟩ := placed_law hp hd (rad := fun x => x ^ (1 / p)) (ρ := rootDensity p (d / p) (q / p))
    (k := (Set.Iio 1).indicator fun r => ENNReal.ofReal ((1 - r ^ p) ^ (q / p - 1)))
    (by fun_prop) (root_law hp _ _) (measurable_rootDensity _ _ _)
    (fun r hr => by rw [rootDensity, Set.indicator_of_notMem (show r ∉ Set.Ioi 0 from not_lt.2 hr)])
    (fun r hr => root_radius hp hq hd hr) (Measurable.indicator (by fun_prop) measurableSet_Iio) h (c := c) hs
  refine ⟨X, h1, h2, fun j => ⟨(h3 j).1, (h3 j).2.trans ?_⟩⟩
  congr 1
  funext y
  by_cases hy : y ∈ pBall p s c
  · rw [Set.indicator_of_mem hy, Set.indicator_of_mem (show _ ∈ Set.Iio (1 : ℝ) from (mem_pBall hp s c y).2 hy),
      pNorm_rpow hp]
  · rw [Set.indicator_of_notMem hy,
      Set.indicator_of_notMem (show _ ∉ Set.Iio (1 : ℝ) from fun h1 => hy ((mem_pBall hp s c y).1 h1))]

/-- **C148.** With shape `p` that is the uniform law, as documented. -/
theorem C148_beta_uniform {p : ℝ} (hp : 0 < p) (hd : 0 < d) {D : ℕ → Ω → (Fin d → ℝ × ℝ) × ℝ}
    (h : LpDraws P p 1 (betaMeasure (d / p) (p / p)) D) {s c : Fin d → ℝ} (hs : ∀ i, 0 < s i) :
    ∃ X : ℕ → Ω → Fin d → ℝ,
      (∀ j, ∀ᵐ ω ∂P, lpBeta p (gammas (D j ω)) (normals (D j ω)) (D j ω).2 (List.ofFn s) (List.ofFn c) =
        .ok (List.ofFn (X j ω))) ∧
      iIndepFun X P ∧ ∀ j, Measurable (X j) ∧ P.map (X j) = volume[|pBall p s c] := by
  obtain ⟨X, h1, h2, h3⟩ := C148_beta hp hp hd h (c := c) hs
  refine ⟨X, h1, h2, fun j => ⟨(h3 j).1, (h3 j).2.trans ?_⟩⟩
  simp only [div_self hp.ne', sub_self, Real.rpow_zero, ENNReal.ofReal_one]
  rw [proportional, show ((pBall p s c).indicator fun _ => (1 : ℝ≥0∞)) = (pBall p s c).indicator 1 from rfl,
    withDensity_indicator_one (measurable_pBall s c), lintegral_indicator_one (measurable_pBall s c)]
  rfl

open Classical in
/-- **C148.** So the fraction of the samples found in a set tends to its share of the volume of the ball, almost
surely. -/
theorem C148_frequency [IsProbabilityMeasure P] {p : ℝ} (hp : 0 < p) (hd : 0 < d)
    {D : ℕ → Ω → (Fin d → ℝ × ℝ) × ℝ} (h : LpDraws P p 1 (betaMeasure d 1) D) {s c : Fin d → ℝ}
    (hs : ∀ i, 0 < s i) {A : Set (Fin d → ℝ)} (hA : MeasurableSet A) :
    ∀ᵐ ω ∂P, Tendsto (fun n : ℕ => (((Finset.range n).filter fun j => ∃ x ∈ A,
        lpUniform p (gammas (D j ω)) (normals (D j ω)) (D j ω).2 (List.ofFn s) (List.ofFn c) =
          .ok (List.ofFn x)).card : ℝ) / n) atTop
      (𝓝 (volume.real (pBall p s c ∩ A) / volume.real (pBall p s c))) := by
  obtain ⟨X, h1, h2, h3⟩ := C148_uniform hp hd h (c := c) hs
  have hlaw : ∀ j, HasLaw (X j) volume[|pBall p s c] P := fun j => ⟨(h3 j).1.aemeasurable, (h3 j).2⟩
  have h4 := stream_frequency hlaw (fun j k hjk => h2.indepFun hjk) hA.nullMeasurableSet
  filter_upwards [h4, ae_all_iff.2 h1] with ω h5 h6
  have hc : (volume[|pBall p s c]).real A = volume.real (pBall p s c ∩ A) / volume.real (pBall p s c) := by
    rw [measureReal_def, cond_apply (measurable_pBall s c), ENNReal.toReal_mul, ENNReal.toReal_inv, inv_mul_eq_div]
    rfl
  rw [hc] at h5
  refine h5.congr fun n => ?_
  congr 1
  rw [Finset.card_filter, Nat.cast_sum]
  refine Finset.sum_congr rfl fun j _ => ?_
  have hiff : (∃ x ∈ A, lpUniform p (gammas (D j ω)) (normals (D j ω)) (D j ω).2 (List.ofFn s) (List.ofFn c) =
          .ok (List.ofFn x)) ↔ X j ω ∈ A := by
    constructor
    · rintro ⟨x, hx, he⟩
      rw [h6 j] at he
      rwa [List.ofFn_injective (Except.ok.inj he)]
    · exact fun hx => ⟨_, hx, h6 j⟩
  by_cases hx : X j ω ∈ A
  · rw [if_pos (hiff.2 hx), ind, Set.indicator_of_mem hx]
    simp
  · rw [if_neg fun hh => hx (hiff.1 hh), ind, Set.indicator_of_notMem hx]
    simp

/-! ### Normal samples -/

theorem normal_fst {p sc : ℝ} (hp : 0 < p) (hsc : 0 < sc) {β : Measure ℝ} [IsProbabilityMeasure β]
    {D : ℕ → Ω → (Fin d → ℝ × ℝ) × ℝ} (h : LpDraws P p sc β D) (j : ℕ) :
    P.map (fun ω => signed p (D j ω).1) = volume.withDensity fun x => expPowers d p (1 / sc) (pNorm p x) := by
  have hg := isProbabilityMeasure_gammaMeasure (one_div_pos.2 hp) (one_div_pos.2 hsc)
  have e : (fun ω => signed p (D j ω).1) = (signed p ∘ Prod.fst) ∘ D j := rfl
  rw [e, ← Measure.map_map ((measurable_signs p).comp measurable_fst) (h.meas j), h.law j,
    ← Measure.map_map (measurable_signs p) measurable_fst, Measure.map_fst_prod, measure_univ, one_smul]
  exact normal_law hp (one_div_pos.2 hsc)

/-- The density of normal samples up to a factor. -/
noncomputable def expSum (p sc : ℝ) (c x : Fin d → ℝ) : ℝ≥0∞ :=
  ENNReal.ofReal (Real.exp (-((∑ i, |x i - c i| ^ p) / sc)))

theorem measurable_expSum (p sc : ℝ) (c : Fin d → ℝ) : Measurable (expSum p sc c) := by
  unfold expSum
  fun_prop

theorem normal_fst_sum {p sc : ℝ} (hp : 0 < p) (hsc : 0 < sc) {β : Measure ℝ} [IsProbabilityMeasure β]
    {D : ℕ → Ω → (Fin d → ℝ × ℝ) × ℝ} (h : LpDraws P p sc β D) (j : ℕ) :
    P.map (fun ω => signed p (D j ω).1) =
      ENNReal.ofReal ((p * (1 / sc) ^ (1 / p) / (2 * Real.Gamma (1 / p))) ^ d) • volume.withDensity (expSum p sc 0) := by
  rw [normal_fst hp hsc h j, ← withDensity_smul _ (measurable_expSum p sc 0)]
  congr 1
  funext x
  have hG := Real.Gamma_pos_of_pos (one_div_pos.2 hp)
  rw [expPowers, ENNReal.ofReal_mul (by positivity), Pi.smul_apply, smul_eq_mul, expSum, pNorm_rpow hp]
  congr 3
  simp only [Pi.zero_apply, sub_zero]
  ring_nf

theorem normal_scaled {p sc : ℝ} (hp : 0 < p) (hsc : 0 < sc) {β : Measure ℝ} [IsProbabilityMeasure β]
    {D : ℕ → Ω → (Fin d → ℝ × ℝ) × ℝ} (h : LpDraws P p sc β D) (j : ℕ) {a : ℝ} (ha : 0 < a) (c : Fin d → ℝ) :
    P.map (fun ω i => signed p (D j ω).1 i * a + c i) = proportional (expSum p (a ^ p * sc) c) := by
  have hg := isProbabilityMeasure_gammaMeasure (one_div_pos.2 hp) (one_div_pos.2 hsc)
  have hP : IsProbabilityMeasure P := by
    have h1 : IsProbabilityMeasure (P.map (D j)) := by rw [h.law j]; infer_instance
    exact (Measure.isProbabilityMeasure_map_iff (h.meas j).aemeasurable).1 h1
  have hm : Measurable fun ω => signed p (D j ω).1 := ((measurable_signs p).comp measurable_fst).comp (h.meas j)
  have hA : Measurable fun (x : Fin d → ℝ) i => x i * a + c i := by fun_prop
  have : IsProbabilityMeasure (P.map fun ω i => signed p (D j ω).1 i * a + c i) :=
    Measure.isProbabilityMeasure_map (hA.comp hm).aemeasurable
  obtain ⟨K, hK⟩ := affine_density (s := fun _ => a) (c := c) (fun _ => ha) (measurable_expSum p sc (0 : Fin d → ℝ))
  have e : (fun y : Fin d → ℝ => expSum p sc (0 : Fin d → ℝ) fun i => (y i - c i) / a) = expSum p (a ^ p * sc) c := by
    funext y
    rw [expSum, expSum]
    congr 3
    simp only [Pi.zero_apply, sub_zero, abs_div, abs_of_pos ha, Real.div_rpow (abs_nonneg _) ha.le]
    rw [← Finset.sum_div, div_div]
  rw [e] at hK
  have h1 : P.map (fun ω i => signed p (D j ω).1 i * a + c i) =
      (ENNReal.ofReal ((p * (1 / sc) ^ (1 / p) / (2 * Real.Gamma (1 / p))) ^ d) * K) •
        volume.withDensity (expSum p (a ^ p * sc) c) := by
    rw [show (fun ω i => signed p (D j ω).1 i * a + c i) =
      (fun (x : Fin d → ℝ) i => x i * a + c i) ∘ fun ω => signed p (D j ω).1 from rfl, ← Measure.map_map hA hm,
      normal_fst_sum hp hsc h j, Measure.map_smul, hK, mul_smul]
  exact eq_normalised h1

/-- **C148.** `Lp_generalized_normal`: the samples are independent, and their density is proportional to the
exponential of minus the `p`-th power of the distance from the centre divided by the scale. -/
theorem C148_normal {p sc : ℝ} (hp : 0 < p) (hsc : 0 < sc) {β : Measure ℝ} [IsProbabilityMeasure β]
    {D : ℕ → Ω → (Fin d → ℝ × ℝ) × ℝ} (h : LpDraws P p sc β D) (c : Fin d → ℝ) :
    ∃ X : ℕ → Ω → Fin d → ℝ,
      (∀ j ω, lpNormalAt p (gammas (D j ω)) (normals (D j ω)) (List.ofFn c) = List.ofFn (X j ω)) ∧
      iIndepFun X P ∧ ∀ j, Measurable (X j) ∧ P.map (X j) = proportional fun x =>
        ENNReal.ofReal (Real.exp (-((∑ i, |x i - c i| ^ p) / sc))) := by
  have hA : Measurable fun q : (Fin d → ℝ × ℝ) × ℝ => fun i => signed p q.1 i * 1 + c i := by
    refine measurable_pi_iff.2 fun i => ?_
    exact (((measurable_pi_apply i).comp ((measurable_signs p).comp measurable_fst)).mul_const 1).add_const (c i)
  refine ⟨fun j => (fun q : (Fin d → ℝ × ℝ) × ℝ => fun i => signed p q.1 i * 1 + c i) ∘ D j, fun j ω => ?_,
    h.indep.comp _ fun _ => hA, fun j => ⟨hA.comp (h.meas j), ?_⟩⟩
  · rw [lpNormalAt, lpNormal_ofFn, zipWith_vectors]
    simp
  · have h1 := normal_scaled hp hsc h j one_pos c
    rw [Real.one_rpow, one_mul] at h1
    exact h1

theorem scaled_ne {p sc a b : ℝ} (ha : 0 < a) (hab : a < b) (hd : 0 < d) {μ : Measure (Fin d → ℝ)}
    [IsProbabilityMeasure μ] {C : ℝ≥0∞} (hμ : μ = C • volume.withDensity (expSum p sc (0 : Fin d → ℝ))) :
    μ.map (fun x i => x i * a + 0) ≠ μ.map fun x i => x i * b + 0 := by
  intro h
  have hb : 0 < b := ha.trans hab
  have hba : b⁻¹ < a⁻¹ := (inv_lt_inv₀ hb ha).2 hab
  have hC : C ≠ 0 := by
    rintro rfl
    rw [zero_smul] at hμ
    exact IsProbabilityMeasure.ne_zero μ hμ
  have hac : (volume : Measure (Fin d → ℝ)) ≪ μ := by
    rw [hμ]
    refine (withDensity_absolutelyContinuous' (measurable_expSum p sc 0).aemeasurable
      (Eventually.of_forall fun x => ?_)).smul_right hC
    rw [expSum]
    simp [Real.exp_pos]
  let S : Set (Fin d → ℝ) := {x | ∀ i, |x i| ≤ 1}
  have hS : MeasurableSet S := by
    have : S = ⋂ i, {x : Fin d → ℝ | |x i| ≤ 1} := by ext x; simp [S]
    rw [this]
    exact MeasurableSet.iInter fun i => measurableSet_le (by fun_prop) measurable_const
  have e : ∀ t, 0 < t → (fun (x : Fin d → ℝ) i => x i * t + 0) ⁻¹' S = {x | ∀ i, |x i| ≤ t⁻¹} := by
    intro t ht
    ext x
    simp only [S, Set.mem_preimage, Set.mem_ofPred_eq, add_zero, abs_mul, abs_of_pos ht]
    exact forall_congr' fun i => by rw [← le_div_iff₀ ht, one_div]
  have h1 : μ.map (fun (x : Fin d → ℝ) i => x i * a + 0) S = μ.map (fun (x : Fin d → ℝ) i => x i * b + 0) S := by rw [h]
  rw [Measure.map_apply (by fun_prop) hS, Measure.map_apply (by fun_prop) hS, e a ha, e b hb] at h1
  have hbm : MeasurableSet {x : Fin d → ℝ | ∀ i, |x i| ≤ b⁻¹} := by
    rw [← e b hb]
    exact (show Measurable fun (x : Fin d → ℝ) i => x i * b + 0 by fun_prop) hS
  have hsub : {x : Fin d → ℝ | ∀ i, |x i| ≤ b⁻¹} ⊆ {x | ∀ i, |x i| ≤ a⁻¹} := fun x hx i => (hx i).trans hba.le
  have h2 : μ ({x | ∀ i, |x i| ≤ a⁻¹} \ {x : Fin d → ℝ | ∀ i, |x i| ≤ b⁻¹}) = 0 := by
    rw [measure_sdiff hsub hbm.nullMeasurableSet (measure_ne_top _ _), h1, tsub_self]
  have h3 := hac h2
  have h4 : (volume : Measure (Fin d → ℝ)) (Set.univ.pi fun _ => Set.Ioo b⁻¹ a⁻¹) = 0 := by
    refine measure_mono_null ?_ h3
    intro x hx
    refine ⟨fun i => ?_, fun hx2 => ?_⟩
    · have := hx i trivial
      rw [abs_of_pos ((inv_pos.2 hb).trans this.1)]
      exact this.2.le
    · have h5 := hx ⟨0, hd⟩ trivial
      exact absurd ((le_abs_self _).trans (hx2 ⟨0, hd⟩)) (not_le.2 h5.1)
  rw [volume_pi_pi] at h4
  simp only [Real.volume_Ioo, Finset.prod_const, Finset.card_univ, Fintype.card_fin] at h4
  have h5 := pow_eq_zero_iff (hd.ne') |>.1 h4
  rw [ENNReal.ofReal_eq_zero] at h5
  linarith

/-- **C148, negation.** The argument `scale` of `Lp_generalized_normal` is documented as the radius to scale the
samples by. But the samples are not distributed like samples with scale one multiplied by the scale (unless `p` is one or
the scale is one); they are distributed like samples multiplied by the `p`-th root of the scale. -/
theorem C148_negation_scale {Ω' : Type} [MeasurableSpace Ω'] {P' : Measure Ω'} {p sc : ℝ} (hp : 0 < p) (hsc : 0 < sc)
    (hp1 : p ≠ 1) (hsc1 : sc ≠ 1) (hd : 0 < d) {β β' : Measure ℝ} [IsProbabilityMeasure β] [IsProbabilityMeasure β']
    {D : ℕ → Ω → (Fin d → ℝ × ℝ) × ℝ} {D' : ℕ → Ω' → (Fin d → ℝ × ℝ) × ℝ}
    (h : LpDraws P p 1 β D) (h' : LpDraws P' p sc β' D') {X : Ω → Fin d → ℝ} {X' : Ω' → Fin d → ℝ}
    (hX : ∀ ω, lpNormal p (gammas (D 0 ω)) (normals (D 0 ω)) = List.ofFn (X ω))
    (hX' : ∀ ω, lpNormal p (gammas (D' 0 ω)) (normals (D' 0 ω)) = List.ofFn (X' ω)) :
    P'.map X' ≠ P.map (fun ω i => X ω i * sc) ∧ P'.map X' = P.map fun ω i => X ω i * sc ^ (1 / p) := by
  obtain rfl : X = fun ω => signed p (D 0 ω).1 := by
    funext ω
    exact List.ofFn_injective ((hX ω).symm.trans (lpNormal_ofFn p _))
  obtain rfl : X' = fun ω => signed p (D' 0 ω).1 := by
    funext ω
    exact List.ofFn_injective ((hX' ω).symm.trans (lpNormal_ofFn p _))
  have hr : 0 < sc ^ (1 / p) := Real.rpow_pos_of_pos hsc _
  have hroot : P'.map (fun ω => signed p (D' 0 ω).1) = P.map fun ω i => signed p (D 0 ω).1 i * sc ^ (1 / p) + 0 := by
    have h1 := normal_scaled hp hsc h' 0 one_pos (0 : Fin d → ℝ)
    have h2 := normal_scaled hp one_pos h 0 hr (0 : Fin d → ℝ)
    rw [← Real.rpow_mul hsc.le, one_div_mul_cancel hp.ne', Real.rpow_one, mul_one] at h2
    rw [Real.one_rpow, one_mul] at h1
    simp only [Pi.zero_apply] at h1 h2
    rw [h2, ← h1]
    simp
  have hm : Measurable fun ω => signed p (D 0 ω).1 := ((measurable_signs p).comp measurable_fst).comp (h.meas 0)
  have hg := isProbabilityMeasure_gammaMeasure (a := 1 / p) (r := 1 / 1) (one_div_pos.2 hp) (by norm_num)
  have hP : IsProbabilityMeasure P := by
    have h1 : IsProbabilityMeasure (P.map (D 0)) := by rw [h.law 0]; infer_instance
    exact (Measure.isProbabilityMeasure_map_iff (h.meas 0).aemeasurable).1 h1
  have hμ := Measure.isProbabilityMeasure_map (μ := P) hm.aemeasurable
  refine ⟨fun hh => ?_, by simpa using hroot⟩
  rw [hroot] at hh
  have e : ∀ t : ℝ, P.map (fun ω i => signed p (D 0 ω).1 i * t + 0) =
      (P.map fun ω => signed p (D 0 ω).1).map fun x i => x i * t + 0 := by
    intro t
    rw [Measure.map_map (by fun_prop) hm]
    rfl
  have hh' : P.map (fun ω i => signed p (D 0 ω).1 i * sc ^ (1 / p) + 0) =
      P.map fun ω i => signed p (D 0 ω).1 i * sc + 0 := by
    rw [hh]
    simp
  rw [e, e] at hh'
  have hne : sc ^ (1 / p) ≠ sc := by
    intro h1
    have h2 := congrArg Real.log h1
    rw [Real.log_rpow hsc] at h2
    have h3 : Real.log sc ≠ 0 := Real.log_ne_zero_of_pos_of_ne_one hsc hsc1
    have h4 : 1 / p = 1 := mul_right_cancel₀ h3 (by rw [h2, one_mul])
    rw [div_eq_one_iff_eq hp.ne'] at h4
    exact hp1 h4.symm
  rcases lt_or_gt_of_ne hne with h1 | h1
  · exact scaled_ne hr h1 hd (normal_fst_sum hp one_pos h 0) hh'
  · exact scaled_ne hsc h1 hd (normal_fst_sum hp one_pos h 0) hh'.symm

/-! ### Infinite `p` -/

/-- **C148.** `Lp_generalized_uniform` with infinite `p`: the samples are independent and uniformly distributed in the
box. -/
theorem C148_inf {U : ℕ → Ω → Fin d → ℝ} (hi : iIndepFun U P) (hm : ∀ j, Measurable (U j))
    (hU : ∀ j, P.map (U j) = volume.restrict (Set.univ.pi fun _ => Set.Ico 0 1)) {s c : Fin d → ℝ} (hs : ∀ i, 0 < s i) :
    ∃ X : ℕ → Ω → Fin d → ℝ,
      (∀ j ω, lpUniformInf (List.ofFn (U j ω)) (List.ofFn s) (List.ofFn c) = List.ofFn (X j ω)) ∧
      iIndepFun X P ∧ ∀ j, Measurable (X j) ∧ P.map (X j) = volume[|pBox s c] := by
  have hA : Measurable fun (x : Fin d → ℝ) i => x i * (2 * s i) + (c i - s i) := by fun_prop
  refine ⟨fun j => (fun (x : Fin d → ℝ) i => x i * (2 * s i) + (c i - s i)) ∘ U j, fun j ω => ?_,
    hi.comp _ fun _ => hA, fun j => ⟨hA.comp (hm j), ?_⟩⟩
  · rw [lpUniformInf, zipWith_vectors, zipWith_vectors]
    congr 1
    funext i
    simp only [Function.comp_apply]
    ring
  · have hcube : MeasurableSet (Set.univ.pi fun _ : Fin d => Set.Ico (0 : ℝ) 1) :=
      MeasurableSet.univ_pi fun _ => measurableSet_Ico
    obtain ⟨K, hK⟩ := affine_volume (s := fun i => 2 * s i) (c := fun i => c i - s i) fun i => by have := hs i; positivity
    have hbox : MeasurableSet (Set.univ.pi fun i => Set.Ico (c i - s i) (c i + s i)) :=
      MeasurableSet.univ_pi fun _ => measurableSet_Ico
    have hpre : (fun (x : Fin d → ℝ) i => x i * (2 * s i) + (c i - s i)) ⁻¹'
        (Set.univ.pi fun i => Set.Ico (c i - s i) (c i + s i)) = Set.univ.pi fun _ => Set.Ico 0 1 := by
      ext x
      simp only [Set.mem_preimage, Set.mem_univ_pi, Set.mem_Ico]
      refine forall_congr' fun i => ?_
      have := hs i
      constructor
      · rintro ⟨h1, h2⟩
        constructor <;> nlinarith
      · rintro ⟨h1, h2⟩
        constructor <;> nlinarith
    have h1 : P.map ((fun (x : Fin d → ℝ) i => x i * (2 * s i) + (c i - s i)) ∘ U j) =
        K • volume.restrict (Set.univ.pi fun i => Set.Ico (c i - s i) (c i + s i)) := by
      rw [← Measure.map_map hA (hm j), hU j, ← hpre, ← Measure.restrict_map hA hbox, hK, Measure.restrict_smul]
    have h2 : volume.restrict (Set.univ.pi fun i => Set.Ico (c i - s i) (c i + s i)) =
        (volume : Measure (Fin d → ℝ)).restrict (pBox s c) := by
      have e : pBox s c = Set.Icc (fun i => c i - s i) (fun i => c i + s i) := by
        ext x
        simp only [pBox, Set.mem_ofPred_eq, Set.mem_Icc, Pi.le_def, abs_le, ← forall_and]
        exact forall_congr' fun i => ⟨fun h => ⟨by linarith [h.1], by linarith [h.2]⟩,
          fun h => ⟨by linarith [h.1], by linarith [h.2]⟩⟩
      rw [e]
      exact Measure.restrict_congr_set Measure.univ_pi_Ico_ae_eq_Icc
    rw [h2] at h1
    have hP : IsProbabilityMeasure P := by
      have h3 : IsProbabilityMeasure (P.map (U j)) := by
        rw [hU j]
        refine ⟨?_⟩
        rw [Measure.restrict_apply MeasurableSet.univ, Set.univ_inter, volume_pi_pi]
        simp
      exact (Measure.isProbabilityMeasure_map_iff (hm j).aemeasurable).1 h3
    have := Measure.isProbabilityMeasure_map (μ := P) (hA.comp (hm j)).aemeasurable
    exact eq_cond h1

/-! ### The hypotheses are met -/

namespace Ex

/-- There are draws of every kind. -/
theorem lpDraws (d : ℕ) {p sc : ℝ} (hp : 0 < p) (hsc : 0 < sc) (β : Measure ℝ) [IsProbabilityMeasure β] :
    ∃ (Ω : Type) (_ : MeasurableSpace Ω) (P : Measure Ω) (D : ℕ → Ω → (Fin d → ℝ × ℝ) × ℝ),
      IsProbabilityMeasure P ∧ LpDraws P p sc β D := by
  have hg := isProbabilityMeasure_gammaMeasure (one_div_pos.2 hp) (one_div_pos.2 hsc)
  let μ : Measure ((Fin d → ℝ × ℝ) × ℝ) :=
    (Measure.pi fun _ : Fin d => (gammaMeasure (1 / p) (1 / sc)).prod (gaussianReal 0 1)).prod β
  let P : Measure (ℕ → (Fin d → ℝ × ℝ) × ℝ) := Measure.infinitePi fun _ => μ
  exact ⟨_, inferInstance, P, fun j ω => ω j, inferInstance,
    ⟨iIndepFun_infinitePi (P := fun _ => μ) (X := fun _ x => x) fun _ => measurable_id, measurable_pi_apply,
      fun j => Measure.infinitePi_map_eval _ j⟩⟩

/-- Uniform samples of an ellipse. -/
example : ∃ (Ω : Type) (_ : MeasurableSpace Ω) (P : Measure Ω) (D : ℕ → Ω → (Fin 2 → ℝ × ℝ) × ℝ),
    IsProbabilityMeasure P ∧ ∃ X : ℕ → Ω → Fin 2 → ℝ,
      (∀ j, ∀ᵐ ω ∂P, lpUniform 2 (gammas (D j ω)) (normals (D j ω)) (D j ω).2 (List.ofFn ![3, 1]) (List.ofFn ![5, 0]) =
        .ok (List.ofFn (X j ω))) ∧ ∀ j, P.map (X j) = volume[|pBall 2 ![3, 1] ![5, 0]] := by
  have := isProbabilityMeasureBeta (α := (2 : ℕ)) (β := 1) (by norm_num) one_pos
  obtain ⟨Ω, _, P, D, hP, h⟩ := lpDraws 2 (p := 2) (sc := 1) (by norm_num) one_pos (betaMeasure (2 : ℕ) 1)
  obtain ⟨X, h1, -, h3⟩ := C148_uniform (by norm_num) (by norm_num) h (s := ![3, 1]) (c := ![5, 0])
    (by intro i; fin_cases i <;> norm_num)
  exact ⟨Ω, _, P, D, hP, X, h1, fun j => (h3 j).2⟩

example : ∃ (Ω : Type) (_ : MeasurableSpace Ω) (P : Measure Ω) (D : ℕ → Ω → (Fin 3 → ℝ × ℝ) × ℝ),
    IsProbabilityMeasure P ∧ LpDraws P 1 1 (betaMeasure ((3 : ℕ) / 1) (5 / 1)) D := by
  have := isProbabilityMeasureBeta (α := (3 : ℕ) / 1) (β := 5 / 1) (by norm_num) (by norm_num)
  exact lpDraws 3 one_pos one_pos _

end Ex

end BET
