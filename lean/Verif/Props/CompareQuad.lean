import Verif.Model.CompareQuad
import Verif.Props.Pdf
import Verif.Props.CompareP
import Mathlib.MeasureTheory.Integral.IntervalIntegral.Basic
import Mathlib.Analysis.SpecialFunctions.Log.Basic
import Mathlib.MeasureTheory.Function.L2Space

/-!
# C94: statistical distances of marginals by quadrature
-/

set_option autoImplicit false
set_option linter.unusedSectionVars false
set_option linter.unusedSimpArgs false

namespace BET

open MeasureTheory

/-! ## Specification -/

/-- The quadrature rule gives the integral of every function that can be integrated. -/
def Spec.Integrates (Q : Quad ℝ) : Prop :=
  ∀ (f : List ℝ → Except Err (List ℝ)) (g : ℝ → ℝ) (a b : ℝ), (∀ xs, f xs = .ok (xs.map g)) →
    IntervalIntegrable g volume a b → Q f a b = .ok (∫ x in a..b, g x)

/-- The quadrature rule evaluates the function it is given, so an error of the function is an error of the
rule. -/
def Spec.Evaluates (Q : Quad ℝ) : Prop :=
  ∀ (f : List ℝ → Except Err (List ℝ)) (e : Err) (a b : ℝ), (∀ xs, f xs = .error e) → Q f a b = .error e

/-- The marginals of the compared sets in dimension `i` are the functions `g` and `h`. -/
def Spec.HasMarginals (c : Compare ℝ) (i : Nat) (g h : ℝ → ℝ) : Prop :=
  (∀ xs, c.dens1.marginal xs i = .ok (xs.map g)) ∧ ∀ xs, c.dens2.marginal xs i = .ok (xs.map h)

open Spec

/-! ## Lemmas -/

theorem errorAt_ok {c : Compare ℝ} {i : Nat} {g h : ℝ → ℝ} (hm : HasMarginals c i g h)
    (op : ℝ → ℝ → ℝ) (xs : List ℝ) : errorAt c i op xs = .ok (xs.map fun x => op (g x) (h x)) := by
  unfold errorAt
  rw [hm.1, hm.2]
  simp only [ok_bind]
  show Except.ok _ = _
  congr 1
  rw [List.zipWith_map]
  induction xs with
  | nil => rfl
  | cons x xs ih => simp [List.zipWith_cons_cons, ih]

theorem sqrt_diff_sq_le {p q : ℝ} (hp : 0 ≤ p) (hq : 0 ≤ q) :
    (√p - √q) * (√p - √q) ≤ |p - q| := by
  have h1 := Real.mul_self_sqrt hp
  have h2 := Real.mul_self_sqrt hq
  have e1 := Real.sqrt_nonneg p
  have e2 := Real.sqrt_nonneg q
  rcases le_total (√q) (√p) with hl | hl
  · refine le_trans ?_ (le_abs_self _)
    nlinarith
  · refine le_trans ?_ (neg_le_abs _)
    nlinarith

theorem sqrt_diff_integrable {g h : ℝ → ℝ} {a b : ℝ} (hg : ∀ x, 0 ≤ g x) (hh : ∀ x, 0 ≤ h x)
    (ig : IntervalIntegrable g volume a b) (ih : IntervalIntegrable h volume a b) :
    IntervalIntegrable (fun x => (√(g x) - √(h x)) * (√(g x) - √(h x))) volume a b := by
  have hd := (ig.sub ih).abs
  refine hd.mono_fun ?_ ?_
  · have m1 := ig.aestronglyMeasurable_restrict_uIoc
    have m2 := ih.aestronglyMeasurable_restrict_uIoc
    have s1 := Real.continuous_sqrt.comp_aestronglyMeasurable m1
    have s2 := Real.continuous_sqrt.comp_aestronglyMeasurable m2
    exact (s1.sub s2).mul (s1.sub s2)
  · refine Filter.Eventually.of_forall fun x => ?_
    have h1 := sqrt_diff_sq_le (hg x) (hh x)
    have h0 : 0 ≤ (√(g x) - √(h x)) * (√(g x) - √(h x)) := mul_self_nonneg _
    simp only [Real.norm_eq_abs, abs_of_nonneg h0, abs_abs]
    exact h1

section
variable {Q : Quad ℝ} {c : Compare ℝ} {i : Nat} {g h : ℝ → ℝ} {a b factor : ℝ}

theorem tv_value (hQ : Integrates Q) (hm : HasMarginals c i g h) (ig : IntervalIntegrable g volume a b)
    (ih : IntervalIntegrable h volume a b) :
    c.distanceMarginalQuad Real.sqrt Real.log Q i (some (a, b)) factor .tv =
      .ok (1 / 2 * ∫ x in a..b, |g x - h x|) := by
  have := hQ _ _ a b (errorAt_ok hm fun x y => |x - y|) (ig.sub ih).abs
  simp only [Compare.distanceMarginalQuad, Compare.quadInterval, ok_bind, Compare.quadValue, this]
  rfl

theorem sqhell_value (hQ : Integrates Q) (hm : HasMarginals c i g h) (hg : ∀ x, 0 ≤ g x)
    (hh : ∀ x, 0 ≤ h x) (ig : IntervalIntegrable g volume a b) (ih : IntervalIntegrable h volume a b) :
    c.quadValue Real.sqrt Real.log Q i a b .sqhell =
      .ok (1 / 2 * ∫ x in a..b, (√(g x) - √(h x)) * (√(g x) - √(h x))) := by
  have := hQ _ _ a b (errorAt_ok hm fun x y => 1 / 2 * ((√x - √y) * (√x - √y)))
    ((sqrt_diff_integrable hg hh ig ih).const_mul (1 / 2))
  simp only [Compare.quadValue, this, intervalIntegral.integral_const_mul]

/-- Exchanging the two sets. -/
def Spec.swapSets (c : Compare ℝ) : Compare ℝ :=
  { c with set1 := c.set2, set2 := c.set1, dens1 := c.dens2, dens2 := c.dens1 }

theorem swap_marginals (hm : HasMarginals c i g h) : HasMarginals (swapSets c) i h g := ⟨hm.2, hm.1⟩

/-- The part of a density over an interval is between zero and one. -/
theorem density_part (hab : a ≤ b) (hg : IsDensity g) : ∫ x in a..b, g x ≤ 1 := by
  rw [intervalIntegral.integral_of_le hab, ← hg.mass]
  exact setIntegral_le_integral hg.integrable (Filter.Eventually.of_forall hg.nonneg)

/-! ## C94 -/

/-- **C94** Total variation. For marginals with densities `g` and `h` the distance over `[a, b]` is half the
integral of `|g - h|`. It is between zero and one, does not depend on the order of the sets, and is zero
only if the densities agree almost everywhere in the interval. -/
theorem C94_tv_partial (hQ : Integrates Q) (hm : HasMarginals c i g h) (hab : a ≤ b) (hg : IsDensity g)
    (hh : IsDensity h) :
    ∃ d, c.distanceMarginalQuad Real.sqrt Real.log Q i (some (a, b)) factor .tv = .ok d ∧
      d = 1 / 2 * ∫ x in a..b, |g x - h x| ∧ 0 ≤ d ∧ d ≤ 1 ∧
      (swapSets c).distanceMarginalQuad Real.sqrt Real.log Q i (some (a, b)) factor .tv = .ok d ∧
      (d = 0 ↔ ∀ᵐ x ∂volume.restrict (Set.Ioc a b), g x = h x) := by
  have ig := hg.integrable.intervalIntegrable (a := a) (b := b)
  have ih := hh.integrable.intervalIntegrable (a := a) (b := b)
  have hnn : 0 ≤ ∫ x in a..b, |g x - h x| :=
    intervalIntegral.integral_nonneg hab fun x _ => abs_nonneg _
  refine ⟨_, tv_value hQ hm ig ih, rfl, by linarith, ?_, ?_, ?_⟩
  · have h1 : ∫ x in a..b, |g x - h x| ≤ ∫ x in a..b, (g x + h x) := by
      refine intervalIntegral.integral_mono_on hab (ig.sub ih).abs (ig.add ih) fun x _ => ?_
      have e1 := hg.nonneg x
      have e2 := hh.nonneg x
      rw [abs_le]
      constructor <;> linarith
    rw [intervalIntegral.integral_add ig ih] at h1
    have := density_part hab hg
    have := density_part hab hh
    linarith
  · rw [tv_value hQ (swap_marginals hm) ih ig]
    simp only [abs_sub_comm]
  · have hi : Integrable (fun x => |g x - h x|) (volume.restrict (Set.Ioc a b)) :=
      (hg.integrable.sub hh.integrable).abs.integrableOn
    rw [intervalIntegral.integral_of_le hab]
    have hz := setIntegral_eq_zero_iff_of_nonneg_ae (s := Set.Ioc a b) (μ := volume)
      (f := fun x => |g x - h x|) (Filter.Eventually.of_forall fun x => abs_nonneg _) hi
    constructor
    · intro h0
      have h0' : ∫ x in Set.Ioc a b, |g x - h x| = 0 := by linarith
      filter_upwards [hz.mp h0'] with x hx
      exact sub_eq_zero.mp (abs_eq_zero.mp hx)
    · intro h0
      rw [hz.mpr]
      · ring
      · filter_upwards [h0] with x hx
        simp [hx]

/-- **C94** The triangle inequality of the total variation: comparing the first set with a third one and the
third with the second is at least the distance of the first and the second. -/
theorem C94_triangle (hQ : Integrates Q) {c₁ c₂ c₃ : Compare ℝ} {g₁ g₂ g₃ : ℝ → ℝ}
    (h12 : HasMarginals c₁ i g₁ g₂) (h13 : HasMarginals c₂ i g₁ g₃) (h32 : HasMarginals c₃ i g₃ g₂)
    (hab : a ≤ b) (hg₁ : IsDensity g₁) (hg₂ : IsDensity g₂) (hg₃ : IsDensity g₃) :
    ∃ d₁ d₂ d₃, c₁.distanceMarginalQuad Real.sqrt Real.log Q i (some (a, b)) factor .tv = .ok d₁ ∧
      c₂.distanceMarginalQuad Real.sqrt Real.log Q i (some (a, b)) factor .tv = .ok d₂ ∧
      c₃.distanceMarginalQuad Real.sqrt Real.log Q i (some (a, b)) factor .tv = .ok d₃ ∧ d₁ ≤ d₂ + d₃ := by
  have i1 := hg₁.integrable.intervalIntegrable (a := a) (b := b)
  have i2 := hg₂.integrable.intervalIntegrable (a := a) (b := b)
  have i3 := hg₃.integrable.intervalIntegrable (a := a) (b := b)
  refine ⟨_, _, _, tv_value hQ h12 i1 i2, tv_value hQ h13 i1 i3, tv_value hQ h32 i3 i2, ?_⟩
  rw [← mul_add, ← intervalIntegral.integral_add (i1.sub i3).abs (i3.sub i2).abs]
  refine mul_le_mul_of_nonneg_left ?_ (by norm_num)
  exact intervalIntegral.integral_mono_on hab (i1.sub i2).abs ((i1.sub i3).abs.add (i3.sub i2).abs)
    fun x _ => abs_sub_le _ _ _

/-- **C94** Hellinger: the distance over `[a, b]` is the root of half the integral of the squared difference
of the roots of the densities. It is between zero and one, does not depend on the order of the sets, its
square is what `sqhell` gives and is at most the total variation. -/
theorem C94_hell_partial (hQ : Integrates Q) (hm : HasMarginals c i g h) (hab : a ≤ b) (hg : IsDensity g)
    (hh : IsDensity h) :
    ∃ d, c.distanceMarginalQuad Real.sqrt Real.log Q i (some (a, b)) factor .hell = .ok d ∧
      d = √(1 / 2 * ∫ x in a..b, (√(g x) - √(h x)) ^ 2) ∧ 0 ≤ d ∧ d ≤ 1 ∧
      (swapSets c).distanceMarginalQuad Real.sqrt Real.log Q i (some (a, b)) factor .hell = .ok d ∧
      c.distanceMarginalQuad Real.sqrt Real.log Q i (some (a, b)) factor .sqhell = .ok (d ^ 2) ∧
      ∃ v, c.distanceMarginalQuad Real.sqrt Real.log Q i (some (a, b)) factor .tv = .ok v ∧ d ^ 2 ≤ v := by
  have ig := hg.integrable.intervalIntegrable (a := a) (b := b)
  have ih := hh.integrable.intervalIntegrable (a := a) (b := b)
  obtain ⟨v, hv, hveq, -, hv1, -⟩ := C94_tv_partial (factor := factor) hQ hm hab hg hh
  have hs := sqhell_value hQ hm hg.nonneg hh.nonneg ig ih
  have hs' := sqhell_value hQ (swap_marginals hm) hh.nonneg hg.nonneg ih ig
  have hnn : 0 ≤ 1 / 2 * ∫ x in a..b, (√(g x) - √(h x)) * (√(g x) - √(h x)) :=
    mul_nonneg (by norm_num) (intervalIntegral.integral_nonneg hab fun x _ => mul_self_nonneg _)
  have hle : 1 / 2 * ∫ x in a..b, (√(g x) - √(h x)) * (√(g x) - √(h x)) ≤ v := by
    rw [hveq]
    refine mul_le_mul_of_nonneg_left ?_ (by norm_num)
    exact intervalIntegral.integral_mono_on hab (sqrt_diff_integrable hg.nonneg hh.nonneg ig ih)
      (ig.sub ih).abs fun x _ => sqrt_diff_sq_le (hg.nonneg x) (hh.nonneg x)
  have hsw : ∀ x, (√(h x) - √(g x)) * (√(h x) - √(g x)) = (√(g x) - √(h x)) * (√(g x) - √(h x)) :=
    fun x => by ring
  refine ⟨√(1 / 2 * ∫ x in a..b, (√(g x) - √(h x)) * (√(g x) - √(h x))), ?_, ?_, Real.sqrt_nonneg _,
    ?_, ?_, ?_, v, hv, ?_⟩
  · simp only [Compare.distanceMarginalQuad, Compare.quadInterval, ok_bind, hs]
    rfl
  · simp only [sq]
  · exact Real.sqrt_le_one.mpr (hle.trans hv1)
  · simp only [Compare.distanceMarginalQuad, Compare.quadInterval, ok_bind, hs', hsw]
    rfl
  · rw [Real.sq_sqrt hnn]
    simp only [Compare.distanceMarginalQuad, Compare.quadInterval, ok_bind, hs]
  · rw [Real.sq_sqrt hnn]
    exact hle

/-- **C94** Euclidean: the root of the integral of the squared difference, whenever that is integrable. -/
theorem C94_euclid_partial (hQ : Integrates Q) (hm : HasMarginals c i g h)
    (hi : IntervalIntegrable (fun x => (g x - h x) ^ 2) volume a b) :
    c.distanceMarginalQuad Real.sqrt Real.log Q i (some (a, b)) factor .euclid =
      .ok (√(∫ x in a..b, (g x - h x) ^ 2)) := by
  simp only [sq] at hi ⊢
  have := hQ _ _ a b (errorAt_ok hm fun x y => (x - y) * (x - y)) hi
  simp only [Compare.distanceMarginalQuad, Compare.quadInterval, ok_bind, Compare.quadValue, this]
  rfl

/-- **C94** Kullback-Leibler: the integral of `g log (g / h)`. If both densities are positive and the first
has at least as much mass in the interval as the second, the value is not negative. -/
theorem C94_kl_partial (hQ : Integrates Q) (hm : HasMarginals c i g h) (hab : a ≤ b)
    (hg : ∀ x, 0 < g x) (hh : ∀ x, 0 < h x) (ig : IntervalIntegrable g volume a b)
    (ih : IntervalIntegrable h volume a b)
    (hi : IntervalIntegrable (fun x => g x * Real.log (g x / h x)) volume a b)
    (hmass : ∫ x in a..b, h x ≤ ∫ x in a..b, g x) :
    ∃ d, c.distanceMarginalQuad Real.sqrt Real.log Q i (some (a, b)) factor .kl = .ok d ∧
      d = ∫ x in a..b, g x * Real.log (g x / h x) ∧ 0 ≤ d := by
  have := hQ _ _ a b (errorAt_ok hm fun x y => x * Real.log (x / y)) hi
  refine ⟨_, ?_, rfl, ?_⟩
  · simp only [Compare.distanceMarginalQuad, Compare.quadInterval, ok_bind, Compare.quadValue, this]
  · have h1 : ∫ x in a..b, (g x - h x) ≤ ∫ x in a..b, g x * Real.log (g x / h x) := by
      refine intervalIntegral.integral_mono_on hab (ig.sub ih) hi fun x _ => ?_
      have e := Real.one_sub_inv_le_log_of_pos (div_pos (hg x) (hh x))
      have e2 := mul_le_mul_of_nonneg_left e (hg x).le
      have e3 : g x * (1 - (g x / h x)⁻¹) = g x - h x := by
        have := (hg x).ne'
        have := (hh x).ne'
        field_simp
      linarith
    rw [intervalIntegral.integral_sub ig ih] at h1
    linarith

/-- **C94** Without an interval the distance is the one over the interval that is computed from the domains
or the values, for every name and function. -/
theorem C94_interval (sqrt log : ℝ → ℝ) (fn : QuadFn ℝ) {ab : ℝ × ℝ}
    (hi : c.autoInterval i factor = .ok ab) (factor' : ℝ) :
    c.distanceMarginalQuad sqrt log Q i none factor fn =
      c.distanceMarginalQuad sqrt log Q i (some ab) factor' fn := by
  simp only [Compare.distanceMarginalQuad, Compare.quadInterval, hi]

/-- **C94 (negation)** The name `norm` is not a distance: it gives the signed difference of the masses in the
interval. Exchanging the sets changes its sign, and any two densities on the interval have "distance" zero. -/
theorem C94_negation_norm (hQ : Integrates Q) (hm : HasMarginals c i g h)
    (ig : IntervalIntegrable g volume a b) (ih : IntervalIntegrable h volume a b) :
    ∃ d, c.distanceMarginalQuad Real.sqrt Real.log Q i (some (a, b)) factor .norm = .ok d ∧
      (swapSets c).distanceMarginalQuad Real.sqrt Real.log Q i (some (a, b)) factor .norm = .ok (-d) ∧
      d = (∫ x in a..b, g x) - ∫ x in a..b, h x ∧
      (∫ x in a..b, g x = 1 → ∫ x in a..b, h x = 1 → d = 0) := by
  have h1 := hQ _ _ a b (errorAt_ok hm fun x y => x - y) (ig.sub ih)
  have h2 := hQ _ _ a b (errorAt_ok (swap_marginals hm) fun x y => x - y) (ih.sub ig)
  rw [intervalIntegral.integral_sub ig ih] at h1
  rw [intervalIntegral.integral_sub ih ig] at h2
  refine ⟨_, ?_, ?_, rfl, fun e1 e2 => by rw [e1, e2, sub_self]⟩
  · simp only [Compare.distanceMarginalQuad, Compare.quadInterval, ok_bind, Compare.quadValue, h1]
  · simp only [Compare.distanceMarginalQuad, Compare.quadInterval, ok_bind, Compare.quadValue, h2,
      neg_sub]

/-- **C94 (negation)** Any other name, also the documented `mink`, is called as if it were a function, which
raises `TypeError`. -/
theorem C94_negation_name (hQ : Evaluates Q) (hm : HasMarginals c i g h) (s : String) :
    c.distanceMarginalQuad Real.sqrt Real.log Q i (some (a, b)) factor (.name s) = .error .typeError := by
  have := hQ (errorFn c i fun _ _ => .error .typeError) .typeError a b fun xs => by
    simp only [errorFn, hm.1, hm.2, ok_bind]
  simp only [Compare.distanceMarginalQuad, Compare.quadInterval, ok_bind, Compare.quadValue, this]

end

/-! ## Examples -/

namespace Ex

open Classical in
/-- Exact integration. -/
noncomputable def exactQuad : Quad ℝ := fun f a b =>
  if hg : ∃ g : ℝ → ℝ, ∀ xs, f xs = .ok (xs.map g) then .ok (∫ x in a..b, hg.choose x)
  else if he : ∃ e, ∀ xs, f xs = .error e then .error he.choose
  else .error .valueError

theorem exactQuad_integrates : Integrates exactQuad := by
  intro f g a b hf _
  have hg : ∃ g : ℝ → ℝ, ∀ xs, f xs = .ok (xs.map g) := ⟨g, hf⟩
  have e : hg.choose = g := by
    funext x
    have h1 := hg.choose_spec [x]
    rw [hf] at h1
    simpa using (Except.ok.inj h1).symm
  unfold exactQuad
  rw [dif_pos hg, e]

theorem exactQuad_evaluates : Evaluates exactQuad := by
  intro f e a b hf
  have hg : ¬ ∃ g : ℝ → ℝ, ∀ xs, f xs = .ok (xs.map g) := by
    rintro ⟨g, hg⟩
    have := hg []
    rw [hf] at this
    cases this
  have he : ∃ e, ∀ xs, f xs = .error e := ⟨e, hf⟩
  have h1 := he.choose_spec []
  rw [hf] at h1
  unfold exactQuad
  rw [dif_neg hg, dif_pos he, ← Except.error.inj h1]

/-- Uniform densities on `[0, 1]` and `[1/2, 3/2]`. -/
noncomputable def cmpUnif : Compare ℝ where
  set1 := { dim := 1, glob := { values := some [[0], [1]] } }
  set2 := { dim := 1, glob := { values := some [[1 / 2], [3 / 2]] } }
  dens1 := ⟨fun v => .ok (v.map fun _ => 1), fun x _ => .ok (x.map (unif 0))⟩
  dens2 := ⟨fun v => .ok (v.map fun _ => 1), fun x _ => .ok (x.map (unif (1 / 2)))⟩

theorem cmpUnif_marginals : HasMarginals cmpUnif 0 (unif 0) (unif (1 / 2)) := ⟨fun _ => rfl, fun _ => rfl⟩

/-- Hypotheses of `C94_tv_partial`, `C94_hell_partial`, `C94_triangle` and the negations. -/
example : Integrates exactQuad ∧ Evaluates exactQuad ∧ HasMarginals cmpUnif 0 (unif 0) (unif (1 / 2)) ∧
    (0 : ℝ) ≤ 2 ∧ IsDensity (unif 0) ∧ IsDensity (unif (1 / 2)) ∧ unif 0 ≠ unif (1 / 2) := by
  refine ⟨exactQuad_integrates, exactQuad_evaluates, cmpUnif_marginals, by norm_num, unif_density _,
    unif_density _, fun h => ?_⟩
  have := congrFun h 0
  simp [unif] at this

/-- The name `norm` cannot tell the two densities apart over `[0, 2]`. -/
example : exactQuad (errorAt cmpUnif 0 fun x y => x - y) 0 2 = .ok 0 := by
  obtain ⟨d, hd, -, -, h0⟩ := C94_negation_norm (factor := 0) exactQuad_integrates cmpUnif_marginals
    (a := 0) (b := 2) (unif_density _).integrable.intervalIntegrable
    (unif_density _).integrable.intervalIntegrable
  have hmass : ∀ t : ℝ, 0 < t → t + 1 ≤ 2 → ∫ x in (0 : ℝ)..2, unif t x = 1 := by
    intro t h1 h2
    rw [intervalIntegral.integral_of_le (by norm_num), unif,
      setIntegral_indicator measurableSet_Icc]
    rw [Set.inter_eq_self_of_subset_right]
    · simp
    · intro x hx
      exact ⟨by linarith [hx.1], hx.2.trans h2⟩
  have hmass0 : ∫ x in (0 : ℝ)..2, unif 0 x = 1 := by
    rw [intervalIntegral.integral_of_le (by norm_num), ← integral_Icc_eq_integral_Ioc, unif,
      setIntegral_indicator measurableSet_Icc]
    rw [Set.inter_eq_self_of_subset_right]
    · simp
    · intro x hx
      exact ⟨hx.1, hx.2.trans (by norm_num)⟩
  rw [h0 hmass0 (hmass _ (by norm_num) (by norm_num))] at hd
  simpa [Compare.distanceMarginalQuad, Compare.quadInterval, ok_bind, Compare.quadValue] using hd

/-- Hypotheses of `C94_kl_partial`: the densities `exp x` and `1` in `[0, 1]`. -/
example : (∀ x : ℝ, 0 < Real.exp x) ∧ (∀ _ : ℝ, (0 : ℝ) < 1) ∧
    IntervalIntegrable (fun x => Real.exp x * Real.log (Real.exp x / 1)) volume 0 1 ∧
    ∫ _ in (0 : ℝ)..1, (1 : ℝ) ≤ ∫ x in (0 : ℝ)..1, Real.exp x := by
  refine ⟨Real.exp_pos, fun _ => one_pos, ?_, ?_⟩
  · simp only [div_one, Real.log_exp]
    exact (Real.continuous_exp.mul continuous_id).intervalIntegrable _ _
  · refine intervalIntegral.integral_mono_on (by norm_num) (by simp)
      (Real.continuous_exp.intervalIntegrable _ _) fun x hx => ?_
    exact Real.one_le_exp hx.1

/-- `C94_interval`. -/
example : (cmpLine.autoInterval 0 (1 / 3)).toOption = some (-1, 4) := by decide +kernel

end Ex

end BET
