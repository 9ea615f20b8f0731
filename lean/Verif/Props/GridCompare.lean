import Verif.Lemmas.Riemann
import Verif.Props.CompareQuad
import Verif.Props.Distances
import Verif.Props.SimpleFun2

/-!
# C145: distances of marginals at equally spaced points converge
-/

set_option linter.unusedSectionVars false
set_option linter.unusedSimpArgs false
set_option autoImplicit false

namespace BET

open Spec MeasureTheory Filter Topology

/-! ## Specification -/

namespace Spec

/-- The interval `[a, b]` is given, or it is the one computed from the domains or the values. -/
def UsesInterval (c : Compare ℝ) (i : Nat) (interval : Option (ℝ × ℝ)) (factor a b : ℝ) : Prop :=
  interval = some (a, b) ∨ interval = none ∧ c.autoInterval i factor = .ok (a, b)

/-- The distances for `num` points are defined for all large `num` and tend to `L`. -/
def MarginalDistanceTends (c : Compare ℝ) (i : Nat) (interval : Option (ℝ × ℝ)) (factor : ℝ) (normalize : Bool)
    (fn : Functional ℝ) (L : ℝ) : Prop :=
  (∀ᶠ num in atTop, (c.distanceMarginal Real.sqrt i interval num factor normalize fn).toOption.isSome) ∧
  Tendsto (fun num => (c.distanceMarginal Real.sqrt i interval num factor normalize fn).toOption.getD 0) atTop (𝓝 L)

end Spec

/-! ## Values -/

section
variable {c : Compare ℝ} {i : Nat} {interval : Option (ℝ × ℝ)} {factor a b : ℝ} {g h : ℝ → ℝ}

theorem sum_linspace (a b : ℝ) (n : ℕ) (F : ℝ → ℝ) :
    ((linspace a b n).map F).sum = ∑ k ∈ Finset.range n, F (node a b n k) := by
  rw [linspace, List.map_map, Finset.sum_range]
  rw [← List.sum_ofFn]
  congr 1
  apply List.ext_getElem?
  intro k
  by_cases hk : k < n
  · simp [hk, node]
  · simp [hk]

theorem zip_linspace (a b : ℝ) (n : ℕ) (F H : ℝ → ℝ) (op : ℝ → ℝ → ℝ) :
    (List.zipWith op ((linspace a b n).map F) ((linspace a b n).map H)).sum =
      ∑ k ∈ Finset.range n, op (F (node a b n k)) (H (node a b n k)) := by
  rw [List.zipWith_map, List.zipWith_self, sum_linspace]

theorem linspace_width {n : ℕ} (hn : 1 < n) : (linspace a b n).getLastD 0 - (linspace a b n).headD 0 = b - a := by
  obtain ⟨m, rfl⟩ : ∃ m, n = m + 1 := ⟨n - 1, by omega⟩
  have h1 := linspace_head? a b m
  have h2 := linspace_getLast? a b (n := m) (by omega)
  rw [List.getLastD_eq_getLast?, List.headD_eq_head?_getD, h1, h2]
  rfl

theorem points_used (hi : UsesInterval c i interval factor a b) (n : ℕ) :
    c.marginalPoints i interval n factor = .ok (linspace a b n) := by
  rcases hi with rfl | ⟨rfl, h⟩
  · rfl
  · simp only [Compare.marginalPoints, h, ok_bind]
    rfl

theorem plain_marginal (hi : UsesInterval c i interval factor a b) (hm : HasMarginals c i g h) {n : ℕ} (hn : 1 < n)
    (fn : Functional ℝ) : c.distanceMarginal Real.sqrt i interval n factor false fn =
      applyMarginal Real.sqrt ((b - a) / n) ((linspace a b n).map g) ((linspace a b n).map h) fn := by
  have hl : ((linspace a b n).map g).length = n := by rw [List.length_map, length_linspace]
  have hne : ¬ n = 0 := by omega
  have hf : marginalFactor false (linspace a b n) ((linspace a b n).map g) ((linspace a b n).map h) =
      .ok (((linspace a b n).map g, (linspace a b n).map h), (b - a) / n) := by
    simp only [marginalFactor, Bool.false_eq_true, if_false, hl, linspace_width hn]
    rw [show 1 / (n : ℝ) * (b - a) = (b - a) / n from by ring]
    simp [hne, raiseIf_false, ok_bind]
  simp only [Compare.distanceMarginal, points_used hi, ok_bind, hm.1, hm.2, hf]

theorem normalized_marginal (hi : UsesInterval c i interval factor a b) (hm : HasMarginals c i g h) {n : ℕ}
    (h1 : ((linspace a b n).map g).sum ≠ 0) (h2 : ((linspace a b n).map h).sum ≠ 0)
    (fn : Functional ℝ) : c.distanceMarginal Real.sqrt i interval n factor true fn =
      applyMarginal Real.sqrt 1 ((linspace a b n).map fun x => g x / ((linspace a b n).map g).sum)
        ((linspace a b n).map fun x => h x / ((linspace a b n).map h).sum) fn := by
  have hf : marginalFactor true (linspace a b n) ((linspace a b n).map g) ((linspace a b n).map h) =
      .ok (((linspace a b n).map fun x => g x / ((linspace a b n).map g).sum,
        (linspace a b n).map fun x => h x / ((linspace a b n).map h).sum), 1) := by
    simp only [marginalFactor, if_true, normalized]
    simp [h1, h2, raiseIf_false, ok_bind, List.map_map, Function.comp_def]
  simp only [Compare.distanceMarginal, points_used hi, ok_bind, hm.1, hm.2, hf]

theorem applyMarginal_ok {F : ℝ} {p q : List ℝ} (hl : p.length = q.length) :
    applyMarginal Real.sqrt F p q .tv = .ok (F * halfAbs p q) ∧
    applyMarginal Real.sqrt F p q .norm = .ok (Real.sqrt (sqDist p q)) ∧
    applyMarginal Real.sqrt F p q .euclid = .ok (Real.sqrt F * Real.sqrt (sqDist p q)) ∧
    applyMarginal Real.sqrt F p q .sqhell = .ok (F * sqDist (p.map Real.sqrt) (q.map Real.sqrt) / 2) ∧
    applyMarginal Real.sqrt F p q .hell =
      .ok (Real.sqrt (F * sqDist (p.map Real.sqrt) (q.map Real.sqrt) / 2)) := by
  have := Real.mul_self_sqrt (sqDist_nonneg (p.map Real.sqrt) (q.map Real.sqrt))
  simp [applyMarginal, hl, raiseIf_false, ok_bind, this]

theorem marginal_tends_of {norm : Bool} {fn : Functional ℝ} {L : ℝ} {V : ℕ → ℝ}
    (h1 : ∀ᶠ n in atTop, c.distanceMarginal Real.sqrt i interval n factor norm fn = .ok (V n))
    (h2 : Tendsto V atTop (𝓝 L)) : MarginalDistanceTends c i interval factor norm fn L := by
  refine ⟨h1.mono fun n hn => by rw [hn]; rfl, h2.congr' ?_⟩
  filter_upwards [h1] with n hn
  rw [hn]
  rfl

theorem len_eq (a b : ℝ) (n : ℕ) (g h : ℝ → ℝ) :
    ((linspace a b n).map g).length = ((linspace a b n).map h).length := by
  rw [List.length_map, List.length_map]

theorem halfAbs_grid (a b : ℝ) (n : ℕ) (g h : ℝ → ℝ) :
    halfAbs ((linspace a b n).map g) ((linspace a b n).map h) =
      (∑ k ∈ Finset.range n, |g (node a b n k) - h (node a b n k)|) / 2 := by
  rw [halfAbs, zip_linspace, Finset.sum_div]

theorem sqDist_grid (a b : ℝ) (n : ℕ) (g h : ℝ → ℝ) :
    sqDist ((linspace a b n).map g) ((linspace a b n).map h) =
      ∑ k ∈ Finset.range n, (g (node a b n k) - h (node a b n k)) ^ 2 := by
  rw [sqDist, zip_linspace]
  simp only [sq]

/-- **C145.** `distance_marginal` for two marginals with Riemann integrable densities `g` and `h`: as the number of
points grows, the total variation tends to half the integral of `|g - h|` over the interval and the Euclidean distance
to the root of the integral of `(g - h)²`. -/
theorem C145_tv (hab : a < b) (hi : UsesInterval c i interval factor a b) (hm : HasMarginals c i g h)
    (hg : RiemannOn g a b) (hh : RiemannOn h a b) :
    MarginalDistanceTends c i interval factor false .tv (1 / 2 * ∫ x in a..b, |g x - h x|) ∧
    MarginalDistanceTends c i interval factor false .euclid (Real.sqrt (∫ x in a..b, (g x - h x) ^ 2)) := by
  have hd := sub_pos.2 hab
  refine ⟨marginal_tends_of (V := fun n => 1 / 2 * gridMean a b n fun y => |g y - h y|) ?_ ?_,
    marginal_tends_of (V := fun n => Real.sqrt (gridMean a b n fun y => (g y - h y) ^ 2)) ?_ ?_⟩
  · filter_upwards [eventually_gt_atTop 1] with n hn
    rw [plain_marginal hi hm hn, (applyMarginal_ok (len_eq a b n g h)).1, halfAbs_grid, gridMean]
    congr 1
    ring
  · exact (gridMean_tends hab (RiemannOn.comp₂ hg hh (F := fun z => |z.1 - z.2|) (by fun_prop))).const_mul _
  · filter_upwards [eventually_gt_atTop 1] with n hn
    rw [plain_marginal hi hm hn, (applyMarginal_ok (len_eq a b n g h)).2.2.1, sqDist_grid, gridMean,
      ← Real.sqrt_mul (by positivity)]
  · exact (gridMean_tends hab (RiemannOn.comp₂ hg hh (F := fun z => (z.1 - z.2) ^ 2) (by fun_prop))).sqrt

/-- **C145.** The squared Hellinger distance tends to half the integral of `(√g - √h)²` and the Hellinger distance to its
root. -/
theorem C145_hellinger (hab : a < b) (hi : UsesInterval c i interval factor a b) (hm : HasMarginals c i g h)
    (hg : RiemannOn g a b) (hh : RiemannOn h a b) :
    MarginalDistanceTends c i interval factor false .sqhell
      (1 / 2 * ∫ x in a..b, (√(g x) - √(h x)) * (√(g x) - √(h x))) ∧
    MarginalDistanceTends c i interval factor false .hell
      (Real.sqrt (1 / 2 * ∫ x in a..b, (√(g x) - √(h x)) * (√(g x) - √(h x)))) := by
  have hlim : Tendsto (fun n => 1 / 2 * gridMean a b n fun y => (√(g y) - √(h y)) * (√(g y) - √(h y))) atTop
      (𝓝 (1 / 2 * ∫ x in a..b, (√(g x) - √(h x)) * (√(g x) - √(h x)))) :=
    (gridMean_tends hab (RiemannOn.comp₂ hg hh (F := fun z => (√z.1 - √z.2) * (√z.1 - √z.2)) (by fun_prop))).const_mul _
  have hval : ∀ n : ℕ, (b - a) / n * sqDist (((linspace a b n).map g).map Real.sqrt)
      (((linspace a b n).map h).map Real.sqrt) / 2 =
      1 / 2 * gridMean a b n fun y => (√(g y) - √(h y)) * (√(g y) - √(h y)) := by
    intro n
    rw [List.map_map, List.map_map, sqDist_grid, gridMean]
    simp only [Function.comp, sq]
    ring
  refine ⟨marginal_tends_of ?_ hlim, marginal_tends_of ?_ hlim.sqrt⟩
  · filter_upwards [eventually_gt_atTop 1] with n hn
    rw [plain_marginal hi hm hn, (applyMarginal_ok (len_eq a b n g h)).2.2.2.1, hval]
  · filter_upwards [eventually_gt_atTop 1] with n hn
    rw [plain_marginal hi hm hn, (applyMarginal_ok (len_eq a b n g h)).2.2.2.2, hval]

/-- `distance_marginal` tends to what `distance_marginal_quad` computes. -/
theorem C145_quad {Q : Quad ℝ} (hQ : Integrates Q) (hab : a < b) (hi : UsesInterval c i interval factor a b)
    (hm : HasMarginals c i g h) (hg : RiemannOn g a b) (hh : RiemannOn h a b) (hgn : ∀ x, 0 ≤ g x)
    (hhn : ∀ x, 0 ≤ h x) :
    (∃ v, c.distanceMarginalQuad Real.sqrt Real.log Q i interval factor .tv = .ok v ∧
      MarginalDistanceTends c i interval factor false .tv v) ∧
    (∃ v, c.distanceMarginalQuad Real.sqrt Real.log Q i interval factor .euclid = .ok v ∧
      MarginalDistanceTends c i interval factor false .euclid v) ∧
    (∃ v, c.distanceMarginalQuad Real.sqrt Real.log Q i interval factor .sqhell = .ok v ∧
      MarginalDistanceTends c i interval factor false .sqhell v) ∧
    ∃ v, c.distanceMarginalQuad Real.sqrt Real.log Q i interval factor .hell = .ok v ∧
      MarginalDistanceTends c i interval factor false .hell v := by
  have e : ∀ fn : QuadFn ℝ, c.distanceMarginalQuad Real.sqrt Real.log Q i interval factor fn =
      c.distanceMarginalQuad Real.sqrt Real.log Q i (some (a, b)) factor fn := by
    intro fn
    rcases hi with rfl | ⟨rfl, hi⟩
    · rfl
    · exact C94_interval _ _ fn hi _
  have ig := RiemannOn.integrable hab hg
  have ih := RiemannOn.integrable hab hh
  have hs := sqhell_value hQ hm hgn hhn ig ih
  refine ⟨⟨_, (e _).trans (tv_value hQ hm ig ih), (C145_tv hab hi hm hg hh).1⟩,
    ⟨_, (e _).trans (C94_euclid_partial hQ hm
      (RiemannOn.integrable hab (RiemannOn.comp₂ hg hh (F := fun z => (z.1 - z.2) ^ 2) (by fun_prop)))),
      (C145_tv hab hi hm hg hh).2⟩,
    ⟨_, (e _).trans ?_, (C145_hellinger hab hi hm hg hh).1⟩, ⟨_, (e _).trans ?_, (C145_hellinger hab hi hm hg hh).2⟩⟩
  · simp only [Compare.distanceMarginalQuad, Compare.quadInterval, ok_bind, hs]
  · simp only [Compare.distanceMarginalQuad, Compare.quadInterval, ok_bind, hs]
    rfl

/-! ## Normalised densities -/

theorem gridMean_lin (n : ℕ) (s t u : ℝ) (p q r : ℝ → ℝ) :
    s * gridMean a b n p + t * gridMean a b n q - u * gridMean a b n r =
      gridMean a b n fun y => s * p y + t * q y - u * r y := by
  rw [gridMean_sub, gridMean_add, gridMean_mul, gridMean_mul, gridMean_mul]

theorem inverse_tends {f : ℕ → ℝ} {l : ℝ} (h : Tendsto f atTop (𝓝 l)) (hl : l ≠ 0) :
    Tendsto (fun n => 1 / f n) atTop (𝓝 (1 / l)) := tendsto_const_nhds.div h hl

/-- The sums of a density with positive integral are positive in the end. -/
theorem grid_sum_pos (hab : a < b) (hg : RiemannOn g a b) (hpos : 0 < ∫ x in a..b, g x) :
    ∀ᶠ n : ℕ in atTop, 0 < n ∧ 0 < gridMean a b n g ∧
      ((linspace a b n).map g).sum = n / (b - a) * gridMean a b n g ∧ ((linspace a b n).map g).sum ≠ 0 := by
  filter_upwards [(gridMean_tends hab hg).eventually (lt_mem_nhds hpos), eventually_gt_atTop 0] with n h1 h2
  have e : ((linspace a b n).map g).sum = n / (b - a) * gridMean a b n g := by
    rw [sum_linspace, sum_gridMean hab h2]
  have : (0 : ℝ) < n := by exact_mod_cast h2
  have := sub_pos.2 hab
  exact ⟨h2, h1, e, by rw [e]; positivity⟩

/-- **C145.** Normalised, the total variation tends to that of the densities divided by their integrals over the
interval. -/
theorem C145_tv_normalized (hab : a < b) (hi : UsesInterval c i interval factor a b) (hm : HasMarginals c i g h)
    (hg : RiemannOn g a b) (hh : RiemannOn h a b) (hgp : 0 < ∫ x in a..b, g x) (hhp : 0 < ∫ x in a..b, h x) :
    MarginalDistanceTends c i interval factor true .tv
      (1 / 2 * ∫ x in a..b, |g x / (∫ y in a..b, g y) - h x / (∫ y in a..b, h y)|) := by
  have hd := sub_pos.2 hab
  have e1 := gridMean_tends hab hg
  have e2 := gridMean_tends hab hh
  have e3 : Tendsto (fun n => gridMean a b n fun y => |g y|) atTop (𝓝 (∫ x in a..b, |g x|)) :=
    gridMean_tends hab (RiemannOn.comp₂ hg hh (F := fun z => |z.1|) (by fun_prop))
  have e4 : Tendsto (fun n => gridMean a b n fun y => |h y|) atTop (𝓝 (∫ x in a..b, |h x|)) :=
    gridMean_tends hab (RiemannOn.comp₂ hg hh (F := fun z => |z.2|) (by fun_prop))
  have e5 : Tendsto (fun n => gridMean a b n fun x => |1 / (∫ y in a..b, g y) * g x - 1 / (∫ y in a..b, h y) * h x|)
      atTop (𝓝 (∫ x in a..b, |1 / (∫ y in a..b, g y) * g x - 1 / (∫ y in a..b, h y) * h x|)) :=
    gridMean_tends hab (RiemannOn.comp₂ hg hh
      (F := fun z => |1 / (∫ y in a..b, g y) * z.1 - 1 / (∫ y in a..b, h y) * z.2|) (by fun_prop))
  have lim := (abs_gridMean_tends hab (inverse_tends e1 hgp.ne') (inverse_tends e2 hhp.ne') e5 e3 e4).const_mul (1 / 2)
  have e6 : (∫ x in a..b, |g x / (∫ y in a..b, g y) - h x / (∫ y in a..b, h y)|) =
      ∫ x in a..b, |1 / (∫ y in a..b, g y) * g x - 1 / (∫ y in a..b, h y) * h x| := by
    simp only [one_div_mul_eq_div]
  rw [e6]
  refine marginal_tends_of ?_ lim
  filter_upwards [grid_sum_pos hab hg hgp, grid_sum_pos hab hh hhp] with n g1 g2
  have hn : (0 : ℝ) < n := by exact_mod_cast g1.1
  rw [normalized_marginal hi hm g1.2.2.2 g2.2.2.2, (applyMarginal_ok (len_eq a b n _ _)).1, halfAbs_grid, g1.2.2.1,
    g2.2.2.1, one_mul]
  have k1 := g1.2.1
  have k2 := g2.2.1
  clear g1 g2 e1 e2 lim
  generalize gridMean a b n g = M at *
  generalize gridMean a b n h = N at *
  rw [gridMean, Finset.mul_sum, Finset.mul_sum, Finset.sum_div]
  congr 1
  refine Finset.sum_congr rfl fun k _ => ?_
  have e : ∀ s t : ℝ, |s / (n / (b - a) * M) - t / (n / (b - a) * N)| = (b - a) / n * |1 / M * s - 1 / N * t| := by
    intro s t
    rw [← abs_of_pos (div_pos hd hn), ← abs_mul]
    congr 1
    field_simp
  rw [e]
  ring

/-- **C145.** Normalised, the Hellinger distances tend to those of the densities divided by their integrals over the
interval. -/
theorem C145_hellinger_normalized (hab : a < b) (hi : UsesInterval c i interval factor a b) (hm : HasMarginals c i g h)
    (hg : RiemannOn g a b) (hh : RiemannOn h a b) (hgn : ∀ x, 0 ≤ g x) (hhn : ∀ x, 0 ≤ h x)
    (hgp : 0 < ∫ x in a..b, g x) (hhp : 0 < ∫ x in a..b, h x) :
    MarginalDistanceTends c i interval factor true .sqhell
      (1 / 2 * ∫ x in a..b, (√(g x / ∫ y in a..b, g y) - √(h x / ∫ y in a..b, h y)) ^ 2) ∧
    MarginalDistanceTends c i interval factor true .hell
      (Real.sqrt (1 / 2 * ∫ x in a..b, (√(g x / ∫ y in a..b, g y) - √(h x / ∫ y in a..b, h y)) ^ 2)) := by
  have hd := sub_pos.2 hab
  have e1 := gridMean_tends hab hg
  have e2 := gridMean_tends hab hh
  have hr : RiemannOn (fun x => √(g x) * √(h x)) a b :=
    RiemannOn.comp₂ hg hh (F := fun z => √z.1 * √z.2) (by fun_prop)
  have e3 := gridMean_tends hab hr
  have expand : ∀ {M N s t : ℝ}, 0 ≤ M → 0 ≤ N → 0 ≤ s → 0 ≤ t →
      (√(s / M) - √(t / N)) ^ 2 = 1 / M * s + 1 / N * t - 2 / (√M * √N) * (√s * √t) := by
    intro M N s t hM hN hs ht
    rw [sub_sq, Real.sq_sqrt (div_nonneg hs hM), Real.sq_sqrt (div_nonneg ht hN), Real.sqrt_div hs, Real.sqrt_div ht,
      div_mul_eq_mul_div, div_mul_eq_mul_div, div_mul_eq_mul_div, mul_assoc, div_mul_div_comm, one_mul, one_mul,
      mul_div_assoc]
    ring
  have hint : (∫ x in a..b, (√(g x / ∫ y in a..b, g y) - √(h x / ∫ y in a..b, h y)) ^ 2) =
      1 / (∫ y in a..b, g y) * (∫ y in a..b, g y) + 1 / (∫ y in a..b, h y) * (∫ y in a..b, h y) -
        2 / (√(∫ y in a..b, g y) * √(∫ y in a..b, h y)) * ∫ y in a..b, √(g y) * √(h y) := by
    have ig := RiemannOn.integrable hab hg
    have ih := RiemannOn.integrable hab hh
    have ir := RiemannOn.integrable hab hr
    simp only [expand hgp.le hhp.le (hgn _) (hhn _)]
    rw [intervalIntegral.integral_sub ((ig.const_mul _).add (ih.const_mul _)) (ir.const_mul _),
      intervalIntegral.integral_add (ig.const_mul _) (ih.const_mul _), intervalIntegral.integral_const_mul,
      intervalIntegral.integral_const_mul, intervalIntegral.integral_const_mul]
  have hlim : Tendsto (fun n => 1 / 2 * (1 / gridMean a b n g * gridMean a b n g + 1 / gridMean a b n h * gridMean a b n h -
      2 / (√(gridMean a b n g) * √(gridMean a b n h)) * gridMean a b n fun x => √(g x) * √(h x))) atTop
      (𝓝 (1 / 2 * ∫ x in a..b, (√(g x / ∫ y in a..b, g y) - √(h x / ∫ y in a..b, h y)) ^ 2)) := by
    rw [hint]
    have hne : √(∫ y in a..b, g y) * √(∫ y in a..b, h y) ≠ 0 :=
      (mul_pos (Real.sqrt_pos.2 hgp) (Real.sqrt_pos.2 hhp)).ne'
    exact (((((tendsto_const_nhds (x := (1 : ℝ))).div e1 hgp.ne').mul e1).add
      (((tendsto_const_nhds (x := (1 : ℝ))).div e2 hhp.ne').mul e2)).sub
      (((tendsto_const_nhds (x := (2 : ℝ))).div (e1.sqrt.mul e2.sqrt) hne).mul e3)).const_mul (1 / 2)
  have hval : ∀ n : ℕ, (0 < n ∧ 0 < gridMean a b n g ∧
      ((linspace a b n).map g).sum = n / (b - a) * gridMean a b n g ∧ ((linspace a b n).map g).sum ≠ 0) →
      (0 < n ∧ 0 < gridMean a b n h ∧
      ((linspace a b n).map h).sum = n / (b - a) * gridMean a b n h ∧ ((linspace a b n).map h).sum ≠ 0) →
      1 * sqDist (((linspace a b n).map fun x => g x / ((linspace a b n).map g).sum).map Real.sqrt)
        (((linspace a b n).map fun x => h x / ((linspace a b n).map h).sum).map Real.sqrt) / 2 =
      1 / 2 * (1 / gridMean a b n g * gridMean a b n g + 1 / gridMean a b n h * gridMean a b n h -
      2 / (√(gridMean a b n g) * √(gridMean a b n h)) * gridMean a b n fun x => √(g x) * √(h x)) := by
    intro n g1 g2
    have hn : (0 : ℝ) < n := by exact_mod_cast g1.1
    rw [List.map_map, List.map_map, sqDist_grid, g1.2.2.1, g2.2.2.1, gridMean_lin]
    have k1 := g1.2.1
    have k2 := g2.2.1
    clear g1 g2 e1 e2 e3 hlim hint
    generalize gridMean a b n g = M at *
    generalize gridMean a b n h = N at *
    rw [gridMean, Finset.mul_sum, Finset.mul_sum, Finset.mul_sum, Finset.sum_div]
    refine Finset.sum_congr rfl fun k _ => ?_
    simp only [Function.comp]
    have hM : 0 < (n : ℝ) / (b - a) * M := by positivity
    have hN : 0 < (n : ℝ) / (b - a) * N := by positivity
    have root : √((n : ℝ) / (b - a) * M) * √((n : ℝ) / (b - a) * N) = n / (b - a) * (√M * √N) := by
      rw [Real.sqrt_mul (by positivity), Real.sqrt_mul (by positivity), mul_mul_mul_comm,
        Real.mul_self_sqrt (by positivity)]
    rw [expand hM.le hN.le (hgn _) (hhn _), root]
    have := Real.sqrt_pos.2 k1
    have := Real.sqrt_pos.2 k2
    field_simp
  refine ⟨marginal_tends_of ?_ hlim, marginal_tends_of ?_ hlim.sqrt⟩
  · filter_upwards [grid_sum_pos hab hg hgp, grid_sum_pos hab hh hhp] with n g1 g2
    rw [normalized_marginal hi hm g1.2.2.2 g2.2.2.2, (applyMarginal_ok (len_eq a b n _ _)).2.2.2.1, hval n g1 g2]
  · filter_upwards [grid_sum_pos hab hg hgp, grid_sum_pos hab hh hhp] with n g1 g2
    rw [normalized_marginal hi hm g1.2.2.2 g2.2.2.2, (applyMarginal_ok (len_eq a b n _ _)).2.2.2.2, hval n g1 g2]

/-! ## Names that do not give a distance -/

/-- **C145 (negation).** Without normalisation, `norm` grows without bound whenever the densities differ. -/
theorem C145_negation_norm (hab : a < b) (hi : UsesInterval c i interval factor a b) (hm : HasMarginals c i g h)
    (hg : RiemannOn g a b) (hh : RiemannOn h a b) (hne : 0 < ∫ x in a..b, (g x - h x) ^ 2) :
    (∀ᶠ num in atTop, (c.distanceMarginal Real.sqrt i interval num factor false .norm).toOption.isSome) ∧
    Tendsto (fun num => (c.distanceMarginal Real.sqrt i interval num factor false .norm).toOption.getD 0) atTop
      atTop := by
  have hd := sub_pos.2 hab
  have e : ∀ᶠ n : ℕ in atTop, c.distanceMarginal Real.sqrt i interval n factor false .norm =
      .ok (Real.sqrt (n / (b - a) * gridMean a b n fun y => (g y - h y) ^ 2)) := by
    filter_upwards [eventually_gt_atTop 1] with n hn
    rw [plain_marginal hi hm hn, (applyMarginal_ok (len_eq a b n g h)).2.1, sqDist_grid,
      sum_gridMean hab (by omega) fun y => (g y - h y) ^ 2]
  refine ⟨e.mono fun n hn => by rw [hn]; rfl, ?_⟩
  have lim : Tendsto (fun n : ℕ => Real.sqrt (n / (b - a) * gridMean a b n fun y => (g y - h y) ^ 2)) atTop atTop := by
    refine Real.tendsto_sqrt_atTop.comp ?_
    exact ((tendsto_natCast_atTop_atTop).atTop_div_const hd).atTop_mul_pos hne
      (gridMean_tends hab (RiemannOn.comp₂ hg hh (F := fun z => (z.1 - z.2) ^ 2) (by fun_prop)))
  refine lim.congr' ?_
  filter_upwards [e] with n hn
  rw [hn]
  rfl

/-- **C145 (negation).** Normalised, the Euclidean distance and `norm` tend to zero for all densities. -/
theorem C145_negation_euclid (hab : a < b) (hi : UsesInterval c i interval factor a b) (hm : HasMarginals c i g h)
    (hg : RiemannOn g a b) (hh : RiemannOn h a b) (hgp : 0 < ∫ x in a..b, g x) (hhp : 0 < ∫ x in a..b, h x) :
    MarginalDistanceTends c i interval factor true .euclid 0 ∧
    MarginalDistanceTends c i interval factor true .norm 0 := by
  have hd := sub_pos.2 hab
  have e1 := gridMean_tends hab hg
  have e2 := gridMean_tends hab hh
  have e3 : Tendsto (fun n => gridMean a b n fun y => g y ^ 2) atTop (𝓝 (∫ x in a..b, g x ^ 2)) :=
    gridMean_tends hab (RiemannOn.comp₂ hg hh (F := fun z => z.1 ^ 2) (by fun_prop))
  have e4 : Tendsto (fun n => gridMean a b n fun y => h y ^ 2) atTop (𝓝 (∫ x in a..b, h x ^ 2)) :=
    gridMean_tends hab (RiemannOn.comp₂ hg hh (F := fun z => z.2 ^ 2) (by fun_prop))
  have e5 : Tendsto (fun n => gridMean a b n fun y => g y * h y) atTop (𝓝 (∫ x in a..b, g x * h x)) :=
    gridMean_tends hab (RiemannOn.comp₂ hg hh (F := fun z => z.1 * z.2) (by fun_prop))
  have a1 := inverse_tends e1 hgp.ne'
  have a2 := inverse_tends e2 hhp.ne'
  have lim : Tendsto (fun n : ℕ => Real.sqrt ((b - a) / n * ((1 / gridMean a b n g) ^ 2 * (gridMean a b n fun y => g y ^ 2) +
      (1 / gridMean a b n h) ^ 2 * (gridMean a b n fun y => h y ^ 2) -
      2 * (1 / gridMean a b n g) * (1 / gridMean a b n h) * gridMean a b n fun y => g y * h y))) atTop (𝓝 0) := by
    have := (tendsto_const_div_atTop_nhds_zero_nat (b - a)).mul
      ((((a1.pow 2).mul e3).add ((a2.pow 2).mul e4)).sub (((a1.const_mul 2).mul a2).mul e5))
    rw [zero_mul] at this
    simpa only [Real.sqrt_zero] using this.sqrt
  have hval : ∀ n : ℕ, (0 < n ∧ 0 < gridMean a b n g ∧
      ((linspace a b n).map g).sum = n / (b - a) * gridMean a b n g ∧ ((linspace a b n).map g).sum ≠ 0) →
      (0 < n ∧ 0 < gridMean a b n h ∧
      ((linspace a b n).map h).sum = n / (b - a) * gridMean a b n h ∧ ((linspace a b n).map h).sum ≠ 0) →
      sqDist ((linspace a b n).map fun x => g x / ((linspace a b n).map g).sum)
        ((linspace a b n).map fun x => h x / ((linspace a b n).map h).sum) =
      (b - a) / n * ((1 / gridMean a b n g) ^ 2 * (gridMean a b n fun y => g y ^ 2) +
      (1 / gridMean a b n h) ^ 2 * (gridMean a b n fun y => h y ^ 2) -
      2 * (1 / gridMean a b n g) * (1 / gridMean a b n h) * gridMean a b n fun y => g y * h y) := by
    intro n g1 g2
    have hn : (0 : ℝ) < n := by exact_mod_cast g1.1
    rw [sqDist_grid, g1.2.2.1, g2.2.2.1, gridMean_lin]
    have k1 := g1.2.1
    have k2 := g2.2.1
    clear g1 g2 e1 e2 e3 e4 e5 a1 a2 lim
    generalize gridMean a b n g = M at *
    generalize gridMean a b n h = N at *
    rw [gridMean, Finset.mul_sum, Finset.mul_sum]
    refine Finset.sum_congr rfl fun k _ => ?_
    field_simp
    ring
  refine ⟨marginal_tends_of ?_ lim, marginal_tends_of ?_ lim⟩
  · filter_upwards [grid_sum_pos hab hg hgp, grid_sum_pos hab hh hhp] with n g1 g2
    rw [normalized_marginal hi hm g1.2.2.2 g2.2.2.2, (applyMarginal_ok (len_eq a b n _ _)).2.2.1, hval n g1 g2,
      Real.sqrt_one, one_mul]
  · filter_upwards [grid_sum_pos hab hg hgp, grid_sum_pos hab hh hhp] with n g1 g2
    rw [normalized_marginal hi hm g1.2.2.2 g2.2.2.2, (applyMarginal_ok (len_eq a b n _ _)).2.1, hval n g1 g2]

end

/-! ## Examples -/

namespace Ex

/-- A comparison of the marginals `g` and `h` of two sets on the unit interval. -/
def cmpMarginals (g h : ℝ → ℝ) : Compare ℝ where
  set1 := { dim := 1, domain := some [(0, 1)] }
  set2 := { dim := 1, domain := some [(0, 1)] }
  dens1 := ⟨fun rows => .ok (rows.map fun x => g (x.getD 0 0)), fun x _ => .ok (x.map g)⟩
  dens2 := ⟨fun rows => .ok (rows.map fun x => h (x.getD 0 0)), fun x _ => .ok (x.map h)⟩

theorem cmpMarginals_has (g h : ℝ → ℝ) (i : Nat) : HasMarginals (cmpMarginals g h) i g h := ⟨fun _ => rfl, fun _ => rfl⟩

/-- Without an interval the domain is used. -/
theorem cmpMarginals_uses (g h : ℝ → ℝ) : UsesInterval (cmpMarginals g h) 0 none 0 0 1 := by
  refine Or.inr ⟨rfl, ?_⟩
  have : (cmpMarginals g h).autoInterval 0 0 = .ok (min 0 0 - 0 * (min 1 1 - min 0 0), min 1 1 + 0 * (min 1 1 - min 0 0)) :=
    rfl
  rw [this]
  norm_num

/-- A density with a jump. -/
noncomputable def halfStep (x : ℝ) : ℝ := if x < 1 / 2 then 2 else 0

theorem halfStep_riemann : RiemannOn halfStep 0 1 := by
  refine ⟨⟨2, fun x _ => ?_⟩, ?_⟩
  · unfold halfStep
    split <;> simp
  · filter_upwards [Measure.ae_ne volume (1 / 2 : ℝ)] with x hx _
    rcases lt_or_gt_of_ne hx with h | h
    · refine (continuousAt_const (y := (2 : ℝ))).congr ?_
      filter_upwards [gt_mem_nhds h] with y hy
      exact (if_pos hy).symm
    · refine (continuousAt_const (y := (0 : ℝ))).congr ?_
      filter_upwards [lt_mem_nhds h] with y hy
      exact (if_neg (not_lt.2 (le_of_lt hy))).symm

/-- The distance of the density with a jump and the uniform density tends to one half. -/
example : MarginalDistanceTends (cmpMarginals halfStep fun _ => 1) 0 none 0 false .tv (1 / 2) := by
  have h := (C145_tv zero_lt_one (cmpMarginals_uses halfStep fun _ => 1) (cmpMarginals_has _ _ 0) halfStep_riemann
    (RiemannOn.of_continuous continuous_const)).1
  have e : ∀ x, |halfStep x - 1| = 1 := by
    intro x
    unfold halfStep
    split <;> norm_num
  simpa [e] using h

/-- The names that do not give a distance, for the densities `1` and `1 + x²`. -/
example : MarginalDistanceTends (cmpMarginals (fun _ => 1) fun x => 1 + x ^ 2) 0 (some (0, 1)) 7 true .euclid 0 ∧
    Tendsto (fun num => ((cmpMarginals (fun _ => 1) fun x => 1 + x ^ 2).distanceMarginal Real.sqrt 0 (some (0, 1)) num 7
      false .norm).toOption.getD 0) atTop atTop := by
  have r1 : RiemannOn (fun _ => (1 : ℝ)) 0 1 := RiemannOn.of_continuous continuous_const
  have r2 : RiemannOn (fun x : ℝ => 1 + x ^ 2) 0 1 := RiemannOn.of_continuous (by fun_prop)
  have p1 : 0 < ∫ x in (0 : ℝ)..1, (1 : ℝ) := by simp
  have p2 : 0 < ∫ x in (0 : ℝ)..1, (1 + x ^ 2) :=
    intervalIntegral.intervalIntegral_pos_of_pos_on (RiemannOn.integrable one_pos r2) (fun x _ => by positivity) one_pos
  have p3 : 0 < ∫ x in (0 : ℝ)..1, (1 - (1 + x ^ 2)) ^ 2 :=
    intervalIntegral.intervalIntegral_pos_of_pos_on (RiemannOn.integrable one_pos
      (RiemannOn.of_continuous (by fun_prop))) (fun x hx => by
        have := hx.1
        have : 0 < (x ^ 2) ^ 2 := by positivity
        nlinarith) one_pos
  exact ⟨(C145_negation_euclid one_pos (Or.inl rfl) (cmpMarginals_has _ _ 0) r1 r2 p1 p2).1,
    (C145_negation_norm one_pos (Or.inl rfl) (cmpMarginals_has _ _ 0) r1 r2 p3).2⟩

/-- The normalised distances of the densities `1` and `1 + x²`. -/
example : ∃ u v, MarginalDistanceTends (cmpMarginals (fun _ => 1) fun x => 1 + x ^ 2) 0 none 0 true .tv u ∧
    MarginalDistanceTends (cmpMarginals (fun _ => 1) fun x => 1 + x ^ 2) 0 none 0 true .hell v := by
  have r1 : RiemannOn (fun _ => (1 : ℝ)) 0 1 := RiemannOn.of_continuous continuous_const
  have r2 : RiemannOn (fun x : ℝ => 1 + x ^ 2) 0 1 := RiemannOn.of_continuous (by fun_prop)
  have p1 : 0 < ∫ x in (0 : ℝ)..1, (1 : ℝ) := by simp
  have p2 : 0 < ∫ x in (0 : ℝ)..1, (1 + x ^ 2) :=
    intervalIntegral.intervalIntegral_pos_of_pos_on (RiemannOn.integrable one_pos r2) (fun x _ => by positivity) one_pos
  exact ⟨_, _, C145_tv_normalized one_pos (cmpMarginals_uses _ _) (cmpMarginals_has _ _ 0) r1 r2 p1 p2,
    (C145_hellinger_normalized one_pos (cmpMarginals_uses _ _) (cmpMarginals_has _ _ 0) r1 r2 (fun _ => zero_le_one)
      (fun x => by positivity) p1 p2).2⟩

/-- With exact quadrature both methods agree in the limit for the density with a jump. -/
example : ∃ v, (cmpMarginals halfStep fun _ => 1).distanceMarginalQuad Real.sqrt Real.log exactQuad 0 none 0 .tv = .ok v ∧
    MarginalDistanceTends (cmpMarginals halfStep fun _ => 1) 0 none 0 false .tv v :=
  (C145_quad exactQuad_integrates zero_lt_one (cmpMarginals_uses halfStep fun _ => 1) (cmpMarginals_has _ _ 0)
    halfStep_riemann (RiemannOn.of_continuous continuous_const)
    (fun x => by unfold halfStep; split <;> norm_num) fun _ => zero_le_one).1

end Ex

end BET
