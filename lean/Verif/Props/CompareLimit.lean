import Verif.Props.CompareP
import Verif.Props.DrawnLaw

/-!
# C144: statistical distances at random points converge
-/

set_option linter.unusedSectionVars false
set_option linter.unusedSimpArgs false
set_option autoImplicit false

namespace BET

open Spec MeasureTheory ProbabilityTheory Filter Topology

variable {Ω : Type} [MeasurableSpace Ω] {P : Measure Ω} {d : Nat}

/-! ## Specification -/

namespace Spec

/-- A set has the density `p`: its `pdf` evaluates `p` at every row. -/
def HasDensity (D : Density ℝ) (p : (Fin d → ℝ) → ℝ) : Prop :=
  ∀ rows, (∀ row ∈ rows, row.length = d) → D.pdf rows = .ok (rows.map fun x => p fun j => x.getD j 0)

/-- A new `compare` object for two sets with the densities `p` and `q`. -/
structure NewCompare (c : Compare ℝ) (p q : (Fin d → ℝ) → ℝ) : Prop where
  dim : c.set1.dim = d
  left : HasDensity c.dens1 p
  right : HasDensity c.dens2 q
  none1 : c.pdfs1 = none
  none2 : c.pdfs2 = none

/-- `C n` is the object `c` after a call of `set_compare_set` that chose the first `n` of the points `X`. -/
def ChosenPoints (c : Compare ℝ) (parts : Nat) (X : ℕ → ℕ → Ω → Fin d → ℝ) (C : ℕ → Ω → Compare ℝ) : Prop :=
  ∀ n ω, (∃ st size factor arg, c.setCompareSet st size factor arg = .ok (C n ω)) ∧
    (C n ω).vals = some (drawnRows parts n fun r k => X r k ω)

/-- The number that `distance` returns. -/
noncomputable def distanceOf (fn : Functional ℝ) (normalize : Bool) (c : Compare ℝ) : Option ℝ :=
  (c.distance Real.sqrt fn normalize).toOption.map Prod.fst

/-- The distances are defined for all large numbers of points and tend to `L`, with probability one. -/
def DistanceTends (P : Measure Ω) (C : ℕ → Ω → Compare ℝ) (fn : Functional ℝ) (normalize : Bool) (L : ℝ) : Prop :=
  ∀ᵐ ω ∂P, (∀ᶠ n in atTop, (distanceOf fn normalize (C n ω)).isSome) ∧
    Tendsto (fun n => (distanceOf fn normalize (C n ω)).getD 0) atTop (𝓝 L)

end Spec

/-! ## The values -/

section values
variable {c : Compare ℝ} {p q : (Fin d → ℝ) → ℝ} {parts : Nat} {X : ℕ → ℕ → Ω → Fin d → ℝ}
  {C : ℕ → Ω → Compare ℝ}

/-- The mean of `h` over the points. -/
noncomputable def pointMean (parts n : Nat) (x : ℕ → ℕ → Fin d → ℝ) (h : (Fin d → ℝ) → ℝ) : ℝ :=
  (∑ rk ∈ drawSet parts n, h (x rk.1 rk.2)) / n

/-- The values of `p` at the points. -/
noncomputable def densAt (parts n : Nat) (x : ℕ → ℕ → Fin d → ℝ) (p : (Fin d → ℝ) → ℝ) : List ℝ :=
  (drawnRows parts n x).map fun y => p fun j => y.getD j 0

theorem length_densAt (hp : 0 < parts) (n : Nat) (x : ℕ → ℕ → Fin d → ℝ) : (densAt parts n x p).length = n := by
  rw [densAt, List.length_map, length_drawnRows hp]

theorem sum_densAt (n : Nat) (x : ℕ → ℕ → Fin d → ℝ) :
    (densAt parts n x p).sum = ∑ rk ∈ drawSet parts n, p (x rk.1 rk.2) := by
  rw [densAt, sum_drawnRows]
  simp only [getD_ofFn]

theorem zip_densAt (F : ℝ → ℝ → ℝ) (n : Nat) (x : ℕ → ℕ → Fin d → ℝ) :
    (List.zipWith F (densAt parts n x p) (densAt parts n x q)).sum =
      ∑ rk ∈ drawSet parts n, F (p (x rk.1 rk.2)) (q (x rk.1 rk.2)) := by
  rw [densAt, densAt, List.zipWith_map, List.zipWith_self, sum_drawnRows]
  simp only [getD_ofFn]

theorem map_densAt (F : ℝ → ℝ) (n : Nat) (x : ℕ → ℕ → Fin d → ℝ) :
    (densAt parts n x p).map F = densAt parts n x fun y => F (p y) := by
  rw [densAt, List.map_map]
  rfl

theorem pointMean_eq (n : Nat) (x : ℕ → ℕ → Fin d → ℝ) (h : (Fin d → ℝ) → ℝ) :
    (∑ rk ∈ drawSet parts n, h (x rk.1 rk.2)) / n = pointMean parts n x h := rfl

theorem compares_chosen (hc : NewCompare c p q) (hC : ChosenPoints c parts X C) (n : ℕ) (ω : Ω) :
    Compares (C n ω) (densAt parts n (fun r k => X r k ω) p) (densAt parts n (fun r k => X r k ω) q) := by
  obtain ⟨⟨st, size, factor, arg, h⟩, hv⟩ := hC n ω
  have hsame : (C n ω).pdfs1 = c.pdfs1 ∧ (C n ω).pdfs2 = c.pdfs2 ∧ (C n ω).dens1 = c.dens1 ∧
      (C n ω).dens2 = c.dens2 := by
    cases arg with
    | set s =>
      simp only [Compare.setCompareSet, bind_eq_ok, pure_eq_ok] at h
      obtain ⟨_, -, _, -, h⟩ := h
      rw [← h]
      exact ⟨rfl, rfl, rfl, rfl⟩
    | array m rows =>
      simp only [Compare.setCompareSet, bind_eq_ok, pure_eq_ok] at h
      obtain ⟨_, -, h⟩ := h
      rw [← h]
      exact ⟨rfl, rfl, rfl, rfl⟩
    | int m =>
      simp only [Compare.setCompareSet, bind_eq_ok, pure_eq_ok] at h
      obtain ⟨_, -, _, -, _, -, _, -, h⟩ := h
      rw [← h]
      exact ⟨rfl, rfl, rfl, rfl⟩
    | other => cases h
  have hlen : ∀ row ∈ drawnRows parts n (fun r k => X r k ω), row.length = d := by
    intro row hrow
    obtain ⟨r, k, rfl⟩ := mem_drawnRows hrow
    simp
  refine ⟨hsame.1.trans hc.none1, hsame.2.1.trans hc.none2, _, hv, ?_, ?_⟩
  · rw [hsame.2.2.1]
    exact hc.left _ hlen
  · rw [hsame.2.2.2]
    exact hc.right _ hlen

theorem distanceOf_gives {fn : Functional ℝ} {b : Bool} {c : Compare ℝ} {x : ℝ} (h : Gives Real.sqrt c fn b x) :
    distanceOf fn b c = some x := by
  obtain ⟨c', h⟩ := h
  rw [distanceOf, h]
  rfl

theorem tends_of {fn : Functional ℝ} {b : Bool} {L : ℝ} {V : ℕ → Ω → ℝ}
    (h : ∀ᵐ ω ∂P, (∀ᶠ n in atTop, distanceOf fn b (C n ω) = some (V n ω)) ∧
      Tendsto (fun n => V n ω) atTop (𝓝 L)) : DistanceTends P C fn b L := by
  filter_upwards [h] with ω hω
  refine ⟨hω.1.mono fun n hn => by rw [hn]; rfl, hω.2.congr' ?_⟩
  filter_upwards [hω.1] with n hn
  rw [hn]
  rfl

/-- The densities are not normalised. -/
theorem plain_value (hp : 0 < parts) (hc : NewCompare c p q) (hC : ChosenPoints c parts X C) {n : ℕ} (hn : 0 < n)
    (ω : Ω) {fn : Functional ℝ} (hf : fn ≠ .hell) {v : ℝ}
    (h : applyFn Real.sqrt (1 / (n : ℝ)) (densAt parts n (fun r k => X r k ω) p) (densAt parts n (fun r k => X r k ω) q)
      fn = .ok v) : distanceOf fn false (C n ω) = some v := by
  refine distanceOf_gives ((gives_iff (compares_chosen hc hC n ω) hf).2 ⟨nofun, fun _ => ?_, ?_⟩)
  · rw [length_densAt hp]
    exact hn.ne'
  · simp only [facN, densN, Bool.false_eq_true, if_false, length_densAt hp]
    exact h

/-- The densities are normalised. -/
theorem normalized_value (hc : NewCompare c p q) (hC : ChosenPoints c parts X C) {n : ℕ} {ω : Ω}
    (h1 : (densAt parts n (fun r k => X r k ω) p).sum ≠ 0) (h2 : (densAt parts n (fun r k => X r k ω) q).sum ≠ 0)
    {fn : Functional ℝ} (hf : fn ≠ .hell) {v : ℝ}
    (h : applyFn Real.sqrt 1
      (densAt parts n (fun r k => X r k ω) fun y => p y / (densAt parts n (fun r k => X r k ω) p).sum)
      (densAt parts n (fun r k => X r k ω) fun y => q y / (densAt parts n (fun r k => X r k ω) q).sum)
      fn = .ok v) : distanceOf fn true (C n ω) = some v := by
  refine distanceOf_gives ((gives_iff (compares_chosen hc hC n ω) hf).2 ⟨fun _ => ⟨h1, h2⟩, nofun, ?_⟩)
  simp only [facN, densN, if_true, map_densAt]
  exact h

/-- The Hellinger distance: the second call divides by the number of points, whatever `normalize` says. -/
theorem hell_value (hp : 0 < parts) (hc : NewCompare c p q) (hC : ChosenPoints c parts X C) {n : ℕ} (hn : 0 < n)
    {ω : Ω} {b : Bool} (h : b = true → (densAt parts n (fun r k => X r k ω) p).sum ≠ 0 ∧
      (densAt parts n (fun r k => X r k ω) q).sum ≠ 0) {v : ℝ}
    (hv : applyFn Real.sqrt (1 / (n : ℝ)) (densN b (densAt parts n (fun r k => X r k ω) p))
      (densN b (densAt parts n (fun r k => X r k ω) q)) .sqhell = .ok v) :
    distanceOf .hell b (C n ω) = some (Real.sqrt v) := by
  have hcmp := compares_chosen hc hC n ω
  have hs : (C n ω).vals.isSome := by
    obtain ⟨_, _, v, hv, -⟩ := hcmp
    rw [hv]
    rfl
  have hlen := length_densAt (p := p) hp n (fun r k => X r k ω)
  have h1 : normFactor b (densAt parts n (fun r k => X r k ω) p) (densAt parts n (fun r k => X r k ω) q) =
      .ok ((densN b (densAt parts n (fun r k => X r k ω) p), densN b (densAt parts n (fun r k => X r k ω) q)),
        facN b (densAt parts n (fun r k => X r k ω) p)) :=
    normFactor_eq_ok.2 ⟨h, fun _ => by rw [hlen]; exact hn.ne', rfl⟩
  have h2 : normFactor false (densN b (densAt parts n (fun r k => X r k ω) p))
      (densN b (densAt parts n (fun r k => X r k ω) q)) =
      .ok ((densN b (densAt parts n (fun r k => X r k ω) p), densN b (densAt parts n (fun r k => X r k ω) q)),
        1 / (n : ℝ)) := by
    refine normFactor_eq_ok.2 ⟨nofun, fun _ => by rw [length_densN, hlen]; exact hn.ne', ?_⟩
    simp only [densN, facN, Bool.false_eq_true, if_false]
    congr 2
    cases b <;> simp [hlen]
  rw [distanceOf, distance_of_prepare hs (prepare_fresh hcmp b), h1]
  simp only [Except.bind, finish, h2, ok_bind, hv]
  rfl

end values

/-! ## Limits of means -/

section means
variable [IsProbabilityMeasure P] {μ : Measure (Fin d → ℝ)} {p q : (Fin d → ℝ) → ℝ} {parts : Nat}
  {X : ℕ → ℕ → Ω → Fin d → ℝ}

theorem pointMean_tends (hp : 0 < parts) (hX : RandomSamples P μ X) {h : (Fin d → ℝ) → ℝ} (hi : Integrable h μ) :
    ∀ᵐ ω ∂P, Tendsto (fun n => pointMean parts n (fun r k => X r k ω) h) atTop (𝓝 (∫ x, h x ∂μ)) := by
  filter_upwards [streams_mean hp hX.law hX.indep hi] with ω hω
  refine hω.congr fun n => ?_
  rw [pointMean, drawSet, Finset.sum_sigma]

theorem pointMean_mul (n : ℕ) (x : ℕ → ℕ → Fin d → ℝ) (a : ℝ) (h : (Fin d → ℝ) → ℝ) :
    pointMean parts n x (fun y => a * h y) = a * pointMean parts n x h := by
  rw [pointMean, pointMean, ← Finset.mul_sum, mul_div_assoc]

theorem pointMean_add (n : ℕ) (x : ℕ → ℕ → Fin d → ℝ) (g h : (Fin d → ℝ) → ℝ) :
    pointMean parts n x (fun y => g y + h y) = pointMean parts n x g + pointMean parts n x h := by
  rw [pointMean, pointMean, pointMean, Finset.sum_add_distrib, add_div]

theorem pointMean_sub (n : ℕ) (x : ℕ → ℕ → Fin d → ℝ) (g h : (Fin d → ℝ) → ℝ) :
    pointMean parts n x (fun y => g y - h y) = pointMean parts n x g - pointMean parts n x h := by
  rw [pointMean, pointMean, pointMean, Finset.sum_sub_distrib, sub_div]

theorem pointMean_mono (n : ℕ) (x : ℕ → ℕ → Fin d → ℝ) {g h : (Fin d → ℝ) → ℝ} (hgh : ∀ y, g y ≤ h y) :
    pointMean parts n x g ≤ pointMean parts n x h :=
  div_le_div_of_nonneg_right (Finset.sum_le_sum fun _ _ => hgh _) (Nat.cast_nonneg n)

theorem sum_pointMean {n : ℕ} (hn : 0 < n) (x : ℕ → ℕ → Fin d → ℝ) (h : (Fin d → ℝ) → ℝ) :
    ∑ rk ∈ drawSet parts n, h (x rk.1 rk.2) = n * pointMean parts n x h := by
  have : (n : ℝ) ≠ 0 := by exact_mod_cast hn.ne'
  rw [pointMean]
  field_simp

/-- The sums of a density with positive mean are positive in the end. -/
theorem sum_pos_eventually {ω : Ω} (h : Tendsto (fun n => pointMean parts n (fun r k => X r k ω) p) atTop
    (𝓝 (∫ x, p x ∂μ))) (hpos : 0 < ∫ x, p x ∂μ) :
    ∀ᶠ n : ℕ in atTop, 0 < n ∧ 0 < pointMean parts n (fun r k => X r k ω) p ∧
      (densAt parts n (fun r k => X r k ω) p).sum = n * pointMean parts n (fun r k => X r k ω) p := by
  filter_upwards [h.eventually (lt_mem_nhds hpos), eventually_gt_atTop 0] with n h1 h2
  exact ⟨h2, h1, by rw [sum_densAt]; exact sum_pointMean h2 (fun r k => X r k ω) p⟩

theorem one_div_tends {f : ℕ → ℝ} {a : ℝ} (h : Tendsto f atTop (𝓝 a)) (ha : a ≠ 0) :
    Tendsto (fun n => 1 / f n) atTop (𝓝 (1 / a)) := tendsto_const_nhds.div h ha

/-- Means of `|a p - b q|` with converging factors. -/
theorem abs_mean_tends {x : ℕ → ℕ → Fin d → ℝ} {a b : ℕ → ℝ} {a' b' L p' q' : ℝ} (ha : Tendsto a atTop (𝓝 a'))
    (hb : Tendsto b atTop (𝓝 b')) (hL : Tendsto (fun n => pointMean parts n x fun y => |a' * p y - b' * q y|) atTop (𝓝 L))
    (hp : Tendsto (fun n => pointMean parts n x fun y => |p y|) atTop (𝓝 p'))
    (hq : Tendsto (fun n => pointMean parts n x fun y => |q y|) atTop (𝓝 q')) :
    Tendsto (fun n => pointMean parts n x fun y => |a n * p y - b n * q y|) atTop (𝓝 L) := by
  have hz : Tendsto (fun n => |a n - a'| * pointMean parts n x (fun y => |p y|) +
      |b n - b'| * pointMean parts n x (fun y => |q y|)) atTop (𝓝 0) := by
    have h1 : Tendsto (fun n => |a n - a'|) atTop (𝓝 0) := by
      simpa using (ha.sub_const a').abs
    have h2 : Tendsto (fun n => |b n - b'|) atTop (𝓝 0) := by
      simpa using (hb.sub_const b').abs
    simpa using (h1.mul hp).add (h2.mul hq)
  refine tendsto_of_tendsto_of_dist hL ?_
  refine squeeze_zero (fun _ => dist_nonneg) (fun n => ?_) hz
  rw [dist_comm, Real.dist_eq, ← pointMean_sub, ← pointMean_mul, ← pointMean_mul, ← pointMean_add, abs_le]
  have key : ∀ y, |(|a n * p y - b n * q y| - |a' * p y - b' * q y|)| ≤ |a n - a'| * |p y| + |b n - b'| * |q y| := by
    intro y
    refine (abs_abs_sub_abs_le_abs_sub _ _).trans ?_
    rw [← abs_mul, ← abs_mul]
    refine le_trans (le_of_eq ?_) (abs_sub _ _)
    congr 1
    ring
  refine ⟨?_, pointMean_mono n x fun y => (abs_le.1 (key y)).2⟩
  have := pointMean_mono (parts := parts) n x (fun y => (abs_le.1 (key y)).1)
  refine le_trans (le_of_eq ?_) this
  have e := pointMean_mul (parts := parts) n x (-1) (fun y => |a n - a'| * |p y| + |b n - b'| * |q y|)
  simp only [neg_one_mul] at e
  exact e.symm

end means

/-! ## Distances -/

section distances
variable [IsProbabilityMeasure P] {μ : Measure (Fin d → ℝ)} {c : Compare ℝ} {p q : (Fin d → ℝ) → ℝ} {parts : Nat}
  {X : ℕ → ℕ → Ω → Fin d → ℝ} {C : ℕ → Ω → Compare ℝ}

theorem length_eq (hp : 0 < parts) (n : ℕ) (x : ℕ → ℕ → Fin d → ℝ) (p q : (Fin d → ℝ) → ℝ) :
    (densAt parts n x p).length = (densAt parts n x q).length := by
  rw [length_densAt hp, length_densAt hp]

/-- **C144.** The total variation of `distance('tv')` tends with probability one to half the mean of `|p - q|` under
the law of the points. -/
theorem C144_tv (hp : 0 < parts) (hX : RandomSamples P μ X) (hc : NewCompare c p q) (hC : ChosenPoints c parts X C)
    (h1 : Integrable p μ) (h2 : Integrable q μ) : DistanceTends P C .tv false ((∫ x, |p x - q x| ∂μ) / 2) := by
  refine tends_of (V := fun n ω => pointMean parts n (fun r k => X r k ω) (fun y => |p y - q y|) / 2) ?_
  filter_upwards [pointMean_tends hp hX (h1.sub h2).abs] with ω hω
  refine ⟨?_, hω.div_const 2⟩
  filter_upwards [eventually_gt_atTop 0] with n hn
  refine plain_value hp hc hC hn ω (by nofun) ?_
  rw [(apply_ok (length_eq hp n _ p q)).1, halfAbs, zip_densAt, pointMean, ← Finset.sum_div]
  congr 1
  ring

theorem C144_tv_normalized (hp : 0 < parts) (hX : RandomSamples P μ X) (hc : NewCompare c p q)
    (hC : ChosenPoints c parts X C) (h1 : Integrable p μ) (h2 : Integrable q μ) (hpp : 0 < ∫ x, p x ∂μ)
    (hqq : 0 < ∫ x, q x ∂μ) :
    DistanceTends P C .tv true ((∫ x, |p x / (∫ y, p y ∂μ) - q x / (∫ y, q y ∂μ)| ∂μ) / 2) := by
  refine tends_of (V := fun n ω => pointMean parts n (fun r k => X r k ω) (fun y =>
    |1 / pointMean parts n (fun r k => X r k ω) p * p y - 1 / pointMean parts n (fun r k => X r k ω) q * q y|) / 2) ?_
  have hi : Integrable (fun x => |1 / (∫ y, p y ∂μ) * p x - 1 / (∫ y, q y ∂μ) * q x|) μ :=
    ((h1.const_mul _).sub (h2.const_mul _)).abs
  filter_upwards [pointMean_tends hp hX h1, pointMean_tends hp hX h2, pointMean_tends hp hX h1.abs,
    pointMean_tends hp hX h2.abs, pointMean_tends hp hX hi] with ω e1 e2 e3 e4 e5
  refine ⟨?_, ?_⟩
  · filter_upwards [sum_pos_eventually e1 hpp, sum_pos_eventually e2 hqq] with n g1 g2
    have hn : (0 : ℝ) < n := by exact_mod_cast g1.1
    refine normalized_value hc hC (by rw [g1.2.2]; exact (mul_pos hn g1.2.1).ne')
      (by rw [g2.2.2]; exact (mul_pos hn g2.2.1).ne') (by nofun) ?_
    rw [(apply_ok (length_eq hp n _ _ _)).1, halfAbs, zip_densAt, g1.2.2, g2.2.2, one_mul, ← Finset.sum_div]
    have k1 := g1.2.1
    have k2 := g2.2.1
    clear e1 e2 g1 g2
    generalize pointMean parts n (fun r k => X r k ω) p = M at *
    generalize pointMean parts n (fun r k => X r k ω) q = N at *
    rw [pointMean, Finset.sum_div (a := (n : ℝ))]
    congr 2
    refine Finset.sum_congr rfl fun rk _ => ?_
    rw [← abs_of_pos hn, ← abs_div, abs_of_pos hn]
    congr 1
    field_simp
  · refine Tendsto.div_const ?_ 2
    have e6 : (∫ x, |p x / (∫ y, p y ∂μ) - q x / (∫ y, q y ∂μ)| ∂μ) =
        ∫ x, |1 / (∫ y, p y ∂μ) * p x - 1 / (∫ y, q y ∂μ) * q x| ∂μ := by
      congr 1
      funext x
      rw [div_mul_eq_mul_div, div_mul_eq_mul_div, one_mul, one_mul]
    rw [e6]
    exact abs_mean_tends (one_div_tends e1 hpp.ne') (one_div_tends e2 hqq.ne') e5 e3 e4

theorem integrable_roots (h1 : Integrable p μ) (h2 : Integrable q μ) (hpn : ∀ x, 0 ≤ p x) (hqn : ∀ x, 0 ≤ q x) :
    Integrable (fun x => Real.sqrt (p x) * Real.sqrt (q x)) μ := by
  refine (h1.add h2).mono' ?_ (Eventually.of_forall fun x => ?_)
  · exact (Real.continuous_sqrt.comp_aestronglyMeasurable h1.1).mul
      (Real.continuous_sqrt.comp_aestronglyMeasurable h2.1)
  · rw [Real.norm_eq_abs, abs_of_nonneg (mul_nonneg (Real.sqrt_nonneg _) (Real.sqrt_nonneg _))]
    have a := Real.sq_sqrt (hpn x)
    have b := Real.sq_sqrt (hqn x)
    simp only [Pi.add_apply]
    nlinarith [sq_nonneg (Real.sqrt (p x) - Real.sqrt (q x)), sq_nonneg (Real.sqrt (p x)), sq_nonneg (Real.sqrt (q x))]

theorem roots_sq {a b : ℝ} (ha : 0 ≤ a) (hb : 0 ≤ b) :
    (Real.sqrt a - Real.sqrt b) * (Real.sqrt a - Real.sqrt b) = a + b - 2 * (Real.sqrt a * Real.sqrt b) := by
  have h1 := Real.mul_self_sqrt ha
  have h2 := Real.mul_self_sqrt hb
  linear_combination h1 + h2

/-- The mean of the squared difference of the roots. -/
theorem roots_mean (x : ℕ → ℕ → Fin d → ℝ) (n : ℕ) (hpn : ∀ x, 0 ≤ p x) (hqn : ∀ x, 0 ≤ q x) {a b : ℝ} (ha : 0 ≤ a)
    (hb : 0 ≤ b) : pointMean parts n x (fun y => (Real.sqrt (a * p y) - Real.sqrt (b * q y)) *
      (Real.sqrt (a * p y) - Real.sqrt (b * q y))) = a * pointMean parts n x p + b * pointMean parts n x q -
        2 * (Real.sqrt a * Real.sqrt b) * pointMean parts n x (fun y => Real.sqrt (p y) * Real.sqrt (q y)) := by
  rw [← pointMean_mul, ← pointMean_mul, ← pointMean_mul, ← pointMean_add, ← pointMean_sub]
  congr 1
  funext y
  rw [roots_sq (mul_nonneg ha (hpn y)) (mul_nonneg hb (hqn y)), Real.sqrt_mul ha, Real.sqrt_mul hb]
  ring

theorem roots_integral (h1 : Integrable p μ) (h2 : Integrable q μ) (hpn : ∀ x, 0 ≤ p x) (hqn : ∀ x, 0 ≤ q x) {a b : ℝ}
    (ha : 0 ≤ a) (hb : 0 ≤ b) : (∫ x, (Real.sqrt (a * p x) - Real.sqrt (b * q x)) ^ 2 ∂μ) =
      a * (∫ x, p x ∂μ) + b * (∫ x, q x ∂μ) -
        2 * (Real.sqrt a * Real.sqrt b) * ∫ x, Real.sqrt (p x) * Real.sqrt (q x) ∂μ := by
  have hr := integrable_roots h1 h2 hpn hqn
  rw [← integral_const_mul, ← integral_const_mul, ← integral_const_mul,
    ← integral_add (h1.const_mul a) (h2.const_mul b),
    ← integral_sub (f := fun x => a * p x + b * q x) ((h1.const_mul a).add (h2.const_mul b)) (hr.const_mul _)]
  congr 1
  funext y
  rw [sq, roots_sq (mul_nonneg ha (hpn y)) (mul_nonneg hb (hqn y)), Real.sqrt_mul ha, Real.sqrt_mul hb]
  ring

theorem roots_tend (hp : 0 < parts) (hX : RandomSamples P μ X) (h1 : Integrable p μ) (h2 : Integrable q μ)
    (hpn : ∀ x, 0 ≤ p x) (hqn : ∀ x, 0 ≤ q x) : ∀ᵐ ω ∂P, ∀ (a b : ℕ → ℝ) (a' b' : ℝ), Tendsto a atTop (𝓝 a') →
      Tendsto b atTop (𝓝 b') → 0 ≤ a' → 0 ≤ b' → (∀ᶠ n in atTop, 0 ≤ a n ∧ 0 ≤ b n) →
      Tendsto (fun n => pointMean parts n (fun r k => X r k ω) (fun y =>
        (Real.sqrt (a n * p y) - Real.sqrt (b n * q y)) * (Real.sqrt (a n * p y) - Real.sqrt (b n * q y)))) atTop
        (𝓝 (∫ x, (Real.sqrt (a' * p x) - Real.sqrt (b' * q x)) ^ 2 ∂μ)) := by
  filter_upwards [pointMean_tends hp hX h1, pointMean_tends hp hX h2,
    pointMean_tends hp hX (integrable_roots h1 h2 hpn hqn)] with ω e1 e2 e3 a b a' b' ha hb ha' hb' hab
  rw [roots_integral h1 h2 hpn hqn ha' hb']
  have hs : Tendsto (fun n => 2 * (Real.sqrt (a n) * Real.sqrt (b n))) atTop
      (𝓝 (2 * (Real.sqrt a' * Real.sqrt b'))) := (ha.sqrt.mul hb.sqrt).const_mul 2
  refine (((ha.mul e1).add (hb.mul e2)).sub (hs.mul e3)).congr' ?_
  filter_upwards [hab] with n hn
  rw [roots_mean _ n hpn hqn hn.1 hn.2]

theorem sqhell_densAt (hp : 0 < parts) (n : ℕ) (x : ℕ → ℕ → Fin d → ℝ) (f : ℝ) :
    applyFn Real.sqrt f (densAt parts n x p) (densAt parts n x q) .sqhell =
      .ok (f * (∑ rk ∈ drawSet parts n, (Real.sqrt (p (x rk.1 rk.2)) - Real.sqrt (q (x rk.1 rk.2))) *
        (Real.sqrt (p (x rk.1 rk.2)) - Real.sqrt (q (x rk.1 rk.2)))) / 2) := by
  rw [(apply_ok (length_eq hp n _ _ _)).2.2.2, map_densAt, map_densAt, sqDist, zip_densAt]

/-- **C144.** The squared Hellinger distance of `distance('sqhell')` tends to half the mean of `(√p - √q)²`, and the
Hellinger distance of `distance('hell')` to its root. -/
theorem C144_hellinger (hp : 0 < parts) (hX : RandomSamples P μ X) (hc : NewCompare c p q)
    (hC : ChosenPoints c parts X C) (h1 : Integrable p μ) (h2 : Integrable q μ) (hpn : ∀ x, 0 ≤ p x)
    (hqn : ∀ x, 0 ≤ q x) :
    DistanceTends P C .sqhell false ((∫ x, (Real.sqrt (p x) - Real.sqrt (q x)) ^ 2 ∂μ) / 2) ∧
    DistanceTends P C .hell false (Real.sqrt ((∫ x, (Real.sqrt (p x) - Real.sqrt (q x)) ^ 2 ∂μ) / 2)) := by
  set V : ℕ → Ω → ℝ := fun n ω => pointMean parts n (fun r k => X r k ω) (fun y =>
    (Real.sqrt (1 * p y) - Real.sqrt (1 * q y)) * (Real.sqrt (1 * p y) - Real.sqrt (1 * q y))) / 2 with hV
  have hval : ∀ (n : ℕ) ω, applyFn Real.sqrt (1 / (n : ℝ)) (densAt parts n (fun r k => X r k ω) p)
      (densAt parts n (fun r k => X r k ω) q) .sqhell = .ok (V n ω) := by
    intro n ω
    rw [sqhell_densAt hp, hV]
    simp only [pointMean, one_mul]
    congr 1
    ring
  have hlim : ∀ᵐ ω ∂P, Tendsto (fun n => V n ω) atTop
      (𝓝 ((∫ x, (Real.sqrt (p x) - Real.sqrt (q x)) ^ 2 ∂μ) / 2)) := by
    filter_upwards [roots_tend hp hX h1 h2 hpn hqn] with ω hω
    have := hω (fun _ => 1) (fun _ => 1) 1 1 tendsto_const_nhds tendsto_const_nhds zero_le_one zero_le_one
      (Eventually.of_forall fun _ => ⟨zero_le_one, zero_le_one⟩)
    simp only [one_mul] at this
    simp only [hV, one_mul]
    exact this.div_const 2
  refine ⟨tends_of (V := V) ?_, tends_of (V := fun n ω => Real.sqrt (V n ω)) ?_⟩
  · filter_upwards [hlim] with ω hω
    refine ⟨?_, hω⟩
    filter_upwards [eventually_gt_atTop 0] with n hn
    exact plain_value hp hc hC hn ω (by nofun) (hval n ω)
  · filter_upwards [hlim] with ω hω
    refine ⟨?_, hω.sqrt⟩
    filter_upwards [eventually_gt_atTop 0] with n hn
    refine hell_value hp hc hC hn (by nofun) ?_
    simp only [densN, Bool.false_eq_true, if_false]
    exact hval n ω

/-- Normalised, `distance('sqhell', normalize=True)` tends to the squared Hellinger distance of the normalised
densities, but `distance('hell', normalize=True)` always tends to zero. -/
theorem C144_hellinger_normalized (hp : 0 < parts) (hX : RandomSamples P μ X) (hc : NewCompare c p q)
    (hC : ChosenPoints c parts X C) (h1 : Integrable p μ) (h2 : Integrable q μ) (hpn : ∀ x, 0 ≤ p x)
    (hqn : ∀ x, 0 ≤ q x) (hpp : 0 < ∫ x, p x ∂μ) (hqq : 0 < ∫ x, q x ∂μ) :
    DistanceTends P C .sqhell true
      ((∫ x, (Real.sqrt (p x / ∫ y, p y ∂μ) - Real.sqrt (q x / ∫ y, q y ∂μ)) ^ 2 ∂μ) / 2) ∧
    DistanceTends P C .hell true 0 := by
  set x : Ω → ℕ → ℕ → Fin d → ℝ := fun ω r k => X r k ω with hx
  set V : ℕ → Ω → ℝ := fun n ω => pointMean parts n (x ω) (fun y =>
    (Real.sqrt (1 / pointMean parts n (x ω) p * p y) - Real.sqrt (1 / pointMean parts n (x ω) q * q y)) *
    (Real.sqrt (1 / pointMean parts n (x ω) p * p y) - Real.sqrt (1 / pointMean parts n (x ω) q * q y))) / 2 with hV
  have hval : ∀ (n : ℕ) (ω : Ω) (f : ℝ), (0 < n ∧ 0 < pointMean parts n (x ω) p ∧
      (densAt parts n (x ω) p).sum = n * pointMean parts n (x ω) p) → (0 < n ∧ 0 < pointMean parts n (x ω) q ∧
      (densAt parts n (x ω) q).sum = n * pointMean parts n (x ω) q) →
      applyFn Real.sqrt f (densAt parts n (x ω) fun y => p y / (densAt parts n (x ω) p).sum)
      (densAt parts n (x ω) fun y => q y / (densAt parts n (x ω) q).sum) .sqhell = .ok (f * V n ω) := by
    intro n ω f g1 g2
    have hn : (0 : ℝ) < n := by exact_mod_cast g1.1
    rw [sqhell_densAt hp, hV, g1.2.2, g2.2.2]
    dsimp only
    have k1 := g1.2.1
    have k2 := g2.2.1
    clear g1 g2
    generalize pointMean parts n (x ω) p = M at *
    generalize pointMean parts n (x ω) q = N at *
    rw [pointMean, mul_div_assoc, Finset.sum_div (a := (n : ℝ))]
    congr 3
    refine Finset.sum_congr rfl fun rk _ => ?_
    have root : ∀ {s t : ℝ}, 0 < s → Real.sqrt (t / (n * s)) = Real.sqrt (1 / s * t) / Real.sqrt n := by
      intro s t hs
      rw [← Real.sqrt_div' _ hn.le]
      congr 1
      field_simp
    rw [root k1, root k2, ← sub_div, div_mul_div_comm, Real.mul_self_sqrt hn.le]
  have hlim : ∀ᵐ ω ∂P, (∀ᶠ n : ℕ in atTop, (0 < n ∧ 0 < pointMean parts n (x ω) p ∧
      (densAt parts n (x ω) p).sum = n * pointMean parts n (x ω) p) ∧ (0 < n ∧ 0 < pointMean parts n (x ω) q ∧
      (densAt parts n (x ω) q).sum = n * pointMean parts n (x ω) q)) ∧ Tendsto (fun n => V n ω) atTop
      (𝓝 ((∫ x, (Real.sqrt (p x / ∫ y, p y ∂μ) - Real.sqrt (q x / ∫ y, q y ∂μ)) ^ 2 ∂μ) / 2)) := by
    filter_upwards [roots_tend hp hX h1 h2 hpn hqn, pointMean_tends hp hX h1, pointMean_tends hp hX h2] with ω hω e1 e2
    have e := (sum_pos_eventually e1 hpp).and (sum_pos_eventually e2 hqq)
    refine ⟨e, ?_⟩
    have := hω _ _ _ _ (one_div_tends e1 hpp.ne') (one_div_tends e2 hqq.ne') (by positivity) (by positivity)
      (e.mono fun n hn => ⟨by have := hn.1.2.1; positivity, by have := hn.2.2.1; positivity⟩)
    simp only [one_div_mul_eq_div] at this
    simp only [hV, one_div_mul_eq_div]
    exact this.div_const 2
  refine ⟨tends_of (V := V) ?_, tends_of (V := fun n ω => Real.sqrt (1 / (n : ℝ) * V n ω)) ?_⟩
  · filter_upwards [hlim] with ω hω
    refine ⟨?_, hω.2⟩
    filter_upwards [hω.1] with n g
    have hn : (0 : ℝ) < n := by exact_mod_cast g.1.1
    have := hval n ω 1 g.1 g.2
    rw [one_mul] at this
    exact normalized_value hc hC (by rw [g.1.2.2]; exact (mul_pos hn g.1.2.1).ne')
      (by rw [g.2.2.2]; exact (mul_pos hn g.2.2.1).ne') (by nofun) this
  · filter_upwards [hlim] with ω hω
    refine ⟨?_, ?_⟩
    · filter_upwards [hω.1] with n g
      have hn : (0 : ℝ) < n := by exact_mod_cast g.1.1
      refine hell_value hp hc hC g.1.1 (fun _ => ⟨by rw [g.1.2.2]; exact (mul_pos hn g.1.2.1).ne',
        by rw [g.2.2.2]; exact (mul_pos hn g.2.2.1).ne'⟩) ?_
      simp only [densN, if_true, map_densAt]
      exact hval n ω _ g.1 g.2
    · have := (tendsto_one_div_atTop_nhds_zero_nat (𝕜 := ℝ)).mul hω.2
      rw [zero_mul] at this
      simpa using this.sqrt

theorem sqDist_densAt (n : ℕ) (x : ℕ → ℕ → Fin d → ℝ) :
    sqDist (densAt parts n x p) (densAt parts n x q) =
      ∑ rk ∈ drawSet parts n, (p (x rk.1 rk.2) - q (x rk.1 rk.2)) ^ 2 := by
  rw [sqDist, zip_densAt]
  simp only [sq]

/-- **C144.** The distance `distance('2')` tends to the root of the mean of `(p - q)²`, but `distance('norm')` always
tends to zero. -/
theorem C144_euclid (hp : 0 < parts) (hX : RandomSamples P μ X) (hc : NewCompare c p q)
    (hC : ChosenPoints c parts X C) (h : Integrable (fun x => (p x - q x) ^ 2) μ) :
    DistanceTends P C .euclid false (Real.sqrt (∫ x, (p x - q x) ^ 2 ∂μ)) ∧ DistanceTends P C .norm false 0 := by
  refine ⟨tends_of (V := fun n ω => Real.sqrt (pointMean parts n (fun r k => X r k ω) fun y => (p y - q y) ^ 2)) ?_,
    tends_of (V := fun n ω =>
      Real.sqrt (1 / (n : ℝ) * pointMean parts n (fun r k => X r k ω) fun y => (p y - q y) ^ 2)) ?_⟩
  · filter_upwards [pointMean_tends hp hX h] with ω hω
    refine ⟨?_, hω.sqrt⟩
    filter_upwards [eventually_gt_atTop 0] with n hn
    refine plain_value hp hc hC hn ω (by nofun) ?_
    rw [(apply_ok (length_eq hp n _ p q)).2.2.1, sqDist_densAt, ← Real.sqrt_mul (by positivity), pointMean]
    congr 2
    ring
  · filter_upwards [pointMean_tends hp hX h] with ω hω
    refine ⟨?_, ?_⟩
    · filter_upwards [eventually_gt_atTop 0] with n hn
      refine plain_value hp hc hC hn ω (by nofun) ?_
      have hn' : (0 : ℝ) ≤ 1 / n := by positivity
      rw [(apply_ok (length_eq hp n _ p q)).2.1, sqDist_densAt, pointMean,
        show 1 / (n : ℝ) * ((∑ rk ∈ drawSet parts n, (p (X rk.1 rk.2 ω) - q (X rk.1 rk.2 ω)) ^ 2) / n) =
          (1 / (n : ℝ)) ^ 2 * ∑ rk ∈ drawSet parts n, (p (X rk.1 rk.2 ω) - q (X rk.1 rk.2 ω)) ^ 2 from by ring,
        Real.sqrt_mul (by positivity), Real.sqrt_sq hn']
    · have := (tendsto_one_div_atTop_nhds_zero_nat (𝕜 := ℝ)).mul hω
      rw [zero_mul] at this
      simpa using this.sqrt

/-- Normalised, both always tend to zero. -/
theorem C144_negation_euclid (hp : 0 < parts) (hX : RandomSamples P μ X) (hc : NewCompare c p q)
    (hC : ChosenPoints c parts X C) (h1 : MemLp p 2 μ) (h2 : MemLp q 2 μ) (hpp : 0 < ∫ x, p x ∂μ)
    (hqq : 0 < ∫ x, q x ∂μ) : DistanceTends P C .euclid true 0 ∧ DistanceTends P C .norm true 0 := by
  have hμ : IsProbabilityMeasure μ := (hX.law 0 0).isProbabilityMeasure_iff.1 inferInstance
  have i1 := h1.integrable one_le_two
  have i2 := h2.integrable one_le_two
  have hval : ∀ (n : ℕ) (ω : Ω), (0 < n ∧ 0 < pointMean parts n (fun r k => X r k ω) p ∧
      (densAt parts n (fun r k => X r k ω) p).sum = n * pointMean parts n (fun r k => X r k ω) p) →
      (0 < n ∧ 0 < pointMean parts n (fun r k => X r k ω) q ∧
      (densAt parts n (fun r k => X r k ω) q).sum = n * pointMean parts n (fun r k => X r k ω) q) →
      sqDist (densAt parts n (fun r k => X r k ω) fun y => p y / (densAt parts n (fun r k => X r k ω) p).sum)
        (densAt parts n (fun r k => X r k ω) fun y => q y / (densAt parts n (fun r k => X r k ω) q).sum) =
      1 / (n : ℝ) * ((1 / pointMean parts n (fun r k => X r k ω) p) ^ 2 *
          pointMean parts n (fun r k => X r k ω) (fun y => p y ^ 2) +
        (1 / pointMean parts n (fun r k => X r k ω) q) ^ 2 *
          pointMean parts n (fun r k => X r k ω) (fun y => q y ^ 2) -
        2 * (1 / pointMean parts n (fun r k => X r k ω) p) * (1 / pointMean parts n (fun r k => X r k ω) q) *
          pointMean parts n (fun r k => X r k ω) (fun y => p y * q y)) := by
    intro n ω g1 g2
    have hn : (0 : ℝ) < n := by exact_mod_cast g1.1
    rw [← pointMean_mul, ← pointMean_mul, ← pointMean_mul, ← pointMean_add, ← pointMean_sub, sqDist_densAt, g1.2.2,
      g2.2.2]
    generalize hM : pointMean parts n (fun r k => X r k ω) p = M at *
    generalize hN : pointMean parts n (fun r k => X r k ω) q = N at *
    have := g1.2.1.ne'
    have := g2.2.1.ne'
    rw [pointMean, Finset.sum_div, Finset.mul_sum]
    refine Finset.sum_congr rfl fun rk _ => ?_
    field_simp
    ring
  have hlim : ∀ᵐ ω ∂P, (∀ᶠ n : ℕ in atTop, (0 < n ∧ 0 < pointMean parts n (fun r k => X r k ω) p ∧
      (densAt parts n (fun r k => X r k ω) p).sum = n * pointMean parts n (fun r k => X r k ω) p) ∧
      (0 < n ∧ 0 < pointMean parts n (fun r k => X r k ω) q ∧
      (densAt parts n (fun r k => X r k ω) q).sum = n * pointMean parts n (fun r k => X r k ω) q)) ∧
      Tendsto (fun n : ℕ => Real.sqrt (1 / (n : ℝ) * ((1 / pointMean parts n (fun r k => X r k ω) p) ^ 2 *
          pointMean parts n (fun r k => X r k ω) (fun y => p y ^ 2) +
        (1 / pointMean parts n (fun r k => X r k ω) q) ^ 2 *
          pointMean parts n (fun r k => X r k ω) (fun y => q y ^ 2) -
        2 * (1 / pointMean parts n (fun r k => X r k ω) p) * (1 / pointMean parts n (fun r k => X r k ω) q) *
          pointMean parts n (fun r k => X r k ω) (fun y => p y * q y)))) atTop (𝓝 0) := by
    filter_upwards [pointMean_tends hp hX i1, pointMean_tends hp hX i2, pointMean_tends hp hX h1.integrable_sq,
      pointMean_tends hp hX h2.integrable_sq, pointMean_tends hp hX (h := fun y => p y * q y) (h1.integrable_mul h2)] with ω e1 e2 e3 e4 e5
    refine ⟨(sum_pos_eventually e1 hpp).and (sum_pos_eventually e2 hqq), ?_⟩
    have a1 := one_div_tends e1 hpp.ne'
    have a2 := one_div_tends e2 hqq.ne'
    have := (tendsto_one_div_atTop_nhds_zero_nat (𝕜 := ℝ)).mul
      ((((a1.pow 2).mul e3).add ((a2.pow 2).mul e4)).sub (((a1.const_mul 2).mul a2).mul e5))
    rw [zero_mul] at this
    simpa using this.sqrt
  refine ⟨tends_of (hlim.mono fun ω hω => ⟨hω.1.mono fun n g => ?_, hω.2⟩),
    tends_of (hlim.mono fun ω hω => ⟨hω.1.mono fun n g => ?_, hω.2⟩)⟩
  all_goals
    have hn : (0 : ℝ) < n := by exact_mod_cast g.1.1
    refine normalized_value hc hC (by rw [g.1.2.2]; exact (mul_pos hn g.1.2.1).ne')
      (by rw [g.2.2.2]; exact (mul_pos hn g.2.2.1).ne') (by nofun) ?_
  · rw [(apply_ok (length_eq hp n _ _ _)).2.2.1, Real.sqrt_one, one_mul, hval n ω g.1 g.2]
  · rw [(apply_ok (length_eq hp n _ _ _)).2.1, one_mul, hval n ω g.1 g.2]

end distances

/-! ## The points of `set_compare_set` -/

section points
variable {c : Compare ℝ} {p q : (Fin d → ℝ) → ℝ} {X : ℕ → ℕ → Ω → Fin d → ℝ}

/-- An array of points. -/
theorem C144_array (hd : c.set1.dim = d) (st : Stats ℝ) (size parts : Nat) (factor : ℝ) :
    ∃ C : ℕ → Ω → Compare ℝ, (∀ n ω, c.setCompareSet st size factor
      (.array d (drawnRows parts n fun r k => X r k ω)) = .ok (C n ω)) ∧ ChosenPoints c parts X C := by
  have h : ∀ n ω, c.setCompareSet st size factor (.array d (drawnRows parts n fun r k => X r k ω)) =
      .ok { c with vals := some (drawnRows parts n fun r k => X r k ω) } := by
    intro n ω
    simp [Compare.setCompareSet, hd, raiseIf_false, ok_bind]
  exact ⟨_, h, fun n ω => ⟨⟨st, size, factor, _, h n ω⟩, rfl⟩⟩

/-- A sample set. -/
theorem C144_set (hd : c.set1.dim = d) (st : Stats ℝ) (size : Nat) {parts : Nat} (factor : ℝ)
    {s : ℕ → Ω → SampleSet ℝ} (hk : ∀ n ω, (s n ω).kind = .voronoi) (hs : ∀ n ω, (s n ω).dim = d)
    (hv : ∀ n ω, (s n ω).localToGlobal.glob.values = some (drawnRows parts n fun r k => X r k ω)) :
    ∃ C : ℕ → Ω → Compare ℝ, (∀ n ω, c.setCompareSet st size factor (.set (s n ω)) = .ok (C n ω)) ∧
      ChosenPoints c parts X C := by
  have h : ∀ n ω, c.setCompareSet st size factor (.set (s n ω)) =
      .ok { c with vals := some (drawnRows parts n fun r k => X r k ω) } := by
    intro n ω
    simp [Compare.setCompareSet, hd, hs, hk, hv, raiseIf_false, ok_bind]
  exact ⟨_, h, fun n ω => ⟨⟨st, size, factor, _, h n ω⟩, rfl⟩⟩

theorem column_total {rows : List (List ℝ)} {i : Nat} (h : ∀ row ∈ rows, i < row.length) :
    ∃ col, rows.mapM (fun r => getIdx r i) = .ok col ∧ IsColumn rows i col := by
  induction rows with
  | nil => exact ⟨[], rfl, rfl⟩
  | cons a rows ih =>
    obtain ⟨col, h1, h2⟩ := ih fun row hr => h row (by simp [hr])
    have ha := h a (by simp)
    have hg : getIdx a i = .ok a[i] := (getIdx_eq_ok _ _ _).2 (List.getElem?_eq_getElem ha)
    refine ⟨a[i] :: col, ?_, ?_⟩
    · rw [List.mapM_cons, hg, h1]
      rfl
    · unfold IsColumn at h2 ⊢
      rw [List.map_cons, List.map_cons, h2, List.getElem?_eq_getElem ha]

theorem min_of_least {col : List ℝ} {lo : ℝ} (h : lo ∈ col ∧ ∀ z ∈ col, lo ≤ z) : col.min? = some lo :=
  List.min?_eq_some_iff.2 h

theorem max_of_greatest {col : List ℝ} {hi : ℝ} (h : hi ∈ col ∧ ∀ z ∈ col, z ≤ hi) : col.max? = some hi :=
  List.max?_eq_some_iff.2 h

theorem rvLast_ok {factor lo hi : ℝ} {rows : List (List ℝ)} {col : List ℝ} (hd : 0 < d)
    (hrows : ∀ row ∈ rows, row.length = d) (hcol : IsColumn rows (d - 1) col) (hext : Extremes col lo hi) :
    Compare.rvLast factor rows d =
      .ok ⟨"uniform", [("loc", lo - factor * (hi - lo)), ("scale", hi - (lo - factor * (hi - lo)))]⟩ := by
  have hne : rows ≠ [] := by
    rintro rfl
    have : col = [] := by simpa [IsColumn] using hcol.symm
    rw [this] at hext
    exact absurd hext.1.1 (by simp)
  have hall : ∀ i < d, ∃ r, Compare.rvLoc factor rows i = .ok r := by
    intro i hi
    obtain ⟨cl, h1, h2⟩ := column_total (rows := rows) (i := i) fun row hr => by rw [hrows row hr]; exact hi
    have hcl : cl ≠ [] := by
      rintro rfl
      exact hne (by simpa [IsColumn] using h2)
    obtain ⟨x, hx⟩ := Option.isSome_iff_exists.1 (List.isSome_min?_of_ne_nil hcl)
    obtain ⟨y, hy⟩ := Option.isSome_iff_exists.1 (List.isSome_max?_of_ne_nil hcl)
    simp only [Compare.rvLoc, colMin, colMax, h1, ok_bind, hx, hy, orErr_some]
    exact ⟨_, rfl⟩
  obtain ⟨rs, hrs⟩ := mapM_total (f := Compare.rvLoc factor rows) (l := List.range d)
    fun i hi => hall i (List.mem_range.1 hi)
  have hf := (mapM_eq_ok _ _ _).1 hrs
  have hlen : d = rs.length := by simpa using hf.length_eq
  have hlast : Compare.rvLoc factor rows (d - 1) =
      .ok ⟨"uniform", [("loc", lo - factor * (hi - lo)), ("scale", hi - (lo - factor * (hi - lo)))]⟩ := by
    obtain ⟨cl, h1, h2⟩ := column_total (rows := rows) (i := d - 1) fun row hr => by rw [hrows row hr]; omega
    obtain rfl := isColumn_unique hcol h2
    simp only [Compare.rvLoc, colMin, colMax, h1, ok_bind, min_of_least hext.1, max_of_greatest hext.2, orErr_some]
    rw [show hi - lo + factor * (hi - lo) = hi - (lo - factor * (hi - lo)) from by ring]
    rfl
  have hget := hf.get (i := d - 1) (by simp; omega) (by omega)
  simp only [List.get_eq_getElem, List.getElem_range] at hget
  rw [hlast] at hget
  simp only [Compare.rvLast, hrs, ok_bind]
  rw [List.getLast?_eq_getElem?, List.getElem?_eq_getElem (by omega)]
  simp only [orErr_some]
  rw [hget]
  congr 1
  congr 1
  omega

/-- A number of points: they are uniform in the cube of C60. -/
theorem C144_number {st : Ω → Stats ℝ} {size : Nat} (hsize : 0 < size) (hd : 0 < d) (hc : c.set1.dim = d)
    {v1 v2 : List (List ℝ)} (h1 : c.set1.glob.values = some v1) (h2 : c.set2.glob.values = some v2)
    (hrows : ∀ row ∈ v1 ++ v2, row.length = d) {factor lo hi : ℝ} {col : List ℝ}
    (hcol : IsColumn (v1 ++ v2) (d - 1) col) (hext : Extremes col lo hi)
    (hav : ∀ ω, Available (st ω) (List.replicate d
      ⟨"uniform", [("loc", lo - factor * (hi - lo)), ("scale", hi - (lo - factor * (hi - lo)))]⟩))
    {S : ℕ → Fin d → ℕ → Ω → ℝ} (hst : Returns st (List.replicate d
      ⟨"uniform", [("loc", lo - factor * (hi - lo)), ("scale", hi - (lo - factor * (hi - lo)))]⟩) S) :
    ∃ C : ℕ → Ω → Compare ℝ, (∀ n ω, c.setCompareSet (st ω) size factor (.int n) = .ok (C n ω)) ∧
      ChosenPoints c size (fun r k ω i => S r i k ω) C := by
  have key : ∀ n ω, ∃ c', c.setCompareSet (st ω) size factor (.int n) = .ok c' ∧
      c'.vals = some (drawnRows size n fun r k i => S r i k ω) := by
    intro n ω
    obtain ⟨t, ht, -⟩ := C76_defined_partial hsize (Space.dim d) trivial (Distributions.same none
      ⟨"uniform", [("loc", lo - factor * (hi - lo)), ("scale", hi - (lo - factor * (hi - lo)))]⟩) (hav ω) n true
    have hv := (randomSampleSet_values hsize (Space.dim d) (Distributions.same none _)
      (X := fun r k i => S r i k ω) (fun r i sp n h => hst ω r i sp n h) ht).1
    refine ⟨{ c with vals := t.glob.values }, ?_, hv⟩
    simp only [Compare.setCompareSet, h1, h2, orErr_some, ok_bind, hc, rvLast_ok hd hrows hcol hext, ht]
    rfl
  choose C hC using key
  exact ⟨C, fun n ω => (hC n ω).1, fun n ω => ⟨⟨st ω, size, factor, _, (hC n ω).1⟩, (hC n ω).2⟩⟩

variable [IsProbabilityMeasure P]

/-- **C144.** The defaults: `set_compare_set(n)` and `distance('tv')`. The result tends to the total variation of the
densities on the cube divided by the volume of the cube; normalised, to the total variation of the two densities
conditioned on the cube. -/
theorem C144_uniform {st : Ω → Stats ℝ} {size : Nat} (hsize : 0 < size) (hd : 0 < d) (hc : NewCompare c p q)
    {v1 v2 : List (List ℝ)} (h1 : c.set1.glob.values = some v1) (h2 : c.set2.glob.values = some v2)
    (hrows : ∀ row ∈ v1 ++ v2, row.length = d) {factor lo hi : ℝ} {col : List ℝ}
    (hcol : IsColumn (v1 ++ v2) (d - 1) col) (hext : Extremes col lo hi) (hlt : lo < hi) (hfac : 0 ≤ factor)
    (hav : ∀ ω, Available (st ω) (List.replicate d
      ⟨"uniform", [("loc", lo - factor * (hi - lo)), ("scale", hi - (lo - factor * (hi - lo)))]⟩))
    {S : ℕ → Fin d → ℕ → Ω → ℝ} (hst : Returns st (List.replicate d
      ⟨"uniform", [("loc", lo - factor * (hi - lo)), ("scale", hi - (lo - factor * (hi - lo)))]⟩) S)
    (hS : RandomNumbers P (fun _ : Fin d => uniformLaw (lo - factor * (hi - lo), hi)) S)
    {B : Set (Fin d → ℝ)} (hB : B = Set.univ.pi fun _ => Set.Ico (lo - factor * (hi - lo)) hi)
    (hp : IntegrableOn p B) (hq : IntegrableOn q B) :
    ∃ C : ℕ → Ω → Compare ℝ, (∀ n ω, c.setCompareSet (st ω) size factor (.int n) = .ok (C n ω)) ∧
      DistanceTends P C .tv false ((∫ x in B, |p x - q x|) / 2 / volume.real B) ∧
      (0 < ∫ x in B, p x → 0 < ∫ x in B, q x →
        DistanceTends P C .tv true ((∫ x in B, |p x / (∫ y in B, p y) - q x / (∫ y in B, q y)|) / 2)) := by
  obtain ⟨C, hC1, hC2⟩ := C144_number hsize hd hc.dim h1 h2 hrows hcol hext hav hst
  refine ⟨C, hC1, ?_⟩
  have hD : ProperBox d (List.replicate d (lo - factor * (hi - lo), hi)) := by
    refine ⟨List.length_replicate, fun ab h => ?_⟩
    rw [List.eq_of_mem_replicate h]
    have := mul_nonneg hfac (sub_nonneg.2 hlt.le)
    dsimp only
    linarith
  have hbox : domainBox d (List.replicate d (lo - factor * (hi - lo), hi)) = B := by
    rw [domainBox_eq hD.1, hB]
    congr 1
    funext i
    simp [List.getD_eq_getElem?_getD, List.getElem?_replicate]
  have hlaw : Measure.pi (fun _ : Fin d => uniformLaw (lo - factor * (hi - lo), hi)) =
      (volume B)⁻¹ • volume.restrict B := by
    rw [← hbox, ← pi_uniformLaw hD]
    congr 1
    funext i
    simp [List.getD_eq_getElem?_getD, List.getElem?_replicate]
  have hX := RandomNumbers.points hS
  rw [hlaw] at hX
  have hvol : volume B ≠ 0 ∧ volume B ≠ ⊤ := by
    rw [hB, volume_pi_pi]
    refine ⟨?_, ENNReal.prod_ne_top fun i _ => by simp⟩
    rw [Finset.prod_ne_zero_iff]
    intro i _
    have := mul_nonneg hfac (sub_nonneg.2 hlt.le)
    simp only [Real.volume_Ico, ne_eq, ENNReal.ofReal_eq_zero, not_le]
    linarith
  have hV : 0 < volume.real B := ENNReal.toReal_pos hvol.1 hvol.2
  have hi1 : Integrable p ((volume B)⁻¹ • volume.restrict B) := hp.smul_measure (ENNReal.inv_ne_top.2 hvol.1)
  have hi2 : Integrable q ((volume B)⁻¹ • volume.restrict B) := hq.smul_measure (ENNReal.inv_ne_top.2 hvol.1)
  have hint : ∀ f : (Fin d → ℝ) → ℝ, (∫ x, f x ∂((volume B)⁻¹ • volume.restrict B)) =
      (∫ x in B, f x) / volume.real B := by
    intro f
    rw [integral_smul_measure, ENNReal.toReal_inv, smul_eq_mul, inv_mul_eq_div]
    rfl
  refine ⟨?_, fun hpp hqq => ?_⟩
  · have := C144_tv hsize hX hc hC2 hi1 hi2
    rw [hint, div_right_comm] at this
    exact this
  · have := C144_tv_normalized hsize hX hc hC2 hi1 hi2 (by rw [hint]; positivity) (by rw [hint]; positivity)
    rw [hint, hint, hint] at this
    have e : (∫ x in B, |p x / ((∫ y in B, p y) / volume.real B) - q x / ((∫ y in B, q y) / volume.real B)|) /
        volume.real B = ∫ x in B, |p x / (∫ y in B, p y) - q x / (∫ y in B, q y)| := by
      rw [← integral_div]
      congr 1
      funext x
      rw [← abs_of_pos hV, ← abs_div, abs_of_pos hV]
      congr 1
      field_simp
    rw [e] at this
    exact this

end points

/-! ## Examples -/

namespace Ex

/-- Two sets on the line with the densities `1` and `1 + x²` (not normalised). -/
noncomputable def cmpCurve : Compare ℝ where
  set1 := { dim := 1, glob := { values := some [[0], [1]] } }
  set2 := { dim := 1, glob := { values := some [[1 / 2]] } }
  dens1 := ⟨fun rows => .ok (rows.map fun _ => 1), fun x _ => .ok (x.map fun _ => 1)⟩
  dens2 := ⟨fun rows => .ok (rows.map fun x => 1 + x.getD 0 0 ^ 2), fun x _ => .ok (x.map fun y => 1 + y ^ 2)⟩

theorem cmpCurve_new : NewCompare (d := 1) cmpCurve (fun _ => 1) (fun x => 1 + x 0 ^ 2) where
  dim := rfl
  left := fun _ _ => rfl
  right := fun _ _ => rfl
  none1 := rfl
  none2 := rfl

theorem curve_bound : ∀ᵐ x : Fin 1 → ℝ ∂volume.restrict (Set.univ.pi fun _ : Fin 1 => Set.Ico (0 : ℝ) 1),
    ‖1 + x 0 ^ 2‖ ≤ 2 := by
  refine (ae_restrict_iff' (MeasurableSet.univ_pi fun _ => measurableSet_Ico)).2 (Eventually.of_forall ?_)
  intro x hx
  have := hx 0 (Set.mem_univ _)
  simp only [Set.mem_Ico] at this
  rw [Real.norm_eq_abs, abs_of_nonneg (by positivity)]
  nlinarith [this.1, this.2]

theorem curve_measurable : Measurable fun x : Fin 1 → ℝ => 1 + x 0 ^ 2 :=
  ((measurable_pi_apply 0).pow_const 2).const_add 1

/-- With the defaults, the distance of the densities `1` and `1 + x²` tends to half the integral of `x²`. -/
example : ∃ (Ω : Type) (_ : MeasurableSpace Ω) (P : Measure Ω) (st : Ω → Stats ℝ) (C : ℕ → Ω → Compare ℝ),
    IsProbabilityMeasure P ∧ (∀ n ω, cmpCurve.setCompareSet (st ω) 3 0 (.int n) = .ok (C n ω)) ∧
      DistanceTends P C .tv false
        ((∫ x in Set.univ.pi fun _ : Fin 1 => Set.Ico (0 : ℝ) 1, |1 - (1 + x 0 ^ 2)|) / 2) := by
  have hpr : IsProbabilityMeasure (uniformLaw ((0 : ℝ) - 0 * (1 - 0), 1)) := by
    constructor
    simp [uniformLaw]
  obtain ⟨Ω, i, P, Z, hP, hZ, -⟩ := randomNumbers fun (_ : ℕ) (_ : Fin 1) => uniformLaw ((0 : ℝ) - 0 * (1 - 0), 1)
  have hB : volume (Set.univ.pi fun _ : Fin 1 => Set.Ico ((0 : ℝ) - 0 * (1 - 0)) 1) ≠ ⊤ := by
    rw [volume_pi_pi]
    simp
  obtain ⟨C, h1, h2, -⟩ := C144_uniform (st := giveStats fun r => Z r 0) (size := 3) (by norm_num) Nat.one_pos
    cmpCurve_new (v1 := [[0], [1]]) (v2 := [[1 / 2]]) rfl rfl (by simp) (factor := 0) (lo := 0) (hi := 1)
    (col := [0, 1, 1 / 2]) rfl ⟨⟨by simp, by simp⟩, by simp, by norm_num⟩ one_pos le_rfl (giveStats_available _ _)
    (giveStats_returns _ _) (hZ 0) rfl (integrableOn_const hB)
    (Measure.integrableOn_of_bounded (M := 2) hB curve_measurable.aestronglyMeasurable (by
      simpa only [zero_mul, sub_zero] using curve_bound))
  refine ⟨Ω, i, P, _, C, hP, h1, ?_⟩
  have hv : volume.real (Set.univ.pi fun _ : Fin 1 => Set.Ico (0 : ℝ) 1) = 1 := by
    rw [Measure.real, volume_pi_pi]
    simp
  simpa [hv] using h2

/-- For an array of points all the distances converge; normalised, the densities `1` and `1 + x²` seem to get ever
closer in the Hellinger and the Euclidean distance. -/
example : ∃ (Ω : Type) (_ : MeasurableSpace Ω) (P : Measure Ω) (μ : Measure (Fin 1 → ℝ))
    (X : ℕ → ℕ → Ω → Fin 1 → ℝ) (st : Stats ℝ) (C : ℕ → Ω → Compare ℝ), IsProbabilityMeasure P ∧
      (∀ n ω, cmpCurve.setCompareSet st 1 0 (.array 1 (drawnRows 2 n fun r k => X r k ω)) = .ok (C n ω)) ∧
      DistanceTends P C .tv true
        ((∫ x, |1 / (∫ _, 1 ∂μ) - (1 + x 0 ^ 2) / (∫ y, 1 + y 0 ^ 2 ∂μ)| ∂μ) / 2) ∧
      DistanceTends P C .hell false (Real.sqrt ((∫ x, (Real.sqrt 1 - Real.sqrt (1 + x 0 ^ 2)) ^ 2 ∂μ) / 2)) ∧
      DistanceTends P C .hell true 0 ∧ DistanceTends P C .euclid false (Real.sqrt (∫ x, (1 - (1 + x 0 ^ 2)) ^ 2 ∂μ)) ∧
      DistanceTends P C .norm false 0 ∧ DistanceTends P C .euclid true 0 := by
  have hpr : IsProbabilityMeasure (uniformLaw ((0 : ℝ), 1)) := by
    constructor
    simp [uniformLaw]
  obtain ⟨Ω, i, P, Z, hP, hZ, -⟩ := randomNumbers fun (_ : ℕ) (_ : Fin 1) => uniformLaw ((0 : ℝ), 1)
  have hX := RandomNumbers.points (hZ 0)
  have hμ : Measure.pi (fun _ : Fin 1 => uniformLaw ((0 : ℝ), 1)) =
      volume.restrict (Set.univ.pi fun _ : Fin 1 => Set.Ico (0 : ℝ) 1) := by
    rw [volume_pi, Measure.restrict_pi_pi]
    congr 1
    funext _
    simp [uniformLaw]
  have hb := curve_bound
  rw [← hμ] at hb
  have hq : MemLp (fun x : Fin 1 → ℝ => 1 + x 0 ^ 2) 2 (Measure.pi fun _ : Fin 1 => uniformLaw ((0 : ℝ), 1)) :=
    MemLp.of_bound curve_measurable.aestronglyMeasurable 2 hb
  have hp : MemLp (fun _ : Fin 1 → ℝ => (1 : ℝ)) 2 (Measure.pi fun _ : Fin 1 => uniformLaw ((0 : ℝ), 1)) :=
    memLp_const 1
  have hp1 := hp.integrable one_le_two
  have hq1 := hq.integrable one_le_two
  have hpp : 0 < ∫ _ : Fin 1 → ℝ, (1 : ℝ) ∂Measure.pi fun _ : Fin 1 => uniformLaw ((0 : ℝ), 1) := by simp
  have hqq : 0 < ∫ x : Fin 1 → ℝ, (1 + x 0 ^ 2) ∂Measure.pi fun _ : Fin 1 => uniformLaw ((0 : ℝ), 1) :=
    hpp.trans_le (integral_mono hp1 hq1 fun x => by simp; positivity)
  have st : Stats ℝ := ⟨fun _ _ _ _ => .ok [], fun _ => .ok (0, 1)⟩
  obtain ⟨C, h1, hC⟩ := C144_array (c := cmpCurve) (X := fun r k ω i => Z r 0 i k ω) rfl st 1 2 0
  have hn : ∀ x : Fin 1 → ℝ, (0 : ℝ) ≤ 1 + x 0 ^ 2 := fun x => by positivity
  have hh := C144_hellinger two_pos hX cmpCurve_new hC hp1 hq1 (fun _ => zero_le_one) hn
  have hh' := C144_hellinger_normalized two_pos hX cmpCurve_new hC hp1 hq1 (fun _ => zero_le_one) hn hpp hqq
  have he := C144_euclid two_pos hX cmpCurve_new hC (hp.sub hq).integrable_sq
  have he' := C144_negation_euclid two_pos hX cmpCurve_new hC hp hq hpp hqq
  exact ⟨Ω, i, P, _, _, st, C, hP, h1, C144_tv_normalized two_pos hX cmpCurve_new hC hp1 hq1 hpp hqq, hh.2, hh'.2,
    he.1, he.2, he'.1⟩

end Ex

end BET
