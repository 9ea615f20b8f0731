import Verif.Model.Linspace
import Mathlib.MeasureTheory.Integral.IntervalIntegral.Basic
import Mathlib.MeasureTheory.Integral.DominatedConvergence
import Mathlib.MeasureTheory.Constructions.BorelSpace.Order
import Mathlib.MeasureTheory.Function.Floor
import Mathlib.Analysis.SpecialFunctions.Sqrt

/-!
# Sums over the points of `linspace` converge to integrals
-/

set_option autoImplicit false
set_option linter.unusedSectionVars false
set_option linter.unusedSimpArgs false

namespace BET

open MeasureTheory Filter Topology

/-- A function that is bounded on `[a, b]` and continuous at almost every point between `a` and `b`, that is, integrable
in the sense of Riemann. -/
structure Spec.RiemannOn (f : ℝ → ℝ) (a b : ℝ) : Prop where
  bounded : ∃ M, ∀ x ∈ Set.Icc a b, |f x| ≤ M
  continuous : ∀ᵐ x : ℝ, x ∈ Set.Ioo a b → ContinuousAt f x

open Spec

/-- Point `k` of `np.linspace(a, b, n)`. -/
noncomputable def node (a b : ℝ) (n k : ℕ) : ℝ := a + (k : ℝ) * ((b - a) / ((n - 1 : ℕ) : ℝ))

/-- The mean over the points, times the length of the interval. -/
noncomputable def gridMean (a b : ℝ) (n : ℕ) (f : ℝ → ℝ) : ℝ :=
  (b - a) / n * ∑ k ∈ Finset.range n, f (node a b n k)

/-- The point of the cell (one of `n` cells of the same length) of `x`. -/
noncomputable def cellNode (a b : ℝ) (n : ℕ) (x : ℝ) : ℝ := node a b n (⌈(x - a) / ((b - a) / n)⌉₊ - 1)

section
variable {a b : ℝ} {f : ℝ → ℝ}

/-- Point `k` lies in cell `k`. -/
theorem node_cell (hab : a < b) {n k : ℕ} (hk : k < n) (hn : 1 < n) :
    a + k * ((b - a) / n) ≤ node a b n k ∧ node a b n k ≤ a + (k + 1) * ((b - a) / n) := by
  have h0 : (0 : ℝ) < n := by exact_mod_cast (by omega : 0 < n)
  have e : ((n - 1 : ℕ) : ℝ) = n - 1 := by rw [Nat.cast_sub (by omega)]; simp
  have h1 : (0 : ℝ) < (n : ℝ) - 1 := by
    have : (1 : ℝ) < n := by exact_mod_cast hn
    linarith
  have hd := sub_pos.2 hab
  have hk' : (k : ℝ) ≤ n - 1 := by
    have : ((k + 1 : ℕ) : ℝ) ≤ n := by exact_mod_cast hk
    push_cast at this
    linarith
  rw [node, e]
  constructor
  · have : (b - a) / n ≤ (b - a) / (n - 1) := div_le_div_of_nonneg_left hd.le h1 (by linarith)
    have := mul_le_mul_of_nonneg_left this (Nat.cast_nonneg k : (0 : ℝ) ≤ k)
    linarith
  · have : (k : ℝ) * ((b - a) / (n - 1)) ≤ (k + 1) * ((b - a) / n) := by
      rw [mul_div_assoc', mul_div_assoc', div_le_div_iff₀ h1 h0]
      have : (k : ℝ) * n ≤ (k + 1) * (n - 1) := by nlinarith
      nlinarith [mul_le_mul_of_nonneg_right this hd.le]
    linarith

theorem node_mem (hab : a < b) {n k : ℕ} (hk : k < n) (hn : 1 < n) : node a b n k ∈ Set.Icc a b := by
  have h0 : (0 : ℝ) < n := by exact_mod_cast (by omega : 0 < n)
  obtain ⟨h1, h2⟩ := node_cell hab hk hn
  have hd := sub_pos.2 hab
  constructor
  · have : 0 ≤ (k : ℝ) * ((b - a) / n) := by positivity
    linarith
  · have hk' : ((k : ℝ) + 1) ≤ n := by exact_mod_cast hk
    have : ((k : ℝ) + 1) * ((b - a) / n) ≤ n * ((b - a) / n) := mul_le_mul_of_nonneg_right hk' (by positivity)
    rw [mul_div_cancel₀ _ h0.ne'] at this
    linarith

/-- The cell of a point. -/
theorem cell_of (hab : a < b) {n : ℕ} (hn : 0 < n) {x : ℝ} (hx : x ∈ Set.Ioc a b) :
    ∃ k < n, ⌈(x - a) / ((b - a) / n)⌉₊ - 1 = k ∧ a + k * ((b - a) / n) < x ∧ x ≤ a + (k + 1) * ((b - a) / n) := by
  have h0 : (0 : ℝ) < n := by exact_mod_cast hn
  have hd := sub_pos.2 hab
  have hh : 0 < (b - a) / n := by positivity
  have hpos : 0 < (x - a) / ((b - a) / n) := div_pos (sub_pos.2 hx.1) hh
  have hc : 0 < ⌈(x - a) / ((b - a) / n)⌉₊ := Nat.ceil_pos.2 hpos
  have hle : (x - a) / ((b - a) / n) ≤ n := by
    rw [div_le_iff₀ hh, mul_div_cancel₀ _ h0.ne']
    linarith [hx.2]
  have hcn : ⌈(x - a) / ((b - a) / n)⌉₊ ≤ n := Nat.ceil_le.2 hle
  refine ⟨⌈(x - a) / ((b - a) / n)⌉₊ - 1, by omega, rfl, ?_, ?_⟩
  · have h1 := Nat.ceil_lt_add_one hpos.le
    rw [Nat.cast_sub hc, Nat.cast_one]
    have h2 : (⌈(x - a) / ((b - a) / n)⌉₊ : ℝ) - 1 < (x - a) / ((b - a) / n) := by linarith
    have := (lt_div_iff₀ hh).1 h2
    linarith
  · have h1 := Nat.le_ceil ((x - a) / ((b - a) / n))
    rw [Nat.cast_sub hc, Nat.cast_one, sub_add_cancel]
    have := (div_le_iff₀ hh).1 h1
    linarith

theorem cellNode_mem (hab : a < b) {n : ℕ} (hn : 1 < n) {x : ℝ} (hx : x ∈ Set.Ioc a b) :
    cellNode a b n x ∈ Set.Icc a b ∧ |cellNode a b n x - x| ≤ (b - a) / n := by
  obtain ⟨k, hk, he, h1, h2⟩ := cell_of (n := n) hab (by omega) hx
  rw [cellNode, he]
  refine ⟨node_mem hab hk hn, ?_⟩
  obtain ⟨h3, h4⟩ := node_cell hab hk hn
  rw [abs_le]
  constructor <;> linarith

theorem cellNode_tends (hab : a < b) {x : ℝ} (hx : x ∈ Set.Ioc a b) :
    Tendsto (fun n => cellNode a b n x) atTop (𝓝 x) := by
  rw [tendsto_iff_dist_tendsto_zero]
  refine squeeze_zero' (Eventually.of_forall fun _ => dist_nonneg) ?_
    (tendsto_const_div_atTop_nhds_zero_nat (b - a))
  filter_upwards [eventually_gt_atTop 1] with n hn
  rw [Real.dist_eq]
  exact (cellNode_mem hab hn hx).2

theorem measurable_cellNode (a b : ℝ) (n : ℕ) (f : ℝ → ℝ) : Measurable fun x => f (cellNode a b n x) := by
  have h : Measurable fun x : ℝ => ⌈(x - a) / ((b - a) / n)⌉₊ :=
    Nat.measurable_ceil.comp ((measurable_id.sub_const a).div_const _)
  exact (measurable_from_nat (f := fun k : ℕ => f (node a b n (k - 1)))).comp h

theorem integral_cellNode (hab : a < b) {n : ℕ} (hn : 0 < n) (f : ℝ → ℝ) :
    ∫ x in a..b, f (cellNode a b n x) = gridMean a b n f := by
  have h0 : (0 : ℝ) < n := by exact_mod_cast hn
  have hd := sub_pos.2 hab
  have hh : 0 < (b - a) / n := by positivity
  have hcell : ∀ k < n, ∀ x ∈ Set.Ioc (a + (k : ℝ) * ((b - a) / n)) (a + ((k + 1 : ℕ) : ℝ) * ((b - a) / n)),
      f (cellNode a b n x) = f (node a b n k) := by
    intro k hk x hx
    have hxab : x ∈ Set.Ioc a b := by
      constructor
      · have : 0 ≤ (k : ℝ) * ((b - a) / n) := by positivity
        linarith [hx.1]
      · have hk' : (((k + 1 : ℕ) : ℝ)) ≤ n := by exact_mod_cast hk
        have := mul_le_mul_of_nonneg_right hk' hh.le
        rw [mul_div_cancel₀ _ h0.ne'] at this
        linarith [hx.2]
    obtain ⟨j, hj, he, h1, h2⟩ := cell_of hab hn hxab
    have e : j = k := by
      have a1 : (j : ℝ) * ((b - a) / n) < ((k + 1 : ℕ) : ℝ) * ((b - a) / n) := by linarith [hx.2]
      have a2 : (k : ℝ) * ((b - a) / n) < (j + 1) * ((b - a) / n) := by linarith [hx.1]
      have b1 := lt_of_mul_lt_mul_right a1 hh.le
      have b2 := lt_of_mul_lt_mul_right a2 hh.le
      have c1 : j < k + 1 := by exact_mod_cast b1
      have c2 : k < j + 1 := by exact_mod_cast b2
      omega
    rw [cellNode, he, e]
  have hle : ∀ k : ℕ, a + (k : ℝ) * ((b - a) / n) ≤ a + ((k + 1 : ℕ) : ℝ) * ((b - a) / n) := by
    intro k
    push_cast
    nlinarith
  have hsum := intervalIntegral.sum_integral_adjacent_intervals (f := fun x => f (cellNode a b n x)) (μ := volume)
    (a := fun k : ℕ => a + (k : ℝ) * ((b - a) / n)) (n := n) (by
      intro k hk
      refine (intervalIntegrable_const (c := f (node a b n k))).congr ?_
      rw [Set.uIoc_of_le (hle k)]
      intro x hx
      exact (hcell k hk x hx).symm)
  simp only [Nat.cast_zero, zero_mul, add_zero, mul_div_cancel₀ _ h0.ne', add_sub_cancel] at hsum
  rw [← hsum, gridMean, Finset.mul_sum]
  refine Finset.sum_congr rfl fun k hk => ?_
  rw [intervalIntegral.integral_congr_ae (g := fun _ => f (node a b n k)) (Eventually.of_forall fun x hx => by
    rw [Set.uIoc_of_le (hle k)] at hx
    exact hcell k (Finset.mem_range.1 hk) x hx), intervalIntegral.integral_const, smul_eq_mul]
  congr 1
  push_cast
  ring

/-- Riemann sums over the points of `linspace` tend to the integral. -/
theorem gridMean_tends (hab : a < b) (hf : RiemannOn f a b) :
    Tendsto (fun n => gridMean a b n f) atTop (𝓝 (∫ x in a..b, f x)) := by
  obtain ⟨M, hM⟩ := hf.bounded
  have key : Tendsto (fun n => ∫ x in a..b, f (cellNode a b n x)) atTop (𝓝 (∫ x in a..b, f x)) := by
    refine intervalIntegral.tendsto_integral_filter_of_dominated_convergence (fun _ => M) ?_ ?_
      intervalIntegrable_const ?_
    · exact Eventually.of_forall fun n => (measurable_cellNode a b n f).aestronglyMeasurable
    · filter_upwards [eventually_gt_atTop 1] with n hn
      refine Eventually.of_forall fun x hx => ?_
      rw [Set.uIoc_of_le hab.le] at hx
      exact hM _ (cellNode_mem hab hn hx).1
    · filter_upwards [hf.continuous, Measure.ae_ne volume b] with x hx hxb hmem
      rw [Set.uIoc_of_le hab.le] at hmem
      exact (hx ⟨hmem.1, lt_of_le_of_ne hmem.2 hxb⟩).tendsto.comp (cellNode_tends hab hmem)
  refine key.congr' ?_
  filter_upwards [eventually_gt_atTop 0] with n hn
  exact integral_cellNode hab hn f

theorem RiemannOn.integrable (hab : a < b) (hf : RiemannOn f a b) : IntervalIntegrable f volume a b := by
  obtain ⟨M, hM⟩ := hf.bounded
  rw [intervalIntegrable_iff_integrableOn_Ioc_of_le hab.le]
  refine Integrable.of_bound ?_ M ?_
  · refine aestronglyMeasurable_of_tendsto_ae atTop (f := fun (n : ℕ) x => f (cellNode a b n x))
      (fun n => (measurable_cellNode a b n f).aestronglyMeasurable) ?_
    refine (ae_restrict_iff' (measurableSet_Ioc (a := a) (b := b))).2 ?_
    filter_upwards [hf.continuous, Measure.ae_ne volume b] with x hx hxb hmem
    exact (hx ⟨hmem.1, lt_of_le_of_ne hmem.2 hxb⟩).tendsto.comp (cellNode_tends hab hmem)
  · refine (ae_restrict_iff' (measurableSet_Ioc (a := a) (b := b))).2 (Eventually.of_forall fun x hx => ?_)
    exact hM x ⟨hx.1.le, hx.2⟩

theorem RiemannOn.comp₂ {g h : ℝ → ℝ} (hg : RiemannOn g a b) (hh : RiemannOn h a b) {F : ℝ × ℝ → ℝ}
    (hF : Continuous F) : RiemannOn (fun x => F (g x, h x)) a b := by
  obtain ⟨M, hM⟩ := hg.bounded
  obtain ⟨N, hN⟩ := hh.bounded
  refine ⟨?_, ?_⟩
  · obtain ⟨C, hC⟩ := (isCompact_Icc (a := -M) (b := M)).prod (isCompact_Icc (a := -N) (b := N)) |>.exists_bound_of_continuousOn
      hF.continuousOn
    exact ⟨C, fun x hx => hC _ ⟨abs_le.1 (hM x hx), abs_le.1 (hN x hx)⟩⟩
  · filter_upwards [hg.continuous, hh.continuous] with x h1 h2 hx
    exact hF.continuousAt.comp₂ (h1 hx) (h2 hx)

theorem RiemannOn.of_continuous {g : ℝ → ℝ} (hg : Continuous g) : RiemannOn g a b := by
  refine ⟨?_, Eventually.of_forall fun x _ => hg.continuousAt⟩
  obtain ⟨C, hC⟩ := (isCompact_Icc (a := a) (b := b)).exists_bound_of_continuousOn hg.continuousOn
  exact ⟨C, hC⟩

end

/-! ### Means as linear maps -/

section
variable {a b : ℝ}

theorem gridMean_mul (n : ℕ) (t : ℝ) (h : ℝ → ℝ) : gridMean a b n (fun y => t * h y) = t * gridMean a b n h := by
  rw [gridMean, gridMean, ← Finset.mul_sum]
  ring

theorem gridMean_add (n : ℕ) (g h : ℝ → ℝ) :
    gridMean a b n (fun y => g y + h y) = gridMean a b n g + gridMean a b n h := by
  rw [gridMean, gridMean, gridMean, Finset.sum_add_distrib, mul_add]

theorem gridMean_sub (n : ℕ) (g h : ℝ → ℝ) :
    gridMean a b n (fun y => g y - h y) = gridMean a b n g - gridMean a b n h := by
  rw [gridMean, gridMean, gridMean, Finset.sum_sub_distrib, mul_sub]

theorem gridMean_mono (hab : a < b) (n : ℕ) {g h : ℝ → ℝ} (hgh : ∀ y, g y ≤ h y) :
    gridMean a b n g ≤ gridMean a b n h :=
  mul_le_mul_of_nonneg_left (Finset.sum_le_sum fun _ _ => hgh _) (by have := sub_pos.2 hab; positivity)

theorem sum_gridMean (hab : a < b) {n : ℕ} (hn : 0 < n) (h : ℝ → ℝ) :
    ∑ k ∈ Finset.range n, h (node a b n k) = n / (b - a) * gridMean a b n h := by
  have : (n : ℝ) ≠ 0 := by exact_mod_cast hn.ne'
  have := (sub_pos.2 hab).ne'
  rw [gridMean]
  field_simp

/-- Means of `|s p - t q|` with converging factors. -/
theorem abs_gridMean_tends (hab : a < b) {p q : ℝ → ℝ} {s t : ℕ → ℝ} {s' t' L p' q' : ℝ} (ha : Tendsto s atTop (𝓝 s'))
    (hb : Tendsto t atTop (𝓝 t')) (hL : Tendsto (fun n => gridMean a b n fun y => |s' * p y - t' * q y|) atTop (𝓝 L))
    (hp : Tendsto (fun n => gridMean a b n fun y => |p y|) atTop (𝓝 p'))
    (hq : Tendsto (fun n => gridMean a b n fun y => |q y|) atTop (𝓝 q')) :
    Tendsto (fun n => gridMean a b n fun y => |s n * p y - t n * q y|) atTop (𝓝 L) := by
  have hz : Tendsto (fun n => |s n - s'| * gridMean a b n (fun y => |p y|) +
      |t n - t'| * gridMean a b n (fun y => |q y|)) atTop (𝓝 0) := by
    have h1 : Tendsto (fun n => |s n - s'|) atTop (𝓝 0) := by
      simpa using (ha.sub_const s').abs
    have h2 : Tendsto (fun n => |t n - t'|) atTop (𝓝 0) := by
      simpa using (hb.sub_const t').abs
    simpa using (h1.mul hp).add (h2.mul hq)
  refine tendsto_of_tendsto_of_dist hL ?_
  refine squeeze_zero (fun _ => dist_nonneg) (fun n => ?_) hz
  rw [dist_comm, Real.dist_eq, ← gridMean_sub, ← gridMean_mul, ← gridMean_mul, ← gridMean_add, abs_le]
  have key : ∀ y, |(|s n * p y - t n * q y| - |s' * p y - t' * q y|)| ≤ |s n - s'| * |p y| + |t n - t'| * |q y| := by
    intro y
    refine (abs_abs_sub_abs_le_abs_sub _ _).trans ?_
    rw [← abs_mul, ← abs_mul]
    refine le_trans (le_of_eq ?_) (abs_sub _ _)
    congr 1
    ring
  refine ⟨?_, gridMean_mono hab n fun y => (abs_le.1 (key y)).2⟩
  have := gridMean_mono hab n (fun y => (abs_le.1 (key y)).1)
  refine le_trans (le_of_eq ?_) this
  have e := gridMean_mul (a := a) (b := b) n (-1) (fun y => |s n - s'| * |p y| + |t n - t'| * |q y|)
  simp only [neg_one_mul] at e
  exact e.symm

end

end BET
