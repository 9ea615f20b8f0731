import Verif.Props.GridMarginals
import Verif.Props.LatinMean
import Mathlib.Analysis.SpecialFunctions.Integrals.Basic

/-!
# C169: Means over regular grids
-/

set_option autoImplicit false
set_option linter.unusedSectionVars false
set_option linter.unusedSimpArgs false

namespace BET

open Spec MeasureTheory

namespace Spec

/-- `f` is continuous on the interval and differs from a straight line through any of its points by at most `M / 2`
times the square of the distance from the point (so it is if the second derivative of `f` is at most `M`). -/
def Curved (f : ℝ → ℝ) (M a b : ℝ) : Prop :=
  ContinuousOn f (Set.Icc a b) ∧ ∀ c ∈ Set.Icc a b, ∃ g : ℝ, ∀ x ∈ Set.Icc a b,
    |f x - f c - g * (x - c)| ≤ M / 2 * (x - c) ^ 2

/-- The mean over the samples of the product over the inputs of `f i` of input `i`. -/
noncomputable def meanOfProducts (dim : Nat) (f : Nat → ℝ → ℝ) (v : List (List ℝ)) : ℝ :=
  (v.map fun row => ∏ i ∈ Finset.range dim, f i (row.getD i 0)).sum / (v.length : ℝ)

end Spec

/-! ### One direction -/

theorem midpoint_cell {f : ℝ → ℝ} {M a b p h : ℝ} (hf : Curved f M a b) (h0 : 0 < h) (hp : a ≤ p) (hb : p + h ≤ b) :
    |h * f (p + h / 2) - ∫ x in p..p + h, f x| ≤ M * h ^ 3 / 24 := by
  obtain ⟨hc, hq⟩ := hf
  obtain ⟨g, hg⟩ := hq (p + h / 2) ⟨by linarith, by linarith⟩
  set c := p + h / 2 with hcdef
  have hle : p ≤ p + h := by linarith
  have i1 : IntervalIntegrable f volume p (p + h) := by
    refine ContinuousOn.intervalIntegrable ?_
    rw [Set.uIcc_of_le hle]
    exact hc.mono (Set.Icc_subset_Icc hp hb)
  have i2 : IntervalIntegrable (fun x => f c + g * (x - c)) volume p (p + h) :=
    Continuous.intervalIntegrable (by fun_prop) _ _
  have i3 : IntervalIntegrable (fun x => M / 2 * (x - c) ^ 2) volume p (p + h) :=
    Continuous.intervalIntegrable (by fun_prop) _ _
  have e1 : ∫ x in p..p + h, (x - c) = 0 := by
    rw [intervalIntegral.integral_comp_sub_right (fun x => x) c, integral_id]
    rw [hcdef]
    ring
  have e2 : ∫ x in p..p + h, (f c + g * (x - c)) = h * f c := by
    rw [intervalIntegral.integral_add intervalIntegrable_const (Continuous.intervalIntegrable (by fun_prop) _ _),
      intervalIntegral.integral_const, intervalIntegral.integral_const_mul, e1]
    simp
  have e3 : ∫ x in p..p + h, M / 2 * (x - c) ^ 2 = M * h ^ 3 / 24 := by
    rw [intervalIntegral.integral_const_mul, intervalIntegral.integral_comp_sub_right (fun x => x ^ 2) c,
      integral_pow]
    rw [hcdef]
    push_cast
    ring
  rw [← e2, ← e3, abs_sub_comm, ← intervalIntegral.integral_sub i1 i2]
  rw [← Real.norm_eq_abs]
  refine intervalIntegral.norm_integral_le_of_norm_le (μ := volume) hle ?_ i3
  refine Filter.Eventually.of_forall fun x hx => ?_
  have := hg x ⟨hp.trans hx.1.le, hx.2.trans hb⟩
  rw [Real.norm_eq_abs, show f x - (f c + g * (x - c)) = f x - f c - g * (x - c) by ring]
  exact this

theorem centre_eq (a b : ℝ) {n : Nat} (k : Nat) :
    cellCentre (a, b) n k = a + (k : ℝ) * ((b - a) / n) + (b - a) / n / 2 := by
  simp only [cellCentre, cellEdge]
  push_cast
  ring

theorem sum_centres (f : ℝ → ℝ) (a b : ℝ) (n : Nat) :
    ((centres (a, b) n).map f).sum = ∑ k : Fin n, f (cellCentre (a, b) n k) := by
  rw [centres, List.map_map, ← Finset.sum_range fun k => f (cellCentre (a, b) n k)]
  rfl

/-- The midpoint rule. -/
theorem midpoint_rule {f : ℝ → ℝ} {M a b : ℝ} (hab : a < b) {n : Nat} (hn : 0 < n) (hf : Curved f M a b) :
    |((centres (a, b) n).map f).sum / n - intervalMean f (a, b)| ≤ M * (b - a) ^ 2 / (24 * (n : ℝ) ^ 2) := by
  have hn0 : (0 : ℝ) < n := by exact_mod_cast hn
  have hw : 0 < b - a := sub_pos.mpr hab
  set h := (b - a) / n with hh
  have hpos : 0 < h := div_pos hw hn0
  have hnh : (n : ℝ) * h = b - a := by rw [hh]; field_simp
  set p : ℕ → ℝ := fun j => a + (j : ℝ) * h with hp
  have p0 : p 0 = a := by simp [hp]
  have pn : p n = b := by simp only [hp]; linarith
  have pst : ∀ j, p (j + 1) = p j + h := fun j => by simp only [hp]; push_cast; ring
  have pa : ∀ j, a ≤ p j := fun j => by
    have : 0 ≤ (j : ℝ) * h := by positivity
    simp only [hp]
    linarith
  have pb : ∀ j, j ≤ n → p j ≤ b := fun j hj => by
    rw [← pn]
    simp only [hp]
    have : (j : ℝ) * h ≤ n * h := mul_le_mul_of_nonneg_right (by exact_mod_cast hj) hpos.le
    linarith
  have hint : ∫ t in a..b, f t = ∑ j : Fin n, ∫ t in p j..p (j + 1), f t := by
    have := intervalIntegral.sum_integral_adjacent_intervals (μ := volume) (f := f) (a := p) (n := n)
      (fun j hj => by
        refine ContinuousOn.intervalIntegrable ?_
        rw [Set.uIcc_of_le (by rw [pst]; linarith)]
        exact hf.1.mono (Set.Icc_subset_Icc (pa j) (pb _ hj)))
    rw [p0, pn] at this
    rw [← this, Finset.sum_range]
  have key : |h * ∑ k : Fin n, f (cellCentre (a, b) n k) - ∫ t in a..b, f t| ≤ n * (M * h ^ 3 / 24) := by
    rw [hint, Finset.mul_sum, ← Finset.sum_sub_distrib]
    refine (Finset.abs_sum_le_sum_abs _ _).trans ?_
    refine (Finset.sum_le_card_nsmul Finset.univ _ (M * h ^ 3 / 24) fun j _ => ?_).trans (by simp)
    have := midpoint_cell hf hpos (pa j) (by rw [← pst]; exact pb _ j.2)
    rw [pst, centre_eq, ← hh]
    exact this
  rw [sum_centres, intervalMean]
  have e : (∑ k : Fin n, f (cellCentre (a, b) n k)) / n - (∫ t in a..b, f t) / (b - a) =
      (h * ∑ k : Fin n, f (cellCentre (a, b) n k) - ∫ t in a..b, f t) / (b - a) := by
    rw [hh]
    field_simp
  simp only
  rw [e, abs_div, abs_of_pos hw, div_le_iff₀ hw]
  refine key.trans (le_of_eq ?_)
  rw [hh]
  field_simp

theorem centres_mean {f g : ℝ → ℝ} {a b : ℝ} (hab : a < b) {n : Nat} (hn : 0 < n) (hf : ChangesLike f g a b) :
    |((centres (a, b) n).map f).sum / n - intervalMean f (a, b)| ≤ (g b - g a) / n := by
  rw [sum_centres]
  have hn0 : (0 : ℝ) < n := by exact_mod_cast hn
  have hpos : 0 < (b - a) / n := div_pos (sub_pos.mpr hab) hn0
  refine slices_mean hn hab (κ := id) Function.bijective_id (x := fun k => cellCentre (a, b) n k) (fun j => ?_) hf
  simp only [id, centre_eq]
  have e1 : (b - a) * ((j : Nat) / (n : ℝ)) = (j : Nat) * ((b - a) / n) := by field_simp
  have e2 : (b - a) * (((j : Nat) + 1 : Nat) / (n : ℝ)) = (j : Nat) * ((b - a) / n) + (b - a) / n := by
    push_cast
    field_simp
  rw [e1, e2]
  constructor <;> linarith

/-! ### All directions -/

theorem sum_product_all (xs : List (List ℝ)) (f : Nat → ℝ → ℝ) :
    ((product xs).map fun row => ∏ i ∈ Finset.range xs.length, f i (row.getD i 0)).sum =
      ∏ i ∈ Finset.range xs.length, ((xs.getD i []).map (f i)).sum := by
  induction xs generalizing f with
  | nil => simp [product]
  | cons u us ih =>
    have h := sum_flatMap_map u (product us) fun x row => (∏ i ∈ Finset.range us.length, f (i + 1) (row.getD i 0)) * f 0 x
    have e : (fun row : List ℝ => ∏ i ∈ Finset.range (u :: us).length, f i (row.getD i 0)) = fun row =>
        (∏ i ∈ Finset.range us.length, f (i + 1) (row.tail.getD i 0)) * f 0 (row.getD 0 0) := by
      funext row
      rw [List.length_cons, Finset.prod_range_succ']
      congr 1
      refine Finset.prod_congr rfl fun i _ => ?_
      cases row <;> simp
    rw [e]
    simp only [product]
    rw [h, List.length_cons, Finset.prod_range_succ']
    have e2 : ∀ x : ℝ, ((product us).map fun row =>
        (∏ i ∈ Finset.range us.length, f (i + 1) (row.getD i 0)) * f 0 x).sum =
        f 0 x * ∏ i ∈ Finset.range us.length, ((us.getD i []).map (f (i + 1))).sum := by
      intro x
      rw [List.sum_map_mul_right, ih fun i => f (i + 1), mul_comm]
    simp only [e2]
    rw [sum_map_const_mul]
    simp only [List.getD_cons_succ, List.getD_cons_zero]
    ring

theorem prod_list_range (l : List Nat) : l.prod = ∏ i ∈ Finset.range l.length, l.getD i 0 := by
  induction l with
  | nil => simp
  | cons a l ih =>
    rw [List.prod_cons, List.length_cons, Finset.prod_range_succ', ih, mul_comm]
    simp

theorem prod_sub_prod_le (N : Nat) {a b : Nat → ℝ} (ha : ∀ i < N, |a i| ≤ 1) (hb : ∀ i < N, |b i| ≤ 1) :
    |∏ i ∈ Finset.range N, a i - ∏ i ∈ Finset.range N, b i| ≤ ∑ i ∈ Finset.range N, |a i - b i| := by
  induction N with
  | zero => simp
  | succ N ih =>
    have h := ih (fun i hi => ha i (by omega)) fun i hi => hb i (by omega)
    rw [Finset.prod_range_succ, Finset.prod_range_succ, Finset.sum_range_succ]
    have hB : |∏ i ∈ Finset.range N, b i| ≤ 1 := by
      rw [Finset.abs_prod]
      exact Finset.prod_le_one (fun _ _ => abs_nonneg _) fun i hi => hb i (by
        have := Finset.mem_range.mp hi
        omega)
    have e : (∏ i ∈ Finset.range N, a i) * a N - (∏ i ∈ Finset.range N, b i) * b N =
        (∏ i ∈ Finset.range N, a i - ∏ i ∈ Finset.range N, b i) * a N + (∏ i ∈ Finset.range N, b i) * (a N - b N) := by
      ring
    rw [e]
    refine (abs_add_le _ _).trans (add_le_add ?_ ?_)
    · rw [abs_mul]
      exact (mul_le_of_le_one_right (abs_nonneg _) (ha N (by omega))).trans h
    · rw [abs_mul]
      exact mul_le_of_le_one_left (abs_nonneg _) hB

section
variable {size : Nat} {obj : InputObj ℝ} {nums : GridNums} {s t : SampleSet ℝ}

theorem grid_values (hs : obj.toSet .badObject = .ok s) (hn : (nums.perDim s.dim).length = s.dim)
    (hd : (domainOrUnit s).length = s.dim) (hpos : ∀ n ∈ nums.perDim s.dim, 0 < n)
    (h : regularSampleSet size obj nums = .ok t) :
    ∃ v, t.glob.values = some v ∧ v = product (List.zipWith centres (domainOrUnit s) (nums.perDim s.dim)) ∧
      v.length = (nums.perDim s.dim).prod ∧ v.length ≠ 0 ∧
      ∀ i < s.dim, 0 < (nums.perDim s.dim).getD i 0 ∧
        (List.zipWith centres (domainOrUnit s) (nums.perDim s.dim))[i]? =
          some (centres ((domainOrUnit s).getD i (0, 1)) ((nums.perDim s.dim).getD i 0)) ∧
        (domainOrUnit s).getD i (0, 1) ∈ domainOrUnit s := by
  obtain ⟨-, -, hv⟩ := regular_ok hs hn hd h
  have hl : (product (List.zipWith centres (domainOrUnit s) (nums.perDim s.dim))).length = (nums.perDim s.dim).prod := by
    rw [length_product, map_length_zipWith _ _ (hd.trans hn.symm)]
  refine ⟨_, hv, rfl, hl, ?_, fun i hi => ?_⟩
  · rw [hl]
    exact fun e => (hpos 0 (List.prod_eq_zero_iff.1 e)).false
  · have h1 : i < (nums.perDim s.dim).length := by omega
    have h2 : i < (domainOrUnit s).length := by omega
    rw [List.getElem?_zipWith]
    simp only [List.getD, List.getElem?_eq_getElem h1, List.getElem?_eq_getElem h2, Option.getD_some]
    exact ⟨hpos _ (List.getElem_mem h1), trivial, List.getElem_mem h2⟩

/-- The mean of a sum of functions of the single inputs is the sum of the means over the centres. -/
theorem grid_sums (hs : obj.toSet .badObject = .ok s) (hn : (nums.perDim s.dim).length = s.dim)
    (hd : (domainOrUnit s).length = s.dim) (hpos : ∀ n ∈ nums.perDim s.dim, 0 < n)
    (h : regularSampleSet size obj nums = .ok t) {v : List (List ℝ)} (hv : t.glob.values = some v) (f : Nat → ℝ → ℝ) :
    meanOfSums s.dim f v = ∑ i ∈ Finset.range s.dim,
      ((centres ((domainOrUnit s).getD i (0, 1)) ((nums.perDim s.dim).getD i 0)).map (f i)).sum /
        ((nums.perDim s.dim).getD i 0 : ℝ) := by
  obtain ⟨v', h1, h2, -, h4, h5⟩ := grid_values hs hn hd hpos h
  obtain rfl : v' = v := Option.some.inj (h1.symm.trans hv)
  have h4' : (v'.length : ℝ) ≠ 0 := by exact_mod_cast h4
  have e1 : meanOfSums s.dim f v' =
      ∑ i ∈ Finset.range s.dim, (v'.map fun row => f i (row.getD i 0)).sum / (v'.length : ℝ) := by
    rw [meanOfSums, ← Finset.sum_div]
    congr 1
    simp only [sum_map_fin]
    exact Finset.sum_comm
  rw [e1]
  refine Finset.sum_congr rfl fun i hi => ?_
  obtain ⟨q1, q2, -⟩ := h5 i (Finset.mem_range.mp hi)
  have := sum_product_one q2 (f i)
  rw [← h2, length_centres] at this
  have q1' : ((nums.perDim s.dim).getD i 0 : ℝ) ≠ 0 := by exact_mod_cast q1.ne'
  rw [div_eq_div_iff h4' q1']
  exact this

/-- The mean of a product of functions of the single inputs is the product of the means over the centres. -/
theorem grid_products (hs : obj.toSet .badObject = .ok s) (hn : (nums.perDim s.dim).length = s.dim)
    (hd : (domainOrUnit s).length = s.dim) (hpos : ∀ n ∈ nums.perDim s.dim, 0 < n)
    (h : regularSampleSet size obj nums = .ok t) {v : List (List ℝ)} (hv : t.glob.values = some v) (f : Nat → ℝ → ℝ) :
    meanOfProducts s.dim f v = ∏ i ∈ Finset.range s.dim,
      ((centres ((domainOrUnit s).getD i (0, 1)) ((nums.perDim s.dim).getD i 0)).map (f i)).sum /
        ((nums.perDim s.dim).getD i 0 : ℝ) := by
  obtain ⟨v', h1, h2, h3, h4, h5⟩ := grid_values hs hn hd hpos h
  obtain rfl : v' = v := Option.some.inj (h1.symm.trans hv)
  have hl : (List.zipWith centres (domainOrUnit s) (nums.perDim s.dim)).length = s.dim := by simp [hn, hd]
  rw [meanOfProducts, Finset.prod_div_distrib]
  have h6 := sum_product_all (List.zipWith centres (domainOrUnit s) (nums.perDim s.dim)) f
  rw [hl, ← h2] at h6
  rw [h6, h3]
  congr 1
  · refine Finset.prod_congr rfl fun i hi => ?_
    rw [List.getD_eq_getElem?_getD, (h5 i (Finset.mem_range.mp hi)).2.1]
    rfl
  · have : (nums.perDim s.dim).prod = ∏ i ∈ Finset.range s.dim, (nums.perDim s.dim).getD i 0 := by
      have := prod_list_range (nums.perDim s.dim)
      rwa [hn] at this
    rw [this]
    push_cast
    rfl

/-- **C169.** The mean over the samples of `regular_sample_set` of a sum of functions of the single inputs differs from
its mean over the box by at most the sum of the changes of the functions over their intervals, each divided by the number
of points in that direction. -/
theorem C169_sums (hs : obj.toSet .badObject = .ok s) (hn : (nums.perDim s.dim).length = s.dim)
    (hd : (domainOrUnit s).length = s.dim) (hpos : ∀ n ∈ nums.perDim s.dim, 0 < n)
    (hD : ∀ ab ∈ domainOrUnit s, ab.1 < ab.2)
    (h : regularSampleSet size obj nums = .ok t) {v : List (List ℝ)} (hv : t.glob.values = some v)
    {f g : Nat → ℝ → ℝ} {box : Nat → ℝ × ℝ} (hbox : box = fun i => (domainOrUnit s).getD i (0, 1))
    (hfg : ∀ i < s.dim, ChangesLike (f i) (g i) (box i).1 (box i).2) :
    |meanOfSums s.dim f v - ∑ i ∈ Finset.range s.dim, intervalMean (f i) (box i)| ≤
      ∑ i ∈ Finset.range s.dim, (g i (box i).2 - g i (box i).1) / ((nums.perDim s.dim).getD i 0 : ℝ) := by
  obtain ⟨-, -, -, -, -, h5⟩ := grid_values hs hn hd hpos h
  rw [grid_sums hs hn hd hpos h hv, ← Finset.sum_sub_distrib]
  refine (Finset.abs_sum_le_sum_abs _ _).trans (Finset.sum_le_sum fun i hi => ?_)
  have hi := Finset.mem_range.mp hi
  obtain ⟨q1, -, q3⟩ := h5 i hi
  have hb : box i = (domainOrUnit s).getD i (0, 1) := by rw [hbox]
  rw [← hb] at q3 ⊢
  exact centres_mean (hD _ q3) q1 (hfg i hi)

/-- **C169.** For functions of bounded curvature the error falls with the square of the numbers of points; in particular
sums of linear functions of the inputs have their exact mean. -/
theorem C169_smooth (hs : obj.toSet .badObject = .ok s) (hn : (nums.perDim s.dim).length = s.dim)
    (hd : (domainOrUnit s).length = s.dim) (hpos : ∀ n ∈ nums.perDim s.dim, 0 < n)
    (hD : ∀ ab ∈ domainOrUnit s, ab.1 < ab.2)
    (h : regularSampleSet size obj nums = .ok t) {v : List (List ℝ)} (hv : t.glob.values = some v)
    {f : Nat → ℝ → ℝ} {M : Nat → ℝ} {box : Nat → ℝ × ℝ} (hbox : box = fun i => (domainOrUnit s).getD i (0, 1))
    (hf : ∀ i < s.dim, Curved (f i) (M i) (box i).1 (box i).2) :
    |meanOfSums s.dim f v - ∑ i ∈ Finset.range s.dim, intervalMean (f i) (box i)| ≤
      ∑ i ∈ Finset.range s.dim, M i * ((box i).2 - (box i).1) ^ 2 / (24 * ((nums.perDim s.dim).getD i 0 : ℝ) ^ 2) := by
  obtain ⟨-, -, -, -, -, h5⟩ := grid_values hs hn hd hpos h
  rw [grid_sums hs hn hd hpos h hv, ← Finset.sum_sub_distrib]
  refine (Finset.abs_sum_le_sum_abs _ _).trans (Finset.sum_le_sum fun i hi => ?_)
  have hi := Finset.mem_range.mp hi
  obtain ⟨q1, -, q3⟩ := h5 i hi
  have hb : box i = (domainOrUnit s).getD i (0, 1) := by rw [hbox]
  rw [← hb] at q3 ⊢
  exact midpoint_rule (hD _ q3) q1 (hf i hi)

/-- **C169.** The mean of a product of functions of the single inputs (which a Latin hypercube need not represent) differs
from the product of their means over the intervals by at most the sum of the changes of the functions, each divided by the
number of points in that direction, if no function exceeds one. -/
theorem C169_products (hs : obj.toSet .badObject = .ok s) (hn : (nums.perDim s.dim).length = s.dim)
    (hd : (domainOrUnit s).length = s.dim) (hpos : ∀ n ∈ nums.perDim s.dim, 0 < n)
    (hD : ∀ ab ∈ domainOrUnit s, ab.1 < ab.2)
    (h : regularSampleSet size obj nums = .ok t) {v : List (List ℝ)} (hv : t.glob.values = some v)
    {f g : Nat → ℝ → ℝ} {box : Nat → ℝ × ℝ} (hbox : box = fun i => (domainOrUnit s).getD i (0, 1))
    (hfg : ∀ i < s.dim, ChangesLike (f i) (g i) (box i).1 (box i).2) (h1 : ∀ i < s.dim, ∀ x, |f i x| ≤ 1) :
    |meanOfProducts s.dim f v - ∏ i ∈ Finset.range s.dim, intervalMean (f i) (box i)| ≤
      ∑ i ∈ Finset.range s.dim, (g i (box i).2 - g i (box i).1) / ((nums.perDim s.dim).getD i 0 : ℝ) := by
  obtain ⟨-, -, -, -, -, h5⟩ := grid_values hs hn hd hpos h
  rw [grid_products hs hn hd hpos h hv]
  refine (prod_sub_prod_le s.dim (fun i hi => ?_) fun i hi => ?_).trans (Finset.sum_le_sum fun i hi => ?_)
  · obtain ⟨q1, -, -⟩ := h5 i hi
    have q1' : (0 : ℝ) < ((nums.perDim s.dim).getD i 0 : ℕ) := by exact_mod_cast q1
    rw [abs_div, abs_of_pos q1', div_le_one q1', sum_centres]
    refine (Finset.abs_sum_le_sum_abs _ _).trans ?_
    refine (Finset.sum_le_card_nsmul Finset.univ _ 1 fun j _ => h1 i hi _).trans (by simp)
  · obtain ⟨-, -, q3⟩ := h5 i hi
    have hb : box i = (domainOrUnit s).getD i (0, 1) := by rw [hbox]
    rw [← hb] at q3
    have hlt := sub_pos.mpr (hD _ q3)
    rw [intervalMean, abs_div, abs_of_pos hlt, div_le_one hlt]
    have := intervalIntegral.norm_integral_le_of_norm_le_const (a := (box i).1) (b := (box i).2) (C := 1) (f := f i)
      (fun x _ => h1 i hi x)
    rwa [one_mul, abs_of_pos hlt, Real.norm_eq_abs] at this
  · have hi := Finset.mem_range.mp hi
    obtain ⟨q1, -, q3⟩ := h5 i hi
    have hb : box i = (domainOrUnit s).getD i (0, 1) := by rw [hbox]
    rw [← hb] at q3 ⊢
    exact centres_mean (hD _ q3) q1 (hfg i hi)

end

/-- Straight lines, and parabolas, are functions of bounded curvature. -/
theorem curved_parabola (p q r a b : ℝ) : Curved (fun x => p + q * x + r * x ^ 2) (2 * |r|) a b := by
  refine ⟨by fun_prop, fun c _ => ⟨q + 2 * r * c, fun x _ => le_of_eq ?_⟩⟩
  simp only
  rw [show p + q * x + r * x ^ 2 - (p + q * c + r * c ^ 2) - (q + 2 * r * c) * (x - c) = r * (x - c) ^ 2 by ring,
    abs_mul, abs_of_nonneg (sq_nonneg (x - c))]
  ring

namespace Ex

/-- Four times two points in a rectangle. -/
theorem realGrid : ∃ t, regularSampleSet 2 (.domain [((0 : ℝ), 1), (2, 5)]) (.vector [4, 2]) = .ok t := by
  obtain ⟨t, ht, -⟩ := C45_defined (size := 2) (obj := .domain [((0 : ℝ), 1), (2, 5)]) (nums := .vector [4, 2])
    rfl rfl rfl (by decide) rfl
  exact ⟨t, ht⟩

theorem realGrid_box : ∀ ab ∈ domainOrUnit ({ dim := 2, domain := some [((0 : ℝ), 1), (2, 5)] } : SampleSet ℝ),
    ab.1 < ab.2 := by
  intro ab hab
  simp [domainOrUnit] at hab
  rcases hab with rfl | rfl <;> norm_num

/-- The hypotheses of `C169_smooth` are met: the mean of the sum of the squares is off by at most `1/192 + 3/16`. -/
example : ∃ t v, regularSampleSet 2 (.domain [((0 : ℝ), 1), (2, 5)]) (.vector [4, 2]) = .ok t ∧
    t.glob.values = some v ∧
    |meanOfSums 2 (fun _ x => 0 + 0 * x + 1 * x ^ 2) v - ∑ i ∈ Finset.range 2,
      intervalMean (fun x => 0 + 0 * x + 1 * x ^ 2) (([(0, 1), (2, 5)] : List (ℝ × ℝ)).getD i (0, 1))| ≤
      1 / 192 + 3 / 16 := by
  obtain ⟨t, ht⟩ := realGrid
  obtain ⟨v, hv, -⟩ := C45_midpoints (obj := .domain [((0 : ℝ), 1), (2, 5)]) (nums := .vector [4, 2]) rfl rfl rfl ht
  refine ⟨t, v, ht, hv, ?_⟩
  refine (C169_smooth (obj := .domain [((0 : ℝ), 1), (2, 5)]) (nums := .vector [4, 2]) rfl rfl rfl (by decide)
    realGrid_box ht hv rfl (M := fun _ => 2 * |1|) fun i _ => curved_parabola 0 0 1 _ _).trans (le_of_eq ?_)
  simp [Finset.sum_range_succ, domainOrUnit, GridNums.perDim]
  norm_num

/-- The hypotheses of `C169_products` are met by indicators of intervals. -/
example : ∃ t v, regularSampleSet 2 (.domain [((0 : ℝ), 1), (2, 5)]) (.vector [4, 2]) = .ok t ∧
    t.glob.values = some v ∧
    |meanOfProducts 2 (fun _ x => if x ≤ 3 then (1 : ℝ) else 0) v - ∏ i ∈ Finset.range 2,
      intervalMean (fun x => if x ≤ 3 then (1 : ℝ) else 0) (([(0, 1), (2, 5)] : List (ℝ × ℝ)).getD i (0, 1))| ≤
      1 / 2 := by
  obtain ⟨t, ht⟩ := realGrid
  obtain ⟨v, hv, -⟩ := C45_midpoints (obj := .domain [((0 : ℝ), 1), (2, 5)]) (nums := .vector [4, 2]) rfl rfl rfl ht
  refine ⟨t, v, ht, hv, ?_⟩
  refine (C169_products (obj := .domain [((0 : ℝ), 1), (2, 5)]) (nums := .vector [4, 2]) rfl rfl rfl (by decide)
    realGrid_box ht hv rfl (g := fun _ x => -(if x ≤ 3 then (1 : ℝ) else 0))
    (fun i _ => step_antitone (fun x => x ≤ 3) (fun x y h1 h2 => h1.trans h2) _ _)
    (fun i _ x => by split <;> simp)).trans (le_of_eq ?_)
  simp [Finset.sum_range_succ, domainOrUnit, GridNums.perDim]
  norm_num

end Ex

end BET
