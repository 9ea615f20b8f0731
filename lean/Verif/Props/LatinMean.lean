import Verif.Props.Latin
import Mathlib.MeasureTheory.Integral.IntervalIntegral.Basic
import Mathlib.MeasureTheory.Integral.IntervalIntegral.FundThmCalculus

/-!
# C165: Latin hypercubes represent every single input
-/

set_option autoImplicit false
set_option linter.unusedSectionVars false
set_option linter.unusedSimpArgs false

namespace BET

open Spec MeasureTheory

namespace Spec

/-- Between `u` and `v` in the interval the function `f` changes by at most `g v - g u`. -/
def ChangesLike (f g : ℝ → ℝ) (a b : ℝ) : Prop :=
  ∀ u v, a ≤ u → u ≤ v → v ≤ b → |f v - f u| ≤ g v - g u

/-- The mean of `f` over the interval. -/
noncomputable def intervalMean (f : ℝ → ℝ) (ab : ℝ × ℝ) : ℝ :=
  (∫ x in ab.1..ab.2, f x) / (ab.2 - ab.1)

/-- The mean over the samples of the sum over the inputs of `f i` of input `i`. -/
noncomputable def meanOfSums (dim : Nat) (f : Nat → ℝ → ℝ) (v : List (List ℝ)) : ℝ :=
  (v.map fun row => ∑ i ∈ Finset.range dim, f i (row.getD i 0)).sum / (v.length : ℝ)

/-- The share of the samples with input `i` in the set. -/
noncomputable def shareIn (i : Nat) (S : Set ℝ) (v : List (List ℝ)) : ℝ :=
  open scoped Classical in
  ((v.filter fun row => decide (row.getD i 0 ∈ S)).length : ℝ) / (v.length : ℝ)

end Spec

/-! ### One input -/

theorem ChangesLike.between {f g : ℝ → ℝ} {a b : ℝ} (h : ChangesLike f g a b) {u v x y : ℝ}
    (hu : a ≤ u) (hv : v ≤ b) (hx : x ∈ Set.Icc u v) (hy : y ∈ Set.Icc u v) :
    |f x - f y| ≤ g v - g u := by
  have mono : ∀ s t, a ≤ s → s ≤ t → t ≤ b → g s ≤ g t := fun s t h1 h2 h3 => by
    have := (abs_nonneg _).trans (h s t h1 h2 h3)
    linarith
  rcases le_total x y with hxy | hxy
  · have h1 := h x y (hu.trans hx.1) hxy (hy.2.trans hv)
    have h2 := mono u x hu hx.1 (hx.2.trans hv)
    have h3 := mono y v (hu.trans hy.1) hy.2 hv
    rw [abs_sub_comm]
    linarith
  · have h1 := h y x (hu.trans hy.1) hxy (hx.2.trans hv)
    have h2 := mono u y hu hy.1 (hy.2.trans hv)
    have h3 := mono x v (hu.trans hx.1) hx.2 hv
    linarith

theorem ChangesLike.integrable {f g : ℝ → ℝ} {a b : ℝ} (h : ChangesLike f g a b) {u v : ℝ}
    (hu : a ≤ u) (huv : u ≤ v) (hv : v ≤ b) : IntervalIntegrable f volume u v := by
  have h1 : MonotoneOn g (Set.uIcc u v) := by
    rw [Set.uIcc_of_le huv]
    intro s hs t ht hst
    have := (abs_nonneg _).trans (h s t (hu.trans hs.1) hst (ht.2.trans hv))
    linarith
  have h2 : MonotoneOn (fun x => f x + g x) (Set.uIcc u v) := by
    rw [Set.uIcc_of_le huv]
    intro s hs t ht hst
    have := (abs_le.mp (h s t (hu.trans hs.1) hst (ht.2.trans hv))).1
    simp only
    linarith
  have h3 := (h2.intervalIntegrable (μ := volume)).sub (h1.intervalIntegrable (μ := volume))
  refine h3.congr ?_
  intro x _
  simp

theorem slices_mean {n : Nat} (hn : 0 < n) {a b : ℝ} (hab : a < b) {x : Fin n → ℝ}
    {κ : Fin n → Fin n} (hκ : Function.Bijective κ)
    (hx : ∀ j : Fin n, a + (b - a) * ((j : Nat) / (n : ℝ)) ≤ x (κ j) ∧
      x (κ j) ≤ a + (b - a) * (((j : Nat) + 1 : Nat) / (n : ℝ))) {f g : ℝ → ℝ}
    (h : ChangesLike f g a b) :
    |(∑ k, f (x k)) / n - (∫ t in a..b, f t) / (b - a)| ≤ (g b - g a) / n := by
  have hn0 : (0 : ℝ) < n := by exact_mod_cast hn
  have hw : 0 < b - a := sub_pos.mpr hab
  set p : ℕ → ℝ := fun j => a + (b - a) * ((j : ℝ) / n) with hp
  have p0 : p 0 = a := by simp [hp]
  have pn : p n = b := by
    simp only [hp, div_self hn0.ne']
    ring
  have step : ∀ j, p (j + 1) - p j = (b - a) / n := by
    intro j
    simp only [hp, Nat.cast_add, Nat.cast_one]
    field_simp
    ring
  have hstep : 0 < (b - a) / n := div_pos hw hn0
  have pa : ∀ j, a ≤ p j := fun j => by
    have : 0 ≤ (b - a) * ((j : ℝ) / n) := by positivity
    simp only [hp]
    linarith
  have pb : ∀ j, j ≤ n → p j ≤ b := fun j hj => by
    rw [← pn]
    simp only [hp]
    have : (j : ℝ) / n ≤ (n : ℝ) / n := div_le_div_of_nonneg_right (by exact_mod_cast hj) hn0.le
    nlinarith
  have hint : ∫ t in a..b, f t = ∑ j : Fin n, ∫ t in p j..p (j + 1), f t := by
    have := intervalIntegral.sum_integral_adjacent_intervals (μ := volume) (f := f) (a := p) (n := n)
      (fun j hj => ChangesLike.integrable h (pa j) (by have := step j; linarith) (pb _ hj))
    rw [p0, pn] at this
    rw [← this, Finset.sum_range]
  have hsum : ∑ k, f (x k) = ∑ j, f (x (κ j)) :=
    (Function.Bijective.sum_comp hκ fun k => f (x k)).symm
  have one : ∀ j : Fin n, |(b - a) / n * f (x (κ j)) - ∫ t in p j..p (j + 1), f t| ≤
      (g (p (j + 1)) - g (p j)) * ((b - a) / n) := by
    intro j
    have hle : p j ≤ p (j + 1) := by have := step j; linarith
    have e : (b - a) / n * f (x (κ j)) = ∫ _ in p j..p (j + 1), f (x (κ j)) := by
      rw [intervalIntegral.integral_const, step, smul_eq_mul]
    rw [e, ← intervalIntegral.integral_sub intervalIntegrable_const
      (ChangesLike.integrable h (pa j) hle (pb _ j.2))]
    have := intervalIntegral.norm_integral_le_of_norm_le_const (a := p j) (b := p (j + 1))
      (C := g (p (j + 1)) - g (p j)) (f := fun t => f (x (κ j)) - f t) (by
        intro t ht
        rw [Set.uIoc_of_le hle] at ht
        exact ChangesLike.between h (pa j) (pb _ j.2) ⟨(hx j).1, (hx j).2⟩ ⟨ht.1.le, ht.2⟩)
    rwa [step, abs_of_pos hstep, Real.norm_eq_abs] at this
  have tele : ∑ j : Fin n, (g (p (j + 1)) - g (p j)) = g b - g a := by
    have := Finset.sum_range_sub (fun j => g (p j)) n
    rw [p0, pn, Finset.sum_range] at this
    exact this
  have key : |(b - a) / n * ∑ k, f (x k) - ∫ t in a..b, f t| ≤ (g b - g a) * ((b - a) / n) := by
    rw [hsum, hint, Finset.mul_sum, ← Finset.sum_sub_distrib, ← tele, Finset.sum_mul]
    exact (Finset.abs_sum_le_sum_abs _ _).trans (Finset.sum_le_sum fun j _ => one j)
  have e : (∑ k, f (x k)) / n - (∫ t in a..b, f t) / (b - a) =
      ((b - a) / n * ∑ k, f (x k) - ∫ t in a..b, f t) / (b - a) := by
    field_simp
  rw [e, abs_div, abs_of_pos hw, div_le_iff₀ hw]
  refine key.trans (le_of_eq ?_)
  ring

theorem latin_slices {v : List (List ℝ)} {i : Nat} {a b : ℝ} (hab : a < b) (h : LatinIn v i a b) :
    ∃ κ : Fin v.length → Fin v.length, Function.Bijective κ ∧ ∀ j : Fin v.length,
      a + (b - a) * ((j : Nat) / (v.length : ℝ)) ≤ (v[κ j]).getD i 0 ∧
      (v[κ j]).getD i 0 < a + (b - a) * (((j : Nat) + 1 : Nat) / (v.length : ℝ)) := by
  have hex : ∀ j : Fin v.length, ∃ k : Fin v.length,
      a + (b - a) * ((j : Nat) / (v.length : ℝ)) ≤ (v[k]).getD i 0 ∧
      (v[k]).getD i 0 < a + (b - a) * (((j : Nat) + 1 : Nat) / (v.length : ℝ)) := by
    intro j
    obtain ⟨k, ⟨row, x, h1, h2, h3, h4⟩, -⟩ := h j j.2
    obtain ⟨hk, hr⟩ := List.getElem?_eq_some_iff.mp h1
    refine ⟨⟨k, hk⟩, ?_⟩
    have e : (v[(⟨k, hk⟩ : Fin v.length)]).getD i 0 = x := by
      show (v[k]).getD i 0 = x
      rw [hr]
      simp [List.getD, h2]
    rw [e]
    exact ⟨h3, h4⟩
  choose κ hκ using hex
  refine ⟨κ, ?_, hκ⟩
  have hw : 0 < b - a := sub_pos.mpr hab
  refine Finite.injective_iff_bijective.mp fun j j' e => ?_
  have h1 := hκ j
  have h2 := hκ j'
  rw [← e] at h2
  have hn : (0 : ℝ) < v.length := by
    have := j.2
    have : 0 < v.length := by omega
    exact_mod_cast this
  have lt : ∀ s t : Nat, a + (b - a) * ((s : ℝ) / v.length) < a + (b - a) * ((t : ℝ) / v.length) →
      s < t := by
    intro s t hst
    have h3 : (s : ℝ) / v.length < (t : ℝ) / v.length := by
      have := lt_of_add_lt_add_left hst
      exact lt_of_mul_lt_mul_left this hw.le
    exact_mod_cast (div_lt_div_iff_of_pos_right hn).mp h3
  have l1 := lt _ _ (lt_of_le_of_lt h1.1 h2.2)
  have l2 := lt _ _ (lt_of_le_of_lt h2.1 h1.2)
  exact Fin.ext (by omega)

theorem sum_map_fin {α : Type} (v : List α) (F : α → ℝ) :
    (v.map F).sum = ∑ k : Fin v.length, F v[k] := by
  rw [← List.sum_ofFn]
  congr 1
  refine List.ext_getElem (by simp) fun k h1 h2 => ?_
  simp

theorem latin_mean {v : List (List ℝ)} (hv : v ≠ []) {i : Nat} {a b : ℝ} (hab : a < b)
    (h : LatinIn v i a b) {f g : ℝ → ℝ} (hf : ChangesLike f g a b) :
    |(v.map fun row => f (row.getD i 0)).sum / (v.length : ℝ) - intervalMean f (a, b)| ≤
      (g b - g a) / v.length := by
  obtain ⟨κ, hκ, hx⟩ := latin_slices hab h
  rw [sum_map_fin]
  exact slices_mean (List.length_pos_of_ne_nil hv) hab hκ (fun j => ⟨(hx j).1, (hx j).2.le⟩) hf

/-! ### What the functions may be -/

/-- A function with a Lipschitz constant. -/
theorem changesLike_lipschitz {f : ℝ → ℝ} {a b L : ℝ}
    (hf : ∀ u v, a ≤ u → u ≤ v → v ≤ b → |f v - f u| ≤ L * (v - u)) :
    ChangesLike f (fun x => L * x) a b := fun u v h1 h2 h3 => by
  have := hf u v h1 h2 h3
  simp only
  linarith

/-- A function that does not decrease, and one that does not increase. -/
theorem changesLike_mono {f : ℝ → ℝ} {a b : ℝ} :
    (MonotoneOn f (Set.Icc a b) → ChangesLike f f a b) ∧
    (AntitoneOn f (Set.Icc a b) → ChangesLike f (fun x => -f x) a b) := by
  constructor
  · intro h u v h1 h2 h3
    have := h ⟨h1, h2.trans h3⟩ ⟨h1.trans h2, h3⟩ h2
    rw [abs_of_nonneg (by linarith)]
  · intro h u v h1 h2 h3
    have := h ⟨h1, h2.trans h3⟩ ⟨h1.trans h2, h3⟩ h2
    rw [abs_of_nonpos (by linarith)]
    simp only
    linarith

/-! ### The results of `lhs_sample_set` -/

section
variable {size dim : Nat} {obj : InputObj ℝ} {D : Option (List (ℝ × ℝ))} {cube : List (List ℝ)}
  {t : SampleSet ℝ}

theorem lhs_latin (hsize : 0 < size) (hs : Space obj dim D) (hcube : ∀ row ∈ cube, row.length = dim)
    (hlat : ∀ i, i < dim → LatinIn cube i 0 1) (hD : ∀ ab ∈ boxOf dim D, ab.1 < ab.2)
    (h : lhsSampleSet size obj cube true = .ok t) :
    ∃ v, t.glob.values = some v ∧ v.length = cube.length ∧ ∀ (i : Nat) (ab : ℝ × ℝ),
      (boxOf dim D)[i]? = some ab → ab.1 < ab.2 ∧ LatinIn v i ab.1 ab.2 := by
  obtain ⟨v, h1, h2⟩ := C77_latin hsize hs hcube h
  obtain ⟨w, e1, -, -, e2, -⟩ := C77_values hsize hs hcube h
  have : w = v := Option.some.inj ((e2 rfl).symm.trans h1)
  subst this
  refine ⟨w, h1, e1, fun i ab hab => ?_⟩
  have hlt := hD ab (List.mem_of_getElem? hab)
  have hi : i < dim := by rw [← space_box hs]; exact (List.getElem?_eq_some_iff.1 hab).1
  exact ⟨hlt, h2 i ab hab hlt (hlat i hi)⟩

/-- **C165.** For every set of samples that `lhs_sample_set` makes from a Latin hypercube, whatever the
order in which the slices were combined and wherever the points lie in them: the mean over the samples of a
sum of functions of the single inputs differs from its mean over the box by at most the sum of the changes of
the functions over their intervals, divided by the number of samples. (A function changes by at most its
Lipschitz constant times the length of the interval, and a monotone function by the difference of its values
at the ends.) -/
theorem C165_mean (hsize : 0 < size) (hs : Space obj dim D)
    (hcube : ∀ row ∈ cube, row.length = dim) (hne : cube ≠ [])
    (hlat : ∀ i, i < dim → LatinIn cube i 0 1) (hD : ∀ ab ∈ boxOf dim D, ab.1 < ab.2)
    (h : lhsSampleSet size obj cube true = .ok t) :
    ∃ v, t.glob.values = some v ∧ v.length = cube.length ∧ ∀ f g : Nat → ℝ → ℝ,
      (∀ (i : Nat) (ab : ℝ × ℝ), (boxOf dim D)[i]? = some ab → ChangesLike (f i) (g i) ab.1 ab.2) →
      |meanOfSums dim f v - ∑ i ∈ Finset.range dim, intervalMean (f i) ((boxOf dim D).getD i (0, 1))| ≤
        (∑ i ∈ Finset.range dim, (g i ((boxOf dim D).getD i (0, 1)).2 -
          g i ((boxOf dim D).getD i (0, 1)).1)) / v.length := by
  obtain ⟨v, h1, h2, h3⟩ := lhs_latin hsize hs hcube hlat hD h
  refine ⟨v, h1, h2, fun f g hfg => ?_⟩
  have hv : v ≠ [] := by
    intro e
    rw [e] at h2
    exact hne (List.length_eq_zero_iff.mp h2.symm)
  have e1 : meanOfSums dim f v =
      ∑ i ∈ Finset.range dim, (v.map fun row => f i (row.getD i 0)).sum / (v.length : ℝ) := by
    rw [meanOfSums, ← Finset.sum_div]
    congr 1
    simp only [sum_map_fin]
    exact Finset.sum_comm
  rw [e1, ← Finset.sum_sub_distrib, Finset.sum_div]
  refine (Finset.abs_sum_le_sum_abs _ _).trans (Finset.sum_le_sum fun i hi => ?_)
  have hi : i < (boxOf dim D).length := by rw [space_box hs]; exact Finset.mem_range.mp hi
  have hg : (boxOf dim D)[i]? = some (boxOf dim D)[i] := List.getElem?_eq_getElem hi
  have e2 : (boxOf dim D).getD i (0, 1) = (boxOf dim D)[i] := by simp [List.getD, hg]
  obtain ⟨hlt, hL⟩ := h3 i _ hg
  rw [e2]
  exact latin_mean hv hlt hL (hfg i _ hg)

theorem step_antitone (P : ℝ → Prop) [DecidablePred P] (hP : ∀ x y, x ≤ y → P y → P x) (a b : ℝ) :
    ChangesLike (fun x => if P x then (1 : ℝ) else 0) (fun x => -(if P x then (1 : ℝ) else 0)) a b :=
  changesLike_mono.2 fun x _ y _ hxy => by
    by_cases hy : P y
    · rw [if_pos hy, if_pos (hP x y hxy hy)]
    · rw [if_neg hy]
      split <;> norm_num

theorem mean_step (P : ℝ → Prop) [DecidablePred P] (hP : ∀ x y, x ≤ y → P y → P x) {s a b : ℝ}
    (h1 : a ≤ s) (h2 : s ≤ b) (hlo : ∀ x, x < s → P x) (hhi : ∀ x, s < x → ¬ P x) :
    intervalMean (fun x => if P x then (1 : ℝ) else 0) (a, b) = (s - a) / (b - a) := by
  have hc := step_antitone P hP a b
  rw [intervalMean, ← intervalIntegral.integral_add_adjacent_intervals
    (ChangesLike.integrable hc le_rfl h1 h2) (ChangesLike.integrable hc h1 h2 le_rfl)]
  have e1 : ∫ x in a..s, (if P x then (1 : ℝ) else 0) = ∫ _ in a..s, (1 : ℝ) := by
    refine intervalIntegral.integral_congr_ae ?_
    filter_upwards [Measure.ae_ne volume s] with x hx hm
    rw [Set.uIoc_of_le h1] at hm
    exact if_pos (hlo x (lt_of_le_of_ne hm.2 hx))
  have e2 : ∫ x in s..b, (if P x then (1 : ℝ) else 0) = ∫ _ in s..b, (0 : ℝ) := by
    refine intervalIntegral.integral_congr_ae (Filter.Eventually.of_forall fun x hm => ?_)
    rw [Set.uIoc_of_le h2] at hm
    exact if_neg (hhi x hm.1)
  rw [e1, e2]
  simp

theorem count_eq_sum (v : List (List ℝ)) (i : Nat) (P : ℝ → Prop) [DecidablePred P] :
    ((v.filter fun row => decide (P (row.getD i 0))).length : ℝ) =
      (v.map fun row => if P (row.getD i 0) then (1 : ℝ) else 0).sum := by
  induction v with
  | nil => simp
  | cons row v ih =>
    rw [List.filter_cons, List.map_cons, List.sum_cons, ← ih]
    by_cases h : P (row.getD i 0)
    · rw [if_pos (by simpa using h), if_pos h, List.length_cons]
      push_cast
      ring
    · rw [if_neg (by simpa using h), if_neg h, zero_add]

open scoped Classical in
theorem latin_step {v : List (List ℝ)} (hv : v ≠ []) {i : Nat} {a b : ℝ} (hab : a < b)
    (h : LatinIn v i a b) {s : ℝ} (h1 : a ≤ s) (h2 : s ≤ b) :
    |shareIn i (Set.Iic s) v - (s - a) / (b - a)| ≤ 1 / v.length ∧
    |shareIn i (Set.Iio s) v - (s - a) / (b - a)| ≤ 1 / v.length := by
  have hn : (0 : ℝ) < v.length := by exact_mod_cast List.length_pos_of_ne_nil hv
  have key : ∀ S : Set ℝ, (∀ x y, x ≤ y → y ∈ S → x ∈ S) → (∀ x, x < s → x ∈ S) →
      (∀ x, s < x → x ∉ S) → |shareIn i S v - (s - a) / (b - a)| ≤ 1 / v.length := by
    intro S hS hlo hhi
    have hc := step_antitone (fun x => x ∈ S) hS a b
    have := latin_mean hv hab h hc
    rw [mean_step (fun x => x ∈ S) hS h1 h2 hlo hhi] at this
    rw [shareIn, count_eq_sum v i (fun x => x ∈ S)]
    refine this.trans (div_le_div_of_nonneg_right ?_ hn.le)
    split <;> split <;> norm_num
  exact ⟨key _ (fun x y hxy hy => le_trans hxy hy) (fun x hx => le_of_lt hx) (fun x hx => not_le.mpr hx),
    key _ (fun x y hxy hy => lt_of_le_of_lt hxy hy) (fun x hx => hx) (fun x hx => not_lt.mpr hx.le)⟩

open scoped Classical in
theorem share_diff (v : List (List ℝ)) (i : Nat) {S T U : Set ℝ} (hST : S ⊆ T) (hU : T \ S = U) :
    shareIn i U v = shareIn i T v - shareIn i S v := by
  rw [shareIn, shareIn, shareIn, ← sub_div]
  congr 1
  rw [count_eq_sum v i (fun x => x ∈ U), count_eq_sum v i (fun x => x ∈ T),
    count_eq_sum v i (fun x => x ∈ S)]
  induction v with
  | nil => simp
  | cons row v ih =>
    simp only [List.map_cons, List.sum_cons, ih]
    have : (if row.getD i 0 ∈ U then (1 : ℝ) else 0) =
        (if row.getD i 0 ∈ T then 1 else 0) - (if row.getD i 0 ∈ S then 1 else 0) := by
      subst hU
      by_cases h1 : row.getD i 0 ∈ S
      · rw [if_neg (fun h => h.2 h1), if_pos (hST h1), if_pos h1, sub_self]
      · by_cases h2 : row.getD i 0 ∈ T
        · rw [if_pos ⟨h2, h1⟩, if_pos h2, if_neg h1, sub_zero]
        · rw [if_neg (fun h => h2 h.1), if_neg h2, if_neg h1, sub_zero]
    rw [this]
    ring

/-- **C165.** The share of the samples with one input in an interval differs from the share of the interval
by at most two divided by the number of samples. -/
theorem C165_shares (hsize : 0 < size) (hs : Space obj dim D)
    (hcube : ∀ row ∈ cube, row.length = dim) (hne : cube ≠ [])
    (hlat : ∀ i, i < dim → LatinIn cube i 0 1) (hD : ∀ ab ∈ boxOf dim D, ab.1 < ab.2)
    (h : lhsSampleSet size obj cube true = .ok t) :
    ∃ v, t.glob.values = some v ∧ v.length = cube.length ∧ ∀ (i : Nat) (ab : ℝ × ℝ),
      (boxOf dim D)[i]? = some ab → ∀ s u, ab.1 ≤ s → s ≤ u → u ≤ ab.2 →
      |shareIn i (Set.Iic s) v - (s - ab.1) / (ab.2 - ab.1)| ≤ 1 / v.length ∧
      |shareIn i (Set.Icc s u) v - (u - s) / (ab.2 - ab.1)| ≤ 2 / v.length ∧
      |shareIn i (Set.Ico s u) v - (u - s) / (ab.2 - ab.1)| ≤ 2 / v.length := by
  obtain ⟨v, h1, h2, h3⟩ := lhs_latin hsize hs hcube hlat hD h
  have hv : v ≠ [] := by
    intro e
    rw [e] at h2
    exact hne (List.length_eq_zero_iff.mp h2.symm)
  refine ⟨v, h1, h2, fun i ab hab s u hs hsu hu => ?_⟩
  obtain ⟨hlt, hL⟩ := h3 i ab hab
  have a1 := latin_step hv hlt hL hs (hsu.trans hu)
  have a2 := latin_step hv hlt hL (hs.trans hsu) hu
  have e : (u - s) / (ab.2 - ab.1) =
      (u - ab.1) / (ab.2 - ab.1) - (s - ab.1) / (ab.2 - ab.1) := by
    rw [← sub_div]
    congr 1
    ring
  have e2 : (2 : ℝ) / v.length = 1 / v.length + 1 / v.length := by ring
  have tri : ∀ p q x y c : ℝ, |p - x| ≤ c → |q - y| ≤ c → |(p - q) - (x - y)| ≤ c + c := by
    intro p q x y c hp hq
    have := abs_sub (p - x) (q - y)
    have e3 : (p - q) - (x - y) = (p - x) - (q - y) := by ring
    rw [e3]
    linarith
  refine ⟨a1.1, ?_, ?_⟩
  · rw [share_diff v i (S := Set.Iio s) (T := Set.Iic u)
      (fun x hx => le_of_lt (lt_of_lt_of_le hx hsu)) (by ext x; simp [and_comm]), e, e2]
    exact tri _ _ _ _ _ a2.1 a1.2
  · rw [share_diff v i (S := Set.Iio s) (T := Set.Iio u)
      (fun x hx => lt_of_lt_of_le hx hsu) (by ext x; simp [and_comm]), e, e2]
    exact tri _ _ _ _ _ a2.2 a1.2

end

namespace Ex

/-- A Latin hypercube of two points in the square. -/
noncomputable def cube2 : List (List ℝ) := [[1 / 4, 3 / 4], [3 / 4, 1 / 4]]

theorem cube2_latin (i : Nat) (hi : i < 2) : LatinIn cube2 i 0 1 := by
  intro j hj
  have hlen : cube2.length = 2 := rfl
  rw [hlen] at hj ⊢
  interval_cases i <;> interval_cases j <;> [refine ⟨0, ?_, ?_⟩; refine ⟨1, ?_, ?_⟩; refine ⟨1, ?_, ?_⟩;
    refine ⟨0, ?_, ?_⟩] <;>
    first
    | exact ⟨_, _, rfl, rfl, by norm_num, by norm_num⟩
    | rintro k ⟨row, x, h1, h2, h3, h4⟩
      have hk : k < 2 := (List.getElem?_eq_some_iff.1 h1).1
      interval_cases k <;> simp [cube2] at h1 <;> subst h1 <;> simp at h2 <;> subst h2 <;>
        first | rfl | (exfalso; revert h3 h4; norm_num)

/-- The hypotheses are met: two samples in a rectangle. -/
example : ∃ t v, lhsSampleSet 2 (.domain [(0, 1), (2, 5)]) cube2 true = .ok t ∧
    t.glob.values = some v ∧ ∀ s : ℝ, 2 ≤ s → s ≤ 5 →
      |shareIn 1 (Set.Iic s) v - (s - 2) / (5 - 2)| ≤ 1 / v.length := by
  have hs : Space (K := ℝ) (.domain [(0, 1), (2, 5)]) 2 (some [(0, 1), (2, 5)]) := .domain _
  have hc : ∀ row ∈ cube2, row.length = 2 := by simp [cube2]
  obtain ⟨t, ht, -⟩ := C77_defined_partial (size := 2) (by decide) hs trivial hc true
  obtain ⟨v, h1, h2, h3⟩ := C165_shares (by decide) hs hc (by simp [cube2]) cube2_latin
    (by intro ab hab; simp [boxOf] at hab; rcases hab with rfl | rfl <;> norm_num) ht
  exact ⟨t, v, ht, h1, fun s hs1 hs2 => (h3 1 (2, 5) rfl s s hs1 le_rfl hs2).1⟩

end Ex

end BET
