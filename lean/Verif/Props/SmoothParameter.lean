import Verif.Props.Smooth2
import Mathlib.Topology.Algebra.Order.Field
import Mathlib.Analysis.SpecialFunctions.Exp
import Mathlib.Analysis.SpecificLimits.Basic

/-!
# C173: what the smoothing parameter does
-/

set_option autoImplicit false
set_option linter.unusedSectionVars false
set_option linter.unusedSimpArgs false

open Filter Topology

namespace BET

/-! ## Specification -/

/-- By how many bins the kernel is off its centre: one for an odd number of bins, a half for an even one. -/
noncomputable def Spec.offCentre (n : Nat) : ℝ := if n % 2 = 1 then 1 else 1 / 2

/-- A Gaussian in the number `d` of bins, moved by `offCentre` bins to the left; `n` bins of width `dx` count as `n`
steps of width `n dx / (n - 1)`. -/
noncomputable def Spec.movedGauss (n : Nat) (dx σ : ℝ) (d : ℤ) : ℝ :=
  Real.exp (-(((d : ℝ) + Spec.offCentre n) * ((n : ℝ) * dx / ((n : ℝ) - 1)) / σ) ^ 2)

/-- The numbers of bins over which the kernel reaches: about half of the bins to the left and to the right. -/
def Spec.InReach (n : Nat) (d : ℤ) : Prop := -(((n + 1) / 2 : Nat) : ℤ) ≤ d ∧ d < ((n / 2 : Nat) : ℤ)

instance (n : Nat) (d : ℤ) : Decidable (Spec.InReach n d) := inferInstanceAs (Decidable (_ ∧ _))

/-- The sum of the values in the bins within reach of bin `k`. -/
def Spec.windowSum (m : List ℝ) (k : Nat) : ℝ :=
  ∑ j ∈ Finset.range m.length, if k < j + m.length / 2 ∧ j ≤ k + (m.length + 1) / 2 then m.getD j 0 else 0

/-- The width of the bins. -/
def Spec.widthOf (b : List ℝ) : ℝ := b.getD 1 0 - b.getD 0 0

open Spec

/-! ## Weights -/

theorem kernelPoint_moved (n : Nat) (hn : 2 ≤ n) (dx : ℝ) (d : ℤ) :
    kernelPoint n dx (d + (((n + 1) / 2 : Nat) : ℤ)) = ((d : ℝ) + offCentre n) * ((n : ℝ) * dx / ((n : ℝ) - 1)) := by
  have h1 : (2 : ℝ) ≤ n := by exact_mod_cast hn
  have h2 : (n : ℝ) - 1 ≠ 0 := by linarith
  have hc : (((n + 1) / 2 : Nat) : ℝ) = offCentre n + ((n : ℝ) - 1) / 2 := by
    unfold offCentre
    split_ifs with h
    · obtain ⟨k, hk⟩ : ∃ k, n = 2 * k + 1 := ⟨n / 2, by omega⟩
      rw [show (n + 1) / 2 = k + 1 by omega, hk]
      push_cast
      ring
    · obtain ⟨k, hk⟩ : ∃ k, n = 2 * k := ⟨n / 2, by omega⟩
      rw [show (n + 1) / 2 = k by omega, hk]
      push_cast
      ring
  unfold kernelPoint
  rw [Nat.cast_sub (by omega : 1 ≤ n)]
  rw [Int.cast_add, Int.cast_natCast, hc, Nat.cast_one]
  field_simp
  ring

theorem offCentre_bounds (n : Nat) : 1 / 2 ≤ offCentre n ∧ offCentre n ≤ 1 := by
  unfold offCentre
  split_ifs <;> norm_num

theorem margin_ge (dx σ : ℝ) (hdx : 0 < dx) (hσ : 0 < σ) : 3 * σ ≤ (margin dx σ : ℝ) * dx := by
  unfold margin
  have h := Int.ceil_nonneg (show 0 ≤ 3 * σ / dx by positivity)
  have h2 : ((⌈3 * σ / dx⌉.toNat : Nat) : ℝ) = (⌈3 * σ / dx⌉ : ℝ) := by
    exact_mod_cast congrArg (fun z : ℤ => (z : ℝ)) (Int.toNat_of_nonneg h)
  rw [h2]
  have := Int.le_ceil (3 * σ / dx)
  rw [div_le_iff₀ hdx] at this
  exact this

theorem weight_in (n aug : Nat) (hn : 2 ≤ n) (dx σ : ℝ) (d : ℤ) (h : InReach n d) :
    blurWeight realSmoother n aug dx σ d = movedGauss n dx σ d := by
  obtain ⟨h1, h2⟩ := h
  rw [weight_near realSmoother n aug dx σ d (by omega) (by omega), kernelPoint_moved n hn]
  rfl

theorem movedGauss_far (n : Nat) (hn : 2 ≤ n) (dx σ : ℝ) (hdx : 0 < dx) (hσ : 0 < σ) (aug : Nat)
    (d : ℤ) (h : 2 * (aug : ℝ) ≤ |(d : ℝ) + offCentre n|) :
    movedGauss n dx σ d ≤ Real.exp (-(2 * aug * dx / σ) ^ 2) := by
  have h1 : (2 : ℝ) ≤ n := by exact_mod_cast hn
  unfold movedGauss
  rw [Real.exp_le_exp]
  have h2 : dx ≤ (n : ℝ) * dx / ((n : ℝ) - 1) := by
    rw [le_div_iff₀ (by linarith)]
    nlinarith
  have h3 : 2 * aug * dx / σ ≤ |((d : ℝ) + offCentre n) * ((n : ℝ) * dx / ((n : ℝ) - 1)) / σ| := by
    rw [abs_div, abs_mul, abs_of_pos hσ, abs_of_pos (lt_of_lt_of_le hdx h2)]
    exact div_le_div_of_nonneg_right (mul_le_mul h h2 hdx.le (abs_nonneg _)) hσ.le
  have h5 := pow_le_pow_left₀ (by positivity) h3 2
  rw [sq_abs] at h5
  linarith

theorem weight_out (n aug : Nat) (hn : 2 ≤ n) (dx σ : ℝ) (hdx : 0 < dx) (hσ : 0 < σ) (d : ℤ)
    (hd : |d| < (n : ℤ)) (h : ¬ InReach n d) :
    blurWeight realSmoother n aug dx σ d ≤ Real.exp (-(2 * aug * dx / σ) ^ 2) ∧
      ((n + 1) / 2 ≤ 2 * aug → blurWeight realSmoother n aug dx σ d = 0) := by
  obtain ⟨hd1, hd2⟩ := abs_lt.mp hd
  have hpos := (Real.exp_pos (-(2 * aug * dx / σ) ^ 2)).le
  obtain ⟨hc1, hc2⟩ := offCentre_bounds n
  unfold blurWeight
  simp only []
  set t := (d + (((n + 1) / 2 : Nat) : ℤ) + aug) % ((n + 2 * aug : Nat) : ℤ) - aug with ht
  have hN : (0 : ℤ) < ((n + 2 * aug : Nat) : ℤ) := by omega
  by_cases hin : 0 ≤ t ∧ t < n
  swap
  · rw [if_neg hin]
    exact ⟨hpos, fun _ => rfl⟩
  have hcase : (d < -(((n + 1) / 2 : Nat) : ℤ) ∧ t = d + n + 2 * aug + (((n + 1) / 2 : Nat) : ℤ)) ∨
      (((n / 2 : Nat) : ℤ) ≤ d ∧ t = d - n - 2 * aug + (((n + 1) / 2 : Nat) : ℤ)) := by
    rcases lt_or_ge d (-(((n + 1) / 2 : Nat) : ℤ)) with h1 | h1
    · left
      refine ⟨h1, ?_⟩
      rcases lt_or_ge (d + (((n + 1) / 2 : Nat) : ℤ) + aug) 0 with h2 | h2
      · rw [ht, ← Int.add_emod_right, Int.emod_eq_of_lt (by omega) (by omega)]
        push_cast
        ring
      · exfalso
        rw [Int.emod_eq_of_lt h2 (by omega)] at ht
        omega
    · right
      have h1' : ((n / 2 : Nat) : ℤ) ≤ d := by
        by_contra hc
        exact h ⟨h1, by omega⟩
      refine ⟨h1', ?_⟩
      rcases lt_or_ge (d + (((n + 1) / 2 : Nat) : ℤ) + aug) ((n + 2 * aug : Nat) : ℤ) with h2 | h2
      · exfalso
        rw [Int.emod_eq_of_lt (by omega) h2] at ht
        omega
      · rw [ht, ← Int.sub_emod_right, Int.emod_eq_of_lt (by omega) (by omega)]
        push_cast
        ring
  rw [if_pos hin]
  rcases hcase with ⟨h1, h2⟩ | ⟨h1, h2⟩
  · constructor
    · have e : t = (d + n + 2 * aug) + (((n + 1) / 2 : Nat) : ℤ) := h2
      rw [e, kernelPoint_moved n hn]
      refine movedGauss_far n hn dx σ hdx hσ aug (d + n + 2 * aug) ?_
      have : (0 : ℝ) ≤ (d : ℝ) + n := by exact_mod_cast (by omega : (0 : ℤ) ≤ d + n)
      push_cast
      exact le_trans (by linarith) (le_abs_self _)
    · intro ha2
      exfalso
      omega
  · constructor
    · have e : t = (d - n - 2 * aug) + (((n + 1) / 2 : Nat) : ℤ) := h2
      rw [e, kernelPoint_moved n hn]
      refine movedGauss_far n hn dx σ hdx hσ aug (d - n - 2 * aug) ?_
      have : (d : ℝ) + 1 ≤ n := by exact_mod_cast (by omega : d + 1 ≤ (n : ℤ))
      push_cast
      exact le_trans (by linarith) (neg_le_abs _)
    · intro ha2
      exfalso
      omega

/-- **C173.** The smoothed marginal is a weighted sum, over its total. Within reach the weights are those of a Gaussian
that is off its centre; beyond they are at most `exp(-36)`, and zero as soon as the smoothing parameter is at least a
twelfth of the range (and of one more bin). -/
theorem C173_weights {b : List ℝ} {m : List ℝ} (hb : BinsOk b) (hm : m.length = b.length - 1) (hm0 : ∀ x ∈ m, 0 ≤ x)
    (hm1 : 0 < m.sum) {σ : ℝ} (hσ : 0 < σ) :
    ∃ (r : List ℝ) (w : ℤ → ℝ), smoothOne realSmoother b σ m = .ok r ∧
      (∀ k < m.length, r.getD k 0 = blur w m k / blurTotal w m) ∧ 0 < blurTotal w m ∧
      (∀ d, InReach m.length d → w d = movedGauss m.length (widthOf b) σ d) ∧
      (∀ d : ℤ, |d| < m.length → ¬ InReach m.length d → 0 ≤ w d ∧ w d ≤ Real.exp (-36)) ∧
      (((m.length : ℝ) + 1) * widthOf b ≤ 12 * σ → ∀ d : ℤ, |d| < m.length → ¬ InReach m.length d → w d = 0) := by
  obtain ⟨r, h1, -, -, h2⟩ := C90_one realSmoother C90_fourier b σ m hb hσ hm hm0 hm1
  have hn : 2 ≤ m.length := by have := hb.1; omega
  have hdx : 0 < widthOf b := sub_pos.mpr hb.2
  have hma := margin_ge (widthOf b) σ hdx hσ
  have hw : ∀ d, 0 ≤ weightsOf realSmoother b σ d := fun d => weight_nonneg realSmoother C90_fourier _ _ _ _ d
  refine ⟨r, weightsOf realSmoother b σ, h1, h2,
    blurTotal_pos _ hw (weight_zero_pos realSmoother C90_fourier _ _ _ _ (by omega)) m hm0 (exists_pos_of_sum m hm0 hm1), ?_, ?_, ?_⟩
  · intro d hd
    rw [weightsOf, ← hm]
    exact weight_in _ _ hn _ _ d hd
  · intro d hd hd'
    refine ⟨hw d, ?_⟩
    rw [weightsOf, ← hm]
    refine (weight_out _ _ hn _ _ hdx hσ d hd hd').1.trans ?_
    rw [Real.exp_le_exp]
    have h6 : 6 ≤ 2 * (margin (widthOf b) σ : ℝ) * widthOf b / σ := by
      rw [le_div_iff₀ hσ]
      linarith
    have := pow_le_pow_left₀ (by norm_num) h6 2
    change -(2 * (margin (widthOf b) σ : ℝ) * widthOf b / σ) ^ 2 ≤ -36
    linarith
  · intro hbig d hd hd'
    rw [weightsOf, ← hm]
    refine (weight_out _ _ hn _ _ hdx hσ d hd hd').2 ?_
    have h3 : ((m.length : ℝ) + 1) ≤ 4 * (margin (widthOf b) σ : ℝ) := by
      have : ((m.length : ℝ) + 1) * widthOf b ≤ 4 * (margin (widthOf b) σ : ℝ) * widthOf b := by linarith
      exact le_of_mul_le_mul_right this hdx
    have h4 : m.length + 1 ≤ 4 * margin (widthOf b) σ := by exact_mod_cast h3
    change _ ≤ 2 * margin (widthOf b) σ
    omega

/-- **C173 (negation).** A large smoothing parameter does not flatten a marginal. If the probability is all in the first
bin, the second half of the bins gets none of it, for every parameter from a twelfth of the range (and one more bin)
on. -/
theorem C173_negation_flat {b : List ℝ} (hb : BinsOk b) {σ : ℝ} (hσ : 0 < σ)
    (hbig : (((b.length - 1 : Nat) : ℝ) + 1) * widthOf b ≤ 12 * σ) :
    ∃ r, smoothOne realSmoother b σ (pointMass (b.length - 1) 0) = .ok r ∧
      ∀ k, (b.length - 1) / 2 ≤ k → k < b.length - 1 → r.getD k 0 = 0 := by
  have hb1 := hb.1
  have hlen : (pointMass (b.length - 1) 0 : List ℝ).length = b.length - 1 := by simp [pointMass]
  obtain ⟨r, w, h1, h2, -, -, -, h3⟩ := C173_weights hb hlen (pointMass_nonneg _ _)
    (by rw [sum_pointMass _ _ (by omega)]; exact one_pos) hσ
  refine ⟨r, h1, fun k hk1 hk2 => ?_⟩
  rw [h2 k (by omega), blur_pointMass _ _ _ (by omega)]
  rw [hlen] at h3
  rw [h3 hbig _ (by rw [abs_lt]; constructor <;> omega) (fun h => by have := h.2; omega), zero_div]

/-! ## Limits -/

theorem tendsto_blur {F : Filter ℝ} (W : ℝ → ℤ → ℝ) (g : ℝ → ℝ) (hg : ∀ σ, g σ ≠ 0) (L : ℤ → ℝ) (m : List ℝ)
    (h : ∀ d : ℤ, |d| < m.length → Tendsto (fun σ => W σ d * g σ) F (𝓝 (L d))) (hL : blurTotal L m ≠ 0) {k : Nat}
    (hk : k < m.length) :
    Tendsto (fun σ => blur (W σ) m k / blurTotal (W σ) m) F (𝓝 (blur L m k / blurTotal L m)) := by
  have h1 : ∀ k < m.length, Tendsto (fun σ => blur (W σ) m k * g σ) F (𝓝 (blur L m k)) := by
    intro k hk
    have e : (fun σ => blur (W σ) m k * g σ) =
        fun σ => ∑ j ∈ Finset.range m.length, W σ ((k : ℤ) - j) * g σ * m.getD j 0 := by
      funext σ
      unfold blur
      rw [Finset.sum_mul]
      exact Finset.sum_congr rfl fun j _ => by ring
    rw [e]
    refine tendsto_finsetSum _ fun j hj => (h _ ?_).mul_const _
    have := Finset.mem_range.mp hj
    rw [abs_lt]
    constructor <;> omega
  have h2 : Tendsto (fun σ => blurTotal (W σ) m * g σ) F (𝓝 (blurTotal L m)) := by
    have e : (fun σ => blurTotal (W σ) m * g σ) = fun σ => ∑ k ∈ Finset.range m.length, blur (W σ) m k * g σ := by
      funext σ
      unfold blurTotal
      rw [Finset.sum_mul]
    rw [e]
    exact tendsto_finsetSum _ fun k hk => h1 k (Finset.mem_range.mp hk)
  refine ((h1 k hk).div h2 hL).congr fun σ => ?_
  exact mul_div_mul_right _ _ (hg σ)

theorem tendsto_smooth {F : Filter ℝ} (hF : ∀ᶠ σ in F, 0 < σ) {b m : List ℝ} (hb : BinsOk b)
    (hm : m.length = b.length - 1) (hm0 : ∀ x ∈ m, 0 ≤ x) (hm1 : 0 < m.sum) (g : ℝ → ℝ) (hg : ∀ σ, g σ ≠ 0) (L : ℤ → ℝ)
    (h : ∀ d : ℤ, |d| < m.length → Tendsto (fun σ => weightsOf realSmoother b σ d * g σ) F (𝓝 (L d)))
    (hL : blurTotal L m ≠ 0) {k : Nat} (hk : k < m.length) (r : ℝ → List ℝ)
    (hr : ∀ σ > 0, smoothOne realSmoother b σ m = .ok (r σ)) :
    Tendsto (fun σ => (r σ).getD k 0) F (𝓝 (blur L m k / blurTotal L m)) := by
  refine (tendsto_blur (fun σ => weightsOf realSmoother b σ) g hg L m h hL hk).congr' ?_
  filter_upwards [hF] with σ hσ
  obtain ⟨r', h1, -, -, h2⟩ := C90_one realSmoother C90_fourier b σ m hb hσ hm hm0 hm1
  rw [hr σ hσ] at h1
  cases h1
  exact (h2 k hk).symm

theorem weights_large {b m : List ℝ} (hb : BinsOk b) (hm : m.length = b.length - 1) (d : ℤ)
    (hd : |d| < (m.length : ℤ)) :
    Tendsto (fun σ => weightsOf realSmoother b σ d * 1) atTop (𝓝 (if InReach m.length d then 1 else 0)) := by
  have hn : 2 ≤ m.length := by have := hb.1; omega
  have hdx : 0 < widthOf b := sub_pos.mpr hb.2
  set L : ℤ → ℝ := fun d => if InReach m.length d then 1 else 0 with hLdef
  change Tendsto _ _ (𝓝 (L d))
  simp only [mul_one]
  by_cases hin : InReach m.length d
  · have e : L d = Real.exp (-(0 : ℝ) ^ 2) := by simp [hLdef, hin]
    rw [e]
    have e3 : (fun σ => weightsOf realSmoother b σ d) = fun σ => movedGauss m.length (widthOf b) σ d := by
      funext σ
      rw [weightsOf, ← hm]
      exact weight_in _ _ hn _ _ d hin
    rw [e3]
    exact (Real.continuous_exp.tendsto _).comp ((tendsto_const_nhds.div_atTop tendsto_id).pow 2).neg
  · have e : L d = 0 := by simp [hLdef, hin]
    rw [e]
    refine tendsto_const_nhds.congr' ?_
    filter_upwards [eventually_gt_atTop 0, eventually_ge_atTop (((m.length : ℝ) + 1) * widthOf b)] with σ hσ hbig
    rw [weightsOf, ← hm]
    refine ((weight_out _ _ hn _ _ hdx hσ d hd hin).2 ?_).symm
    have hma := margin_ge (widthOf b) σ hdx hσ
    have h3 : ((m.length : ℝ) + 1) ≤ 4 * (margin (widthOf b) σ : ℝ) := by
      have : ((m.length : ℝ) + 1) * widthOf b ≤ 4 * (margin (widthOf b) σ : ℝ) * widthOf b := by linarith
      exact le_of_mul_le_mul_right this hdx
    have h4 : m.length + 1 ≤ 4 * margin (widthOf b) σ := by exact_mod_cast h3
    change _ ≤ 2 * margin (widthOf b) σ
    omega

/-- **C173.** As the smoothing parameter grows, the value of a bin tends to the sum of the values within reach, over the
total of these sums. -/
theorem C173_large {b m : List ℝ} (hb : BinsOk b) (hm : m.length = b.length - 1) (hm0 : ∀ x ∈ m, 0 ≤ x)
    (hm1 : 0 < m.sum) (r : ℝ → List ℝ) (hr : ∀ σ > 0, smoothOne realSmoother b σ m = .ok (r σ)) {k : Nat}
    (hk : k < m.length) :
    Tendsto (fun σ => (r σ).getD k 0) atTop
      (𝓝 (windowSum m k / ∑ l ∈ Finset.range m.length, windowSum m l)) := by
  have hn : 2 ≤ m.length := by have := hb.1; omega
  have hdx : 0 < widthOf b := sub_pos.mpr hb.2
  set L : ℤ → ℝ := fun d => if InReach m.length d then 1 else 0 with hLdef
  have e1 : ∀ k, windowSum m k = blur L m k := by
    intro k
    unfold windowSum blur
    refine Finset.sum_congr rfl fun j _ => ?_
    simp only [hLdef]
    by_cases hj : k < j + m.length / 2 ∧ j ≤ k + (m.length + 1) / 2
    · rw [if_pos hj, if_pos (show InReach _ _ from ⟨by omega, by omega⟩), one_mul]
    · rw [if_neg hj, if_neg (fun h : InReach _ _ => hj ⟨by have := h.2; omega, by have := h.1; omega⟩), zero_mul]
  have e2 : ∑ l ∈ Finset.range m.length, windowSum m l = blurTotal L m := by
    unfold blurTotal
    exact Finset.sum_congr rfl fun l _ => e1 l
  have hpos : 0 < blurTotal L m := by
    refine blurTotal_pos L (fun d => ?_) ?_ m hm0 (exists_pos_of_sum m hm0 hm1)
    · simp only [hLdef]
      split_ifs <;> norm_num
    · simp only [hLdef]
      rw [if_pos ⟨by omega, by omega⟩]
      exact one_pos
  rw [e1, e2]
  refine tendsto_smooth (eventually_gt_atTop 0) hb hm hm0 hm1 (fun _ => 1) (fun _ => one_ne_zero) L ?_ hpos.ne' hk r hr
  exact fun d hd => weights_large hb hm d hd

/-! ### Small parameters -/

theorem tendsto_gauss_zero {c : ℝ} (hc : 0 < c) : Tendsto (fun σ : ℝ => Real.exp (-(c / σ ^ 2))) (𝓝[>] 0) (𝓝 0) := by
  refine Real.tendsto_exp_atBot.comp (tendsto_neg_atTop_atBot.comp ?_)
  have h : Tendsto (fun σ : ℝ => c * (σ⁻¹) ^ 2) (𝓝[>] 0) atTop :=
    ((tendsto_pow_atTop two_ne_zero).comp tendsto_inv_nhdsGT_zero).const_mul_atTop hc
  refine h.congr fun σ => ?_
  rw [inv_pow, div_eq_mul_inv]

theorem margin_pos (dx σ : ℝ) (hdx : 0 < dx) (hσ : 0 < σ) : 1 ≤ margin dx σ := by
  unfold margin
  have : 0 < ⌈3 * σ / dx⌉ := Int.ceil_pos.mpr (by positivity)
  omega

theorem weight_out_small {b m : List ℝ} (hb : BinsOk b) (hm : m.length = b.length - 1) {σ : ℝ} (hσ : 0 < σ) {d : ℤ}
    (hd : |d| < (m.length : ℤ)) (h : ¬ InReach m.length d) :
    0 ≤ weightsOf realSmoother b σ d ∧ weightsOf realSmoother b σ d ≤ Real.exp (-(4 * widthOf b ^ 2 / σ ^ 2)) := by
  have hn : 2 ≤ m.length := by have := hb.1; omega
  have hdx : 0 < widthOf b := sub_pos.mpr hb.2
  refine ⟨weight_nonneg realSmoother C90_fourier _ _ _ _ d, ?_⟩
  rw [weightsOf, ← hm]
  refine (weight_out _ _ hn _ _ hdx hσ d hd h).1.trans ?_
  rw [Real.exp_le_exp, neg_le_neg_iff]
  have h1 : (1 : ℝ) ≤ (margin (widthOf b) σ : ℝ) := by exact_mod_cast margin_pos _ _ hdx hσ
  have h2 : 2 * widthOf b / σ ≤ 2 * (margin (widthOf b) σ : ℝ) * widthOf b / σ := by
    refine div_le_div_of_nonneg_right ?_ hσ.le
    nlinarith
  have h3 := pow_le_pow_left₀ (by positivity) h2 2
  have h4 : (2 * widthOf b / σ) ^ 2 = 4 * widthOf b ^ 2 / σ ^ 2 := by
    rw [div_pow, mul_pow]
    norm_num
  rw [h4] at h3
  exact h3

theorem getD_succ_tail (m : List ℝ) (k : Nat) : m.getD (k + 1) 0 = m.tail.getD k 0 := by cases m <;> simp

theorem sum_shifted (m : List ℝ) : ∑ k ∈ Finset.range m.length, m.getD (k + 1) 0 = m.tail.sum := by
  cases m with
  | nil => simp
  | cons a l =>
    rw [List.tail_cons, list_sum_getD, List.length_cons, Finset.sum_range_succ]
    simp

/-- A sum over the bins with weight one for the next bin. -/
theorem sum_next (m : List ℝ) (k : Nat) (hk : k < m.length) :
    ∑ j ∈ Finset.range m.length, (if (k : ℤ) - j = -1 then (1 : ℝ) else 0) * m.getD j 0 = m.getD (k + 1) 0 := by
  by_cases h : k + 1 < m.length
  · rw [Finset.sum_eq_single (k + 1)]
    · rw [if_pos (by omega), one_mul]
    · intro j _ hj
      rw [if_neg (by omega), zero_mul]
    · intro h2
      exact absurd (Finset.mem_range.mpr h) h2
  · rw [List.getD_eq_default _ _ (by omega)]
    refine Finset.sum_eq_zero fun j hj => ?_
    have := Finset.mem_range.mp hj
    rw [if_neg (by omega), zero_mul]

theorem sum_this (m : List ℝ) (k : Nat) (hk : k < m.length) :
    ∑ j ∈ Finset.range m.length, (if (k : ℤ) - j = 0 then (1 : ℝ) else 0) * m.getD j 0 = m.getD k 0 := by
  rw [Finset.sum_eq_single k]
  · rw [if_pos (by omega), one_mul]
  · intro j _ hj
    rw [if_neg (by omega), zero_mul]
  · intro h2
    exact absurd (Finset.mem_range.mpr hk) h2

theorem weights_odd {b m : List ℝ} (hb : BinsOk b) (hm : m.length = b.length - 1) (hodd : m.length % 2 = 1) (d : ℤ)
    (hd : |d| < (m.length : ℤ)) :
    Tendsto (fun σ => weightsOf realSmoother b σ d * 1) (𝓝[>] 0) (𝓝 (if d = -1 then 1 else 0)) := by
  have hn : 2 ≤ m.length := by have := hb.1; omega
  have hdx : 0 < widthOf b := sub_pos.mpr hb.2
  have hn' : (2 : ℝ) ≤ m.length := by exact_mod_cast hn
  have hoff : offCentre m.length = 1 := if_pos hodd
  set L : ℤ → ℝ := fun d => if d = -1 then 1 else 0 with hLdef
  change Tendsto _ _ (𝓝 (L d))
  simp only [mul_one]
  by_cases hin : InReach m.length d
  · have e3 : (fun σ => weightsOf realSmoother b σ d) = fun σ => movedGauss m.length (widthOf b) σ d := by
      funext σ
      rw [weightsOf, ← hm]
      exact weight_in _ _ hn _ _ d hin
    rw [e3]
    by_cases hd1 : d = -1
    · have e4 : L d = 1 := by simp [hLdef, hd1]
      rw [e4]
      refine tendsto_const_nhds.congr fun σ => ?_
      simp [movedGauss, hoff, hd1]
    · have e4 : L d = 0 := by simp [hLdef, hd1]
      rw [e4]
      have hne : ((d : ℝ) + 1) ≠ 0 := by
        intro h
        exact hd1 (by exact_mod_cast (by linarith : (d : ℝ) = -1))
      have hs : 0 < (m.length : ℝ) * widthOf b / ((m.length : ℝ) - 1) := by
        have : (0 : ℝ) < (m.length : ℝ) - 1 := by linarith
        positivity
      refine (tendsto_gauss_zero (c := (((d : ℝ) + 1) * ((m.length : ℝ) * widthOf b / ((m.length : ℝ) - 1))) ^ 2)
        (by have := mul_ne_zero hne hs.ne'; positivity)).congr fun σ => ?_
      rw [movedGauss, hoff, div_pow]
  · have hd1 : d ≠ -1 := fun h => hin ⟨by omega, by omega⟩
    have e4 : L d = 0 := by simp [hLdef, hd1]
    rw [e4]
    refine tendsto_of_tendsto_of_tendsto_of_le_of_le' tendsto_const_nhds
      (tendsto_gauss_zero (c := 4 * widthOf b ^ 2) (by positivity)) ?_ ?_
    · filter_upwards [self_mem_nhdsWithin] with σ hσ using (weight_out_small hb hm hσ hd hin).1
    · filter_upwards [self_mem_nhdsWithin] with σ hσ using (weight_out_small hb hm hσ hd hin).2

/-- **C173.** As the smoothing parameter tends to zero, with an odd number of bins, the smoothed marginal tends to the
marginal moved by one bin: the value of a bin tends to that of the next bin, and the value of the first bin is lost. -/
theorem C173_small_odd {b m : List ℝ} (hb : BinsOk b) (hm : m.length = b.length - 1) (hm0 : ∀ x ∈ m, 0 ≤ x)
    (hodd : m.length % 2 = 1) (hm1 : 0 < m.tail.sum) (r : ℝ → List ℝ)
    (hr : ∀ σ > 0, smoothOne realSmoother b σ m = .ok (r σ)) {k : Nat} (hk : k < m.length) :
    Tendsto (fun σ => (r σ).getD k 0) (𝓝[>] 0) (𝓝 (m.getD (k + 1) 0 / m.tail.sum)) := by
  have hn : 2 ≤ m.length := by have := hb.1; omega
  have hdx : 0 < widthOf b := sub_pos.mpr hb.2
  have hn' : (2 : ℝ) ≤ m.length := by exact_mod_cast hn
  have hoff : offCentre m.length = 1 := if_pos hodd
  set L : ℤ → ℝ := fun d => if d = -1 then 1 else 0 with hLdef
  have e1 : ∀ k < m.length, blur L m k = m.getD (k + 1) 0 := fun k hk => sum_next m k hk
  have e2 : blurTotal L m = m.tail.sum := by
    rw [← sum_shifted]
    exact Finset.sum_congr rfl fun k hk => e1 k (Finset.mem_range.mp hk)
  rw [← e1 k hk, ← e2]
  have hsum : 0 < m.sum := by
    cases m with
    | nil => simp at hn
    | cons a l =>
      have := hm0 a List.mem_cons_self
      rw [List.tail_cons] at hm1
      rw [List.sum_cons]
      linarith
  refine tendsto_smooth eventually_mem_nhdsWithin hb hm hm0 hsum (fun _ => 1) (fun _ => one_ne_zero) L ?_
    (by rw [e2]; exact hm1.ne') hk r hr
  exact fun d hd => weights_odd hb hm hodd d hd

/-- What the weights for an even number of bins are multiplied with. -/
noncomputable def evenScale (b m : List ℝ) (σ : ℝ) : ℝ :=
  Real.exp (((m.length : ℝ) * widthOf b / ((m.length : ℝ) - 1) / 2 / σ) ^ 2)

theorem weights_even {b m : List ℝ} (hb : BinsOk b) (hm : m.length = b.length - 1) (heven : m.length % 2 = 0) (d : ℤ)
    (hd : |d| < (m.length : ℤ)) :
    Tendsto (fun σ => weightsOf realSmoother b σ d * evenScale b m σ) (𝓝[>] 0)
      (𝓝 ((if d = 0 then 1 else 0) + (if d = -1 then 1 else 0))) := by
  have hn : 2 ≤ m.length := by have := hb.1; omega
  have hdx : 0 < widthOf b := sub_pos.mpr hb.2
  have hn' : (2 : ℝ) ≤ m.length := by exact_mod_cast hn
  have hoff : offCentre m.length = 1 / 2 := if_neg (by omega)
  unfold evenScale
  set s := (m.length : ℝ) * widthOf b / ((m.length : ℝ) - 1) with hsdef
  have hs : 0 < s := by
    have : (0 : ℝ) < (m.length : ℝ) - 1 := by linarith
    positivity
  have hs2 : s ≤ 2 * widthOf b := by
    rw [hsdef, div_le_iff₀ (by linarith)]
    nlinarith
  set L : ℤ → ℝ := fun d => (if d = 0 then 1 else 0) + (if d = -1 then 1 else 0) with hLdef
  change Tendsto _ _ (𝓝 (L d))
  by_cases hin : InReach m.length d
  · have e3 : (fun σ => weightsOf realSmoother b σ d * Real.exp ((s / 2 / σ) ^ 2)) =
        fun σ => Real.exp (-((d : ℝ) * (d + 1) * s ^ 2 / σ ^ 2)) := by
      funext σ
      rw [weightsOf, ← hm]
      rw [show blurWeight realSmoother m.length _ _ σ d = _ from weight_in _ _ hn _ _ d hin]
      change movedGauss m.length (widthOf b) σ d * _ = _
      rw [movedGauss, hoff, ← hsdef, ← Real.exp_add]
      congr 1
      rw [div_pow, div_pow, mul_pow]
      ring
    rw [e3]
    by_cases hd1 : d = 0 ∨ d = -1
    · have e4 : L d = 1 := by rcases hd1 with rfl | rfl <;> simp [hLdef]
      rw [e4]
      refine tendsto_const_nhds.congr fun σ => ?_
      rcases hd1 with rfl | rfl <;> simp
    · have e4 : L d = 0 := by
        simp only [hLdef]
        rw [if_neg (by omega), if_neg (by omega), add_zero]
      rw [e4]
      refine tendsto_gauss_zero ?_
      have h1 : (0 : ℤ) < d * (d + 1) := by
        rcases lt_or_ge d 0 with h | h
        · exact mul_pos_of_neg_of_neg h (by omega)
        · exact mul_pos (by omega) (by omega)
      have h2 : (0 : ℝ) < (d : ℝ) * (d + 1) := by exact_mod_cast h1
      positivity
  · have hd1 : ¬ (d = 0 ∨ d = -1) := fun h => hin ⟨by omega, by omega⟩
    have e4 : L d = 0 := by
      simp only [hLdef]
      rw [if_neg (by omega), if_neg (by omega), add_zero]
    rw [e4]
    refine tendsto_of_tendsto_of_tendsto_of_le_of_le' tendsto_const_nhds
      (tendsto_gauss_zero (c := 3 * widthOf b ^ 2) (by positivity)) ?_ ?_
    · filter_upwards [self_mem_nhdsWithin] with σ hσ
      exact mul_nonneg (weight_out_small hb hm hσ hd hin).1 (Real.exp_pos _).le
    · filter_upwards [self_mem_nhdsWithin] with σ hσ
      have hσ' : (0 : ℝ) < σ := hσ
      refine (mul_le_mul_of_nonneg_right (weight_out_small hb hm hσ hd hin).2 (Real.exp_pos _).le).trans ?_
      rw [← Real.exp_add, Real.exp_le_exp]
      have h1 : (s / 2 / σ) ^ 2 ≤ widthOf b ^ 2 / σ ^ 2 := by
        rw [← div_pow]
        exact pow_le_pow_left₀ (by positivity) (div_le_div_of_nonneg_right (by linarith) hσ'.le) 2
      have h2 : 4 * widthOf b ^ 2 / σ ^ 2 = 4 * (widthOf b ^ 2 / σ ^ 2) := by ring
      have h3 : 3 * widthOf b ^ 2 / σ ^ 2 = 3 * (widthOf b ^ 2 / σ ^ 2) := by ring
      rw [h2, h3]
      linarith

/-- **C173.** With an even number of bins the value of a bin tends to the sum of its own value and that of the next
bin, over the total of these sums. -/
theorem C173_small_even {b m : List ℝ} (hb : BinsOk b) (hm : m.length = b.length - 1) (hm0 : ∀ x ∈ m, 0 ≤ x)
    (heven : m.length % 2 = 0) (hm1 : 0 < m.sum) (r : ℝ → List ℝ)
    (hr : ∀ σ > 0, smoothOne realSmoother b σ m = .ok (r σ)) {k : Nat} (hk : k < m.length) :
    Tendsto (fun σ => (r σ).getD k 0) (𝓝[>] 0) (𝓝 ((m.getD k 0 + m.getD (k + 1) 0) / (m.sum + m.tail.sum))) := by
  have hn : 2 ≤ m.length := by have := hb.1; omega
  have hdx : 0 < widthOf b := sub_pos.mpr hb.2
  have hn' : (2 : ℝ) ≤ m.length := by exact_mod_cast hn
  have hoff : offCentre m.length = 1 / 2 := if_neg (by omega)
  set L : ℤ → ℝ := fun d => (if d = 0 then 1 else 0) + (if d = -1 then 1 else 0) with hLdef
  have e1 : ∀ k < m.length, blur L m k = m.getD k 0 + m.getD (k + 1) 0 := by
    intro k hk
    rw [← sum_next m k hk, ← sum_this m k hk, ← Finset.sum_add_distrib]
    unfold blur
    refine Finset.sum_congr rfl fun j _ => ?_
    simp only [hLdef]
    ring
  have e2 : blurTotal L m = m.sum + m.tail.sum := by
    rw [← sum_shifted, list_sum_getD m, ← Finset.sum_add_distrib]
    exact Finset.sum_congr rfl fun k hk => e1 k (Finset.mem_range.mp hk)
  have ht : 0 ≤ m.tail.sum := List.sum_nonneg fun x hx => hm0 x (List.mem_of_mem_tail hx)
  rw [← e1 k hk, ← e2]
  refine tendsto_smooth eventually_mem_nhdsWithin hb hm hm0 hm1 (evenScale b m)
    (fun _ => (Real.exp_pos _).ne') L ?_ (by rw [e2]; linarith) hk r hr
  exact fun d hd => weights_even hb hm heven d hd

/-- **C173 (negation).** A small smoothing parameter does not leave a marginal as it is: with an odd number of bins all
the probability of a bin goes to the bin before it. -/
theorem C173_negation_same {b : List ℝ} (hb : BinsOk b) (hodd : (b.length - 1) % 2 = 1) {l : Nat} (hl0 : 0 < l)
    (hl : l < b.length - 1) :
    ∃ r : ℝ → List ℝ, (∀ σ > 0, smoothOne realSmoother b σ (pointMass (b.length - 1) l) = .ok (r σ)) ∧
      Tendsto (fun σ => (r σ).getD l 0) (𝓝[>] 0) (𝓝 0) ∧ Tendsto (fun σ => (r σ).getD (l - 1) 0) (𝓝[>] 0) (𝓝 1) := by
  have hlen : (pointMass (b.length - 1) l : List ℝ).length = b.length - 1 := by simp [pointMass]
  have hpos : 0 < (pointMass (b.length - 1) l : List ℝ).sum := by
    rw [sum_pointMass _ _ hl]
    exact one_pos
  choose r hr using fun σ : {σ : ℝ // 0 < σ} =>
    C90_one realSmoother C90_fourier b σ.1 _ hb σ.2 hlen (pointMass_nonneg _ _) hpos
  have hr' : ∀ σ > 0, smoothOne realSmoother b σ (pointMass (b.length - 1) l) =
      .ok (if h : 0 < σ then r ⟨σ, h⟩ else []) := by
    intro σ hσ
    rw [dif_pos hσ]
    exact (hr ⟨σ, hσ⟩).1
  have hat : ∀ k < b.length - 1, (pointMass (b.length - 1) l : List ℝ).getD k 0 = if k = l then 1 else 0 := fun k hk =>
    getD_map_of_lt _ _ _ _ hk
  have ht : (pointMass (b.length - 1) l : List ℝ).tail.sum = 1 := by
    rw [← sum_shifted, hlen]
    rw [Finset.sum_eq_single (l - 1)]
    · rw [Nat.sub_add_cancel hl0, hat l hl, if_pos rfl]
    · intro k hk hne
      by_cases h : k + 1 < b.length - 1
      · rw [hat _ h, if_neg (by omega)]
      · rw [List.getD_eq_default _ _ (by omega)]
    · intro h
      exact absurd (Finset.mem_range.mpr (by omega)) h
  refine ⟨fun σ => if h : 0 < σ then r ⟨σ, h⟩ else [], hr', ?_, ?_⟩
  · have := C173_small_odd hb hlen (pointMass_nonneg _ _) (by rw [hlen]; exact hodd) (by rw [ht]; exact one_pos) _ hr'
      (k := l) (by omega)
    rw [ht, div_one] at this
    by_cases h : l + 1 < b.length - 1
    · rwa [hat _ h, if_neg (by omega)] at this
    · rwa [List.getD_eq_default _ _ (by omega)] at this
  · have := C173_small_odd hb hlen (pointMass_nonneg _ _) (by rw [hlen]; exact hodd) (by rw [ht]; exact one_pos) _ hr'
      (k := l - 1) (by omega)
    rwa [ht, div_one, Nat.sub_add_cancel hl0, hat l hl, if_pos rfl] at this

/-! ## Examples -/

namespace Ex

/-- Four bins of width one, and a parameter of one: more than the twelfth part of five. -/
example := C173_weights (b := [0, 1, 2, 3, 4]) (m := [1 / 2, 0, 1 / 4, 1 / 4]) ⟨by simp, by simp⟩ rfl
  (by intro x hx; fin_cases hx <;> norm_num) (by norm_num) (σ := 1) one_pos

example : ∃ r, smoothOne realSmoother [0, 1, 2, 3, 4] 10 (pointMass 4 0) = .ok r ∧ r.getD 2 0 = 0 ∧ r.getD 3 0 = 0 := by
  obtain ⟨r, h1, h2⟩ := C173_negation_flat (b := [0, 1, 2, 3, 4]) ⟨by simp, by simp⟩ (σ := 10) (by norm_num)
    (by norm_num [widthOf])
  exact ⟨r, h1, h2 2 (by simp) (by simp), h2 3 (by simp) (by simp)⟩

/-- Three bins, all the probability in the second. -/
example := C173_negation_same (b := [0, 1, 2, 3]) ⟨by simp, by simp⟩ rfl (l := 1) (by omega) (by simp)

/-- There are functions `r` as in the limits. -/
theorem smoothed_exists {b m : List ℝ} (hb : BinsOk b) (hm : m.length = b.length - 1) (hm0 : ∀ x ∈ m, 0 ≤ x)
    (hm1 : 0 < m.sum) : ∃ r : ℝ → List ℝ, ∀ σ > 0, smoothOne realSmoother b σ m = .ok (r σ) := by
  choose r hr using fun σ : {σ : ℝ // 0 < σ} => C90_one realSmoother C90_fourier b σ.1 _ hb σ.2 hm hm0 hm1
  exact ⟨fun σ => if h : 0 < σ then r ⟨σ, h⟩ else [], fun σ hσ => by
    simp only [dif_pos (show 0 < σ from hσ)]
    exact (hr ⟨σ, hσ⟩).1⟩

/-- Two bins: for a large parameter the first bin gets all that both bins have, the second what it has itself and
nothing of the first. -/
example : ∃ r : ℝ → List ℝ, (∀ σ > 0, smoothOne realSmoother [0, 1, 2] σ [3 / 4, 1 / 4] = .ok (r σ)) ∧
    Tendsto (fun σ => (r σ).getD 0 0) atTop (𝓝 (4 / 5)) ∧ Tendsto (fun σ => (r σ).getD 0 0) (𝓝[>] 0) (𝓝 (4 / 5)) := by
  have h0 : ∀ x ∈ [3 / 4, 1 / 4], (0 : ℝ) ≤ x := by intro x hx; fin_cases hx <;> norm_num
  obtain ⟨r, hr⟩ := smoothed_exists (b := [0, 1, 2]) (m := [3 / 4, 1 / 4]) ⟨by simp, by simp⟩ rfl h0 (by norm_num)
  refine ⟨r, hr, ?_, ?_⟩
  · have := C173_large ⟨by simp, by simp⟩ rfl h0 (by norm_num) r hr (k := 0) (by simp)
    simp [windowSum, Finset.sum_range_succ] at this
    norm_num at this
    exact this
  · have := C173_small_even ⟨by simp, by simp⟩ rfl h0 rfl (by norm_num) r hr (k := 0) (by simp)
    norm_num at this
    exact this

end Ex

end BET
