import Verif.Lemmas.Fft
import Verif.Props.Choose
import Mathlib.Tactic.Linarith
import Mathlib.Data.List.GetD
import Mathlib.Tactic.Positivity
import Mathlib.Algebra.BigOperators.Field
import Mathlib.Algebra.Order.BigOperators.Group.Finset

/-!
# C90: smoothing of marginals
-/

set_option autoImplicit false
set_option linter.unusedSectionVars false
set_option linter.unusedSimpArgs false

namespace BET

variable {K : Type} [Field K] [LinearOrder K] [IsStrictOrderedRing K] [FloorRing K]

/-! ## Specification -/

/-- What is used of `np.exp` and of products of Fourier transforms. -/
structure Spec.SmootherOk (S : Smoother K) : Prop where
  exp_pos : ∀ x, 0 < S.exp x
  exp_mono : StrictMono S.exp
  exp_add : ∀ x y, S.exp (x + y) = S.exp x * S.exp y
  conv : ∀ a b, S.conv a b = Spec.circConv a b
  conv2 : ∀ n₁ n₂ a b, S.conv2 n₁ n₂ a b = Spec.circConv2 n₁ n₂ a b

/-- Point number `t` of the grid of `nx` points from `- nx dx / 2` to `nx dx / 2` on which the kernel
is evaluated. -/
def Spec.kernelPoint (nx : Nat) (dx : K) (t : ℤ) : K :=
  -((nx : K) * dx / 2) + (t : K) * ((nx : K) * dx / ((nx - 1 : Nat) : K))

/-- The weight with which the value of a bin enters the result `d` bins further: the kernel at the point
whose number is `d` plus the number of half the bins (rounded up), with numbers repeating after `nx` bins
and a margin of `aug` on each side, and zero in the margins. -/
def Spec.blurWeight (S : Smoother K) (nx aug : Nat) (dx sigma : K) (d : ℤ) : K :=
  let t := (d + (((nx + 1) / 2 : Nat) : ℤ) + aug) % ((nx + 2 * aug : Nat) : ℤ) - aug
  if 0 ≤ t ∧ t < nx then S.exp (-(Spec.kernelPoint nx dx t / sigma) ^ 2) else 0

/-- The weighted sum of the values. -/
def Spec.blur (w : ℤ → K) (m : List K) (k : Nat) : K :=
  ∑ j ∈ Finset.range m.length, w ((k : ℤ) - j) * m.getD j 0

/-- Three standard deviations in bins, rounded up. -/
def Spec.margin (dx sigma : K) : Nat := ⌈3 * sigma / dx⌉.toNat

/-- The weights for bins `b`. -/
def Spec.weightsOf (S : Smoother K) (b : List K) (sigma : K) : ℤ → K :=
  Spec.blurWeight S (b.length - 1) (Spec.margin (b.getD 1 0 - b.getD 0 0) sigma)
    (b.getD 1 0 - b.getD 0 0) sigma

/-- Probabilities: non-negative numbers with sum one. -/
def Spec.Probs (m : List K) : Prop := (∀ x ∈ m, 0 ≤ x) ∧ m.sum = 1

/-- All products of an entry of the first and one of the second. -/
def Spec.outerProd (a b : List K) : List (List K) := a.map fun x => b.map fun y => x * y

/-- Bins for the smoother: at least two bins, increasing edges at the start. -/
def Spec.BinsOk (b : List K) : Prop := 3 ≤ b.length ∧ b.getD 0 0 < b.getD 1 0

open Spec

/-! ## Entries of arrays -/

theorem ext_getD {α : Type} (d : α) (xs ys : List α) (h : xs.length = ys.length)
    (hk : ∀ k < xs.length, xs.getD k d = ys.getD k d) : xs = ys := by
  refine List.ext_getElem h fun k h1 h2 => ?_
  have := hk k h1
  simpa [List.getD, List.getElem?_eq_getElem h1, List.getElem?_eq_getElem h2] using this

theorem getD_map_of_lt {α : Type} (n : Nat) (f : Nat → α) (d : α) (k : Nat) (hk : k < n) :
    ((List.range n).map f).getD k d = f k := by
  simp [List.getD, hk]

theorem length_embed (aug : Nat) (xs : List K) : (embed aug xs).length = xs.length + 2 * aug := by
  simp [embed]
  omega

theorem getD_replicate_zero (n k : Nat) : (List.replicate n (0 : K)).getD k 0 = 0 := by
  by_cases h : k < n <;> simp [List.getD, h]

theorem getD_embed (aug : Nat) (xs : List K) (k : Nat) :
    (embed aug xs).getD k 0 = if aug ≤ k then xs.getD (k - aug) 0 else 0 := by
  unfold embed
  by_cases h : aug ≤ k
  · rw [if_pos h, List.append_assoc, List.getD_append_right _ _ _ _ (by simpa using h)]
    simp only [List.length_replicate]
    by_cases h2 : k - aug < xs.length
    · rw [List.getD_append _ _ _ _ h2]
    · rw [List.getD_append_right _ _ _ _ (by omega), getD_replicate_zero,
        List.getD_eq_default _ _ (by omega)]
  · rw [if_neg h, List.append_assoc, List.getD_append _ _ _ _ (by simp; omega), getD_replicate_zero]

theorem length_fftshift {α : Type} (xs : List α) : (fftshift xs).length = xs.length := by
  simp [fftshift]

theorem getD_fftshift {α : Type} (d : α) (xs : List α) (k : Nat) (hk : k < xs.length) :
    (fftshift xs).getD k d = xs.getD ((k + (xs.length - xs.length / 2)) % xs.length) d := by
  unfold fftshift
  set n := xs.length with hn
  by_cases h : k < n / 2
  · rw [List.getD_append _ _ _ _ (by simp; omega), Nat.mod_eq_of_lt (by omega)]
    simp only [List.getD, List.getElem?_drop]
    rw [Nat.add_comm]
  · rw [List.getD_append_right _ _ _ _ (by simp; omega)]
    have h1 : (k + (n - n / 2)) % n = k - n / 2 := by
      rw [show k + (n - n / 2) = (k - n / 2) + n by omega, Nat.add_mod_right,
        Nat.mod_eq_of_lt (by omega)]
    rw [h1]
    simp only [List.length_drop, List.getD]
    rw [List.getElem?_take_of_lt (by omega), show k - (xs.length - (n - n / 2)) = k - n / 2 by omega]

theorem length_crop {α : Type} (aug nx : Nat) (xs : List α) (h : aug + nx ≤ xs.length) :
    (crop aug nx xs).length = nx := by
  simp [crop]
  omega

theorem getD_crop {α : Type} (d : α) (aug nx : Nat) (xs : List α) (k : Nat) (hk : k < nx) :
    (crop aug nx xs).getD k d = xs.getD (aug + k) d := by
  simp only [crop, List.getD]
  rw [List.getElem?_take_of_lt hk, List.getElem?_drop]

theorem list_sum_getD (xs : List K) : xs.sum = ∑ k ∈ Finset.range xs.length, xs.getD k 0 := by
  induction xs with
  | nil => simp
  | cons x xs ih =>
    rw [List.sum_cons, List.length_cons, Finset.sum_range_succ', ih]
    simp [add_comm]

/-- Sums over an array with margins of zeros. -/
theorem sum_margin (aug n : Nat) (f : Nat → K) (h : ∀ l, (l < aug ∨ aug + n ≤ l) → f l = 0) :
    ∑ l ∈ Finset.range (n + 2 * aug), f l = ∑ j ∈ Finset.range n, f (aug + j) := by
  rw [show n + 2 * aug = aug + (n + aug) by omega, Finset.sum_range_add, Finset.sum_range_add]
  rw [Finset.sum_eq_zero (fun l hl => h l (Or.inl (Finset.mem_range.mp hl))),
    Finset.sum_eq_zero (s := Finset.range aug) (fun l _ => h _ (Or.inr (by omega)))]
  simp

/-! ## One dimension -/

theorem length_kernel1 (S : Smoother K) (nx : Nat) (dx sigma : K) :
    (kernel1 S nx dx sigma).length = nx := by
  simp [kernel1, linspace]

theorem getD_kernel1 (S : Smoother K) (nx : Nat) (dx sigma : K) (t : Nat) (ht : t < nx) :
    (kernel1 S nx dx sigma).getD t 0 = S.exp (-(Spec.kernelPoint nx dx t / sigma) ^ 2) := by
  simp only [kernel1, linspace, List.map_map]
  rw [getD_map_of_lt _ _ _ _ ht]
  simp only [Function.comp, Spec.kernelPoint]
  congr 3
  push_cast
  ring

/-- The entries of the shifted kernel. -/
theorem shifted_kernel (S : Smoother K) (nx aug : Nat) (dx sigma : K) (k j : Nat) (hk : k < nx)
    (hj : j < nx) :
    (fftshift (embed aug (kernel1 S nx dx sigma))).getD
        ((aug + k + (nx + 2 * aug) - (aug + j)) % (nx + 2 * aug)) 0 =
      Spec.blurWeight S nx aug dx sigma ((k : ℤ) - j) := by
  have hN : (embed aug (kernel1 S nx dx sigma)).length = nx + 2 * aug := by
    rw [length_embed, length_kernel1]
  have hpos : 0 < nx + 2 * aug := by omega
  rw [getD_fftshift _ _ _ (by rw [hN]; exact Nat.mod_lt _ hpos), hN, getD_embed]
  set N := nx + 2 * aug with hNdef
  set t := ((aug + k + N - (aug + j)) % N + (N - N / 2)) % N with ht
  have htN : t < N := Nat.mod_lt _ hpos
  have hti : ((k : ℤ) - j + (((nx + 1) / 2 : Nat) : ℤ) + aug) % (N : ℤ) = (t : ℤ) := by
    have h2 : (t : ℤ) = ((((aug + k + N - (aug + j) : Nat) : ℤ) % (N : ℤ)) + ((N - N / 2 : Nat) : ℤ)) % (N : ℤ) := by
      rw [ht]
      push_cast
      rfl
    rw [h2, Int.emod_add_emod]
    have h1 : ((aug + k + N - (aug + j) : Nat) : ℤ) + ((N - N / 2 : Nat) : ℤ) =
        (k : ℤ) - j + (((nx + 1) / 2 : Nat) : ℤ) + aug + N := by omega
    rw [h1, Int.add_emod_right]
  unfold Spec.blurWeight
  simp only [← hNdef, hti]
  by_cases h : aug ≤ t
  · rw [if_pos h]
    by_cases h2 : t - aug < nx
    · rw [if_pos (by omega), getD_kernel1 _ _ _ _ _ h2]
      rw [show ((t - aug : Nat) : ℤ) = (t : ℤ) - aug by omega]
    · rw [if_neg (by omega), List.getD_eq_default _ _ (by rw [length_kernel1]; omega)]
  · rw [if_neg h, if_neg (by omega)]

theorem circConv_getD (a b : List K) (m : Nat) (hm : m < a.length) :
    (Spec.circConv a b).getD m 0 =
      ∑ l ∈ Finset.range a.length, a.getD ((m + a.length - l) % a.length) 0 * b.getD l 0 := by
  unfold Spec.circConv
  rw [getD_map_of_lt _ _ _ _ hm]

theorem smoothed_entries (S : Smoother K) (hS : Spec.SmootherOk S) (nx aug : Nat) (dx sigma : K)
    (m : List K) (hm : m.length = nx) :
    crop aug nx (S.conv (fftshift (embed aug (kernel1 S nx dx sigma))) (embed aug m)) =
      (List.range nx).map fun (k : Nat) => Spec.blur (Spec.blurWeight S nx aug dx sigma) m k := by
  have hN : (fftshift (embed aug (kernel1 S nx dx sigma))).length = nx + 2 * aug := by
    rw [length_fftshift, length_embed, length_kernel1]
  have hC : (Spec.circConv (fftshift (embed aug (kernel1 S nx dx sigma))) (embed aug m)).length =
      nx + 2 * aug := by
    unfold Spec.circConv
    rw [List.length_map, List.length_range, hN]
  rw [hS.conv]
  refine ext_getD 0 _ _ ?_ fun k hk => ?_
  · rw [length_crop _ _ _ (by omega)]
    simp
  · rw [length_crop _ _ _ (by omega)] at hk
    rw [getD_crop _ _ _ _ _ hk, circConv_getD _ _ _ (by omega), getD_map_of_lt _ _ _ _ hk, hN,
      sum_margin aug nx]
    · unfold Spec.blur
      rw [hm]
      refine Finset.sum_congr rfl fun j hj => ?_
      rw [shifted_kernel S nx aug dx sigma k j hk (Finset.mem_range.mp hj), getD_embed,
        if_pos (by omega), Nat.add_sub_cancel_left]
    · intro l hl
      rw [getD_embed]
      rcases hl with hl | hl
      · rw [if_neg (by omega), mul_zero]
      · rw [if_pos (by omega), List.getD_eq_default m _ (by omega), mul_zero]

theorem augOf_ok (dx sigma : K) (hdx : 0 < dx) (hs : 0 < sigma) :
    augOf dx sigma = .ok (Spec.margin dx sigma) := by
  have h : 0 ≤ ⌈3 * sigma / dx⌉ := Int.ceil_nonneg (by positivity)
  unfold augOf
  simp [raiseIf, hdx.ne', hs.ne', not_lt.mpr h, ok_bind, Spec.margin]

theorem firstWidth_ok (b : List K) (hb : 2 ≤ b.length) :
    firstWidth b = .ok (b.getD 1 0 - b.getD 0 0) := by
  unfold firstWidth
  simp only [getIdx, List.getElem?_eq_getElem (show 1 < b.length by omega),
    List.getElem?_eq_getElem (show 0 < b.length by omega), ok_bind, List.getD, Option.getD_some]
  rfl

theorem sum_map_range_finset (n : Nat) (f : Nat → K) :
    ((List.range n).map f).sum = ∑ k ∈ Finset.range n, f k := by
  rw [list_sum_getD, List.length_map, List.length_range]
  exact Finset.sum_congr rfl fun k hk => getD_map_of_lt _ _ _ _ (Finset.mem_range.mp hk)

/-- The total by which the weighted sums are divided. -/
def Spec.blurTotal (w : ℤ → K) (m : List K) : K := ∑ k ∈ Finset.range m.length, Spec.blur w m k

theorem smoothOne_eq (S : Smoother K) (hS : Spec.SmootherOk S) (b : List K) (sigma : K) (m : List K)
    (hb : 2 ≤ b.length) (hb2 : b.getD 0 0 < b.getD 1 0) (hs : 0 < sigma)
    (hm : m.length = b.length - 1) :
    smoothOne S b sigma m = if Spec.blurTotal (Spec.weightsOf S b sigma) m = 0 then .error .zeroDivision
      else .ok ((List.range m.length).map fun (k : Nat) =>
        Spec.blur (Spec.weightsOf S b sigma) m k / Spec.blurTotal (Spec.weightsOf S b sigma) m) := by
  have hdx : 0 < b.getD 1 0 - b.getD 0 0 := sub_pos.mpr hb2
  unfold smoothOne
  rw [firstWidth_ok b hb, ok_bind, augOf_ok _ _ hdx hs, ok_bind]
  simp only []
  rw [smoothed_entries S hS (b.length - 1) _ _ _ m hm]
  simp only [sum_map_range_finset]
  simp only [Spec.blurTotal, Spec.weightsOf, hm]
  by_cases h : ∑ k ∈ Finset.range (b.length - 1),
      Spec.blur (Spec.blurWeight S (b.length - 1) (Spec.margin (b.getD 1 0 - b.getD 0 0) sigma)
        (b.getD 1 0 - b.getD 0 0) sigma) m k = 0
  · rw [if_pos h]
    simp only [raiseIf, hm, ne_eq, not_true_eq_false, if_false, if_pos h, ok_bind, error_bind]
  · rw [if_neg h]
    simp only [raiseIf, hm, ne_eq, not_true_eq_false, if_false, if_neg h, ok_bind, List.map_map]
    rfl


/-! ### Weights -/

theorem weight_nonneg (S : Smoother K) (hS : Spec.SmootherOk S) (nx aug : Nat) (dx sigma : K) (d : ℤ) :
    0 ≤ Spec.blurWeight S nx aug dx sigma d := by
  unfold Spec.blurWeight
  simp only []
  split_ifs
  · exact (hS.exp_pos _).le
  · exact le_refl 0

theorem weight_near (S : Smoother K) (nx aug : Nat) (dx sigma : K) (d : ℤ)
    (h0 : 0 ≤ d + (((nx + 1) / 2 : Nat) : ℤ)) (h1 : d + (((nx + 1) / 2 : Nat) : ℤ) < nx) :
    Spec.blurWeight S nx aug dx sigma d =
      S.exp (-(Spec.kernelPoint nx dx (d + (((nx + 1) / 2 : Nat) : ℤ)) / sigma) ^ 2) := by
  unfold Spec.blurWeight
  simp only []
  rw [Int.emod_eq_of_lt (by omega) (by push_cast; omega), add_sub_cancel_right, if_pos ⟨h0, h1⟩]

theorem weight_zero_pos (S : Smoother K) (hS : Spec.SmootherOk S) (nx aug : Nat) (dx sigma : K)
    (hnx : 2 ≤ nx) : 0 < Spec.blurWeight S nx aug dx sigma 0 := by
  rw [weight_near S nx aug dx sigma 0 (by omega) (by omega)]
  exact hS.exp_pos _

theorem blur_nonneg (w : ℤ → K) (hw : ∀ d, 0 ≤ w d) (m : List K) (hm : ∀ x ∈ m, 0 ≤ x) (k : Nat) :
    0 ≤ Spec.blur w m k := by
  refine Finset.sum_nonneg fun j hj => mul_nonneg (hw _) ?_
  have hj' := Finset.mem_range.mp hj
  rw [List.getD_eq_getElem _ _ hj']
  exact hm _ (List.getElem_mem hj')

theorem blurTotal_pos (w : ℤ → K) (hw : ∀ d, 0 ≤ w d) (hw0 : 0 < w 0) (m : List K)
    (hm : ∀ x ∈ m, 0 ≤ x) (hp : ∃ x ∈ m, 0 < x) : 0 < Spec.blurTotal w m := by
  obtain ⟨x, hx, hxp⟩ := hp
  obtain ⟨l, hl, rfl⟩ := List.mem_iff_getElem.mp hx
  unfold Spec.blurTotal
  refine Finset.sum_pos' (fun k _ => blur_nonneg w hw m hm k) ⟨l, Finset.mem_range.mpr hl, ?_⟩
  refine Finset.sum_pos' (fun j hj => mul_nonneg (hw _) ?_) ⟨l, Finset.mem_range.mpr hl, ?_⟩
  · have hj' := Finset.mem_range.mp hj
    rw [List.getD_eq_getElem _ _ hj']
    exact hm _ (List.getElem_mem hj')
  · rw [sub_self, List.getD_eq_getElem _ _ hl]
    exact mul_pos hw0 hxp

theorem exists_pos_of_sum (m : List K) (hm : ∀ x ∈ m, 0 ≤ x) (h : 0 < m.sum) : ∃ x ∈ m, 0 < x := by
  by_contra hc
  push Not at hc
  have : m.sum = 0 := List.sum_eq_zero fun x hx => le_antisymm (hc x hx) (hm x hx)
  exact absurd h (by rw [this]; exact lt_irrefl 0)

/-! ### Claims in one dimension -/

/-- **C90** One marginal, any number of bins from two on, any positive smoothing parameter: the smoothed
marginal has one value for each bin, these are probabilities again, and each is the sum of the values in
all bins, with the weights of the kernel for the number of bins between them, over the sum of all
these. -/
theorem C90_one (S : Smoother K) (hS : Spec.SmootherOk S) (b : List K) (sigma : K) (m : List K)
    (hb : Spec.BinsOk b) (hs : 0 < sigma) (hm : m.length = b.length - 1)
    (hm0 : ∀ x ∈ m, 0 ≤ x) (hm1 : 0 < m.sum) :
    ∃ r, smoothOne S b sigma m = .ok r ∧ r.length = m.length ∧ Spec.Probs r ∧
      ∀ k < m.length, r.getD k 0 = Spec.blur (Spec.weightsOf S b sigma) m k /
        Spec.blurTotal (Spec.weightsOf S b sigma) m := by
  have hw : ∀ d, 0 ≤ Spec.weightsOf S b sigma d := fun d => weight_nonneg S hS _ _ _ _ d
  have hw0 : 0 < Spec.weightsOf S b sigma 0 :=
    weight_zero_pos S hS _ _ _ _ (by have := hb.1; omega)
  have hT := blurTotal_pos _ hw hw0 m hm0 (exists_pos_of_sum m hm0 hm1)
  refine ⟨_, (smoothOne_eq S hS b sigma m (by have := hb.1; omega) hb.2 hs hm).trans (if_neg hT.ne'),
    by simp, ⟨?_, ?_⟩, ?_⟩
  · intro x hx
    obtain ⟨k, _, rfl⟩ := List.mem_map.mp hx
    exact div_nonneg (blur_nonneg _ hw m hm0 k) hT.le
  · rw [sum_map_range_finset, ← Finset.sum_div]
    exact div_self hT.ne'
  · intro k hk
    rw [getD_map_of_lt _ _ _ _ hk]

/-- **C90** `smooth_marginals_1D` on a dictionary of marginals with bins and smoothing parameters for
their directions keeps the keys and the numbers of bins, and gives probabilities. -/
theorem C90_smooth1D_partial (S : Smoother K) (hS : Spec.SmootherOk S) (marginals : List (Nat × List K))
    (bins : List (List K)) (sigma : Sigma K)
    (h : ∀ e ∈ marginals, ∃ b s, bins[e.1]? = some b ∧ (sigma.toList bins.length)[e.1]? = some s ∧
      Spec.BinsOk b ∧ 0 < s ∧ e.2.length = b.length - 1 ∧ (∀ x ∈ e.2, 0 ≤ x) ∧ 0 < e.2.sum) :
    ∃ r, smoothMarginals1D S marginals bins sigma = .ok r ∧
      List.Forall₂ (fun e e' => e'.1 = e.1 ∧ e'.2.length = e.2.length ∧ Spec.Probs e'.2 ∧
        ∃ b s, bins[e.1]? = some b ∧ (sigma.toList bins.length)[e.1]? = some s ∧
          smoothOne S b s e.2 = .ok e'.2) marginals r := by
  unfold smoothMarginals1D
  induction marginals with
  | nil => exact ⟨[], rfl, .nil⟩
  | cons e es ih =>
    obtain ⟨r, hr, hf⟩ := ih fun e he => h e (List.mem_cons_of_mem _ he)
    obtain ⟨b, s, h1, h2, h3, h4, h5, h6, h7⟩ := h e (List.mem_cons_self ..)
    obtain ⟨v, hv, hl, hp, _⟩ := C90_one S hS b s e.2 h3 h4 h5 h6 h7
    refine ⟨(e.1, v) :: r, ?_, .cons ⟨rfl, hl, hp, b, s, h1, h2, hv⟩ hf⟩
    rw [List.mapM_cons, hr]
    simp only [getIdx, h1, h2, hv, ok_bind]
    rfl

/-- **C90** Smoothing depends on the values only up to a common factor. -/
theorem C90_scale (S : Smoother K) (hS : Spec.SmootherOk S) (b : List K) (sigma : K) (m : List K)
    (hb : Spec.BinsOk b) (hs : 0 < sigma) (hm : m.length = b.length - 1) (c : K) (hc : c ≠ 0) :
    smoothOne S b sigma (m.map fun x => c * x) = smoothOne S b sigma m := by
  have hb1 : 2 ≤ b.length := by have := hb.1; omega
  have hblur : ∀ k, Spec.blur (Spec.weightsOf S b sigma) (m.map fun x => c * x) k =
      c * Spec.blur (Spec.weightsOf S b sigma) m k := by
    intro k
    unfold Spec.blur
    rw [Finset.mul_sum, List.length_map]
    refine Finset.sum_congr rfl fun j hj => ?_
    have hj' := Finset.mem_range.mp hj
    rw [List.getD_eq_getElem _ _ hj', List.getD_eq_getElem _ _ (by simpa using hj'), List.getElem_map]
    ring
  have htot : Spec.blurTotal (Spec.weightsOf S b sigma) (m.map fun x => c * x) =
      c * Spec.blurTotal (Spec.weightsOf S b sigma) m := by
    unfold Spec.blurTotal
    rw [Finset.mul_sum, List.length_map]
    exact Finset.sum_congr rfl fun k _ => hblur k
  rw [smoothOne_eq S hS b sigma m hb1 hb.2 hs hm,
    smoothOne_eq S hS b sigma _ hb1 hb.2 hs (by simpa using hm), htot]
  by_cases h : Spec.blurTotal (Spec.weightsOf S b sigma) m = 0
  · rw [if_pos h, if_pos (by rw [h, mul_zero])]
  · rw [if_neg h, if_neg (mul_ne_zero hc h)]
    refine congrArg Except.ok ?_
    rw [List.length_map]
    refine List.map_congr_left fun k _ => ?_
    rw [hblur, mul_div_mul_left _ _ hc]

/-- All the probability in bin `l`. -/
def Spec.pointMass (n l : Nat) : List K := (List.range n).map fun (k : Nat) => if k = l then 1 else 0

theorem blur_pointMass (w : ℤ → K) (n l : Nat) (hl : l < n) (k : Nat) :
    Spec.blur w (Spec.pointMass n l) k = w ((k : ℤ) - l) := by
  unfold Spec.blur Spec.pointMass
  rw [List.length_map, List.length_range, Finset.sum_eq_single l]
  · rw [getD_map_of_lt _ _ _ _ hl, if_pos rfl, mul_one]
  · intro j hj hne
    rw [getD_map_of_lt _ _ _ _ (Finset.mem_range.mp hj), if_neg hne, mul_zero]
  · intro h
    exact absurd (Finset.mem_range.mpr hl) h

theorem sum_pointMass (n l : Nat) (hl : l < n) : (Spec.pointMass n l : List K).sum = 1 := by
  unfold Spec.pointMass
  rw [sum_map_range_finset, Finset.sum_ite_eq', if_pos (Finset.mem_range.mpr hl)]

theorem pointMass_nonneg (n l : Nat) : ∀ x ∈ (Spec.pointMass n l : List K), 0 ≤ x := by
  intro x hx
  obtain ⟨k, _, rfl⟩ := List.mem_map.mp hx
  split_ifs
  · exact zero_le_one
  · exact le_refl 0

theorem smooth_pointMass (S : Smoother K) (hS : Spec.SmootherOk S) (b : List K) (sigma : K)
    (hb : Spec.BinsOk b) (hs : 0 < sigma) (l : Nat) (hl : l < b.length - 1) :
    ∃ (r : List K) (T : K), smoothOne S b sigma (Spec.pointMass (b.length - 1) l) = .ok r ∧ 0 < T ∧
      ∀ k < b.length - 1, r.getD k 0 = Spec.weightsOf S b sigma ((k : ℤ) - l) / T := by
  have hlen : (Spec.pointMass (b.length - 1) l : List K).length = b.length - 1 := by
    simp [Spec.pointMass]
  have hsum : (0 : K) < (Spec.pointMass (b.length - 1) l : List K).sum := by
    rw [sum_pointMass _ _ hl]
    exact one_pos
  obtain ⟨r, hr, _, _, hk⟩ := C90_one S hS b sigma _ hb hs hlen (pointMass_nonneg _ _) hsum
  have hw0 : 0 < Spec.weightsOf S b sigma 0 :=
    weight_zero_pos S hS _ _ _ _ (by have := hb.1; omega)
  refine ⟨r, Spec.blurTotal (Spec.weightsOf S b sigma) (Spec.pointMass (b.length - 1) l), hr,
    blurTotal_pos _ (fun d => weight_nonneg S hS _ _ _ _ d) hw0 _ (pointMass_nonneg _ _)
      (exists_pos_of_sum _ (pointMass_nonneg _ _) hsum), fun k hk' => ?_⟩
  rw [hk k (by omega), blur_pointMass _ _ _ hl]

/-- **C90 (negation)** With an odd number of bins the kernel is not centred: probability that is all in
one bin is moved, the bin before it gets more of it than that bin itself, for every smoothing
parameter. -/
theorem C90_negation_odd (S : Smoother K) (hS : Spec.SmootherOk S) (b : List K) (sigma : K) (h : Nat)
    (hb : Spec.BinsOk b) (hn : b.length - 1 = 2 * h + 1) (hs : 0 < sigma) (l : Nat) (hl0 : 0 < l)
    (hl : l < b.length - 1) :
    ∃ r, smoothOne S b sigma (Spec.pointMass (b.length - 1) l) = .ok r ∧
      r.getD l 0 < r.getD (l - 1) 0 := by
  obtain ⟨r, T, hr, hT, hk⟩ := smooth_pointMass S hS b sigma hb hs l hl
  refine ⟨r, hr, ?_⟩
  have hh : 0 < h := by have := hb.1; omega
  have hh' : (0 : K) < (h : K) := by exact_mod_cast hh
  have hdx : 0 < b.getD 1 0 - b.getD 0 0 := sub_pos.mpr hb.2
  rw [hk l hl, hk (l - 1) (by omega)]
  refine div_lt_div_of_pos_right ?_ hT
  unfold Spec.weightsOf
  rw [weight_near _ _ _ _ _ _ (by omega) (by omega), weight_near _ _ _ _ _ _ (by omega) (by omega)]
  refine hS.exp_mono ?_
  have e1 : ((l : ℤ) - l + (((b.length - 1 + 1) / 2 : Nat) : ℤ)) = ((h + 1 : Nat) : ℤ) := by omega
  have e2 : (((l - 1 : Nat) : ℤ) - l + (((b.length - 1 + 1) / 2 : Nat) : ℤ)) = ((h : Nat) : ℤ) := by omega
  rw [e1, e2, hn]
  have hc : ((2 * h + 1 - 1 : Nat) : K) = 2 * h := by
    rw [Nat.add_sub_cancel]
    push_cast
    ring
  have p0 : Spec.kernelPoint (2 * h + 1) (b.getD 1 0 - b.getD 0 0) ((h : Nat) : ℤ) = 0 := by
    unfold Spec.kernelPoint
    rw [hc]
    push_cast
    field_simp
    ring
  have p1 : 0 < Spec.kernelPoint (2 * h + 1) (b.getD 1 0 - b.getD 0 0) ((h + 1 : Nat) : ℤ) := by
    have : Spec.kernelPoint (2 * h + 1) (b.getD 1 0 - b.getD 0 0) ((h + 1 : Nat) : ℤ) =
        ((2 * h + 1 : Nat) : K) * (b.getD 1 0 - b.getD 0 0) / (2 * h) := by
      unfold Spec.kernelPoint
      rw [hc]
      push_cast
      field_simp
      ring
    rw [this]
    have : (0 : K) < ((2 * h + 1 : Nat) : K) := by exact_mod_cast Nat.succ_pos _
    positivity
  rw [p0]
  have : 0 < Spec.kernelPoint (2 * h + 1) (b.getD 1 0 - b.getD 0 0) ((h + 1 : Nat) : ℤ) / sigma :=
    div_pos p1 hs
  have h2 := pow_pos this 2
  simp only [zero_div]
  linarith

/-- **C90 (negation)** With an even number of bins the kernel is centred between two bins: the bin before
the one that has all the probability gets as much as this, and the bin after it gets less. -/
theorem C90_negation_even (S : Smoother K) (hS : Spec.SmootherOk S) (b : List K) (sigma : K) (h : Nat)
    (hb : Spec.BinsOk b) (hn : b.length - 1 = 2 * h) (hh : 2 ≤ h) (hs : 0 < sigma) (l : Nat)
    (hl0 : 0 < l) (hl : l + 1 < b.length - 1) :
    ∃ r, smoothOne S b sigma (Spec.pointMass (b.length - 1) l) = .ok r ∧
      r.getD (l - 1) 0 = r.getD l 0 ∧ r.getD (l + 1) 0 < r.getD (l - 1) 0 := by
  obtain ⟨r, T, hr, hT, hk⟩ := smooth_pointMass S hS b sigma hb hs l (by omega)
  have hh' : (2 : K) ≤ (h : K) := by exact_mod_cast hh
  have hdx : 0 < b.getD 1 0 - b.getD 0 0 := sub_pos.mpr hb.2
  have hc : ((2 * h - 1 : Nat) : K) = 2 * h - 1 := by
    rw [Nat.cast_sub (by omega)]
    push_cast
    ring
  have hpos : (0 : K) < 2 * h - 1 := by linarith
  have q0 : Spec.kernelPoint (2 * h) (b.getD 1 0 - b.getD 0 0) ((h : Nat) : ℤ) =
      h * (b.getD 1 0 - b.getD 0 0) / (2 * h - 1) := by
    unfold Spec.kernelPoint
    rw [hc]
    push_cast
    field_simp
    ring
  have q1 : Spec.kernelPoint (2 * h) (b.getD 1 0 - b.getD 0 0) ((h - 1 : Nat) : ℤ) =
      -(h * (b.getD 1 0 - b.getD 0 0) / (2 * h - 1)) := by
    unfold Spec.kernelPoint
    rw [hc]
    have : (((h - 1 : Nat) : ℤ) : K) = h - 1 := by
      have : ((h - 1 : Nat) : ℤ) = (h : ℤ) - 1 := by omega
      rw [this]
      push_cast
      ring
    rw [this]
    push_cast
    field_simp
    ring
  have q2 : Spec.kernelPoint (2 * h) (b.getD 1 0 - b.getD 0 0) ((h + 1 : Nat) : ℤ) =
      3 * (h * (b.getD 1 0 - b.getD 0 0) / (2 * h - 1)) := by
    unfold Spec.kernelPoint
    rw [hc]
    push_cast
    field_simp
    ring
  have e0 : ((l : ℤ) - l + (((b.length - 1 + 1) / 2 : Nat) : ℤ)) = ((h : Nat) : ℤ) := by omega
  have e1 : (((l - 1 : Nat) : ℤ) - l + (((b.length - 1 + 1) / 2 : Nat) : ℤ)) = ((h - 1 : Nat) : ℤ) := by
    omega
  have e2 : (((l + 1 : Nat) : ℤ) - l + (((b.length - 1 + 1) / 2 : Nat) : ℤ)) = ((h + 1 : Nat) : ℤ) := by
    omega
  refine ⟨r, hr, ?_, ?_⟩
  · rw [hk l (by omega), hk (l - 1) (by omega)]
    unfold Spec.weightsOf
    rw [weight_near _ _ _ _ _ _ (by omega) (by omega), weight_near _ _ _ _ _ _ (by omega) (by omega),
      e0, e1, hn, q0, q1]
    rw [neg_div, neg_sq]
  · rw [hk (l + 1) (by omega), hk (l - 1) (by omega)]
    refine div_lt_div_of_pos_right ?_ hT
    unfold Spec.weightsOf
    rw [weight_near _ _ _ _ _ _ (by omega) (by omega), weight_near _ _ _ _ _ _ (by omega) (by omega),
      e2, e1, hn, q2, q1]
    refine hS.exp_mono ?_
    have hx : 0 < h * (b.getD 1 0 - b.getD 0 0) / (2 * h - 1) / sigma := by positivity
    have h2 := pow_pos hx 2
    rw [neg_div, neg_sq, mul_div_assoc, mul_pow]
    linarith

/-- **C90 (negation)** With a single bin the result is not defined: the sum by which it is divided is
zero, whatever the value is. -/
theorem C90_negation_one_bin (S : Smoother K) (hS : Spec.SmootherOk S) (a c sigma p : K) (hac : a < c)
    (hs : 0 < sigma) : smoothOne S [a, c] sigma [p] = .error .zeroDivision := by
  rw [smoothOne_eq S hS [a, c] sigma [p] (by simp) (by simpa using hac) hs (by simp), if_pos]
  have hm : 0 < Spec.margin (c - a) sigma := by
    unfold Spec.margin
    have : 0 < ⌈3 * sigma / (c - a)⌉ := Int.ceil_pos.mpr (by
      have : 0 < c - a := sub_pos.mpr hac
      positivity)
    omega
  have hw : Spec.weightsOf S [a, c] sigma 0 = 0 := by
    unfold Spec.weightsOf Spec.blurWeight
    simp only [List.length_cons, List.length_nil, List.getD_cons_zero, List.getD_cons_succ]
    generalize Spec.margin (c - a) sigma = g at hm
    have : ((0 : ℤ) + ((((0 + 1 + 1 - 1) + 1) / 2 : Nat) : ℤ) + g) % ((0 + 1 + 1 - 1 + 2 * g : Nat) : ℤ) =
        1 + g := by
      rw [Int.emod_eq_of_lt (by omega) (by push_cast; omega)]
      norm_num
    rw [this, if_neg (by omega)]
  simp [Spec.blurTotal, Spec.blur, hw]

end BET
