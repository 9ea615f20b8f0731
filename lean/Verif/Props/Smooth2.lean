import Verif.Props.Smooth

/-!
# C90: smoothing of two-dimensional marginals
-/

set_option autoImplicit false
set_option linter.unusedSectionVars false
set_option linter.unusedSimpArgs false

namespace BET

variable {K : Type} [Field K] [LinearOrder K] [IsStrictOrderedRing K] [FloorRing K]

open Spec

/-! ## Specification -/

/-- The weighted sum of the values of a matrix, the weights of the two directions being multiplied. -/
def Spec.blur2 (w₁ w₂ : ℤ → K) (nx ny : Nat) (m : List (List K)) (k₁ k₂ : Nat) : K :=
  ∑ j₁ ∈ Finset.range nx, ∑ j₂ ∈ Finset.range ny,
    w₁ ((k₁ : ℤ) - j₁) * w₂ ((k₂ : ℤ) - j₂) * (m.getD j₁ []).getD j₂ 0

def Spec.blurTotal2 (w₁ w₂ : ℤ → K) (nx ny : Nat) (m : List (List K)) : K :=
  ∑ k₁ ∈ Finset.range nx, ∑ k₂ ∈ Finset.range ny, Spec.blur2 w₁ w₂ nx ny m k₁ k₂

/-- A matrix with `nx` rows of length `ny`. -/
def Spec.IsBinMatrix (nx ny : Nat) (m : List (List K)) : Prop := m.length = nx ∧ ∀ r ∈ m, r.length = ny

/-- Probabilities of pairs. -/
def Spec.Probs2 (m : List (List K)) : Prop := (∀ r ∈ m, ∀ x ∈ r, 0 ≤ x) ∧ (m.map List.sum).sum = 1

/-! ## Outer products -/

theorem length_outerProd (a b : List K) : (Spec.outerProd a b).length = a.length := by
  simp [Spec.outerProd]

theorem getD_outerProd (a b : List K) (i j : Nat) :
    ((Spec.outerProd a b).getD i []).getD j 0 = a.getD i 0 * b.getD j 0 := by
  unfold Spec.outerProd
  by_cases hi : i < a.length
  · rw [List.getD_eq_getElem a _ hi, List.getD_eq_getElem (a.map _) [] (by simpa using hi), List.getElem_map]
    by_cases hj : j < b.length
    · rw [List.getD_eq_getElem b _ hj, List.getD_eq_getElem (b.map _) 0 (by simpa using hj), List.getElem_map]
    · rw [List.getD_eq_default b _ (by omega), List.getD_eq_default (b.map _) _ (by simpa using hj), mul_zero]
  · rw [List.getD_eq_default a _ (by omega), List.getD_eq_default (a.map _) _ (by simpa using hi)]
    simp

theorem outerProd_append (a a' b : List K) :
    Spec.outerProd (a ++ a') b = Spec.outerProd a b ++ Spec.outerProd a' b := by
  simp [Spec.outerProd]

theorem outerProd_replicate (n : Nat) (b : List K) :
    Spec.outerProd (List.replicate n 0) b = List.replicate n (List.replicate b.length 0) := by
  simp [Spec.outerProd, List.map_const']

theorem embed2_outer (aug₁ aug₂ ny : Nat) (a b : List K) (hb : b.length = ny) :
    embed2 aug₁ aug₂ ny (Spec.outerProd a b) = Spec.outerProd (embed aug₁ a) (embed aug₂ b) := by
  have h1 : (Spec.outerProd a b).map (embed aug₂) = Spec.outerProd a (embed aug₂ b) := by
    unfold Spec.outerProd embed
    rw [List.map_map]
    refine List.map_congr_left fun x _ => ?_
    simp [List.map_append]
  unfold embed2
  rw [h1]
  conv_rhs => rw [embed, outerProd_append, outerProd_append, outerProd_replicate, length_embed, hb]

theorem fftshift_map {α β : Type} (f : α → β) (xs : List α) : fftshift (xs.map f) = (fftshift xs).map f := by
  simp [fftshift]

theorem shift_outer (a b : List K) :
    (fftshift (Spec.outerProd a b)).map fftshift = Spec.outerProd (fftshift a) (fftshift b) := by
  unfold Spec.outerProd
  rw [fftshift_map, List.map_map]
  refine List.map_congr_left fun x _ => ?_
  simp [Function.comp, fftshift_map]

theorem kernel2_outer (S : Smoother K) (hS : Spec.SmootherOk S) (nx ny : Nat) (dx dy s₁ s₂ : K) :
    kernel2 S nx ny dx dy s₁ s₂ = Spec.outerProd (kernel1 S nx dx s₁) (kernel1 S ny dy s₂) := by
  unfold kernel2 kernel1 Spec.outerProd
  rw [List.map_map]
  refine List.map_congr_left fun x _ => ?_
  simp only [Function.comp, List.map_map]
  refine List.map_congr_left fun y _ => ?_
  simp only [Function.comp]
  rw [sub_eq_add_neg, hS.exp_add]

/-! ## Entries -/

theorem getD_embed2 (aug₁ aug₂ ny : Nat) (m : List (List K)) (l₁ l₂ : Nat) :
    ((embed2 aug₁ aug₂ ny m).getD l₁ []).getD l₂ 0 =
      if aug₁ ≤ l₁ ∧ aug₂ ≤ l₂ then (m.getD (l₁ - aug₁) []).getD (l₂ - aug₂) 0 else 0 := by
  have hrep : ∀ k, ((List.replicate aug₁ (List.replicate (ny + 2 * aug₂) (0 : K))).getD k []).getD l₂ 0 = 0 := by
    intro k
    by_cases h : k < aug₁
    · rw [List.getD_eq_getElem (List.replicate aug₁ _) [] (by simpa using h), List.getElem_replicate,
        getD_replicate_zero]
    · rw [List.getD_eq_default (List.replicate aug₁ _) [] (by simpa using h)]
      simp
  unfold embed2
  by_cases h : aug₁ ≤ l₁
  · rw [List.append_assoc, List.getD_append_right _ _ _ _ (by simpa using h)]
    simp only [List.length_replicate]
    by_cases h2 : l₁ - aug₁ < m.length
    · rw [List.getD_append _ _ _ _ (by simpa using h2), List.getD_eq_getElem (m.map _) [] (by simpa using h2),
        List.getElem_map, getD_embed, List.getD_eq_getElem m _ h2]
      by_cases h3 : aug₂ ≤ l₂
      · rw [if_pos h3, if_pos ⟨h, h3⟩]
      · rw [if_neg h3, if_neg (fun e => h3 e.2)]
    · rw [List.getD_append_right _ _ _ _ (by simpa using h2), List.getD_eq_default m _ (by omega)]
      simp only [List.length_map]
      rw [hrep]
      simp
  · rw [List.append_assoc, List.getD_append _ _ _ _ (by simp; omega), hrep, if_neg (fun e => h e.1)]

/-- Sums over a matrix with margins of zeros. -/
theorem sum_margin2 (aug₁ aug₂ nx ny : Nat) (f : Nat → Nat → K)
    (h₁ : ∀ l₁ l₂, (l₁ < aug₁ ∨ aug₁ + nx ≤ l₁) → f l₁ l₂ = 0)
    (h₂ : ∀ l₁ l₂, (l₂ < aug₂ ∨ aug₂ + ny ≤ l₂) → f l₁ l₂ = 0) :
    ∑ l₁ ∈ Finset.range (nx + 2 * aug₁), ∑ l₂ ∈ Finset.range (ny + 2 * aug₂), f l₁ l₂ =
      ∑ j₁ ∈ Finset.range nx, ∑ j₂ ∈ Finset.range ny, f (aug₁ + j₁) (aug₂ + j₂) := by
  rw [sum_margin aug₁ nx _ fun l₁ h => Finset.sum_eq_zero fun l₂ _ => h₁ l₁ l₂ h]
  exact Finset.sum_congr rfl fun j₁ _ => sum_margin aug₂ ny _ fun l₂ h => h₂ _ l₂ h

theorem smoothed_entries2 (S : Smoother K) (hS : Spec.SmootherOk S) (nx ny aug₁ aug₂ : Nat)
    (dx dy s₁ s₂ : K) (m : List (List K)) (hm : Spec.IsBinMatrix nx ny m) :
    (crop aug₁ nx (S.conv2 (nx + 2 * aug₁) (ny + 2 * aug₂)
      ((fftshift (embed2 aug₁ aug₂ ny (kernel2 S nx ny dx dy s₁ s₂))).map fftshift)
      (embed2 aug₁ aug₂ ny m))).map (crop aug₂ ny) =
      (List.range nx).map fun (k₁ : Nat) => (List.range ny).map fun (k₂ : Nat) =>
        Spec.blur2 (Spec.blurWeight S nx aug₁ dx s₁) (Spec.blurWeight S ny aug₂ dy s₂) nx ny m k₁ k₂ := by
  rw [hS.conv2, kernel2_outer S hS, embed2_outer _ _ _ _ _ (length_kernel1 _ _ _ _), shift_outer]
  set A := fftshift (embed aug₁ (kernel1 S nx dx s₁)) with hA
  set B := fftshift (embed aug₂ (kernel1 S ny dy s₂)) with hB
  set C := Spec.circConv2 (nx + 2 * aug₁) (ny + 2 * aug₂) (Spec.outerProd A B) (embed2 aug₁ aug₂ ny m)
    with hC
  have hCl : C.length = nx + 2 * aug₁ := by simp [hC, Spec.circConv2]
  have hrow : ∀ m₁ < nx + 2 * aug₁, C.getD m₁ [] = (List.range (ny + 2 * aug₂)).map fun (m₂ : Nat) =>
      ∑ l₁ ∈ Finset.range (nx + 2 * aug₁), ∑ l₂ ∈ Finset.range (ny + 2 * aug₂),
        ((Spec.outerProd A B).getD ((m₁ + (nx + 2 * aug₁) - l₁) % (nx + 2 * aug₁)) []).getD
          ((m₂ + (ny + 2 * aug₂) - l₂) % (ny + 2 * aug₂)) 0 *
        ((embed2 aug₁ aug₂ ny m).getD l₁ []).getD l₂ 0 := by
    intro m₁ h₁
    rw [hC, Spec.circConv2, getD_map_of_lt _ _ _ _ h₁]
  refine ext_getD [] _ _ ?_ fun k₁ hk₁ => ?_
  · rw [List.length_map, length_crop _ _ _ (by omega)]
    simp
  rw [List.length_map, length_crop _ _ _ (by omega)] at hk₁
  rw [getD_map_of_lt _ _ _ _ hk₁]
  have hcr : ((crop aug₁ nx C).map (crop aug₂ ny)).getD k₁ [] = crop aug₂ ny (C.getD (aug₁ + k₁) []) := by
    have hlen : k₁ < (crop aug₁ nx C).length := by rw [length_crop _ _ _ (by omega)]; exact hk₁
    rw [← getD_crop [] aug₁ nx C k₁ hk₁, List.getD_eq_getElem _ _ (by simpa using hlen),
      List.getElem_map, List.getD_eq_getElem _ _ hlen]
  rw [hcr, hrow _ (by omega)]
  refine ext_getD 0 _ _ ?_ fun k₂ hk₂ => ?_
  · rw [length_crop _ _ _ (by simp; omega)]
    simp
  rw [length_crop _ _ _ (by simp; omega)] at hk₂
  rw [getD_crop _ _ _ _ _ hk₂, getD_map_of_lt _ _ _ _ (by omega), getD_map_of_lt _ _ _ _ hk₂,
    sum_margin2 aug₁ aug₂ nx ny]
  · unfold Spec.blur2
    refine Finset.sum_congr rfl fun j₁ hj₁ => Finset.sum_congr rfl fun j₂ hj₂ => ?_
    rw [getD_outerProd, hA, hB, shifted_kernel S nx aug₁ dx s₁ k₁ j₁ hk₁ (Finset.mem_range.mp hj₁),
      shifted_kernel S ny aug₂ dy s₂ k₂ j₂ hk₂ (Finset.mem_range.mp hj₂), getD_embed2,
      if_pos ⟨by omega, by omega⟩, Nat.add_sub_cancel_left, Nat.add_sub_cancel_left]
  · intro l₁ l₂ h
    rw [getD_embed2]
    rcases h with h | h
    · rw [if_neg (by omega), mul_zero]
    · rw [List.getD_eq_default m _ (by rw [hm.1]; omega)]
      simp
  · intro l₁ l₂ h
    rw [getD_embed2]
    rcases h with h | h
    · rw [if_neg (by omega), mul_zero]
    · by_cases hl : l₁ - aug₁ < m.length
      · rw [List.getD_eq_getElem m _ hl, List.getD_eq_default m[l₁ - aug₁] 0 (by
          rw [hm.2 _ (List.getElem_mem hl)]; omega)]
        simp
      · rw [List.getD_eq_default m _ (by omega)]
        simp

theorem sum_flatten_map (nx ny : Nat) (f : Nat → Nat → K) :
    ((List.range nx).map fun k₁ => (List.range ny).map fun k₂ => f k₁ k₂).flatten.sum =
      ∑ k₁ ∈ Finset.range nx, ∑ k₂ ∈ Finset.range ny, f k₁ k₂ := by
  rw [List.sum_flatten, List.map_map]
  have : (List.sum ∘ fun k₁ => (List.range ny).map fun k₂ => f k₁ k₂) =
      fun k₁ => ∑ k₂ ∈ Finset.range ny, f k₁ k₂ := by
    funext k₁
    exact sum_map_range_finset ny _
  rw [this, sum_map_range_finset]

theorem smoothTwo_eq (S : Smoother K) (hS : Spec.SmootherOk S) (b₁ b₂ : List K) (s₁ s₂ : K)
    (m : List (List K)) (hb₁ : 2 ≤ b₁.length) (hb₁' : b₁.getD 0 0 < b₁.getD 1 0)
    (hb₂ : 2 ≤ b₂.length) (hb₂' : b₂.getD 0 0 < b₂.getD 1 0) (hs₁ : 0 < s₁) (hs₂ : 0 < s₂)
    (hm : Spec.IsBinMatrix (b₁.length - 1) (b₂.length - 1) m) :
    smoothTwo S b₁ b₂ s₁ s₂ m =
      if Spec.blurTotal2 (Spec.weightsOf S b₁ s₁) (Spec.weightsOf S b₂ s₂) (b₁.length - 1)
        (b₂.length - 1) m = 0 then .error .zeroDivision
      else .ok ((List.range (b₁.length - 1)).map fun (k₁ : Nat) =>
        (List.range (b₂.length - 1)).map fun (k₂ : Nat) =>
          Spec.blur2 (Spec.weightsOf S b₁ s₁) (Spec.weightsOf S b₂ s₂) (b₁.length - 1) (b₂.length - 1)
            m k₁ k₂ /
          Spec.blurTotal2 (Spec.weightsOf S b₁ s₁) (Spec.weightsOf S b₂ s₂) (b₁.length - 1)
            (b₂.length - 1) m) := by
  unfold smoothTwo
  have hno : ¬(m.length ≠ b₁.length - 1 ∨ ∃ r ∈ m, r.length ≠ b₂.length - 1) := by
    rintro (h | ⟨r, hr, h⟩)
    · exact h hm.1
    · exact h (hm.2 r hr)
  rw [firstWidth_ok b₁ hb₁, ok_bind, firstWidth_ok b₂ hb₂, ok_bind,
    augOf_ok _ _ (sub_pos.mpr hb₁') hs₁, ok_bind, augOf_ok _ _ (sub_pos.mpr hb₂') hs₂, ok_bind]
  simp only []
  rw [smoothed_entries2 S hS _ _ _ _ _ _ _ _ m hm]
  simp only [sum_flatten_map]
  rw [show (∑ k₁ ∈ Finset.range (b₁.length - 1), ∑ k₂ ∈ Finset.range (b₂.length - 1),
      Spec.blur2 (Spec.blurWeight S (b₁.length - 1) (Spec.margin (b₁.getD 1 0 - b₁.getD 0 0) s₁)
        (b₁.getD 1 0 - b₁.getD 0 0) s₁)
        (Spec.blurWeight S (b₂.length - 1) (Spec.margin (b₂.getD 1 0 - b₂.getD 0 0) s₂)
        (b₂.getD 1 0 - b₂.getD 0 0) s₂) (b₁.length - 1) (b₂.length - 1) m k₁ k₂) =
      Spec.blurTotal2 (Spec.weightsOf S b₁ s₁) (Spec.weightsOf S b₂ s₂) (b₁.length - 1)
        (b₂.length - 1) m from rfl]
  by_cases h : Spec.blurTotal2 (Spec.weightsOf S b₁ s₁) (Spec.weightsOf S b₂ s₂) (b₁.length - 1)
      (b₂.length - 1) m = 0
  · rw [if_pos h]
    simp only [raiseIf, if_neg hno, if_pos h, ok_bind, error_bind]
  · rw [if_neg h]
    simp only [raiseIf, if_neg hno, if_neg h, ok_bind, List.map_map, Function.comp_def]
    rfl

theorem blur2_nonneg (w₁ w₂ : ℤ → K) (h₁ : ∀ d, 0 ≤ w₁ d) (h₂ : ∀ d, 0 ≤ w₂ d) (nx ny : Nat)
    (m : List (List K)) (hm : Spec.IsBinMatrix nx ny m) (h0 : ∀ r ∈ m, ∀ x ∈ r, 0 ≤ x) (k₁ k₂ : Nat) :
    0 ≤ Spec.blur2 w₁ w₂ nx ny m k₁ k₂ := by
  refine Finset.sum_nonneg fun j₁ hj₁ => Finset.sum_nonneg fun j₂ hj₂ =>
    mul_nonneg (mul_nonneg (h₁ _) (h₂ _)) ?_
  have hj₁' : j₁ < m.length := by rw [hm.1]; exact Finset.mem_range.mp hj₁
  have hr := List.getElem_mem hj₁'
  have hj₂' : j₂ < m[j₁].length := by rw [hm.2 _ hr]; exact Finset.mem_range.mp hj₂
  rw [List.getD_eq_getElem _ _ hj₁', List.getD_eq_getElem _ _ hj₂']
  exact h0 _ hr _ (List.getElem_mem hj₂')

theorem blurTotal2_pos (w₁ w₂ : ℤ → K) (h₁ : ∀ d, 0 ≤ w₁ d) (h₂ : ∀ d, 0 ≤ w₂ d) (hp₁ : 0 < w₁ 0)
    (hp₂ : 0 < w₂ 0) (nx ny : Nat) (m : List (List K)) (hm : Spec.IsBinMatrix nx ny m)
    (h0 : ∀ r ∈ m, ∀ x ∈ r, 0 ≤ x) (hp : ∃ r ∈ m, ∃ x ∈ r, 0 < x) :
    0 < Spec.blurTotal2 w₁ w₂ nx ny m := by
  obtain ⟨r, hr, x, hx, hxp⟩ := hp
  obtain ⟨i, hi, rfl⟩ := List.mem_iff_getElem.mp hr
  obtain ⟨j, hj, rfl⟩ := List.mem_iff_getElem.mp hx
  have hi' : i ∈ Finset.range nx := Finset.mem_range.mpr (by rw [← hm.1]; exact hi)
  have hj' : j ∈ Finset.range ny := Finset.mem_range.mpr (by rw [← hm.2 _ hr]; exact hj)
  have hnn := blur2_nonneg w₁ w₂ h₁ h₂ nx ny m hm h0
  have hterm : ∀ j₁ ∈ Finset.range nx, ∀ j₂ ∈ Finset.range ny,
      0 ≤ w₁ ((i : ℤ) - j₁) * w₂ ((j : ℤ) - j₂) * (m.getD j₁ []).getD j₂ 0 := by
    intro j₁ hj₁ j₂ hj₂
    refine mul_nonneg (mul_nonneg (h₁ _) (h₂ _)) ?_
    have hj₁' : j₁ < m.length := by rw [hm.1]; exact Finset.mem_range.mp hj₁
    have hr := List.getElem_mem hj₁'
    have hj₂' : j₂ < m[j₁].length := by rw [hm.2 _ hr]; exact Finset.mem_range.mp hj₂
    rw [List.getD_eq_getElem _ _ hj₁', List.getD_eq_getElem _ _ hj₂']
    exact h0 _ hr _ (List.getElem_mem hj₂')
  refine Finset.sum_pos' (fun k₁ _ => Finset.sum_nonneg fun k₂ _ => hnn k₁ k₂) ⟨i, hi', ?_⟩
  refine Finset.sum_pos' (fun k₂ _ => hnn i k₂) ⟨j, hj', ?_⟩
  refine Finset.sum_pos' (fun j₁ h => Finset.sum_nonneg fun j₂ h' => hterm j₁ h j₂ h') ⟨i, hi', ?_⟩
  refine Finset.sum_pos' (fun j₂ h' => hterm i hi' j₂ h') ⟨j, hj', ?_⟩
  rw [sub_self, sub_self, List.getD_eq_getElem _ _ hi, List.getD_eq_getElem _ _ hj]
  exact mul_pos (mul_pos hp₁ hp₂) hxp

/-! ## Claims -/

/-- **C90** Two directions: the smoothed marginal has the same shape, its entries are probabilities, and
each is the sum of all the values with the weights of the two directions multiplied, over the sum of all
these. -/
theorem C90_two (S : Smoother K) (hS : Spec.SmootherOk S) (b₁ b₂ : List K) (s₁ s₂ : K)
    (m : List (List K)) (hb₁ : Spec.BinsOk b₁) (hb₂ : Spec.BinsOk b₂) (hs₁ : 0 < s₁) (hs₂ : 0 < s₂)
    (hm : Spec.IsBinMatrix (b₁.length - 1) (b₂.length - 1) m) (h0 : ∀ r ∈ m, ∀ x ∈ r, 0 ≤ x)
    (hp : ∃ r ∈ m, ∃ x ∈ r, 0 < x) :
    ∃ r, smoothTwo S b₁ b₂ s₁ s₂ m = .ok r ∧ Spec.IsBinMatrix (b₁.length - 1) (b₂.length - 1) r ∧
      Spec.Probs2 r ∧ ∀ k₁ < b₁.length - 1, ∀ k₂ < b₂.length - 1, (r.getD k₁ []).getD k₂ 0 =
        Spec.blur2 (Spec.weightsOf S b₁ s₁) (Spec.weightsOf S b₂ s₂) (b₁.length - 1) (b₂.length - 1)
          m k₁ k₂ /
        Spec.blurTotal2 (Spec.weightsOf S b₁ s₁) (Spec.weightsOf S b₂ s₂) (b₁.length - 1)
          (b₂.length - 1) m := by
  have hw₁ : ∀ d, 0 ≤ Spec.weightsOf S b₁ s₁ d := fun d => weight_nonneg S hS _ _ _ _ d
  have hw₂ : ∀ d, 0 ≤ Spec.weightsOf S b₂ s₂ d := fun d => weight_nonneg S hS _ _ _ _ d
  have hp₁ : 0 < Spec.weightsOf S b₁ s₁ 0 := weight_zero_pos S hS _ _ _ _ (by have := hb₁.1; omega)
  have hp₂ : 0 < Spec.weightsOf S b₂ s₂ 0 := weight_zero_pos S hS _ _ _ _ (by have := hb₂.1; omega)
  have hT := blurTotal2_pos _ _ hw₁ hw₂ hp₁ hp₂ _ _ m hm h0 hp
  refine ⟨_, (smoothTwo_eq S hS b₁ b₂ s₁ s₂ m (by have := hb₁.1; omega) hb₁.2 (by have := hb₂.1; omega)
    hb₂.2 hs₁ hs₂ hm).trans (if_neg hT.ne'), ⟨by simp, ?_⟩, ⟨?_, ?_⟩, ?_⟩
  · intro r hr
    obtain ⟨k, _, rfl⟩ := List.mem_map.mp hr
    simp
  · intro r hr x hx
    obtain ⟨k, _, rfl⟩ := List.mem_map.mp hr
    obtain ⟨k', _, rfl⟩ := List.mem_map.mp hx
    exact div_nonneg (blur2_nonneg _ _ hw₁ hw₂ _ _ m hm h0 _ _) hT.le
  · rw [← List.sum_flatten, sum_flatten_map]
    simp only [← Finset.sum_div]
    exact div_self hT.ne'
  · intro k₁ h₁ k₂ h₂
    rw [getD_map_of_lt _ _ _ _ h₁, getD_map_of_lt _ _ _ _ h₂]

/-- **C90** `smooth_marginals_2D` on a dictionary keeps keys and shapes and gives probabilities. -/
theorem C90_smooth2D_partial (S : Smoother K) (hS : Spec.SmootherOk S)
    (marginals : List ((Nat × Nat) × List (List K))) (bins : List (List K)) (sigma : Sigma K)
    (h : ∀ e ∈ marginals, ∃ b₁ b₂ s₁ s₂, bins[e.1.1]? = some b₁ ∧ bins[e.1.2]? = some b₂ ∧
      (sigma.toList bins.length)[e.1.1]? = some s₁ ∧ (sigma.toList bins.length)[e.1.2]? = some s₂ ∧
      Spec.BinsOk b₁ ∧ Spec.BinsOk b₂ ∧ 0 < s₁ ∧ 0 < s₂ ∧
      Spec.IsBinMatrix (b₁.length - 1) (b₂.length - 1) e.2 ∧ (∀ r ∈ e.2, ∀ x ∈ r, 0 ≤ x) ∧
      ∃ r ∈ e.2, ∃ x ∈ r, 0 < x) :
    ∃ r, smoothMarginals2D S marginals bins sigma = .ok r ∧
      List.Forall₂ (fun e e' => e'.1 = e.1 ∧ Spec.Probs2 e'.2 ∧
        ∃ b₁ b₂ s₁ s₂, bins[e.1.1]? = some b₁ ∧ bins[e.1.2]? = some b₂ ∧
          (sigma.toList bins.length)[e.1.1]? = some s₁ ∧ (sigma.toList bins.length)[e.1.2]? = some s₂ ∧
          Spec.IsBinMatrix (b₁.length - 1) (b₂.length - 1) e'.2 ∧ smoothTwo S b₁ b₂ s₁ s₂ e.2 = .ok e'.2)
        marginals r := by
  unfold smoothMarginals2D
  induction marginals with
  | nil => exact ⟨[], rfl, .nil⟩
  | cons e es ih =>
    obtain ⟨r, hr, hf⟩ := ih fun e he => h e (List.mem_cons_of_mem _ he)
    obtain ⟨b₁, b₂, s₁, s₂, h1, h2, h3, h4, h5, h6, h7, h8, h9, h10, h11⟩ := h e (List.mem_cons_self ..)
    obtain ⟨v, hv, hl, hp, _⟩ := C90_two S hS b₁ b₂ s₁ s₂ e.2 h5 h6 h7 h8 h9 h10 h11
    refine ⟨(e.1, v) :: r, ?_, .cons ⟨rfl, hp, b₁, b₂, s₁, s₂, h1, h2, h3, h4, hl, hv⟩ hf⟩
    rw [List.mapM_cons, hr]
    simp only [getIdx, h1, h2, h3, h4, hv, ok_bind]
    rfl

/-- **C90** Smoothing a product of marginals in two directions smooths each of them: the two functions
agree. -/
theorem C90_product (S : Smoother K) (hS : Spec.SmootherOk S) (b₁ b₂ : List K) (s₁ s₂ : K)
    (m₁ m₂ r₁ r₂ : List K) (hb₁ : Spec.BinsOk b₁) (hb₂ : Spec.BinsOk b₂) (hs₁ : 0 < s₁) (hs₂ : 0 < s₂)
    (hm₁ : m₁.length = b₁.length - 1) (hm₂ : m₂.length = b₂.length - 1)
    (h₁ : smoothOne S b₁ s₁ m₁ = .ok r₁) (h₂ : smoothOne S b₂ s₂ m₂ = .ok r₂) :
    smoothTwo S b₁ b₂ s₁ s₂ (Spec.outerProd m₁ m₂) = .ok (Spec.outerProd r₁ r₂) := by
  have hl₁ : 2 ≤ b₁.length := by have := hb₁.1; omega
  have hl₂ : 2 ≤ b₂.length := by have := hb₂.1; omega
  rw [smoothOne_eq S hS b₁ s₁ m₁ hl₁ hb₁.2 hs₁ hm₁] at h₁
  rw [smoothOne_eq S hS b₂ s₂ m₂ hl₂ hb₂.2 hs₂ hm₂] at h₂
  have hmat : Spec.IsBinMatrix (b₁.length - 1) (b₂.length - 1) (Spec.outerProd m₁ m₂) := by
    refine ⟨by rw [length_outerProd]; exact hm₁, fun r hr => ?_⟩
    obtain ⟨x, _, rfl⟩ := List.mem_map.mp hr
    rw [List.length_map]
    exact hm₂
  rw [smoothTwo_eq S hS b₁ b₂ s₁ s₂ _ hl₁ hb₁.2 hl₂ hb₂.2 hs₁ hs₂ hmat]
  set w₁ := Spec.weightsOf S b₁ s₁
  set w₂ := Spec.weightsOf S b₂ s₂
  have hblur : ∀ k₁ k₂, Spec.blur2 w₁ w₂ (b₁.length - 1) (b₂.length - 1) (Spec.outerProd m₁ m₂) k₁ k₂ =
      Spec.blur w₁ m₁ k₁ * Spec.blur w₂ m₂ k₂ := by
    intro k₁ k₂
    unfold Spec.blur2 Spec.blur
    rw [Finset.sum_mul_sum, hm₁, hm₂]
    refine Finset.sum_congr rfl fun j₁ _ => Finset.sum_congr rfl fun j₂ _ => ?_
    rw [getD_outerProd]
    ring
  have htot : Spec.blurTotal2 w₁ w₂ (b₁.length - 1) (b₂.length - 1) (Spec.outerProd m₁ m₂) =
      Spec.blurTotal w₁ m₁ * Spec.blurTotal w₂ m₂ := by
    unfold Spec.blurTotal2 Spec.blurTotal
    rw [Finset.sum_mul_sum, hm₁, hm₂]
    exact Finset.sum_congr rfl fun j₁ _ => Finset.sum_congr rfl fun j₂ _ => hblur _ _
  have hT₁ : Spec.blurTotal w₁ m₁ ≠ 0 := by
    intro e
    rw [if_pos e] at h₁
    cases h₁
  have hT₂ : Spec.blurTotal w₂ m₂ ≠ 0 := by
    intro e
    rw [if_pos e] at h₂
    cases h₂
  rw [if_neg hT₁] at h₁
  rw [if_neg hT₂] at h₂
  obtain rfl := Except.ok.inj h₁
  obtain rfl := Except.ok.inj h₂
  simp only [hblur]
  rw [htot, if_neg (mul_ne_zero hT₁ hT₂)]
  refine congrArg Except.ok ?_
  unfold Spec.outerProd
  rw [List.map_map, hm₁]
  refine List.map_congr_left fun k₁ _ => ?_
  simp only [Function.comp, List.map_map]
  rw [hm₂]
  refine List.map_congr_left fun k₂ _ => ?_
  simp only [Function.comp]
  rw [mul_div_mul_comm]

/-! ## The functions of NumPy and SciPy over the reals -/

/-- Exponentials and products of discrete Fourier transforms. -/
noncomputable def realSmoother : Smoother ℝ := ⟨Real.exp, fftConv, fftConv2⟩

/-- **C90** Exponentials of real numbers and real parts of inverse Fourier transforms of products meet
what is assumed above of the functions of NumPy and SciPy. -/
theorem C90_fourier : Spec.SmootherOk realSmoother where
  exp_pos := Real.exp_pos
  exp_mono := Real.exp_strictMono
  exp_add := Real.exp_add
  conv := fftConv_eq
  conv2 := fftConv2_eq

/-! ## Examples -/

namespace Ex

/-- The hypotheses of the theorems: three bins, all the probability in the middle. -/
example : ∃ r, smoothOne realSmoother [0, 1, 2, 3] 1 (Spec.pointMass 3 1) = .ok r ∧
    r.getD 1 0 < r.getD 0 0 :=
  C90_negation_odd realSmoother C90_fourier [0, 1, 2, 3] 1 1 ⟨by simp, by simp⟩ rfl one_pos 1
    (by omega) (by simp)

example : ∃ r, smoothOne realSmoother [0, 1, 2, 3, 4] (1 / 2) (Spec.pointMass 4 2) = .ok r ∧
    r.getD 1 0 = r.getD 2 0 ∧ r.getD 3 0 < r.getD 1 0 :=
  C90_negation_even realSmoother C90_fourier [0, 1, 2, 3, 4] (1 / 2) 2 ⟨by simp, by simp⟩ rfl le_rfl
    (by norm_num) 2 (by omega) (by simp)

example : ∃ r, smoothTwo realSmoother [0, 1, 2] [0, 1, 2, 3] 1 2 [[1 / 4, 0, 1 / 4], [0, 1 / 2, 0]] = .ok r ∧
    Spec.Probs2 r := by
  obtain ⟨r, hr, _, hp, _⟩ := C90_two realSmoother C90_fourier [0, 1, 2] [0, 1, 2, 3] 1 2
    [[1 / 4, 0, 1 / 4], [0, 1 / 2, 0]] ⟨by simp, by simp⟩ ⟨by simp, by simp⟩ one_pos two_pos
    ⟨rfl, by simp⟩ (by
      intro r hr x hx
      fin_cases hr <;> fin_cases hx <;> norm_num) ⟨_, List.mem_cons_self .., 1 / 4, by simp, by norm_num⟩
  exact ⟨r, hr, hp⟩

/-- The machinery on numbers: a kernel that is constant, so that smoothing averages over three of five
places. -/
def flatSmoother : Smoother ℚ := ⟨fun _ => 1, Spec.circConv, Spec.circConv2⟩

example : (smoothOne flatSmoother [0, 1, 2, 3] (1 / 3) [0, 1, 0]).toOption = some [1 / 2, 1 / 2, 0] := by
  decide +kernel

example : (smoothMarginals1D flatSmoother [(1, [1, 0, 0, 0])] [[0, 1], [0, 1, 2, 3, 4]] (.one (1 / 3))).toOption =
    some [(1, [1 / 2, 1 / 2, 0, 0])] := by decide +kernel

end Ex

end BET
