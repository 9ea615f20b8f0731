import Verif.Props.SmoothParameter

/-!
# C178: what the smoothing parameters of `smooth_marginals_2D` do
-/

set_option autoImplicit false
set_option linter.unusedSectionVars false
set_option linter.unusedSimpArgs false

open Filter Topology

namespace BET

/-! ## Specification -/

/-- A smoothing parameter that grows, or that tends to zero. -/
def Spec.parameterLimit (large : Bool) : Filter ℝ := if large then atTop else 𝓝[>] 0

/-- What a bin `d` bins away gets then: everything within reach counts alike (large), or only the next bin counts (small,
odd number of bins), or the bin itself and the next one (small, even number). -/
noncomputable def Spec.limitWeight (large : Bool) (n : Nat) (d : ℤ) : ℝ :=
  if large then (if Spec.InReach n d then 1 else 0)
  else if n % 2 = 1 then (if d = -1 then 1 else 0)
  else (if d = 0 then 1 else 0) + (if d = -1 then 1 else 0)

/-- The sum of the values in the bins within reach of bin `(k₁, k₂)`. -/
def Spec.windowSum2 (nx ny : Nat) (m : List (List ℝ)) (k₁ k₂ : Nat) : ℝ :=
  ∑ j₁ ∈ Finset.range nx, ∑ j₂ ∈ Finset.range ny,
    if (k₁ < j₁ + nx / 2 ∧ j₁ ≤ k₁ + (nx + 1) / 2) ∧ (k₂ < j₂ + ny / 2 ∧ j₂ ≤ k₂ + (ny + 1) / 2) then
      (m.getD j₁ []).getD j₂ 0 else 0

open Spec

/-! ## Limits -/

theorem parameterLimit_pos (large : Bool) : ∀ᶠ σ in parameterLimit large, 0 < σ := by
  cases large
  · exact eventually_mem_nhdsWithin
  · exact eventually_gt_atTop 0

theorem weights_limit {b : List ℝ} (hb : BinsOk b) (large : Bool) : ∃ g : ℝ → ℝ, (∀ σ, g σ ≠ 0) ∧
    ∀ d : ℤ, |d| < ((b.length - 1 : Nat) : ℤ) → Tendsto (fun σ => weightsOf realSmoother b σ d * g σ)
      (parameterLimit large) (𝓝 (limitWeight large (b.length - 1) d)) := by
  have hm : (List.replicate (b.length - 1) (0 : ℝ)).length = b.length - 1 := by simp
  cases large
  · by_cases hodd : (b.length - 1) % 2 = 1
    · refine ⟨fun _ => 1, fun _ => one_ne_zero, fun d hd => ?_⟩
      have := weights_odd hb hm (by rw [hm]; exact hodd) d (by rw [hm]; exact hd)
      simpa [limitWeight, parameterLimit, hodd] using this
    · refine ⟨evenScale b (List.replicate (b.length - 1) 0), fun _ => (Real.exp_pos _).ne', fun d hd => ?_⟩
      have := weights_even hb hm (by rw [hm]; omega) d (by rw [hm]; exact hd)
      simpa [limitWeight, parameterLimit, hodd] using this
  · refine ⟨fun _ => 1, fun _ => one_ne_zero, fun d hd => ?_⟩
    have := weights_large hb hm d (by rw [hm]; exact hd)
    rw [hm] at this
    simpa [limitWeight, parameterLimit] using this

theorem limitWeight_nonneg (large : Bool) (n : Nat) (d : ℤ) : 0 ≤ limitWeight large n d := by
  unfold limitWeight
  split_ifs <;> norm_num

theorem tendsto_blur2 {F₁ F₂ : Filter ℝ} (W₁ W₂ : ℝ → ℤ → ℝ) (g₁ g₂ : ℝ → ℝ) (hg₁ : ∀ σ, g₁ σ ≠ 0)
    (hg₂ : ∀ σ, g₂ σ ≠ 0) (L₁ L₂ : ℤ → ℝ) (nx ny : Nat) (m : List (List ℝ))
    (h₁ : ∀ d : ℤ, |d| < (nx : ℤ) → Tendsto (fun σ => W₁ σ d * g₁ σ) F₁ (𝓝 (L₁ d)))
    (h₂ : ∀ d : ℤ, |d| < (ny : ℤ) → Tendsto (fun σ => W₂ σ d * g₂ σ) F₂ (𝓝 (L₂ d)))
    (hL : blurTotal2 L₁ L₂ nx ny m ≠ 0) {k₁ k₂ : Nat} (hk₁ : k₁ < nx) (hk₂ : k₂ < ny) :
    Tendsto (fun σ : ℝ × ℝ => blur2 (W₁ σ.1) (W₂ σ.2) nx ny m k₁ k₂ / blurTotal2 (W₁ σ.1) (W₂ σ.2) nx ny m) (F₁ ×ˢ F₂)
      (𝓝 (blur2 L₁ L₂ nx ny m k₁ k₂ / blurTotal2 L₁ L₂ nx ny m)) := by
  have h1 : ∀ k₁ < nx, ∀ k₂ < ny, Tendsto (fun σ : ℝ × ℝ => blur2 (W₁ σ.1) (W₂ σ.2) nx ny m k₁ k₂ * (g₁ σ.1 * g₂ σ.2))
      (F₁ ×ˢ F₂) (𝓝 (blur2 L₁ L₂ nx ny m k₁ k₂)) := by
    intro k₁ hk₁ k₂ hk₂
    have e : (fun σ : ℝ × ℝ => blur2 (W₁ σ.1) (W₂ σ.2) nx ny m k₁ k₂ * (g₁ σ.1 * g₂ σ.2)) =
        fun σ : ℝ × ℝ => ∑ j₁ ∈ Finset.range nx, ∑ j₂ ∈ Finset.range ny,
          (W₁ σ.1 ((k₁ : ℤ) - j₁) * g₁ σ.1) * (W₂ σ.2 ((k₂ : ℤ) - j₂) * g₂ σ.2) * (m.getD j₁ []).getD j₂ 0 := by
      funext σ
      unfold blur2
      rw [Finset.sum_mul]
      refine Finset.sum_congr rfl fun j₁ _ => ?_
      rw [Finset.sum_mul]
      exact Finset.sum_congr rfl fun j₂ _ => by ring
    rw [e]
    refine tendsto_finsetSum _ fun j₁ hj₁ => tendsto_finsetSum _ fun j₂ hj₂ => Tendsto.mul_const _ (Tendsto.mul ?_ ?_)
    · have := Finset.mem_range.mp hj₁
      exact (h₁ _ (by rw [abs_lt]; constructor <;> omega)).comp tendsto_fst
    · have := Finset.mem_range.mp hj₂
      exact (h₂ _ (by rw [abs_lt]; constructor <;> omega)).comp tendsto_snd
  have h2 : Tendsto (fun σ : ℝ × ℝ => blurTotal2 (W₁ σ.1) (W₂ σ.2) nx ny m * (g₁ σ.1 * g₂ σ.2)) (F₁ ×ˢ F₂)
      (𝓝 (blurTotal2 L₁ L₂ nx ny m)) := by
    have e : (fun σ : ℝ × ℝ => blurTotal2 (W₁ σ.1) (W₂ σ.2) nx ny m * (g₁ σ.1 * g₂ σ.2)) =
        fun σ : ℝ × ℝ => ∑ k₁ ∈ Finset.range nx, ∑ k₂ ∈ Finset.range ny,
          blur2 (W₁ σ.1) (W₂ σ.2) nx ny m k₁ k₂ * (g₁ σ.1 * g₂ σ.2) := by
      funext σ
      unfold blurTotal2
      rw [Finset.sum_mul]
      exact Finset.sum_congr rfl fun j₁ _ => Finset.sum_mul _ _ _
    rw [e]
    exact tendsto_finsetSum _ fun k₁ hk₁ => tendsto_finsetSum _ fun k₂ hk₂ =>
      h1 k₁ (Finset.mem_range.mp hk₁) k₂ (Finset.mem_range.mp hk₂)
  refine ((h1 k₁ hk₁ k₂ hk₂).div h2 hL).congr fun σ => ?_
  exact mul_div_mul_right _ _ (mul_ne_zero (hg₁ _) (hg₂ _))

/-- **C178.** As each of the two smoothing parameters grows or tends to zero, independently of the other, the value of a
bin tends to the sum of the values with the weights `limitWeight`, over the total of these sums. -/
theorem C178_limit {b₁ b₂ : List ℝ} {m : List (List ℝ)} (hb₁ : BinsOk b₁) (hb₂ : BinsOk b₂)
    (hm : IsBinMatrix (b₁.length - 1) (b₂.length - 1) m) (h0 : ∀ r ∈ m, ∀ x ∈ r, 0 ≤ x) (hp : ∃ r ∈ m, ∃ x ∈ r, 0 < x)
    (large₁ large₂ : Bool)
    (hL : blurTotal2 (limitWeight large₁ (b₁.length - 1)) (limitWeight large₂ (b₂.length - 1)) (b₁.length - 1)
      (b₂.length - 1) m ≠ 0)
    (r : ℝ → ℝ → List (List ℝ)) (hr : ∀ σ₁ > 0, ∀ σ₂ > 0, smoothTwo realSmoother b₁ b₂ σ₁ σ₂ m = .ok (r σ₁ σ₂))
    {k₁ k₂ : Nat} (hk₁ : k₁ < b₁.length - 1) (hk₂ : k₂ < b₂.length - 1) :
    Tendsto (fun σ : ℝ × ℝ => ((r σ.1 σ.2).getD k₁ []).getD k₂ 0) (parameterLimit large₁ ×ˢ parameterLimit large₂)
      (𝓝 (blur2 (limitWeight large₁ (b₁.length - 1)) (limitWeight large₂ (b₂.length - 1)) (b₁.length - 1)
          (b₂.length - 1) m k₁ k₂ /
        blurTotal2 (limitWeight large₁ (b₁.length - 1)) (limitWeight large₂ (b₂.length - 1)) (b₁.length - 1)
          (b₂.length - 1) m)) := by
  obtain ⟨g₁, hg₁, w₁⟩ := weights_limit hb₁ large₁
  obtain ⟨g₂, hg₂, w₂⟩ := weights_limit hb₂ large₂
  refine (tendsto_blur2 (fun σ => weightsOf realSmoother b₁ σ) (fun σ => weightsOf realSmoother b₂ σ) g₁ g₂ hg₁ hg₂ _ _
    _ _ m w₁ w₂ hL hk₁ hk₂).congr' ?_
  filter_upwards [(parameterLimit_pos large₁).prod_mk (parameterLimit_pos large₂)] with σ hσ
  obtain ⟨r', h1, -, -, h2⟩ := C90_two realSmoother C90_fourier b₁ b₂ σ.1 σ.2 m hb₁ hb₂ hσ.1 hσ.2 hm h0 hp
  rw [hr σ.1 hσ.1 σ.2 hσ.2] at h1
  cases h1
  exact (h2 k₁ hk₁ k₂ hk₂).symm

theorem limit_both {b₁ b₂ : List ℝ} {m : List (List ℝ)} (hb₁ : BinsOk b₁) (hb₂ : BinsOk b₂)
    (hm : IsBinMatrix (b₁.length - 1) (b₂.length - 1) m) (h0 : ∀ r ∈ m, ∀ x ∈ r, 0 ≤ x) (hp : ∃ r ∈ m, ∃ x ∈ r, 0 < x)
    (large : Bool) (L₁ L₂ : ℤ → ℝ) (hL₁ : L₁ = limitWeight large (b₁.length - 1))
    (hL₂ : L₂ = limitWeight large (b₂.length - 1))
    (hL : blurTotal2 L₁ L₂ (b₁.length - 1) (b₂.length - 1) m ≠ 0)
    (r : ℝ → List (List ℝ)) (hr : ∀ σ > 0, smoothTwo realSmoother b₁ b₂ σ σ m = .ok (r σ))
    {k₁ k₂ : Nat} (hk₁ : k₁ < b₁.length - 1) (hk₂ : k₂ < b₂.length - 1) :
    Tendsto (fun σ => ((r σ).getD k₁ []).getD k₂ 0) (parameterLimit large)
      (𝓝 (blur2 L₁ L₂ (b₁.length - 1) (b₂.length - 1) m k₁ k₂ / blurTotal2 L₁ L₂ (b₁.length - 1) (b₂.length - 1) m)) := by
  subst hL₁ hL₂
  choose R hR using fun σ : {σ : ℝ × ℝ // 0 < σ.1 ∧ 0 < σ.2} =>
    C90_two realSmoother C90_fourier b₁ b₂ σ.1.1 σ.1.2 m hb₁ hb₂ σ.2.1 σ.2.2 hm h0 hp
  have h := C178_limit hb₁ hb₂ hm h0 hp large large hL
    (fun σ₁ σ₂ => if h : 0 < σ₁ ∧ 0 < σ₂ then R ⟨(σ₁, σ₂), h⟩ else []) (fun σ₁ h1 σ₂ h2 => by
      rw [dif_pos ⟨h1, h2⟩]
      exact (hR ⟨(σ₁, σ₂), h1, h2⟩).1) hk₁ hk₂
  refine (h.comp (tendsto_id.prodMk tendsto_id)).congr' ?_
  filter_upwards [parameterLimit_pos large] with σ hσ
  have e := (hR ⟨(σ, σ), hσ, hσ⟩).1
  rw [hr σ hσ] at e
  simp only [Function.comp, id, dif_pos (show 0 < σ ∧ 0 < σ from ⟨hσ, hσ⟩)]
  injection e with e
  rw [e]

/-- **C178.** As one smoothing parameter for both directions grows, the value of a bin tends to the sum of the values
within reach, over the total of these sums. -/
theorem C178_large {b₁ b₂ : List ℝ} {m : List (List ℝ)} (hb₁ : BinsOk b₁) (hb₂ : BinsOk b₂)
    (hm : IsBinMatrix (b₁.length - 1) (b₂.length - 1) m) (h0 : ∀ r ∈ m, ∀ x ∈ r, 0 ≤ x) (hp : ∃ r ∈ m, ∃ x ∈ r, 0 < x)
    (r : ℝ → List (List ℝ)) (hr : ∀ σ > 0, smoothTwo realSmoother b₁ b₂ σ σ m = .ok (r σ))
    {k₁ k₂ : Nat} (hk₁ : k₁ < b₁.length - 1) (hk₂ : k₂ < b₂.length - 1) :
    Tendsto (fun σ => ((r σ).getD k₁ []).getD k₂ 0) atTop
      (𝓝 (windowSum2 (b₁.length - 1) (b₂.length - 1) m k₁ k₂ /
        ∑ l₁ ∈ Finset.range (b₁.length - 1), ∑ l₂ ∈ Finset.range (b₂.length - 1),
          windowSum2 (b₁.length - 1) (b₂.length - 1) m l₁ l₂)) := by
  have e1 : ∀ k₁ k₂, windowSum2 (b₁.length - 1) (b₂.length - 1) m k₁ k₂ =
      blur2 (limitWeight true (b₁.length - 1)) (limitWeight true (b₂.length - 1)) (b₁.length - 1) (b₂.length - 1) m
        k₁ k₂ := by
    intro k₁ k₂
    unfold windowSum2 blur2
    refine Finset.sum_congr rfl fun j₁ _ => Finset.sum_congr rfl fun j₂ _ => ?_
    have hw : ∀ (n k j : Nat), limitWeight true n ((k : ℤ) - j) =
        if k < j + n / 2 ∧ j ≤ k + (n + 1) / 2 then 1 else 0 := by
      intro n k j
      have : InReach n ((k : ℤ) - j) ↔ k < j + n / 2 ∧ j ≤ k + (n + 1) / 2 := by
        unfold InReach
        omega
      simp [limitWeight, this]
    rw [hw, hw]
    split_ifs with h1 h2 h3 h4 h5 <;> simp_all
  have e2 : ∑ l₁ ∈ Finset.range (b₁.length - 1), ∑ l₂ ∈ Finset.range (b₂.length - 1),
      windowSum2 (b₁.length - 1) (b₂.length - 1) m l₁ l₂ =
      blurTotal2 (limitWeight true (b₁.length - 1)) (limitWeight true (b₂.length - 1)) (b₁.length - 1) (b₂.length - 1) m :=
    Finset.sum_congr rfl fun l₁ _ => Finset.sum_congr rfl fun l₂ _ => e1 l₁ l₂
  have hz : ∀ n, 2 ≤ n → 0 < limitWeight true n 0 := by
    intro n hn
    have : InReach n 0 := ⟨by omega, by omega⟩
    simp [limitWeight, this]
  have hpos := blurTotal2_pos (limitWeight true (b₁.length - 1)) (limitWeight true (b₂.length - 1))
    (limitWeight_nonneg _ _) (limitWeight_nonneg _ _) (hz _ (by have := hb₁.1; omega)) (hz _ (by have := hb₂.1; omega))
    (b₁.length - 1) (b₂.length - 1) m hm h0 hp
  rw [e2, e1]
  exact limit_both hb₁ hb₂ hm h0 hp true _ _ rfl rfl hpos.ne' r hr hk₁ hk₂

theorem sum_le_zero {l : List ℝ} (h : ∀ x ∈ l, x ≤ 0) : l.sum ≤ 0 := by
  induction l with
  | nil => simp
  | cons a l ih =>
    rw [List.sum_cons]
    have h1 := h a List.mem_cons_self
    have h2 := ih fun x hx => h x (List.mem_cons_of_mem _ hx)
    linarith

/-- **C178.** As it tends to zero, with odd numbers of bins, the smoothed marginal tends to the marginal moved by one bin
in both directions. -/
theorem C178_small_odd {b₁ b₂ : List ℝ} {m : List (List ℝ)} (hb₁ : BinsOk b₁) (hb₂ : BinsOk b₂)
    (hm : IsBinMatrix (b₁.length - 1) (b₂.length - 1) m) (h0 : ∀ r ∈ m, ∀ x ∈ r, 0 ≤ x)
    (hodd₁ : (b₁.length - 1) % 2 = 1) (hodd₂ : (b₂.length - 1) % 2 = 1)
    (hp : 0 < (m.tail.map fun r => r.tail.sum).sum)
    (r : ℝ → List (List ℝ)) (hr : ∀ σ > 0, smoothTwo realSmoother b₁ b₂ σ σ m = .ok (r σ))
    {k₁ k₂ : Nat} (hk₁ : k₁ < b₁.length - 1) (hk₂ : k₂ < b₂.length - 1) :
    Tendsto (fun σ => ((r σ).getD k₁ []).getD k₂ 0) (𝓝[>] 0)
      (𝓝 ((m.getD (k₁ + 1) []).getD (k₂ + 1) 0 / (m.tail.map fun r => r.tail.sum).sum)) := by
  have hw₁ : (fun d : ℤ => if d = -1 then (1 : ℝ) else 0) = limitWeight false (b₁.length - 1) := by
    funext d
    simp [limitWeight, hodd₁]
  have hw₂ : (fun d : ℤ => if d = -1 then (1 : ℝ) else 0) = limitWeight false (b₂.length - 1) := by
    funext d
    simp [limitWeight, hodd₂]
  set L : ℤ → ℝ := fun d => if d = -1 then 1 else 0 with hLdef
  have e0 : ∀ k₁ < b₁.length - 1, ∀ k₂ < b₂.length - 1, blur2 L L (b₁.length - 1) (b₂.length - 1) m k₁ k₂ =
      (m.getD (k₁ + 1) []).getD (k₂ + 1) 0 := by
    intro k₁ hk₁ k₂ hk₂
    unfold blur2
    have inner : ∀ j₁ ∈ Finset.range (b₁.length - 1),
        ∑ j₂ ∈ Finset.range (b₂.length - 1), L ((k₁ : ℤ) - j₁) * L ((k₂ : ℤ) - j₂) * (m.getD j₁ []).getD j₂ 0 =
          L ((k₁ : ℤ) - j₁) * (m.map fun r => r.getD (k₂ + 1) 0).getD j₁ 0 := by
      intro j₁ hj₁
      have hj : j₁ < m.length := by rw [hm.1]; exact Finset.mem_range.mp hj₁
      have hlen : (m.getD j₁ []).length = b₂.length - 1 := by
        rw [List.getD_eq_getElem _ _ hj]
        exact hm.2 _ (List.getElem_mem hj)
      have e : (m.map fun r => r.getD (k₂ + 1) 0).getD j₁ 0 = (m.getD j₁ []).getD (k₂ + 1) 0 := by
        rw [List.getD_eq_getElem _ _ (by simpa using hj), List.getElem_map, List.getD_eq_getElem _ _ hj]
      rw [e, ← sum_next (m.getD j₁ []) k₂ (by rw [hlen]; exact hk₂), hlen, Finset.mul_sum]
      exact Finset.sum_congr rfl fun j₂ _ => by rw [mul_assoc]
    rw [Finset.sum_congr rfl inner]
    have h2 := sum_next (m.map fun r => r.getD (k₂ + 1) 0) k₁ (by rw [List.length_map, hm.1]; exact hk₁)
    rw [List.length_map, hm.1] at h2
    refine h2.trans ?_
    by_cases h : k₁ + 1 < m.length
    · rw [List.getD_eq_getElem _ _ (by simpa using h), List.getElem_map, List.getD_eq_getElem _ _ h]
    · rw [List.getD_eq_default _ _ (by simpa using not_lt.1 h), List.getD_eq_default m _ (not_lt.1 h)]
      simp
  have e2 : blurTotal2 L L (b₁.length - 1) (b₂.length - 1) m = (m.tail.map fun r => r.tail.sum).sum := by
    unfold blurTotal2
    have inner : ∀ k₁ ∈ Finset.range (b₁.length - 1),
        ∑ k₂ ∈ Finset.range (b₂.length - 1), blur2 L L (b₁.length - 1) (b₂.length - 1) m k₁ k₂ =
          (m.map fun r => r.tail.sum).getD (k₁ + 1) 0 := by
      intro k₁ hk₁
      rw [Finset.sum_congr rfl fun k₂ hk₂ => e0 k₁ (Finset.mem_range.mp hk₁) k₂ (Finset.mem_range.mp hk₂)]
      by_cases h : k₁ + 1 < m.length
      · rw [List.getD_eq_getElem (m.map _) _ (by simpa using h), List.getElem_map, ← sum_shifted,
          List.getD_eq_getElem m _ h, hm.2 _ (List.getElem_mem h)]
      · rw [List.getD_eq_default (m.map _) _ (by simpa using not_lt.1 h), List.getD_eq_default m _ (not_lt.1 h)]
        simp
    rw [Finset.sum_congr rfl inner]
    have := sum_shifted (m.map fun r => r.tail.sum)
    rw [List.length_map, hm.1] at this
    rw [this, List.map_tail]
  have hp' : ∃ r ∈ m, ∃ x ∈ r, 0 < x := by
    by_contra hn
    push Not at hn
    have : (m.tail.map fun r => r.tail.sum).sum ≤ 0 := by
      refine sum_le_zero ?_
      intro x hx
      obtain ⟨r, hr, rfl⟩ := List.mem_map.1 hx
      exact sum_le_zero fun y hy => hn r (List.mem_of_mem_tail hr) y (List.mem_of_mem_tail hy)
    linarith
  rw [← e0 k₁ hk₁ k₂ hk₂, ← e2]
  exact limit_both hb₁ hb₂ hm h0 hp' false L L hw₁ hw₂ (by rw [e2]; exact hp.ne') r hr hk₁ hk₂

/-- **C178 (negation).** Large parameters do not flatten a marginal: probability that is all in the first bin of both
directions never reaches the second half of the bins in either direction. -/
theorem C178_negation_flat {b₁ b₂ : List ℝ} (hb₁ : BinsOk b₁) (hb₂ : BinsOk b₂) {σ₁ σ₂ : ℝ} (hσ₁ : 0 < σ₁) (hσ₂ : 0 < σ₂)
    (hbig₁ : (((b₁.length - 1 : Nat) : ℝ) + 1) * widthOf b₁ ≤ 12 * σ₁)
    (hbig₂ : (((b₂.length - 1 : Nat) : ℝ) + 1) * widthOf b₂ ≤ 12 * σ₂) :
    ∃ r, smoothTwo realSmoother b₁ b₂ σ₁ σ₂ (outerProd (pointMass (b₁.length - 1) 0) (pointMass (b₂.length - 1) 0)) =
        .ok r ∧
      ∀ k₁ k₂, k₁ < b₁.length - 1 → k₂ < b₂.length - 1 → ((b₁.length - 1) / 2 ≤ k₁ ∨ (b₂.length - 1) / 2 ≤ k₂) →
        (r.getD k₁ []).getD k₂ 0 = 0 := by
  obtain ⟨r₁, e₁, h₁⟩ := C173_negation_flat hb₁ hσ₁ hbig₁
  obtain ⟨r₂, e₂, h₂⟩ := C173_negation_flat hb₂ hσ₂ hbig₂
  refine ⟨_, C90_product realSmoother C90_fourier b₁ b₂ σ₁ σ₂ _ _ r₁ r₂ hb₁ hb₂ hσ₁ hσ₂ (by simp [pointMass])
    (by simp [pointMass]) e₁ e₂, fun k₁ k₂ hk₁ hk₂ h => ?_⟩
  rw [getD_outerProd]
  rcases h with h | h
  · rw [h₁ k₁ h hk₁, zero_mul]
  · rw [h₂ k₂ h hk₂, mul_zero]

/-- **C178 (negation).** Small parameters do not leave a marginal as it is: with odd numbers of bins all the probability
of a bin goes to the bin before it in both directions. -/
theorem C178_negation_same {b₁ b₂ : List ℝ} (hb₁ : BinsOk b₁) (hb₂ : BinsOk b₂) (hodd₁ : (b₁.length - 1) % 2 = 1)
    (hodd₂ : (b₂.length - 1) % 2 = 1) {l₁ l₂ : Nat} (hl₁ : 0 < l₁) (hl₁' : l₁ < b₁.length - 1) (hl₂ : 0 < l₂)
    (hl₂' : l₂ < b₂.length - 1) :
    ∃ r : ℝ → List (List ℝ), (∀ σ > 0, smoothTwo realSmoother b₁ b₂ σ σ
        (outerProd (pointMass (b₁.length - 1) l₁) (pointMass (b₂.length - 1) l₂)) = .ok (r σ)) ∧
      Tendsto (fun σ => ((r σ).getD l₁ []).getD l₂ 0) (𝓝[>] 0) (𝓝 0) ∧
      Tendsto (fun σ => ((r σ).getD (l₁ - 1) []).getD (l₂ - 1) 0) (𝓝[>] 0) (𝓝 1) := by
  obtain ⟨r₁, e₁, h₁, h₁'⟩ := C173_negation_same hb₁ hodd₁ hl₁ hl₁'
  obtain ⟨r₂, e₂, h₂, h₂'⟩ := C173_negation_same hb₂ hodd₂ hl₂ hl₂'
  refine ⟨fun σ => outerProd (r₁ σ) (r₂ σ), fun σ hσ => C90_product realSmoother C90_fourier b₁ b₂ σ σ _ _ _ _ hb₁ hb₂ hσ
    hσ (by simp [pointMass]) (by simp [pointMass]) (e₁ σ hσ) (e₂ σ hσ), ?_, ?_⟩
  · simp only [getD_outerProd]
    simpa using h₁.mul h₂
  · simp only [getD_outerProd]
    simpa using h₁'.mul h₂'

/-! ## Examples -/

namespace Ex

example := C178_negation_flat (b₁ := [0, 1, 2, 3, 4]) (b₂ := [0, 1, 2, 3]) ⟨by simp, by simp⟩ ⟨by simp, by simp⟩
  (σ₁ := 10) (σ₂ := 10) (by norm_num) (by norm_num) (by norm_num [widthOf]) (by norm_num [widthOf])

example := C178_negation_same (b₁ := [0, 1, 2, 3]) (b₂ := [0, 1, 2, 3]) ⟨by simp, by simp⟩ ⟨by simp, by simp⟩ rfl rfl
  (l₁ := 1) (l₂ := 2) (by omega) (by simp) (by omega) (by simp)

/-- There are functions `r` as in the limits. -/
theorem smoothed_exists2 {b₁ b₂ : List ℝ} {m : List (List ℝ)} (hb₁ : BinsOk b₁) (hb₂ : BinsOk b₂)
    (hm : IsBinMatrix (b₁.length - 1) (b₂.length - 1) m) (h0 : ∀ r ∈ m, ∀ x ∈ r, 0 ≤ x) (hp : ∃ r ∈ m, ∃ x ∈ r, 0 < x) :
    ∃ r : ℝ → ℝ → List (List ℝ), ∀ σ₁ > 0, ∀ σ₂ > 0, smoothTwo realSmoother b₁ b₂ σ₁ σ₂ m = .ok (r σ₁ σ₂) := by
  choose R hR using fun σ : {σ : ℝ × ℝ // 0 < σ.1 ∧ 0 < σ.2} =>
    C90_two realSmoother C90_fourier b₁ b₂ σ.1.1 σ.1.2 m hb₁ hb₂ σ.2.1 σ.2.2 hm h0 hp
  exact ⟨fun σ₁ σ₂ => if h : 0 < σ₁ ∧ 0 < σ₂ then R ⟨(σ₁, σ₂), h⟩ else [], fun σ₁ h1 σ₂ h2 => by
    simp only [dif_pos (show 0 < σ₁ ∧ 0 < σ₂ from ⟨h1, h2⟩)]
    exact (hR ⟨(σ₁, σ₂), h1, h2⟩).1⟩

/-- Two and three bins, not a product. A large first and a small second parameter: of all but the first bin of the
second direction, the first bins of the first direction get everything, the second ones what they have. -/
example : ∃ r : ℝ → ℝ → List (List ℝ), (∀ σ₁ > 0, ∀ σ₂ > 0,
      smoothTwo realSmoother [0, 1, 2] [0, 1, 2, 3] σ₁ σ₂ [[1 / 4, 1 / 4, 0], [0, 1 / 4, 1 / 4]] = .ok (r σ₁ σ₂)) ∧
    Tendsto (fun σ : ℝ × ℝ => ((r σ.1 σ.2).getD 0 []).getD 0 0) (atTop ×ˢ 𝓝[>] 0) (𝓝 (2 / 5)) ∧
    Tendsto (fun σ => ((r σ σ).getD 0 []).getD 0 0) atTop (𝓝 (4 / 13)) := by
  have h0 : ∀ r ∈ [[1 / 4, 1 / 4, 0], [0, 1 / 4, 1 / 4]], ∀ x ∈ r, (0 : ℝ) ≤ x := by
    intro r hr x hx
    fin_cases hr <;> fin_cases hx <;> norm_num
  have hm : IsBinMatrix 2 3 [[1 / 4, 1 / 4, 0], [0, 1 / 4, (1 / 4 : ℝ)]] := ⟨rfl, by simp⟩
  have hp : ∃ r ∈ [[1 / 4, 1 / 4, 0], [0, 1 / 4, (1 / 4 : ℝ)]], ∃ x ∈ r, 0 < x :=
    ⟨_, List.mem_cons_self, _, List.mem_cons_self, by norm_num⟩
  have hb₁ : BinsOk [(0 : ℝ), 1, 2] := ⟨by simp, by simp⟩
  have hb₂ : BinsOk [(0 : ℝ), 1, 2, 3] := ⟨by simp, by simp⟩
  obtain ⟨r, hr⟩ := smoothed_exists2 hb₁ hb₂ hm h0 hp
  refine ⟨r, hr, ?_, ?_⟩
  · have ht : blurTotal2 (limitWeight true 2) (limitWeight false 3) 2 3 [[1 / 4, 1 / 4, 0], [0, 1 / 4, (1 / 4 : ℝ)]] =
        5 / 4 := by
      simp [blurTotal2, blur2, limitWeight, InReach, Finset.sum_range_succ]
      norm_num
    have := C178_limit hb₁ hb₂ hm h0 hp true false (by
      change blurTotal2 (limitWeight true 2) (limitWeight false 3) 2 3 _ ≠ 0
      rw [ht]
      norm_num) r hr (k₁ := 0) (k₂ := 0)
      (by simp) (by simp)
    change Tendsto _ _ (𝓝 (blur2 (limitWeight true 2) (limitWeight false 3) 2 3 _ _ _ /
      blurTotal2 (limitWeight true 2) (limitWeight false 3) 2 3 _)) at this
    rw [ht] at this
    simp [blur2, limitWeight, InReach, Finset.sum_range_succ, parameterLimit] at this
    norm_num at this
    simpa using this
  · have := C178_large hb₁ hb₂ hm h0 hp (fun σ => r σ σ) (fun σ hσ => hr σ hσ σ hσ) (k₁ := 0) (k₂ := 0) (by simp) (by simp)
    simp [windowSum2, Finset.sum_range_succ] at this
    norm_num at this
    simpa using this

end Ex

end BET
