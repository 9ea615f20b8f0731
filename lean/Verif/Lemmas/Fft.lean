import Verif.Model.Smooth
import Mathlib.Algebra.Field.GeomSum
import Mathlib.Tactic.FieldSimp
import Mathlib.Tactic.Ring

/-!
# Products of discrete Fourier transforms
-/

set_option autoImplicit false
set_option linter.unusedSectionVars false
set_option linter.unusedSimpArgs false

namespace BET

/-- Circular convolution of two arrays. -/
def Spec.circConv {K : Type} [Field K] (a b : List K) : List K :=
  (List.range a.length).map fun (m : Nat) =>
    ∑ l ∈ Finset.range a.length, a.getD ((m + a.length - l) % a.length) 0 * b.getD l 0

/-- Circular convolution of two arrays of shape `(n₁, n₂)`. -/
def Spec.circConv2 {K : Type} [Field K] (n₁ n₂ : Nat) (a b : List (List K)) : List (List K) :=
  (List.range n₁).map fun (m₁ : Nat) => (List.range n₂).map fun (m₂ : Nat) =>
    ∑ l₁ ∈ Finset.range n₁, ∑ l₂ ∈ Finset.range n₂,
      (a.getD ((m₁ + n₁ - l₁) % n₁) []).getD ((m₂ + n₂ - l₂) % n₂) 0 * (b.getD l₁ []).getD l₂ 0

theorem unityRoot_add (n : Nat) (a b : ℤ) : unityRoot n (a + b) = unityRoot n a * unityRoot n b := by
  unfold unityRoot
  rw [← Complex.exp_add]
  push_cast
  ring_nf

theorem unityRoot_mul (n k : Nat) (d : ℤ) : unityRoot n (k * d) = unityRoot n d ^ k := by
  unfold unityRoot
  rw [← Complex.exp_nat_mul]
  push_cast
  ring_nf

theorem unityRoot_eq_one (n : Nat) (hn : 0 < n) (d : ℤ) : unityRoot n d = 1 ↔ (n : ℤ) ∣ d := by
  have hn' : (n : ℂ) ≠ 0 := by exact_mod_cast hn.ne'
  have hpi : (2 * Real.pi * Complex.I : ℂ) ≠ 0 := Complex.two_pi_I_ne_zero
  unfold unityRoot
  rw [Complex.exp_eq_one_iff]
  constructor
  · rintro ⟨k, hk⟩
    rw [mul_comm (k : ℂ)] at hk
    have h2 : (d : ℂ) / n = k := mul_left_cancel₀ hpi hk
    rw [div_eq_iff hn'] at h2
    refine ⟨k, ?_⟩
    rw [mul_comm]
    exact_mod_cast h2
  · rintro ⟨k, rfl⟩
    refine ⟨k, ?_⟩
    push_cast
    field_simp

theorem unityRoot_sum (n : Nat) (hn : 0 < n) (d : ℤ) :
    ∑ k ∈ Finset.range n, unityRoot n (k * d) = if (n : ℤ) ∣ d then (n : ℂ) else 0 := by
  simp only [unityRoot_mul]
  by_cases h : (n : ℤ) ∣ d
  · rw [if_pos h, (unityRoot_eq_one n hn d).mpr h]
    simp
  · rw [if_neg h]
    have h1 : unityRoot n d ≠ 1 := fun e => h ((unityRoot_eq_one n hn d).mp e)
    rw [geom_sum_eq h1, ← unityRoot_mul, (unityRoot_eq_one n hn _).mpr (Dvd.intro _ rfl)]
    simp

theorem index_unique (n m l p : Nat) (_hm : m < n) (hl : l < n) (hp : p < n) :
    (n : ℤ) ∣ (m : ℤ) - p - l ↔ p = (m + n - l) % n := by
  have hn : 0 < n := by omega
  have hr : (m + n - l) % n < n := Nat.mod_lt _ hn
  have he : ((m + n - l : Nat) : ℤ) = (m : ℤ) + n - l := by omega
  have hd : ((m + n - l : Nat) : ℤ) = n * (((m + n - l) / n : Nat) : ℤ) + (((m + n - l) % n : Nat) : ℤ) := by
    exact_mod_cast (Nat.div_add_mod (m + n - l) n).symm
  constructor
  · rintro ⟨k, hk⟩
    have : ((m + n - l) % n : Nat) = p + n * (k + 1 - ((m + n - l) / n : Nat)) := by
      linear_combination -hd + he + hk
    set c : ℤ := k + 1 - ((m + n - l) / n : Nat)
    have hc : c = 0 := by
      have h1 : (n : ℤ) * c < n := by omega
      have h2 : -(n : ℤ) < n * c := by omega
      have h3 : c < 1 := by
        by_contra h
        push Not at h
        nlinarith
      have h4 : -1 < c := by
        by_contra h
        push Not at h
        nlinarith
      omega
    rw [hc] at this
    omega
  · intro h
    refine ⟨((m + n - l) / n : Nat) - 1, ?_⟩
    have : (p : ℤ) = ((m + n - l) % n : Nat) := by rw [h]
    linear_combination hd - he - this

/-- The inner sum over the frequencies. -/
theorem frequency_sum (n m l p : Nat) (hm : m < n) (hl : l < n) (hp : p < n) :
    ∑ k ∈ Finset.range n, unityRoot n (k * m) * (unityRoot n (-(p * k)) * unityRoot n (-(l * k))) =
      if p = (m + n - l) % n then (n : ℂ) else 0 := by
  have : ∀ k : Nat, unityRoot n (k * m) * (unityRoot n (-(p * k)) * unityRoot n (-(l * k))) =
      unityRoot n (k * ((m : ℤ) - p - l)) := by
    intro k
    rw [← unityRoot_add, ← unityRoot_add]
    congr 1
    ring
  rw [Finset.sum_congr rfl fun k _ => this k, unityRoot_sum n (by omega)]
  simp only [index_unique n m l p hm hl hp]

/-- The convolution theorem: multiplying Fourier transforms convolves the arrays. -/
theorem fftConv_eq (a b : List ℝ) : fftConv a b = Spec.circConv a b := by
  unfold fftConv Spec.circConv
  refine List.map_congr_left fun m hm => ?_
  have hm' := List.mem_range.mp hm
  set n := a.length
  have hn : (n : ℂ) ≠ 0 := by
    have : 0 < n := by omega
    exact_mod_cast this.ne'
  have key : (n : ℂ)⁻¹ * ∑ k ∈ Finset.range n, unityRoot n (k * m) *
      ((∑ p ∈ Finset.range n, ((a.getD p 0 : ℝ) : ℂ) * unityRoot n (-(p * k))) *
        ∑ l ∈ Finset.range n, ((b.getD l 0 : ℝ) : ℂ) * unityRoot n (-(l * k))) =
      ((∑ l ∈ Finset.range n, a.getD ((m + n - l) % n) 0 * b.getD l 0 : ℝ) : ℂ) := by
    have h1 : ∀ k : Nat, unityRoot n (k * m) *
        ((∑ p ∈ Finset.range n, ((a.getD p 0 : ℝ) : ℂ) * unityRoot n (-(p * k))) *
          ∑ l ∈ Finset.range n, ((b.getD l 0 : ℝ) : ℂ) * unityRoot n (-(l * k))) =
        ∑ l ∈ Finset.range n, ∑ p ∈ Finset.range n, ((a.getD p 0 : ℝ) : ℂ) * ((b.getD l 0 : ℝ) : ℂ) *
          (unityRoot n (k * m) * (unityRoot n (-(p * k)) * unityRoot n (-(l * k)))) := by
      intro k
      rw [Finset.sum_mul_sum, Finset.mul_sum, Finset.sum_comm]
      simp only [Finset.mul_sum]
      refine Finset.sum_congr rfl fun l _ => Finset.sum_congr rfl fun p _ => ?_
      ring
    rw [Finset.sum_congr rfl fun k _ => h1 k, Finset.sum_comm, Finset.mul_sum]
    push_cast
    refine Finset.sum_congr rfl fun l hl => ?_
    rw [Finset.sum_comm]
    simp only [← Finset.mul_sum]
    rw [Finset.sum_congr rfl fun p hp => by
      rw [frequency_sum n m l p hm' (Finset.mem_range.mp hl) (Finset.mem_range.mp hp)]]
    have hr : (m + n - l) % n ∈ Finset.range n := Finset.mem_range.mpr (Nat.mod_lt _ (by omega))
    simp only [mul_ite, mul_zero, Finset.sum_ite_eq', hr, if_true]
    field_simp
  rw [key]
  exact Complex.ofReal_re _

/-- The convolution theorem in two dimensions. -/
theorem fftConv2_eq (n₁ n₂ : Nat) (a b : List (List ℝ)) :
    fftConv2 n₁ n₂ a b = Spec.circConv2 n₁ n₂ a b := by
  unfold fftConv2 Spec.circConv2
  refine List.map_congr_left fun m₁ hm₁ => List.map_congr_left fun m₂ hm₂ => ?_
  have hm₁' := List.mem_range.mp hm₁
  have hm₂' := List.mem_range.mp hm₂
  have hn₁ : (n₁ : ℂ) ≠ 0 := by
    have : 0 < n₁ := by omega
    exact_mod_cast this.ne'
  have hn₂ : (n₂ : ℂ) ≠ 0 := by
    have : 0 < n₂ := by omega
    exact_mod_cast this.ne'
  generalize hA : (fun p q : Nat => ((a.getD p []).getD q 0 : ℝ)) = A
  generalize hB : (fun p q : Nat => ((b.getD p []).getD q 0 : ℝ)) = B
  have hA' : ∀ p q : Nat, ((a.getD p []).getD q 0 : ℝ) = A p q := fun p q => by rw [← hA]
  have hB' : ∀ p q : Nat, ((b.getD p []).getD q 0 : ℝ) = B p q := fun p q => by rw [← hB]
  simp only [hA', hB']
  have key : ((n₁ : ℂ) * (n₂ : ℂ))⁻¹ * ∑ k₁ ∈ Finset.range n₁, ∑ k₂ ∈ Finset.range n₂,
      unityRoot n₁ (k₁ * m₁) * unityRoot n₂ (k₂ * m₂) *
      ((∑ p ∈ Finset.range n₁, ∑ q ∈ Finset.range n₂, ((A p q : ℝ) : ℂ) *
          (unityRoot n₁ (-(p * k₁)) * unityRoot n₂ (-(q * k₂)))) *
        ∑ p ∈ Finset.range n₁, ∑ q ∈ Finset.range n₂, ((B p q : ℝ) : ℂ) *
          (unityRoot n₁ (-(p * k₁)) * unityRoot n₂ (-(q * k₂)))) =
      ((∑ l₁ ∈ Finset.range n₁, ∑ l₂ ∈ Finset.range n₂,
        A ((m₁ + n₁ - l₁) % n₁) ((m₂ + n₂ - l₂) % n₂) * B l₁ l₂ : ℝ) : ℂ) := by
    -- the four sums over positions outside, the two over frequencies inside
    have h1 : ∀ k₁ k₂ : Nat, unityRoot n₁ (k₁ * m₁) * unityRoot n₂ (k₂ * m₂) *
        ((∑ p ∈ Finset.range n₁, ∑ q ∈ Finset.range n₂, ((A p q : ℝ) : ℂ) *
            (unityRoot n₁ (-(p * k₁)) * unityRoot n₂ (-(q * k₂)))) *
          ∑ p ∈ Finset.range n₁, ∑ q ∈ Finset.range n₂, ((B p q : ℝ) : ℂ) *
            (unityRoot n₁ (-(p * k₁)) * unityRoot n₂ (-(q * k₂)))) =
        ∑ x ∈ Finset.range n₁ ×ˢ Finset.range n₂, ∑ y ∈ Finset.range n₁ ×ˢ Finset.range n₂,
          ((A y.1 y.2 : ℝ) : ℂ) * ((B x.1 x.2 : ℝ) : ℂ) *
          ((unityRoot n₁ (k₁ * m₁) * (unityRoot n₁ (-(y.1 * k₁)) * unityRoot n₁ (-(x.1 * k₁)))) *
            (unityRoot n₂ (k₂ * m₂) * (unityRoot n₂ (-(y.2 * k₂)) * unityRoot n₂ (-(x.2 * k₂))))) := by
      intro k₁ k₂
      rw [← Finset.sum_product', ← Finset.sum_product', Finset.sum_mul_sum, Finset.mul_sum,
        Finset.sum_comm]
      simp only [Finset.mul_sum]
      refine Finset.sum_congr rfl fun x _ => Finset.sum_congr rfl fun y _ => ?_
      ring
    have h2 : ∀ x ∈ Finset.range n₁ ×ˢ Finset.range n₂, ∀ y ∈ Finset.range n₁ ×ˢ Finset.range n₂,
        ∑ k ∈ Finset.range n₁ ×ˢ Finset.range n₂,
          ((A y.1 y.2 : ℝ) : ℂ) * ((B x.1 x.2 : ℝ) : ℂ) *
          ((unityRoot n₁ (k.1 * m₁) * (unityRoot n₁ (-(y.1 * k.1)) * unityRoot n₁ (-(x.1 * k.1)))) *
            (unityRoot n₂ (k.2 * m₂) * (unityRoot n₂ (-(y.2 * k.2)) * unityRoot n₂ (-(x.2 * k.2))))) =
        if y = ((m₁ + n₁ - x.1) % n₁, (m₂ + n₂ - x.2) % n₂) then
          ((A y.1 y.2 : ℝ) : ℂ) * ((B x.1 x.2 : ℝ) : ℂ) * ((n₁ : ℂ) * n₂) else 0 := by
      intro x hx y hy
      obtain ⟨hx1, hx2⟩ := Finset.mem_product.mp hx
      obtain ⟨hy1, hy2⟩ := Finset.mem_product.mp hy
      rw [← Finset.mul_sum, Finset.sum_product
        (f := fun k : Nat × Nat =>
          (unityRoot n₁ (k.1 * m₁) * (unityRoot n₁ (-(y.1 * k.1)) * unityRoot n₁ (-(x.1 * k.1)))) *
          (unityRoot n₂ (k.2 * m₂) * (unityRoot n₂ (-(y.2 * k.2)) * unityRoot n₂ (-(x.2 * k.2)))))]
      simp only [← Finset.mul_sum]
      rw [← Finset.sum_mul,
        frequency_sum n₁ m₁ x.1 y.1 hm₁' (Finset.mem_range.mp hx1) (Finset.mem_range.mp hy1),
        frequency_sum n₂ m₂ x.2 y.2 hm₂' (Finset.mem_range.mp hx2) (Finset.mem_range.mp hy2)]
      by_cases e1 : y.1 = (m₁ + n₁ - x.1) % n₁ <;> by_cases e2 : y.2 = (m₂ + n₂ - x.2) % n₂ <;>
        simp [e1, e2, Prod.ext_iff]
    simp only [h1]
    rw [← Finset.sum_product
      (f := fun k : Nat × Nat => ∑ x ∈ Finset.range n₁ ×ˢ Finset.range n₂,
        ∑ y ∈ Finset.range n₁ ×ˢ Finset.range n₂,
          ((A y.1 y.2 : ℝ) : ℂ) * ((B x.1 x.2 : ℝ) : ℂ) *
          ((unityRoot n₁ (k.1 * m₁) * (unityRoot n₁ (-(y.1 * k.1)) * unityRoot n₁ (-(x.1 * k.1)))) *
            (unityRoot n₂ (k.2 * m₂) * (unityRoot n₂ (-(y.2 * k.2)) * unityRoot n₂ (-(x.2 * k.2))))))]
    rw [Finset.sum_comm, Finset.mul_sum]
    rw [← Finset.sum_product' (f := fun l₁ l₂ => A ((m₁ + n₁ - l₁) % n₁) ((m₂ + n₂ - l₂) % n₂) * B l₁ l₂)]
    push_cast
    refine Finset.sum_congr rfl fun x hx => ?_
    rw [Finset.sum_comm, Finset.sum_congr rfl fun y hy => h2 x hx y hy]
    have hr : ((m₁ + n₁ - x.1) % n₁, (m₂ + n₂ - x.2) % n₂) ∈ Finset.range n₁ ×ˢ Finset.range n₂ :=
      Finset.mem_product.mpr ⟨Finset.mem_range.mpr (Nat.mod_lt _ (by omega)),
        Finset.mem_range.mpr (Nat.mod_lt _ (by omega))⟩
    rw [Finset.sum_ite_eq' , if_pos hr]
    field_simp
  rw [key]
  exact Complex.ofReal_re _

end BET
