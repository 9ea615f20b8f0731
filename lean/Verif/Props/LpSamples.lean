import Verif.Model.Clusters
import Verif.Lemmas.Basic
import Mathlib.Algebra.BigOperators.Field

/-!
# C84: samples of the p-ball
-/

set_option autoImplicit false
set_option linter.unusedSectionVars false
set_option linter.unusedSimpArgs false

namespace BET

/-- The distance of `x` from the centre `c` in the `p`-norm in which coordinate `i` is measured in units
of `s i`; to the power `p`. -/
noncomputable def Spec.lpDist (p : ℝ) (s c x : List ℝ) : ℝ :=
  ∑ i ∈ Finset.range c.length, |(x.getD i 0 - c.getD i 0) / s.getD i 0| ^ p

/-- The radii are positive, one for each coordinate. -/
def Spec.Radii (dim : Nat) (s : List ℝ) : Prop := s.length = dim ∧ ∀ r ∈ s, 0 < r

open Spec

theorem lp_sum_map_range (v : List ℝ) (f : ℝ → ℝ) :
    (v.map f).sum = ∑ i ∈ Finset.range v.length, f (v.getD i 0) := by
  induction v with
  | nil => simp
  | cons a v ih => rw [List.length_cons, Finset.sum_range_succ']; simp [ih, add_comm]

theorem lpNorm_rpow {p : ℝ} (hp : 0 < p) (v : List ℝ) :
    lpNorm p v ^ p = ∑ i ∈ Finset.range v.length, |v.getD i 0| ^ p := by
  rw [lpNorm, ← lp_sum_map_range v fun x => |x| ^ p, ← Real.rpow_mul, one_div,
    inv_mul_cancel₀ hp.ne', Real.rpow_one]
  refine List.sum_nonneg ?_
  intro x hx
  obtain ⟨y, -, rfl⟩ := List.mem_map.mp hx
  exact Real.rpow_nonneg (abs_nonneg _) _

theorem lpNorm_nonneg (p : ℝ) (v : List ℝ) : 0 ≤ lpNorm p v := by
  refine Real.rpow_nonneg (List.sum_nonneg ?_) _
  intro x hx
  obtain ⟨y, -, rfl⟩ := List.mem_map.mp hx
  exact Real.rpow_nonneg (abs_nonneg _) _

theorem radii_pos {dim : Nat} {s : List ℝ} (h : Radii dim s) {i : Nat} (hi : i < dim) :
    0 < s.getD i 0 := by
  rw [← h.1] at hi
  rw [List.getD_eq_getElem?_getD, List.getElem?_eq_getElem hi]
  exact h.2 _ (List.getElem_mem hi)

theorem getD_zipWith {α β γ : Type} (f : α → β → γ) (a : List α) (b : List β) (x : α) (y : β) (z : γ)
    {i : Nat} (ha : i < a.length) (hb : i < b.length) :
    (List.zipWith f a b).getD i z = f (a.getD i x) (b.getD i y) := by
  simp [List.getD_eq_getElem?_getD, List.getElem?_zipWith, List.getElem?_eq_getElem ha,
    List.getElem?_eq_getElem hb]

theorem place_dist {p r : ℝ} (hr : 0 ≤ r) {u s c : List ℝ} {dim : Nat}
    (hu : u.length = dim) (hs : Radii dim s) (hc : c.length = dim) :
    (place u r s c).length = dim ∧
      lpDist p s c (place u r s c) = r ^ p * ∑ i ∈ Finset.range dim, |u.getD i 0| ^ p := by
  refine ⟨by simp [place, hu, hs.1, hc], ?_⟩
  rw [lpDist, hc, Finset.mul_sum]
  refine Finset.sum_congr rfl fun i hi => ?_
  have hi := Finset.mem_range.mp hi
  have hpos := radii_pos hs hi
  rw [place, getD_zipWith _ _ _ 0 0 0 (by simp [hu, hs.1, hi]) (by rw [hc]; exact hi),
    getD_zipWith _ _ _ 0 0 0 (by rw [hu]; exact hi) (by rw [hs.1]; exact hi), add_sub_cancel_right,
    mul_div_cancel_right₀ _ hpos.ne', abs_mul, abs_of_nonneg hr, mul_comm,
    Real.mul_rpow hr (abs_nonneg _)]

theorem onSphere_sum {p : ℝ} (hp : 0 < p) {z u : List ℝ} (h : onSphere p z = .ok u) :
    u.length = z.length ∧ ∑ i ∈ Finset.range z.length, |u.getD i 0| ^ p = 1 := by
  unfold onSphere at h
  split at h
  · cases h
  · rename_i h0
    have hu := Except.ok.inj h
    subst hu
    have hpos : 0 < lpNorm p z := lt_of_le_of_ne (lpNorm_nonneg p z) (Ne.symm h0)
    refine ⟨by simp, ?_⟩
    have : ∀ i ∈ Finset.range z.length, |(z.map fun x => x / lpNorm p z).getD i 0| ^ p =
        |z.getD i 0| ^ p / lpNorm p z ^ p := by
      intro i hi
      have hi := Finset.mem_range.mp hi
      simp only [List.getD_eq_getElem?_getD, List.getElem?_map, List.getElem?_eq_getElem hi,
        Option.map_some, Option.getD_some]
      rw [abs_div, abs_of_pos hpos, Real.div_rpow (abs_nonneg _) hpos.le]
    rw [Finset.sum_congr rfl this, ← Finset.sum_div, ← lpNorm_rpow hp]
    exact div_self (Real.rpow_pos_of_pos hpos p).ne'

/-- **C84.** A sample of `Lp_generalized_uniform` with finite `p` has exactly the distance from the
centre that was drawn as radius, a fraction `r` of the scale; so it lies in the ball. -/
theorem C84_uniform {p r : ℝ} (hp : 0 < p) (hr : 0 ≤ r) (hr1 : r ≤ 1) {g e s c x : List ℝ} {dim : Nat}
    (hg : g.length = dim) (he : e.length = dim) (hs : Radii dim s) (hc : c.length = dim)
    (h : lpUniform p g e r s c = .ok x) :
    x.length = dim ∧ lpDist p s c x = r ^ p ∧ lpDist p s c x ≤ 1 := by
  simp only [lpUniform, bind_eq_ok, pure_eq_ok] at h
  obtain ⟨u, hu, rfl⟩ := h
  obtain ⟨hl, hsum⟩ := onSphere_sum hp hu
  have hz : (lpNormal p g e).length = dim := by simp [lpNormal, hg, he]
  rw [hz] at hl hsum
  obtain ⟨h1, h2⟩ := place_dist hr hl hs hc
  rw [hsum, mul_one] at h2
  refine ⟨h1, h2, ?_⟩
  rw [h2]
  exact Real.rpow_le_one hr hr1 hp.le

/-- **C84.** So does a sample of `Lp_generalized_beta`, with the root of the number drawn as radius. -/
theorem C84_beta {p b : ℝ} (hp : 0 < p) (hb : 0 ≤ b) (hb1 : b ≤ 1) {g e s c x : List ℝ} {dim : Nat}
    (hg : g.length = dim) (he : e.length = dim) (hs : Radii dim s) (hc : c.length = dim)
    (h : lpBeta p g e b s c = .ok x) :
    x.length = dim ∧ lpDist p s c x = b ∧ lpDist p s c x ≤ 1 := by
  simp only [lpBeta, bind_eq_ok, pure_eq_ok] at h
  obtain ⟨u, hu, rfl⟩ := h
  obtain ⟨hl, hsum⟩ := onSphere_sum hp hu
  have hz : (lpNormal p g e).length = dim := by simp [lpNormal, hg, he]
  rw [hz] at hl hsum
  obtain ⟨h1, h2⟩ := place_dist (r := b ^ (1 / p)) (Real.rpow_nonneg hb _) hl hs hc
  rw [hsum, mul_one, ← Real.rpow_mul hb, one_div_mul_cancel hp.ne', Real.rpow_one] at h2
  exact ⟨h1, h2, h2.le.trans hb1⟩

/-- **C84.** There is a sample unless all the normal variates are zero. -/
theorem C84_defined {p : ℝ} {g e : List ℝ}
    (h : ∃ (i : Nat) (a b : ℝ), g[i]? = some a ∧ e[i]? = some b ∧ a ≠ 0 ∧ b ≠ 0) (hp : 0 < p)
    (r : ℝ) (s c : List ℝ) : (∃ x, lpUniform p g e r s c = .ok x) ∧ ∃ x, lpBeta p g e r s c = .ok x := by
  have h0 : lpNorm p (lpNormal p g e) ≠ 0 := by
    intro h0
    have h1 := lpNorm_rpow hp (lpNormal p g e)
    rw [h0, Real.zero_rpow hp.ne'] at h1
    obtain ⟨i, a, b, ha, hb, ha0, hb0⟩ := h
    have hi := (List.getElem?_eq_some_iff.mp ha).1
    have hi' := (List.getElem?_eq_some_iff.mp hb).1
    have h2 := (Finset.sum_eq_zero_iff_of_nonneg fun j _ =>
      Real.rpow_nonneg (abs_nonneg ((lpNormal p g e).getD j 0)) p).mp h1.symm i
      (Finset.mem_range.mpr (by simp [lpNormal, hi, hi']))
    rw [lpNormal, getD_zipWith _ _ _ 0 0 0 hi hi', List.getD_eq_getElem?_getD,
      List.getD_eq_getElem?_getD, ha, hb] at h2
    simp only [Option.getD_some] at h2
    rw [Real.rpow_eq_zero_iff_of_nonneg (abs_nonneg _)] at h2
    have h3 := abs_eq_zero.mp h2.1
    rcases mul_eq_zero.mp h3 with h3 | h3
    · exact (Real.rpow_pos_of_pos (abs_pos.mpr ha0) (1 / p)).ne' h3
    · rcases lt_or_gt_of_ne hb0 with h | h
      · rw [sign_neg h] at h3
        norm_num at h3
      · rw [sign_pos h] at h3
        norm_num at h3
  constructor
  · exact ⟨place _ r s c, by simp only [lpUniform, onSphere, if_neg h0, ok_bind]; rfl⟩
  · exact ⟨place _ (r ^ (1 / p)) s c, by simp only [lpBeta, onSphere, if_neg h0, ok_bind]; rfl⟩

/-- **C84.** For infinite `p` the sample differs from the centre by at most the scale in every
coordinate. -/
theorem C84_inf {u s c : List ℝ} {dim : Nat} (hu : u.length = dim) (h01 : ∀ x ∈ u, 0 ≤ x ∧ x ≤ 1)
    (hs : Radii dim s) (hc : c.length = dim) :
    (lpUniformInf u s c).length = dim ∧
      ∀ i < dim, |(lpUniformInf u s c).getD i 0 - c.getD i 0| ≤ s.getD i 0 := by
  refine ⟨by simp [lpUniformInf, hu, hs.1, hc], ?_⟩
  intro i hi
  have hpos := radii_pos hs hi
  rw [lpUniformInf, getD_zipWith _ _ _ 0 0 0 (by simp [hu, hs.1, hi]) (by rw [hc]; exact hi),
    getD_zipWith _ _ _ 0 0 0 (by rw [hu]; exact hi) (by rw [hs.1]; exact hi), add_sub_cancel_right]
  have hui : 0 ≤ u.getD i 0 ∧ u.getD i 0 ≤ 1 := by
    rw [← hu] at hi
    rw [List.getD_eq_getElem?_getD, List.getElem?_eq_getElem hi]
    exact h01 _ (List.getElem_mem hi)
  rw [abs_mul, abs_of_pos hpos]
  have : |(u.getD i 0 - 1 / 2) * 2| ≤ 1 := abs_le.mpr ⟨by linarith [hui.1], by linarith [hui.2]⟩
  nlinarith

/-- **C84.** With one scale for all coordinates: the distance from the centre in the `p`-norm is the
fraction drawn times the scale. -/
theorem C84_radius {p r sc : ℝ} (hp : 0 < p) (hr : 0 ≤ r) (hsc : 0 < sc) {g e c x : List ℝ} {dim : Nat}
    (hg : g.length = dim) (he : e.length = dim) (hc : c.length = dim)
    (h : lpUniform p g e r (List.replicate dim sc) c = .ok x) :
    (∑ i ∈ Finset.range dim, |x.getD i 0 - c.getD i 0| ^ p) ^ (1 / p) = r * sc := by
  have hs : Radii dim (List.replicate dim sc) :=
    ⟨by simp, fun y hy => by rw [List.eq_of_mem_replicate hy]; exact hsc⟩
  simp only [lpUniform, bind_eq_ok, pure_eq_ok] at h
  obtain ⟨u, hu, rfl⟩ := h
  obtain ⟨hl, hsum⟩ := onSphere_sum hp hu
  have hz : (lpNormal p g e).length = dim := by simp [lpNormal, hg, he]
  rw [hz] at hl hsum
  have key : ∀ i ∈ Finset.range dim,
      |(place u r (List.replicate dim sc) c).getD i 0 - c.getD i 0| ^ p =
        (r * sc) ^ p * |u.getD i 0| ^ p := by
    intro i hi
    have hi := Finset.mem_range.mp hi
    have hsi : (List.replicate dim sc).getD i 0 = sc := by
      simp [List.getD_eq_getElem?_getD, List.getElem?_replicate, hi]
    rw [place, getD_zipWith _ _ _ 0 0 0 (by simp [hl, hi]) (by rw [hc]; exact hi),
      getD_zipWith _ _ _ 0 0 0 (by rw [hl]; exact hi) (by simp [hi]), add_sub_cancel_right, hsi,
      mul_assoc, abs_mul, abs_of_nonneg (mul_nonneg hr hsc.le), mul_comm,
      Real.mul_rpow (mul_nonneg hr hsc.le) (abs_nonneg _)]
  rw [Finset.sum_congr rfl key, ← Finset.mul_sum, hsum, mul_one, ← Real.rpow_mul (mul_nonneg hr hsc.le),
    one_div, mul_inv_cancel₀ hp.ne', Real.rpow_one]

/-! ### The hypotheses are met -/

namespace Ex

example : Radii 2 [1, 1 / 2] := ⟨rfl, by intro r hr; simp at hr; rcases hr with rfl | rfl <;> norm_num⟩

example : ∃ x, lpUniform 2 [1, 3] [-1, 2] (1 / 2) [1, 1 / 2] [0, 5] = .ok x ∧
    lpDist 2 [1, 1 / 2] [0, 5] x ≤ 1 := by
  obtain ⟨⟨x, hx⟩, -⟩ := C84_defined (p := 2) (g := [1, 3]) (e := [-1, 2])
    ⟨0, 1, -1, rfl, rfl, by norm_num, by norm_num⟩ (by norm_num) (1 / 2) [1, 1 / 2] [0, 5]
  have hr : Radii 2 [1, 1 / 2] :=
    ⟨rfl, by intro r hr; simp at hr; rcases hr with rfl | rfl <;> norm_num⟩
  have := C84_uniform (p := 2) (r := 1 / 2) (dim := 2) (by norm_num) (by norm_num) (by norm_num)
    (by simp) (by simp) hr (by simp) hx
  exact ⟨x, hx, this.2.2⟩

end Ex

end BET
