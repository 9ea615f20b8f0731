import Verif.Model.Voronoi2D
import Verif.Props.Voronoi1D
import Verif.Props.Choose
import Mathlib.MeasureTheory.Measure.Lebesgue.EqHaar
import Mathlib.MeasureTheory.Measure.Prod
import Mathlib.MeasureTheory.Measure.Lebesgue.Basic
import Mathlib.Tactic.Linarith
import Mathlib.Tactic.Ring

/-!
# C91: exact volumes of Voronoi cells in the plane
-/

set_option autoImplicit false
set_option linter.unusedSectionVars false
set_option linter.unusedSimpArgs false

namespace BET

open MeasureTheory

/-! ## Specification -/

/-- A point as a row of an array. -/
def Spec.row (p : ℝ × ℝ) : List ℝ := [p.1, p.2]

/-- The square of the Euclidean distance. -/
def Spec.sqDist (p q : ℝ × ℝ) : ℝ := (p.1 - q.1) ^ 2 + (p.2 - q.2) ^ 2

/-- The points of the plane to which no point of the list is nearer than `p`. -/
def Spec.planeCell (pts : List (ℝ × ℝ)) (p : ℝ × ℝ) : Set (ℝ × ℝ) :=
  {x | ∀ q ∈ pts, Spec.sqDist x p ≤ Spec.sqDist x q}

/-- The rectangle `[a₀, b₀] × [a₁, b₁]`. -/
def Spec.rectangle (a₀ b₀ a₁ b₁ : ℝ) : Set (ℝ × ℝ) := Set.Icc a₀ b₀ ×ˢ Set.Icc a₁ b₁

/-- The area of a triangle. -/
noncomputable def Spec.triArea (t : (ℝ × ℝ) × (ℝ × ℝ) × (ℝ × ℝ)) : ℝ :=
  |(t.2.1.1 - t.1.1) * (t.2.2.2 - t.1.2) - (t.2.2.1 - t.1.1) * (t.2.1.2 - t.1.2)| / 2

/-- What is used of `Voronoi` and `Delaunay` for a list of points: bounded cells are cut into triangles
whose areas add up to the area of the cell, and cells that are not bounded have the vertex `-1`. -/
def Spec.TessellationOk (V : Tessellation ℝ) (pts : List (ℝ × ℝ)) : Prop :=
  ∀ (i : Nat) (p : ℝ × ℝ), pts[i]? = some p →
    (Bornology.IsBounded (Spec.planeCell pts p) →
      ∃ ts : List ((ℝ × ℝ) × (ℝ × ℝ) × (ℝ × ℝ)),
        V.triangles (pts.map Spec.row) i =
          some (ts.map fun t => [Spec.row t.1, Spec.row t.2.1, Spec.row t.2.2]) ∧
        (ts.map Spec.triArea).sum = (volume (Spec.planeCell pts p)).toReal) ∧
    (¬Bornology.IsBounded (Spec.planeCell pts p) → V.triangles (pts.map Spec.row) i = none)

/-- The samples nearest to points of the sides of the domain are so near to these sides, in terms of
`ratio`, that they are reflected. -/
structure Spec.SidesCovered (ratio a₀ b₀ a₁ b₁ : ℝ) (pts : List (ℝ × ℝ)) : Prop where
  left : ∀ y ∈ Spec.rectangle a₀ b₀ a₁ b₁, y.1 = a₀ → ∀ p ∈ pts, y ∈ Spec.planeCell pts p →
    p.1 - a₀ < ratio * (b₀ - a₀)
  right : ∀ y ∈ Spec.rectangle a₀ b₀ a₁ b₁, y.1 = b₀ → ∀ p ∈ pts, y ∈ Spec.planeCell pts p →
    b₀ - p.1 < ratio * (b₀ - a₀)
  bottom : ∀ y ∈ Spec.rectangle a₀ b₀ a₁ b₁, y.2 = a₁ → ∀ p ∈ pts, y ∈ Spec.planeCell pts p →
    p.2 - a₁ < ratio * (b₁ - a₁)
  top : ∀ y ∈ Spec.rectangle a₀ b₀ a₁ b₁, y.2 = b₁ → ∀ p ∈ pts, y ∈ Spec.planeCell pts p →
    b₁ - p.2 < ratio * (b₁ - a₁)

/-- All samples are inside the rectangle, not on its sides. -/
def Spec.Inside (a₀ b₀ a₁ b₁ : ℝ) (pts : List (ℝ × ℝ)) : Prop :=
  ∀ p ∈ pts, a₀ < p.1 ∧ p.1 < b₀ ∧ a₁ < p.2 ∧ p.2 < b₁

open Spec

/-! ## The reflected points -/

/-- The samples and their reflections, as pairs. -/
noncomputable def mirrored (ratio a₀ b₀ a₁ b₁ : ℝ) (pts : List (ℝ × ℝ)) : List (ℝ × ℝ) :=
  pts ++
  (pts.filter fun p => decide (p.1 < a₀ + ratio * (b₀ - a₀))).map (fun p => (a₀ - (p.1 - a₀), p.2)) ++
  (pts.filter fun p => decide (p.1 > b₀ - ratio * (b₀ - a₀))).map (fun p => (b₀ + (-p.1 + b₀), p.2)) ++
  (pts.filter fun p => decide (p.2 < a₁ + ratio * (b₁ - a₁))).map (fun p => (p.1, a₁ - (p.2 - a₁))) ++
  (pts.filter fun p => decide (p.2 > b₁ - ratio * (b₁ - a₁))).map (fun p => (p.1, b₁ + (-p.2 + b₁)))

theorem reflected_rows (pts : List (ℝ × ℝ)) (mask : ℝ → Bool) (f : ℝ → ℝ) :
    reflected (pts.map Spec.row) 0 mask f =
      ((pts.filter fun p => mask p.1).map fun p => (f p.1, p.2)).map Spec.row ∧
    reflected (pts.map Spec.row) 1 mask f =
      ((pts.filter fun p => mask p.2).map fun p => (p.1, f p.2)).map Spec.row := by
  constructor <;>
  · unfold reflected
    rw [List.filter_map, List.map_map, List.map_map]
    rfl

theorem mirrored_rows (ratio a₀ b₀ a₁ b₁ : ℝ) (pts : List (ℝ × ℝ)) :
    withReflections ratio (a₀, b₀) (a₁, b₁) (pts.map Spec.row) =
      (mirrored ratio a₀ b₀ a₁ b₁ pts).map Spec.row := by
  unfold withReflections mirrored
  rw [(reflected_rows pts _ _).1, (reflected_rows pts _ _).1, (reflected_rows pts _ _).2,
    (reflected_rows pts _ _).2]
  simp only [List.map_append]

theorem mem_mirrored (ratio a₀ b₀ a₁ b₁ : ℝ) (pts : List (ℝ × ℝ)) (q : ℝ × ℝ) :
    q ∈ mirrored ratio a₀ b₀ a₁ b₁ pts ↔ q ∈ pts ∨
      (∃ p ∈ pts, p.1 < a₀ + ratio * (b₀ - a₀) ∧ q = (a₀ - (p.1 - a₀), p.2)) ∨
      (∃ p ∈ pts, p.1 > b₀ - ratio * (b₀ - a₀) ∧ q = (b₀ + (-p.1 + b₀), p.2)) ∨
      (∃ p ∈ pts, p.2 < a₁ + ratio * (b₁ - a₁) ∧ q = (p.1, a₁ - (p.2 - a₁))) ∨
      (∃ p ∈ pts, p.2 > b₁ - ratio * (b₁ - a₁) ∧ q = (p.1, b₁ + (-p.2 + b₁))) := by
  unfold mirrored
  simp only [List.mem_append, List.mem_map, List.mem_filter, decide_eq_true_eq, and_assoc, or_assoc,
    eq_comm (a := q)]

theorem nodup_mirrored (ratio a₀ b₀ a₁ b₁ : ℝ) (pts : List (ℝ × ℝ)) (hnd : pts.Nodup)
    (hin : Spec.Inside a₀ b₀ a₁ b₁ pts) : (mirrored ratio a₀ b₀ a₁ b₁ pts).Nodup := by
  unfold mirrored
  have hi1 : ∀ (m : ℝ × ℝ → Bool) (f : ℝ → ℝ), Function.Injective f →
      ((pts.filter m).map fun p => (f p.1, p.2)).Nodup := by
    intro m f hf
    refine (hnd.filter m).map ?_
    rintro ⟨x, y⟩ ⟨x', y'⟩ h
    simp only [Prod.mk.injEq] at h
    rw [hf h.1, h.2]
  have hi2 : ∀ (m : ℝ × ℝ → Bool) (f : ℝ → ℝ), Function.Injective f →
      ((pts.filter m).map fun p => (p.1, f p.2)).Nodup := by
    intro m f hf
    refine (hnd.filter m).map ?_
    rintro ⟨x, y⟩ ⟨x', y'⟩ h
    simp only [Prod.mk.injEq] at h
    rw [hf h.2, h.1]
  have j1 : ∀ c : ℝ, Function.Injective fun x : ℝ => c - (x - c) := by
    intro c x y h
    simp only at h
    linarith
  have j2 : ∀ c : ℝ, Function.Injective fun x : ℝ => c + (-x + c) := by
    intro c x y h
    simp only at h
    linarith
  refine List.Nodup.append (List.Nodup.append (List.Nodup.append (List.Nodup.append hnd
    (hi1 _ _ (j1 a₀)) ?_) (hi1 _ _ (j2 b₀)) ?_) (hi2 _ _ (j1 a₁)) ?_) (hi2 _ _ (j2 b₁)) ?_
  all_goals
    intro q hq hq'
    simp only [List.mem_append, List.mem_map, List.mem_filter] at hq hq'
    obtain ⟨p, ⟨hp, -⟩, rfl⟩ := hq'
    obtain ⟨h1, h2, h3, h4⟩ := hin p hp
  · obtain ⟨g1, g2, g3, g4⟩ := hin _ hq
    simp only at g1
    linarith
  · rcases hq with hq | ⟨r, ⟨hr, -⟩, he⟩
    · obtain ⟨g1, g2, g3, g4⟩ := hin _ hq
      simp only at g2
      linarith
    · obtain ⟨g1, g2, g3, g4⟩ := hin r hr
      simp only [Prod.mk.injEq] at he
      linarith
  · rcases hq with (hq | ⟨r, ⟨hr, -⟩, he⟩) | ⟨r, ⟨hr, -⟩, he⟩
    · obtain ⟨g1, g2, g3, g4⟩ := hin _ hq
      simp only at g3
      linarith
    · obtain ⟨g1, g2, g3, g4⟩ := hin r hr
      simp only [Prod.mk.injEq] at he
      linarith
    · obtain ⟨g1, g2, g3, g4⟩ := hin r hr
      simp only [Prod.mk.injEq] at he
      linarith
  · rcases hq with ((hq | ⟨r, ⟨hr, -⟩, he⟩) | ⟨r, ⟨hr, -⟩, he⟩) | ⟨r, ⟨hr, -⟩, he⟩
    · obtain ⟨g1, g2, g3, g4⟩ := hin _ hq
      simp only at g4
      linarith
    · obtain ⟨g1, g2, g3, g4⟩ := hin r hr
      simp only [Prod.mk.injEq] at he
      linarith
    · obtain ⟨g1, g2, g3, g4⟩ := hin r hr
      simp only [Prod.mk.injEq] at he
      linarith
    · obtain ⟨g1, g2, g3, g4⟩ := hin r hr
      simp only [Prod.mk.injEq] at he
      linarith

/-! ## Geometry -/

/-- Cells are convex: a point between `x` and the centre is in the cell if `x` is. -/
theorem cell_segment (pts : List (ℝ × ℝ)) (p x : ℝ × ℝ) (hx : x ∈ Spec.planeCell pts p) (t : ℝ)
    (h0 : 0 ≤ t) (h1 : t ≤ 1) :
    (x.1 + t * (p.1 - x.1), x.2 + t * (p.2 - x.2)) ∈ Spec.planeCell pts p := by
  intro q hq
  have h := hx q hq
  simp only [Spec.sqDist] at h ⊢
  have key : (x.1 + t * (p.1 - x.1) - q.1) ^ 2 + (x.2 + t * (p.2 - x.2) - q.2) ^ 2 -
      ((x.1 + t * (p.1 - x.1) - p.1) ^ 2 + (x.2 + t * (p.2 - x.2) - p.2) ^ 2) =
      (1 - t) * ((x.1 - q.1) ^ 2 + (x.2 - q.2) ^ 2 - ((x.1 - p.1) ^ 2 + (x.2 - p.2) ^ 2)) +
        t * ((p.1 - q.1) ^ 2 + (p.2 - q.2) ^ 2) := by ring
  have h3 : 0 ≤ (1 - t) * ((x.1 - q.1) ^ 2 + (x.2 - q.2) ^ 2 - ((x.1 - p.1) ^ 2 + (x.2 - p.2) ^ 2)) :=
    mul_nonneg (by linarith) (by linarith)
  have h4 : 0 ≤ t * ((p.1 - q.1) ^ 2 + (p.2 - q.2) ^ 2) := mul_nonneg h0 (by positivity)
  linarith

theorem planeCell_mono (pts N : List (ℝ × ℝ)) (h : ∀ q ∈ pts, q ∈ N) (p : ℝ × ℝ) :
    Spec.planeCell N p ⊆ Spec.planeCell pts p := fun _ hx q hq => hx q (h q hq)

/-- Where the segment from `x` to `p` crosses `a`. -/
theorem crossing (a x p : ℝ) (h : a < p) :
    ∃ t₀ : ℝ, 0 ≤ t₀ ∧ t₀ ≤ 1 ∧ (∀ t, t₀ ≤ t → t ≤ 1 → a ≤ x + t * (p - x)) ∧
      (0 < t₀ → x < a ∧ x + t₀ * (p - x) = a) ∧ (x < a → 0 < t₀) := by
  by_cases hx : x < a
  · have hd : 0 < p - x := by linarith
    refine ⟨(a - x) / (p - x), div_nonneg (by linarith) hd.le, (div_le_one hd).mpr (by linarith), ?_,
      fun _ => ⟨hx, by rw [div_mul_cancel₀ _ hd.ne']; ring⟩, fun _ => div_pos (by linarith) hd⟩
    intro t ht _
    have := (div_le_iff₀ hd).mp ht
    linarith
  · push Not at hx
    refine ⟨0, le_refl _, zero_le_one, ?_, fun h => absurd h (lt_irrefl _), fun h => by linarith⟩
    intro t h0 h1
    nlinarith

/-- A segment from a point outside of the domain to a point inside meets a side. -/
theorem meets_side (a₀ b₀ a₁ b₁ : ℝ) (x p : ℝ × ℝ) (hp : a₀ < p.1 ∧ p.1 < b₀ ∧ a₁ < p.2 ∧ p.2 < b₁)
    (hx : x ∉ Spec.rectangle a₀ b₀ a₁ b₁) :
    ∃ t : ℝ, 0 ≤ t ∧ t ≤ 1 ∧
      (x.1 + t * (p.1 - x.1), x.2 + t * (p.2 - x.2)) ∈ Spec.rectangle a₀ b₀ a₁ b₁ ∧
      ((x.1 < a₀ ∧ x.1 + t * (p.1 - x.1) = a₀) ∨ (b₀ < x.1 ∧ x.1 + t * (p.1 - x.1) = b₀) ∨
       (x.2 < a₁ ∧ x.2 + t * (p.2 - x.2) = a₁) ∨ (b₁ < x.2 ∧ x.2 + t * (p.2 - x.2) = b₁)) := by
  obtain ⟨p1, p2, p3, p4⟩ := hp
  obtain ⟨tl, l0, l1, l2, l3, l4⟩ := crossing a₀ x.1 p.1 p1
  obtain ⟨tr, r0, r1, r2, r3, r4⟩ := crossing (-b₀) (-x.1) (-p.1) (by linarith)
  obtain ⟨tb, d0, d1, d2, d3, d4⟩ := crossing a₁ x.2 p.2 p3
  obtain ⟨tt, u0, u1, u2, u3, u4⟩ := crossing (-b₁) (-x.2) (-p.2) (by linarith)
  have hpos : 0 < max (max tl tr) (max tb tt) := by
    by_contra hc
    push Not at hc
    apply hx
    simp only [max_le_iff] at hc
    refine ⟨⟨?_, ?_⟩, ⟨?_, ?_⟩⟩
    · by_contra h; push Not at h; linarith [l4 h]
    · by_contra h; push Not at h; linarith [r4 (by linarith)]
    · by_contra h; push Not at h; linarith [d4 h]
    · by_contra h; push Not at h; linarith [u4 (by linarith)]
  refine ⟨max (max tl tr) (max tb tt), hpos.le, by simp [l1, r1, d1, u1], ⟨⟨?_, ?_⟩, ⟨?_, ?_⟩⟩, ?_⟩
  · exact l2 _ (by simp) (by simp [l1, r1, d1, u1])
  · have := r2 (max (max tl tr) (max tb tt)) (by simp) (by simp [l1, r1, d1, u1])
    simp only
    linarith
  · exact d2 _ (by simp) (by simp [l1, r1, d1, u1])
  · have := u2 (max (max tl tr) (max tb tt)) (by simp) (by simp [l1, r1, d1, u1])
    simp only
    linarith
  · have hcase : max (max tl tr) (max tb tt) = tl ∨ max (max tl tr) (max tb tt) = tr ∨
        max (max tl tr) (max tb tt) = tb ∨ max (max tl tr) (max tb tt) = tt := by
      rcases max_choice (max tl tr) (max tb tt) with h | h
      · rcases max_choice tl tr with g | g
        · exact Or.inl (h.trans g)
        · exact Or.inr (Or.inl (h.trans g))
      · rcases max_choice tb tt with g | g
        · exact Or.inr (Or.inr (Or.inl (h.trans g)))
        · exact Or.inr (Or.inr (Or.inr (h.trans g)))
    rcases hcase with h | h | h | h <;> rw [h] at hpos ⊢
    · exact Or.inl (l3 hpos)
    · obtain ⟨q1, q2⟩ := r3 hpos
      exact Or.inr (Or.inl ⟨by linarith, by linarith⟩)
    · exact Or.inr (Or.inr (Or.inl (d3 hpos)))
    · obtain ⟨q1, q2⟩ := u3 hpos
      exact Or.inr (Or.inr (Or.inr ⟨by linarith, by linarith⟩))

/-- With the reflections the cells of the samples are the parts in the domain of what they were
without. -/
theorem mirrored_cell (ratio a₀ b₀ a₁ b₁ : ℝ) (pts : List (ℝ × ℝ))
    (hin : Spec.Inside a₀ b₀ a₁ b₁ pts) (hs : Spec.SidesCovered ratio a₀ b₀ a₁ b₁ pts) (p : ℝ × ℝ)
    (hp : p ∈ pts) :
    Spec.planeCell (mirrored ratio a₀ b₀ a₁ b₁ pts) p =
      Spec.planeCell pts p ∩ Spec.rectangle a₀ b₀ a₁ b₁ := by
  obtain ⟨p1, p2, p3, p4⟩ := hin p hp
  have hsub : ∀ q ∈ pts, q ∈ mirrored ratio a₀ b₀ a₁ b₁ pts := fun q hq =>
    (mem_mirrored ..).mpr (Or.inl hq)
  ext x
  constructor
  · intro hx
    have hx' := planeCell_mono _ _ hsub p hx
    refine ⟨hx', ?_⟩
    by_contra hout
    obtain ⟨t, ht0, ht1, hy, hside⟩ := meets_side a₀ b₀ a₁ b₁ x p (hin p hp) hout
    have hc := cell_segment pts p x hx' t ht0 ht1
    rcases hside with ⟨h, he⟩ | ⟨h, he⟩ | ⟨h, he⟩ | ⟨h, he⟩
    · have hstrip := hs.left _ hy he p hp hc
      have hm : (a₀ - (p.1 - a₀), p.2) ∈ mirrored ratio a₀ b₀ a₁ b₁ pts :=
        (mem_mirrored ..).mpr (Or.inr (Or.inl ⟨p, hp, by linarith, rfl⟩))
      have := hx _ hm
      simp only [Spec.sqDist] at this
      nlinarith [mul_pos (show 0 < a₀ - x.1 by linarith) (show 0 < p.1 - a₀ by linarith)]
    · have hstrip := hs.right _ hy he p hp hc
      have hm : (b₀ + (-p.1 + b₀), p.2) ∈ mirrored ratio a₀ b₀ a₁ b₁ pts :=
        (mem_mirrored ..).mpr (Or.inr (Or.inr (Or.inl ⟨p, hp, by linarith, rfl⟩)))
      have := hx _ hm
      simp only [Spec.sqDist] at this
      nlinarith [mul_pos (show 0 < x.1 - b₀ by linarith) (show 0 < b₀ - p.1 by linarith)]
    · have hstrip := hs.bottom _ hy he p hp hc
      have hm : (p.1, a₁ - (p.2 - a₁)) ∈ mirrored ratio a₀ b₀ a₁ b₁ pts :=
        (mem_mirrored ..).mpr (Or.inr (Or.inr (Or.inr (Or.inl ⟨p, hp, by linarith, rfl⟩))))
      have := hx _ hm
      simp only [Spec.sqDist] at this
      nlinarith [mul_pos (show 0 < a₁ - x.2 by linarith) (show 0 < p.2 - a₁ by linarith)]
    · have hstrip := hs.top _ hy he p hp hc
      have hm : (p.1, b₁ + (-p.2 + b₁)) ∈ mirrored ratio a₀ b₀ a₁ b₁ pts :=
        (mem_mirrored ..).mpr (Or.inr (Or.inr (Or.inr (Or.inr ⟨p, hp, by linarith, rfl⟩))))
      have := hx _ hm
      simp only [Spec.sqDist] at this
      nlinarith [mul_pos (show 0 < x.2 - b₁ by linarith) (show 0 < b₁ - p.2 by linarith)]
  · rintro ⟨hx, ⟨x1, x2⟩, ⟨x3, x4⟩⟩ q hq
    rcases (mem_mirrored ..).mp hq with h | ⟨r, hr, -, rfl⟩ | ⟨r, hr, -, rfl⟩ | ⟨r, hr, -, rfl⟩ |
        ⟨r, hr, -, rfl⟩
    · exact hx q h
    all_goals
      obtain ⟨r1, r2, r3, r4⟩ := hin r hr
      have := hx r hr
      simp only [Spec.sqDist] at this ⊢
    · nlinarith [mul_nonneg (show 0 ≤ x.1 - a₀ by linarith) (show 0 ≤ r.1 - a₀ by linarith)]
    · nlinarith [mul_nonneg (show 0 ≤ b₀ - x.1 by linarith) (show 0 ≤ b₀ - r.1 by linarith)]
    · nlinarith [mul_nonneg (show 0 ≤ x.2 - a₁ by linarith) (show 0 ≤ r.2 - a₁ by linarith)]
    · nlinarith [mul_nonneg (show 0 ≤ b₁ - x.2 by linarith) (show 0 ≤ b₁ - r.2 by linarith)]

/-! ## Indices of the processes -/

theorem mem_strided {size num r i : Nat} (hs : 0 < size) (hr : r < size) :
    i ∈ strided size num r ↔ i < num ∧ i % size = r := by
  unfold strided
  simp only [List.mem_map, List.mem_range]
  constructor
  · rintro ⟨k, hk, rfl⟩
    have h := (Nat.le_div_iff_mul_le hs).mp (Nat.succ_le_of_lt hk)
    rw [Nat.succ_mul, Nat.mul_comm] at h
    refine ⟨by omega, ?_⟩
    rw [Nat.add_mul_mod_self_left, Nat.mod_eq_of_lt hr]
  · rintro ⟨h1, h2⟩
    refine ⟨i / size, ?_, ?_⟩
    · apply Nat.lt_of_succ_le
      rw [Nat.le_div_iff_mul_le hs, Nat.succ_mul, Nat.mul_comm]
      have := Nat.div_add_mod i size
      omega
    · have := Nat.div_add_mod i size
      omega

theorem strided_perm {size num : Nat} (hs : 0 < size) :
    ((List.range size).map fun r => strided size num r).flatten.Perm (List.range num) := by
  rw [List.perm_ext_iff_of_nodup ?_ List.nodup_range]
  · intro i
    simp only [List.mem_flatten, List.mem_map, List.mem_range, exists_exists_and_eq_and]
    constructor
    · rintro ⟨r, hr, hi⟩
      exact ((mem_strided hs hr).mp hi).1
    · intro hi
      exact ⟨i % size, Nat.mod_lt _ hs, (mem_strided hs (Nat.mod_lt _ hs)).mpr ⟨hi, rfl⟩⟩
  · rw [List.nodup_flatten]
    constructor
    · intro l hl
      obtain ⟨r, -, rfl⟩ := List.mem_map.mp hl
      unfold strided
      refine List.nodup_range.map ?_
      intro a b h
      simp only at h
      exact Nat.eq_of_mul_eq_mul_left hs (by omega)
    · rw [List.pairwise_map]
      refine List.Pairwise.imp_of_mem ?_ (List.nodup_range (n := size))
      intro a b ha hb hab i hi hi'
      have h1 := ((mem_strided hs (List.mem_range.mp ha)).mp hi).2
      have h2 := ((mem_strided hs (List.mem_range.mp hb)).mp hi').2
      exact hab (h1.symm.trans h2)

theorem scatter_map {K : Type} [Field K] [LinearOrder K] [IsStrictOrderedRing K] {n : Nat} {ind : List Nat}
    (h : ind.Perm (List.range n)) (f : Nat → K) :
    scatter n ind (ind.map f) = (List.range n).map f := by
  apply List.ext_getElem?
  intro i
  by_cases hi : i < n
  · obtain ⟨p, hp, rfl⟩ := List.mem_iff_getElem.mp (h.mem_iff.mpr (List.mem_range.mpr hi))
    rw [scatter_getElem (h.nodup_iff.mpr List.nodup_range) (by simp) hp hi]
    simp [hp, hi]
  · rw [List.getElem?_eq_none (by rw [length_scatter]; omega), List.getElem?_eq_none (by simp; omega)]

/-! ## Areas -/

theorem cellArea_of_ok (V : Tessellation ℝ) (pts : List (ℝ × ℝ)) (h : Spec.TessellationOk V pts)
    (i : Nat) (p : ℝ × ℝ) (hi : pts[i]? = some p) :
    (Bornology.IsBounded (Spec.planeCell pts p) →
      cellArea V (pts.map Spec.row) i = (volume (Spec.planeCell pts p)).toReal) ∧
    (¬Bornology.IsBounded (Spec.planeCell pts p) → cellArea V (pts.map Spec.row) i = 0) := by
  constructor
  · intro hb
    obtain ⟨ts, hts, hsum⟩ := (h i p hi).1 hb
    unfold cellArea
    simp only [hts]
    rw [← List.sum_eq_foldl, List.map_map, ← hsum]
    congr 1
    apply List.map_congr_left
    intro t _
    simp only [Function.comp, triangleTerm, Spec.row, Spec.triArea, List.getD_cons_zero,
      List.getD_cons_succ]
    rw [abs_mul, abs_of_pos (show (0 : ℝ) < 1 / 2 by norm_num)]
    ring
  · intro hb
    unfold cellArea
    simp only [(h i p hi).2 hb]

theorem rectangle_bounded (a₀ b₀ a₁ b₁ : ℝ) : Bornology.IsBounded (Spec.rectangle a₀ b₀ a₁ b₁) :=
  (isCompact_Icc.prod isCompact_Icc).isBounded

theorem volume_rectangle (a₀ b₀ a₁ b₁ : ℝ) (h₀ : a₀ ≤ b₀) :
    (volume (Spec.rectangle a₀ b₀ a₁ b₁)).toReal = (b₀ - a₀) * max (b₁ - a₁) 0 := by
  unfold Spec.rectangle
  rw [Measure.volume_eq_prod, Measure.prod_prod, Real.volume_Icc, Real.volume_Icc, ENNReal.toReal_mul,
    ENNReal.toReal_ofReal (by linarith), ENNReal.toReal_ofReal']

theorem continuous_sqDist (p : ℝ × ℝ) : Continuous fun x : ℝ × ℝ => Spec.sqDist x p := by
  unfold Spec.sqDist
  fun_prop

theorem measurable_planeCell (pts : List (ℝ × ℝ)) (p : ℝ × ℝ) :
    MeasurableSet (Spec.planeCell pts p) := by
  have : IsClosed (Spec.planeCell pts p) := by
    have e : Spec.planeCell pts p = ⋂ q ∈ pts, {x | Spec.sqDist x p ≤ Spec.sqDist x q} := by
      ext x
      simp [Spec.planeCell]
    rw [e]
    exact isClosed_biInter fun q _ => isClosed_le (continuous_sqDist p) (continuous_sqDist q)
  exact this.measurableSet

theorem measurable_rectangle (a₀ b₀ a₁ b₁ : ℝ) : MeasurableSet (Spec.rectangle a₀ b₀ a₁ b₁) :=
  measurableSet_Icc.prod measurableSet_Icc

/-- Points as near to one point as to another are on a line, which has no area. -/
theorem bisector_null (p q : ℝ × ℝ) (h : p ≠ q) :
    volume {x : ℝ × ℝ | Spec.sqDist x p = Spec.sqDist x q} = 0 := by
  have hm : MeasurableSet {x : ℝ × ℝ | Spec.sqDist x p = Spec.sqDist x q} :=
    (isClosed_eq (continuous_sqDist p) (continuous_sqDist q)).measurableSet
  by_cases h2 : p.2 = q.2
  · have h1 : p.1 ≠ q.1 := fun h1 => h (Prod.ext h1 h2)
    have hsub : {x : ℝ × ℝ | Spec.sqDist x p = Spec.sqDist x q} ⊆
        ({(p.1 + q.1) / 2} : Set ℝ) ×ˢ Set.univ := by
      intro x hx
      refine ⟨?_, trivial⟩
      have hx' : (x.1 - p.1) ^ 2 + (x.2 - p.2) ^ 2 = (x.1 - q.1) ^ 2 + (x.2 - q.2) ^ 2 := hx
      rw [h2] at hx'
      have h3 : (p.1 - q.1) * (p.1 + q.1 - 2 * x.1) = 0 := by linarith
      rcases mul_eq_zero.mp h3 with h4 | h4
      · exact absurd (sub_eq_zero.mp h4) h1
      · show x.1 = (p.1 + q.1) / 2
        linarith
    refine measure_mono_null hsub ?_
    rw [Measure.volume_eq_prod, Measure.prod_prod]
    simp
  · rw [Measure.volume_eq_prod, Measure.measure_prod_null hm]
    refine Filter.Eventually.of_forall fun a => ?_
    refine measure_mono_null (t := {(q.1 ^ 2 + q.2 ^ 2 - p.1 ^ 2 - p.2 ^ 2 - 2 * a * (q.1 - p.1)) /
      (2 * (q.2 - p.2))}) ?_ (by simp)
    intro y hy
    have hy' : (a - p.1) ^ 2 + (y - p.2) ^ 2 = (a - q.1) ^ 2 + (y - q.2) ^ 2 := hy
    show y = _
    have hne : 2 * (q.2 - p.2) ≠ 0 := mul_ne_zero two_ne_zero (sub_ne_zero.mpr (Ne.symm h2))
    rw [eq_div_iff hne]
    linarith

/-- Every point is nearest to some sample. -/
theorem exists_nearest (pts : List (ℝ × ℝ)) (hne : pts ≠ []) (x : ℝ × ℝ) :
    ∃ p ∈ pts, x ∈ Spec.planeCell pts p := by
  obtain ⟨p, hp, hmin⟩ := Set.exists_min_image {q | q ∈ pts} (fun q => Spec.sqDist x q)
    (List.finite_toSet pts) (List.exists_mem_of_ne_nil pts hne)
  exact ⟨p, hp, fun q hq => hmin q hq⟩

/-- The parts of the cells in the domain make up the domain. -/
theorem sum_cells (pts : List (ℝ × ℝ)) (hnd : pts.Nodup) (hne : pts ≠ []) (a₀ b₀ a₁ b₁ : ℝ) :
    ∑ i : Fin pts.length,
      (volume (Spec.planeCell pts pts[i] ∩ Spec.rectangle a₀ b₀ a₁ b₁)).toReal =
      (volume (Spec.rectangle a₀ b₀ a₁ b₁)).toReal := by
  have hfin : volume (Spec.rectangle a₀ b₀ a₁ b₁) < ⊤ :=
    (rectangle_bounded a₀ b₀ a₁ b₁).measure_lt_top
  rw [← ENNReal.toReal_sum]
  · congr 1
    rw [← tsum_fintype (L := .unconditional _), ← measure_iUnion₀]
    · rw [← Set.iUnion_inter]
      congr 1
      apply Set.inter_eq_right.mpr
      intro x _
      obtain ⟨p, hp, hx⟩ := exists_nearest pts hne x
      obtain ⟨i, hi, rfl⟩ := List.mem_iff_getElem.mp hp
      exact Set.mem_iUnion.mpr ⟨⟨i, hi⟩, hx⟩
    · intro i j hij
      have hpq : pts[i] ≠ pts[j] := by
        intro h
        exact hij (Fin.ext ((hnd.getElem_inj_iff).mp h))
      refine measure_mono_null ?_ (bisector_null pts[i] pts[j] hpq)
      rintro x ⟨⟨hx, -⟩, hy, -⟩
      exact le_antisymm (hx _ (List.getElem_mem _)) (hy _ (List.getElem_mem _))
    · intro i
      exact ((measurable_planeCell _ _).inter (measurable_rectangle _ _ _ _)).nullMeasurableSet
  · intro i _
    exact ((measure_mono Set.inter_subset_right).trans_lt hfin).ne

/-- The part of a cell in the domain has a positive area. -/
theorem cell_pos (pts : List (ℝ × ℝ)) (a₀ b₀ a₁ b₁ : ℝ) (hin : Spec.Inside a₀ b₀ a₁ b₁ pts)
    (p : ℝ × ℝ) (hp : p ∈ pts) :
    0 < (volume (Spec.planeCell pts p ∩ Spec.rectangle a₀ b₀ a₁ b₁)).toReal := by
  have hfin : volume (Spec.rectangle a₀ b₀ a₁ b₁) < ⊤ :=
    (rectangle_bounded a₀ b₀ a₁ b₁).measure_lt_top
  refine ENNReal.toReal_pos ?_ ((measure_mono Set.inter_subset_right).trans_lt hfin).ne
  have hopen : IsOpen ((⋂ q ∈ {q | q ∈ pts ∧ q ≠ p}, {x | Spec.sqDist x p < Spec.sqDist x q}) ∩
      (Set.Ioo a₀ b₀ ×ˢ Set.Ioo a₁ b₁)) := by
    refine IsOpen.inter ?_ (isOpen_Ioo.prod isOpen_Ioo)
    refine Set.Finite.isOpen_biInter ((List.finite_toSet pts).subset fun q hq => hq.1) ?_
    intro q _
    exact isOpen_lt (continuous_sqDist p) (continuous_sqDist q)
  obtain ⟨h1, h2, h3, h4⟩ := hin p hp
  have hpos := hopen.measure_pos volume ⟨p, by
    refine ⟨?_, ⟨h1, h2⟩, ⟨h3, h4⟩⟩
    simp only [Set.mem_iInter]
    rintro q ⟨-, hq⟩
    show Spec.sqDist p p < Spec.sqDist p q
    simp only [Spec.sqDist, sub_self]
    rcases ne_or_eq p.1 q.1 with h | h
    · have := sq_pos_of_pos (abs_pos.mpr (sub_ne_zero.mpr h))
      rw [sq_abs] at this
      nlinarith [sq_nonneg (p.2 - q.2)]
    · have h' : p.2 ≠ q.2 := fun h' => hq (Prod.ext h h').symm
      have := sq_pos_of_pos (abs_pos.mpr (sub_ne_zero.mpr h'))
      rw [sq_abs] at this
      nlinarith [sq_nonneg (p.1 - q.1)]⟩
  refine (hpos.trans_le (measure_mono ?_)).ne'
  rintro x ⟨hx, ⟨x1, x2⟩, ⟨x3, x4⟩⟩
  refine ⟨?_, ⟨x1.le, x2.le⟩, ⟨x3.le, x4.le⟩⟩
  intro q hq
  by_cases hqp : q = p
  · rw [hqp]
  · simp only [Set.mem_iInter] at hx
    exact le_of_lt (hx q ⟨hq, hqp⟩)

/-! ## The function -/

theorem exactVolume2D_run (V : Tessellation ℝ) {size : Nat} (hsize : 0 < size) (ratio : ℝ)
    (s : SampleSet ℝ) (pts : List (ℝ × ℝ)) (hc : Consistent s pts.length) (hdim : s.dim = 2)
    (a₀ b₀ a₁ b₁ : ℝ) (hdom : s.domain = some [(a₀, b₀), (a₁, b₁)])
    (hv : s.glob.values = some (pts.map Spec.row)) :
    ∃ t, s.exactVolume2D V size ratio = .ok t ∧
      t.glob = { s.glob with volumes := some ((List.range pts.length).map fun i =>
        cellArea V ((mirrored ratio a₀ b₀ a₁ b₁ pts).map Spec.row) i / ((b₀ - a₀) * (b₁ - a₁))) } ∧
      t.dim = s.dim ∧ t.domain = s.domain := by
  have hvol : ((List.range pts.length).map fun i =>
        cellArea V ((mirrored ratio a₀ b₀ a₁ b₁ pts).map Spec.row) i /
          ((b₀ - a₀) * (b₁ - a₁))).length = pts.length := by simp
  have hc' := consistent_setVolumes hc hvol
  refine ⟨_, Eq.trans (b := SampleSet.globalToLocal size { s with glob := { s.glob with
      volumes := some ((List.range pts.length).map fun i =>
        cellArea V ((mirrored ratio a₀ b₀ a₁ b₁ pts).map Spec.row) i / ((b₀ - a₀) * (b₁ - a₁))) } }) ?_
      (SampleSet.globalToLocal_ok hc' size), rfl, rfl, rfl⟩
  · unfold SampleSet.exactVolume2D
    have g0 : getIdx [(a₀, b₀), (a₁, b₁)] 0 = .ok (a₀, b₀) := rfl
    have g1 : getIdx [(a₀, b₀), (a₁, b₁)] 1 = .ok (a₁, b₁) := rfl
    simp only [SampleSet.checkNum_consistent hc, ok_bind, raiseIf, hdim, hv, hdom, orErr_some,
      ne_eq, not_true_eq_false, if_false, g0, g1, mirrored_rows, List.map_cons, List.map_nil,
      List.prod_cons, List.prod_nil, mul_one]
    have e : ((List.range size).map fun r => strided size pts.length r).flatten.map (fun i =>
        cellArea V ((mirrored ratio a₀ b₀ a₁ b₁ pts).map Spec.row) i / ((b₀ - a₀) * (b₁ - a₁))) =
        (((List.range size).map fun r => strided size pts.length r).map fun is => is.map fun i =>
        cellArea V ((mirrored ratio a₀ b₀ a₁ b₁ pts).map Spec.row) i /
          ((b₀ - a₀) * (b₁ - a₁))).flatten := by
      rw [List.map_flatten]
    rw [← e, scatter_map (strided_perm hsize)]

/-- The volumes are the areas of the parts of the cells in the domain, relative to that of the domain. -/
def Spec.ExactAreas (a₀ b₀ a₁ b₁ : ℝ) (pts : List (ℝ × ℝ)) (vols : List ℝ) : Prop :=
  vols.length = pts.length ∧ ∀ (i : Nat) (p : ℝ × ℝ), pts[i]? = some p → vols[i]? =
    some ((volume (Spec.planeCell pts p ∩ Spec.rectangle a₀ b₀ a₁ b₁)).toReal /
      (volume (Spec.rectangle a₀ b₀ a₁ b₁)).toReal)

/-- A two-dimensional sample set with the given distinct samples inside its domain. -/
structure Spec.Planar (a₀ b₀ a₁ b₁ : ℝ) (pts : List (ℝ × ℝ)) (s : SampleSet ℝ) : Prop where
  consistent : Consistent s pts.length
  dim : s.dim = 2
  domain : s.domain = some [(a₀, b₀), (a₁, b₁)]
  values : s.glob.values = some (pts.map Spec.row)
  inside : Spec.Inside a₀ b₀ a₁ b₁ pts
  distinct : pts.Nodup
  nonempty : pts ≠ []

theorem Spec.Planar.sides {a₀ b₀ a₁ b₁ : ℝ} {pts : List (ℝ × ℝ)} {s : SampleSet ℝ}
    (h : Spec.Planar a₀ b₀ a₁ b₁ pts s) : a₀ < b₀ ∧ a₁ < b₁ := by
  obtain ⟨p, hp⟩ := List.exists_mem_of_ne_nil pts h.nonempty
  obtain ⟨h1, h2, h3, h4⟩ := h.inside p hp
  exact ⟨h1.trans h2, h3.trans h4⟩

theorem mirrored_prefix (ratio a₀ b₀ a₁ b₁ : ℝ) (pts : List (ℝ × ℝ)) :
    pts <+: mirrored ratio a₀ b₀ a₁ b₁ pts := by
  unfold mirrored
  simp only [List.append_assoc]
  exact List.prefix_append _ _

/-- **C91, partial**: if the samples nearest to the sides are reflected across them, the volumes are exact,
positive and add up to one, on any number of processes. -/
theorem C91_exact_partial (V : Tessellation ℝ) {size : Nat} (hsize : 0 < size) (ratio a₀ b₀ a₁ b₁ : ℝ)
    (pts : List (ℝ × ℝ)) (s : SampleSet ℝ) (h : Spec.Planar a₀ b₀ a₁ b₁ pts s)
    (hV : ∀ N : List (ℝ × ℝ), pts <+: N → N.Nodup → Spec.TessellationOk V N)
    (hside : Spec.SidesCovered ratio a₀ b₀ a₁ b₁ pts) :
    ∃ t vols, s.exactVolume2D V size ratio = .ok t ∧
      t.glob = { s.glob with volumes := some vols } ∧ Spec.ExactAreas a₀ b₀ a₁ b₁ pts vols ∧
      (∀ v ∈ vols, 0 < v) ∧ vols.sum = 1 := by
  obtain ⟨hab0, hab1⟩ := h.sides
  have hR : (volume (Spec.rectangle a₀ b₀ a₁ b₁)).toReal = (b₀ - a₀) * (b₁ - a₁) := by
    rw [volume_rectangle _ _ _ _ hab0.le, max_eq_left (by linarith)]
  have hRpos : 0 < (b₀ - a₀) * (b₁ - a₁) := mul_pos (by linarith) (by linarith)
  have hok := hV _ (mirrored_prefix ratio a₀ b₀ a₁ b₁ pts)
    (nodup_mirrored ratio a₀ b₀ a₁ b₁ pts h.distinct h.inside)
  have harea : ∀ (i : Nat) (p : ℝ × ℝ), pts[i]? = some p →
      cellArea V ((mirrored ratio a₀ b₀ a₁ b₁ pts).map Spec.row) i =
        (volume (Spec.planeCell pts p ∩ Spec.rectangle a₀ b₀ a₁ b₁)).toReal := by
    intro i p hi
    have hp : p ∈ pts := List.mem_of_getElem? hi
    have hi' : (mirrored ratio a₀ b₀ a₁ b₁ pts)[i]? = some p := by
      obtain ⟨r, hr⟩ := mirrored_prefix ratio a₀ b₀ a₁ b₁ pts
      rw [← hr, List.getElem?_append_left (List.getElem?_eq_some_iff.mp hi).1, hi]
    have hcell := mirrored_cell ratio a₀ b₀ a₁ b₁ pts h.inside hside p hp
    rw [(cellArea_of_ok V _ hok i p hi').1 (by
      rw [hcell]; exact (rectangle_bounded a₀ b₀ a₁ b₁).subset Set.inter_subset_right), hcell]
  obtain ⟨t, ht, hg, -, -⟩ := exactVolume2D_run V hsize ratio s pts h.consistent h.dim a₀ b₀ a₁ b₁
    h.domain h.values
  have hget : ∀ (i : Nat) (hi : i < pts.length),
      cellArea V ((mirrored ratio a₀ b₀ a₁ b₁ pts).map Spec.row) i =
        (volume (Spec.planeCell pts pts[i] ∩ Spec.rectangle a₀ b₀ a₁ b₁)).toReal :=
    fun i hi => harea i _ (List.getElem?_eq_getElem hi)
  refine ⟨t, _, ht, hg, ⟨by simp, ?_⟩, ?_, ?_⟩
  · intro i p hi
    have hlt := (List.getElem?_eq_some_iff.mp hi).1
    simp only [List.getElem?_map, List.getElem?_range hlt, Option.map_some, harea i p hi, hR]
  · intro v hv
    obtain ⟨i, hi, rfl⟩ := List.mem_map.mp hv
    rw [hget i (List.mem_range.mp hi)]
    exact div_pos (cell_pos pts _ _ _ _ h.inside _ (List.getElem_mem _)) hRpos
  · have e : ((List.range pts.length).map fun i =>
        cellArea V ((mirrored ratio a₀ b₀ a₁ b₁ pts).map Spec.row) i / ((b₀ - a₀) * (b₁ - a₁))).sum =
        ∑ i : Fin pts.length, cellArea V ((mirrored ratio a₀ b₀ a₁ b₁ pts).map Spec.row) i /
          ((b₀ - a₀) * (b₁ - a₁)) := by
      rw [Fin.sum_univ_eq_sum_range (fun i => cellArea V
        ((mirrored ratio a₀ b₀ a₁ b₁ pts).map Spec.row) i / ((b₀ - a₀) * (b₁ - a₁)))]
      rfl
    rw [e, ← Finset.sum_div, div_eq_one_iff_eq hRpos.ne', ← hR,
      ← sum_cells pts h.distinct h.nonempty a₀ b₀ a₁ b₁]
    exact Finset.sum_congr rfl fun i _ => hget i i.2

/-- With `side_ratio` at least one all samples are reflected and the volumes are exact. -/
theorem C91_all_reflected_partial (V : Tessellation ℝ) {size : Nat} (hsize : 0 < size)
    (ratio a₀ b₀ a₁ b₁ : ℝ) (pts : List (ℝ × ℝ)) (s : SampleSet ℝ) (h : Spec.Planar a₀ b₀ a₁ b₁ pts s)
    (hV : ∀ N : List (ℝ × ℝ), pts <+: N → N.Nodup → Spec.TessellationOk V N) (hratio : 1 ≤ ratio) :
    ∃ t vols, s.exactVolume2D V size ratio = .ok t ∧
      t.glob = { s.glob with volumes := some vols } ∧ Spec.ExactAreas a₀ b₀ a₁ b₁ pts vols ∧
      (∀ v ∈ vols, 0 < v) ∧ vols.sum = 1 := by
  obtain ⟨hab0, hab1⟩ := h.sides
  have k0 : b₀ - a₀ ≤ ratio * (b₀ - a₀) := le_mul_of_one_le_left (by linarith) hratio
  have k1 : b₁ - a₁ ≤ ratio * (b₁ - a₁) := le_mul_of_one_le_left (by linarith) hratio
  refine C91_exact_partial V hsize ratio a₀ b₀ a₁ b₁ pts s h hV ⟨?_, ?_, ?_, ?_⟩ <;>
  · intro y _ _ p hp _
    obtain ⟨h1, h2, h3, h4⟩ := h.inside p hp
    linarith

/-- If every point of the domain has a sample nearer than `side_ratio` times each side, the volumes are
exact. -/
theorem C91_dense_partial (V : Tessellation ℝ) {size : Nat} (hsize : 0 < size)
    (ratio a₀ b₀ a₁ b₁ : ℝ) (pts : List (ℝ × ℝ)) (s : SampleSet ℝ) (h : Spec.Planar a₀ b₀ a₁ b₁ pts s)
    (hV : ∀ N : List (ℝ × ℝ), pts <+: N → N.Nodup → Spec.TessellationOk V N) (hratio : 0 ≤ ratio)
    (hdense : ∀ y ∈ Spec.rectangle a₀ b₀ a₁ b₁, ∃ q ∈ pts,
      Spec.sqDist y q < (ratio * (b₀ - a₀)) ^ 2 ∧ Spec.sqDist y q < (ratio * (b₁ - a₁)) ^ 2) :
    ∃ t vols, s.exactVolume2D V size ratio = .ok t ∧
      t.glob = { s.glob with volumes := some vols } ∧ Spec.ExactAreas a₀ b₀ a₁ b₁ pts vols ∧
      (∀ v ∈ vols, 0 < v) ∧ vols.sum = 1 := by
  obtain ⟨hab0, hab1⟩ := h.sides
  have k0 : 0 ≤ ratio * (b₀ - a₀) := mul_nonneg hratio (by linarith)
  have k1 : 0 ≤ ratio * (b₁ - a₁) := mul_nonneg hratio (by linarith)
  refine C91_exact_partial V hsize ratio a₀ b₀ a₁ b₁ pts s h hV ⟨?_, ?_, ?_, ?_⟩ <;>
  · intro y hy he p hp hc
    obtain ⟨q, hq, hq0, hq1⟩ := hdense y hy
    have hle := hc q hq
    have e : Spec.sqDist y p = (y.1 - p.1) ^ 2 + (y.2 - p.2) ^ 2 := rfl
    have s1 := sq_nonneg (y.1 - p.1)
    have s2 := sq_nonneg (y.2 - p.2)
    simp only [he] at e s1 s2
    by_contra hcon
    push Not at hcon
    nlinarith

/-- A cell with no sample further left is not bounded. -/
theorem leftmost_unbounded (pts : List (ℝ × ℝ)) (p : ℝ × ℝ) (hmin : ∀ q ∈ pts, p.1 ≤ q.1) :
    ¬Bornology.IsBounded (Spec.planeCell pts p) := by
  intro hb
  obtain ⟨C, hC⟩ := hb.exists_norm_le
  have hmem : (p.1 - (|C| + |p.1| + 1), p.2) ∈ Spec.planeCell pts p := by
    intro q hq
    have := hmin q hq
    simp only [Spec.sqDist]
    nlinarith [sq_nonneg (p.2 - q.2), abs_nonneg C, abs_nonneg p.1,
      mul_nonneg (show 0 ≤ q.1 - p.1 by linarith) (show 0 ≤ |C| + |p.1| + 1 by positivity)]
  have h1 := hC _ hmem
  have h2 : |p.1 - (|C| + |p.1| + 1)| ≤ C := (norm_fst_le _).trans h1
  have h3 := neg_abs_le (p.1 - (|C| + |p.1| + 1))
  linarith [le_abs_self C, le_abs_self p.1]

/-- **C91, negation**: if no sample is nearer to a side than `side_ratio` times the width of the domain,
nothing is reflected, and a cell that has a positive area in the domain gets the volume zero. -/
theorem C91_negation_middle (V : Tessellation ℝ) {size : Nat} (hsize : 0 < size)
    (ratio a₀ b₀ a₁ b₁ : ℝ) (pts : List (ℝ × ℝ)) (s : SampleSet ℝ) (h : Spec.Planar a₀ b₀ a₁ b₁ pts s)
    (hV : Spec.TessellationOk V pts)
    (hmid : ∀ p ∈ pts, a₀ + ratio * (b₀ - a₀) ≤ p.1 ∧ p.1 ≤ b₀ - ratio * (b₀ - a₀) ∧
      a₁ + ratio * (b₁ - a₁) ≤ p.2 ∧ p.2 ≤ b₁ - ratio * (b₁ - a₁)) :
    ∃ t vols, s.exactVolume2D V size ratio = .ok t ∧ t.glob.volumes = some vols ∧
      ∃ (i : Nat) (p : ℝ × ℝ), pts[i]? = some p ∧ vols[i]? = some 0 ∧
        0 < (volume (Spec.planeCell pts p ∩ Spec.rectangle a₀ b₀ a₁ b₁)).toReal := by
  have hmir : mirrored ratio a₀ b₀ a₁ b₁ pts = pts := by
    unfold mirrored
    have f1 : (pts.filter fun p => decide (p.1 < a₀ + ratio * (b₀ - a₀))) = [] :=
      List.filter_eq_nil_iff.mpr fun p hp => by simpa using (hmid p hp).1
    have f2 : (pts.filter fun p => decide (p.1 > b₀ - ratio * (b₀ - a₀))) = [] :=
      List.filter_eq_nil_iff.mpr fun p hp => by simpa using (hmid p hp).2.1
    have f3 : (pts.filter fun p => decide (p.2 < a₁ + ratio * (b₁ - a₁))) = [] :=
      List.filter_eq_nil_iff.mpr fun p hp => by simpa using (hmid p hp).2.2.1
    have f4 : (pts.filter fun p => decide (p.2 > b₁ - ratio * (b₁ - a₁))) = [] :=
      List.filter_eq_nil_iff.mpr fun p hp => by simpa using (hmid p hp).2.2.2
    rw [f1, f2, f3, f4]
    simp
  obtain ⟨t, ht, hg, -, -⟩ := exactVolume2D_run V hsize ratio s pts h.consistent h.dim a₀ b₀ a₁ b₁
    h.domain h.values
  obtain ⟨p, hp, hmin⟩ := Set.exists_min_image {q | q ∈ pts} (fun q : ℝ × ℝ => q.1)
    (List.finite_toSet pts) (List.exists_mem_of_ne_nil pts h.nonempty)
  obtain ⟨i, hi, rfl⟩ := List.mem_iff_getElem.mp hp
  refine ⟨t, _, ht, by rw [hg], i, pts[i], List.getElem?_eq_getElem hi, ?_,
    cell_pos pts _ _ _ _ h.inside _ hp⟩
  rw [List.getElem?_map, List.getElem?_range hi, Option.map_some, hmir,
    (cellArea_of_ok V pts hV i _ (List.getElem?_eq_getElem hi)).2 (leftmost_unbounded pts _ hmin),
    zero_div]

/-- Other dimensions are refused. -/
theorem C91_dimension {K : Type} [Field K] [LinearOrder K] (V : Tessellation K) (size : Nat) (ratio : K)
    (s : SampleSet K) {n : Nat} (hc : Consistent s n) (h : s.dim ≠ 2) :
    s.exactVolume2D V size ratio = .error .dimNotMatching := by
  unfold SampleSet.exactVolume2D
  simp [SampleSet.checkNum_consistent hc, ok_bind, raiseIf, h, error_bind]

namespace Ex

open Classical in
/-- Every bounded cell becomes one triangle of the right area. -/
noncomputable def areaTriangles (pts : List (ℝ × ℝ)) (i : Nat) : Option (List (List (List ℝ))) :=
  if Bornology.IsBounded (Spec.planeCell pts (pts.getD i (0, 0))) then
    some [[[0, 0], [2 * (volume (Spec.planeCell pts (pts.getD i (0, 0)))).toReal, 0], [0, 1]]]
  else none

/-- A tessellation. -/
noncomputable def areas : Tessellation ℝ :=
  ⟨fun rows i => areaTriangles (rows.map fun r => (r.getD 0 0, r.getD 1 0)) i⟩

theorem areas_ok (N : List (ℝ × ℝ)) : Spec.TessellationOk areas N := by
  intro i p hi
  have hp : ((N.map Spec.row).map fun r => (r.getD 0 0, r.getD 1 0)) = N := by
    rw [List.map_map]
    conv_rhs => rw [← List.map_id N]
    rfl
  have hg : N.getD i (0, 0) = p := by simp [List.getD, hi]
  have e : areas.triangles (N.map Spec.row) i = areaTriangles N i := by
    show areaTriangles _ i = _
    rw [hp]
  unfold areaTriangles at e
  rw [hg] at e
  constructor
  · intro hb
    refine ⟨[((0, 0), (2 * (volume (Spec.planeCell N p)).toReal, 0), (0, 1))], ?_, ?_⟩
    · rw [e, if_pos hb]
      rfl
    · simp only [List.map_cons, List.map_nil, List.sum_cons, List.sum_nil, Spec.triArea]
      have := ENNReal.toReal_nonneg (a := volume (Spec.planeCell N p))
      rw [abs_of_nonneg (by linarith)]
      ring
  · intro hb
    rw [e, if_neg hb]

/-- Two samples in the unit square. -/
noncomputable def twoPoints : SampleSet ℝ :=
  { dim := 2
    glob := { values := some [[3 / 8, 1 / 2], [5 / 8, 1 / 2]] }
    domain := some [(0, 1), (0, 1)] }

theorem twoPoints_planar : Spec.Planar 0 1 0 1 [(3 / 8, 1 / 2), (5 / 8, 1 / 2)] twoPoints where
  consistent := SampleSet.consistent_of_checkNum (size := 1) rfl rfl
  dim := rfl
  domain := rfl
  values := rfl
  inside := by
    intro p hp
    simp only [List.mem_cons, List.not_mem_nil, or_false] at hp
    rcases hp with rfl | rfl <;> norm_num
  distinct := by norm_num
  nonempty := by simp

example : ∃ t vols, twoPoints.exactVolume2D areas 3 1 = .ok t ∧
    t.glob = { twoPoints.glob with volumes := some vols } ∧
    Spec.ExactAreas 0 1 0 1 [(3 / 8, 1 / 2), (5 / 8, 1 / 2)] vols ∧ (∀ v ∈ vols, 0 < v) ∧ vols.sum = 1 :=
  C91_all_reflected_partial areas (by norm_num) 1 0 1 0 1 _ _ twoPoints_planar (fun N _ _ => areas_ok N)
    (le_refl _)

/-- With the default `side_ratio = 0.25` one of the two cells gets the volume zero. -/
example : ∃ t vols, twoPoints.exactVolume2D areas 1 (1 / 4) = .ok t ∧ t.glob.volumes = some vols ∧
    ∃ (i : Nat) (p : ℝ × ℝ), ([(3 / 8, 1 / 2), (5 / 8, 1 / 2)] : List (ℝ × ℝ))[i]? = some p ∧ vols[i]? = some 0 ∧
      0 < (volume (Spec.planeCell [(3 / 8, 1 / 2), (5 / 8, 1 / 2)] p ∩
        Spec.rectangle 0 1 0 1)).toReal :=
  C91_negation_middle areas (by norm_num) (1 / 4) 0 1 0 1 _ _ twoPoints_planar (areas_ok _) (by
    intro p hp
    simp only [List.mem_cons, List.not_mem_nil, or_false] at hp
    rcases hp with rfl | rfl <;> norm_num)

/-- Four samples at the centres of the quarters are dense enough for `side_ratio = 0.4`. -/
noncomputable def fourPoints : SampleSet ℝ :=
  { dim := 2
    glob := { values := some [[1 / 4, 1 / 4], [3 / 4, 1 / 4], [1 / 4, 3 / 4], [3 / 4, 3 / 4]] }
    domain := some [(0, 1), (0, 1)] }

example : ∃ t vols, fourPoints.exactVolume2D areas 2 (2 / 5) = .ok t ∧
    t.glob = { fourPoints.glob with volumes := some vols } ∧
    Spec.ExactAreas 0 1 0 1 [(1 / 4, 1 / 4), (3 / 4, 1 / 4), (1 / 4, 3 / 4), (3 / 4, 3 / 4)] vols ∧
    (∀ v ∈ vols, 0 < v) ∧ vols.sum = 1 := by
  refine C91_dense_partial areas (by norm_num) (2 / 5) 0 1 0 1 _ _ ⟨SampleSet.consistent_of_checkNum (size := 1) rfl rfl, rfl, rfl, rfl,
    ?_, ?_, by simp⟩ (fun N _ _ => areas_ok N) (by norm_num) ?_
  · intro p hp
    simp only [List.mem_cons, List.not_mem_nil, or_false] at hp
    rcases hp with rfl | rfl | rfl | rfl <;> norm_num
  · simp
    norm_num
  · rintro ⟨x, y⟩ ⟨⟨x1, x2⟩, ⟨y1, y2⟩⟩
    have key : ∀ z : ℝ, 0 ≤ z → z ≤ 1 → (z - 1 / 4) ^ 2 ≤ 1 / 16 ∨ (z - 3 / 4) ^ 2 ≤ 1 / 16 := by
      intro z h0 h1
      rcases le_total z (1 / 2) with h | h
      · left; nlinarith
      · right; nlinarith
    rcases key x x1 x2 with hx | hx <;> rcases key y y1 y2 with hy | hy
    · exact ⟨(1 / 4, 1 / 4), by simp, by simp only [Spec.sqDist]; constructor <;> norm_num <;> linarith⟩
    · exact ⟨(1 / 4, 3 / 4), by simp, by simp only [Spec.sqDist]; constructor <;> norm_num <;> linarith⟩
    · exact ⟨(3 / 4, 1 / 4), by simp, by simp only [Spec.sqDist]; constructor <;> norm_num <;> linarith⟩
    · exact ⟨(3 / 4, 3 / 4), by simp, by simp only [Spec.sqDist]; constructor <;> norm_num <;> linarith⟩

example : errOf (({ dim := 1, glob := { values := some [[1], [2]] } } : SampleSet ℚ).exactVolume2D
    ⟨fun _ _ => none⟩ 1 (1 / 4)) = some .dimNotMatching := by decide +kernel

end Ex

end BET
