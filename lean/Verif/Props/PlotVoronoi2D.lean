import Verif.Model.PlotVoronoi
import Verif.Props.Voronoi2D
import Verif.Props.Voronoi1D
import Verif.Props.CalculateR
import Verif.Props.Choose
import Mathlib.Analysis.Convex.Hull
import Mathlib.Analysis.SpecialFunctions.Sqrt

/-!
# C96: plots of Voronoi cells in the plane
-/

set_option autoImplicit false
set_option linter.unusedSectionVars false
set_option linter.unusedSimpArgs false

namespace BET

open Spec

/-! ## Specification -/

/-- The ridge between `p` and `q` from vertex `w` on is unbounded. -/
def Spec.RidgeOpen (pts : List (ℝ × ℝ)) (v : Diagram ℝ) (p q : ℝ × ℝ) (w : Int) : Prop :=
  0 ≤ w ∧ ∃ x u, v.vertices[w.toNat]? = some x ∧ u ≠ 0 ∧
    ∀ t : ℝ, 0 ≤ t → x + t • u ∈ planeCell pts p ∧ x + t • u ∈ planeCell pts q

/-- What is used of `scipy.spatial.Voronoi`: point `i` has a region whose vertices are in its cell, an
unbounded region has a ridge, and an unbounded ridge between two points starts in its vertex and goes to
infinity inside the cells of both. -/
structure Spec.DiagramOk (pts : List (ℝ × ℝ)) (v : Diagram ℝ) : Prop where
  points : v.points = pts
  nonempty : pts ≠ []
  count : v.pointRegion.length = pts.length
  region : ∀ (i g : Nat) (p : ℝ × ℝ), pts[i]? = some p → v.pointRegion[i]? = some g →
    ∃ ws, v.regions[g]? = some ws ∧
      (∀ w ∈ ws, 0 ≤ w → ∃ x, v.vertices[w.toNat]? = some x ∧ x ∈ planeCell pts p) ∧
      ((∃ w ∈ ws, w < 0) → ∃ r ∈ v.ridgePoints.zip v.ridgeVertices, r.1.1 = i ∨ r.1.2 = i)
  ridge : ∀ (i j : Nat) (w w' : Int), ((i, j), (w, w')) ∈ v.ridgePoints.zip v.ridgeVertices →
    ∃ p q, pts[i]? = some p ∧ pts[j]? = some q ∧ p ≠ q ∧
      (w < 0 → RidgeOpen pts v p q w') ∧ (w' < 0 → RidgeOpen pts v p q w)
/-! ## Geometry -/

theorem inner_sum (n A : ℝ × ℝ) (l : List (ℝ × ℝ)) :
    (l.map fun r => n.1 * (r.1 - A.1) + n.2 * (r.2 - A.2)).sum =
      n.1 * (l.map Prod.fst).sum + n.2 * (l.map Prod.snd).sum -
        l.length * (n.1 * A.1 + n.2 * A.2) := by
  induction l with
  | nil => simp
  | cons r l ih =>
    simp only [List.map_cons, List.sum_cons, ih, List.length_cons]
    push_cast
    ring

theorem planeCell_ray {pts : List (ℝ × ℝ)} {p x u : ℝ × ℝ}
    (h : ∀ t : ℝ, 0 ≤ t → x + t • u ∈ planeCell pts p) {r : ℝ × ℝ} (hr : r ∈ pts) :
    u.1 * (r.1 - p.1) + u.2 * (r.2 - p.2) ≤ 0 := by
  by_contra hc
  push Not at hc
  set c := u.1 * (r.1 - p.1) + u.2 * (r.2 - p.2) with hcdef
  set k := sqDist x r - sqDist x p with hk
  have h0 : ∀ t : ℝ, 0 ≤ t → 0 ≤ k - 2 * t * c := by
    intro t ht
    have := h t ht r hr
    simp only [sqDist, Prod.fst_add, Prod.snd_add, Prod.smul_fst, Prod.smul_snd, smul_eq_mul] at this
    rw [hk, hcdef]
    simp only [sqDist]
    nlinarith
  have := h0 ((|k| + 1) / c) (by positivity)
  rw [show 2 * ((|k| + 1) / c) * c = 2 * (|k| + 1) by field_simp] at this
  have := le_abs_self k
  have := abs_nonneg k
  linarith

theorem pts_range_nonneg {pts : List (ℝ × ℝ)} (h : pts ≠ []) :
    ∃ r, pointRange pts = .ok r ∧ 0 ≤ r := by
  obtain ⟨p, l, rfl⟩ := List.exists_cons_of_ne_nil h
  obtain ⟨hi, hhi⟩ : ∃ m, npMax ((p :: l).map Prod.fst ++ (p :: l).map Prod.snd) = .ok m := ⟨_, rfl⟩
  obtain ⟨lo, hlo⟩ : ∃ m, npMin ((p :: l).map Prod.fst ++ (p :: l).map Prod.snd) = .ok m := ⟨_, rfl⟩
  refine ⟨hi - lo, ?_, ?_⟩
  · unfold pointRange
    simp only []
    rw [hhi, hlo]
    rfl
  · have h1 := (npMax_isGreatest hhi).2 (show p.1 ∈ {y | y ∈ _} by
      show p.1 ∈ (p :: l).map Prod.fst ++ (p :: l).map Prod.snd
      simp)
    have h2 := (npMin_isLeast hlo).2 (show p.1 ∈ {y | y ∈ _} by
      show p.1 ∈ (p :: l).map Prod.fst ++ (p :: l).map Prod.snd
      simp)
    linarith

/-- The far point of an unbounded ridge is on the ridge. -/
theorem farPoint_ok {pts : List (ℝ × ℝ)} {p q x u : ℝ × ℝ} {radius : ℝ} (hne : pts ≠ [])
    (hp : p ∈ pts) (hq : q ∈ pts) (hpq : p ≠ q) (hu : u ≠ 0) (hrad : 0 ≤ radius)
    (h : ∀ t : ℝ, 0 ≤ t → x + t • u ∈ planeCell pts p ∧ x + t • u ∈ planeCell pts q) :
    ∃ (f : ℝ × ℝ) (t : ℝ), farPoint Real.sqrt (meanPoint pts) radius p q x = .ok f ∧ 0 ≤ t ∧
      f = x + t • u ∧ ((∃ r ∈ pts, (q.1 - p.1) * (r.2 - p.2) ≠ (q.2 - p.2) * (r.1 - p.1)) →
        sqDist f x = radius ^ 2) ∧ sqDist f x ≤ radius ^ 2 := by
  have hup := fun r hr => planeCell_ray (fun t ht => (h t ht).1) (r := r) hr
  have huq := fun r hr => planeCell_ray (fun t ht => (h t ht).2) (r := r) hr
  have horth : u.1 * (q.1 - p.1) + u.2 * (q.2 - p.2) = 0 := by
    have h1 := hup q hq
    have h2 := huq p hp
    linarith
  set T := (q.1 - p.1) * (q.1 - p.1) + (q.2 - p.2) * (q.2 - p.2) with hT
  have hTpos : 0 < T := by
    have : q.1 - p.1 ≠ 0 ∨ q.2 - p.2 ≠ 0 := by
      by_contra hc
      push Not at hc
      exact hpq (Prod.ext (by linarith [hc.1]) (by linarith [hc.2]))
    rcases this with h1 | h1
    · have := mul_self_pos.mpr h1
      have := mul_self_nonneg (q.2 - p.2)
      linarith
    · have := mul_self_pos.mpr h1
      have := mul_self_nonneg (q.1 - p.1)
      linarith
  set len := √T with hlen
  have hlpos : 0 < len := Real.sqrt_pos.mpr hTpos
  have hll : len * len = T := Real.mul_self_sqrt hTpos.le
  set n : ℝ × ℝ := (-((q.2 - p.2) / len), (q.1 - p.1) / len) with hn
  -- `u` is a multiple of the normal
  set c := u.1 * n.1 + u.2 * n.2 with hc
  have hcl : c * len = -(u.1 * (q.2 - p.2)) + u.2 * (q.1 - p.1) := by
    rw [hc, hn]
    field_simp
  have hu1 : u.1 = c * n.1 := by
    have : u.1 * T = c * n.1 * T := by
      have e : n.1 * T = -((q.2 - p.2) * len) := by
        rw [hn, ← hll]; field_simp
      rw [mul_assoc, e]
      have : c * -((q.2 - p.2) * len) = -(c * len) * (q.2 - p.2) := by ring
      rw [this, hcl, hT]
      linear_combination (q.1 - p.1) * horth
    exact mul_right_cancel₀ hTpos.ne' this
  have hu2 : u.2 = c * n.2 := by
    have : u.2 * T = c * n.2 * T := by
      have e : n.2 * T = (q.1 - p.1) * len := by
        rw [hn, ← hll]; field_simp
      rw [mul_assoc, e]
      have : c * ((q.1 - p.1) * len) = (c * len) * (q.1 - p.1) := by ring
      rw [this, hcl, hT]
      linear_combination (q.2 - p.2) * horth
    exact mul_right_cancel₀ hTpos.ne' this
  have hc0 : c ≠ 0 := by
    intro h0
    rw [h0, zero_mul] at hu1 hu2
    exact hu (Prod.ext hu1 hu2)
  -- the sign
  set m := meanPoint pts with hm
  set D := ((p.1 + q.1) / 2 - m.1) * n.1 + ((p.2 + q.2) / 2 - m.2) * n.2 with hD
  have hN : (0 : ℝ) < pts.length := by exact_mod_cast List.length_pos_iff.mpr hne
  have hnq : n.1 * (q.1 - p.1) + n.2 * (q.2 - p.2) = 0 := by
    rw [hn]; field_simp; ring
  have hDs : pts.length * D = -(pts.map fun r => n.1 * (r.1 - p.1) + n.2 * (r.2 - p.2)).sum := by
    rw [inner_sum, hD, hm, meanPoint]
    field_simp
    linear_combination (pts.length : ℝ) * hnq
  have hcD : 0 ≤ c * D := by
    have h1 : (pts.map fun r => c * (n.1 * (r.1 - p.1) + n.2 * (r.2 - p.2))).sum ≤ 0 := by
      have : ∀ l : List (ℝ × ℝ), (∀ r ∈ l, r ∈ pts) →
          (l.map fun r => c * (n.1 * (r.1 - p.1) + n.2 * (r.2 - p.2))).sum ≤ 0 := by
        intro l hl
        induction l with
        | nil => simp
        | cons r l ih =>
          rw [List.map_cons, List.sum_cons]
          have e1 := hup r (hl r (List.mem_cons_self ..))
          have e2 := ih fun r' hr' => hl r' (List.mem_cons_of_mem _ hr')
          rw [hu1, hu2] at e1
          have e3 : c * (n.1 * (r.1 - p.1) + n.2 * (r.2 - p.2)) =
            c * n.1 * (r.1 - p.1) + c * n.2 * (r.2 - p.2) := by ring
          rw [e3]
          linarith
      exact this pts fun _ h => h
    rw [List.sum_map_mul_left] at h1
    have h2 : 0 ≤ pts.length * (c * D) := by
      have : pts.length * (c * D) = c * (pts.length * D) := by ring
      rw [this, hDs]
      linarith
    exact nonneg_of_mul_nonneg_right h2 hN
  have hres : farPoint Real.sqrt m radius p q x =
      .ok (x.1 + npSign D * n.1 * radius, x.2 + npSign D * n.2 * radius) := by
    unfold farPoint
    simp only []
    rw [← hT, ← hlen]
    simp only [raiseIf, hlpos.ne', if_false, ok_bind]
    rfl
  have hnn : n.1 * n.1 + n.2 * n.2 = 1 := by
    rw [hn]
    simp only []
    field_simp
    rw [show len ^ 2 = T by rw [sq, hll], hT]
    ring
  have hdist : ∀ e : ℝ, e * e = 1 →
      sqDist (x.1 + e * n.1 * radius, x.2 + e * n.2 * radius) x = radius ^ 2 := by
    intro e he
    simp only [sqDist]
    linear_combination radius ^ 2 * e * e * hnn + radius ^ 2 * he
  have hD0 : (∃ r ∈ pts, (q.1 - p.1) * (r.2 - p.2) ≠ (q.2 - p.2) * (r.1 - p.1)) → D ≠ 0 := by
    rintro ⟨r, hr, hne⟩ hD0
    rw [hD0, mul_zero] at hDs
    have hz : (pts.map fun r => c * (n.1 * (r.1 - p.1) + n.2 * (r.2 - p.2))).sum = 0 := by
      rw [List.sum_map_mul_left]
      have : (pts.map fun r => n.1 * (r.1 - p.1) + n.2 * (r.2 - p.2)).sum = 0 := by linarith
      rw [this, mul_zero]
    have hle : ∀ r ∈ pts, c * (n.1 * (r.1 - p.1) + n.2 * (r.2 - p.2)) ≤ 0 := by
      intro r hr
      have e1 := hup r hr
      rw [hu1, hu2] at e1
      linarith
    have hall : ∀ l : List (ℝ × ℝ), (∀ r ∈ l, r ∈ pts) →
        (l.map fun r => c * (n.1 * (r.1 - p.1) + n.2 * (r.2 - p.2))).sum = 0 →
        ∀ r ∈ l, c * (n.1 * (r.1 - p.1) + n.2 * (r.2 - p.2)) = 0 := by
      have hneg : ∀ l : List (ℝ × ℝ), (∀ r ∈ l, r ∈ pts) →
          (l.map fun r => c * (n.1 * (r.1 - p.1) + n.2 * (r.2 - p.2))).sum ≤ 0 := by
        intro l hl
        induction l with
        | nil => simp
        | cons a l ih =>
          rw [List.map_cons, List.sum_cons]
          have e1 := hle a (hl a (List.mem_cons_self ..))
          have e2 := ih fun r' hr' => hl r' (List.mem_cons_of_mem _ hr')
          linarith
      intro l hl
      induction l with
      | nil => intro _ r hr; cases hr
      | cons a l ih =>
        rw [List.map_cons, List.sum_cons]
        intro h0 r hr
        have e1 := hle a (hl a (List.mem_cons_self ..))
        have e2 := hneg l fun r' hr' => hl r' (List.mem_cons_of_mem _ hr')
        rcases List.mem_cons.mp hr with rfl | hr
        · linarith
        · exact ih (fun r' hr' => hl r' (List.mem_cons_of_mem _ hr')) (by linarith) r hr
    have h0 := hall pts (fun _ h => h) hz r hr
    rcases mul_eq_zero.mp h0 with h0 | h0
    · exact hc0 h0
    · apply hne
      rw [hn] at h0
      simp only [] at h0
      field_simp at h0
      linarith
  rw [hres]
  rcases lt_trichotomy D 0 with hlt | h0 | hgt
  · have hcneg : c < 0 := lt_of_le_of_ne (by
      by_contra hh
      push Not at hh
      nlinarith) hc0
    refine ⟨_, -radius / c, rfl, div_nonneg_of_nonpos (by linarith) hcneg.le, ?_,
      fun _ => by rw [npSign, if_pos hlt]; exact hdist _ (by norm_num),
      by rw [npSign, if_pos hlt]; exact (hdist _ (by norm_num)).le⟩
    rw [npSign, if_pos hlt]
    refine Prod.ext ?_ ?_
    · simp only [Prod.fst_add, Prod.smul_fst, smul_eq_mul]
      rw [hu1]; field_simp
    · simp only [Prod.snd_add, Prod.smul_snd, smul_eq_mul]
      rw [hu2]; field_simp
  · refine ⟨_, 0, rfl, le_refl _, ?_, fun hh => absurd h0 (hD0 hh), ?_⟩
    · rw [npSign, if_neg (by rw [h0]; exact lt_irrefl _), if_neg (by rw [h0]; exact lt_irrefl _)]
      simp
    · rw [npSign, if_neg (by rw [h0]; exact lt_irrefl _), if_neg (by rw [h0]; exact lt_irrefl _)]
      simp only [sqDist, zero_mul, add_zero, sub_self]
      nlinarith [sq_nonneg radius]
  · have hcpos : 0 < c := lt_of_le_of_ne (by
      by_contra hh
      push Not at hh
      nlinarith) (Ne.symm hc0)
    refine ⟨_, radius / c, rfl, div_nonneg hrad hcpos.le, ?_,
      fun _ => by rw [npSign, if_neg (not_lt.mpr hgt.le), if_pos hgt]; exact hdist _ (by norm_num),
      by rw [npSign, if_neg (not_lt.mpr hgt.le), if_pos hgt]; exact (hdist _ (by norm_num)).le⟩
    rw [npSign, if_neg (not_lt.mpr hgt.le), if_pos hgt]
    refine Prod.ext ?_ ?_
    · simp only [Prod.fst_add, Prod.smul_fst, smul_eq_mul]
      rw [hu1]; field_simp
    · simp only [Prod.snd_add, Prod.smul_snd, smul_eq_mul]
      rw [hu2]; field_simp

/-- Cells are convex. -/
theorem planeCell_convex (pts : List (ℝ × ℝ)) (p : ℝ × ℝ) : Convex ℝ (planeCell pts p) := by
  intro x hx y hy a b ha hb hab r hr
  have h1 := hx r hr
  have h2 := hy r hr
  simp only [sqDist] at h1 h2
  simp only [sqDist, Prod.fst_add, Prod.snd_add, Prod.smul_fst, Prod.smul_snd, smul_eq_mul]
  obtain rfl : b = 1 - a := by linarith
  nlinarith [mul_le_mul_of_nonneg_left h1 ha, mul_le_mul_of_nonneg_left h2 hb]

/-! ## The loops -/

theorem foldlM_ind {α β : Type} (f : β → α → Except Err β) (P : List α → β → Prop) (l : List α)
    (hstep : ∀ pre a b, pre ++ [a] <+: l → P pre b → ∃ b', f b a = .ok b' ∧ P (pre ++ [a]) b') (b : β)
    (h0 : P [] b) : ∃ r, l.foldlM f b = .ok r ∧ P l r := by
  suffices h : ∀ suf pre b, pre ++ suf = l → P pre b → ∃ r, suf.foldlM f b = .ok r ∧ P l r from
    h l [] b rfl h0
  intro suf
  induction suf with
  | nil =>
    intro pre b hl hP
    rw [List.append_nil] at hl
    exact ⟨b, rfl, hl ▸ hP⟩
  | cons a suf ih =>
    intro pre b hl hP
    obtain ⟨b', h1, h2⟩ := hstep pre a b ⟨suf, by rw [← hl]; simp⟩ hP
    obtain ⟨r, h3, h4⟩ := ih (pre ++ [a]) b' (by rw [← hl]; simp) h2
    exact ⟨r, by rw [List.foldlM_cons, h1]; exact h3, h4⟩

theorem mem_ridgesOf {v : Diagram ℝ} {i : Nat} {r : Nat × Int × Int} (h : r ∈ ridgesOf v i) :
    ((i, r.1), (r.2.1, r.2.2)) ∈ v.ridgePoints.zip v.ridgeVertices ∨
      ((r.1, i), (r.2.1, r.2.2)) ∈ v.ridgePoints.zip v.ridgeVertices := by
  unfold ridgesOf at h
  obtain ⟨e, he, hr⟩ := List.mem_flatMap.mp h
  obtain ⟨⟨a, b⟩, ⟨w, w'⟩⟩ := e
  rcases List.mem_append.mp hr with h1 | h1
  · by_cases ha : a = i
    · rw [if_pos ha] at h1
      obtain rfl := List.mem_singleton.mp h1
      subst ha
      exact .inl he
    · rw [if_neg ha] at h1; cases h1
  · by_cases ha : b = i
    · rw [if_pos ha] at h1
      obtain rfl := List.mem_singleton.mp h1
      subst ha
      exact .inr he
    · rw [if_neg ha] at h1; cases h1

/-- All numbers of a region are vertices in the set. -/
def VerticesIn (verts : List (ℝ × ℝ)) (C : Set (ℝ × ℝ)) (reg : List Nat) : Prop :=
  ∀ w ∈ reg, ∃ x, verts[w]? = some x ∧ x ∈ C

theorem VerticesIn.mono {verts verts' : List (ℝ × ℝ)} {C : Set (ℝ × ℝ)} {reg : List Nat}
    (h : VerticesIn verts C reg) (hp : verts <+: verts') : VerticesIn verts' C reg := by
  obtain ⟨t, rfl⟩ := hp
  intro w hw
  obtain ⟨x, h1, h2⟩ := h w hw
  exact ⟨x, by rw [List.getElem?_append_left (List.getElem?_eq_some_iff.mp h1).1, h1], h2⟩

/-- Every vertex is a vertex of the diagram or at most the distance `radius` away from one. -/
def Spec.NearVertices (v : Diagram ℝ) (radius : ℝ) (verts : List (ℝ × ℝ)) : Prop :=
  ∀ x ∈ verts, ∃ y ∈ v.vertices, sqDist x y ≤ radius ^ 2

/-- For an unbounded ridge of the point `p` with the entries `r` of `all_ridges[p]` the region has a vertex on
the ridge, at the given distance from the vertex where the ridge starts if not all points are on a line. -/
def Spec.FarVertex (pts : List (ℝ × ℝ)) (v : Diagram ℝ) (radius : ℝ) (p : ℝ × ℝ) (verts : List (ℝ × ℝ))
    (reg : List Nat) (r : Nat × Int × Int) : Prop :=
  (r.2.1 < 0 ∨ r.2.2 < 0) → ∃ (q x f : ℝ × ℝ) (k : Nat), pts[r.1]? = some q ∧
    v.vertices[(if r.2.1 < 0 then r.2.2 else r.2.1).toNat]? = some x ∧ k ∈ reg ∧ verts[k]? = some f ∧
    f ∈ planeCell pts p ∧ f ∈ planeCell pts q ∧
    ((∃ s ∈ pts, (q.1 - p.1) * (s.2 - p.2) ≠ (q.2 - p.2) * (s.1 - p.1)) → sqDist f x = radius ^ 2)

theorem Spec.FarVertex.mono {pts : List (ℝ × ℝ)} {v : Diagram ℝ} {radius : ℝ} {p : ℝ × ℝ}
    {verts verts' : List (ℝ × ℝ)} {reg reg' : List Nat} {r : Nat × Int × Int}
    (h : FarVertex pts v radius p verts reg r) (h1 : verts <+: verts') (h2 : reg <+: reg') :
    FarVertex pts v radius p verts' reg' r := by
  intro hneg
  obtain ⟨q, x, f, k, e1, e2, e3, e4, e5⟩ := h hneg
  obtain ⟨t, rfl⟩ := h1
  exact ⟨q, x, f, k, e1, e2, h2.subset e3,
    by rw [List.getElem?_append_left (List.getElem?_eq_some_iff.mp e4).1, e4], e5⟩

theorem addRidges_ok {pts : List (ℝ × ℝ)} {v : Diagram ℝ} (hv : DiagramOk pts v) {radius : ℝ}
    (hrad : 0 ≤ radius) {i : Nat} {p : ℝ × ℝ} (hp : pts[i]? = some p) {reg : List Nat}
    {verts : List (ℝ × ℝ)} (hreg : VerticesIn verts (planeCell pts p) reg)
    (hnear : NearVertices v radius verts) :
    ∃ q, (ridgesOf v i).foldlM (addRidge Real.sqrt v (meanPoint pts) radius i) (reg, verts) = .ok q ∧
      verts <+: q.2 ∧ reg <+: q.1 ∧ VerticesIn q.2 (planeCell pts p) q.1 ∧
      (∀ r ∈ ridgesOf v i, FarVertex pts v radius p q.2 q.1 r) ∧ NearVertices v radius q.2 := by
  have := foldlM_ind (addRidge Real.sqrt v (meanPoint pts) radius i)
    (fun pre q => verts <+: q.2 ∧ reg <+: q.1 ∧ VerticesIn q.2 (planeCell pts p) q.1 ∧
      (∀ r ∈ pre, FarVertex pts v radius p q.2 q.1 r) ∧ NearVertices v radius q.2)
    (ridgesOf v i) ?_ (reg, verts) ⟨List.prefix_refl _, List.prefix_refl _, hreg, by simp, hnear⟩
  · exact this
  · rintro pre ⟨j, w, w'⟩ ⟨rg, vs⟩ hl ⟨h1, h2, h3, h5, h6⟩
    have hmem : (j, w, w') ∈ ridgesOf v i := hl.subset (by simp)
    -- the two ends
    obtain ⟨q, hq, hpq, hopen1, hopen2⟩ : ∃ q, pts[j]? = some q ∧ p ≠ q ∧
        (w < 0 → RidgeOpen pts v p q w') ∧ (w' < 0 → RidgeOpen pts v p q w) := by
      rcases mem_ridgesOf hmem with hm | hm
      · obtain ⟨p', q, e1, e2, e3, e4, e5⟩ := hv.ridge i j w w' hm
        rw [hp] at e1
        obtain rfl := Option.some.inj e1
        exact ⟨q, e2, e3, e4, e5⟩
      · obtain ⟨q, p', e1, e2, e3, e4, e5⟩ := hv.ridge j i w w' hm
        rw [hp] at e2
        obtain rfl := Option.some.inj e2
        have hsw : ∀ w, RidgeOpen pts v q p w → RidgeOpen pts v p q w := by
          rintro w ⟨k0, x, u, k1, k2, k3⟩
          exact ⟨k0, x, u, k1, k2, fun t ht => (k3 t ht).symm⟩
        exact ⟨q, e1, Ne.symm e3, fun h => hsw _ (e4 h), fun h => hsw _ (e5 h)⟩
    -- the swapped pair
    obtain ⟨z, hz, hcase⟩ : ∃ z : Int × Int, (if w' < 0 then (w', w) else (w, w')) = z ∧
        (0 ≤ z.1 ∨ z.1 < 0 ∧ RidgeOpen pts v p q z.2) := by
      by_cases hw : w' < 0
      · exact ⟨(w', w), if_pos hw, .inr ⟨hw, hopen2 hw⟩⟩
      · refine ⟨(w, w'), if_neg hw, ?_⟩
        by_cases hw0 : w < 0
        · exact .inr ⟨hw0, hopen1 hw0⟩
        · exact .inl (by simpa using hw0)
    unfold addRidge
    simp only [hz]
    rcases hcase with h0 | ⟨h0, k0, x, u, k1, k2, k3⟩
    · rw [if_pos h0]
      refine ⟨_, rfl, h1, h2, h3, fun r hr => ?_, h6⟩
      rcases List.mem_append.mp hr with hr | hr
      · exact h5 r hr
      · obtain rfl := List.mem_singleton.mp hr
        rintro (hneg | hneg)
        · simp only [] at hneg
          by_cases hw : w' < 0
          · exact absurd (hopen1 hneg).1 (by omega)
          · rw [if_neg hw] at hz
            subst hz
            simp at h0; omega
        · simp only [] at hneg
          rw [if_pos hneg] at hz
          subst hz
          simp at h0; omega
    · rw [if_neg (by omega)]
      obtain ⟨f, t, hf, ht, rfl, hfar, hfar2⟩ := farPoint_ok hv.nonempty (List.mem_of_getElem? hp)
        (List.mem_of_getElem? hq) hpq k2 hrad k3
      have hg1 : getIdx v.points i = .ok p := (getIdx_eq_ok _ _ _).mpr (by rw [hv.points, hp])
      have hg2 : getIdx v.points j = .ok q := (getIdx_eq_ok _ _ _).mpr (by rw [hv.points, hq])
      have hg3 : getIdx v.vertices z.2.toNat = .ok x := (getIdx_eq_ok _ _ _).mpr k1
      refine ⟨(rg ++ [vs.length], vs ++ [x + t • u]), ?_, h1.trans (List.prefix_append _ _),
        h2.trans (List.prefix_append _ _), ?_, ?_, ?_⟩
      · simp only [raiseIf, show ¬ z.2 < 0 by omega, if_false, ok_bind, hg1, hg2, hg3, hf]
        rfl
      · intro w hw
        rcases List.mem_append.mp hw with hw | hw
        · exact h3.mono (List.prefix_append _ _) w hw
        · obtain rfl := List.mem_singleton.mp hw
          exact ⟨_, by simp, (k3 t ht).1⟩
      · intro r hr
        rcases List.mem_append.mp hr with hr | hr
        · exact (h5 r hr).mono (List.prefix_append _ _) (List.prefix_append _ _)
        · obtain rfl := List.mem_singleton.mp hr
          intro hneg
          refine ⟨q, x, x + t • u, vs.length, hq, ?_, by simp, by simp, (k3 t ht).1, (k3 t ht).2, hfar⟩
          by_cases hw : w' < 0
          · rw [if_pos hw] at hz
            subst hz
            have : ¬ (w < 0) := by simp at k0; omega
            simpa [this] using k1
          · rw [if_neg hw] at hz
            subst hz
            simp only [hw, or_false] at hneg
            simpa [hneg] using k1
      · intro y hy
        rcases List.mem_append.mp hy with hy | hy
        · exact h6 y hy
        · obtain rfl := List.mem_singleton.mp hy
          exact ⟨x, List.mem_of_getElem? k1, hfar2⟩

theorem sortRegion_ok {arctan2 : ℝ → ℝ → ℝ} {argsort : List ℝ → List Nat} (hA : IsArgsort argsort)
    {reg : List Nat} {verts : List (ℝ × ℝ)} {C : Set (ℝ × ℝ)} (h : VerticesIn verts C reg) :
    ∃ r, sortRegion arctan2 argsort reg verts = .ok r ∧ r.Perm reg := by
  obtain ⟨vs, hvs⟩ := mapM_total (f := fun i => getIdx verts i) (l := reg) (fun i hi => by
    obtain ⟨x, hx, -⟩ := h i hi
    exact ⟨x, (getIdx_eq_ok _ _ _).mpr hx⟩)
  have hlen : vs.length = reg.length := ((mapM_eq_ok _ _ _).mp hvs).length_eq.symm
  set angles := vs.map fun q => arctan2 (q.2 - (meanPoint vs).2) (q.1 - (meanPoint vs).1) with hang
  have hperm := (hA angles).1
  have hal : angles.length = reg.length := by rw [hang, List.length_map, hlen]
  refine ⟨(argsort angles).map fun i => reg.getD i 0, ?_, ?_⟩
  · unfold sortRegion
    rw [hvs]
    simp only [ok_bind]
    rw [← hang]
    refine mapM_ok _ _ _ fun i hi => ?_
    have hi' : i < reg.length := by
      rw [← hal]; exact List.mem_range.mp (hperm.mem_iff.mp hi)
    rw [getIdx_eq_ok, List.getElem?_eq_getElem hi', List.getD_eq_getElem?_getD,
      List.getElem?_eq_getElem hi']
    rfl
  · refine (hperm.map _).trans ?_
    rw [hal]
    have : (List.range reg.length).map (fun i => reg.getD i 0) = reg := by
      apply List.ext_getElem
      · simp
      · intro i h1 h2; simp [List.getD_eq_getElem?_getD, List.getElem?_eq_getElem h2]
    rw [this]

/-- What `voronoi_finite_polygons_2d` promises for point `i`. -/
structure Spec.PolygonOk (pts : List (ℝ × ℝ)) (v : Diagram ℝ) (radius : ℝ) (verts : List (ℝ × ℝ)) (i : Nat)
    (reg : List Nat) : Prop where
  inCell : ∀ p, pts[i]? = some p → VerticesIn verts (planeCell pts p) reg
  keeps : ∀ g ws, v.pointRegion[i]? = some g → v.regions[g]? = some ws → ∀ w ∈ ws, 0 ≤ w → w.toNat ∈ reg
  bounded : ∀ g ws, v.pointRegion[i]? = some g → v.regions[g]? = some ws → (∀ w ∈ ws, 0 ≤ w) →
    reg = ws.map Int.toNat
  far : ∀ p g ws, pts[i]? = some p → v.pointRegion[i]? = some g → v.regions[g]? = some ws →
    (∃ w ∈ ws, w < 0) → ∀ r ∈ ridgesOf v i, FarVertex pts v radius p verts reg r

theorem Spec.PolygonOk.mono {pts : List (ℝ × ℝ)} {v : Diagram ℝ} {radius : ℝ} {verts verts' : List (ℝ × ℝ)}
    {i : Nat} {reg : List Nat} (h : PolygonOk pts v radius verts i reg) (hp : verts <+: verts') :
    PolygonOk pts v radius verts' i reg :=
  ⟨fun p hi => (h.inCell p hi).mono hp, h.keeps, h.bounded, fun p g ws e1 e2 e3 e4 r hr =>
    (h.far p g ws e1 e2 e3 e4 r hr).mono hp (List.prefix_refl _)⟩

theorem finiteRegion_ok {arctan2 : ℝ → ℝ → ℝ} {argsort : List ℝ → List Nat} (hA : IsArgsort argsort)
    {pts : List (ℝ × ℝ)} {v : Diagram ℝ} (hv : DiagramOk pts v) {radius : ℝ} (hrad : 0 ≤ radius)
    {st : List (List Nat) × List (ℝ × ℝ)} (hst : v.vertices <+: st.2)
    (hnear : NearVertices v radius st.2) {i g : Nat} {p : ℝ × ℝ}
    (hp : pts[i]? = some p) (hg : v.pointRegion[i]? = some g) :
    ∃ reg verts, finiteRegion Real.sqrt arctan2 argsort v (meanPoint pts) radius st (i, g) =
      .ok (st.1 ++ [reg], verts) ∧ st.2 <+: verts ∧ PolygonOk pts v radius verts i reg ∧
      NearVertices v radius verts := by
  obtain ⟨ws, hws, hin, hridge⟩ := hv.region i g p hp hg
  have huniq : ∀ g' ws', v.pointRegion[i]? = some g' → v.regions[g']? = some ws' → ws' = ws := by
    intro g' ws' e1 e2
    rw [hg] at e1
    obtain rfl := Option.some.inj e1
    rw [hws] at e2
    exact (Option.some.inj e2).symm
  have hfin : VerticesIn st.2 (planeCell pts p) ((ws.filter fun i => decide (0 ≤ i)).map Int.toNat) := by
    intro w hw
    obtain ⟨z, hz, rfl⟩ := List.mem_map.mp hw
    obtain ⟨hz1, hz2⟩ := List.mem_filter.mp hz
    obtain ⟨x, hx1, hx2⟩ := hin z hz1 (by simpa using hz2)
    obtain ⟨t, ht⟩ := hst
    exact ⟨x, by rw [← ht, List.getElem?_append_left (List.getElem?_eq_some_iff.mp hx1).1, hx1], hx2⟩
  unfold finiteRegion
  simp only [(getIdx_eq_ok _ _ _).mpr hws, ok_bind]
  by_cases hall : (ws.all fun i => decide (0 ≤ i)) = true
  · rw [if_pos hall]
    have hall' : ∀ w ∈ ws, 0 ≤ w := by
      intro w hw
      simpa using List.all_eq_true.mp hall w hw
    have hf : ws.filter (fun i => decide (0 ≤ i)) = ws :=
      List.filter_eq_self.mpr fun w hw => by simpa using hall' w hw
    rw [hf] at hfin
    refine ⟨_, _, rfl, List.prefix_refl _, ⟨?_, ?_, ?_, ?_⟩, hnear⟩
    · intro p' hp'
      rw [hp] at hp'
      obtain rfl := Option.some.inj hp'
      exact hfin
    · intro g' ws' e1 e2 w hw _
      rw [huniq g' ws' e1 e2] at hw
      exact List.mem_map_of_mem hw
    · intro g' ws' e1 e2 _
      rw [huniq g' ws' e1 e2]
    · rintro p' g' ws' - e1 e2 ⟨w, hw, hneg⟩
      rw [huniq g' ws' e1 e2] at hw
      have := hall' w hw
      omega
  · rw [if_neg hall]
    have hex : ∃ w ∈ ws, w < 0 := by
      by_contra hc
      push Not at hc
      exact hall (List.all_eq_true.mpr fun w hw => by simpa using hc w hw)
    have hne : ridgesOf v i ≠ [] := by
      obtain ⟨r, hr, hri⟩ := hridge hex
      intro he
      have : r.1.1 = i ∨ r.1.2 = i := hri
      have hmem : ∀ y, y ∉ ridgesOf v i := by rw [he]; simp
      rcases hri with h1 | h1
      · refine hmem (r.1.2, r.2.1, r.2.2) (List.mem_flatMap.mpr ⟨r, hr, ?_⟩)
        simp [h1]
      · refine hmem (r.1.1, r.2.1, r.2.2) (List.mem_flatMap.mpr ⟨r, hr, ?_⟩)
        simp [h1]
    obtain ⟨q, hq, hq1, hq2, hq3, hq4, hq5⟩ := addRidges_ok hv hrad hp hfin hnear
    obtain ⟨srt, hsrt, hperm⟩ := sortRegion_ok (arctan2 := arctan2) hA hq3
    refine ⟨srt, q.2, ?_, hq1, ⟨?_, ?_, ?_, ?_⟩, hq5⟩
    · simp only [raiseIf, show (ridgesOf v i).isEmpty = false by simpa using hne, Bool.false_eq_true,
        if_false, ok_bind, hq, hsrt]
      rfl
    · intro p' hp' w hw
      rw [hp] at hp'
      obtain rfl := Option.some.inj hp'
      exact hq3 w (hperm.mem_iff.mp hw)
    · intro g' ws' e1 e2 w hw hw0
      rw [huniq g' ws' e1 e2] at hw
      refine hperm.mem_iff.mpr (hq2.subset (List.mem_map_of_mem (List.mem_filter.mpr ⟨hw, ?_⟩)))
      simpa using hw0
    · intro g' ws' e1 e2 hpos
      rw [huniq g' ws' e1 e2] at hpos
      obtain ⟨w, hw, hneg⟩ := hex
      have := hpos w hw
      omega
    · intro p' g' ws' hp' _ _ _ r hr hneg
      rw [hp] at hp'
      obtain rfl := Option.some.inj hp'
      obtain ⟨b, x, f, k, e1, e2, e3, e4⟩ := hq4 r hr hneg
      exact ⟨b, x, f, k, e1, e2, hperm.mem_iff.mpr e3, e4⟩

/-! ## C96 -/

/-- **C96** `voronoi_finite_polygons_2d` makes a finite region for every point. A bounded region is not
changed. All vertices of a region are in the cell of the point; the region keeps its old vertices and gets,
for every unbounded ridge, a vertex on this ridge at the distance `radius` from its start. The distance is
the range of all coordinates if it is not given. -/
theorem C96_polygons {arctan2 : ℝ → ℝ → ℝ} {argsort : List ℝ → List Nat} (hA : IsArgsort argsort)
    {pts : List (ℝ × ℝ)} {v : Diagram ℝ} (hv : DiagramOk pts v) (radius : Option ℝ)
    (hrad : ∀ r, radius = some r → 0 ≤ r) :
    ∃ rad regs verts, (∀ r, radius = some r → rad = r) ∧ (radius = none → pointRange pts = .ok rad) ∧
      finitePolygons Real.sqrt arctan2 argsort v radius = .ok (regs, verts) ∧
      regs.length = pts.length ∧ v.vertices <+: verts ∧ NearVertices v rad verts ∧
      ∀ (i : Nat) (reg : List Nat), regs[i]? = some reg → PolygonOk pts v rad verts i reg := by
  obtain ⟨rng, hrng, hrng0⟩ := pts_range_nonneg hv.nonempty
  have hrad0 : 0 ≤ radius.getD rng := by
    cases radius with
    | none => exact hrng0
    | some r => exact hrad r rfl
  set l := (List.range v.pointRegion.length).zip v.pointRegion with hl
  have hllen : l.length = pts.length := by rw [hl]; simp [hv.count]
  have hget : ∀ (i : Nat) (x : Nat × Nat), l[i]? = some x → x.1 = i ∧ v.pointRegion[i]? = some x.2 := by
    intro i x hx
    rw [hl, List.getElem?_zip_eq_some] at hx
    refine ⟨?_, hx.2⟩
    have := hx.1
    rw [List.getElem?_range (by have := (List.getElem?_eq_some_iff.mp hx.2).1; omega)] at this
    exact (Option.some.inj this).symm
  have key := foldlM_ind
    (finiteRegion Real.sqrt arctan2 argsort v (meanPoint pts) (radius.getD rng))
    (fun pre st => st.1.length = pre.length ∧ v.vertices <+: st.2 ∧
      NearVertices v (radius.getD rng) st.2 ∧
      ∀ (i : Nat) (reg : List Nat), st.1[i]? = some reg →
        PolygonOk pts v (radius.getD rng) st.2 i reg) l ?_ ([], v.vertices)
    ⟨rfl, List.prefix_refl _, fun x hx => ⟨x, hx, by simp only [sqDist]; nlinarith [sq_nonneg (radius.getD rng)]⟩,
      by simp⟩
  · obtain ⟨r, hr, hr1, hr2, hr4, hr3⟩ := key
    refine ⟨radius.getD rng, r.1, r.2, ?_, ?_, ?_, by rw [hr1, hllen], hr2, hr4, hr3⟩
    · rintro r rfl; rfl
    · rintro rfl; exact hrng
    · unfold finitePolygons
      rw [hv.points, hrng]
      simp only [ok_bind]
      exact hr
  · rintro pre ⟨i, g⟩ st hpre ⟨h1, h2, h4, h3⟩
    have hi : l[pre.length]? = some (i, g) := by
      obtain ⟨t, ht⟩ := hpre
      rw [← ht]; simp
    obtain ⟨hii, hg⟩ := hget _ _ hi
    simp only [] at hii hg
    subst hii
    have hlt : pre.length < pts.length := by
      rw [← hllen]; exact (List.getElem?_eq_some_iff.mp hi).1
    obtain ⟨reg, verts, e1, e2, e3, e4⟩ := finiteRegion_ok (arctan2 := arctan2) hA hv hrad0 h2 h4
      (List.getElem?_eq_getElem hlt) hg
    refine ⟨_, e1, by simp [h1], h2.trans e2, e4, ?_⟩
    intro i reg' hreg
    by_cases hlast : i < st.1.length
    · simp only [] at hreg
      rw [List.getElem?_append_left hlast] at hreg
      exact (h3 i reg' hreg).mono e2
    · simp only [] at hreg
      have hi' := (List.getElem?_eq_some_iff.mp hreg).1
      rw [List.length_append, List.length_singleton] at hi'
      have : i = st.1.length := by omega
      subst this
      rw [List.getElem?_append_right (le_refl _)] at hreg
      simp at hreg
      subst hreg
      rw [h1]
      exact e3

/-- A two-dimensional set with samples `pts`, probabilities `ps` and volumes `vols` of the cells, for which
`scipy.spatial.Voronoi` gives the diagram `v`. -/
structure Spec.InPlane (vor : List (ℝ × ℝ) → Except Err (Diagram ℝ)) (pts : List (ℝ × ℝ)) (v : Diagram ℝ)
    (ps vols : List ℝ) (d : (ℝ × ℝ) × (ℝ × ℝ)) (s : SampleSet ℝ) : Prop where
  dim : s.dim = 2
  values : s.glob.values = some (pts.map row)
  probs : s.glob.probabilities = some ps
  volumes : s.glob.volumes = some vols
  domain : s.domain = some [d.1, d.2]
  psLength : ps.length = pts.length
  volsLength : vols.length = pts.length
  probsNonneg : ∀ p ∈ ps, 0 ≤ p
  probsPos : ∃ p ∈ ps, 0 < p
  volsPos : ∀ w ∈ vols, 0 < w
  diagram : vor pts = .ok v
  diagramOk : DiagramOk pts v

section
variable {vor : List (ℝ × ℝ) → Except Err (Diagram ℝ)} {pts : List (ℝ × ℝ)} {v : Diagram ℝ}
  {ps vols : List ℝ} {d : (ℝ × ℝ) × (ℝ × ℝ)} {s : SampleSet ℝ}

theorem cellValues_ok (h : InPlane vor pts v ps vols d s) (density : Bool) :
    ∃ P m, cellValues density s = .ok P ∧ P.length = pts.length ∧ npMax P = .ok m ∧ 0 < m ∧
      (∀ (i : Nat) (q w : ℝ), ps[i]? = some q → vols[i]? = some w →
        P[i]? = some (if density then q / w else q)) ∧ ∀ x ∈ P, 0 ≤ x := by
  obtain ⟨q, hq, hq0⟩ := h.probsPos
  obtain ⟨k, hk, rfl⟩ := List.mem_iff_getElem.mp hq
  have hpl := h.psLength
  have hvl := h.volsLength
  have hkv : k < vols.length := by omega
  cases density with
  | false =>
    obtain ⟨a, l, hal⟩ := List.exists_cons_of_ne_nil (List.ne_nil_of_mem hq)
    obtain ⟨m, hm⟩ : ∃ m, npMax ps = .ok m := by rw [hal]; exact ⟨_, rfl⟩
    refine ⟨ps, m, ?_, hpl, hm, lt_of_lt_of_le hq0 ((npMax_isGreatest hm).2 hq), ?_, h.probsNonneg⟩
    · simp only [cellValues, h.probs, orErr_some, ok_bind, Bool.false_eq_true, if_false]
      rfl
    · intro i q w e1 _
      simpa using e1
  | true =>
    have hz : (0 : ℝ) ∉ vols := fun h0 => lt_irrefl _ (h.volsPos 0 h0)
    set P := List.zipWith (· / ·) ps vols with hP
    have hPk : P[k]? = some (ps[k] / vols[k]) := by
      rw [hP, List.getElem?_zipWith, List.getElem?_eq_getElem hk, List.getElem?_eq_getElem hkv]
    have hPm := List.mem_of_getElem? hPk
    obtain ⟨a, l, hal⟩ := List.exists_cons_of_ne_nil (List.ne_nil_of_mem hPm)
    obtain ⟨m, hm⟩ : ∃ m, npMax P = .ok m := by rw [hal]; exact ⟨_, rfl⟩
    refine ⟨P, m, ?_, ?_, hm,
      lt_of_lt_of_le (div_pos hq0 (h.volsPos _ (List.getElem_mem hkv))) ((npMax_isGreatest hm).2 hPm),
      ?_, ?_⟩
    · simp only [cellValues, h.probs, h.volumes, orErr_some, ok_bind, if_true, raiseIf, hz, if_false,
        show ¬ (ps.length ≠ vols.length) by rw [hpl, hvl]; simp]
      rfl
    · rw [hP, List.length_zipWith]; omega
    · intro i q w e1 e2
      rw [hP, List.getElem?_zipWith, e1, e2]
      rfl
    · intro x hx
      obtain ⟨j, hj, rfl⟩ := List.mem_iff_getElem.mp hx
      simp only [hP, List.getElem_zipWith]
      exact div_nonneg (h.probsNonneg _ (List.getElem_mem _)) (h.volsPos _ (List.getElem_mem _)).le

theorem rowPair_row (pts : List (ℝ × ℝ)) : (pts.map row).map rowPair = pts := by
  rw [List.map_map]
  conv_rhs => rw [← List.map_id pts]
  rfl

/-- **C96** `plot_2D_voronoi` without labels draws one polygon for each sample and shows the domain. Every
point of the polygon of a sample has this sample as a nearest one. The colour of a polygon is that of the
probability of the sample, or of the probability divided by the volume, relative to the largest value, which
is the upper end of the colour bar; it is between zero and one and one occurs. The set is not changed. -/
theorem C96_plot_partial {arctan2 : ℝ → ℝ → ℝ} {argsort : List ℝ → List Nat} (hA : IsArgsort argsort)
    (h : InPlane vor pts v ps vols d s) (density : Bool) (hr : s.referenceValue = none)
    (filename ext : String) :
    ∃ pl, plot2DVoronoi vor Real.sqrt arctan2 argsort (.set s) density none none filename ext =
        .ok (s, pl) ∧
      pl.cells.length = pts.length ∧ pl.axis = d ∧ pl.file = filename ++ ext ∧ 0 < pl.vmax ∧
      (∀ (i : Nat) (p : ℝ × ℝ) (q w : ℝ), pts[i]? = some p → ps[i]? = some q → vols[i]? = some w →
        ∃ poly c, pl.cells[i]? = some (poly, c) ∧ convexHull ℝ {x | x ∈ poly} ⊆ planeCell pts p ∧
          c = (if density then q / w else q) / pl.vmax ∧ 0 ≤ c ∧ c ≤ 1) ∧
      (∃ cell ∈ pl.cells, cell.2 = 1) ∧
      ∃ rad, pointRange pts = .ok rad ∧
        ∀ cell ∈ pl.cells, ∀ x ∈ cell.1, ∃ y ∈ v.vertices, sqDist x y ≤ rad ^ 2 := by
  obtain ⟨rad, regs, verts, -, hrad, hfp, hlen, hpre, hnear, hpoly⟩ :=
    C96_polygons (arctan2 := arctan2) hA h.diagramOk none (by simp)
  obtain ⟨P, m, hP, hPl, hm, hm0, hPv, hPn⟩ := cellValues_ok h density
  have hcells : ∀ x ∈ (List.range regs.length).zip regs, ∃ y, drawCell P m verts x = .ok y := by
    rintro ⟨i, reg⟩ hx
    obtain ⟨k, hk⟩ := List.mem_iff_getElem?.mp hx
    rw [List.getElem?_zip_eq_some] at hk
    have hkr := (List.getElem?_eq_some_iff.mp hk.2).1
    have hik : i = k := by
      have := hk.1
      rw [List.getElem?_range hkr] at this
      exact (Option.some.inj this).symm
    subst hik
    have hip : i < pts.length := by omega
    obtain ⟨poly, hpo⟩ := mapM_total (f := fun j => getIdx verts j) (l := reg) (fun j hj => by
      obtain ⟨x, hx, -⟩ := (hpoly i reg hk.2).inCell _ (List.getElem?_eq_getElem hip) j hj
      exact ⟨x, (getIdx_eq_ok _ _ _).mpr hx⟩)
    have hPi : getIdx P i = .ok (P[i]'(by omega)) :=
      (getIdx_eq_ok _ _ _).mpr (List.getElem?_eq_getElem _)
    refine ⟨(poly, P[i]'(by omega) / m), ?_⟩
    unfold drawCell
    simp only [hpo, hPi, ok_bind]
    rfl
  obtain ⟨cells, hcs⟩ := mapM_total hcells
  have hF := (mapM_eq_ok _ _ _).mp hcs
  have hcl : cells.length = regs.length := by rw [← hF.length_eq]; simp
  have hcell : ∀ i (hi : i < regs.length), ∃ poly, regs[i].mapM (fun j => getIdx verts j) = .ok poly ∧
      cells[i]? = some (poly, P[i]'(by omega) / m) := by
    intro i hi
    have hi2 : i < cells.length := by omega
    have := List.Forall₂.get hF (i := i) (by simpa using hi) hi2
    simp only [List.get_eq_getElem, List.getElem_zip, List.getElem_range] at this
    simp only [drawCell, bind_eq_ok] at this
    obtain ⟨poly, e1, p, e2, this⟩ := this
    have e3 := (getIdx_eq_ok _ _ _).mp e2
    simp only [List.getElem?_eq_getElem (show i < P.length by omega)] at e3
    refine ⟨poly, e1, ?_⟩
    rw [List.getElem?_eq_getElem hi2, ← (pure_eq_ok _ _).mp this, Option.some.inj e3]
  have hmem : ∀ {reg : List Nat} {poly : List (ℝ × ℝ)},
      reg.mapM (fun j => getIdx verts j) = .ok poly → ∀ x ∈ poly, ∃ j ∈ reg, verts[j]? = some x := by
    intro reg poly he x hx
    have hF := (mapM_eq_ok _ _ _).mp he
    obtain ⟨k, hk, rfl⟩ := List.mem_iff_getElem.mp hx
    have hkr : k < reg.length := by rw [hF.length_eq]; exact hk
    exact ⟨reg[k], List.getElem_mem hkr, (getIdx_eq_ok _ _ _).mp (List.Forall₂.get hF (i := k) hkr hk)⟩
  refine ⟨⟨cells, d, none, ("$\\lambda_1$", "$\\lambda_2$"), m, filename ++ ext⟩, ?_, by rw [hcl, hlen], rfl,
    rfl, hm0, ?_, ?_, rad, hrad rfl, ?_⟩
  · simp only [plot2DVoronoi, PostObj.voronoiSet, ok_bind, h.dim, raiseIf, ne_eq, not_true_eq_false,
      if_false, SampleSet.plotProbs, h.probs, Option.isSome_some, if_true, h.values, h.domain,
      Option.isNone_some, Bool.false_eq_true, orErr_some, rowPair_row, h.diagram, hfp, hP, hm,
      hm0.ne', hcs, refPoint, hr, Option.or_none, refPair, labels2D, getIdx, List.getElem?_cons_zero,
      List.getElem?_cons_succ]
    rfl
  · intro i p q w hp hq hw
    have hi : i < regs.length := by rw [hlen]; exact (List.getElem?_eq_some_iff.mp hp).1
    obtain ⟨poly, e1, e2⟩ := hcell i hi
    have e3 := hPv i q w hq hw
    rw [List.getElem?_eq_getElem (show i < P.length by omega)] at e3
    refine ⟨poly, _, e2, ?_, by rw [Option.some.inj e3], ?_, ?_⟩
    · refine convexHull_min ?_ (planeCell_convex pts p)
      intro x hx
      obtain ⟨j, hj, hjx⟩ := hmem e1 x hx
      obtain ⟨y, hy1, hy2⟩ := (hpoly i _ (List.getElem?_eq_getElem hi)).inCell p hp j hj
      rw [hjx] at hy1
      rw [Option.some.inj hy1]
      exact hy2
    · exact div_nonneg (hPn _ (List.getElem_mem _)) hm0.le
    · rw [div_le_one hm0]
      exact (npMax_isGreatest hm).2 (List.getElem_mem _)
  · have hmP : m ∈ P := (npMax_isGreatest hm).1
    obtain ⟨k, hk, hkm⟩ := List.mem_iff_getElem.mp hmP
    obtain ⟨poly, e1, e2⟩ := hcell k (by omega)
    refine ⟨_, List.mem_of_getElem? e2, ?_⟩
    simp only [hkm]
    exact div_self hm0.ne'
  · intro cell hc x hx
    obtain ⟨k, hk, rfl⟩ := List.mem_iff_getElem.mp hc
    simp only [] at hk
    obtain ⟨poly, e1, e2⟩ := hcell k (by omega)
    rw [List.getElem?_eq_getElem hk] at e2
    have e3 := Option.some.inj e2
    simp only [] at hx e3
    rw [e3] at hx
    obtain ⟨j, hj, hjx⟩ := hmem e1 x hx
    exact hnear x (List.mem_of_getElem? hjx)

/-- **C96 (negation)** The polygons need not cover the domain: a point of the domain whose first coordinate
is larger than that of every vertex of the diagram by more than the range of the coordinates of the samples
is in no polygon. -/
theorem C96_negation_uncovered {arctan2 : ℝ → ℝ → ℝ} {argsort : List ℝ → List Nat}
    (hA : IsArgsort argsort) (h : InPlane vor pts v ps vols d s) (density : Bool)
    (hr : s.referenceValue = none) (filename ext : String) {rad : ℝ} (hrad : pointRange pts = .ok rad)
    {z : ℝ × ℝ} (hz : ∀ y ∈ v.vertices, y.1 + rad < z.1) :
    ∃ pl, plot2DVoronoi vor Real.sqrt arctan2 argsort (.set s) density none none filename ext =
        .ok (s, pl) ∧ ∀ cell ∈ pl.cells, z ∉ convexHull ℝ {x | x ∈ cell.1} := by
  obtain ⟨pl, h1, -, -, -, -, -, -, rad', hrad', hnear⟩ :=
    C96_plot_partial (arctan2 := arctan2) hA h density hr filename ext
  rw [hrad] at hrad'
  obtain rfl := Except.ok.inj hrad'
  obtain ⟨r, hr1, hr0⟩ := pts_range_nonneg h.diagramOk.nonempty
  rw [hrad] at hr1
  obtain rfl := Except.ok.inj hr1
  refine ⟨pl, h1, fun cell hc hin => ?_⟩
  have hsub : convexHull ℝ {x | x ∈ cell.1} ⊆ {x : ℝ × ℝ | x.1 < z.1} := by
    refine convexHull_min ?_ (convex_halfSpace_lt (f := fun x : ℝ × ℝ => x.1) ?_ z.1)
    · intro x hx
      obtain ⟨y, hy, hxy⟩ := hnear cell hc x hx
      have h2 := hz y hy
      have h3 : x.1 - y.1 ≤ rad := by
        refine abs_le_of_sq_le_sq' ?_ hr0 |>.2
        simp only [sqDist] at hxy
        nlinarith [sq_nonneg (x.2 - y.2)]
      show x.1 < z.1
      linarith
    · exact ⟨fun _ _ => rfl, fun _ _ => rfl⟩
  have : z.1 < z.1 := hsub hin
  exact lt_irrefl _ this

end

section
variable {K : Type} [Field K] [LinearOrder K]

/-- **C96 (negation)** Labels for the two axes make every call raise: the second label is never assigned. -/
theorem C96_negation_labels (vor : List (K × K) → Except Err (Diagram K)) (sqrt : K → K)
    (arctan2 : K → K → K) (argsort : List K → List Nat) (o : PostObj K) (density : Bool)
    (lamRef : Option (List K)) (l : List String) (filename ext : String) (r : SampleSet K × Plot2D K) :
    plot2DVoronoi vor sqrt arctan2 argsort o density lamRef (some l) filename ext ≠ .ok r := by
  intro h
  unfold plot2DVoronoi at h
  simp only [bind_eq_ok] at h
  obtain ⟨_, -, _, -, _, -, _, -, _, -, _, -, _, -, _, -, _, -, _, -, _, -, _, -, _, -, _, -, _, hl, -⟩ := h
  simp only [labels2D, bind_eq_ok] at hl
  obtain ⟨_, -, _, -, hl⟩ := hl
  cases hl

/-- **C96** What is refused. -/
theorem C96_refused (vor : List (K × K) → Except Err (Diagram K)) (sqrt : K → K)
    (arctan2 : K → K → K) (argsort : List K → List Nat) (density : Bool)
    (lamRef : Option (List K)) (labels : Option (List String)) (filename ext : String) :
    plot2DVoronoi vor sqrt arctan2 argsort (.other : PostObj K) density lamRef labels filename ext =
      .error .badObject ∧
    (∀ d : Disc K, d.input = none →
      plot2DVoronoi vor sqrt arctan2 argsort (.disc d) density lamRef labels filename ext =
        .error .missingAttribute) ∧
    (∀ s : SampleSet K, s.dim ≠ 2 →
      plot2DVoronoi vor sqrt arctan2 argsort (.set s) density lamRef labels filename ext =
        .error .dimNotMatching) ∧
    (∀ s : SampleSet K, s.dim = 2 → s.glob.probabilities = none → s.loc.probabilities = none →
      plot2DVoronoi vor sqrt arctan2 argsort (.set s) density lamRef labels filename ext =
        .error .missingAttribute) ∧
    ∀ (d : Disc K) (s : SampleSet K), d.input = some s →
      plot2DVoronoi vor sqrt arctan2 argsort (.disc d) density lamRef labels filename ext =
        plot2DVoronoi vor sqrt arctan2 argsort (.set s) density lamRef labels filename ext := by
  refine ⟨rfl, fun d hd => ?_, fun s hs => ?_, fun s hs h1 h2 => ?_, fun d s hd => ?_⟩
  · simp [plot2DVoronoi, PostObj.voronoiSet, hd, orErr_none, error_bind]
  · simp [plot2DVoronoi, PostObj.voronoiSet, hs, ok_bind, raiseIf, error_bind]
  · simp [plot2DVoronoi, PostObj.voronoiSet, hs, h1, h2, ok_bind, raiseIf, error_bind,
      SampleSet.plotProbs]
  · simp only [plot2DVoronoi, PostObj.voronoiSet, hd, orErr_some]

end

/-! ## Examples -/

namespace Ex

/-- The corners of a square. -/
def squarePts : List (ℝ × ℝ) := [(0, 0), (2, 0), (0, 2), (2, 2)]

/-- Its diagram: one vertex in the middle and four unbounded ridges. -/
def squareDiagram (K : Type) [Field K] : Diagram K where
  points := [(0, 0), (2, 0), (0, 2), (2, 2)]
  vertices := [(1, 1)]
  ridgePoints := [(0, 1), (2, 0), (1, 3), (2, 3)]
  ridgeVertices := [(-1, 0), (-1, 0), (-1, 0), (0, -1)]
  pointRegion := [3, 2, 1, 0]
  regions := [[-1, 0], [0, -1], [-1, 0], [-1, 0]]

theorem squareDiagram_ok : DiagramOk squarePts (squareDiagram ℝ) := by
  have hmid : ∀ p ∈ squarePts, ((1 : ℝ), (1 : ℝ)) ∈ planeCell squarePts p := by
    intro p hp q hq
    simp only [squarePts, List.mem_cons, List.not_mem_nil, or_false] at hp hq
    rcases hp with rfl | rfl | rfl | rfl <;> rcases hq with rfl | rfl | rfl | rfl <;>
      simp only [sqDist] <;> norm_num
  have hray : ∀ (p : ℝ × ℝ) (u : ℝ × ℝ), p ∈ squarePts →
      (∀ q ∈ squarePts, u.1 * (q.1 - p.1) + u.2 * (q.2 - p.2) ≤ 0) → ∀ t : ℝ, 0 ≤ t →
      ((1 : ℝ), (1 : ℝ)) + t • u ∈ planeCell squarePts p := by
    intro p u hp hu t ht q hq
    have h1 := hmid p hp q hq
    have h2 := mul_le_mul_of_nonneg_left (hu q hq) ht
    simp only [sqDist] at h1
    simp only [sqDist, Prod.fst_add, Prod.snd_add, Prod.smul_fst, Prod.smul_snd, smul_eq_mul]
    nlinarith
  refine ⟨rfl, by simp [squarePts], rfl, ?_, ?_⟩
  · intro i g p hi hg
    have hp := List.mem_of_getElem? hi
    have hlt : i < 4 := (List.getElem?_eq_some_iff.mp hg).1
    have hws : ∃ ws, (squareDiagram ℝ).regions[g]? = some ws ∧ (∀ w ∈ ws, 0 ≤ w → w = 0) := by
      interval_cases i <;> simp [squareDiagram] at hg <;> subst hg <;> exact ⟨_, rfl, by decide⟩
    obtain ⟨ws, h1, h2⟩ := hws
    refine ⟨ws, h1, fun w hw hw0 => ⟨(1, 1), ?_, hmid p hp⟩, fun _ => ?_⟩
    · rw [h2 w hw hw0]; rfl
    · interval_cases i
      · exact ⟨((0, 1), (-1, 0)), by simp [squareDiagram], .inl rfl⟩
      · exact ⟨((0, 1), (-1, 0)), by simp [squareDiagram], .inr rfl⟩
      · exact ⟨((2, 0), (-1, 0)), by simp [squareDiagram], .inl rfl⟩
      · exact ⟨((1, 3), (-1, 0)), by simp [squareDiagram], .inr rfl⟩
  · intro i j w w' h
    have hopen : ∀ (p q u : ℝ × ℝ), p ∈ squarePts → q ∈ squarePts → u ≠ 0 →
        (∀ r ∈ squarePts, u.1 * (r.1 - p.1) + u.2 * (r.2 - p.2) ≤ 0) →
        (∀ r ∈ squarePts, u.1 * (r.1 - q.1) + u.2 * (r.2 - q.2) ≤ 0) →
        RidgeOpen squarePts (squareDiagram ℝ) p q 0 := fun p q u hp hq hu h1 h2 =>
      ⟨le_refl _, (1, 1), u, rfl, hu, fun t ht => ⟨hray p u hp h1 t ht, hray q u hq h2 t ht⟩⟩
    simp only [squareDiagram, List.zip_cons_cons, List.zip_nil_right, List.mem_cons, Prod.mk.injEq,
      List.not_mem_nil, or_false] at h
    rcases h with ⟨⟨rfl, rfl⟩, rfl, rfl⟩ | ⟨⟨rfl, rfl⟩, rfl, rfl⟩ | ⟨⟨rfl, rfl⟩, rfl, rfl⟩ |
      ⟨⟨rfl, rfl⟩, rfl, rfl⟩
    · refine ⟨(0, 0), (2, 0), rfl, rfl, by simp, fun _ => ?_, by simp⟩
      refine hopen _ _ (0, -1) (by simp [squarePts]) (by simp [squarePts]) (by simp) ?_ ?_ <;>
        simp [squarePts]
    · refine ⟨(0, 2), (0, 0), rfl, rfl, by simp, fun _ => ?_, by simp⟩
      refine hopen _ _ (-1, 0) (by simp [squarePts]) (by simp [squarePts]) (by simp) ?_ ?_ <;>
        simp [squarePts]
    · refine ⟨(2, 0), (2, 2), rfl, rfl, by simp, fun _ => ?_, by simp⟩
      refine hopen _ _ (1, 0) (by simp [squarePts]) (by simp [squarePts]) (by simp) ?_ ?_ <;>
        simp [squarePts]
    · refine ⟨(0, 2), (2, 2), rfl, rfl, by simp, by simp, fun _ => ?_⟩
      refine hopen _ _ (0, 1) (by simp [squarePts]) (by simp [squarePts]) (by simp) ?_ ?_ <;>
        simp [squarePts]

open Classical in
/-- A sorting permutation of real numbers. -/
noncomputable def argsortR (xs : List ℝ) : List Nat :=
  (List.range xs.length).insertionSort fun i j => xs.getD i 0 ≤ xs.getD j 0

theorem isArgsort_argsortR : IsArgsort argsortR := by
  classical
  intro xs
  refine ⟨List.perm_insertionSort _ _, ?_⟩
  unfold argsortR
  rw [List.pairwise_map]
  exact List.pairwise_insertionSort (fun i j => xs.getD i 0 ≤ xs.getD j 0) _

/-- Probabilities of the corners in the domain `[-1, 5] × [-1, 3]`. -/
noncomputable def squareSet : SampleSet ℝ :=
  { dim := 2, domain := some [(-1, 5), (-1, 3)],
    glob := { values := some (squarePts.map row), probabilities := some [1/2, 1/4, 1/4, 0],
              volumes := some [1/4, 1/4, 1/4, 1/4] } }

/-- Hypotheses of `C96_plot_partial`. -/
theorem squareSet_ok : InPlane (fun _ => .ok (squareDiagram ℝ)) squarePts (squareDiagram ℝ)
    [1/2, 1/4, 1/4, 0] [1/4, 1/4, 1/4, 1/4] ((-1, 5), (-1, 3)) squareSet := by
  refine ⟨rfl, rfl, rfl, rfl, rfl, rfl, rfl, ?_, ⟨1/2, by simp, by norm_num⟩, ?_, rfl, squareDiagram_ok⟩
  · intro p hp
    simp only [List.mem_cons, List.not_mem_nil, or_false] at hp
    rcases hp with rfl | rfl | rfl | rfl <;> norm_num
  · intro p hp
    simp only [List.mem_cons, List.not_mem_nil, or_false] at hp
    rcases hp with rfl | rfl | rfl | rfl <;> norm_num

/-- Hypotheses of `C96_negation_uncovered`: the point `(4, 0)` of the domain. -/
example : pointRange squarePts = .ok 2 ∧ ∀ y ∈ (squareDiagram ℝ).vertices, y.1 + 2 < ((4 : ℝ), (0 : ℝ)).1 := by
  refine ⟨?_, ?_⟩
  · simp only [pointRange, squarePts, List.map_cons, List.map_nil, List.cons_append, List.nil_append,
      npMax, npMin, List.foldl_cons, List.foldl_nil, ok_bind]
    norm_num
    rfl
  · intro y hy
    simp only [squareDiagram, List.mem_singleton] at hy
    subst hy
    norm_num

/-- The polygons: even the corners of the square are on their boundary, and the corners of the domain are
not covered. -/
example : (finitePolygons (fun x : ℚ => if x = 4 then 2 else x) (fun _ x => x) argsort (squareDiagram ℚ)
    none).toOption = some ([[2, 0, 1], [0, 3, 4], [5, 0, 6], [0, 8, 7]],
      [(1, 1), (1, -1), (-1, 1), (1, -1), (3, 1), (-1, 1), (1, 3), (3, 1), (1, 3)]) := by
  decide +kernel

end Ex

end BET
