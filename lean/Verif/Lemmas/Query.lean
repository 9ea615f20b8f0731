import Verif.Lemmas.Region
import Verif.Spec.Cells

set_option linter.unusedSectionVars false
set_option linter.unusedSimpArgs false

set_option autoImplicit false

namespace BET

open Spec

variable {K : Type} [LinearOrder K]

theorem all_zipWith_iff {α β : Type} (f : α → β → Bool) (a : List α) (b : List β) :
    (List.zipWith f a b).all id = true ↔
      ∀ (i : Nat) x y, a[i]? = some x → b[i]? = some y → f x y = true := by
  induction a generalizing b with
  | nil => simp
  | cons x a ih =>
    cases b with
    | nil => simp
    | cons y b =>
      simp only [List.zipWith_cons_cons, List.all_cons, id, Bool.and_eq_true, ih]
      constructor
      · rintro ⟨h1, h2⟩ i u v hu hv
        cases i with
        | zero => simp at hu hv; subst hu; subst hv; exact h1
        | succ i => exact h2 i u v (by simpa using hu) (by simpa using hv)
      · intro h
        exact ⟨h 0 x y rfl rfl, fun i u v hu hv => h (i + 1) u v (by simpa using hu)
          (by simpa using hv)⟩

theorem inRect_iff (l r x : List K) : inRect l r x = true ↔ InBox l r x := by
  unfold inRect InBox
  rw [Bool.and_eq_true, all_zipWith_iff, all_zipWith_iff]
  simp

namespace SampleSet

/-- The cell function that `query` computes for a ready set. -/
def cell (G : Geometry K) (s : SampleSet K) (x : List K) : Nat :=
  match s.kind with
  | .voronoi => G.nn s.pNorm (s.glob.values.getD []) x
  | .ball => firstRegion (s.glob.values.getD []).length fun i =>
      match (s.glob.values.getD [])[i]?, (s.glob.radii.getD [])[i]? with
      | some c, some r => decide (G.dist s.pNorm x c < r)
      | _, _ => false
  | .rectangle => firstRegion (s.glob.values.getD []).length fun i =>
      match (s.glob.right.getD [])[i]?, (s.glob.left.getD [])[i]? with
      | some r, some l => inRect l r x
      | _, _ => false

theorem ready_values {s : SampleSet K} {n : Nat} (h : Ready s n) :
    ∃ v, s.glob.values = some v ∧ v.length = n := by
  obtain ⟨v, hv⟩ := Option.isSome_iff_exists.mp h.values
  exact ⟨v, hv, h.consistent.1.values v hv⟩

/-- A `query` of a ready set succeeds, gives every point its cell, and leaves the set
ready with the same cells. -/
theorem query_ready {G : Geometry K} {size : Nat} {s : SampleSet K} {n : Nat} (h : Ready s n)
    (xs : Chunks (List K)) :
    ∃ s', s.query G size xs = .ok (s', xs.map fun c => c.map (s.cell G)) ∧ Ready s' n ∧
      s'.cell G = s.cell G ∧ s'.glob.values = s.glob.values := by
  have hcn := checkNum_consistent (size := size) h.consistent
  obtain ⟨v, hv, hvn⟩ := ready_values h
  unfold query
  cases hk : s.kind with
  | voronoi =>
    simp only
    have hcell : s.cell G = G.nn s.pNorm v := by
      funext x; simp [cell, hk, hv]
    unfold ensureTree
    cases ht : s.kdtree with
    | none =>
      simp only [setKdtree, hv, orErr_some, ok_bind, pure_bind_ok, hcell]
      refine ⟨_, rfl, ?_, ?_, rfl⟩
      · refine ⟨⟨?_, ?_, ?_⟩, h.pos, ?_, Or.inr ?_, ?_, ?_⟩
        · have := h.consistent.1
          constructor
          · intro w hw; cases hw; exact hvn
          · exact this.volumes
          · exact this.probabilities
          · exact this.densities
          · exact this.jacobians
          · exact this.errorEstimates
          · exact this.right
          · exact this.left
          · exact this.width
          · intro w hw; cases hw; exact hvn
          · exact this.radii
          · exact this.normalizedRadii
          · exact this.region
          · exact this.errorId
        · intro hn; have := hn.values; simp [hv] at this
        · exact hv ▸ h.consistent.2.2
        · simp [hv]
        · simp [hv]
        · intro hk'; simp [hk] at hk'
        · intro hk'; simp [hk] at hk'
      · funext x; simp [cell, hk, hv]
    | some w =>
      have hw : w = v := by
        rcases h.tree with h' | h'
        · simp [ht] at h'
        · rw [ht, hv] at h'; exact Option.some.inj h'
      subst hw
      simp only [hcn, ok_bind, pure_bind_ok, ht, orErr_some, hcell]
      exact ⟨s, rfl, h, by rw [hcell], rfl⟩
  | rectangle =>
    simp only
    rw [hcn]
    simp only [ok_bind]
    have hrow : ∀ x, (do
        let row ← s.regionQuery G size 1 x
        pure (row.getD 0 (0, false)).1 : Except Err Nat) = .ok (s.cell G x) := by
      intro x
      obtain ⟨hr, hl⟩ := h.rect hk
      obtain ⟨r, hr⟩ := Option.isSome_iff_exists.mp hr
      obtain ⟨l, hl⟩ := Option.isSome_iff_exists.mp hl
      unfold regionQuery
      rw [hcn]
      simp only [ok_bind, hk]
      by_cases hn : n ≤ 1
      · have h1 : n = 1 := by have := h.pos; omega
        simp only [hn, if_true, pure_bind_ok]
        rw [regionQueryRow_one]
        simp [cell, hk, hv, hvn, h1, firstRegion, pure, Except.pure]
      · simp only [hn, if_false, hr, hl, orErr_some, ok_bind, pure_bind_ok]
        rw [regionQueryRow_one]
        simp [cell, hk, hv, hvn, hr, hl, pure, Except.pure]
        rfl
    refine ⟨s, ?_, h, rfl, rfl⟩
    have : (xs.mapM fun c => c.mapM fun x => do
        let row ← s.regionQuery G size 1 x
        pure (row.getD 0 (0, false)).1 : Except Err _) = .ok (xs.map fun c => c.map (s.cell G)) :=
      mapM_ok _ _ _ fun c _ => mapM_ok _ _ _ fun x _ => hrow x
    rw [this]
    rfl
  | ball =>
    simp only
    rw [hcn]
    simp only [ok_bind]
    have hrow : ∀ x, (do
        let row ← s.regionQuery G size 1 x
        pure (row.getD 0 (0, false)).1 : Except Err Nat) = .ok (s.cell G x) := by
      intro x
      obtain ⟨r, hr⟩ := Option.isSome_iff_exists.mp (h.ball hk)
      unfold regionQuery
      rw [hcn]
      simp only [ok_bind, hk]
      by_cases hn : n ≤ 1
      · have h1 : n = 1 := by have := h.pos; omega
        simp only [hn, if_true, pure_bind_ok]
        rw [regionQueryRow_one]
        simp [cell, hk, hv, hvn, h1, firstRegion, pure, Except.pure]
      · simp only [hn, if_false, hr, hv, orErr_some, ok_bind, pure_bind_ok]
        rw [regionQueryRow_one]
        simp [cell, hk, hv, hvn, hr, pure, Except.pure]
        rfl
    refine ⟨s, ?_, h, rfl, rfl⟩
    have : (xs.mapM fun c => c.mapM fun x => do
        let row ← s.regionQuery G size 1 x
        pure (row.getD 0 (0, false)).1 : Except Err _) = .ok (xs.map fun c => c.map (s.cell G)) :=
      mapM_ok _ _ _ fun c _ => mapM_ok _ _ _ fun x _ => hrow x
    rw [this]
    rfl

theorem isFirst_firstRegion (num : Nat) (inRec : Nat → Bool) (P : Nat → Prop)
    (h : ∀ i, inRec i = true ↔ P i) : IsFirst (num - 1) P (firstRegion num inRec) := by
  have hn : ∀ i, inRec i = false → ¬ P i := by
    intro i hi hp; rw [← h] at hp; simp [hi] at hp
  rcases firstRegion_spec num inRec with ⟨h1, h2, h3⟩ | ⟨h1, h2⟩
  · exact Or.inl ⟨h1, (h _).mp h2, fun j hj => hn _ (h3 j hj)⟩
  · exact Or.inr ⟨h1, fun j hj => hn _ (h2 j hj)⟩

/-- The computed cell is the cell of the point. -/
theorem cell_isCell {G : Geometry K} (hG : Sound G) {s : SampleSet K} {n : Nat}
    (h : Ready s n) (x : List K) : IsCell G s x (s.cell G x) := by
  unfold IsCell
  cases hk : s.kind with
  | voronoi =>
    intro v hv
    have hne : v ≠ [] := by
      rintro rfl
      have h1 := h.consistent.1.values _ hv
      have h2 := h.pos
      simp at h1; omega
    simpa [cell, hk, hv] using hG s.pNorm v x hne
  | rectangle =>
    intro v r l hv hr hl
    simp only [cell, hk, hv, hr, hl, Option.getD_some]
    refine isFirst_firstRegion _ _ _ fun i => ?_
    cases hri : r[i]? with
    | none => simp
    | some b =>
      cases hli : l[i]? with
      | none => simp
      | some a => simp [inRect_iff]
  | ball =>
    intro v r hv hr
    simp only [cell, hk, hv, hr, Option.getD_some]
    refine isFirst_firstRegion _ _ _ fun i => ?_
    cases hvi : v[i]? with
    | none => simp
    | some c =>
      cases hri : r[i]? with
      | none => simp
      | some ρ => simp

theorem cell_lt {G : Geometry K} (hG : Sound G) {s : SampleSet K} {n : Nat}
    (h : Ready s n) (x : List K) : s.cell G x < n := by
  obtain ⟨v, hv, hvn⟩ := ready_values h
  have hc := cell_isCell hG h x
  have hpos := h.pos
  unfold IsCell at hc
  cases hk : s.kind with
  | voronoi =>
    rw [hk] at hc
    obtain ⟨c, hc, _⟩ := hc v hv
    rw [← hvn]
    exact (List.getElem?_eq_some_iff.mp hc).1
  | rectangle =>
    rw [hk] at hc
    obtain ⟨hr, hl⟩ := h.rect hk
    obtain ⟨r, hr⟩ := Option.isSome_iff_exists.mp hr
    obtain ⟨l, hl⟩ := Option.isSome_iff_exists.mp hl
    rcases hc v r l hv hr hl with ⟨h1, _⟩ | ⟨h1, _⟩ <;> omega
  | ball =>
    rw [hk] at hc
    obtain ⟨r, hr⟩ := Option.isSome_iff_exists.mp (h.ball hk)
    rcases hc v r hv hr with ⟨h1, _⟩ | ⟨h1, _⟩ <;> omega

end SampleSet

end BET
