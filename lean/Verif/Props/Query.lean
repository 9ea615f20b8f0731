import Verif.Props.Arrays
import Verif.Model.History

/-!
# C17, C22, C25: queries
-/

set_option linter.unusedSectionVars false
set_option linter.unusedSimpArgs false
set_option autoImplicit false

namespace BET

open Spec

/-! ### C17 -/

section c17

variable {K : Type} [Field K] [LinearOrder K]

/-- Every entry of `ptr` is the index of a point of `v` nearest to the queried point. -/
def Spec.AllNearest (dist : List K → List K → K) (v : List (List K)) (xs : Chunks (List K))
    (ptr : Chunks Nat) : Prop :=
  List.Forall₂ (List.Forall₂ (IsNearest dist v)) xs ptr

/-- The calls that do not change the values. -/
def SetOp.keepsValues : SetOp K → Bool
  | .setValues _ | .append _ | .localToGlobal => false
  | _ => true

/-- The calls that do not build the search tree. -/
def SetOp.buildsNoTree : SetOp K → Bool
  | .setKdtree | .query _ => false
  | _ => true

theorem run_append {G : Geometry K} {size : Nat} {s t : SampleSet K} {a b : List (SetOp K)} :
    s.run G size (a ++ b) = .ok t ↔ ∃ u, s.run G size a = .ok u ∧ u.run G size b = .ok t := by
  simp only [SampleSet.run, List.foldlM_append, bind_eq_ok]

theorem run_induct {G : Geometry K} {size : Nat} (P : SampleSet K → Prop)
    (ops : List (SetOp K)) (hstep : ∀ op ∈ ops, ∀ s t, P s → s.step G size op = .ok t → P t)
    {s t : SampleSet K} (hs : P s) (h : s.run G size ops = .ok t) : P t := by
  induction ops generalizing s with
  | nil =>
    simp only [SampleSet.run, List.foldlM_nil, pure_eq_ok] at h
    exact h ▸ hs
  | cons op ops ih =>
    simp only [SampleSet.run, List.foldlM_cons, bind_eq_ok] at h
    obtain ⟨u, hu, h⟩ := h
    exact ih (fun o ho => hstep o (by simp [ho])) (hstep op (by simp) s u hs hu) h

theorem globalToLocal_frame {size : Nat} {s t : SampleSet K} (h : s.globalToLocal size = .ok t) :
    t.glob = s.glob ∧ t.kdtree = s.kdtree ∧ t.kind = s.kind ∧ t.pNorm = s.pNorm := by
  unfold SampleSet.globalToLocal at h
  rw [bind_eq_ok] at h
  obtain ⟨_, _, h⟩ := h
  rw [pure_eq_ok] at h
  subst h
  exact ⟨rfl, rfl, rfl, rfl⟩

theorem ensureTree_cases {size : Nat} {s t : SampleSet K} (h : s.ensureTree size = .ok t) :
    (s.kdtree = none ∧ ∃ v, s.glob.values = some v ∧
      t = { s with kdtree := some v, glob := { s.glob with kdtreeValues := some v } }) ∨
    (s.kdtree.isSome ∧ t = s ∧ ∃ n, s.checkNum size = .ok n) := by
  unfold SampleSet.ensureTree at h
  split at h
  · rename_i hn
    simp only [SampleSet.setKdtree, bind_eq_ok, orErr_eq_ok, pure_eq_ok] at h
    obtain ⟨v, hv, rfl⟩ := h
    exact Or.inl ⟨hn, v, hv, rfl⟩
  · rename_i hn
    simp only [bind_eq_ok, pure_eq_ok] at h
    obtain ⟨n, hn', rfl⟩ := h
    exact Or.inr ⟨by simp [hn], rfl, n, hn'⟩

theorem query_voronoi_inv {G : Geometry K} {size : Nat} {s t : SampleSet K}
    {xs : Chunks (List K)} {ptr : Chunks Nat} (hk : s.kind = .voronoi)
    (h : s.query G size xs = .ok (t, ptr)) :
    s.ensureTree size = .ok t ∧ ∃ w, t.kdtree = some w ∧
      ptr = xs.map fun c => c.map (G.nn t.pNorm w) := by
  unfold SampleSet.query at h
  rw [hk] at h
  simp only [bind_eq_ok, pure_eq_ok, orErr_eq_ok, Prod.mk.injEq] at h
  obtain ⟨u, hu, w, hw, rfl, rfl⟩ := h
  exact ⟨hu, w, hw, rfl⟩

theorem allNearest_map {G : Geometry K} (hG : Sound G) (p : Nat) {w : List (List K)}
    (hw : w ≠ []) (xs : Chunks (List K)) :
    AllNearest (G.dist p) w xs (xs.map fun c => c.map (G.nn p w)) := by
  unfold AllNearest
  rw [List.forall₂_map_right_iff]
  refine List.forall₂_same.mpr fun c _ => ?_
  rw [List.forall₂_map_right_iff]
  exact List.forall₂_same.mpr fun x _ => hG p w x hw

/-- Invariant: the tree, once there is one, is the tree of the values. -/
def TreeOk (s : SampleSet K) : Prop :=
  s.kind = .voronoi ∧ (s.kdtree = none ∨ s.kdtree = s.glob.values)

theorem query_of_treeOk {G : Geometry K} (hG : Sound G) {size : Nat} {s t : SampleSet K}
    {xs : Chunks (List K)} {ptr : Chunks Nat} (hs : TreeOk s)
    (h : s.query G size xs = .ok (t, ptr)) {v : List (List K)} (hv : s.glob.values = some v)
    (hne : v ≠ []) : AllNearest (G.dist s.pNorm) v xs ptr ∧ TreeOk t := by
  obtain ⟨ht, w, hw, rfl⟩ := query_voronoi_inv hs.1 h
  rcases ensureTree_cases ht with ⟨hn, v', hv', rfl⟩ | ⟨hsome, rfl, _⟩
  · rw [hv] at hv'
    cases hv'
    cases hw
    exact ⟨allNearest_map hG _ hne _, hs.1, Or.inr hv.symm⟩
  · rcases hs.2 with h' | h'
    · simp [h'] at hsome
    · rw [hw, hv] at h'
      cases h'
      exact ⟨allNearest_map hG _ hne _, hs⟩

theorem estimateVolumeMc_frame {size : Nat} {s t : SampleSet K}
    (h : s.estimateVolumeMc size true = .ok t) :
    t.glob.values = s.glob.values ∧ t.kdtree = s.kdtree ∧ t.kind = s.kind ∧
      t.glob.kdtreeValues = s.glob.kdtreeValues := by
  simp only [SampleSet.estimateVolumeMc, bind_eq_ok, if_true] at h
  obtain ⟨_, _, _, _, h⟩ := h
  obtain ⟨h1, h2, h3, _⟩ := globalToLocal_frame h
  rw [h1]
  exact ⟨rfl, h2, h3, rfl⟩

theorem step_treeOk {G : Geometry K} {size : Nat} {s t : SampleSet K} {op : SetOp K}
    (hop : op.keepsValues = true) (hs : TreeOk s) (h : s.step G size op = .ok t) : TreeOk t := by
  cases op with
  | setValues | append | localToGlobal => simp [SetOp.keepsValues] at hop
  | setVolumes v => cases h; exact hs
  | setProbabilities v => cases h; exact hs
  | setKdtree =>
    simp only [SampleSet.step, SampleSet.setKdtree, bind_eq_ok, orErr_eq_ok, pure_eq_ok] at h
    obtain ⟨v, hv, rfl⟩ := h
    exact ⟨hs.1, Or.inr hv.symm⟩
  | globalToLocal =>
    obtain ⟨h1, h2, h3, _⟩ := globalToLocal_frame h
    rw [TreeOk, h1, h2, h3]
    exact hs
  | estimateVolumeMc =>
    obtain ⟨h1, h2, h3, _⟩ := estimateVolumeMc_frame h
    rw [TreeOk, h1, h2, h3]
    exact hs
  | query xs =>
    simp only [SampleSet.step, bind_eq_ok, pure_eq_ok] at h
    obtain ⟨⟨t', ptr⟩, h, rfl⟩ := h
    obtain ⟨ht, w, hw, rfl⟩ := query_voronoi_inv hs.1 h
    rcases ensureTree_cases ht with ⟨hn, v', hv', rfl⟩ | ⟨hsome, rfl, _⟩
    · exact ⟨hs.1, Or.inr hv'.symm⟩
    · exact hs

theorem step_kind {G : Geometry K} {size : Nat} {s t : SampleSet K} {op : SetOp K}
    (h : s.step G size op = .ok t) : t.kind = s.kind := by
  cases op with
  | setValues v =>
    simp only [SampleSet.step, SampleSet.setValues] at h
    split at h <;> cases h
    rfl
  | append v =>
    obtain ⟨_, _, _, rfl⟩ := appendValues_eq_ok.1 h
    rfl
  | localToGlobal => cases h; rfl
  | setVolumes v => cases h; rfl
  | setProbabilities v => cases h; rfl
  | setKdtree =>
    simp only [SampleSet.step, SampleSet.setKdtree, bind_eq_ok, orErr_eq_ok, pure_eq_ok] at h
    obtain ⟨v, hv, rfl⟩ := h
    rfl
  | globalToLocal => exact (globalToLocal_frame h).2.2.1
  | estimateVolumeMc => exact (estimateVolumeMc_frame h).2.2.1
  | query xs =>
    simp only [SampleSet.step, bind_eq_ok, pure_eq_ok] at h
    obtain ⟨⟨t', ptr⟩, h, rfl⟩ := h
    exact (SampleSet.query_frame h).2.2.2.2.1

/-- **C17 (part).** After any history of calls, then `set_kdtree`, then any calls that do
not change the values, `query` returns nearest samples among the current values.
Missing: histories in which the values change after the tree was built and
`set_kdtree` is not called; there the property is false (`C17_negation_stale_tree`). -/
theorem C17_rebuilt_partial {G : Geometry K} (hG : Sound G) {size : Nat} {s t t' : SampleSet K}
    (hk : s.kind = .voronoi) (pre post : List (SetOp K))
    (hpost : ∀ op ∈ post, op.keepsValues = true)
    (hrun : s.run G size (pre ++ .setKdtree :: post) = .ok t)
    {xs : Chunks (List K)} {ptr : Chunks Nat} (hq : t.query G size xs = .ok (t', ptr))
    {v : List (List K)} (hv : t.glob.values = some v) (hne : v ≠ []) :
    AllNearest (G.dist t.pNorm) v xs ptr := by
  obtain ⟨u, hu, hrun⟩ := run_append.mp hrun
  have huk : u.kind = .voronoi := run_induct (fun s => s.kind = .voronoi) pre
    (fun op _ a b ha hb => (step_kind hb).trans ha) hk hu
  simp only [SampleSet.run, List.foldlM_cons, bind_eq_ok] at hrun
  obtain ⟨u', hu', hrun⟩ := hrun
  have hu'ok : TreeOk u' := by
    simp only [SampleSet.step, SampleSet.setKdtree, bind_eq_ok, orErr_eq_ok, pure_eq_ok] at hu'
    obtain ⟨v, hv, rfl⟩ := hu'
    exact ⟨huk, Or.inr hv.symm⟩
  have ht := run_induct TreeOk post (fun op hop a b ha hb => step_treeOk (hpost op hop) ha hb)
    hu'ok hrun
  exact (query_of_treeOk hG ht hq hv hne).1

/-- **C17 (part).** The same for histories in which nothing built a tree yet, whatever they
do to the values. -/
theorem C17_first_query_partial {G : Geometry K} (hG : Sound G) {size : Nat}
    {s t t' : SampleSet K} (hk : s.kind = .voronoi) (hs : s.kdtree = none)
    (ops : List (SetOp K)) (hops : ∀ op ∈ ops, op.buildsNoTree = true)
    (hrun : s.run G size ops = .ok t) {xs : Chunks (List K)} {ptr : Chunks Nat}
    (hq : t.query G size xs = .ok (t', ptr)) {v : List (List K)} (hv : t.glob.values = some v)
    (hne : v ≠ []) : AllNearest (G.dist t.pNorm) v xs ptr := by
  have ht : t.kind = .voronoi ∧ t.kdtree = none := by
    refine run_induct (fun s => s.kind = .voronoi ∧ s.kdtree = none) ops ?_ ⟨hk, hs⟩ hrun
    intro op hop a b ha hb
    refine ⟨(step_kind hb).trans ha.1, ?_⟩
    have := hops op hop
    cases op with
    | setKdtree | query => simp [SetOp.buildsNoTree] at this
    | setValues v =>
      simp only [SampleSet.step, SampleSet.setValues] at hb
      split at hb <;> cases hb
      exact ha.2
    | append v =>
      obtain ⟨_, _, _, rfl⟩ := appendValues_eq_ok.1 hb
      exact ha.2
    | localToGlobal => cases hb; exact ha.2
    | setVolumes v => cases hb; exact ha.2
    | setProbabilities v => cases hb; exact ha.2
    | globalToLocal => rw [(globalToLocal_frame hb).2.1]; exact ha.2
    | estimateVolumeMc => rw [(estimateVolumeMc_frame hb).2.1]; exact ha.2
  exact (query_of_treeOk hG ⟨ht.1, Or.inl ht.2⟩ hq hv hne).1

/-- **C17 (part).** Without `local_to_global`, a stale tree has at least the right number
of samples: in particular a `query` after values were appended to a queried set
raises instead of answering for the old values. -/
theorem C17_same_number_partial {G : Geometry K} (hG : Sound G) {size : Nat}
    {s t t' : SampleSet K} (hk : s.kind = .voronoi) (hs : s.kdtree = none)
    (hs' : s.glob.kdtreeValues = none)
    (ops : List (SetOp K)) (hops : ∀ op ∈ ops, op ≠ .localToGlobal)
    (hrun : s.run G size ops = .ok t) {xs : Chunks (List K)} {ptr : Chunks Nat}
    (hq : t.query G size xs = .ok (t', ptr)) {v : List (List K)} (hv : t.glob.values = some v)
    (hne : v ≠ []) :
    ∃ w, w.length = v.length ∧ AllNearest (G.dist t.pNorm) w xs ptr := by
  have ht : t.kind = .voronoi ∧ t.kdtree = t.glob.kdtreeValues := by
    refine run_induct (fun s => s.kind = .voronoi ∧ s.kdtree = s.glob.kdtreeValues) ops ?_
      ⟨hk, hs.trans hs'.symm⟩ hrun
    intro op hop a b ha hb
    refine ⟨(step_kind hb).trans ha.1, ?_⟩
    have := hops op hop
    cases op with
    | localToGlobal => simp at this
    | setKdtree =>
      simp only [SampleSet.step, SampleSet.setKdtree, bind_eq_ok, orErr_eq_ok, pure_eq_ok] at hb
      obtain ⟨v, hv, rfl⟩ := hb
      rfl
    | query xs =>
      simp only [SampleSet.step, bind_eq_ok, pure_eq_ok] at hb
      obtain ⟨⟨t', ptr⟩, hb, rfl⟩ := hb
      obtain ⟨ht, w, hw, rfl⟩ := query_voronoi_inv ha.1 hb
      rcases ensureTree_cases ht with ⟨hn, v', hv', rfl⟩ | ⟨hsome, rfl, _⟩
      · rfl
      · exact ha.2
    | setValues v =>
      simp only [SampleSet.step, SampleSet.setValues] at hb
      split at hb <;> cases hb
      exact ha.2
    | append v =>
      obtain ⟨_, _, _, rfl⟩ := appendValues_eq_ok.1 hb
      exact ha.2
    | setVolumes v => cases hb; exact ha.2
    | setProbabilities v => cases hb; exact ha.2
    | globalToLocal =>
      obtain ⟨h1, h2, _⟩ := globalToLocal_frame hb
      rw [h1, h2]; exact ha.2
    | estimateVolumeMc =>
      obtain ⟨_, h2, _, h4⟩ := estimateVolumeMc_frame hb
      rw [h2, h4]; exact ha.2
  obtain ⟨he, w, hw, rfl⟩ := query_voronoi_inv ht.1 hq
  rcases ensureTree_cases he with ⟨hn, v', hv', rfl⟩ | ⟨hsome, rfl, n, hn⟩
  · rw [hv] at hv'
    cases hv'
    cases hw
    exact ⟨v, rfl, allNearest_map hG _ hne _⟩
  · have hl := SampleSet.checkNum_allLength hn
    have h1 := hl.values v hv
    have h2 := hl.kdtreeValues w (by rw [← ht.2, hw])
    refine ⟨w, by omega, allNearest_map hG _ ?_ _⟩
    rintro rfl
    have : 0 < v.length := List.length_pos_iff.mpr hne
    simp at h2; omega

end c17

/-! ### C22, C25 -/

section regions

variable {K : Type} [LinearOrder K]

open Classical in
/-- The `k` smallest indices of regions `0, …, m-1` with the property, filled up with
`m`. -/
noncomputable def Spec.firstK (m : Nat) (inside : Nat → Prop) (k : Nat) : List Nat :=
  ((List.range m).filter (fun i => decide (inside i)) ++ List.replicate k m).take k

/-- `x` lies in rectangle `j` of the set: `left < x ≤ right` in every coordinate. -/
def Spec.InRectangle (s : SampleSet K) (x : List K) (j : Nat) : Prop :=
  ∃ l r a b, s.glob.left = some l ∧ s.glob.right = some r ∧ l[j]? = some a ∧ r[j]? = some b ∧
    InBox a b x

/-- `x` lies in the open ball `j` of the set. -/
def Spec.InBall (G : Geometry K) (s : SampleSet K) (x : List K) (j : Nat) : Prop :=
  ∃ v rad c ρ, s.glob.values = some v ∧ s.glob.radii = some rad ∧ v[j]? = some c ∧
    rad[j]? = some ρ ∧ G.dist s.pNorm x c < ρ

theorem regionRow_le_two (num k : Nat) (hk : k ≤ 2) (inRec : Nat → Bool) (P : Nat → Prop)
    (h : ∀ i < num - 1, inRec i = true ↔ P i) :
    (regionQueryRow num k inRec).map Prod.fst = firstK (num - 1) P k ∧
      ∀ e ∈ regionQueryRow num k inRec, e.2 = decide (e.1 < num - 1) := by
  have hf : (List.range (num - 1)).filter inRec =
      (List.range (num - 1)).filter (fun i => @decide (P i) (Classical.propDecidable _)) := by
    refine List.filter_congr fun i hi => ?_
    have := h i (List.mem_range.mp hi)
    by_cases hp : P i
    · simp [hp, this.mpr hp]
    · have : inRec i = false := by
        cases hr : inRec i
        · rfl
        · exact absurd (this.mp hr) hp
      simp [hp, this]
  have hlt : ∀ a ∈ (List.range (num - 1)).filter inRec, a < num - 1 := by
    intro a ha
    exact List.mem_range.mp (List.mem_filter.mp ha).1
  rw [regionQueryRow_eq, firstK, ← hf]
  generalize (List.range (num - 1)).filter inRec = hs at hlt
  have hk' : k = 0 ∨ k = 1 ∨ k = 2 := by omega
  rcases hs with _ | ⟨a, _ | ⟨b, hs⟩⟩
  · rcases hk' with rfl | rfl | rfl <;> simp [altCol, List.range_succ, List.replicate]
  · have ha := hlt a (by simp)
    rcases hk' with rfl | rfl | rfl <;> simp [altCol, List.range_succ, List.replicate, ha]
  · have ha := hlt a (by simp)
    have hb := hlt b (by simp)
    rcases hk' with rfl | rfl | rfl <;> simp [altCol, List.range_succ, List.replicate, ha, hb]

theorem regionQuery_rect {G : Geometry K} {size n k : Nat} {s : SampleSet K} (h : Ready s n)
    (hk : s.kind = .rectangle) (x : List K) :
    ∃ inRec : Nat → Bool, s.regionQuery G size k x = .ok (regionQueryRow n k inRec) ∧
      ∀ i < n - 1, inRec i = true ↔ InRectangle s x i := by
  obtain ⟨hr, hl⟩ := h.rect hk
  obtain ⟨r, hr⟩ := Option.isSome_iff_exists.mp hr
  obtain ⟨l, hl⟩ := Option.isSome_iff_exists.mp hl
  unfold SampleSet.regionQuery
  rw [SampleSet.checkNum_consistent h.consistent]
  simp only [ok_bind, hk]
  by_cases hn : n ≤ 1
  · simp only [hn, if_true]
    exact ⟨_, rfl, fun i hi => by omega⟩
  · simp only [hn, if_false, hr, hl, orErr_some, ok_bind]
    refine ⟨_, rfl, fun i _ => ?_⟩
    unfold InRectangle
    simp only [hl, hr, Option.some.injEq, exists_and_left, exists_eq_left']
    cases hri : r[i]? with
    | none => simp
    | some b =>
      cases hli : l[i]? with
      | none => simp
      | some a => simp [inRect_iff]

theorem regionQuery_ball {G : Geometry K} {size n k : Nat} {s : SampleSet K} (h : Ready s n)
    (hk : s.kind = .ball) (x : List K) :
    ∃ inRec : Nat → Bool, s.regionQuery G size k x = .ok (regionQueryRow n k inRec) ∧
      ∀ i < n - 1, inRec i = true ↔ InBall G s x i := by
  obtain ⟨r, hr⟩ := Option.isSome_iff_exists.mp (h.ball hk)
  obtain ⟨v, hv, hvn⟩ := SampleSet.ready_values h
  unfold SampleSet.regionQuery
  rw [SampleSet.checkNum_consistent h.consistent]
  simp only [ok_bind, hk]
  by_cases hn : n ≤ 1
  · simp only [hn, if_true]
    exact ⟨_, rfl, fun i hi => by omega⟩
  · simp only [hn, if_false, hr, hv, orErr_some, ok_bind]
    refine ⟨_, rfl, fun i _ => ?_⟩
    unfold InBall
    simp only [hv, hr, Option.some.injEq, exists_and_left, exists_eq_left']
    cases hvi : v[i]? with
    | none => simp
    | some c =>
      cases hri : r[i]? with
      | none => simp
      | some ρ => simp

/-- **C22.** `query` with `k = 1` on a rectangle set with `n - 1` rectangles returns for
every point the first rectangle that contains it, and otherwise the remainder. -/
theorem C22_rectangle_first {G : Geometry K} {size n : Nat} {s : SampleSet K} (h : Ready s n)
    (hk : s.kind = .rectangle) (xs : Chunks (List K)) :
    ∃ ptr, s.query G size xs = .ok (s, ptr) ∧
      List.Forall₂ (List.Forall₂ fun x i => IsFirst (n - 1) (InRectangle s x) i) xs ptr := by
  obtain ⟨r, hr⟩ := Option.isSome_iff_exists.mp (h.rect hk).1
  obtain ⟨l, hl⟩ := Option.isSome_iff_exists.mp (h.rect hk).2
  obtain ⟨v, hv, hvn⟩ := SampleSet.ready_values h
  have hs : ∃ ptr, s.query G size xs = .ok (s, ptr) := by
    obtain ⟨s', hq, _⟩ := SampleSet.query_ready (G := G) (size := size) h xs
    have hq' := hq
    unfold SampleSet.query at hq'
    rw [hk] at hq'
    simp only [bind_eq_ok, pure_eq_ok, Prod.mk.injEq] at hq'
    obtain ⟨_, _, _, _, rfl, _⟩ := hq'
    exact ⟨_, hq⟩
  obtain ⟨ptr, hq⟩ := hs
  obtain ⟨s', hq', _⟩ := SampleSet.query_ready (G := G) (size := size) h xs
  rw [hq] at hq'
  simp only [Except.ok.injEq, Prod.mk.injEq] at hq'
  refine ⟨ptr, hq, ?_⟩
  rw [hq'.2, List.forall₂_map_right_iff]
  refine List.forall₂_same.mpr fun c _ => ?_
  rw [List.forall₂_map_right_iff]
  refine List.forall₂_same.mpr fun x _ => ?_
  simp only [SampleSet.cell, hk, hv, hr, hl, Option.getD_some, hvn]
  refine SampleSet.isFirst_firstRegion _ _ _ fun i => ?_
  unfold InRectangle
  simp only [hl, hr, Option.some.injEq, exists_and_left, exists_eq_left']
  cases hri : r[i]? with
  | none => simp
  | some b =>
    cases hli : l[i]? with
    | none => simp
    | some a => simp [inRect_iff]

/-- **C22 (part).** `query` with `k ≤ 2` returns the `k` first rectangles that contain the
point, filled up with the remainder; the returned distance is 0 exactly for entries
that are rectangles.  Missing: `k ≥ 3`, where it is false (`C22_negation_three`). -/
theorem C22_rectangle_two_partial {G : Geometry K} {size n k : Nat} {s : SampleSet K}
    (h : Ready s n) (hk : s.kind = .rectangle) (hk2 : k ≤ 2) (x : List K) :
    ∃ row, s.regionQuery G size k x = .ok row ∧
      row.map Prod.fst = firstK (n - 1) (InRectangle s x) k ∧
      ∀ e ∈ row, e.2 = decide (e.1 < n - 1) := by
  obtain ⟨inRec, h1, h2⟩ := regionQuery_rect (G := G) (size := size) (k := k) h hk x
  exact ⟨_, h1, regionRow_le_two n k hk2 inRec _ h2⟩

/-- **C25.** The same for balls. -/
theorem C25_ball_first {G : Geometry K} {size n : Nat} {s : SampleSet K} (h : Ready s n)
    (hk : s.kind = .ball) (xs : Chunks (List K)) :
    ∃ ptr, s.query G size xs = .ok (s, ptr) ∧
      List.Forall₂ (List.Forall₂ fun x i => IsFirst (n - 1) (InBall G s x) i) xs ptr := by
  obtain ⟨r, hr⟩ := Option.isSome_iff_exists.mp (h.ball hk)
  obtain ⟨v, hv, hvn⟩ := SampleSet.ready_values h
  have hs : ∃ ptr, s.query G size xs = .ok (s, ptr) := by
    obtain ⟨s', hq, _⟩ := SampleSet.query_ready (G := G) (size := size) h xs
    have hq' := hq
    unfold SampleSet.query at hq'
    rw [hk] at hq'
    simp only [bind_eq_ok, pure_eq_ok, Prod.mk.injEq] at hq'
    obtain ⟨_, _, _, _, rfl, _⟩ := hq'
    exact ⟨_, hq⟩
  obtain ⟨ptr, hq⟩ := hs
  obtain ⟨s', hq', _⟩ := SampleSet.query_ready (G := G) (size := size) h xs
  rw [hq] at hq'
  simp only [Except.ok.injEq, Prod.mk.injEq] at hq'
  refine ⟨ptr, hq, ?_⟩
  rw [hq'.2, List.forall₂_map_right_iff]
  refine List.forall₂_same.mpr fun c _ => ?_
  rw [List.forall₂_map_right_iff]
  refine List.forall₂_same.mpr fun x _ => ?_
  simp only [SampleSet.cell, hk, hv, hr, Option.getD_some, hvn]
  refine SampleSet.isFirst_firstRegion _ _ _ fun i => ?_
  unfold InBall
  simp only [hv, hr, Option.some.injEq, exists_and_left, exists_eq_left']
  cases hvi : v[i]? with
  | none => simp
  | some c =>
    cases hri : r[i]? with
    | none => simp
    | some ρ => simp

/-- **C25 (part).** `k ≤ 2` for balls. -/
theorem C25_ball_two_partial {G : Geometry K} {size n k : Nat} {s : SampleSet K}
    (h : Ready s n) (hk : s.kind = .ball) (hk2 : k ≤ 2) (x : List K) :
    ∃ row, s.regionQuery G size k x = .ok row ∧
      row.map Prod.fst = firstK (n - 1) (InBall G s x) k ∧
      ∀ e ∈ row, e.2 = decide (e.1 < n - 1) := by
  obtain ⟨inRec, h1, h2⟩ := regionQuery_ball (G := G) (size := size) (k := k) h hk x
  exact ⟨_, h1, regionRow_le_two n k hk2 inRec _ h2⟩

end regions

end BET

namespace BET.Ex

open BET.Spec

/-- **C17, negation.** Replacing the values of a set that was queried before leaves the
old search tree in use: the sample nearest to 1 is the second, at 0, but `query`
answers with the first, at 10. -/
theorem C17_negation_stale_tree :
    ∃ t : SampleSet ℚ, Sound G ∧
      ({ dim := 1 } : SampleSet ℚ).run G 1
        [.setValues [[0], [10]], .query [[[0]]], .setValues [[10], [0]]] = .ok t ∧
      t.glob.values = some [[10], [0]] ∧
      (t.query G 1 [[[1]]]).toOption.map Prod.snd = some [[0]] ∧
      ¬ IsNearest (G.dist t.pNorm) [[10], [0]] [1] 0 := by
  refine ⟨_, sound_G, rfl, rfl, by decide +kernel, ?_⟩
  rintro ⟨c, hc, hmin⟩
  simp only [List.getElem?_cons_zero, Option.some.injEq] at hc
  subst hc
  have h : dist1 [1] [10] ≤ dist1 [1] [0] := hmin [0] (by simp)
  exact absurd h (by decide +kernel)

/-- Three nested rectangles and the remainder (its rows are never read). -/
def nested : SampleSet ℚ := { kind := .rectangle, dim := 1, glob :=
  { values := some [[1], [2], [3], [0]], left := some [[0], [0], [0], [0]],
    right := some [[2], [4], [6], [0]] } }

theorem readyNested : Ready nested 4 :=
  ⟨consistent_of _ _ rfl rfl, by norm_num, rfl, Or.inl rfl, fun _ => ⟨rfl, rfl⟩, nofun⟩

/-- **C22, negation.** With `k = 3`, the point 1 lies in the rectangles 0, 1 and 2, but the
answer is 0, 1, 0. -/
theorem C22_negation_three :
    (nested.regionQuery G 1 3 [1]).toOption.map (List.map Prod.fst) = some [0, 1, 0] ∧
      firstK 3 (InRectangle nested [1]) 3 = [0, 1, 2] := by
  constructor
  · decide +kernel
  · have h : ∀ j, j < 3 → InRectangle nested [1] j := by
      intro j hj
      have : InBox [0] [2] ([1] : List ℚ) ∧ InBox [0] [4] ([1] : List ℚ) ∧
          InBox [0] [6] ([1] : List ℚ) := by
        simp only [← inRect_iff]
        decide +kernel
      have hj : j = 0 ∨ j = 1 ∨ j = 2 := by omega
      rcases hj with rfl | rfl | rfl
      · exact ⟨_, _, _, _, rfl, rfl, rfl, rfl, this.1⟩
      · exact ⟨_, _, _, _, rfl, rfl, rfl, rfl, this.2.1⟩
      · exact ⟨_, _, _, _, rfl, rfl, rfl, rfl, this.2.2⟩
    simp [firstK, List.range_succ, h]

/-- Three nested balls and the remainder. -/
def nestedBalls : SampleSet ℚ := { kind := .ball, dim := 1, glob :=
  { values := some [[0], [0], [0], [0]], radii := some [2, 3, 4, 0] } }

theorem readyNestedBalls : Ready nestedBalls 4 :=
  ⟨consistent_of _ _ rfl rfl, by norm_num, rfl, Or.inl rfl, nofun, fun _ => rfl⟩

/-- **C25, negation.** The same for three nested balls. -/
theorem C25_negation_three :
    (nestedBalls.regionQuery G 1 3 [1]).toOption.map (List.map Prod.fst) = some [0, 1, 0] ∧
      firstK 3 (InBall G nestedBalls [1]) 3 = [0, 1, 2] := by
  constructor
  · decide +kernel
  · have h : ∀ j, j < 3 → InBall G nestedBalls [1] j := by
      intro j hj
      have hd : dist1 [1] [0] < 2 ∧ dist1 [1] [0] < 3 ∧ dist1 [1] [0] < 4 := by decide +kernel
      have hj : j = 0 ∨ j = 1 ∨ j = 2 := by omega
      rcases hj with rfl | rfl | rfl
      · exact ⟨_, _, _, _, rfl, rfl, rfl, rfl, hd.1⟩
      · exact ⟨_, _, _, _, rfl, rfl, rfl, rfl, hd.2.1⟩
      · exact ⟨_, _, _, _, rfl, rfl, rfl, rfl, hd.2.2⟩
    simp [firstK, List.range_succ, h]

/-- C17: a history with changes of the values, a rebuilt tree and further calls. -/
example : ((({ dim := 1 } : SampleSet ℚ).run G 2 [.setValues [[0], [10]], .query [[[0]], []],
    .setValues [[10], [0]], .setKdtree, .globalToLocal, .query [[[3]], [[4]]]]).toOption.bind
      (·.glob.values)) = some [[10], [0]] := by decide +kernel

/-- C17: an append after a query makes the next query raise. -/
example : errOf (({ dim := 1 } : SampleSet ℚ).run G 1 [.setValues [[0], [10]], .query [[[0]]],
    .append [[5]], .query [[[6]]]]) = some .lengthNotMatching := by decide +kernel

/-- C22, C25: three points, one of them in the remainder. -/
example : (nested.query G 2 [[[1], [3]], [[7]]]).toOption.map Prod.snd = some [[0, 1], [3]] := by
  decide +kernel

example : (nestedBalls.query G 1 [[[1], [-5/2], [7]]]).toOption.map Prod.snd =
    some [[0, 1, 3]] := by decide +kernel

end BET.Ex
