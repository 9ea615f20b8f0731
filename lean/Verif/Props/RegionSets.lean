import Verif.Model.RegionSets
import Verif.Props.Rectangle
import Verif.Props.Ball
import Verif.Props.DiscHistory

/-!
# C116: rectangles and balls keep their cells
-/

set_option linter.unusedSectionVars false
set_option linter.unusedSimpArgs false
set_option autoImplicit false

namespace BET

open Spec

variable {K : Type} [Field K] [LinearOrder K]

/-- The calls that append to a set or recompute its bounds. -/
def Spec.Grows : RegionOp K → Prop
  | .appendValues _ | .appendValuesLocal _ | .appendJacobians _ | .appendErrorEstimates _
  | .updateBounds _ | .updateBoundsLocal _ => True
  | _ => False

/-- What every history keeps of the rectangle or ball set `s₀`. -/
structure KeepsRegions (s₀ s : SampleSet K) : Prop where
  same : SameCells s₀ s
  dim : s.dim = s₀.dim
  tree : s.kdtree = none
  values : ∀ c, s.loc.values = some c → s.glob.values = some c.flatten
  right : ∀ c, s.loc.right = some c → s.glob.right = some c.flatten
  left : ∀ c, s.loc.left = some c → s.glob.left = some c.flatten
  radii : ∀ c, s.loc.radii = some c → s.glob.radii = some c.flatten

theorem regionOp_keeps {size : Nat} (hsize : 0 < size) {s₀ s t : SampleSet K}
    (hk : s₀.kind ≠ .voronoi) {op : RegionOp K} (h : s.regionOp size op = .ok t)
    (hs : KeepsRegions s₀ s) : KeepsRegions s₀ t := by
  have hsk : s.kind ≠ .voronoi := by rw [hs.same.kind]; exact hk
  have skip : ∀ b, s.unlessRegions b = .ok t → t = s := by
    intro b hb
    unfold SampleSet.unlessRegions at hb
    cases hkk : s.kind with
    | voronoi => exact absurd hkk hsk
    | rectangle => rw [hkk] at hb; exact (Except.ok.inj hb).symm
    | ball => rw [hkk] at hb; exact (Except.ok.inj hb).symm
  obtain ⟨⟨e1, e2, e3, e4, e5, e6⟩, hd, ht, hv, hr, hl, ha⟩ := hs
  cases op with
  | appendValues v => rw [skip _ h]; exact ⟨⟨e1, e2, e3, e4, e5, e6⟩, hd, ht, hv, hr, hl, ha⟩
  | appendValuesLocal v => rw [skip _ h]; exact ⟨⟨e1, e2, e3, e4, e5, e6⟩, hd, ht, hv, hr, hl, ha⟩
  | appendJacobians j => rw [skip _ h]; exact ⟨⟨e1, e2, e3, e4, e5, e6⟩, hd, ht, hv, hr, hl, ha⟩
  | appendErrorEstimates e =>
    rw [skip _ h]; exact ⟨⟨e1, e2, e3, e4, e5, e6⟩, hd, ht, hv, hr, hl, ha⟩
  | updateBounds n => rw [skip _ h]; exact ⟨⟨e1, e2, e3, e4, e5, e6⟩, hd, ht, hv, hr, hl, ha⟩
  | updateBoundsLocal n => rw [skip _ h]; exact ⟨⟨e1, e2, e3, e4, e5, e6⟩, hd, ht, hv, hr, hl, ha⟩
  | setVolumes v => cases h; exact ⟨⟨e1, e2, e3, e4, e5, e6⟩, hd, ht, hv, hr, hl, ha⟩
  | setProbabilities v => cases h; exact ⟨⟨e1, e2, e3, e4, e5, e6⟩, hd, ht, hv, hr, hl, ha⟩
  | setJacobians v => cases h; exact ⟨⟨e1, e2, e3, e4, e5, e6⟩, hd, ht, hv, hr, hl, ha⟩
  | setErrorEstimates v => cases h; exact ⟨⟨e1, e2, e3, e4, e5, e6⟩, hd, ht, hv, hr, hl, ha⟩
  | globalToLocal =>
    simp only [SampleSet.regionOp, SampleSet.globalToLocal, bind_eq_ok, pure_eq_ok] at h
    obtain ⟨n, _, rfl⟩ := h
    exact ⟨⟨e1, e2, e3, e4, e5, e6⟩, hd, ht, splitArr_same hsize hv, splitArr_same hsize hr,
      splitArr_same hsize hl, splitArr_same hsize ha⟩
  | localToGlobal =>
    cases h
    have ev : s.localToGlobal.glob.values = s.glob.values := gatherArr_same hv
    have er : s.localToGlobal.glob.right = s.glob.right := gatherArr_same hr
    have el : s.localToGlobal.glob.left = s.glob.left := gatherArr_same hl
    have ea : s.localToGlobal.glob.radii = s.glob.radii := gatherArr_same ha
    exact ⟨⟨e1, e2, ev.trans e3, er.trans e4, el.trans e5, ea.trans e6⟩, hd, ht,
      fun c hc => ev.trans (hv c hc), fun c hc => er.trans (hr c hc),
      fun c hc => el.trans (hl c hc), fun c hc => ea.trans (ha c hc)⟩
  | exactVolume =>
    unfold SampleSet.regionOp at h
    cases hkk : s.kind with
    | voronoi => exact absurd hkk hsk
    | ball => simp only [hkk] at h; cases h
    | rectangle =>
      simp only [hkk] at h
      unfold SampleSet.exactVolumeLebesgue at h
      simp only [bind_eq_ok, pure_eq_ok] at h
      obtain ⟨_, _, _, _, _, _, rfl⟩ := h
      exact ⟨⟨e1, e2, e3, e4, e5, e6⟩, hd, ht, hv, hr, hl, ha⟩

theorem regionRun_keeps {size : Nat} (hsize : 0 < size) {s₀ : SampleSet K}
    (hk : s₀.kind ≠ .voronoi) (ops : List (RegionOp K)) {s t : SampleSet K}
    (h : s.regionRun size ops = .ok t) (hs : KeepsRegions s₀ s) : KeepsRegions s₀ t := by
  induction ops generalizing s with
  | nil => cases h; exact hs
  | cons op ops ih =>
    simp only [SampleSet.regionRun, List.foldlM_cons, bind_eq_ok] at h
    obtain ⟨u, hu, h⟩ := h
    exact ih h (regionOp_keeps hsize hk hu hs)

theorem keepsRegions_start {s t : SampleSet K} (hl : s.loc = {}) (ht : s.kdtree = none)
    (hloc : t.loc = s.loc) (htree : t.kdtree = s.kdtree) : KeepsRegions t t where
  same := sameCells_refl t
  dim := rfl
  tree := htree.trans ht
  values := by rw [hloc, hl]; exact fun _ h => by cases h
  right := by rw [hloc, hl]; exact fun _ h => by cases h
  left := by rw [hloc, hl]; exact fun _ h => by cases h
  radii := by rw [hloc, hl]; exact fun _ h => by cases h

/-- The pointers of a successful query come from a successful count. -/
theorem query_counts {G : Geometry K} {size : Nat} {s q : SampleSet K} {xs : Chunks (List K)}
    {ptr : Chunks Nat} (hk : s.kind ≠ .voronoi) (h : s.query G size xs = .ok (q, ptr)) :
    ∃ n, s.checkNum size = .ok n := by
  unfold SampleSet.query at h
  cases hkk : s.kind with
  | voronoi => exact absurd hkk hk
  | rectangle =>
    simp only [hkk, bind_eq_ok] at h
    obtain ⟨n, hn, _⟩ := h
    exact ⟨n, hn⟩
  | ball =>
    simp only [hkk, bind_eq_ok] at h
    obtain ⟨n, hn, _⟩ := h
    exact ⟨n, hn⟩

theorem isFirst_congr {m : Nat} {P Q : Nat → Prop} (h : ∀ j < m, P j ↔ Q j) (i : Nat)
    (hi : IsFirst m P i) : IsFirst m Q i := by
  rcases hi with ⟨h1, h2, h3⟩ | ⟨h1, h2⟩
  · exact Or.inl ⟨h1, (h i h1).mp h2, fun j hj hq => h3 j hj ((h j (hj.trans h1)).mpr hq)⟩
  · exact Or.inr ⟨h1, fun j hj hq => h2 j hj ((h j hj).mpr hq)⟩

/-- **C116.** A rectangle set after any history of appends, updates of bounds, setters of volumes,
probabilities, Jacobians and error estimates, exact volumes and moves between local and global
arrays: every query that answers gives, for every point, the first of the rectangles passed to
`setup` that contains it, or the remainder. -/
theorem C116_rectangles {G : Geometry K} {size : Nat} (hsize : 0 < size) {s t t' q : SampleSet K}
    {maxes mins : List (List K)} (hl : s.loc = {}) (ht : s.kdtree = none)
    (hset : s.setupRect maxes mins = .ok t) {ops : List (RegionOp K)}
    (hrun : t.regionRun size ops = .ok t') {xs : Chunks (List K)} {ptr : Chunks Nat}
    (hq : t'.query G size xs = .ok (q, ptr)) :
    List.Forall₂ (List.Forall₂ fun x i => IsFirst maxes.length
      (fun j => ∃ a b, mins[j]? = some a ∧ maxes[j]? = some b ∧ InBox a b x) i) xs ptr := by
  obtain ⟨h1, h2, h3, rfl⟩ := setupRect_iff.mp hset
  have hk : (s.rectSet maxes mins).kind ≠ .voronoi := fun h => by cases h
  have hK := regionRun_keeps hsize hk ops hrun (keepsRegions_start hl ht rfl rfl)
  have hk' : t'.kind = .rectangle := hK.same.kind
  have hev := hK.same.values
  have her := hK.same.right
  have hel := hK.same.left
  obtain ⟨n, hn⟩ := query_counts (by rw [hk']; exact fun h => by cases h) hq
  have hvs : t'.glob.values.isSome = true := by rw [hev]; rfl
  have hc := SampleSet.consistent_of_checkNum hn hvs
  have hnn : n = maxes.length + 1 := by
    have := hc.1.values _ hev
    rw [← this]
    simp [h1]
  subst hnn
  have hR : Ready t' (maxes.length + 1) :=
    ⟨hc, by omega, hvs, Or.inl hK.tree,
      fun _ => ⟨by rw [her]; rfl, by rw [hel]; rfl⟩, fun h => by rw [hk'] at h; cases h⟩
  obtain ⟨ptr', hq', hf⟩ := C22_rectangle_first (G := G) (size := size) hR hk' xs
  rw [hq] at hq'
  cases hq'
  refine hf.imp fun c p hcp => hcp.imp fun x i hi => isFirst_congr ?_ i hi
  intro j hj
  simp only [Nat.add_sub_cancel] at hj
  unfold InRectangle
  simp only [her, hel, SampleSet.rectSet, Option.some.injEq, exists_and_left, exists_eq_left']
  rw [List.getElem?_append_left hj, List.getElem?_append_left (h1 ▸ hj)]

/-- **C116.** The same for a ball set: the first of the balls passed to `setup`. -/
theorem C116_balls {G : Geometry K} {size : Nat} (hsize : 0 < size) {s t t' q : SampleSet K}
    {centers : List (List K)} {radii : List K} (hl : s.loc = {})
    (ht : s.kdtree = none) (hset : s.setupBall centers radii = .ok t) {ops : List (RegionOp K)}
    (hrun : t.regionRun size ops = .ok t') {xs : Chunks (List K)} {ptr : Chunks Nat}
    (hq : t'.query G size xs = .ok (q, ptr)) :
    List.Forall₂ (List.Forall₂ fun x i => IsFirst centers.length
      (fun j => ∃ c ρ, centers[j]? = some c ∧ radii[j]? = some ρ ∧ G.dist s.pNorm x c < ρ) i)
      xs ptr := by
  simp only [SampleSet.setupBall, bind_eq_ok, raiseIf_eq_ok, pure_eq_ok] at hset
  obtain ⟨_, h1, _, h2, ht0⟩ := hset
  replace h1 : centers.length = radii.length := by simpa using h1
  have hk : t.kind ≠ .voronoi := by rw [← ht0]; exact fun h => by cases h
  have hK := regionRun_keeps hsize hk ops hrun
    (keepsRegions_start hl ht (by rw [← ht0]) (by rw [← ht0]))
  have hk' : t'.kind = .ball := by rw [hK.same.kind, ← ht0]
  have hp : t'.pNorm = s.pNorm := by rw [hK.same.pNorm, ← ht0]
  have hev : t'.glob.values = some (centers ++ [List.replicate s.dim (0 : K)]) := by
    rw [hK.same.values, ← ht0]
  have hea : t'.glob.radii = some (radii ++ [0]) := by rw [hK.same.radii, ← ht0]
  obtain ⟨n, hn⟩ := query_counts (by rw [hk']; exact fun h => by cases h) hq
  have hvs : t'.glob.values.isSome = true := by rw [hev]; rfl
  have hc := SampleSet.consistent_of_checkNum hn hvs
  have hnn : n = centers.length + 1 := by
    have := hc.1.values _ hev
    rw [← this]
    simp
  subst hnn
  have hR : Ready t' (centers.length + 1) :=
    ⟨hc, by omega, hvs, Or.inl hK.tree,
      fun h => (by rw [hk'] at h; cases h), fun _ => (by rw [hea]; rfl)⟩
  obtain ⟨ptr', hq', hf⟩ := C25_ball_first (G := G) (size := size) hR hk' xs
  rw [hq] at hq'
  cases hq'
  refine hf.imp fun c p hcp => hcp.imp fun x i hi => isFirst_congr ?_ i hi
  intro j hj
  simp only [Nat.add_sub_cancel] at hj
  unfold InBall
  simp only [hev, hea, hp, Option.some.injEq, exists_and_left, exists_eq_left']
  rw [List.getElem?_append_left hj, List.getElem?_append_left (h1 ▸ hj)]

/-- **C116.** Calls that append to a rectangle or ball set or recompute its bounds return without
an exception and change nothing: what was to be appended is lost. -/
theorem C116_lost {size : Nat} {s : SampleSet K} (hk : s.kind = .rectangle ∨ s.kind = .ball)
    {ops : List (RegionOp K)} (h : ∀ op ∈ ops, Grows op) : s.regionRun size ops = .ok s := by
  induction ops with
  | nil => rfl
  | cons op ops ih =>
    have h1 : s.regionOp size op = .ok s := by
      have := h op (by simp)
      cases op <;> simp only [Grows] at this <;>
        rcases hk with hk | hk <;> simp only [SampleSet.regionOp, SampleSet.unlessRegions, hk]
    have h2 := ih fun o ho => h o (by simp [ho])
    simp only [SampleSet.regionRun, List.foldlM_cons, h1] at h2 ⊢
    exact h2

/-- **C116.** The same calls on a Voronoi set do what they are named after: rows are added at the
end, and the bounds become those of the domain, one copy for every sample. -/
theorem C116_voronoi_grows {size : Nat} {s t : SampleSet K} (hk : s.kind = .voronoi) :
    (∀ v, s.regionOp size (.appendValues v) = .ok t → ∃ old, s.glob.values = some old ∧
      t.glob.values = some (old ++ v) ∧ t.loc = s.loc) ∧
    (∀ j, s.regionOp size (.appendJacobians j) = .ok t → ∃ old, s.glob.jacobians = some old ∧
      t.glob.jacobians = some (old ++ j) ∧ t.glob.values = s.glob.values) ∧
    (∀ e, s.regionOp size (.appendErrorEstimates e) = .ok t → ∃ old,
      s.glob.errorEstimates = some old ∧ t.glob.errorEstimates = some (old ++ e) ∧
      t.glob.values = s.glob.values) ∧
    (s.regionOp size (.updateBounds none) = .ok t → ∃ v dom, s.glob.values = some v ∧
      s.domain = some dom ∧ t.glob.values = some v ∧
      (∃ l, t.glob.left = some l ∧ l.length = v.length ∧ ∀ r ∈ l, r = dom.map Prod.fst) ∧
      (∃ r, t.glob.right = some r ∧ r.length = v.length ∧ ∀ b ∈ r, b = dom.map Prod.snd)) := by
  refine ⟨?_, ?_, ?_, ?_⟩
  · intro v h
    simp only [SampleSet.regionOp, SampleSet.unlessRegions, hk] at h
    obtain ⟨old, ho, _, rfl⟩ := appendValues_eq_ok.1 h
    exact ⟨old, ho, rfl, rfl⟩
  · intro v h
    simp only [SampleSet.regionOp, SampleSet.unlessRegions, hk, SampleSet.growJacobians, bind_eq_ok,
      orErr_eq_ok, pure_eq_ok] at h
    obtain ⟨old, ho, rfl⟩ := h
    exact ⟨old, ho, rfl, rfl⟩
  · intro v h
    simp only [SampleSet.regionOp, SampleSet.unlessRegions, hk, SampleSet.growErrorEstimates,
      bind_eq_ok, orErr_eq_ok, pure_eq_ok] at h
    obtain ⟨old, ho, rfl⟩ := h
    exact ⟨old, ho, rfl, rfl⟩
  · intro h
    simp only [SampleSet.regionOp, SampleSet.unlessRegions, hk, SampleSet.domainBounds,
      SampleSet.boundsCount, bind_eq_ok, orErr_eq_ok, pure_eq_ok] at h
    obtain ⟨n, ⟨v, hv, rfl⟩, dom, hd, rfl⟩ := h
    exact ⟨v, dom, hv, hd, hv, ⟨_, rfl, by simp, fun r hr => List.eq_of_mem_replicate hr⟩,
      ⟨_, rfl, by simp, fun r hr => List.eq_of_mem_replicate hr⟩⟩

end BET

namespace BET.Ex

open BET.Spec

/-- Two rectangles of a line with a domain. -/
def twoRects : SampleSet ℚ := { dim := 1, domain := some [(0, 10)] }

/-- A history with lost appends, measures, exact volumes and moves between the arrays. -/
def regionCalls : List (RegionOp ℚ) :=
  [.appendValues [[5]], .globalToLocal, .setProbabilities [1 / 2, 1 / 4, 1 / 4],
    .updateBounds (some 7), .exactVolume, .localToGlobal, .appendValuesLocal [[[3]], []]]

/-- C116: the history runs on a rectangle set, and the queries answer afterwards. -/
example : ((do
    let t ← twoRects.setupRect [[2], [4]] [[0], [2]]
    let t ← t.regionRun 2 regionCalls
    let r ← t.query G 2 [[[1], [3]], [[9]]]
    pure r.2 : Except Err (Chunks Nat))).toOption = some [[0, 1], [2]] := by decide +kernel

/-- C116: and on a ball set (which has no exact volumes of this kind). -/
example : ((do
    let t ← twoRects.setupBall [[1], [5]] [1, 2]
    let t ← t.regionRun 2 [.appendValues [[5]], .globalToLocal, .setVolumes [1, 2, 3],
      .updateBounds none, .localToGlobal]
    let r ← t.query G 2 [[[1], [6]], [[9]]]
    pure r.2 : Except Err (Chunks Nat))).toOption = some [[0, 1], [2]] := by decide +kernel

/-- C116: appends on a Voronoi set that succeed. -/
example : ((do
    let t ← ({ dim := 1, domain := some [(0, 10)], glob := { values := some [[1]] } } :
      SampleSet ℚ).regionOp 1 (.appendValues [[5]])
    let t ← t.regionOp 1 (.updateBounds none)
    pure (t.glob.values, t.glob.right) :
      Except Err (Option (List (List ℚ)) × Option (List (List ℚ))))).toOption =
    some (some [[1], [5]], some [[10], [10]]) := by decide +kernel

end BET.Ex
