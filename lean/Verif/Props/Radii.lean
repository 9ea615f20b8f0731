import Verif.Model.Radii
import Verif.Props.Volumes

/-!
# C87: radii of Voronoi cells (`estimate_radii`, `estimate_radii_and_volume`)
-/

set_option autoImplicit false
set_option linter.unusedSectionVars false
set_option linter.unusedSimpArgs false

namespace BET

open Spec

section
variable {K : Type} [Field K] [LinearOrder K]

/-- The coordinates of a point relative to the domain, 0 at the lower and 1 at the upper end. -/
def Spec.relative (D : List (K × K)) (x : List K) : List K :=
  List.zipWith (fun ab y => (y - ab.1) / (ab.2 - ab.1)) D x

/-- The distance of two points, in relative coordinates if `normalize`. -/
def Spec.separation (G : Geometry K) (p : Nat) (normalize : Bool) (D : List (K × K)) (x y : List K) : K :=
  if normalize then G.dist p (relative D x) (relative D y) else G.dist p x y

/-- `rad` is the list of the largest distances of the points from the samples in whose cells they lie;
`cells` says in which. -/
structure Spec.LargestDistances (d : List K → List K → K) (values : List (List K)) (pts : List (List K))
    (cells : List Nat) (rad : List K) : Prop where
  length : rad.length = values.length
  bound : ∀ (k i : Nat) (x v : List K) (ρ : K), pts[k]? = some x → cells[k]? = some i →
    values[i]? = some v → rad[i]? = some ρ → d x v ≤ ρ
  attained : ∀ (i : Nat) (v : List K) (ρ : K), values[i]? = some v → rad[i]? = some ρ →
    ∃ (k : Nat) (x : List K), pts[k]? = some x ∧ cells[k]? = some i ∧ d x v = ρ

theorem foldl_max_spec (xs : List K) (x : K) :
    (∀ y ∈ x :: xs, y ≤ xs.foldl max x) ∧ xs.foldl max x ∈ x :: xs := by
  induction xs generalizing x with
  | nil => simp
  | cons y xs ih =>
    obtain ⟨h1, h2⟩ := ih (max x y)
    simp only [List.foldl_cons]
    have hm : max x y ≤ xs.foldl max (max x y) := h1 _ List.mem_cons_self
    constructor
    · intro z hz
      rcases List.mem_cons.mp hz with rfl | hz
      · exact (le_max_left _ _).trans hm
      · rcases List.mem_cons.mp hz with rfl | hz
        · exact (le_max_right _ _).trans hm
        · exact h1 z (List.mem_cons_of_mem _ hz)
    · rcases List.mem_cons.mp h2 with h | h
      · rcases max_choice x y with h' | h'
        · rw [h, h']; exact List.mem_cons_self
        · rw [h, h']; exact List.mem_cons_of_mem _ List.mem_cons_self
      · exact List.mem_cons_of_mem _ (List.mem_cons_of_mem _ h)

theorem maxOrRaise_ok {xs : List K} {y : K} (h : maxOrRaise xs = .ok y) : y ∈ xs ∧ ∀ x ∈ xs, x ≤ y := by
  rcases xs with _ | ⟨x, xs⟩
  · cases h
  · have := Except.ok.inj h
    subst this
    obtain ⟨h1, h2⟩ := foldl_max_spec xs x
    exact ⟨h2, h1⟩

theorem mem_ownPoints {ptr : List Nat} {pts : List (List K)} {i : Nat} {x : List K} :
    x ∈ ownPoints ptr pts i ↔ ∃ k : Nat, pts[k]? = some x ∧ ptr[k]? = some i := by
  unfold ownPoints
  rw [List.mem_filterMap]
  constructor
  · rintro ⟨q, hq, h⟩
    split at h
    · rename_i hi
      obtain ⟨k, hk⟩ := List.mem_iff_getElem?.mp hq
      rw [List.getElem?_zip_eq_some] at hk
      refine ⟨k, ?_, ?_⟩
      · rw [hk.2, ← Option.some.inj h]
      · rw [hk.1, hi]
    · cases h
  · rintro ⟨k, h1, h2⟩
    refine ⟨(i, x), ?_, by simp⟩
    rw [List.mem_iff_getElem?]
    exact ⟨k, List.getElem?_zip_eq_some.mpr ⟨h2, h1⟩⟩

theorem radiiLocal_ok {G : Geometry K} {p : Nat} {tr : List K → List K} {values pts : List (List K)}
    {ptr : List Nat} {rad : List K} (h : radiiLocal G p tr values pts ptr = .ok rad) :
    LargestDistances (fun x v => G.dist p (tr x) (tr v)) values pts ptr rad := by
  unfold radiiLocal at h
  rw [mapM_eq_ok] at h
  have hl := h.length_eq
  rw [List.length_zipIdx] at hl
  have key : ∀ (i : Nat) (v : List K) (ρ : K), values[i]? = some v → rad[i]? = some ρ →
      maxOrRaise ((ownPoints ptr pts i).map fun x => G.dist p (tr x) (tr v)) = .ok ρ := by
    intro i v ρ hv hρ
    obtain ⟨hi, rfl⟩ := List.getElem?_eq_some_iff.mp hv
    obtain ⟨hi', rfl⟩ := List.getElem?_eq_some_iff.mp hρ
    have := h.get (i := i) (by simpa using hi) hi'
    simpa using this
  refine ⟨hl.symm, ?_, ?_⟩
  · intro k i x v ρ hx hc hv hρ
    exact (maxOrRaise_ok (key i v ρ hv hρ)).2 _
      (List.mem_map.mpr ⟨x, mem_ownPoints.mpr ⟨k, hx, hc⟩, rfl⟩)
  · intro i v ρ hv hρ
    obtain ⟨x, hx, hd⟩ := List.mem_map.mp (maxOrRaise_ok (key i v ρ hv hρ)).1
    obtain ⟨k, h1, h2⟩ := mem_ownPoints.mp hx
    exact ⟨k, x, h1, h2, hd⟩

theorem radiiLocal_total {G : Geometry K} {p : Nat} {tr : List K → List K} {values pts : List (List K)}
    {ptr : List Nat} (hl : ptr.length = pts.length) :
    ((∀ i < values.length, i ∈ ptr) → ∃ rad, radiiLocal G p tr values pts ptr = .ok rad) ∧
    ((∃ i < values.length, i ∉ ptr) → radiiLocal G p tr values pts ptr = .error .valueError) := by
  unfold radiiLocal
  have hstep : ∀ v ∈ values.zipIdx, (v.2 ∈ ptr → ∃ y, maxOrRaise ((ownPoints ptr pts v.2).map
      fun x => G.dist p (tr x) (tr v.1)) = .ok y) ∧
      (v.2 ∉ ptr → maxOrRaise ((ownPoints ptr pts v.2).map
      fun x => G.dist p (tr x) (tr v.1)) = .error .valueError) := by
    intro v hv
    constructor
    · intro hmem
      obtain ⟨k, hk⟩ := List.mem_iff_getElem?.mp hmem
      have hk' : k < pts.length := by rw [← hl]; exact (List.getElem?_eq_some_iff.mp hk).1
      have : (ownPoints ptr pts v.2).map (fun x => G.dist p (tr x) (tr v.1)) ≠ [] := by
        rw [ne_eq, List.map_eq_nil_iff]
        intro h0
        have := (mem_ownPoints (ptr := ptr) (pts := pts) (i := v.2)).mpr
          ⟨k, List.getElem?_eq_getElem hk', hk⟩
        rw [h0] at this
        cases this
      obtain ⟨a, as, ha⟩ := List.exists_cons_of_ne_nil this
      rw [ha]
      exact ⟨_, rfl⟩
    · intro hmem
      have : ownPoints ptr pts v.2 = [] := by
        rw [List.eq_nil_iff_forall_not_mem]
        intro x hx
        obtain ⟨k, -, h2⟩ := mem_ownPoints.mp hx
        exact hmem (List.mem_of_getElem? h2)
      rw [this]
      rfl
  constructor
  · intro hall
    have : ∀ v ∈ values.zipIdx, ∃ y, maxOrRaise ((ownPoints ptr pts v.2).map
        fun x => G.dist p (tr x) (tr v.1)) = .ok y := by
      intro v hv
      refine (hstep v hv).1 (hall _ ?_)
      have := List.mem_zipIdx hv
      omega
    choose! g hg using this
    exact ⟨_, mapM_ok _ g _ hg⟩
  · rintro ⟨i, hi, hno⟩
    have hmem : (values[i], i) ∈ values.zipIdx := by
      rw [List.mem_iff_getElem?]
      exact ⟨i, by simp [hi]⟩
    generalize values.zipIdx = L at hstep hmem
    induction L with
    | nil => cases hmem
    | cons v L ih =>
      rw [List.mapM_cons]
      by_cases hv : v.2 ∈ ptr
      · obtain ⟨y, hy⟩ := (hstep v List.mem_cons_self).1 hv
        rw [hy, ok_bind]
        rcases List.mem_cons.mp hmem with h | h
        · rw [← h] at hv
          exact absurd hv hno
        · rw [ih (fun w hw => hstep w (List.mem_cons_of_mem _ hw)) h]
          rfl
      · rw [(hstep v List.mem_cons_self).2 hv]
        rfl

/-- The points of several processes together. -/
theorem allreduceMax_spec {d : List K → List K → K} {values : List (List K)}
    (chunks : List (List (List K) × List Nat)) (rows : List (List K)) (hne : chunks ≠ [])
    (hlen : ∀ c ∈ chunks, c.1.length = c.2.length)
    (h : List.Forall₂ (fun c row => LargestDistances d values c.1 c.2 row) chunks rows) :
    LargestDistances d values (chunks.map Prod.fst).flatten (chunks.map Prod.snd).flatten
      (allreduceMax rows) := by
  have two : ∀ (c : List (List K) × List Nat) (pts : List (List K)) (cells : List Nat) (r r' : List K),
      pts.length = cells.length → LargestDistances d values pts cells r →
      LargestDistances d values c.1 c.2 r' →
      LargestDistances d values (pts ++ c.1) (cells ++ c.2) (List.zipWith max r r') := by
    intro c pts cells r r' hl h1 h2
    have hget : ∀ (i : Nat) (ρ : K), (List.zipWith max r r')[i]? = some ρ →
        ∃ a b, r[i]? = some a ∧ r'[i]? = some b ∧ ρ = max a b := by
      intro i ρ hρ
      rw [List.getElem?_zipWith] at hρ
      rcases ha : r[i]? with _ | a
      · rw [ha] at hρ; cases hρ
      · rcases hb : r'[i]? with _ | b
        · rw [ha, hb] at hρ; cases hρ
        · rw [ha, hb] at hρ
          exact ⟨a, b, rfl, rfl, (Option.some.inj hρ).symm⟩
    refine ⟨by simp [h1.length, h2.length], ?_, ?_⟩
    · intro k i x v ρ hx hc hv hρ
      obtain ⟨a, b, ha, hb, rfl⟩ := hget i ρ hρ
      by_cases hk : k < pts.length
      · rw [List.getElem?_append_left hk] at hx
        rw [List.getElem?_append_left (by omega)] at hc
        exact (h1.bound k i x v a hx hc hv ha).trans (le_max_left _ _)
      · rw [List.getElem?_append_right (by omega)] at hx
        rw [List.getElem?_append_right (by omega), ← hl] at hc
        exact (h2.bound _ i x v b hx hc hv hb).trans (le_max_right _ _)
    · intro i v ρ hv hρ
      obtain ⟨a, b, ha, hb, rfl⟩ := hget i ρ hρ
      rcases max_choice a b with hm | hm
      · obtain ⟨k, x, hx, hc, hd⟩ := h1.attained i v a hv ha
        refine ⟨k, x, ?_, ?_, by rw [hm, hd]⟩
        · rw [List.getElem?_append_left (List.getElem?_eq_some_iff.mp hx).1, hx]
        · rw [List.getElem?_append_left (List.getElem?_eq_some_iff.mp hc).1, hc]
      · obtain ⟨k, x, hx, hc, hd⟩ := h2.attained i v b hv hb
        refine ⟨pts.length + k, x, ?_, ?_, by rw [hm, hd]⟩
        · rw [List.getElem?_append_right (by omega), Nat.add_sub_cancel_left, hx]
        · rw [hl, List.getElem?_append_right (by omega), Nat.add_sub_cancel_left, hc]
  cases h with
  | nil => exact absurd rfl hne
  | cons hc hrest =>
    rename_i c row chunks rows
    simp only [allreduceMax, List.map_cons, List.flatten_cons]
    have hl0 := hlen c List.mem_cons_self
    have hlen' : ∀ c ∈ chunks, c.1.length = c.2.length := fun x hx => hlen x (List.mem_cons_of_mem _ hx)
    obtain ⟨pts, cells⟩ := c
    simp only at hl0 hc ⊢
    clear hlen hne
    induction hrest generalizing pts cells row with
    | nil => simpa using hc
    | cons hc' hrest ih =>
      rename_i c' row' chunks rows
      have hl' := hlen' c' List.mem_cons_self
      have := ih (row := List.zipWith max row row')
        (hlen' := fun x hx => hlen' x (List.mem_cons_of_mem _ hx)) (pts := pts ++ c'.1)
        (cells := cells ++ c'.2)
        (hc := two c' pts cells row row' hl0 hc hc')
        (hl0 := by rw [List.length_append, List.length_append, hl0, hl'])
      simpa [List.append_assoc] using this

theorem separation_eq (G : Geometry K) (p : Nat) (normalize : Bool) (D : List (K × K)) :
    separation G p normalize D =
      fun x v => G.dist p (unitCoords normalize D x) (unitCoords normalize D v) := by
  funext x v
  cases normalize <;> rfl

theorem mapM_error_of {α β : Type} {f : α → Except Err β} {e : Err} :
    ∀ (L : List α), (∀ a ∈ L, (∃ b, f a = .ok b) ∨ f a = .error e) → (∃ a ∈ L, f a = .error e) →
      L.mapM f = .error e := by
  intro L
  induction L with
  | nil => rintro - ⟨a, ha, -⟩; cases ha
  | cons a L ih =>
    rintro h ⟨b, hb, hbe⟩
    rw [List.mapM_cons]
    rcases h a List.mem_cons_self with ⟨y, hy⟩ | he
    · rw [hy, ok_bind]
      rcases List.mem_cons.mp hb with rfl | hb
      · rw [hy] at hbe; cases hbe
      · rw [ih (fun x hx => h x (List.mem_cons_of_mem _ hx)) ⟨b, hb, hbe⟩]
        rfl
    · rw [he]; rfl

theorem map_snd_zip {α β : Type} : ∀ (a : List α) (f : α → β), (List.zip a (a.map f)).map Prod.snd = a.map f := by
  intro a f
  induction a with
  | nil => rfl
  | cons x a ih => simp [ih]

theorem map_fst_zip {α β : Type} : ∀ (a : List α) (f : α → β), (List.zip a (a.map f)).map Prod.fst = a := by
  intro a f
  induction a with
  | nil => rfl
  | cons x a ih => simp [ih]

/-- The common part of both methods. -/
theorem findRadii_cases {G : Geometry K} {size m : Nat} {s : SampleSet K} (hr : Ready s m)
    {D : List (K × K)} (hD : s.domain = some D) {values : List (List K)}
    (hv : s.glob.values = some values) {mc : Chunks (List K)} (hne : mc ≠ []) (normalize : Bool) :
    ((∀ c ∈ mc, ∀ i < m, i ∈ c.map (s.cell G)) →
      ∃ q rad, s.findRadii G size mc normalize = .ok (q, mc.map (fun c => c.map (s.cell G)), rad) ∧
        (∃ s', s.query G size mc = .ok (s', mc.map (fun c => c.map (s.cell G))) ∧ q = s') ∧
        LargestDistances (separation G s.pNorm normalize D) values mc.flatten
          (mc.flatten.map (s.cell G)) rad) ∧
    ((∃ c ∈ mc, ∃ i < m, i ∉ c.map (s.cell G)) →
      s.findRadii G size mc normalize = .error .valueError) := by
  have hm : values.length = m := hr.consistent.1.values values hv
  obtain ⟨s', hq, -⟩ := SampleSet.query_ready (G := G) (size := size) hr mc
  have hstep : ∀ c ∈ List.zip mc (mc.map fun c => c.map (s.cell G)), c.2 = c.1.map (s.cell G) := by
    intro c hc
    obtain ⟨k, hk⟩ := List.mem_iff_getElem?.mp hc
    rw [List.getElem?_zip_eq_some, List.getElem?_map] at hk
    obtain ⟨h1, h2⟩ := hk
    rw [h1] at h2
    exact (Option.some.inj h2).symm
  have hmem : ∀ c ∈ List.zip mc (mc.map fun c => c.map (s.cell G)), c.1 ∈ mc :=
    fun c hc => (List.of_mem_zip hc).1
  unfold SampleSet.findRadii
  simp only [SampleSet.checkNum_consistent (size := size) hr.consistent, hv, hD, orErr_some, ok_bind, hq]
  constructor
  · intro hall
    have : ∀ c ∈ List.zip mc (mc.map fun c => c.map (s.cell G)), ∃ rad,
        radiiLocal G s.pNorm (unitCoords normalize D) values c.1 c.2 = .ok rad := by
      intro c hc
      refine (radiiLocal_total (by rw [hstep c hc, List.length_map])).1 fun i hi => ?_
      rw [hstep c hc]
      exact hall c.1 (hmem c hc) i (by omega)
    choose! g hg using this
    have hrows := mapM_ok _ g _ hg
    rw [hrows, ok_bind]
    refine ⟨s', _, rfl, ⟨s', rfl, rfl⟩, ?_⟩
    rw [mapM_eq_ok] at hrows
    have hspec := allreduceMax_spec (d := separation G s.pNorm normalize D) (values := values)
      (List.zip mc (mc.map fun c => c.map (s.cell G))) _ (by
        obtain ⟨c, cs, rfl⟩ := List.exists_cons_of_ne_nil hne
        simp) (fun c hc => by rw [hstep c hc, List.length_map])
      (hrows.imp fun c row h => by
        rw [separation_eq]
        exact radiiLocal_ok h)
    rw [map_fst_zip, map_snd_zip] at hspec
    rw [List.map_flatten]
    exact hspec
  · rintro ⟨c, hc, i, hi, hno⟩
    have herr := mapM_error_of (e := .valueError)
      (f := fun c : List (List K) × List Nat =>
        radiiLocal G s.pNorm (unitCoords normalize D) values c.1 c.2)
      (List.zip mc (mc.map fun c => c.map (s.cell G))) (fun a ha => ?_) ?_
    · rw [herr]; rfl
    · have ht := radiiLocal_total (G := G) (p := s.pNorm) (tr := unitCoords normalize D) (values := values)
        (pts := a.1) (ptr := a.2) (by rw [hstep a ha, List.length_map])
      by_cases hA : ∀ i < values.length, i ∈ a.2
      · exact Or.inl (ht.1 hA)
      · push Not at hA
        exact Or.inr (ht.2 hA)
    · obtain ⟨k, hk⟩ := List.mem_iff_getElem?.mp hc
      refine ⟨(c, c.map (s.cell G)), ?_, ?_⟩
      · rw [List.mem_iff_getElem?]
        exact ⟨k, List.getElem?_zip_eq_some.mpr ⟨hk, by rw [List.getElem?_map, hk]; rfl⟩⟩
      · exact (radiiLocal_total (by rw [List.length_map])).2 ⟨i, by omega, hno⟩

theorem consistent_storeRadii {s : SampleSet K} {m : Nat} (h : Consistent s m)
    (hs : s.glob.values.isSome) {rad : List K} (hl : rad.length = m) (normalize : Bool) :
    Consistent (s.storeRadii normalize rad) m := by
  obtain ⟨h1, -, h3⟩ := h
  cases normalize
  · refine ⟨⟨h1.values, h1.volumes, h1.probabilities, h1.densities, h1.jacobians, h1.errorEstimates,
      h1.right, h1.left, h1.width, h1.kdtreeValues, fun v hv => ?_, h1.normalizedRadii, h1.region,
      h1.errorId⟩, fun hn => ?_, h3⟩
    · cases hv; exact hl
    · have := hn.values
      rw [show (s.storeRadii false rad).glob.values = s.glob.values from rfl] at this
      rw [this] at hs
      cases hs
  · refine ⟨⟨h1.values, h1.volumes, h1.probabilities, h1.densities, h1.jacobians, h1.errorEstimates,
      nofun, nofun, nofun, h1.kdtreeValues, h1.radii, fun v hv => ?_, h1.region,
      h1.errorId⟩, fun hn => ?_, h3⟩
    · cases hv; exact hl
    · have := hn.values
      rw [show (s.storeRadii true rad).glob.values = s.glob.values from rfl] at this
      rw [this] at hs
      cases hs

/-- The radii that the call is about. -/
def Spec.radiiOf (normalize : Bool) (s : SampleSet K) : Option (List K) :=
  if normalize then s.glob.normalizedRadii else s.glob.radii

def Spec.localRadiiOf (normalize : Bool) (s : SampleSet K) : Option (Chunks K) :=
  if normalize then s.loc.normalizedRadii else s.loc.radii

/-- **C87.** `estimate_radii`: there is an assignment of the random points to cells such that, if every
process has a point in every cell, the radius of each cell is the largest distance of a point in the cell
from its sample, over all processes; with `normalize` distances are measured in coordinates relative to the
domain. If some process has no point in some cell there is an error. -/
theorem C87_radii {G : Geometry K} (hG : Sound G) {size m : Nat} (hsize : 0 < size) {s : SampleSet K}
    (hr : Ready s m) {D : List (K × K)} (hD : s.domain = some D) {values : List (List K)}
    (hv : s.glob.values = some values) {mc : Chunks (List K)} (hmc : mc.length = size)
    (normalize : Bool) :
    ∃ cells : Chunks Nat, List.Forall₂ (List.Forall₂ (IsCell G s)) mc cells ∧
      ((∀ c ∈ cells, ∀ i < m, i ∈ c) →
        ∃ s' rad, s.estimateRadii G size mc normalize = .ok s' ∧
          radiiOf normalize s' = some rad ∧
          LargestDistances (separation G s.pNorm normalize D) values mc.flatten cells.flatten rad ∧
          localRadiiOf normalize s' = some (arraySplit size rad) ∧ s'.glob.values = some values) ∧
      ((∃ c ∈ cells, ∃ i < m, i ∉ c) → s.estimateRadii G size mc normalize = .error .valueError) := by
  have hne : mc ≠ [] := by rintro rfl; simp at hmc; omega
  obtain ⟨h1, h2⟩ := findRadii_cases (G := G) (size := size) hr hD hv hne normalize
  refine ⟨mc.map fun c => c.map (s.cell G), ?_, ?_, ?_⟩
  · rw [List.forall₂_map_right_iff]
    refine List.forall₂_same.mpr fun c _ => ?_
    rw [List.forall₂_map_right_iff]
    exact List.forall₂_same.mpr fun x _ => SampleSet.cell_isCell hG hr x
  · intro hall
    obtain ⟨q, rad, h3, ⟨s', h4, rfl⟩, h5⟩ := h1 fun c hc => hall _ (List.mem_map_of_mem hc)
    obtain ⟨s'', h6, h7, -, h8⟩ := SampleSet.query_ready (G := G) (size := size) hr mc
    rw [h4] at h6
    have h6 := (Prod.mk.inj (Except.ok.inj h6)).1
    subst h6
    have hm : values.length = m := hr.consistent.1.values values hv
    have hcons := consistent_storeRadii h7.consistent h7.values (h5.length.trans hm) normalize
    obtain ⟨t, ht⟩ : ∃ t, (q.storeRadii normalize rad).globalToLocal size = .ok t :=
      ⟨_, SampleSet.globalToLocal_ok hcons size⟩
    refine ⟨t, rad, ?_, ?_, ?_, ?_, ?_⟩
    · simp only [SampleSet.estimateRadii, h3, ok_bind]
      exact ht
    · rw [SampleSet.globalToLocal_ok hcons size] at ht
      rw [← Except.ok.inj ht]
      cases normalize <;> rfl
    · rw [← List.map_flatten]
      exact h5
    · rw [SampleSet.globalToLocal_ok hcons size] at ht
      rw [← Except.ok.inj ht]
      cases normalize <;> rfl
    · rw [SampleSet.globalToLocal_ok hcons size] at ht
      rw [← Except.ok.inj ht, ← hv, ← h8]
      cases normalize <;> rfl
  · rintro ⟨c, hc, i, hi, hno⟩
    obtain ⟨c', hc', rfl⟩ := List.mem_map.mp hc
    simp only [SampleSet.estimateRadii, h2 ⟨c', hc', i, hi, hno⟩]
    rfl

/-- **C87.** `estimate_radii_and_volume` gives the same radii, and the fractions of the points in the cells
as volumes. -/
theorem C87_radii_and_volume [IsStrictOrderedRing K] {G : Geometry K} (hG : Sound G) {size m n : Nat}
    (hsize : 0 < size) {s : SampleSet K}
    (hr : Ready s m) {D : List (K × K)} (hD : s.domain = some D) {values : List (List K)}
    (hv : s.glob.values = some values) {mc : Chunks (List K)} (hmc : mc.length = size)
    (hn : mc.flatten.length = n) (hpos : 0 < n) (normalize : Bool) :
    ∃ cells : Chunks Nat, List.Forall₂ (List.Forall₂ (IsCell G s)) mc cells ∧
      ((∀ c ∈ cells, ∀ i < m, i ∈ c) →
        ∃ s' rad vol, s.estimateRadiiAndVolume G size n mc normalize = .ok s' ∧
          radiiOf normalize s' = some rad ∧
          LargestDistances (separation G s.pNorm normalize D) values mc.flatten cells.flatten rad ∧
          s'.glob.volumes = some vol ∧ CellFractions G s m mc.flatten vol ∧ IsProbVector vol ∧
          s'.glob.values = some values) ∧
      ((∃ c ∈ cells, ∃ i < m, i ∉ c) →
        s.estimateRadiiAndVolume G size n mc normalize = .error .valueError) := by
  have hne : mc ≠ [] := by rintro rfl; simp at hmc; omega
  obtain ⟨h1, h2⟩ := findRadii_cases (G := G) (size := size) hr hD hv hne normalize
  refine ⟨mc.map fun c => c.map (s.cell G), ?_, ?_, ?_⟩
  · rw [List.forall₂_map_right_iff]
    refine List.forall₂_same.mpr fun c _ => ?_
    rw [List.forall₂_map_right_iff]
    exact List.forall₂_same.mpr fun x _ => SampleSet.cell_isCell hG hr x
  · intro hall
    obtain ⟨q, rad, h3, ⟨s', h4, rfl⟩, h5⟩ := h1 fun c hc => hall _ (List.mem_map_of_mem hc)
    obtain ⟨s'', h6, h7, -, h8⟩ := SampleSet.query_ready (G := G) (size := size) hr mc
    rw [h4] at h6
    have h6 := (Prod.mk.inj (Except.ok.inj h6)).1
    subst h6
    have hm : values.length = m := hr.consistent.1.values values hv
    have hcons := consistent_setVolumes (vol := cellFractions G s m mc.flatten)
      (consistent_storeRadii h7.consistent h7.values (h5.length.trans hm) normalize)
      (by simp [cellFractions])
    have hvol : ((List.range m).map fun i => allreduceSum ((mc.map fun c => c.map (s.cell G)).map fun c =>
        (((npEqual c i).count true : Nat) : K))).map (· / (n : K)) = cellFractions G s m mc.flatten := by
      rw [countVec_eq, List.map_map, cellFractions, hn, List.map_flatten]
      rfl
    obtain ⟨t, ht⟩ : ∃ t, t = SampleSet.splitSet size m { q.storeRadii normalize rad with
      glob := { (q.storeRadii normalize rad).glob with
        volumes := some (cellFractions G s m mc.flatten) } } := ⟨_, rfl⟩
    refine ⟨t, rad, cellFractions G s m mc.flatten, ?_, ?_, ?_, ?_, cellFractions_map hG hr _,
      cellFractions_prob hG hr ?_, ?_⟩
    · simp only [SampleSet.estimateRadiiAndVolume, SampleSet.checkNum_consistent (size := size) hr.consistent,
        h3, ok_bind, raiseIf_false hpos.ne', hvol, ht]
      exact SampleSet.globalToLocal_ok hcons size
    · rw [ht]; cases normalize <;> rfl
    · rw [← List.map_flatten]
      exact h5
    · rw [ht]; cases normalize <;> rfl
    · intro h0
      rw [h0] at hn
      simp at hn
      omega
    · rw [← hv, ← h8, ht]
      cases normalize <;> rfl
  · rintro ⟨c, hc, i, hi, hno⟩
    obtain ⟨c', hc', rfl⟩ := List.mem_map.mp hc
    simp only [SampleSet.estimateRadiiAndVolume, SampleSet.checkNum_consistent (size := size) hr.consistent,
      ok_bind, h2 ⟨c', hc', i, hi, hno⟩]
    rfl

/-- The largest distances are determined by the points and their cells. -/
theorem C87_determined {d : List K → List K → K} {values pts : List (List K)} {cells : List Nat}
    {rad rad' : List K} (h : LargestDistances d values pts cells rad)
    (h' : LargestDistances d values pts cells rad') : rad = rad' := by
  apply List.ext_getElem (h.length.trans h'.length.symm)
  intro i hi hi'
  have hv : i < values.length := by rw [← h.length]; exact hi
  have e1 := List.getElem?_eq_getElem hi
  have e2 := List.getElem?_eq_getElem hi'
  have e3 := List.getElem?_eq_getElem hv
  apply le_antisymm
  · obtain ⟨k, x, hx, hc, hd⟩ := h.attained i _ _ e3 e1
    rw [← hd]
    exact h'.bound k i x _ _ hx hc e3 e2
  · obtain ⟨k, x, hx, hc, hd⟩ := h'.attained i _ _ e3 e2
    rw [← hd]
    exact h.bound k i x _ _ hx hc e3 e1

/-- **C87 (negation).** If some process draws fewer points than there are cells, the call fails. -/
theorem C87_negation_few_points {G : Geometry K} (hG : Sound G) {size m : Nat} (hsize : 0 < size)
    {s : SampleSet K} (hr : Ready s m) {D : List (K × K)} (hD : s.domain = some D)
    {mc : Chunks (List K)} (hmc : mc.length = size) (normalize : Bool)
    (hfew : ∃ c ∈ mc, c.length < m) :
    s.estimateRadii G size mc normalize = .error .valueError := by
  obtain ⟨values, hv, -⟩ := SampleSet.ready_values hr
  obtain ⟨cells, h1, -, h3⟩ := C87_radii hG hsize hr hD hv hmc normalize
  obtain ⟨c, hc, hlt⟩ := hfew
  obtain ⟨k, hk⟩ := List.mem_iff_getElem?.mp hc
  obtain ⟨hk', rfl⟩ := List.getElem?_eq_some_iff.mp hk
  have hk2 : k < cells.length := by rw [← h1.length_eq]; exact hk'
  have hlen := (h1.get hk' hk2).length_eq
  refine h3 ⟨cells[k], List.getElem_mem hk2, ?_⟩
  by_contra hno
  push Not at hno
  have hsub : List.range m ⊆ cells[k] := fun i hi => hno i (List.mem_range.mp hi)
  have := (List.nodup_range (n := m)).subperm hsub |>.length_le
  simp only [List.get_eq_getElem] at hlen
  rw [List.length_range] at this
  omega

/-- **C87 (negation).** `estimate_local_volume` asks for 20 points per sample when it needs radii; with
more than 20 processes and at least 500 samples that always fails. -/
theorem C87_negation_many_processes {G : Geometry K} (hG : Sound G) {size m : Nat} (hsize : 20 < size)
    {s : SampleSet K} (hr : Ready s m) (hm : 500 ≤ m) {D : List (K × K)} (hD : s.domain = some D)
    {mc : Chunks (List K)} (hmc : mc.map List.length = (List.range size).map
      fun r => numLocal (max 10000 (20 * m)) size r) :
    s.estimateRadii G size mc true = .error .valueError := by
  have hl : mc.length = size := by
    have := congrArg List.length hmc
    simpa using this
  refine C87_negation_few_points hG (by omega) hr hD hl true ?_
  have h1 : (mc.map List.length)[size - 1]? = some (numLocal (max 10000 (20 * m)) size (size - 1)) := by
    rw [hmc, List.getElem?_map, List.getElem?_range (by omega)]
    rfl
  rw [List.getElem?_map] at h1
  rcases hc : mc[size - 1]? with _ | c
  · rw [hc] at h1; cases h1
  · rw [hc] at h1
    refine ⟨c, List.mem_of_getElem? hc, ?_⟩
    have h1 : c.length = numLocal (max 10000 (20 * m)) size (size - 1) := Option.some.inj h1
    rw [h1, numLocal, max_eq_right (by omega), if_neg (by
      have := Nat.mod_lt (20 * m) (show size > 0 by omega)
      omega)]
    rw [Nat.add_zero, Nat.div_lt_iff_lt_mul (by omega)]
    nlinarith

end

/-! ### Examples -/

namespace Ex

/-- Two samples in the interval `[0, 4]`. -/
def radSet : SampleSet ℚ where
  dim := 1
  domain := some [(0, 4)]
  glob := { values := some [[1], [3]] }

example : Ready radSet 2 :=
  ⟨consistent_of _ _ rfl rfl, by norm_num, rfl, Or.inl rfl, nofun, nofun⟩

example : (radSet.estimateRadii G 2 [[[0], [5 / 2], [4]], [[1 / 2], [7 / 2]]] false).toOption.bind
    (fun s => s.glob.radii) = some [1, 1] := by decide +kernel

example : (radSet.estimateRadiiAndVolume G 2 5 [[[0], [5 / 2], [4]], [[1 / 2], [7 / 2]]] true).toOption.bind
    (fun s => (s.glob.normalizedRadii.bind fun r => s.glob.volumes.map fun v => (r, v))) =
      some ([1 / 4, 1 / 4], [2 / 5, 3 / 5]) := by decide +kernel

example : errOf (radSet.estimateRadii G 2 [[[0], [5 / 2], [4]], [[1 / 2]]] false) = some .valueError := by
  decide +kernel

end Ex

end BET
