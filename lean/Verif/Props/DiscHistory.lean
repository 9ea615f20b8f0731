import Verif.Props.Discretization
import Verif.Model.DiscHistory

/-!
# The pointers of a discretization in every history of calls (C112)
-/

set_option linter.unusedSectionVars false
set_option linter.unusedSimpArgs false

set_option autoImplicit false

namespace BET

open Spec

variable {K : Type} [Field K] [LinearOrder K]

/-! ## Specification -/

/-- The set whose points a pointer is about. -/
def Spec.pointsOf (k : PtrKind) (d : Disc K) : Option (SampleSet K) :=
  match k with
  | .io => d.output
  | .ii => d.emInput
  | .oo => d.emOutput

/-- The set whose cells a pointer names. -/
def Spec.cellsOf (k : PtrKind) (d : Disc K) : Option (SampleSet K) :=
  match k with
  | .io => d.outputProb
  | .ii => d.input
  | .oo => d.outputProb

/-- The pointer over all processes. -/
def Spec.pointer (k : PtrKind) (d : Disc K) : Option (List Nat) :=
  match k with
  | .io => d.ioPtr
  | .ii => d.iiPtr
  | .oo => d.ooPtr

/-- The parts of the pointer that the processes hold. -/
def Spec.pointerLocal (k : PtrKind) (d : Disc K) : Option (Chunks Nat) :=
  match k with
  | .io => d.ioPtrLocal
  | .ii => d.iiPtrLocal
  | .oo => d.ooPtrLocal

/-- The calls that give the discretization another set of points or of cells for pointer `k`. -/
def Spec.Replaces (k : PtrKind) (op : DiscOp K) : Prop :=
  match k, op with
  | .io, .setOutput _ => True
  | .io, .setProb _ => True
  | .ii, .setEmInput _ => True
  | .ii, .setInput _ => True
  | .oo, .setEmOutput _ => True
  | .oo, .setProb _ => True
  | _, _ => False

/-- The parts of a set of `n` cells that the processes hold are those of its global arrays: they
have `n` entries in all, and values, sides and radii are the global ones. -/
structure Spec.InStep (s : SampleSet K) (n : Nat) : Prop where
  lengths : Each (fun _ l _ => ∀ c, l = some c → c.flatten.length = n) s.loc s.glob
  values : ∀ c, s.loc.values = some c → s.glob.values = some c.flatten
  right : ∀ c, s.loc.right = some c → s.glob.right = some c.flatten
  left : ∀ c, s.loc.left = some c → s.glob.left = some c.flatten
  radii : ∀ c, s.loc.radii = some c → s.glob.radii = some c.flatten

/-- Two sets with the same cells: same kind and metric, values, sides and radii. -/
structure Spec.SameCells (s t : SampleSet K) : Prop where
  kind : t.kind = s.kind
  pNorm : t.pNorm = s.pNorm
  values : t.glob.values = s.glob.values
  right : t.glob.right = s.glob.right
  left : t.glob.left = s.glob.left
  radii : t.glob.radii = s.glob.radii

/-! ## What calls do to one set -/

/-- What a call may do to a set it does not replace. -/
inductive Touch (G : Geometry K) (size : Nat) : SampleSet K → SampleSet K → Prop
  | same (s : SampleSet K) : Touch G size s s
  | split (s t : SampleSet K) : s.globalToLocal size = .ok t → Touch G size s t
  | gather (s : SampleSet K) : Touch G size s s.localToGlobal
  | query (s t : SampleSet K) (xs : Chunks (List K)) (ptr : Chunks Nat) :
      s.query G size xs = .ok (t, ptr) → Touch G size s t
  | volumes (s t : SampleSet K) (xs : Chunks (List K)) (ptr : Chunks Nat) (w : List K) (n : Nat) :
      s.checkNum size = .ok n → s.query G size xs = .ok (t, ptr) → w.length = n →
      Touch G size s { t with glob := { t.glob with volumes := some w } }
  | trans (s t u : SampleSet K) : Touch G size s t → Touch G size t u → Touch G size s u

theorem sameCells_refl (s : SampleSet K) : SameCells s s := ⟨rfl, rfl, rfl, rfl, rfl, rfl⟩

theorem sameCells_trans {s t u : SampleSet K} (h : SameCells s t) (h' : SameCells t u) :
    SameCells s u :=
  ⟨h'.kind.trans h.kind, h'.pNorm.trans h.pNorm, h'.values.trans h.values,
    h'.right.trans h.right, h'.left.trans h.left, h'.radii.trans h.radii⟩

theorem cell_sameCells {s t : SampleSet K} (h : SameCells s t) (G : Geometry K) :
    t.cell G = s.cell G := by
  funext x
  simp only [SampleSet.cell, h.kind, h.pNorm, h.values, h.right, h.left, h.radii]

theorem isCell_sameCells {s t : SampleSet K} (h : SameCells s t) (G : Geometry K) (x : List K)
    (i : Nat) : IsCell G t x i ↔ IsCell G s x i := by
  simp only [IsCell, h.kind, h.pNorm, h.values, h.right, h.left, h.radii]

theorem localized_touch {G : Geometry K} {size : Nat} {s t : SampleSet K}
    (h : s.localized size = .ok t) : Touch G size s t := by
  unfold SampleSet.localized at h
  split at h
  · exact .split _ _ h
  · cases h; exact .same _

/-- What a touched set of points keeps. -/
def PointsInv (v : List (List K)) (s : SampleSet K) : Prop :=
  s.glob.values = some v ∧ ∀ c, s.loc.values = some c → c.flatten = v

theorem touch_points {G : Geometry K} {size : Nat} (hsize : 0 < size) {v : List (List K)}
    {s t : SampleSet K} (h : Touch G size s t) (hs : PointsInv v s) : PointsInv v t := by
  induction h with
  | same => exact hs
  | split s t h =>
    unfold SampleSet.globalToLocal at h
    rw [bind_eq_ok] at h
    obtain ⟨n, _, h⟩ := h
    rw [pure_eq_ok] at h
    subst h
    refine ⟨hs.1, ?_⟩
    intro c hc
    simp only [Arrays.map₂, hs.1, SampleSet.splitArr_some, Option.some.injEq] at hc
    rw [← hc, flatten_arraySplit _ _ hsize]
  | gather s =>
    refine ⟨?_, hs.2⟩
    simp only [SampleSet.localToGlobal, Arrays.map₂]
    cases hl : s.loc.values with
    | none => exact hs.1
    | some c => simp [hs.2 c hl]
  | query s t xs ptr h =>
    obtain ⟨h1, h2, _⟩ := SampleSet.query_frame h
    refine ⟨?_, ?_⟩
    · rw [h1]; exact hs.1
    · rw [h2]; exact hs.2
  | volumes s t xs ptr w n _ h _ =>
    obtain ⟨h1, h2, _⟩ := SampleSet.query_frame h
    refine ⟨?_, ?_⟩
    · have e : t.glob.values = s.glob.values := by rw [h1]
      exact e.trans hs.1
    · intro c hc
      exact hs.2 c (h2 ▸ hc)
  | trans s t u _ _ ih1 ih2 => exact ih2 (ih1 hs)

/-- What a touched set of cells keeps. -/
structure CellsInv (s₀ : SampleSet K) (n : Nat) (s : SampleSet K) : Prop where
  same : SameCells s₀ s
  ready : Ready s n
  inStep : InStep s n

theorem gatherArr_length {α : Type} {n : Nat} {l : Option (Chunks α)} {g : Option (List α)}
    (hl : ∀ c, l = some c → c.flatten.length = n) (hg : ∀ v, g = some v → v.length = n) :
    ∀ v, SampleSet.gatherArr l g = some v → v.length = n := by
  cases l with
  | none => exact hg
  | some c =>
    intro v hv
    cases hv
    exact hl c rfl

theorem splitArr_length {α : Type} {size n : Nat} (hsize : 0 < size) {l : Option (Chunks α)}
    {g : Option (List α)} (hl : ∀ c, l = some c → c.flatten.length = n)
    (hg : ∀ v, g = some v → v.length = n) :
    ∀ c, SampleSet.splitArr size g l = some c → c.flatten.length = n := by
  cases g with
  | none => exact hl
  | some v =>
    intro c hc
    cases hc
    rw [flatten_arraySplit _ _ hsize]
    exact hg v rfl

theorem gatherArr_same {α : Type} {l : Option (Chunks α)} {g : Option (List α)}
    (h : ∀ c, l = some c → g = some c.flatten) : SampleSet.gatherArr l g = g := by
  cases l with
  | none => rfl
  | some c => exact (h c rfl).symm

theorem splitArr_same {α : Type} {size : Nat} (hsize : 0 < size) {l : Option (Chunks α)}
    {g : Option (List α)} (h : ∀ c, l = some c → g = some c.flatten) :
    ∀ c, SampleSet.splitArr size g l = some c → g = some c.flatten := by
  cases g with
  | none => exact h
  | some v =>
    intro c hc
    cases hc
    rw [flatten_arraySplit _ _ hsize]

theorem query_cells {G : Geometry K} {size : Nat} {s₀ : SampleSet K} {n : Nat}
    {s t : SampleSet K} {xs : Chunks (List K)} {ptr : Chunks Nat}
    (h : s.query G size xs = .ok (t, ptr)) (hs : CellsInv s₀ n s) : CellsInv s₀ n t := by
  obtain ⟨h1, h2, _, _, h3, h4⟩ := SampleSet.query_frame h
  obtain ⟨s', hq, hr, _, _⟩ := SampleSet.query_ready (G := G) (size := size) hs.ready xs
  rw [h] at hq
  cases hq
  have hi := hs.inStep
  have ev : t.glob.values = s.glob.values := by rw [h1]
  have er : t.glob.right = s.glob.right := by rw [h1]
  have el : t.glob.left = s.glob.left := by rw [h1]
  have ea : t.glob.radii = s.glob.radii := by rw [h1]
  refine ⟨sameCells_trans hs.same ⟨h3, h4, ev, er, el, ea⟩, hr, ⟨?_, ?_, ?_, ?_, ?_⟩⟩
  · rw [h2]
    have := hi.lengths
    constructor
    · exact this.values
    · exact this.volumes
    · exact this.probabilities
    · exact this.densities
    · exact this.jacobians
    · exact this.errorEstimates
    · exact this.right
    · exact this.left
    · exact this.width
    · exact this.kdtreeValues
    · exact this.radii
    · exact this.normalizedRadii
    · exact this.region
    · exact this.errorId
  · rw [h2, ev]; exact hi.values
  · rw [h2, er]; exact hi.right
  · rw [h2, el]; exact hi.left
  · rw [h2, ea]; exact hi.radii

theorem touch_cells {G : Geometry K} {size : Nat} (hsize : 0 < size) {s₀ : SampleSet K} {n : Nat}
    {s t : SampleSet K} (h : Touch G size s t) (hs : CellsInv s₀ n s) : CellsInv s₀ n t := by
  induction h with
  | same => exact hs
  | split s t h =>
    rw [SampleSet.globalToLocal_ok hs.ready.consistent] at h
    cases h
    have hr := hs.ready
    have hi := hs.inStep
    have hA := hr.consistent.1
    have hL := hi.lengths
    refine ⟨⟨hs.same.kind, hs.same.pNorm, hs.same.values, hs.same.right, hs.same.left,
      hs.same.radii⟩, ⟨hr.consistent, hr.pos, hr.values, hr.tree, hr.rect, hr.ball⟩,
      ⟨?_, splitArr_same hsize hi.values, splitArr_same hsize hi.right,
        splitArr_same hsize hi.left, splitArr_same hsize hi.radii⟩⟩
    constructor
    · exact splitArr_length hsize hL.values hA.values
    · exact splitArr_length hsize hL.volumes hA.volumes
    · exact splitArr_length hsize hL.probabilities hA.probabilities
    · exact splitArr_length hsize hL.densities hA.densities
    · exact splitArr_length hsize hL.jacobians hA.jacobians
    · exact splitArr_length hsize hL.errorEstimates hA.errorEstimates
    · exact splitArr_length hsize hL.right hA.right
    · exact splitArr_length hsize hL.left hA.left
    · exact splitArr_length hsize hL.width hA.width
    · exact splitArr_length hsize hL.kdtreeValues hA.kdtreeValues
    · exact splitArr_length hsize hL.radii hA.radii
    · exact splitArr_length hsize hL.normalizedRadii hA.normalizedRadii
    · exact splitArr_length hsize hL.region hA.region
    · exact splitArr_length hsize hL.errorId hA.errorId
  | gather s =>
    have hr := hs.ready
    have hi := hs.inStep
    have hA := hr.consistent.1
    have hL := hi.lengths
    have ev : s.localToGlobal.glob.values = s.glob.values := gatherArr_same hi.values
    have er : s.localToGlobal.glob.right = s.glob.right := gatherArr_same hi.right
    have el : s.localToGlobal.glob.left = s.glob.left := gatherArr_same hi.left
    have ea : s.localToGlobal.glob.radii = s.glob.radii := gatherArr_same hi.radii
    refine ⟨⟨hs.same.kind, hs.same.pNorm, ev.trans hs.same.values, er.trans hs.same.right,
      el.trans hs.same.left, ea.trans hs.same.radii⟩,
      ⟨⟨?_, ?_, ?_⟩, hr.pos, ?_, ?_, ?_, ?_⟩, ⟨?_, ?_, ?_, ?_, ?_⟩⟩
    · constructor
      · exact gatherArr_length hL.values hA.values
      · exact gatherArr_length hL.volumes hA.volumes
      · exact gatherArr_length hL.probabilities hA.probabilities
      · exact gatherArr_length hL.densities hA.densities
      · exact gatherArr_length hL.jacobians hA.jacobians
      · exact gatherArr_length hL.errorEstimates hA.errorEstimates
      · exact gatherArr_length hL.right hA.right
      · exact gatherArr_length hL.left hA.left
      · exact gatherArr_length hL.width hA.width
      · exact gatherArr_length hL.kdtreeValues hA.kdtreeValues
      · exact gatherArr_length hL.radii hA.radii
      · exact gatherArr_length hL.normalizedRadii hA.normalizedRadii
      · exact gatherArr_length hL.region hA.region
      · exact gatherArr_length hL.errorId hA.errorId
    · intro hn
      have h1 := hn.values
      rw [ev] at h1
      have h2 := hr.values
      simp [h1] at h2
    · rw [ev]; exact hr.consistent.2.2
    · rw [ev]; exact hr.values
    · rw [ev]; exact hr.tree
    · rw [er, el]; exact hr.rect
    · rw [ea]; exact hr.ball
    · exact ⟨hL.values, hL.volumes, hL.probabilities, hL.densities, hL.jacobians,
        hL.errorEstimates, hL.right, hL.left, hL.width, hL.kdtreeValues, hL.radii,
        hL.normalizedRadii, hL.region, hL.errorId⟩
    · rw [ev]; exact hi.values
    · rw [er]; exact hi.right
    · rw [el]; exact hi.left
    · rw [ea]; exact hi.radii
  | query s t xs ptr h => exact query_cells h hs
  | volumes s t xs ptr w m hm hq hw =>
    rw [SampleSet.checkNum_consistent hs.ready.consistent] at hm
    cases hm
    replace hs := query_cells hq hs
    have hr := hs.ready
    have hi := hs.inStep
    refine ⟨⟨hs.same.kind, hs.same.pNorm, hs.same.values, hs.same.right, hs.same.left,
      hs.same.radii⟩, ⟨consistent_setVolumes hr.consistent hw, hr.pos, hr.values, hr.tree, hr.rect,
      hr.ball⟩, ⟨?_, hi.values, hi.right, hi.left, hi.radii⟩⟩
    have := hi.lengths
    exact ⟨this.values, this.volumes, this.probabilities, this.densities, this.jacobians,
      this.errorEstimates, this.right, this.left, this.width, this.kdtreeValues, this.radii,
      this.normalizedRadii, this.region, this.errorId⟩
  | trans s t u _ _ ih1 ih2 => exact ih2 (ih1 hs)

/-! ## What calls do to a discretization -/

def OptTouch (G : Geometry K) (size : Nat) (o o' : Option (SampleSet K)) : Prop :=
  ∀ s, o = some s → ∃ t, o' = some t ∧ Touch G size s t

theorem optTouch_refl (G : Geometry K) (size : Nat) (o : Option (SampleSet K)) :
    OptTouch G size o o := fun s hs => ⟨s, hs, .same s⟩

theorem optTouch_some {G : Geometry K} {size : Nat} {o : Option (SampleSet K)} {s t : SampleSet K}
    (ho : o = some s) (h : Touch G size s t) : OptTouch G size o (some t) := by
  intro s' hs'
  rw [ho] at hs'
  cases hs'
  exact ⟨t, rfl, h⟩

theorem optTouch_gather (G : Geometry K) (size : Nat) (o : Option (SampleSet K)) :
    OptTouch G size o (o.map SampleSet.localToGlobal) := by
  rintro s rfl
  exact ⟨_, rfl, .gather s⟩

theorem optTouch_split {G : Geometry K} {size : Nat} {o o' : Option (SampleSet K)}
    (h : Disc.localizeOpt size o = .ok o') : OptTouch G size o o' := by
  rintro s rfl
  simp only [Disc.localizeOpt, bind_eq_ok, pure_eq_ok] at h
  obtain ⟨t, ht, rfl⟩ := h
  exact ⟨t, rfl, .split _ _ ht⟩

theorem estimateVolumeEmulated_touch {G : Geometry K} {size : Nat} {s em s' em' : SampleSet K}
    (h : s.estimateVolumeEmulated G size em = .ok (s', em')) :
    Touch G size s s' ∧ Touch G size em em' := by
  simp only [SampleSet.estimateVolumeEmulated, bind_eq_ok, orErr_eq_ok, pure_eq_ok,
    Prod.mk.injEq] at h
  obtain ⟨num, hnum, em₁, hem, x, hx, ⟨s₁, ptr⟩, hq, _, _, s₂, hs₂, rfl, rfl⟩ := h
  refine ⟨?_, localized_touch hem⟩
  exact .trans _ _ _ (.volumes _ _ _ _ _ _ hnum hq (by simp)) (.split _ _ hs₂)

/-- What one call does to the points, the cells and the pointer of kind `k`. -/
structure StepOk (G : Geometry K) (size : Nat) (k : PtrKind) (d d' : Disc K) : Prop where
  points : OptTouch G size (pointsOf k d) (pointsOf k d')
  cells : OptTouch G size (cellsOf k d) (cellsOf k d')
  ptrLocal : pointerLocal k d' = pointerLocal k d
  ptr : pointer k d' = pointer k d ∨
    pointer k d = none ∧ pointer k d' = (pointerLocal k d).map List.flatten

theorem globalizePtrs_ok {G : Geometry K} {size : Nat} (d : Disc K) (k : PtrKind) :
    StepOk G size k d d.globalizePtrs := by
  have hrefl := optTouch_refl G size
  obtain ⟨i, o, p, ei, eo, io, iol, ii, iil, oo, ool⟩ := d
  cases io <;> cases iol <;> cases ii <;> cases iil <;> cases oo <;> cases ool <;> cases k <;>
    exact ⟨hrefl _, hrefl _, rfl, by first | exact Or.inl rfl | exact Or.inr ⟨rfl, rfl⟩⟩

theorem step_ok {G : Geometry K} {size : Nat} {d d' : Disc K} {op : DiscOp K} (k : PtrKind)
    (hr : ¬ Replaces k op) (hp : ∀ g, op ≠ .setPtr k g) (h : d.step G size op = .ok d') :
    StepOk G size k d d' := by
  have hrefl := optTouch_refl G size
  cases op with
  | setInput s =>
    cases h
    cases k
    · exact ⟨hrefl _, hrefl _, rfl, Or.inl rfl⟩
    · exact absurd trivial hr
    · exact ⟨hrefl _, hrefl _, rfl, Or.inl rfl⟩
  | setOutput s =>
    cases h
    cases k
    · exact absurd trivial hr
    · exact ⟨hrefl _, hrefl _, rfl, Or.inl rfl⟩
    · exact ⟨hrefl _, hrefl _, rfl, Or.inl rfl⟩
  | setProb s =>
    cases k
    · exact absurd trivial hr
    · have hb : d'.input = d.input ∧ d'.emInput = d.emInput ∧ d'.iiPtrLocal = d.iiPtrLocal ∧
          d'.iiPtr = d.iiPtr := by
        simp only [Disc.step, Disc.setOutputProbabilitySet] at h
        have hb : ∀ (b : Bool) (X : Except Err (Disc K)),
            (if b = true then X else throw Err.dimNotMatching) = .ok d' → X = .ok d' := by
          rintro (_ | _) X hX
          · exact absurd hX (throw_ne_ok _ _)
          · exact hX
        replace h := hb _ _ h
        rw [bind_eq_ok] at h
        obtain ⟨out, _, h⟩ := h
        split at h
        · simp only [Disc.setIoPtr, bind_eq_ok, orErr_eq_ok, pure_eq_ok] at h
          obtain ⟨_, _, _, _, _, _, _, _, _, _, rfl⟩ := h
          exact ⟨rfl, rfl, rfl, rfl⟩
        · rw [pure_eq_ok] at h
          subst h
          exact ⟨rfl, rfl, rfl, rfl⟩
      refine ⟨?_, ?_, hb.2.2.1, Or.inl hb.2.2.2⟩
      · simp only [pointsOf, hb.2.1]; exact hrefl _
      · simp only [cellsOf, hb.1]; exact hrefl _
    · exact absurd trivial hr
  | setEmOutput s =>
    have hb : d' = { d with emOutput := some s } := by
      have hb : ∀ (b : Bool) (X : Disc K),
          (if b = true then .ok X else .error Err.dimNotMatching : Except Err (Disc K)) = .ok d' →
            d' = X := by
        rintro (_ | _) X hX
        · simp at hX
        · simpa using hX.symm
      exact hb _ _ h
    subst hb
    cases k
    · exact ⟨hrefl _, hrefl _, rfl, Or.inl rfl⟩
    · exact ⟨hrefl _, hrefl _, rfl, Or.inl rfl⟩
    · exact absurd trivial hr
  | setEmInput s =>
    have hb : d' = { d with emInput := some s } := by
      simp only [Disc.step, Disc.setEmulatedInput] at h
      split at h
      · split at h
        · cases h; rfl
        · simp at h
      · cases h; rfl
    subst hb
    cases k
    · exact ⟨hrefl _, hrefl _, rfl, Or.inl rfl⟩
    · exact absurd trivial hr
    · exact ⟨hrefl _, hrefl _, rfl, Or.inl rfl⟩
  | setPtr k' g =>
    cases k' with
    | io =>
      simp only [Disc.step, Disc.setPtr, Disc.setIoPtr, bind_eq_ok, orErr_eq_ok, pure_eq_ok] at h
      obtain ⟨out, hout, out', hloc, ps, hps, x, hx, ⟨ps', ptr⟩, hq, rfl⟩ := h
      cases k
      · exact absurd rfl (hp g)
      · refine ⟨?_, ?_, ?_, ?_⟩ <;> cases g <;> first | exact hrefl _ | rfl | exact Or.inl rfl
      · refine ⟨?_, ?_, ?_, ?_⟩ <;> cases g <;>
          first
          | exact hrefl _
          | rfl
          | exact Or.inl rfl
          | exact optTouch_some hps (.query _ _ _ _ hq)
    | ii =>
      simp only [Disc.step, Disc.setPtr, Disc.setIiPtr, bind_eq_ok, orErr_eq_ok, pure_eq_ok] at h
      obtain ⟨out, hout, out', hloc, ps, hps, x, hx, ⟨ps', ptr⟩, hq, rfl⟩ := h
      cases k
      · refine ⟨?_, ?_, ?_, ?_⟩ <;> cases g <;> first | exact hrefl _ | rfl | exact Or.inl rfl
      · exact absurd rfl (hp g)
      · refine ⟨?_, ?_, ?_, ?_⟩ <;> cases g <;> first | exact hrefl _ | rfl | exact Or.inl rfl
    | oo =>
      simp only [Disc.step, Disc.setPtr, Disc.setOoPtr, bind_eq_ok, orErr_eq_ok, pure_eq_ok] at h
      obtain ⟨out, hout, out', hloc, ps, hps, x, hx, ⟨ps', ptr⟩, hq, rfl⟩ := h
      cases k
      · refine ⟨?_, ?_, ?_, ?_⟩ <;> cases g <;>
          first
          | exact hrefl _
          | rfl
          | exact Or.inl rfl
          | exact optTouch_some hps (.query _ _ _ _ hq)
      · refine ⟨?_, ?_, ?_, ?_⟩ <;> cases g <;> first | exact hrefl _ | rfl | exact Or.inl rfl
      · exact absurd rfl (hp g)
  | globalizePtrs =>
    cases h
    clear hr hp hrefl
    exact globalizePtrs_ok d k
  | estimateInput =>
    simp only [Disc.step, Disc.estimateInputVolumeEmulated, bind_eq_ok, orErr_eq_ok,
      pure_eq_ok] at h
    obtain ⟨em, hem, inp, hinp, ⟨inp', em'⟩, hv, rfl⟩ := h
    obtain ⟨t1, t2⟩ := estimateVolumeEmulated_touch hv
    cases k
    · exact ⟨hrefl _, hrefl _, rfl, Or.inl rfl⟩
    · exact ⟨optTouch_some hem t2, optTouch_some hinp t1, rfl, Or.inl rfl⟩
    · exact ⟨hrefl _, hrefl _, rfl, Or.inl rfl⟩
  | estimateOutput =>
    simp only [Disc.step, Disc.estimateOutputVolumeEmulated, bind_eq_ok, orErr_eq_ok,
      pure_eq_ok] at h
    obtain ⟨em, hem, out, hout, ⟨out', em'⟩, hv, rfl⟩ := h
    obtain ⟨t1, t2⟩ := estimateVolumeEmulated_touch hv
    cases k
    · exact ⟨optTouch_some hout t1, hrefl _, rfl, Or.inl rfl⟩
    · exact ⟨hrefl _, hrefl _, rfl, Or.inl rfl⟩
    · exact ⟨optTouch_some hem t2, hrefl _, rfl, Or.inl rfl⟩
  | localToGlobal =>
    cases h
    cases k <;> exact ⟨optTouch_gather _ _ _, optTouch_gather _ _ _, rfl, Or.inl rfl⟩
  | globalToLocal =>
    simp only [Disc.step, Disc.globalToLocal, bind_eq_ok, pure_eq_ok] at h
    obtain ⟨i, hi, o, ho, p, hp', e, he, rfl⟩ := h
    cases k
    · exact ⟨optTouch_split ho, optTouch_split hp', rfl, Or.inl rfl⟩
    · exact ⟨optTouch_split he, optTouch_split hi, rfl, Or.inl rfl⟩
    · exact ⟨hrefl _, optTouch_split hp', rfl, Or.inl rfl⟩

/-- What `set_io_ptr` and its two siblings do. -/
theorem setPtr_ok {G : Geometry K} {size : Nat} {d d' : Disc K} {k : PtrKind} {g : Bool}
    (h : d.setPtr G size k g = .ok d') :
    ∃ s s' t t' x ptr, pointsOf k d = some s ∧ s.localized size = .ok s' ∧
      cellsOf k d = some t ∧ s'.loc.values = some x ∧ t.query G size x = .ok (t', ptr) ∧
      pointsOf k d' = some s' ∧ cellsOf k d' = some t' ∧ pointerLocal k d' = some ptr ∧
      pointer k d' = if g then some ptr.flatten else pointer k d := by
  cases k with
  | io =>
    simp only [Disc.setPtr, Disc.setIoPtr, bind_eq_ok, orErr_eq_ok, pure_eq_ok] at h
    obtain ⟨s, hs, s', hs', t, ht, x, hx, ⟨t', ptr⟩, hq, rfl⟩ := h
    refine ⟨s, s', t, t', x, ptr, hs, hs', ht, hx, hq, ?_⟩
    cases g <;> exact ⟨rfl, rfl, rfl, rfl⟩
  | ii =>
    simp only [Disc.setPtr, Disc.setIiPtr, bind_eq_ok, orErr_eq_ok, pure_eq_ok] at h
    obtain ⟨s, hs, s', hs', t, ht, x, hx, ⟨t', ptr⟩, hq, rfl⟩ := h
    refine ⟨s, s', t, t', x, ptr, hs, hs', ht, hx, hq, ?_⟩
    cases g <;> exact ⟨rfl, rfl, rfl, rfl⟩
  | oo =>
    simp only [Disc.setPtr, Disc.setOoPtr, bind_eq_ok, orErr_eq_ok, pure_eq_ok] at h
    obtain ⟨s, hs, s', hs', t, ht, x, hx, ⟨t', ptr⟩, hq, rfl⟩ := h
    refine ⟨s, s', t, t', x, ptr, hs, hs', ht, hx, hq, ?_⟩
    cases g <;> exact ⟨rfl, rfl, rfl, rfl⟩

/-- The state between two calls. -/
structure PtrInv (G : Geometry K) (k : PtrKind) (glob : Prop) (v : List (List K))
    (s₀ : SampleSet K) (n : Nat) (d : Disc K) : Prop where
  points : ∃ s, pointsOf k d = some s ∧ PointsInv v s
  cells : ∃ t, cellsOf k d = some t ∧ CellsInv s₀ n t
  local_ : ∃ p, pointerLocal k d = some p ∧ p.flatten = v.map (s₀.cell G)
  ptr : glob → pointer k d = some (v.map (s₀.cell G))

theorem setPtr_inv {G : Geometry K} {size : Nat} (hsize : 0 < size) {d d' : Disc K} {k : PtrKind}
    {g : Bool} {glob : Prop} {v : List (List K)} {s₀ : SampleSet K} {n : Nat}
    (hs : ∃ s, pointsOf k d = some s ∧ PointsInv v s)
    (ht : ∃ t, cellsOf k d = some t ∧ CellsInv s₀ n t)
    (hg : glob → g = true ∨ pointer k d = some (v.map (s₀.cell G)))
    (h : d.setPtr G size k g = .ok d') : PtrInv G k glob v s₀ n d' := by
  obtain ⟨s, s', t, t', x, ptr, h1, h2, h3, h4, h5, h6, h7, h8, h9⟩ := setPtr_ok h
  obtain ⟨s₁, hs₁, hs⟩ := hs
  obtain ⟨t₁, ht₁, ht⟩ := ht
  rw [h1] at hs₁
  cases hs₁
  rw [h3] at ht₁
  cases ht₁
  have hs' := touch_points (G := G) hsize (localized_touch h2) hs
  obtain ⟨t₂, hq, _⟩ := SampleSet.query_ready (G := G) (size := size) ht.ready x
  rw [h5] at hq
  simp only [Except.ok.injEq, Prod.mk.injEq] at hq
  have hflat : ptr.flatten = v.map (s₀.cell G) := by
    rw [hq.2, cell_sameCells ht.same, ← hs'.2 x h4, List.map_flatten]
  refine ⟨⟨s', h6, hs'⟩, ⟨t', h7, query_cells h5 ht⟩, ⟨ptr, h8, hflat⟩, fun hglob => ?_⟩
  rw [h9]
  cases g with
  | true => simp [hflat]
  | false =>
    rcases hg hglob with h | h
    · simp at h
    · simpa using h

theorem step_inv {G : Geometry K} {size : Nat} (hsize : 0 < size) {d d' : Disc K} {k : PtrKind}
    {glob : Prop} {v : List (List K)} {s₀ : SampleSet K} {n : Nat} {op : DiscOp K}
    (hr : ¬ Replaces k op) (hi : PtrInv G k glob v s₀ n d) (h : d.step G size op = .ok d') :
    PtrInv G k glob v s₀ n d' := by
  by_cases hp : ∃ g, op = .setPtr k g
  · obtain ⟨g, rfl⟩ := hp
    exact setPtr_inv hsize hi.points hi.cells (fun hg => Or.inr (hi.ptr hg)) h
  · have hok := step_ok k hr (fun g hg => hp ⟨g, hg⟩) h
    obtain ⟨s, hs, hsi⟩ := hi.points
    obtain ⟨t, ht, hti⟩ := hi.cells
    obtain ⟨s', hs', hsT⟩ := hok.points s hs
    obtain ⟨t', ht', htT⟩ := hok.cells t ht
    refine ⟨⟨s', hs', touch_points hsize hsT hsi⟩, ⟨t', ht', touch_cells hsize htT hti⟩, ?_, ?_⟩
    · rw [hok.ptrLocal]; exact hi.local_
    · intro hg
      rcases hok.ptr with h | ⟨h, _⟩
      · rw [h]; exact hi.ptr hg
      · rw [hi.ptr hg] at h
        simp at h

theorem run_inv {G : Geometry K} {size : Nat} (hsize : 0 < size) {k : PtrKind} {glob : Prop}
    {v : List (List K)} {s₀ : SampleSet K} {n : Nat} {ops : List (DiscOp K)}
    (hr : ∀ op ∈ ops, ¬ Replaces k op) {d d' : Disc K} (hi : PtrInv G k glob v s₀ n d)
    (h : d.run G size ops = .ok d') : PtrInv G k glob v s₀ n d' := by
  induction ops generalizing d with
  | nil =>
    simp only [Disc.run, List.foldlM_nil, pure_eq_ok] at h
    exact h ▸ hi
  | cons op ops ih =>
    simp only [Disc.run, List.foldlM_cons, bind_eq_ok] at h
    obtain ⟨u, hu, h⟩ := h
    exact ih (fun o ho => hr o (by simp [ho])) (step_inv hsize (hr op (by simp)) hi hu) h

/-! ## The property -/

/-- **C112.** Compute one of the three pointers of a discretization (`set_io_ptr`,
`set_emulated_ii_ptr`, `set_emulated_oo_ptr`), on any number of processes, and then make any calls
that succeed and replace neither the set of points nor the set of cells of that pointer.  The points
`v` and the cells are still those of before, the parts of the pointer that the processes hold
together name the cell of every point, and so does the global pointer if it was asked for. -/
theorem C112_pointers_current {G : Geometry K} (hG : Sound G) {size : Nat} (hsize : 0 < size)
    {d d₁ d₂ : Disc K} {k : PtrKind} {g : Bool} {pts cells : SampleSet K} {v : List (List K)}
    {n : Nat} (hpts : pointsOf k d = some pts) (hv : pts.glob.values = some v)
    (hloc : ∀ c, pts.loc.values = some c → c.flatten = v)
    (hcells : cellsOf k d = some cells) (hready : Ready cells n) (hstep : InStep cells n)
    (h₁ : d.setPtr G size k g = .ok d₁) {ops : List (DiscOp K)}
    (hops : ∀ op ∈ ops, ¬ Replaces k op) (h₂ : d₁.run G size ops = .ok d₂) :
    ∃ pts' cells' ptr, pointsOf k d₂ = some pts' ∧ pts'.glob.values = some v ∧
      cellsOf k d₂ = some cells' ∧ SameCells cells cells' ∧
      pointerLocal k d₂ = some ptr ∧ List.Forall₂ (IsCell G cells') v ptr.flatten ∧
      (g = true → pointer k d₂ = some ptr.flatten) := by
  have hi := setPtr_inv (glob := g = true) hsize ⟨pts, hpts, hv, hloc⟩
    ⟨cells, hcells, sameCells_refl _, hready, hstep⟩ (fun hg => Or.inl hg) h₁
  obtain ⟨⟨s, hs, hsi⟩, ⟨t, ht, hti⟩, ⟨p, hp, hpf⟩, hptr⟩ := run_inv hsize hops hi h₂
  refine ⟨s, t, p, hs, hsi.1, ht, hti.same, hp, ?_, fun hg => by rw [hptr hg, hpf]⟩
  rw [hpf, List.forall₂_map_right_iff]
  refine List.forall₂_same.mpr fun x _ => ?_
  rw [isCell_sameCells hti.same]
  exact SampleSet.cell_isCell hG hready x

end BET

namespace BET.Ex

open BET.Spec

def histOut : SampleSet ℚ where
  dim := 1
  glob := { values := some [[0], [5], [4]] }
  loc := { values := some [[[0]], [[5], [4]]] }

def histCells : SampleSet ℚ where
  dim := 1
  glob := { values := some [[0], [5]] }

/-- Three outputs, unevenly spread over two processes, and two cells. -/
def histDisc : Disc ℚ where
  input := some { dim := 1, glob := { values := some [[0], [1], [2]] } }
  output := some histOut
  outputProb := some histCells
  emInput := some em1
  emOutput := some em1

/-- C112: the hypotheses hold and a history with every kind of call that is allowed runs. -/
example : pointsOf .io histDisc = some histOut ∧
    (∀ c, histOut.loc.values = some c → c.flatten = [[0], [5], [4]]) ∧
    cellsOf .io histDisc = some histCells ∧ Ready histCells 2 ∧ InStep histCells 2 :=
  ⟨rfl, fun c hc => by cases hc; rfl, rfl,
    ⟨consistent_of _ _ rfl rfl, by norm_num, rfl, Or.inl rfl, nofun, nofun⟩,
    ⟨by constructor <;> nofun, nofun, nofun, nofun, nofun⟩⟩

example : ∀ op ∈ ([.globalToLocal, .setPtr .oo false, .estimateInput, .globalizePtrs,
      .estimateOutput, .localToGlobal, .setInput em1, .setPtr .io false] : List (DiscOp ℚ)),
    ¬ Replaces .io op := by
  intro op h
  simp only [List.mem_cons, List.not_mem_nil, or_false] at h
  rcases h with rfl | rfl | rfl | rfl | rfl | rfl | rfl | rfl <;> exact id

example : ((histDisc.setPtr G 2 .io true).bind fun d => d.run G 2 [.globalToLocal, .setPtr .oo false,
      .estimateInput, .globalizePtrs, .estimateOutput, .localToGlobal, .setInput em1,
      .setPtr .io false]).toOption.bind (fun d => d.ioPtr) = some [0, 1, 1] := by
  decide +kernel

/-- **C112, negation.** The claim needs its guard: give the discretization other outputs and both
pointers stay those of the old ones. -/
theorem C112_negation_replaced :
    ∃ (d₁ d₂ : Disc ℚ) (s : SampleSet ℚ), histDisc.setPtr G 2 .io true = .ok d₁ ∧
      d₁.run G 2 [.setOutput s] = .ok d₂ ∧ s.glob.values = some [[5], [0], [0]] ∧
      d₂.ioPtr = some [0, 1, 1] ∧ d₂.ioPtrLocal = some [[0], [1, 1]] ∧
      ¬ IsCell G histCells [5] 0 := by
  refine ⟨_, _, { dim := 1, glob := { values := some [[5], [0], [0]] } }, rfl, rfl, rfl,
    by decide +kernel, by decide +kernel, ?_⟩
  intro h
  obtain ⟨c, hc, hmin⟩ := h [[0], [5]] rfl
  simp only [List.getElem?_cons_zero, Option.some.injEq] at hc
  subst hc
  have h' : dist1 [5] [0] ≤ dist1 [5] [5] := hmin [5] (by simp)
  exact absurd h' (by decide +kernel)

/-- **C112, negation.** It holds for the parts together, not process by process: after
`global_to_local` the processes hold other parts of the outputs, and the parts of the pointer no
longer belong to them. -/
theorem C112_negation_aligned :
    ∃ d₁ d₂ : Disc ℚ, histDisc.setPtr G 2 .io true = .ok d₁ ∧
      d₁.run G 2 [.globalToLocal] = .ok d₂ ∧
      (d₂.output.bind (·.loc.values)) = some [[[0], [5]], [[4]]] ∧
      d₂.ioPtrLocal = some [[0], [1, 1]] :=
  ⟨_, _, rfl, rfl, rfl, by decide +kernel⟩

end BET.Ex
