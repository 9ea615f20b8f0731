import Verif.Model.SamplingError
import Verif.Props.Connectivity
import Verif.Props.Volumes
import Verif.Props.Sampler
import Verif.Props.Discretization

/-!
# `sampling_error` from a discretization to the bounds (C110)
-/

set_option autoImplicit false
set_option linter.unusedSectionVars false
set_option linter.unusedSimpArgs false

namespace BET

open Spec

/-! ### Specification -/

namespace Spec

/-- Cell `j` lies in the interior of the contour event `ev`: it belongs to the event, it has a
neighbour, and all its neighbours belong to the event. -/
def InteriorCell (adj : Nat → Nat → Prop) (event : List Nat) (ev j : Nat) : Prop :=
  event[j]? = some ev ∧ (∃ q, adj j q ∧ event[q]? = some ev) ∧
    ∀ q v, adj j q → event[q]? = some v → v = ev

/-- Cell `j` has a neighbour in the contour event `ev`. -/
def TouchingCell (adj : Nat → Nat → Prop) (event : List Nat) (ev j : Nat) : Prop :=
  ∃ q, adj j q ∧ event[q]? = some ev

open Classical in
/-- The volume of the cells with property `P`. -/
noncomputable def volumeOf {K : Type} [AddMonoid K] (vols : List K) (P : Nat → Prop) : K :=
  ((List.range vols.length).map fun i => if P i then vols.getD i 0 else 0).sum

/-- The upper and lower bounds of the contour events with probabilities `probs`, for the neighbour
relation `adj`, the event `event[j]` and the volume `vols[j]` of every cell `j`. -/
structure ContourBounds {K : Type} [Field K] [LinearOrder K] (adj : Nat → Nat → Prop)
    (event : List Nat) (vols probs : List K) (bounds : List (Num K × Num K)) : Prop where
  length : bounds.length = probs.length
  null : ∀ (i : Nat) p, probs[i]? = some p → p ≤ 0 → bounds[i]? = some (.fin 0, .fin 0)
  unknown : ∀ (i : Nat) p, probs[i]? = some p → 0 < p → (∀ j, ¬ InteriorCell adj event i j) →
    bounds[i]? = some (.nan, .nan)
  bound : ∀ (i : Nat) p, probs[i]? = some p → 0 < p → 0 < volumeOf vols (InteriorCell adj event i) →
    ∃ up lo, bounds[i]? = some (.fin up, .fin lo) ∧ lo ≤ 0 ∧ 0 ≤ up ∧
      up = p * (volumeOf vols (fun j => TouchingCell adj event i j ∧ event[j]? = some i) /
        volumeOf vols (InteriorCell adj event i) - 1) ∧
      lo = p * (volumeOf vols (InteriorCell adj event i) /
        volumeOf vols (TouchingCell adj event i) - 1)

/-- Two samples share a simplex. -/
def ShareSimplex (simplices : List (List Nat)) (p q : Nat) : Prop :=
  ∃ t ∈ simplices, ∃ a b : Nat, a ≠ b ∧ t[a]? = some p ∧ t[b]? = some q

end Spec

section
variable {K : Type} [Field K] [LinearOrder K]

/-- A discretization of samples `x` with outputs `y` and the measure `ps` with probabilities `probs`
of its `m` cells. A pointer that is there already is right. -/
structure Spec.SamplingProblem (G : Geometry K) (d : Disc K) (inp out ps : SampleSet K)
    (x y : List (List K)) (probs : List K) (m : Nat) : Prop where
  input : d.input = some inp
  inputOk : Ready inp x.length
  values : inp.glob.values = some x
  voronoi : inp.kind = .voronoi
  norm : inp.pNorm = 2
  output : d.output = some out
  outputOk : Consistent out x.length
  outputs : out.glob.values = some y
  current : LocalCurrent out y
  measure : d.outputProb = some ps
  measureOk : Ready ps m
  probs : ps.glob.probabilities = some probs
  pointer : ∀ io, d.ioPtr = some io → List.Forall₂ (IsCell G ps) y io

/-- The volumes `vols` that `calculate_for_contour_events` uses: those of the set; or, if it has none,
the fractions of the emulated points in the cells; or, without such points, equal volumes. -/
def Spec.UsedVolumes (G : Geometry K) (d : Disc K) (inp : SampleSet K) (n : Nat) (vols : List K) : Prop :=
  inp.glob.volumes = some vols ∨
  (inp.glob.volumes = none ∧ d.emInput = none ∧ vols = List.replicate n (1 / (n : K))) ∨
  (inp.glob.volumes = none ∧ ∃ em pts, d.emInput = some em ∧ em.glob.values = some pts ∧
    CellFractions G inp n pts vols)

/-- The emulated points, if there are any, are a new set. -/
def Spec.EmulatedOk (d : Disc K) : Prop :=
  ∀ em, d.emInput = some em → ∃ k, Consistent em k ∧ 0 < k ∧ em.glob.values.isSome ∧ em.loc.values = none

end

/-! ### From neighbour lists to a neighbour relation -/

theorem interior_iff {num : Nat} {nei : NeiList} {io : List Nat} {adj : Nat → Nat → Prop}
    (hio : io.length = num)
    (h : ∀ p v, (nei p).Nodup ∧ (v ∈ nei p ↔ IsNeighbourEvent adj io p v)) (ev j : Nat) :
    Interior num nei io ev j ↔ InteriorCell adj io ev j := by
  have hmem : ∀ v, v ∈ nei j ↔ ∃ q, adj j q ∧ io[q]? = some v := fun v => (h j v).2
  constructor
  · rintro ⟨-, h1, h2⟩
    refine ⟨h1, (hmem ev).1 (by simp [h2]), fun q v hq hv => ?_⟩
    have := (hmem v).2 ⟨q, hq, hv⟩
    rw [h2] at this
    simpa using this
  · rintro ⟨h1, h2, h3⟩
    refine ⟨hio ▸ (List.getElem?_eq_some_iff.1 h1).1, h1, ?_⟩
    have hev := (hmem ev).2 h2
    have hall : ∀ v ∈ nei j, v = ev := fun v hv => by
      obtain ⟨q, hq, hv⟩ := (hmem v).1 hv
      exact h3 q v hq hv
    have hnd := (h j ev).1
    match hl : nei j with
    | [] => rw [hl] at hev; cases hev
    | [a] => rw [hall a (by simp [hl])]
    | a :: b :: l =>
      rw [hl] at hnd
      have ha := hall a (by simp [hl])
      have hb := hall b (by simp [hl])
      subst ha
      subst hb
      simp at hnd

theorem touches_iff {num : Nat} {nei : NeiList} {io : List Nat} {adj : Nat → Nat → Prop}
    (h : ∀ p v, (nei p).Nodup ∧ (v ∈ nei p ↔ IsNeighbourEvent adj io p v)) (ev j : Nat) :
    Touches num nei ev j ↔ j < num ∧ TouchingCell adj io ev j :=
  and_congr_right fun _ => (h j ev).2

theorem volOf_eq_volumeOf {K : Type} [AddMonoid K] (vols : List K) (P Q : Nat → Prop)
    [DecidablePred P] (h : ∀ i < vols.length, P i ↔ Q i) : volOf vols P = volumeOf vols Q := by
  unfold volOf volumeOf
  congr 1
  refine List.map_congr_left fun i hi => ?_
  have := h i (List.mem_range.1 hi)
  by_cases hq : Q i
  · rw [if_pos hq, if_pos (this.2 hq)]
  · rw [if_neg hq, if_neg fun hp => hq (this.1 hp)]

section
variable {K : Type} [Field K] [LinearOrder K] [IsStrictOrderedRing K]

theorem contourBounds_of {num : Nat} {nei : NeiList} {io : List Nat} {e : Keys} {vols probs : List K}
    {adj : Nat → Nat → Prop} (hio : io.length = num) (hvl : vols.length = num)
    (hv : ∀ v ∈ vols, 0 ≤ v)
    (hadj : ∀ p v, (nei p).Nodup ∧ (v ∈ nei p ↔ IsNeighbourEvent adj io p v))
    (h : boundarySets num nei io = .ok e) :
    ContourBounds adj io vols probs (contourErrors e io vols probs).1 := by
  obtain ⟨h1, h2⟩ := C37_bounds (probs := probs) (fun i => (hadj i 0).1) hio hvl hv h
  have hI : ∀ i, volOf vols (Interior num nei io i) = volumeOf vols (InteriorCell adj io i) :=
    fun i => volOf_eq_volumeOf _ _ _ fun j _ => interior_iff hio hadj i j
  have hT : ∀ i, volOf vols (Touches num nei i) = volumeOf vols (TouchingCell adj io i) :=
    fun i => volOf_eq_volumeOf _ _ _ fun j hj => by
      rw [touches_iff hadj]; exact and_iff_right (hvl ▸ hj)
  have hTI : ∀ i, volOf vols (fun j => Touches num nei i j ∧ io[j]? = some i) =
      volumeOf vols (fun j => TouchingCell adj io i j ∧ io[j]? = some i) :=
    fun i => volOf_eq_volumeOf _ _ _ fun j hj => by
      rw [touches_iff hadj]
      exact and_congr_left' (and_iff_right (hvl ▸ hj))
  refine ⟨h1, fun i p hp hp0 => ?_, fun i p hp hp0 hn => ?_, fun i p hp hp0 hpos => ?_⟩
  · obtain ⟨up, lo, g1, g2, -, -⟩ := h2 i p hp
    obtain ⟨rfl, rfl⟩ := g2 hp0
    exact g1
  · obtain ⟨up, lo, g1, -, g3, -⟩ := h2 i p hp
    obtain ⟨rfl, rfl⟩ := g3 hp0 fun j hj => hn j ((interior_iff hio hadj i j).1 hj)
    exact g1
  · obtain ⟨up, lo, g1, -, -, g4⟩ := h2 i p hp
    obtain ⟨-, rfl, rfl, k1, k2⟩ := g4 hp0 (by rw [hI]; exact hpos)
    rw [hI, hTI] at k1
    rw [hI, hT] at k2
    exact ⟨_, _, g1, by rw [hI, hT]; exact k2, by rw [hI, hTI]; exact k1, by rw [hI, hTI], by rw [hI, hT]⟩

theorem delaunay_total (simplices : List (List Nat)) (io : List Nat)
    (h : ∀ t ∈ simplices, ∀ i ∈ t, i < io.length) : ∃ nei, connectivityDelaunay simplices io = .ok nei := by
  unfold connectivityDelaunay
  have key : ∀ (l : List (Nat × Nat)) (nei : NeiList), (∀ q ∈ l, q.1 < io.length ∧ q.2 < io.length) →
      ∃ nei', l.foldlM (linkPair io) nei = .ok nei' := by
    intro l
    induction l with
    | nil => exact fun nei _ => ⟨nei, rfl⟩
    | cons q l ih =>
      intro nei hl
      obtain ⟨h1, h2⟩ := hl q (List.mem_cons_self ..)
      obtain ⟨nei', hn⟩ := ih ((nei.add q.1 io[q.2]).add q.2 io[q.1]) fun q hq =>
        hl q (List.mem_cons_of_mem _ hq)
      refine ⟨nei', ?_⟩
      rw [List.foldlM_cons]
      simp only [linkPair, getIdx, List.getElem?_eq_getElem h1, List.getElem?_eq_getElem h2]
      exact hn
  refine key _ _ fun q hq => ?_
  obtain ⟨t, ht, hq⟩ := List.mem_flatMap.1 hq
  obtain ⟨i, j⟩ := q
  obtain ⟨a, b, -, ha, hb⟩ := (mem_pairs t i j).1 hq
  exact ⟨h t ht i (List.mem_of_getElem? ha), h t ht j (List.mem_of_getElem? hb)⟩

/-! ### The object -/

/-- What `sampling_error` and its method do with a discretization, in closed form. -/
structure Ran (G : Geometry K) (size : Nat) (argsort : List K → List Nat)
    (delaunay : List (List K) → Except Err (List (List Nat))) (d : Disc K) (inp ps : SampleSet K)
    (x y : List (List K)) (probs : List K) (io : List Nat) (nei : NeiList) (e : Keys) (vols : List K) :
    Prop where
  hio : io = d.ioPtr.getD (y.map (ps.cell G))
  hconn : connectivityOf argsort delaunay x.length inp.dim x io = .ok nei
  hsets : boundarySets x.length nei io = .ok e
  hvols : vols = inp.glob.volumes.getD (match d.emInput with
    | some em => cellFractions G inp x.length (em.glob.values.getD [])
    | none => List.replicate x.length (1 / (x.length : K)))
  run : ∃ d1 d2, samplingErrorInit G size argsort delaunay d = .ok (e, d1) ∧
    samplingContour G size e d1 = .ok ((contourErrors e io vols probs).1,
      (contourErrors e io vols probs).2, d2)

theorem ensureGlobalIoPtr_ok {G : Geometry K} {size : Nat} (hsize : 0 < size) {d : Disc K}
    {inp out ps : SampleSet K} {x y : List (List K)} {probs : List K} {m : Nat}
    (h : SamplingProblem G d inp out ps x y probs m) :
    ∃ d1 out1 ps1, ensureGlobalIoPtr G size d = .ok d1 ∧ d1.input = some inp ∧
      d1.output = some out1 ∧ Consistent out1 x.length ∧ d1.outputProb = some ps1 ∧ Ready ps1 m ∧
      ps1.glob.probabilities = some probs ∧ d1.emInput = d.emInput ∧
      d1.ioPtr = some (d.ioPtr.getD (y.map (ps.cell G))) := by
  cases hptr : d.ioPtr with
  | some io =>
    refine ⟨d, out, ps, by simp [ensureGlobalIoPtr, hptr, pure, Except.pure], h.input, h.output,
      h.outputOk, h.measure, h.measureOk, h.probs, rfl, by simp [hptr]⟩
  | none =>
    simp only [Option.getD_none]
    have hloc : ∃ out1 c, out.localized size = .ok out1 ∧ out1.loc.values = some c ∧ c.flatten = y ∧
        Consistent out1 x.length := by
      rcases h.current with h0 | ⟨c, hc, hfl⟩
      · refine ⟨out.splitSet size x.length, arraySplit size y, ?_, ?_, flatten_arraySplit _ _ hsize,
          h.outputOk⟩
        · rw [SampleSet.localized_none size h0, SampleSet.globalToLocal_ok h.outputOk]
        · simp [SampleSet.splitSet, Arrays.map₂, h.outputs]
      · exact ⟨out, c, SampleSet.localized_some size hc, hc, hfl, h.outputOk⟩
    obtain ⟨out1, c, h1, h2, h3, h4⟩ := hloc
    obtain ⟨ps1, hq, hr1, -, -⟩ := SampleSet.query_ready (G := G) (size := size) h.measureOk c
    have hpp : ps1.glob.probabilities = some probs := by
      rw [(SampleSet.query_frame hq).1]; exact h.probs
    refine ⟨{ d with
        output := some out1
        outputProb := some ps1
        ioPtrLocal := some (c.map fun c => c.map (ps.cell G))
        ioPtr := some (y.map (ps.cell G)) }, out1, ps1, ?_, h.input, rfl, h4, rfl, hr1, hpp, rfl, rfl⟩
    simp only [ensureGlobalIoPtr, hptr, Option.isNone_none, if_true, Disc.setIoPtr, h.output,
      orErr_some, ok_bind, h1, h.measure, h2, hq, getGlobalValues]
    rw [← List.map_flatten, h3]
    rfl

theorem samplingError_ran {G : Geometry K} {size : Nat} (hsize : 0 < size) {argsort : List K → List Nat}
    {delaunay : List (List K) → Except Err (List (List Nat))} {d : Disc K}
    {inp out ps : SampleSet K} {x y : List (List K)} {probs : List K} {m : Nat}
    (h : SamplingProblem G d inp out ps x y probs m) (hem : EmulatedOk d) {io : List Nat}
    {nei : NeiList} (hio : io = d.ioPtr.getD (y.map (ps.cell G)))
    (hconn : connectivityOf argsort delaunay x.length inp.dim x io = .ok nei) :
    ∃ e vols, Ran G size argsort delaunay d inp ps x y probs io nei e vols := by
  have hyl : y.length = x.length := h.outputOk.1.values _ h.outputs
  have hiol : io.length = x.length := by
    rw [hio]
    cases hp : d.ioPtr with
    | none => simp [hyl]
    | some l => rw [Option.getD_some, ← (h.pointer l hp).length_eq, hyl]
  obtain ⟨e, he⟩ := C36_defined x.length nei io hiol
  obtain ⟨d1, out1, ps1, g1, g2, g3, g4, g5, g6, g7, g8, g9⟩ := ensureGlobalIoPtr_ok hsize h
  rw [← hio] at g9
  have hinpc := h.inputOk.consistent
  have hc0 : d.checkNums size = .ok x.length := checkNums_ok h.input h.output hinpc h.outputOk size
  have hc1 : d1.checkNums size = .ok x.length := checkNums_ok g2 g3 hinpc g4 size
  have hv : ∀ {d' : Disc K}, d'.input = some inp → checkVoronoi2 d' = .ok () := by
    intro d' hd'
    simp [checkVoronoi2, hd', h.voronoi, h.norm, raiseIf, ok_bind, pure, Except.pure]
  have hens : ensureGlobalIoPtr G size d1 = .ok d1 := by
    simp [ensureGlobalIoPtr, g9, pure, Except.pure]
  have hinit : samplingErrorInit G size argsort delaunay d = .ok (e, d1) := by
    simp only [samplingErrorInit, connectivityExact, boundarySetsOf, hc0, hc1, hv h.input, hv g2, g1,
      hens, g9, g2, h.values, orErr_some, ok_bind, hconn, pure_bind_ok, he]
    rfl
  refine ⟨e, _, hio, hconn, he, rfl, ?_⟩
  have hops := SampleSet.checkNum_consistent (size := size) g6.consistent
  cases hvol : inp.glob.volumes with
  | some vols =>
    refine ⟨d1, d1, hinit, ?_⟩
    simp only [samplingContour, g2, orErr_some, ok_bind, contourVolumes, hvol, pure_bind_ok, g5, hops,
      g7, g9, Option.getD_some]
    rfl
  | none =>
    rw [Option.getD_none]
    cases hemv : d.emInput with
    | none =>
      have hn := h.inputOk.pos
      have hc := consistent_setVolumes hinpc (vol := List.replicate x.length (1 / (x.length : K) * 1))
        (by simp)
      obtain ⟨inp', hmc, hinp'⟩ : ∃ inp', inp.estimateVolumeMc size true = .ok inp' ∧
          inp'.glob.volumes = some (List.replicate x.length (1 / (x.length : K))) := by
        unfold SampleSet.estimateVolumeMc
        simp only [SampleSet.checkNum_consistent hinpc, ok_bind, if_true,
          SampleSet.globalToLocal_ok hc, raiseIf, hn.ne', if_false]
        exact ⟨_, rfl, congrArg (fun a => some (List.replicate x.length a)) (mul_one (1 / (x.length : K)))⟩
      refine ⟨d1, { d1 with input := some inp' }, hinit, ?_⟩
      rw [hemv] at g8
      simp only [samplingContour, g2, orErr_some, ok_bind, contourVolumes, hvol, g8, pure_bind_ok,
        hmc, g5, hops, g7, g9, hinp']
      rfl
    | some em =>
      obtain ⟨k, hk1, hk2, hk3, hk4⟩ := hem em hemv
      obtain ⟨pts, hpts⟩ := Option.isSome_iff_exists.1 hk3
      obtain ⟨inp', em', f1, f2, -, -⟩ := estimateVolumeEmulated_ok (G := G) hsize h.inputOk hk1 hk2 hpts hk4
      refine ⟨d1, { d1 with input := some inp', emInput := some em' }, hinit, ?_⟩
      rw [hemv] at g8
      simp only [samplingContour, g2, orErr_some, ok_bind, contourVolumes, hvol, g8, pure_bind_ok,
        Disc.estimateInputVolumeEmulated, f1, g5, hops, g7, g9, f2, hpts, Option.getD_some]
      rfl

theorem used_of_ran {G : Geometry K} (hG : Sound G) {size : Nat} {argsort : List K → List Nat}
    {delaunay : List (List K) → Except Err (List (List Nat))} {d : Disc K}
    {inp out ps : SampleSet K} {x y : List (List K)} {probs : List K} {m : Nat}
    (h : SamplingProblem G d inp out ps x y probs m) (hem : EmulatedOk d) {io : List Nat}
    {nei : NeiList} {e : Keys} {vols : List K}
    (hpos : ∀ vols, inp.glob.volumes = some vols → ∀ v ∈ vols, 0 ≤ v)
    (hr : Ran G size argsort delaunay d inp ps x y probs io nei e vols) :
    List.Forall₂ (IsCell G ps) y io ∧ UsedVolumes G d inp x.length vols ∧ vols.length = x.length ∧
      ∀ v ∈ vols, 0 ≤ v := by
  refine ⟨?_, ?_⟩
  · rw [hr.hio]
    cases hp : d.ioPtr with
    | some l => exact h.pointer l hp
    | none =>
      rw [Option.getD_none, List.forall₂_map_right_iff]
      exact List.forall₂_same.mpr fun z _ => SampleSet.cell_isCell hG h.measureOk z
  · have hv := hr.hvols
    have hn := h.inputOk.pos
    cases hvol : inp.glob.volumes with
    | some w =>
      rw [hvol, Option.getD_some] at hv
      subst hv
      exact ⟨Or.inl hvol, h.inputOk.consistent.1.volumes _ hvol, hpos _ hvol⟩
    | none =>
      rw [hvol, Option.getD_none] at hv
      cases hemv : d.emInput with
      | none =>
        rw [hemv] at hv
        simp only at hv
        subst hv
        refine ⟨Or.inr (Or.inl ⟨hvol, hemv, rfl⟩), by simp, fun v hv => ?_⟩
        rw [(List.mem_replicate.1 hv).2]
        positivity
      | some em =>
        obtain ⟨k, hk1, hk2, hk3, -⟩ := hem em hemv
        obtain ⟨pts, hpts⟩ := Option.isSome_iff_exists.1 hk3
        rw [hemv] at hv
        simp only [hpts, Option.getD_some] at hv
        subst hv
        have hf := cellFractions_map hG h.inputOk pts
        have hne : pts ≠ [] := by
          rintro rfl
          have := hk1.1.values _ hpts
          simp at this
          omega
        exact ⟨Or.inr (Or.inr ⟨hvol, em, pts, hemv, hpts, hf⟩), hf.length,
          (cellFractions_prob hG h.inputOk hne).1⟩

/-- **C110 in two and more dimensions.** For every discretization of Voronoi cells with a measure on
the outputs, `sampling_error(disc)` succeeds and `calculate_for_contour_events()` returns the bounds for
the Delaunay neighbours, with the event of every cell the cell of its output, and with the volumes of
the set, those estimated with the emulated points, or equal ones. -/
theorem C110_delaunay {G : Geometry K} (hG : Sound G) {size : Nat} (hsize : 0 < size)
    {argsort : List K → List Nat} {delaunay : List (List K) → Except Err (List (List Nat))} {d : Disc K}
    {inp out ps : SampleSet K} {x y : List (List K)} {probs : List K} {m : Nat}
    (h : SamplingProblem G d inp out ps x y probs m) (hem : EmulatedOk d)
    (hpos : ∀ vols, inp.glob.volumes = some vols → ∀ v ∈ vols, 0 ≤ v) (hdim : inp.dim ≠ 1)
    {simplices : List (List Nat)} (hdel : delaunay x = .ok simplices)
    (hs : ∀ t ∈ simplices, ∀ i ∈ t, i < x.length) :
    ∃ e d1 bounds e2 d2 event vols,
      samplingErrorInit G size argsort delaunay d = .ok (e, d1) ∧
      samplingContour G size e d1 = .ok (bounds, e2, d2) ∧
      List.Forall₂ (IsCell G ps) y event ∧ UsedVolumes G d inp x.length vols ∧
      ContourBounds (ShareSimplex simplices) event vols probs bounds := by
  have hyl : y.length = x.length := h.outputOk.1.values _ h.outputs
  have hiol : (d.ioPtr.getD (y.map (ps.cell G))).length = x.length := by
    cases hp : d.ioPtr with
    | none => simp [hyl]
    | some l => rw [Option.getD_some, ← (h.pointer l hp).length_eq, hyl]
  obtain ⟨nei, hnei⟩ := delaunay_total simplices _ (fun t ht i hi => by rw [hiol]; exact hs t ht i hi)
  obtain ⟨e, vols, hr⟩ := samplingError_ran hsize (argsort := argsort) (delaunay := delaunay) h hem rfl
    (nei := nei) (by simp only [connectivityOf, hdim, if_false, hdel, ok_bind]; exact hnei)
  obtain ⟨h1, h2, h3, h4⟩ := used_of_ran hG h hem hpos hr
  obtain ⟨d1, d2, r1, r2⟩ := hr.run
  exact ⟨e, d1, _, _, d2, _, vols, r1, r2, h1, h2,
    contourBounds_of hiol h3 h4 (fun p v => C38_delaunay hnei p v) hr.hsets⟩

/-- **C110 in one dimension**, for distinct samples whose `argsort` is its own inverse, in particular
sorted samples; the neighbours are the cells next to each other on the line. For other orders the
neighbours are wrong (`Ex.C38_negation_unsorted`). -/
theorem C110_line {G : Geometry K} (hG : Sound G) {size : Nat} (hsize : 0 < size)
    {argsort : List K → List Nat} {delaunay : List (List K) → Except Err (List (List Nat))} {d : Disc K}
    {inp out ps : SampleSet K} {x y : List (List K)} {probs : List K} {m : Nat}
    (h : SamplingProblem G d inp out ps x y probs m) (hem : EmulatedOk d)
    (hpos : ∀ vols, inp.glob.volumes = some vols → ∀ v ∈ vols, 0 ≤ v) (hdim : inp.dim = 1)
    {z : List K} (hx : x = z.map fun a => [a]) (hz : z.Nodup) (hs : IsArgsortOf z (argsort z))
    (hinv : ∀ p a : Nat, (argsort z)[p]? = some a → (argsort z)[a]? = some p) :
    ∃ e d1 bounds e2 d2 event vols,
      samplingErrorInit G size argsort delaunay d = .ok (e, d1) ∧
      samplingContour G size e d1 = .ok (bounds, e2, d2) ∧
      List.Forall₂ (IsCell G ps) y event ∧ UsedVolumes G d inp x.length vols ∧
      ContourBounds (AdjacentOnLine z) event vols probs bounds := by
  have hyl : y.length = x.length := h.outputOk.1.values _ h.outputs
  have hiol : (d.ioPtr.getD (y.map (ps.cell G))).length = x.length := by
    cases hp : d.ioPtr with
    | none => simp [hyl]
    | some l => rw [Option.getD_some, ← (h.pointer l hp).length_eq, hyl]
  have hxl : x.length = z.length := by rw [hx, List.length_map]
  have hfl : x.flatten = z := by
    rw [hx]
    clear hs hinv hz hx hxl
    induction z with
    | nil => rfl
    | cons a l ih => simpa using ih
  obtain ⟨nei, hnei⟩ := C38_defined x.length (argsort z) _ (by rw [hxl]; exact hs.1) hiol
  obtain ⟨e, vols, hr⟩ := samplingError_ran hsize (argsort := argsort) (delaunay := delaunay) h hem rfl
    (nei := nei) (by simp only [connectivityOf, hdim, if_true, hfl]; exact hnei)
  obtain ⟨h1, h2, h3, h4⟩ := used_of_ran hG h hem hpos hr
  obtain ⟨d1, d2, r1, r2⟩ := hr.run
  rw [hxl] at hnei
  exact ⟨e, d1, _, _, d2, _, vols, r1, r2, h1, h2,
    contourBounds_of hiol h3 h4 (fun p v => C38_adjacent_partial hs hz hinv hnei p v) hr.hsets⟩

/-- **C110.** The bounds do not depend on the number of processes. -/
theorem C110_processes {G : Geometry K} {size size' : Nat} (hsize : 0 < size) (hsize' : 0 < size')
    {argsort : List K → List Nat} {delaunay : List (List K) → Except Err (List (List Nat))} {d : Disc K}
    {inp out ps : SampleSet K} {x y : List (List K)} {probs : List K} {m : Nat}
    (h : SamplingProblem G d inp out ps x y probs m) (hem : EmulatedOk d)
    {e d1 bounds e2 d2} (h1 : samplingErrorInit G size argsort delaunay d = .ok (e, d1))
    (h2 : samplingContour G size e d1 = .ok (bounds, e2, d2)) :
    ∃ d1' d2', samplingErrorInit G size' argsort delaunay d = .ok (e, d1') ∧
      samplingContour G size' e d1' = .ok (bounds, e2, d2') := by
  obtain ⟨g1, out1, ps1, a1, a2, a3, a4, a5, a6, a7, a8, a9⟩ := ensureGlobalIoPtr_ok hsize h
  have hconn : ∃ nei, connectivityOf argsort delaunay x.length inp.dim x
      (d.ioPtr.getD (y.map (ps.cell G))) = .ok nei := by
    simp only [samplingErrorInit, connectivityExact, bind_eq_ok] at h1
    obtain ⟨_, _, q, ⟨_, _, num, hnum, d', hd', io, hio, inp', hinp', x', hx', nei, hnei, _⟩, _⟩ := h1
    rw [a1] at hd'
    obtain rfl : g1 = d' := Except.ok.inj hd'
    rw [a9, orErr_some] at hio
    cases hio
    rw [a2, orErr_some] at hinp'
    cases hinp'
    rw [h.values, orErr_some] at hx'
    cases hx'
    rw [checkNums_ok h.input h.output h.inputOk.consistent h.outputOk size] at hnum
    cases hnum
    exact ⟨nei, hnei⟩
  obtain ⟨nei, hnei⟩ := hconn
  obtain ⟨e₁, vols₁, r₁⟩ := samplingError_ran hsize h hem rfl hnei
  obtain ⟨e₂, vols₂, r₂⟩ := samplingError_ran hsize' h hem rfl hnei
  obtain rfl : e₁ = e₂ := Except.ok.inj (r₁.hsets.symm.trans r₂.hsets)
  obtain rfl : vols₁ = vols₂ := r₁.hvols.trans r₂.hvols.symm
  obtain ⟨u1, u2, q1, q2⟩ := r₁.run
  obtain ⟨w1, w2, q3, q4⟩ := r₂.run
  rw [h1] at q1
  obtain ⟨rfl, rfl⟩ := Prod.mk.inj (Except.ok.inj q1)
  rw [h2] at q2
  obtain ⟨rfl, hh⟩ := Prod.mk.inj (Except.ok.inj q2)
  obtain ⟨rfl, rfl⟩ := Prod.mk.inj hh
  exact ⟨w1, w2, q3, q4⟩

/-- **C110.** Sets that are not Voronoi sets with the 2-norm are refused. -/
theorem C110_refused {G : Geometry K} {size n : Nat} {argsort : List K → List Nat}
    {delaunay : List (List K) → Except Err (List (List Nat))} {d : Disc K} {inp : SampleSet K}
    (hinp : d.input = some inp) (hn : d.checkNums size = .ok n)
    (hk : inp.kind ≠ .voronoi ∨ inp.pNorm ≠ 2) :
    samplingErrorInit G size argsort delaunay d = .error .wrongArgumentType := by
  have : checkVoronoi2 d = .error .wrongArgumentType := by
    by_cases hv : inp.kind = .voronoi
    · have hp := hk.resolve_left (not_not.2 hv)
      simp [checkVoronoi2, hinp, hv, hp, raiseIf, ok_bind, pure, Except.pure]
    · simp [checkVoronoi2, hinp, hv, raiseIf, ok_bind, error_bind]
  simp only [samplingErrorInit, hn, ok_bind, connectivityExact, this, error_bind]

end

namespace Ex

/-- Five samples on the line, whose outputs are the samples. -/
def seInput : SampleSet ℚ := { dim := 1, glob := { values := some [[0], [1], [2], [3], [4]] } }

/-- Two cells of the same probability. -/
def seMeasure : SampleSet ℚ :=
  { dim := 1, glob := { values := some [[0], [4]], probabilities := some [1 / 2, 1 / 2] } }

def seDisc : Disc ℚ := { input := some seInput, output := some seInput, outputProb := some seMeasure }

theorem seProblem : Spec.SamplingProblem G seDisc seInput seInput seMeasure
    [[0], [1], [2], [3], [4]] [[0], [1], [2], [3], [4]] [1 / 2, 1 / 2] 2 where
  input := rfl
  inputOk := ⟨consistent_of _ _ rfl rfl, by decide, rfl, Or.inl rfl, nofun, nofun⟩
  values := rfl
  voronoi := rfl
  norm := rfl
  output := rfl
  outputOk := consistent_of _ _ rfl rfl
  outputs := rfl
  current := Or.inl rfl
  measure := rfl
  measureOk := ⟨consistent_of _ _ rfl rfl, by decide, rfl, Or.inl rfl, nofun, nofun⟩
  probs := rfl
  pointer := nofun

/-- The hypotheses of `C110_line` hold for sorted samples. -/
example := C110_line (G := G) sound_G (size := 2) (by norm_num)
  (argsort := fun z => List.range z.length) (delaunay := fun _ => .ok []) seProblem
  (fun _ h => by simp [seDisc] at h) (fun _ h => by simp [seInput] at h) rfl
  (z := [0, 1, 2, 3, 4]) rfl (by decide +kernel) ⟨by decide +kernel, by decide +kernel⟩
  (by
    intro p a h
    obtain ⟨h1, rfl⟩ := List.getElem?_eq_some_iff.1 h
    simp only [List.getElem_range] at h ⊢
    exact h)

/-- The first event has the cells 0, 1, 2, of which 2 lies at the boundary; the second 3 and 4. -/
example : ((samplingErrorInit G 2 (fun z => List.range z.length) (fun _ => .ok []) seDisc).toOption.bind
    fun q => (samplingContour G 2 q.1 q.2).toOption.map fun r => r.1) =
    some [(.fin (1 / 4), .fin (-1 / 4)), (.fin (1 / 2), .fin (-1 / 3))] := by decide +kernel

/-- Four corners and the centre of a square. -/
def sePlane : SampleSet ℚ :=
  { dim := 2, glob := { values := some [[0, 0], [2, 0], [2, 2], [0, 2], [1, 1]] } }

/-- The outputs. -/
def seOut : SampleSet ℚ := { dim := 1, glob := { values := some [[0], [0], [1], [4], [1]] } }

def sePlaneDisc : Disc ℚ :=
  { input := some sePlane, output := some seOut, outputProb := some seMeasure }

/-- The triangles. -/
def seTri : List (List Nat) := [[0, 1, 4], [1, 2, 4], [2, 3, 4], [3, 0, 4]]

theorem sePlaneProblem : Spec.SamplingProblem G sePlaneDisc sePlane seOut seMeasure
    [[0, 0], [2, 0], [2, 2], [0, 2], [1, 1]] [[0], [0], [1], [4], [1]] [1 / 2, 1 / 2] 2 where
  input := rfl
  inputOk := ⟨consistent_of _ _ rfl rfl, by decide, rfl, Or.inl rfl, nofun, nofun⟩
  values := rfl
  voronoi := rfl
  norm := rfl
  output := rfl
  outputOk := consistent_of _ _ rfl rfl
  outputs := rfl
  current := Or.inl rfl
  measure := rfl
  measureOk := ⟨consistent_of _ _ rfl rfl, by decide, rfl, Or.inl rfl, nofun, nofun⟩
  probs := rfl
  pointer := nofun

/-- The hypotheses of `C110_delaunay` hold. -/
example := C110_delaunay (G := G) sound_G (size := 3) (by norm_num)
  (argsort := fun _ => []) (delaunay := fun _ => .ok seTri) sePlaneProblem
  (fun _ h => by simp [sePlaneDisc] at h) (fun _ h => by simp [sePlane] at h) (by decide)
  (simplices := seTri) rfl (by decide)

/-- Only the corner 1 lies in the interior of the first event; the second event is a single cell. -/
example : ((samplingErrorInit G 3 (fun _ => []) (fun _ => .ok seTri) sePlaneDisc).toOption.bind
    fun q => (samplingContour G 3 q.1 q.2).toOption.map fun r => r.1) =
    some [(.fin (3 / 2), .fin (-2 / 5)), (.nan, .nan)] := by decide +kernel

end Ex

end BET
