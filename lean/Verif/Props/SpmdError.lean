import Verif.Model.SpmdError
import Verif.Props.SpmdHistory
import Verif.Props.ModelErrorObject
import Verif.Props.SamplingErrorObject
import Verif.Props.PlotP

/-!
# Error estimates and marginals on several processes (C124)
-/

set_option autoImplicit false
set_option linter.unusedSectionVars false
set_option linter.unusedSimpArgs false

namespace BET

open Spec

namespace Spec

/-- A `model_error` object whose local arrays and pointers have parts for each of the `n` processes. -/
def SpreadModelErr {K : Type} (n : Nat) (e : ModelErr K) : Prop :=
  SpreadDisc n e.disc ∧ SpreadDisc n e.new

/-- The sets that a call gets as arguments have parts for each of the `n` processes. -/
def SpreadQuery {K : Type} (n : Nat) : ModelQuery K → Prop
  | .contour => True
  | .region s _ em => SpreadSet n s ∧ ∀ t, em = some t → SpreadSet n t
  | .regionMc s _ => SpreadSet n s

/-- The answer `a` as `n` processes have it: they have the same estimates and the same exception, and
the errors charged to the samples are spread over the processes in rank order. -/
def AnswerParts {K : Type} {n : Nat} (a : ModelAnswer K) (parts : Fin n → ModelAnswer K) : Prop :=
  match a with
  | .value er (some ids) => ∃ c : Fin n → List (Num K), (List.ofFn c).flatten = ids ∧
      ∀ r, parts r = .value er (some (c r))
  | a => ∀ r, parts r = a

/-- What every process has of the answers of a history of calls. -/
def AnswersParts {K : Type} {n : Nat} (as : List (ModelAnswer K))
    (parts : Fin n → List (ModelAnswer K)) : Prop :=
  (∀ r, (parts r).length = as.length) ∧
  ∀ (k : Nat) (a : ModelAnswer K), as[k]? = some a →
    ∃ p, AnswerParts a p ∧ ∀ r, (parts r)[k]? = some (p r)

end Spec

variable {n : Nat}

section
variable {K : Type} [Field K] [LinearOrder K]

/-! ### Masks -/

theorem andMask_ofFn (a b : Fin n → List Bool) :
    andMask (List.ofFn a) (List.ofFn b) = List.ofFn fun r => and1 (a r) (b r) := zipWith_ofFn _ a b

theorem eventMask_ofFn (io : List Nat) (i : Nat) (ii : Fin n → List Nat) :
    eventMask io i (List.ofFn ii) = List.ofFn fun r => event1 io i (ii r) := by
  rw [eventMask, List.map_ofFn]
  rfl

theorem memMask_ofFn (js : List Nat) (ii : Fin n → List Nat) :
    memMask js (List.ofFn ii) = List.ofFn fun r => mem1 js (ii r) := by
  rw [memMask, List.map_ofFn]
  rfl

theorem eqMask_ofFn (ii : Fin n → List Nat) (i : Nat) :
    eqMask (List.ofFn ii) i = List.ofFn fun r => npEqual (ii r) i := by
  rw [eqMask, List.map_ofFn]
  rfl

theorem fits_reduceMask (m : Fin n → List Bool) :
    Fits (fun r => (reduceMask (m r) : Proc (Msg K) Nat))
      (fun _ => .ok (countMask (List.ofFn m))) := by
  refine ⟨1, ?_⟩
  have := fit_reduceCnt (K := K) fun r => (m r).count true
  rw [countMask, List.map_ofFn]
  exact this

theorem fits_reduceSel (x : Fin n → List K) (m : Fin n → List Bool) :
    Fits (fun r => reduceSel (x r) (m r)) (fun _ => .ok (sumMask (List.ofFn x) (List.ofFn m))) := by
  refine ⟨1, ?_⟩
  have := fit_reduceNum fun r => (maskSel (x r) (m r)).sum
  rw [sumMask, zipWith_ofFn]
  exact this

/-! ### Volumes and pointers -/

theorem spread_volumes {s : SampleSet K} (hs : SpreadSet n s) (v : Option (List K)) :
    SpreadSet n { s with glob := { s.glob with volumes := v } } := hs

theorem fits_estimateVolumeMc {s s' : SampleSet K} (hs : SpreadSet n s)
    (h : s.estimateVolumeMc n true = .ok s') :
    SpreadSet n s' ∧
    Fits (fun r : Fin n => (s.view r).procEstimateVolumeMc r n) (fun r => .ok (s'.view r)) := by
  simp only [SampleSet.estimateVolumeMc, bind_eq_ok, if_true] at h
  obtain ⟨num, hnum, _, hz, h⟩ := h
  refine ⟨spread_globalToLocal (spread_volumes hs _) h, ?_⟩
  unfold SampleSet.procEstimateVolumeMc
  refine Fits.bind (fits_checkNum hnum) ?_
  refine fits_raiseIf hz ?_
  exact fits_globalToLocal h

theorem fits_discNew {i o p ei eo : Option (SampleSet K)} {d : Disc K}
    (h : Disc.new n i o p ei eo = .ok d) :
    d = { input := i, output := o, outputProb := p, emInput := ei, emOutput := eo } ∧
    Fits (fun r : Fin n => procDiscNew (i.map (SampleSet.view r)) (o.map (SampleSet.view r))
      (p.map (SampleSet.view r)) (ei.map (SampleSet.view r)) (eo.map (SampleSet.view r)))
      (fun r => .ok (d.view r)) := by
  unfold Disc.new at h
  unfold procDiscNew
  simp only [Option.isSome_map]
  split at h
  · case isTrue hc =>
    simp only [bind_eq_ok, pure_eq_ok] at h
    obtain ⟨num, hnum, rfl⟩ := h
    simp only [hc, if_true]
    exact ⟨trivial, Fits.bind (fits_checkNums hnum) (Fits.ret _)⟩
  · case isFalse hc =>
    rw [pure_eq_ok] at h
    subst h
    simp only [hc]
    exact ⟨trivial, Fits.ret _⟩

theorem fits_ensureGlobalIoPtr {G : Geometry K} {d d' : Disc K} (hd : SpreadDisc n d)
    (h : ensureGlobalIoPtr G n d = .ok d') :
    SpreadDisc n d' ∧
    Fits (fun r : Fin n => procEnsureGlobalIoPtr G r n (d.view r)) (fun r => .ok (d'.view r)) := by
  unfold ensureGlobalIoPtr at h
  unfold procEnsureGlobalIoPtr
  have e : ∀ r : Nat, (d.view r).ioPtr.isNone = d.ioPtr.isNone := fun r => rfl
  simp only [e]
  split at h
  · case isTrue hc =>
    simp only [hc, if_true]
    exact fits_setIoPtr hd h
  · case isFalse hc =>
    cases h
    simp only [hc]
    exact ⟨hd, Fits.ret _⟩

theorem fits_ensureIo {G : Geometry K} {d d' : Disc K} (hd : SpreadDisc n d)
    (h : ensureIoPtr G n d = .ok d') :
    SpreadDisc n d' ∧
    Fits (fun r : Fin n => procEnsureIo G r n (d.view r)) (fun r => .ok (d'.view r)) :=
  fits_ensureIoPtr hd h

theorem spread_putInput {d : Disc K} (hd : SpreadDisc n d) {s : SampleSet K} (hs : SpreadSet n s) :
    SpreadDisc n { d with input := some s } := by
  refine ⟨?_, hd.output, hd.outputProb, hd.emInput, hd.emOutput, hd.io, hd.ii, hd.oo⟩
  rintro s ⟨⟩; exact hs

theorem spread_putOutput {d : Disc K} (hd : SpreadDisc n d) {s : SampleSet K} (hs : SpreadSet n s) :
    SpreadDisc n { d with output := some s } := by
  refine ⟨hd.input, ?_, hd.outputProb, hd.emInput, hd.emOutput, hd.io, hd.ii, hd.oo⟩
  rintro s ⟨⟩; exact hs

theorem spread_putEmInput {d : Disc K} (hd : SpreadDisc n d) {s : SampleSet K} (hs : SpreadSet n s) :
    SpreadDisc n { d with emInput := some s } := by
  refine ⟨hd.input, hd.output, hd.outputProb, ?_, hd.emOutput, hd.io, hd.ii, hd.oo⟩
  rintro s ⟨⟩; exact hs

theorem fits_contourVolumes {G : Geometry K} {d d' : Disc K} {inp : SampleSet K}
    (hd : SpreadDisc n d) (hi : SpreadSet n inp) (h : contourVolumes G n d inp = .ok d') :
    SpreadDisc n d' ∧
    Fits (fun r : Fin n => procContourVolumes G r n (d.view r) (inp.view r))
      (fun r => .ok (d'.view r)) := by
  unfold contourVolumes at h
  unfold procContourVolumes
  have e1 : ∀ r : Nat, (inp.view r).glob.volumes = inp.glob.volumes := fun _ => rfl
  have e2 : ∀ r : Nat, (d.view r).emInput = d.emInput.map (SampleSet.view r) := fun _ => rfl
  simp only [e1, e2]
  cases hv : inp.glob.volumes with
  | some v =>
    simp only [hv, pure_eq_ok] at h
    subst h
    exact ⟨hd, Fits.ret _⟩
  | none =>
    cases he : d.emInput with
    | some em =>
      simp only [hv, he] at h
      exact fits_estimateInputVolumeEmulated hd h
    | none =>
      simp only [hv, he, bind_eq_ok, pure_eq_ok] at h
      obtain ⟨i, h1, rfl⟩ := h
      obtain ⟨h2, h3⟩ := fits_estimateVolumeMc hi h1
      have h4 := spread_putInput hd h2
      rw [he] at h4
      refine ⟨h4, Fits.bind h3 ?_⟩
      have := Fits.ret (M := Msg K) fun r : Fin n => Disc.view r { d with input := some i }
      rw [he] at this
      exact this

/-! ### `sampling_error` -/

theorem view_checkVoronoi2 (d : Disc K) (r : Nat) : checkVoronoi2 (d.view r) = checkVoronoi2 d := by
  unfold checkVoronoi2
  cases h : d.input with
  | none => simp only [Disc.view, h, Option.map_none]
  | some i =>
    simp only [Disc.view, h, Option.map_some]
    rfl

theorem fits_connectivity {G : Geometry K} {argsort : List K → List Nat}
    {delaunay : List (List K) → Except Err (List (List Nat))} {d d' : Disc K} {nei : NeiList}
    (hd : SpreadDisc n d) (h : connectivityExact G n argsort delaunay d = .ok (nei, d')) :
    SpreadDisc n d' ∧
    Fits (fun r : Fin n => procConnectivityExact G r n argsort delaunay (d.view r))
      (fun r => .ok (nei, d'.view r)) := by
  simp only [connectivityExact, bind_eq_ok, pure_eq_ok, Prod.mk.injEq] at h
  obtain ⟨_, hv, num, hnum, d1, hd1, io, hio, inp, hinp, x, hx, nei1, hnei, rfl, rfl⟩ := h
  obtain ⟨hs1, hf1⟩ := fits_ensureGlobalIoPtr hd hd1
  refine ⟨hs1, ?_⟩
  unfold procConnectivityExact
  refine Fits.except (r := fun _ => ()) (fun r => (view_checkVoronoi2 d r).trans hv) ?_
  refine Fits.bind (fits_checkNums hnum) ?_
  refine Fits.bind hf1 ?_
  refine Fits.except (r := fun _ => io) (fun _ => hio) ?_
  refine Fits.except (r := fun r => inp.view r) (fun r => orErr_view hinp r) ?_
  refine Fits.except (r := fun _ => x) (fun _ => hx) ?_
  refine Fits.except (r := fun _ => nei1) (fun _ => hnei) ?_
  exact Fits.ret _

theorem fits_boundarySets {G : Geometry K} {d d' : Disc K} {nei : NeiList} {k : Keys}
    (hd : SpreadDisc n d) (h : boundarySetsOf G n d nei = .ok (k, d')) :
    SpreadDisc n d' ∧
    Fits (fun r : Fin n => procBoundarySets G r n (d.view r) nei) (fun r => .ok (k, d'.view r)) := by
  simp only [boundarySetsOf, bind_eq_ok, pure_eq_ok, Prod.mk.injEq] at h
  obtain ⟨_, hv, num, hnum, d1, hd1, io, hio, k1, hk, rfl, rfl⟩ := h
  obtain ⟨hs1, hf1⟩ := fits_ensureGlobalIoPtr hd hd1
  refine ⟨hs1, ?_⟩
  unfold procBoundarySets
  refine Fits.except (r := fun _ => ()) (fun r => (view_checkVoronoi2 d r).trans hv) ?_
  refine Fits.bind (fits_checkNums hnum) ?_
  refine Fits.bind hf1 ?_
  refine Fits.except (r := fun _ => io) (fun _ => hio) ?_
  refine Fits.except (r := fun _ => k1) (fun _ => hk) ?_
  exact Fits.ret _

theorem fits_samplingInit {G : Geometry K} {argsort : List K → List Nat}
    {delaunay : List (List K) → Except Err (List (List Nat))} {d d' : Disc K} {k : Keys}
    (hd : SpreadDisc n d) (h : samplingErrorInit G n argsort delaunay d = .ok (k, d')) :
    SpreadDisc n d' ∧
    Fits (fun r : Fin n => procSamplingErrorInit G r n argsort delaunay (d.view r))
      (fun r => .ok (k, d'.view r)) := by
  simp only [samplingErrorInit, bind_eq_ok] at h
  obtain ⟨num, hnum, ⟨nei, d1⟩, h1, h2⟩ := h
  obtain ⟨hs1, hf1⟩ := fits_connectivity hd h1
  obtain ⟨hs2, hf2⟩ := fits_boundarySets hs1 h2
  refine ⟨hs2, ?_⟩
  unfold procSamplingErrorInit
  exact Fits.bind (fits_checkNums hnum) (Fits.bind hf1 hf2)

theorem fits_samplingContour {G : Geometry K} {k k' : Keys} {d d' : Disc K}
    {l : List (Num K × Num K)} (hd : SpreadDisc n d)
    (h : samplingContour G n k d = .ok (l, k', d')) :
    SpreadDisc n d' ∧
    Fits (fun r : Fin n => procSamplingContour G r n k (d.view r))
      (fun r => .ok (l, k', d'.view r)) := by
  simp only [samplingContour, bind_eq_ok, pure_eq_ok, Prod.mk.injEq] at h
  obtain ⟨inp, hinp, d1, hd1, ops, hops, num, hnum, probs, hprobs, io, hio, inp1, hinp1, vols, hvols,
    rfl, rfl, rfl⟩ := h
  obtain ⟨hs1, hf1⟩ := fits_contourVolumes hd (hd.input _ ((orErr_eq_ok _ _ _).1 hinp)) hd1
  refine ⟨hs1, ?_⟩
  unfold procSamplingContour
  refine Fits.except (r := fun r => inp.view r) (fun r => orErr_view hinp r) ?_
  refine Fits.bind hf1 ?_
  refine Fits.except (r := fun r => ops.view r) (fun r => orErr_view hops r) ?_
  refine Fits.bind (fits_checkNum hnum) ?_
  refine Fits.except (r := fun _ => probs) (fun _ => hprobs) ?_
  refine Fits.except (r := fun _ => io) (fun _ => hio) ?_
  refine Fits.except (r := fun r => inp1.view r) (fun r => orErr_view hinp1 r) ?_
  refine Fits.except (r := fun _ => vols) (fun _ => hvols) ?_
  exact Fits.ret _

theorem fits_regionTerm (e : Keys) (io : List Nat) (inA : Fin n → List Bool)
    (ii : Fin n → List Nat) (i : Nat) (p : K) :
    Fits (fun r => procRegionTerm e io (inA r) (ii r) i p)
      (fun _ => .ok (regionTerm (e.B.read i) (e.C.read i) io (List.ofFn inA) (List.ofFn ii) i p,
        regionTouch e io (List.ofFn ii) i)) := by
  unfold procRegionTerm regionTerm regionTouch
  simp only [andMask_ofFn, eventMask_ofFn, memMask_ofFn]
  refine Fits.bind (fits_reduceMask _) ?_
  refine Fits.bind (fits_reduceMask _) ?_
  split
  · exact Fits.ret _
  refine Fits.bind (fits_reduceMask _) ?_
  refine Fits.bind (fits_reduceMask _) ?_
  split
  · exact Fits.ret _
  refine Fits.bind (fits_reduceMask _) ?_
  refine Fits.bind (fits_reduceMask _) ?_
  split
  · exact Fits.ret _
  exact Fits.ret _

theorem fits_regionLoop (io : List Nat) (inA : Fin n → List Bool) (ii : Fin n → List Nat)
    (probs : List K) (is : List Nat) (e : Keys) (up lo : K) :
    Fits (fun r => procRegionLoop io (inA r) (ii r) probs is e up lo)
      (fun _ => .ok (regionLoop io (List.ofFn inA) (List.ofFn ii) probs is e up lo)) := by
  induction is generalizing e up lo with
  | nil => exact Fits.ret _
  | cons i is ih =>
    unfold procRegionLoop regionLoop
    split
    · refine Fits.bind (fits_regionTerm e io inA ii i _) ?_
      dsimp only
      cases regionTerm (e.B.read i) (e.C.read i) io (List.ofFn inA) (List.ofFn ii) i
          (probs.getD i 0) with
      | none => exact Fits.ret _
      | some t => exact ih _ _ _
    · exact ih _ _ _

theorem view_regionMarker (s : SampleSet K) (r : Nat) (region : Int) :
    regionMarker (s.view r) region = regionMarker s region := rfl

theorem fits_regionMask {G : Geometry K} {s em : SampleSet K} {region : Int} {m : Chunks Bool}
    (hs : SpreadSet n s) (he : SpreadSet n em) (h : regionMask G n s region em = .ok m) :
    ∃ b : Fin n → List Bool, m = List.ofFn b ∧
    Fits (fun r : Fin n => procRegionMask G r n (s.view r) region (em.view r))
      (fun r => .ok (b r)) := by
  simp only [regionMask, bind_eq_ok] at h
  obtain ⟨marker, hm, d, hd, d1, hd1, ptr, hptr, h⟩ := h
  obtain ⟨rfl, hf⟩ := fits_discNew hd
  have hsd : SpreadDisc n ({ input := some s, output := some s, emInput := some em } : Disc K) := by
    refine ⟨?_, ?_, ?_, ?_, ?_, ?_, ?_, ?_⟩
    · rintro s ⟨⟩; exact hs
    · rintro s ⟨⟩; exact hs
    · rintro s ⟨⟩
    · rintro s ⟨⟩; exact he
    · rintro s ⟨⟩
    · rintro c ⟨⟩
    · rintro c ⟨⟩
    · rintro c ⟨⟩
  obtain ⟨hs1, hf1⟩ := fits_setIiPtr hsd hd1
  obtain ⟨p, rfl, hp⟩ := localPtr hs1.ii hptr
  obtain ⟨b, rfl, hb⟩ := mapM_ofFn_ok h
  refine ⟨b, rfl, ?_⟩
  unfold procRegionMask
  refine Fits.except (r := fun _ => marker) (fun _ => hm) ?_
  refine Fits.bind hf ?_
  refine Fits.bind hf1 ?_
  refine Fits.except (r := fun r => [p r]) hp ?_
  simp only [List.flatten_cons, List.flatten_nil, List.append_nil]
  exact Fits.of_except hb

theorem spread_regionPoints {d : Disc K} {em : Option (SampleSet K)} {pts : SampleSet K}
    (hd : SpreadDisc n d) (he : ∀ t, em = some t → SpreadSet n t)
    (h : regionPoints d em = .ok pts) :
    SpreadSet n pts ∧
    ∀ r : Nat, regionPoints (d.view r) (em.map (SampleSet.view r)) = .ok (pts.view r) := by
  unfold regionPoints at h
  cases em with
  | some e =>
    cases h
    exact ⟨he _ rfl, fun _ => rfl⟩
  | none =>
    cases hd1 : d.emInput with
    | some e =>
      simp only [hd1] at h
      cases h
      refine ⟨hd.emInput _ hd1, fun r => ?_⟩
      simp [regionPoints, Disc.view, hd1]
      rfl
    | none =>
      simp only [hd1] at h
      refine ⟨hd.input _ ((orErr_eq_ok _ _ _).1 h), fun r => ?_⟩
      have := orErr_view h r
      simp only [regionPoints, Disc.view, hd1, Option.map_none]
      exact this

theorem setEmInput_eq {d d' : Disc K} {s : SampleSet K} (h : d.setEmulatedInput s = .ok d') :
    d' = { d with emInput := some s } := by
  simp only [Disc.setEmulatedInput] at h
  split at h
  · split at h
    · cases h; rfl
    · cases h
  · cases h; rfl

theorem fits_samplingRegion {G : Geometry K} {k k' : Keys} {d : Disc K} {s : SampleSet K}
    {region : Int} {em : Option (SampleSet K)} {b : Option (K × K)} (hd : SpreadDisc n d)
    (hs : SpreadSet n s) (he : ∀ t, em = some t → SpreadSet n t)
    (h : samplingRegion G n k d s region em = .ok (b, k')) :
    Fits (fun r : Fin n => procSamplingRegion G r n k (d.view r) (s.view r) region
      (em.map (SampleSet.view r))) (fun _ => .ok (b, k')) := by
  simp only [samplingRegion, bind_eq_ok, pure_eq_ok] at h
  obtain ⟨inp, hinp, marker, hm, pts, hpts, d1, hd1, d2, hd2, inA, hinA, ii, hii, io, hio, ops, hops,
    num, hnum, probs, hprobs, h⟩ := h
  have hsi := hd.input _ ((orErr_eq_ok _ _ _).1 hinp)
  have hd0 := spread_putInput hd (spread_localToGlobal hsi)
  obtain ⟨hsp, hvp⟩ := spread_regionPoints hd0 he hpts
  have hs1 : SpreadDisc n d1 := by
    rw [setEmInput_eq hd1]
    exact spread_putEmInput hd0 hsp
  obtain ⟨hs2, hf2⟩ := fits_setIiPtr hs1 hd2
  obtain ⟨m, rfl, hfm⟩ := fits_regionMask hs hsp hinA
  obtain ⟨p, rfl, hp⟩ := localPtr hs2.ii hii
  unfold procSamplingRegion
  refine Fits.except (r := fun r => inp.view r) (fun r => orErr_view hinp r) ?_
  refine Fits.bind (fits_localToGlobal hsi) ?_
  refine Fits.except (r := fun _ => marker) (fun _ => hm) ?_
  refine Fits.except (r := fun r => pts.view r) (fun r => hvp r) ?_
  refine Fits.except (r := fun r => d1.view r) (fun r => view_setEmInput hd1 r) ?_
  refine Fits.bind hf2 ?_
  refine Fits.bind hfm ?_
  refine Fits.except (r := fun r => [p r]) hp ?_
  refine Fits.except (r := fun _ => io) (fun _ => hio) ?_
  refine Fits.except (r := fun r => ops.view r) (fun r => orErr_view hops r) ?_
  refine Fits.bind (fits_checkNum hnum) ?_
  refine Fits.except (r := fun _ => probs) (fun _ => hprobs) ?_
  simp only [List.flatten_cons, List.flatten_nil, List.append_nil]
  have := fits_regionLoop io m p probs (List.range probs.length) k 0 0
  rw [← regionErrors, h] at this
  exact this

/-! ### `model_error` -/

theorem fits_modelErrorNew {G : Geometry K} {d : Disc K} {e : ModelErr K} (hd : SpreadDisc n d)
    (h : modelErrorNew G n d = .ok e) :
    SpreadModelErr n e ∧
    Fits (fun r : Fin n => procModelErrorNew G r n (d.view r)) (fun r => .ok (e.view r)) := by
  simp only [modelErrorNew, bind_eq_ok, pure_eq_ok] at h
  obtain ⟨out, hout, out1, hout1, _, hz, num, hnum, d1, hd1, out2, hout2, x, hx, er, her, new, hnew,
    rfl⟩ := h
  have hso := spread_globalToLocal (hd.output _ ((orErr_eq_ok _ _ _).1 hout)) hout1
  have hd0 := spread_putOutput hd hso
  obtain ⟨hs1, hf1⟩ := fits_ensureIo hd0 hd1
  have hso2 := hs1.output _ ((orErr_eq_ok _ _ _).1 hout2)
  obtain ⟨f, rfl, hf⟩ := localValues hso2 hx
  have her' := spread_ofFn hso2.1.2.2.2.2.2.1 ((orErr_eq_ok _ _ _).1 her)
  obtain ⟨g, hg⟩ : ∃ g : Fin n → List (List K), er = List.ofFn g := ⟨_, her'⟩
  subst hg
  have hadd : addErrors (List.ofFn f) (List.ofFn g) =
      List.ofFn fun r => List.zipWith (List.zipWith (· + ·)) (f r) (g r) := zipWith_ofFn _ f g
  rw [hadd] at hnew
  have hso3 : ∀ v : Fin n → List (List K),
      SpreadSet n { out2 with loc := { out2.loc with values := some (List.ofFn v) } } := by
    intro v
    obtain ⟨⟨h1, hr⟩, hl⟩ := hso2
    exact ⟨⟨spread_some _, hr⟩, hl⟩
  obtain ⟨hs2, hf2⟩ := fits_setIoPtr (spread_putOutput hs1 (hso3 _)) hnew
  refine ⟨⟨hs1, ⟨hs2.input, hs2.output, hs2.outputProb, hs2.emInput, hs2.emOutput, hs2.io, hs2.ii,
    hs2.oo⟩⟩, ?_⟩
  unfold procModelErrorNew
  refine Fits.except (r := fun r => out.view r) (fun r => orErr_view hout r) ?_
  refine Fits.bind (fits_globalToLocal hout1) ?_
  refine Fits.except (r := fun _ => ()) ?_ ?_
  · intro r
    rw [← hz]
    have : (out1.view r).loc.errorEstimates.isNone = out1.loc.errorEstimates.isNone :=
      isNone_oneOf _ _
    rw [this]
    rfl
  refine Fits.bind (fits_checkNums hnum) ?_
  refine Fits.bind hf1 ?_
  refine Fits.except (r := fun r => out2.view r) (fun r => orErr_view hout2 r) ?_
  refine Fits.except hf ?_
  refine Fits.except (r := fun r => [g r]) ?_ ?_
  · intro r
    rw [orErr_eq_ok] at her ⊢
    have : (out2.view r).loc.errorEstimates = oneOf r out2.loc.errorEstimates := rfl
    rw [this, her, oneOf_ofFn]
  refine Fits.bind (r := fun r => new.view r) ?_ (Fits.ret _)
  simp only [Disc.view, Option.map_some, SampleSet.view, Arrays.map, oneOf_ofFn] at hf2 ⊢
  exact hf2

theorem fits_measureProbs {d : Disc K} {probs : List K} (h : measureProbs n d = .ok probs) :
    Fits (fun r : Fin n => procMeasureProbs (d.view r)) (fun _ => .ok probs) := by
  simp only [measureProbs, bind_eq_ok] at h
  obtain ⟨ops, hops, num, hnum, h⟩ := h
  unfold procMeasureProbs
  refine Fits.except (r := fun r => ops.view r) (fun r => orErr_view hops r) ?_
  refine Fits.bind (fits_checkNum hnum) ?_
  exact Fits.of_except fun _ => h

theorem fits_localizeVolumes {d d' : Disc K} {inp : SampleSet K} (hd : SpreadDisc n d)
    (hi : SpreadSet n inp) (h : localizeVolumes n d inp = .ok d') :
    SpreadDisc n d' ∧
    Fits (fun r : Fin n => procLocalizeVolumes r n (d.view r) (inp.view r))
      (fun r => .ok (d'.view r)) := by
  unfold localizeVolumes at h
  unfold procLocalizeVolumes
  have e : ∀ r : Nat, (inp.view r).loc.volumes.isNone = inp.loc.volumes.isNone :=
    fun r => isNone_oneOf r _
  simp only [e]
  split at h
  · case isTrue hc =>
    simp only [bind_eq_ok, pure_eq_ok] at h
    obtain ⟨i, h1, rfl⟩ := h
    simp only [hc, if_true]
    exact ⟨spread_putInput hd (spread_globalToLocal hi h1),
      Fits.bind (fits_globalToLocal h1) (Fits.ret _)⟩
  · case isFalse hc =>
    rw [pure_eq_ok] at h
    subst h
    simp only [hc]
    exact ⟨hd, Fits.ret _⟩

theorem fits_contourEvent (vols : Fin n → List K) (io io' : Fin n → List Nat) (probs : List K)
    (i : Nat) :
    Fits (fun r => procContourEvent (vols r) (io r) (io' r) probs i) (fun _ => .ok (
      if 0 < probs.getD i 0 then
        modelTerm (probs.getD i 0) (sumMask (List.ofFn vols) (eqMask (List.ofFn io) i))
          (sumMask (List.ofFn vols) (eqMask (List.ofFn io) i))
          (sumMask (List.ofFn vols) (andMask (eqMask (List.ofFn io) i) (eqMask (List.ofFn io') i)))
          (sumMask (List.ofFn vols) (eqMask (List.ofFn io') i))
      else .fin 0)) := by
  unfold procContourEvent
  simp only [eqMask_ofFn, andMask_ofFn]
  split
  · refine Fits.bind (fits_reduceSel _ _) ?_
    refine Fits.bind (fits_reduceSel _ _) ?_
    refine Fits.bind (fits_reduceSel _ _) ?_
    refine Fits.bind (fits_reduceSel _ _) ?_
    exact Fits.ret _
  · exact Fits.ret _

theorem fits_mapM {A R M : Type} {body : Fin n → A → Proc M R} {f : A → R} (l : List A)
    (h : ∀ a ∈ l, Fits (fun r => body r a) (fun _ => .ok (f a))) :
    Fits (fun r => l.mapM (body r)) (fun _ => .ok (l.map f)) := by
  induction l with
  | nil => exact Fits.ret _
  | cons a l ih =>
    simp only [List.mapM_cons, List.map_cons]
    refine Fits.bind (h a (by simp)) ?_
    refine Fits.bind (ih fun b hb => h b (by simp [hb])) ?_
    exact Fits.ret _

/-- Arrays that fit on all processes fit on each. -/
theorem sameLengths_view {probs : List K} {lens : List (Fin n → Nat)} {err : Err} {u : Unit}
    (h : sameLengths probs (lens.map List.ofFn) err = .ok u) (r : Fin n) :
    sameLengths probs (lens.map fun l => [l r]) err = .ok () := by
  unfold sameLengths at h ⊢
  rw [raiseIf_eq_ok] at h ⊢
  intro hc
  apply h
  simp only [Bool.and_eq_true, Bool.not_eq_true', List.all_eq_false, decide_eq_true_eq] at hc ⊢
  refine ⟨hc.1, ?_⟩
  obtain ⟨x, hx, hne⟩ := hc.2
  obtain ⟨l, hl, rfl⟩ := List.mem_map.1 hx
  refine ⟨List.ofFn l, List.mem_map.2 ⟨l, hl, rfl⟩, fun he => hne ?_⟩
  cases lens with
  | nil => simp at hl
  | cons l0 lens =>
    simp only [List.map_cons, List.headD_cons] at he ⊢
    rw [List.ofFn_injective he]

theorem localArr {α : Type} {o : Option (Chunks α)} (ho : Spread n o) {e : Err} {x : Chunks α}
    (h : orErr e o = .ok x) :
    ∃ f : Fin n → List α, x = List.ofFn f ∧ ∀ r : Fin n, orErr e (oneOf r o) = .ok [f r] := by
  rw [orErr_eq_ok] at h
  refine ⟨_, spread_ofFn ho h, fun r => ?_⟩
  rw [h]
  rfl

theorem lengthsOf_ofFn {α : Type} (f : Fin n → List α) :
    lengthsOf (List.ofFn f) = List.ofFn fun r => (f r).length := by
  rw [lengthsOf, List.map_ofFn]
  rfl

theorem fits_contour {G : Geometry K} {e e' : ModelErr K} {l : List (Num K)}
    (he : SpreadModelErr n e) (h : e.contour G n = .ok (l, e')) :
    SpreadModelErr n e' ∧
    Fits (fun r : Fin n => (e.view r).procContour G r n) (fun r => .ok (l, e'.view r)) := by
  simp only [ModelErr.contour, bind_eq_ok, pure_eq_ok, Prod.mk.injEq] at h
  obtain ⟨inp, hinp, d1, hd1, inp1, hinp1, d2, hd2, probs, hprobs, inp2, hinp2, vols, hvols, io, hio,
    io', hio', _, hlen, rfl, rfl⟩ := h
  obtain ⟨hs1, hf1⟩ := fits_contourVolumes he.1 (he.1.input _ ((orErr_eq_ok _ _ _).1 hinp)) hd1
  obtain ⟨hs2, hf2⟩ := fits_localizeVolumes hs1 (hs1.input _ ((orErr_eq_ok _ _ _).1 hinp1)) hd2
  obtain ⟨v, rfl, hv⟩ := localArr (hs2.input _ ((orErr_eq_ok _ _ _).1 hinp2)).1.2.1 hvols
  obtain ⟨p, rfl, hp⟩ := localPtr hs2.io hio
  obtain ⟨p', rfl, hp'⟩ := localPtr he.2.io hio'
  refine ⟨⟨hs2, he.2⟩, ?_⟩
  unfold ModelErr.procContour
  refine Fits.except (r := fun r => inp.view r) (fun r => orErr_view hinp r) ?_
  refine Fits.bind hf1 ?_
  refine Fits.except (r := fun r => inp1.view r) (fun r => orErr_view hinp1 r) ?_
  refine Fits.bind hf2 ?_
  refine Fits.bind (fits_measureProbs hprobs) ?_
  refine Fits.except (r := fun r => inp2.view r) (fun r => orErr_view hinp2 r) ?_
  refine Fits.except (r := fun r => [v r]) hv ?_
  refine Fits.except (r := fun r => [p r]) hp ?_
  refine Fits.except (r := fun r => [p' r]) hp' ?_
  refine Fits.except (r := fun _ => ()) ?_ ?_
  · intro r
    simp only [lengthsOf_ofFn] at hlen
    exact sameLengths_view (lens := [fun r => (v r).length, fun r => (p r).length,
      fun r => (p' r).length]) hlen r
  simp only [List.flatten_cons, List.flatten_nil, List.append_nil]
  refine Fits.bind (fits_mapM _ fun i _ => fits_contourEvent v p p' probs i) ?_
  exact Fits.ret _

theorem fits_globalized {e e' : ModelErr K} (he : SpreadModelErr n e)
    (h : e.globalized = .ok e') :
    SpreadModelErr n e' ∧
    Fits (fun r : Fin n => (e.view r).procGlobalized) (fun r => .ok (e'.view r)) := by
  simp only [ModelErr.globalized, bind_eq_ok, pure_eq_ok] at h
  obtain ⟨inp, hinp, rfl⟩ := h
  have hsi := he.1.input _ ((orErr_eq_ok _ _ _).1 hinp)
  obtain ⟨h1, h2⟩ := fits_globalizePtrs (spread_putInput he.1 (spread_localToGlobal hsi))
  obtain ⟨h3, h4⟩ := fits_globalizePtrs he.2
  refine ⟨⟨h1, h3⟩, ?_⟩
  unfold ModelErr.procGlobalized
  refine Fits.except (r := fun r => inp.view r) (fun r => orErr_view hinp r) ?_
  refine Fits.bind (fits_localToGlobal hsi) ?_
  refine Fits.bind h2 ?_
  exact Fits.bind h4 (Fits.ret _)

theorem fits_maskCounts (inA in1 in2 : Fin n → List Bool) :
    Fits (fun r => (procCounts (inA r) (in1 r) (in2 r) : Proc (Msg K) (Nat × Nat × Nat × Nat)))
      (fun _ => .ok (countMask (List.ofFn fun r => and1 (inA r) (in1 r)), countMask (List.ofFn in1),
        countMask (List.ofFn fun r => and1 (inA r) (in2 r)), countMask (List.ofFn in2))) := by
  unfold procCounts
  refine Fits.bind (fits_reduceMask _) ?_
  refine Fits.bind (fits_reduceMask _) ?_
  refine Fits.bind (fits_reduceMask _) ?_
  refine Fits.bind (fits_reduceMask _) ?_
  exact Fits.ret _

theorem fits_modelRegion (inA : Fin n → List Bool) (ii : Fin n → List Nat) (io io' : List Nat)
    (probs : List K) (is : List Nat) (er : K) :
    Fits (fun r => procModelRegion (inA r) (ii r) io io' probs is er)
      (fun _ => .ok (is.foldlM (modelRegionStep (List.ofFn inA) (List.ofFn ii) io io' probs) er)) := by
  induction is generalizing er with
  | nil => exact Fits.ret _
  | cons i is ih =>
    unfold procModelRegion
    rw [List.foldlM_cons, modelRegionStep]
    split
    · simp only [andMask_ofFn, eventMask_ofFn]
      refine Fits.bind (fits_maskCounts _ _ _) ?_
      dsimp only
      split
      · case h_1 err heq =>
        rw [heq]
        exact Fits.ret _
      · case h_2 t heq =>
        rw [heq]
        exact ih _
    · exact ih _

theorem fits_regionSum {G : Geometry K} {e : ModelErr K} {pts s : SampleSet K}
    {ii : Fin n → List Nat} {region : Int} {x : Except Err K}
    (hp : SpreadSet n pts) (hs : SpreadSet n s)
    (h : e.regionSum G n pts (List.ofFn ii) s region = .ok x) :
    Fits (fun r : Fin n => (e.view r).procRegionSum G r n (pts.view r) (ii r) (s.view r) region)
      (fun _ => .ok x) := by
  simp only [ModelErr.regionSum, bind_eq_ok, pure_eq_ok] at h
  obtain ⟨inA, hinA, probs, hprobs, io, hio, io', hio', rfl⟩ := h
  obtain ⟨m, rfl, hfm⟩ := fits_regionMask hs hp hinA
  unfold ModelErr.procRegionSum
  refine Fits.bind hfm ?_
  refine Fits.bind (fits_measureProbs hprobs) ?_
  refine Fits.except (r := fun _ => io) (fun _ => hio) ?_
  refine Fits.except (r := fun _ => io') (fun _ => hio') ?_
  exact fits_modelRegion _ _ _ _ _ _ _

theorem fits_regionGiven {G : Geometry K} {e e' : ModelErr K} {s em : SampleSet K} {region : Int}
    {x : Except Err K} (he : SpreadModelErr n e) (hs : SpreadSet n s) (hem : SpreadSet n em)
    (h : e.regionGiven G n s region em = .ok (x, e')) :
    SpreadModelErr n e' ∧
    Fits (fun r : Fin n => (e.view r).procRegionGiven G r n (s.view r) region (em.view r))
      (fun r => .ok (x, e'.view r)) := by
  simp only [ModelErr.regionGiven, bind_eq_ok, pure_eq_ok, Prod.mk.injEq] at h
  obtain ⟨e1, he1, d1, hd1, d2, hd2, ii, hii, pts, hpts, y, hy, rfl, rfl⟩ := h
  obtain ⟨hse, hfe⟩ := fits_globalized he he1
  have hs1 : SpreadDisc n d1 := by
    rw [setEmInput_eq hd1]
    exact spread_putEmInput hse.1 hem
  obtain ⟨hs2, hf2⟩ := fits_setIiPtr hs1 hd2
  obtain ⟨p, rfl, hp⟩ := localPtr hs2.ii hii
  refine ⟨hse, ?_⟩
  unfold ModelErr.procRegionGiven
  refine Fits.bind hfe ?_
  refine Fits.except (r := fun r => d1.view r) (fun r => view_setEmInput hd1 r) ?_
  refine Fits.bind hf2 ?_
  refine Fits.except (r := fun r => [p r]) hp ?_
  refine Fits.except (r := fun r => pts.view r) (fun r => orErr_view hpts r) ?_
  simp only [List.flatten_cons, List.flatten_nil, List.append_nil]
  refine Fits.bind (fits_regionSum (hs2.emInput _ ((orErr_eq_ok _ _ _).1 hpts)) hs hy) ?_
  exact Fits.ret _

theorem fits_regionOwn {G : Geometry K} {e e' : ModelErr K} {s : SampleSet K} {region : Int}
    {x : Except Err K} (he : SpreadModelErr n e) (hs : SpreadSet n s)
    (h : e.regionOwn G n s region = .ok (x, e')) :
    SpreadModelErr n e' ∧
    Fits (fun r : Fin n => (e.view r).procRegionOwn G r n (s.view r) region)
      (fun r => .ok (x, e'.view r)) := by
  simp only [ModelErr.regionOwn, bind_eq_ok, pure_eq_ok, Prod.mk.injEq] at h
  obtain ⟨e1, he1, d1, hd1, new, hnew, ii, hii, pts, hpts, pts1, hpts1, y, hy, rfl, rfl⟩ := h
  obtain ⟨hse, hfe⟩ := fits_globalized he he1
  obtain ⟨hs1, hf1⟩ := fits_ensureIiPtr hse.1 hd1
  obtain ⟨hs2, hf2⟩ := fits_setIiPtr hse.2 hnew
  obtain ⟨p, rfl, hp⟩ := localPtr hs1.ii hii
  have hsp := spread_localized (hs1.emInput _ ((orErr_eq_ok _ _ _).1 hpts)) hpts1
  refine ⟨⟨spread_putEmInput hs1 hsp, hs2⟩, ?_⟩
  unfold ModelErr.procRegionOwn
  refine Fits.bind hfe ?_
  refine Fits.bind hf1 ?_
  refine Fits.bind hf2 ?_
  refine Fits.except (r := fun r => [p r]) hp ?_
  refine Fits.except (r := fun r => pts.view r) (fun r => orErr_view hpts r) ?_
  refine Fits.bind (fits_localized hpts1) ?_
  simp only [List.flatten_cons, List.flatten_nil, List.append_nil]
  refine Fits.bind (fits_regionSum hsp hs hy) ?_
  exact Fits.ret _

theorem errorCells_ofFn (a b c : Fin n → List Bool) :
    errorCells (List.ofFn a) (List.ofFn b) (List.ofFn c) =
      List.ofFn fun r => cells1 (a r) (b r) (c r) := by
  simp only [errorCells, errorCells.orMask, neMask, List.map_ofFn, andMask_ofFn, zipWith_ofFn]
  rfl

theorem charge_ofFn (ids : Fin n → List (Num K)) (cells : Fin n → List Bool) (er : Num K) :
    charge (List.ofFn ids) (List.ofFn cells) er =
      List.ofFn fun r => charge1 (ids r) (cells r) (countMask (List.ofFn cells)) er := by
  unfold charge charge1
  split
  · rfl
  · rw [zipWith_ofFn]

theorem fits_mcStep (inA : Fin n → List Bool) (io io' : Fin n → List Nat) (probs : List K)
    (er : Num K) (ids : Fin n → List (Num K)) (i : Nat) :
    ∃ ids' : Fin n → List (Num K),
      (modelMcStep (List.ofFn inA) (List.ofFn io) (List.ofFn io') probs (er, List.ofFn ids) i).2 =
        List.ofFn ids' ∧
      Fits (fun r => procMcStep (inA r) (io r) (io' r) probs (er, ids r) i)
        (fun r => .ok ((modelMcStep (List.ofFn inA) (List.ofFn io) (List.ofFn io') probs
          (er, List.ofFn ids) i).1, ids' r)) := by
  unfold modelMcStep procMcStep
  split
  · simp only [andMask_ofFn, eqMask_ofFn, errorCells_ofFn, charge_ofFn]
    refine ⟨_, rfl, ?_⟩
    refine Fits.bind (fits_maskCounts _ _ _) ?_
    refine Fits.bind (fits_reduceMask _) ?_
    exact Fits.ret _
  · exact ⟨ids, rfl, Fits.ret _⟩

theorem fits_mcLoop (inA : Fin n → List Bool) (io io' : Fin n → List Nat) (probs : List K)
    (is : List Nat) (er : Num K) (ids : Fin n → List (Num K)) :
    ∃ ids' : Fin n → List (Num K),
      (is.foldl (modelMcStep (List.ofFn inA) (List.ofFn io) (List.ofFn io') probs)
        (er, List.ofFn ids)).2 = List.ofFn ids' ∧
      Fits (fun r => is.foldlM (procMcStep (inA r) (io r) (io' r) probs) (er, ids r))
        (fun r => .ok ((is.foldl (modelMcStep (List.ofFn inA) (List.ofFn io) (List.ofFn io') probs)
          (er, List.ofFn ids)).1, ids' r)) := by
  induction is generalizing er ids with
  | nil => exact ⟨ids, rfl, Fits.ret _⟩
  | cons i is ih =>
    obtain ⟨ids1, h1, f1⟩ := fits_mcStep inA io io' probs er ids i
    obtain ⟨ids2, h2, f2⟩ := ih (modelMcStep (List.ofFn inA) (List.ofFn io) (List.ofFn io') probs
      (er, List.ofFn ids) i).1 ids1
    have e : modelMcStep (List.ofFn inA) (List.ofFn io) (List.ofFn io') probs
        (er, List.ofFn ids) i = ((modelMcStep (List.ofFn inA) (List.ofFn io) (List.ofFn io') probs
        (er, List.ofFn ids) i).1, List.ofFn ids1) := Prod.ext rfl h1
    rw [List.foldl_cons, e]
    simp only [List.foldlM_cons]
    exact ⟨ids2, h2, Fits.bind f1 f2⟩

theorem fits_regionMc {G : Geometry K} {e e' : ModelErr K} {s : SampleSet K} {region : Int}
    {er : Num K} {ids : Chunks (Num K)} (he : SpreadModelErr n e) (hs : SpreadSet n s)
    (h : e.regionMc G n s region = .ok ((er, ids), e')) :
    SpreadModelErr n e' ∧ ∃ c : Fin n → List (Num K), ids = List.ofFn c ∧
    Fits (fun r : Fin n => (e.view r).procRegionMc G r n (s.view r) region)
      (fun r => .ok ((er, c r), e'.view r)) := by
  simp only [ModelErr.regionMc, bind_eq_ok, pure_eq_ok, Prod.mk.injEq] at h
  obtain ⟨marker, hm, inp, hinp, inp1, hinp1, inA, hinA, probs, hprobs, nums, hnums, io, hio, io',
    hio', _, hlen, hr, rfl⟩ := h
  have hsi := spread_localized (he.1.input _ ((orErr_eq_ok _ _ _).1 hinp)) hinp1
  obtain ⟨m, rfl, hfm⟩ := fits_regionMask hs hsi hinA
  obtain ⟨p, rfl, hp⟩ := localPtr he.1.io hio
  obtain ⟨p', rfl, hp'⟩ := localPtr he.2.io hio'
  obtain ⟨hn1, rfl⟩ := checkNumLocals_inv hnums
  refine ⟨⟨spread_putInput he.1 hsi, he.2⟩, ?_⟩
  rw [modelRegionMc, List.map_ofFn] at hr
  obtain ⟨ids', h1, h2⟩ := fits_mcLoop m p p' probs (List.range probs.length) (.fin 0)
    ((fun c => c.map fun _ => .fin 0) ∘ p)
  rw [hr] at h1 h2
  refine ⟨ids', h1, ?_⟩
  unfold ModelErr.procRegionMc
  refine Fits.except (r := fun _ => marker) (fun _ => hm) ?_
  refine Fits.except (r := fun r => inp.view r) (fun r => orErr_view hinp r) ?_
  refine Fits.bind (fits_localized hinp1) ?_
  refine Fits.bind hfm ?_
  refine Fits.bind (fits_measureProbs hprobs) ?_
  refine Fits.except (r := fun r : Fin n => (inp1.checkNumLocal r).toOption.bind id) ?_ ?_
  · intro r
    rw [view_checkNumLocal]
    obtain ⟨m, hm⟩ := hn1 r (by simp)
    rw [hm]
    rfl
  refine Fits.except (r := fun r => [p r]) hp ?_
  refine Fits.except (r := fun r => [p' r]) hp' ?_
  refine Fits.except (r := fun _ => ()) ?_ ?_
  · intro r
    have e : (List.range n).map (fun r => ((inp1.checkNumLocal r).toOption.bind id).getD 0) =
        List.ofFn fun r : Fin n => ((inp1.checkNumLocal r).toOption.bind id).getD 0 := by
      apply List.ext_getElem <;> simp
    rw [e] at hlen
    simp only [lengthsOf_ofFn] at hlen
    exact sameLengths_view (lens := [fun r => ((inp1.checkNumLocal r).toOption.bind id).getD 0,
      fun r => (m r).length, fun r => (p r).length, fun r => (p' r).length]) hlen r
  simp only [List.flatten_cons, List.flatten_nil, List.append_nil]
  exact Fits.bind h2 (Fits.ret _)

/-! ### Calls and histories -/

theorem fits_askMc {G : Geometry K} {e e' : ModelErr K} {s : SampleSet K} {region : Int}
    {a : ModelAnswer K} (he : SpreadModelErr n e) (hs : SpreadSet n s)
    (h : e.askMc G n s region = .ok (a, e')) :
    SpreadModelErr n e' ∧ ∃ p, AnswerParts a p ∧
    Fits (fun r : Fin n => (e.view r).procAskMc G r n (s.view r) region)
      (fun r => .ok (p r, e'.view r)) := by
  simp only [ModelErr.askMc, bind_eq_ok, pure_eq_ok, Prod.mk.injEq] at h
  obtain ⟨⟨⟨er, ids⟩, e1⟩, h1, rfl, rfl⟩ := h
  obtain ⟨h2, c, rfl, h3⟩ := fits_regionMc he hs h1
  refine ⟨h2, fun r => .value er (some (c r)), ⟨c, rfl, fun _ => rfl⟩, ?_⟩
  exact Fits.bind h3 (Fits.ret _)

theorem answerParts_region {x : Except Err K} :
    AnswerParts (n := n) (regionAnswer x) (fun _ => regionAnswer x) := by
  cases x <;> exact fun _ => rfl

theorem fits_askRegion {G : Geometry K} {e e' : ModelErr K} {s : SampleSet K} {region : Int}
    {em own : Option (SampleSet K)} {a : ModelAnswer K} (he : SpreadModelErr n e)
    (hs : SpreadSet n s) (hem : ∀ t, em = some t → SpreadSet n t)
    (h : e.askRegion G n s region em own = .ok (a, e')) :
    SpreadModelErr n e' ∧ ∃ p, AnswerParts a p ∧
    Fits (fun r : Fin n => (e.view r).procAskRegion G r n (s.view r) region
      (em.map (SampleSet.view r)) (own.map (SampleSet.view r)))
      (fun r => .ok (p r, e'.view r)) := by
  cases em with
  | some em =>
    simp only [ModelErr.askRegion, bind_eq_ok, pure_eq_ok, Prod.mk.injEq] at h
    obtain ⟨⟨x, e1⟩, h1, rfl, rfl⟩ := h
    obtain ⟨h2, h3⟩ := fits_regionGiven he hs (hem _ rfl) h1
    exact ⟨h2, _, answerParts_region, Fits.bind h3 (Fits.ret _)⟩
  | none =>
    cases own with
    | some own =>
      simp only [ModelErr.askRegion, bind_eq_ok, pure_eq_ok, Prod.mk.injEq] at h
      obtain ⟨⟨x, e1⟩, h1, rfl, rfl⟩ := h
      obtain ⟨h2, h3⟩ := fits_regionOwn he hs h1
      exact ⟨h2, _, answerParts_region, Fits.bind h3 (Fits.ret _)⟩
    | none => exact fits_askMc he hs h

theorem fits_ask {G : Geometry K} {e e' : ModelErr K} {q : ModelQuery K} {a : ModelAnswer K}
    (he : SpreadModelErr n e) (hq : SpreadQuery n q) (h : e.ask G n q = .ok (a, e')) :
    SpreadModelErr n e' ∧ ∃ p, AnswerParts a p ∧
    Fits (fun r : Fin n => (e.view r).procAsk G r n q) (fun r => .ok (p r, e'.view r)) := by
  cases q with
  | contour =>
    simp only [ModelErr.ask, bind_eq_ok, pure_eq_ok, Prod.mk.injEq] at h
    obtain ⟨⟨l, e1⟩, h1, rfl, rfl⟩ := h
    obtain ⟨h2, h3⟩ := fits_contour he h1
    exact ⟨h2, fun _ => .events l, fun _ => rfl, Fits.bind h3 (Fits.ret _)⟩
  | region s region em =>
    simp only [ModelErr.ask, ModelErr.procAsk, view_regionMarker] at h ⊢
    cases hm : regionMarker s region with
    | error err =>
      rw [hm, ModelErr.refusing, pure_eq_ok] at h
      cases h
      exact ⟨he, fun _ => .raised err, fun _ => rfl, Fits.ret _⟩
    | ok m =>
      rw [hm, ModelErr.refusing] at h
      exact fits_askRegion he hq.1 hq.2 h
  | regionMc s region =>
    simp only [ModelErr.ask, ModelErr.procAsk, view_regionMarker] at h ⊢
    cases hm : regionMarker s region with
    | error err =>
      rw [hm, ModelErr.refusing, pure_eq_ok] at h
      cases h
      exact ⟨he, fun _ => .raised err, fun _ => rfl, Fits.ret _⟩
    | ok m =>
      rw [hm, ModelErr.refusing] at h
      exact fits_askMc he hq h

theorem fits_askAll {G : Geometry K} {e e' : ModelErr K} {qs : List (ModelQuery K)}
    {as : List (ModelAnswer K)} (he : SpreadModelErr n e) (hq : ∀ q ∈ qs, SpreadQuery n q)
    (h : e.askAll G n qs = .ok (as, e')) :
    SpreadModelErr n e' ∧ ∃ ps, AnswersParts as ps ∧
    Fits (fun r : Fin n => (e.view r).procAskAll G r n qs) (fun r => .ok (ps r, e'.view r)) := by
  induction qs generalizing e as with
  | nil =>
    rw [ModelErr.askAll, pure_eq_ok] at h
    cases h
    exact ⟨he, fun _ => [], ⟨fun _ => rfl, by simp⟩, Fits.ret _⟩
  | cons q qs ih =>
    simp only [ModelErr.askAll, bind_eq_ok, pure_eq_ok, Prod.mk.injEq] at h
    obtain ⟨⟨a, e1⟩, h1, ⟨as1, e2⟩, h2, rfl, rfl⟩ := h
    obtain ⟨s1, p, hp, f1⟩ := fits_ask he (hq q (by simp)) h1
    obtain ⟨s2, ps, hps, f2⟩ := ih s1 (fun q hq' => hq q (by simp [hq'])) h2
    refine ⟨s2, fun r => p r :: ps r, ⟨fun r => by simp [hps.1 r], ?_⟩, ?_⟩
    · intro k b hk
      cases k with
      | zero =>
        simp only [List.getElem?_cons_zero, Option.some.injEq] at hk
        subst hk
        exact ⟨p, hp, fun _ => rfl⟩
      | succ k => exact hps.2 k b hk
    · unfold ModelErr.procAskAll
      exact Fits.bind f1 (Fits.bind f2 (Fits.ret _))

/-! ### Marginals -/

theorem view_marginalSet {o : PostObj K} {s : SampleSet K} (h : o.marginalSet = .ok s) (r : Nat) :
    (o.view r).marginalSet = .ok (s.view r) := by
  cases o with
  | disc d =>
    have h : orErr .missingAttribute (d.emInput.or d.input) = .ok s := h
    have := orErr_view h r
    show orErr _ ((d.emInput.map (SampleSet.view r)).or (d.input.map (SampleSet.view r))) = _
    rw [← this]
    cases d.emInput <;> rfl
  | set t => cases h; rfl
  | other => cases h

theorem fits_localProbs {s s' : SampleSet K} (hs : SpreadSet n s) (h : s.localProbs n = .ok s') :
    SpreadSet n s' ∧
    Fits (fun r : Fin n => (s.view r).procLocalProbs r n) (fun r => .ok (s'.view r)) := by
  unfold SampleSet.localProbs at h
  unfold SampleSet.procLocalProbs
  have e : ∀ r : Nat, (s.view r).loc.probabilities.isSome = s.loc.probabilities.isSome :=
    fun r => isSome_oneOf r _
  simp only [e]
  split at h
  · case isTrue hc =>
    cases h
    simp only [hc, if_true]
    exact ⟨hs, Fits.ret _⟩
  · case isFalse hc =>
    simp only [bind_eq_ok] at h
    obtain ⟨_, hz, h⟩ := h
    simp only [hc]
    refine ⟨spread_globalToLocal hs h, ?_⟩
    exact Fits.except (r := fun _ => ()) (fun _ => hz) (fits_globalToLocal h)

theorem fits_reduceArr' (m : Nat) (x : Fin n → List K) :
    Fits (fun r => reduceArr m (x r)) (fun _ => .ok (allreduceVec m (List.ofFn x))) := by
  refine ⟨1, ?_⟩
  have := fit_reduceArr m x
  simp only [allreduceVec, List.map_ofFn, allreduceSum_num]
  exact this

theorem fits_reduceMat (m k : Nat) (x : Fin n → List (List K)) :
    Fits (fun r => reduceMat m k (x r)) (fun _ => .ok (allreduceMat m k (List.ofFn x))) := by
  refine ⟨1, .coll .allreduce (fun r => .mat (x r)) _ (fun _ => rfl) (.done fun _ => ?_)⟩
  simp [Proc.result, List.map_ofFn, Function.comp_def]

theorem fits_marginal {s : SampleSet K} {bins : List (List K)} {i : Nat} {m : List K}
    (hs : SpreadSet n s) (h : s.marginal bins i = .ok m) :
    Fits (fun r : Fin n => (s.view r).procMarginal bins i) (fun _ => .ok m) := by
  simp only [SampleSet.marginal, bind_eq_ok, pure_eq_ok] at h
  obtain ⟨v, hv, p, hp, e, he, hist, hh, rfl⟩ := h
  obtain ⟨f, rfl, hf⟩ := localArr hs.1.1 hv
  obtain ⟨g, rfl, hg⟩ := localArr hs.1.2.2.1 hp
  rw [zip_ofFn] at hh
  obtain ⟨b, rfl, hb⟩ := mapM_ofFn_ok hh
  unfold SampleSet.procMarginal
  refine Fits.except (r := fun r => [f r]) hf ?_
  refine Fits.except (r := fun r => [g r]) hg ?_
  refine Fits.except (r := fun _ => e) (fun _ => he) ?_
  simp only [List.flatten_cons, List.flatten_nil, List.append_nil]
  simp only [bind_eq_ok] at hb
  choose col hcol hhist using hb
  refine Fits.except hcol ?_
  refine Fits.except hhist ?_
  exact fits_reduceArr' _ _

theorem fits_marginal2 {s : SampleSet K} {bins : List (List K)} {i j : Nat} {m : List (List K)}
    (hs : SpreadSet n s) (h : s.marginal2 bins i j = .ok m) :
    Fits (fun r : Fin n => (s.view r).procMarginal2 bins i j) (fun _ => .ok m) := by
  simp only [SampleSet.marginal2, bind_eq_ok, pure_eq_ok] at h
  obtain ⟨v, hv, p, hp, e, he, e', he', hist, hh, rfl⟩ := h
  obtain ⟨f, rfl, hf⟩ := localArr hs.1.1 hv
  obtain ⟨g, rfl, hg⟩ := localArr hs.1.2.2.1 hp
  rw [zip_ofFn] at hh
  obtain ⟨b, rfl, hb⟩ := mapM_ofFn_ok hh
  unfold SampleSet.procMarginal2
  refine Fits.except (r := fun r => [f r]) hf ?_
  refine Fits.except (r := fun r => [g r]) hg ?_
  refine Fits.except (r := fun _ => e) (fun _ => he) ?_
  refine Fits.except (r := fun _ => e') (fun _ => he') ?_
  simp only [List.flatten_cons, List.flatten_nil, List.append_nil]
  simp only [bind_eq_ok] at hb
  choose x hx y hy hhist using hb
  refine Fits.except hx ?_
  refine Fits.except hy ?_
  refine Fits.except hhist ?_
  exact fits_reduceMat _ _ _

/-- A loop whose rounds give the same result on all processes. -/
theorem fits_mapM_ok {A R M : Type} {body : Fin n → A → Proc M R} {f : A → Except Err R}
    (l : List A) {ys : List R}
    (h : ∀ a ∈ l, ∀ y, f a = .ok y → Fits (fun r => body r a) (fun _ => .ok y))
    (hl : l.mapM f = .ok ys) : Fits (fun r => l.mapM (body r)) (fun _ => .ok ys) := by
  induction l generalizing ys with
  | nil =>
    rw [List.mapM_nil, pure_eq_ok] at hl
    subst hl
    exact Fits.ret _
  | cons a l ih =>
    simp only [List.mapM_cons, bind_eq_ok, pure_eq_ok] at hl ⊢
    obtain ⟨y, hy, ys', hys, rfl⟩ := hl
    refine Fits.bind (h a (by simp) y hy) ?_
    refine Fits.bind (ih (fun b hb => h b (by simp [hb])) hys) ?_
    exact Fits.ret _

/-- What process `r` has of the result of a function of /repo/bet/postProcess/plotP.py:37-172. -/
def Marginals.view {α : Type} (r : Nat) (m : Marginals K α) : Marginals K α :=
  { m with set := m.set.view r }

/-- The argument of a function of postProcess has parts for each of the `n` processes. -/
def Spec.SpreadPost (n : Nat) : PostObj K → Prop
  | .disc d => SpreadDisc n d
  | .set s => SpreadSet n s
  | .other => True

theorem spread_marginalSet {o : PostObj K} {s : SampleSet K} (ho : SpreadPost n o)
    (h : o.marginalSet = .ok s) : SpreadSet n s := by
  cases o with
  | disc d =>
    have h : orErr .missingAttribute (d.emInput.or d.input) = .ok s := h
    rw [orErr_eq_ok] at h
    cases he : d.emInput with
    | some e =>
      rw [he] at h
      cases h
      exact SpreadDisc.emInput ho _ he
    | none =>
      rw [he] at h
      exact SpreadDisc.input ho _ h
  | set t => cases h; exact ho
  | other => cases h

theorem fits_calculate1D {nbins : NBins} {o : PostObj K} {m : Marginals K (List K)}
    (ho : SpreadPost n o) (h : calculate1D n nbins o = .ok m) :
    SpreadSet n m.set ∧
    Fits (fun r : Fin n => procCalculate1D r n nbins (o.view r)) (fun r => .ok (m.view r)) := by
  simp only [calculate1D, bind_eq_ok, pure_eq_ok] at h
  obtain ⟨s, hs, s1, hs1, bins, hb, ms, hm, rfl⟩ := h
  obtain ⟨h1, h2⟩ := fits_localProbs (spread_marginalSet ho hs) hs1
  refine ⟨h1, ?_⟩
  unfold procCalculate1D
  refine Fits.except (r := fun r => s.view r) (fun r => view_marginalSet hs r) ?_
  refine Fits.bind h2 ?_
  refine Fits.except (r := fun _ => bins) (fun _ => hb) ?_
  refine Fits.bind (fits_mapM_ok _ (fun i _ y hy => fits_marginal h1 hy) hm) ?_
  exact Fits.ret _

theorem fits_calculate2D {nbins : NBins} {o : PostObj K}
    {m : Marginals K ((Nat × Nat) × List (List K))}
    (ho : SpreadPost n o) (h : calculate2D n nbins o = .ok m) :
    SpreadSet n m.set ∧
    Fits (fun r : Fin n => procCalculate2D r n nbins (o.view r)) (fun r => .ok (m.view r)) := by
  simp only [calculate2D, bind_eq_ok, pure_eq_ok] at h
  obtain ⟨s, hs, s1, hs1, _, hz, bins, hb, ms, hm, rfl⟩ := h
  obtain ⟨h1, h2⟩ := fits_localProbs (spread_marginalSet ho hs) hs1
  refine ⟨h1, ?_⟩
  unfold procCalculate2D
  refine Fits.except (r := fun r => s.view r) (fun r => view_marginalSet hs r) ?_
  refine Fits.bind h2 ?_
  refine Fits.except (r := fun _ => ()) (fun _ => hz) ?_
  refine Fits.except (r := fun _ => bins) (fun _ => hb) ?_
  refine Fits.bind (fits_mapM_ok _ (fun q _ y hy => ?_) hm) ?_
  · simp only [bind_eq_ok, pure_eq_ok] at hy
    obtain ⟨t, ht, rfl⟩ := hy
    exact Fits.bind (fits_marginal2 h1 ht) (Fits.ret _)
  exact Fits.ret _

/-! ### The theorems -/

/-- **C124 (sampling_error).** Making a `sampling_error` object on processes with their own speed: under
every schedule every process comes to its end, and all have the same neighbours and boundary sets. -/
theorem C124_sampling_new (hpos : 0 < n) {G : Geometry K} {argsort : List K → List Nat}
    {delaunay : List (List K) → Except Err (List (List Nat))} {d d' : Disc K} {k : Keys}
    (hd : SpreadDisc n d) (h : samplingErrorInit G n argsort delaunay d = .ok (k, d')) :
    SpreadDisc n d' ∧
    RunsTo (fun r : Fin n => procSamplingErrorInit G r n argsort delaunay (d.view r))
      (fun r => .ok (k, d'.view r)) :=
  let h0 := fits_samplingInit hd h; ⟨h0.1, h0.2.runs hpos⟩

/-- **C124 (contour events).** The bounds of `calculate_for_contour_events` are the same on all
processes, under every schedule. -/
theorem C124_sampling_contour (hpos : 0 < n) {G : Geometry K} {k k' : Keys} {d d' : Disc K}
    {l : List (Num K × Num K)} (hd : SpreadDisc n d)
    (h : samplingContour G n k d = .ok (l, k', d')) :
    SpreadDisc n d' ∧
    RunsTo (fun r : Fin n => procSamplingContour G r n k (d.view r))
      (fun r => .ok (l, k', d'.view r)) :=
  let h0 := fits_samplingContour hd h; ⟨h0.1, h0.2.runs hpos⟩

/-- **C124 (regions).** The bounds of `calculate_for_sample_set_region` are the same on all processes,
under every schedule, also when the loop over the events is left early. -/
theorem C124_sampling_region (hpos : 0 < n) {G : Geometry K} {k k' : Keys} {d : Disc K}
    {s : SampleSet K} {region : Int} {em : Option (SampleSet K)} {b : Option (K × K)}
    (hd : SpreadDisc n d) (hs : SpreadSet n s) (he : ∀ t, em = some t → SpreadSet n t)
    (h : samplingRegion G n k d s region em = .ok (b, k')) :
    RunsTo (fun r : Fin n => procSamplingRegion G r n k (d.view r) (s.view r) region
      (em.map (SampleSet.view r))) (fun _ => .ok (b, k')) :=
  (fits_samplingRegion hd hs he h).runs hpos

/-- **C124 (model_error).** Making a `model_error` object and calling its methods any number of times,
in any order, on processes with their own speed.  When it works with all processes in step, then under
every schedule every process comes to its end, all get the same estimates and the same exceptions, and
every process gets its part of the errors charged to the samples. -/
theorem C124_model (hpos : 0 < n) {G : Geometry K} {d : Disc K} {e e' : ModelErr K}
    {qs : List (ModelQuery K)} {as : List (ModelAnswer K)} (hd : SpreadDisc n d)
    (hq : ∀ q ∈ qs, SpreadQuery n q) (h : modelErrorNew G n d = .ok e)
    (ha : e.askAll G n qs = .ok (as, e')) :
    SpreadModelErr n e' ∧ ∃ ps, AnswersParts as ps ∧
    RunsTo (fun r : Fin n => procModelErrorNew G r n (d.view r) >>= fun e => e.procAskAll G r n qs)
      (fun r => .ok (ps r, e'.view r)) := by
  obtain ⟨h1, h2⟩ := fits_modelErrorNew hd h
  obtain ⟨h3, ps, h4, h5⟩ := fits_askAll h1 hq ha
  exact ⟨h3, ps, h4, (Fits.bind h2 h5).runs hpos⟩

/-- **C124 (right answers).** For a discretization with error estimates, and calls with sets that can
be used, it does work: under every schedule every process comes to its end with its part of the right
answers. -/
theorem C124_model_right [IsStrictOrderedRing K] {G : Geometry K} (hG : Sound G) (hpos : 0 < n)
    {d : Disc K} {inp out ps : SampleSet K} {x y er : List (List K)} {probs : List K}
    {own : Option (List (List K))} {m : Nat} (h : ModelProblem G n d inp out ps x y er probs own m)
    (hd : SpreadDisc n d) {qs : List (ModelQuery K)} (hu : ∀ q ∈ qs, Usable n inp.dim q)
    (hq : ∀ q ∈ qs, SpreadQuery n q) :
    ∃ io io' vols as parts, ∃ e' : Fin n → ModelErr K,
      List.Forall₂ (IsCell G ps) y io ∧
      List.Forall₂ (IsCell G ps) (List.zipWith (List.zipWith (· + ·)) y er) io' ∧
      UsedVolumes G d inp x.length vols ∧
      List.Forall₂ (RightAnswer G inp x own vols io io' probs) qs as ∧
      AnswersParts as parts ∧
      RunsTo (fun r : Fin n => procModelErrorNew G r n (d.view r) >>= fun e =>
        e.procAskAll G r n qs) (fun r => .ok (parts r, e' r)) := by
  obtain ⟨e, io, io', vols, h1, h2, h3, h4, h5⟩ := C122_history hG hpos h
  obtain ⟨as, e', h6, h7, -⟩ := h5 qs hu
  obtain ⟨-, parts, h8, h9⟩ := C124_model hpos hd hq h1 h6
  exact ⟨io, io', vols, as, parts, fun r => e'.view r, h2, h3, h4, h7, h8, h9⟩

/-- **C124 (marginals).** `calculate_1D_marginal_probs` on processes with their own speed: under every
schedule every process ends with the same bins and the same marginals. -/
theorem C124_marginals (hpos : 0 < n) {nbins : NBins} {o : PostObj K} {m : Marginals K (List K)}
    (ho : SpreadPost n o) (h : calculate1D n nbins o = .ok m) :
    SpreadSet n m.set ∧
    RunsTo (fun r : Fin n => procCalculate1D r n nbins (o.view r)) (fun r => .ok (m.view r)) :=
  let h0 := fits_calculate1D ho h; ⟨h0.1, h0.2.runs hpos⟩

/-- **C124 (joint marginals).** The same for `calculate_2D_marginal_probs`. -/
theorem C124_marginals2 (hpos : 0 < n) {nbins : NBins} {o : PostObj K}
    {m : Marginals K ((Nat × Nat) × List (List K))}
    (ho : SpreadPost n o) (h : calculate2D n nbins o = .ok m) :
    SpreadSet n m.set ∧
    RunsTo (fun r : Fin n => procCalculate2D r n nbins (o.view r)) (fun r => .ok (m.view r)) :=
  let h0 := fits_calculate2D ho h; ⟨h0.1, h0.2.runs hpos⟩

/-- **C124 (right marginals).** With a set of samples, probabilities and a box, every process ends with
the marginals of all samples, under every schedule. -/
theorem C124_marginals_right [IsStrictOrderedRing K] (hpos : 0 < n) {o : PostObj K} {s : SampleSet K}
    {vals : List (List K)} {probs : List K} {dom : List (K × K)} {nb : List Nat} {nbins : NBins}
    (h : Histo o s vals probs dom nb nbins) (ho : SpreadPost n o) :
    ∃ res : Fin n → Marginals K (List K),
      RunsTo (fun r : Fin n => procCalculate1D r n nbins (o.view r)) (fun r => .ok (res r)) ∧
      ∀ r, Edges dom nb (res r).bins ∧ (res r).margs.length = s.dim ∧
        ∀ i b, i < s.dim → nb[i]? = some b → ∃ m, (res r).margs[i]? = some m ∧ m.length = b ∧
          ∀ k, k < b → m[k]? = some (massOf (InBin dom nb i k) vals probs) := by
  obtain ⟨m, h1, -, -, h2, h3, h4⟩ := C61_marginal h hpos
  obtain ⟨-, h5⟩ := C124_marginals hpos ho h1
  exact ⟨fun r => m.view r, h5, fun r => ⟨h2, h3, h4⟩⟩

/-- **C124, negation.** `np.histogram` checks the lengths of the local arrays on each process alone.
When they fit on process `i` and do not on process `j`, then process `j` raises and process `i` waits
in `Allreduce` for ever. -/
theorem C124_negation_lengths {nbins : NBins} {o : PostObj K} {s : SampleSet K}
    {v : Fin n → List (List K)} {p : Fin n → List K} {bins : List (List K)} {e : List K}
    (hs : o.marginalSet = .ok s) (hv : s.loc.values = some (List.ofFn v))
    (hp : s.loc.probabilities = some (List.ofFn p)) (hdim : 0 < s.dim)
    (hb : s.marginalBins (nbins.toArr s.dim) = .ok bins) (he : bins[0]? = some e)
    (hinc : increasing e = true) (hrows : ∀ r, ∀ row ∈ v r, row ≠ []) {i j : Fin n}
    (hi : (v i).length = (p i).length) (hj : (v j).length ≠ (p j).length)
    (sched : List (Fin n)) :
    (((Sys.start fun r : Fin n => procCalculate1D r n nbins (o.view r)).run sched) i).1.result
      = none := by
  refine C114_negation_apart (i := j) ?_ sched
  unfold procCalculate1D
  refine Fits.apart (r := fun r => s.view r) (Fits.of_except fun r => view_marginalSet hs r) ?_
  have hl : ∀ r : Nat, (s.view r).loc.probabilities.isSome = true := by
    intro r
    show (oneOf r s.loc.probabilities).isSome = true
    rw [hp]; rfl
  refine Fits.apart (r := fun r => s.view r) ?_ ?_
  · unfold SampleSet.procLocalProbs
    simp only [hl, if_true]
    exact Fits.ret _
  refine Fits.apart (r := fun _ => bins) (Fits.of_except fun _ => hb) ?_
  obtain ⟨k, hk⟩ : ∃ k, s.dim = k + 1 := ⟨s.dim - 1, by omega⟩
  have hd : ∀ r : Nat, (s.view r).dim = k + 1 := fun _ => hk
  have hcol : ∀ r : Fin n, ∃ col, ((v r).mapM fun row => getIdx row 0) = .ok col ∧
      col.length = (v r).length := by
    intro r
    refine ⟨(v r).map fun row => row.getD 0 0, ?_, by simp⟩
    refine mapM_ok _ _ _ fun row hrow => ?_
    have := hrows r row hrow
    cases row with
    | nil => exact absurd rfl this
    | cons a l => rfl
  choose col hc hlen using hcol
  have hval : ∀ r : Fin n, orErr .typeError (s.view r).loc.values = .ok [v r] := by
    intro r
    show orErr _ (oneOf r s.loc.values) = _
    rw [hv, oneOf_ofFn]; rfl
  have hpr : ∀ r : Fin n, orErr .typeError (s.view r).loc.probabilities = .ok [p r] := by
    intro r
    show orErr _ (oneOf r s.loc.probabilities) = _
    rw [hp, oneOf_ofFn]; rfl
  have key : ∀ r : Fin n, (s.view r).procMarginal bins 0 =
      (Proc.ofExcept (histogram e (col r) (p r)) >>= fun h => reduceArr (e.length - 1) h) := by
    intro r
    unfold SampleSet.procMarginal
    rw [hval r, hpr r, (getIdx_eq_ok _ _ _).2 he]
    show (Proc.ofExcept (([v r].flatten).mapM fun row => getIdx row 0) >>= fun col => _) = _
    simp only [List.flatten_cons, List.flatten_nil, List.append_nil]
    rw [hc r]
    rfl
  simp only [hd, List.range_succ_eq_map, List.mapM_cons, key]
  refine .left (r0 := .error .valueError) ?_ ?_
  · have : histogram e (col j) (p j) = .error .valueError := by
      unfold histogram
      rw [hinc]
      have h2 : (col j).length ≠ (p j).length := by rw [hlen]; exact hj
      simp [raiseIf, h2, bind, Except.bind]
    rw [this]
    rfl
  · have : ∃ h, histogram e (col i) (p i) = .ok h := by
      unfold histogram
      rw [hinc]
      have h2 : (col i).length = (p i).length := by rw [hlen]; exact hi
      simp [raiseIf, h2, bind, Except.bind, pure, Except.pure]
    obtain ⟨h, hh⟩ := this
    rw [hh]
    rfl

end

namespace Ex

theorem spread_fresh {m : Nat} {s : SampleSet ℚ} (h : s.loc = {}) (hi : s.localIndex = none) :
    SpreadSet m s := by
  unfold SpreadSet
  rw [h, hi]
  simp [Arrays.All, Spread]

theorem spread_meDisc : SpreadDisc 2 meDisc := by
  refine ⟨?_, ?_, ?_, ?_, ?_, ?_, ?_, ?_⟩
  · rintro s ⟨⟩; exact spread_fresh rfl rfl
  · rintro s ⟨⟩; exact spread_fresh rfl rfl
  · rintro s ⟨⟩; exact spread_fresh rfl rfl
  · rintro s ⟨⟩; exact spread_fresh rfl rfl
  · rintro s ⟨⟩
  · simp [Spread, meDisc]
  · simp [Spread, meDisc]
  · simp [Spread, meDisc]

theorem spread_meCalls : ∀ q ∈ meCalls, SpreadQuery 2 q := by
  intro q hq
  simp only [meCalls, List.mem_cons, List.not_mem_nil, or_false] at hq
  rcases hq with rfl | rfl | rfl | rfl | rfl | rfl | rfl
  · exact spread_fresh rfl rfl
  · trivial
  · exact ⟨spread_fresh rfl rfl, fun e he => by simp at he⟩
  · exact ⟨spread_fresh rfl rfl, fun e he => by simp at he⟩
  · trivial
  · exact ⟨spread_fresh rfl rfl, fun e he => by obtain rfl := Option.some.inj he; exact spread_fresh rfl rfl⟩
  · exact spread_fresh rfl rfl

/-- The hypotheses of the theorems on `model_error` are met: the calls of the example of C122, one of
them refused, ... -/
example := C124_model_right sound_G (by norm_num) (meProblem 2) spread_meDisc (meUsable 2)
  spread_meCalls

/-- ... and one schedule, in which the second process gets its part, two of the five samples. -/
example : ((((Sys.start fun r : Fin 2 => procModelErrorNew G r 2 (meDisc.view r) >>= fun e =>
    e.procAskAll G r 2 meCalls).run ((List.replicate 90 [1, 1, 0, 0, 0]).flatten)) 1).1.result).bind
      (fun x => x.toOption.map fun q => q.1) = some
    [.value (.fin (1 / 6)) (some [.fin 0, .fin 0]),
     .events [.fin 0, .fin (1 / 4)],
     .value (.fin (-1 / 4)) none,
     .raised .wrongArgumentType,
     .events [.fin 0, .fin (1 / 4)],
     .value (.fin (1 / 4)) none,
     .value (.fin (-1 / 6)) (some [.fin 0, .fin 0])] := by decide +kernel

/-- A `sampling_error` on two processes: the third sample is at the boundary of the first event. -/
example : ((((Sys.start fun r : Fin 2 => procSamplingErrorInit G r 2 (fun z => List.range z.length)
    (fun _ => .ok []) (seDisc.view r) >>= fun q => procSamplingContour G r 2 q.1 q.2).run
      ((List.replicate 60 [1, 1, 0, 0, 0]).flatten)) 1).1.result).bind
      (fun x => x.toOption.map fun q => q.1) =
    some [(.fin (1 / 4), .fin (-1 / 4)), (.fin (1 / 2), .fin (-1 / 3))] := by decide +kernel

theorem spread_seDisc : SpreadDisc 2 seDisc := by
  refine ⟨?_, ?_, ?_, ?_, ?_, ?_, ?_, ?_⟩
  · rintro s ⟨⟩; exact spread_fresh rfl rfl
  · rintro s ⟨⟩; exact spread_fresh rfl rfl
  · rintro s ⟨⟩; exact spread_fresh rfl rfl
  · rintro s ⟨⟩
  · rintro s ⟨⟩
  · simp [Spread, seDisc]
  · simp [Spread, seDisc]
  · simp [Spread, seDisc]

/-- The hypotheses of the theorems on `sampling_error` are met. -/
example : ∃ k d' l k' d'', samplingErrorInit G 2 (fun z => List.range z.length) (fun _ => .ok []) seDisc
    = .ok (k, d') ∧ SpreadDisc 2 d' ∧ samplingContour G 2 k d' = .ok (l, k', d'') := by
  have h : ((samplingErrorInit G 2 (fun z => List.range z.length) (fun _ => .ok []) seDisc).toOption.bind
    fun q => (samplingContour G 2 q.1 q.2).toOption).isSome = true := by decide +kernel
  cases h1 : samplingErrorInit G 2 (fun z => List.range z.length) (fun _ => .ok []) seDisc with
  | error e => rw [h1] at h; simp [Except.toOption] at h
  | ok q =>
    rw [h1] at h
    cases h2 : samplingContour G 2 q.1 q.2 with
    | error e => simp [Except.toOption, h2] at h
    | ok w =>
      exact ⟨q.1, q.2, w.1, w.2.1, w.2.2, rfl,
        (C124_sampling_new (by norm_num) spread_seDisc h1).1, h2⟩

/-- Bounds for a region on two processes. -/
example : ((((Sys.start fun r : Fin 2 => procSamplingErrorInit G r 2 (fun z => List.range z.length)
    (fun _ => .ok []) (seDisc.view r) >>= fun q =>
      procSamplingRegion G r 2 q.1 q.2 (meRegions.view r) 1 (some (mePoints.view r))).run
      ((List.replicate 60 [1, 1, 0, 0, 0]).flatten)) 1).1.result).bind
      (fun x => x.toOption.map fun q => q.1) =
    ((samplingErrorInit G 2 (fun z => List.range z.length) (fun _ => .ok []) seDisc).toOption.bind
      fun q => (samplingRegion G 2 q.1 q.2 meRegions 1 (some mePoints)).toOption.map fun q => q.1) := by
  decide +kernel

/-- The hypotheses of the theorems on marginals are met. -/
example := C124_marginals_right (n := 2) (by norm_num) margSet_ok (spread_fresh rfl rfl)

/-- One schedule for the joint marginals. -/
example : ((((Sys.start fun r : Fin 2 => procCalculate2D r 2 (.int 2) ((PostObj.set margSet).view r)).run
      ((List.replicate 20 [1, 1, 0, 0, 0]).flatten)) 1).1.result).bind
      (fun x => x.toOption.map fun q => q.margs.map Prod.snd) =
    some [[[0, 1/2], [1/4, 1/4]]] := by decide +kernel

/-- A set with one sample and one probability on the first process, two samples and one probability on
the second. -/
def margBad : SampleSet ℚ :=
  { dim := 1, domain := some [(0, 1)],
    loc := { values := some (List.ofFn fun r : Fin 2 => if r = 0 then [[1/4]] else [[1/2], [3/4]])
             probabilities := some (List.ofFn fun _ : Fin 2 => [1/2]) } }

/-- The hypotheses of the negation are met: the first process waits for ever. -/
example (sched : List (Fin 2)) :
    (((Sys.start fun r : Fin 2 => procCalculate1D r 2 (.int 2) ((PostObj.set margBad).view r)).run
      sched) 0).1.result = none :=
  C124_negation_lengths (s := margBad) (j := 1) (bins := [[0, 1/2, 1]]) (e := [0, 1/2, 1]) rfl rfl rfl
    (by decide) (by with_unfolding_all rfl) rfl (by decide +kernel) (by decide) (by decide) (by decide)
    sched

end Ex

end BET
