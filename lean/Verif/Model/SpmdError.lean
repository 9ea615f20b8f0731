import Verif.Model.SpmdHistory
import Verif.Model.ModelErrorObject
import Verif.Model.PlotP

/-!
# Error estimates and marginals on one process

`Model.CalcError`, `Model.SamplingError`, `Model.ModelErrorObject` and `Model.PlotP` run all processes
in step.  Here is the program that one process runs for the same calls of
/repo/bet/calculateP/calculateError.py and /repo/bet/postProcess/plotP.py.
-/

set_option autoImplicit false

namespace BET

variable {K : Type} [Field K] [LinearOrder K]

/-! ### Volumes and pointers -/

/-- /repo/bet/sample.py:1312-1323 `estimate_volume_mc` with `globalize=True` on one process. -/
def SampleSet.procEstimateVolumeMc (rank size : Nat) (s : SampleSet K) :
    Proc (Msg K) (SampleSet K) := do
  let num ← s.procCheckNum
  let _ ← Proc.ofExcept (raiseIf (num = 0) .zeroDivision)
  SampleSet.procGlobalToLocal rank size
    { s with glob := { s.glob with volumes := some (List.replicate num (1 / (num : K) * 1)) } }

/-- /repo/bet/sample.py:2250-2303: the constructor of a discretization with an output set, on one
process. -/
def procDiscNew (input output outputProb emInput emOutput : Option (SampleSet K)) :
    Proc (Msg K) (Disc K) := do
  let d : Disc K := { input, output, outputProb, emInput, emOutput }
  if output.isSome then do
    let _ ← d.procCheckNums
    pure d
  else pure d

/-- /repo/bet/calculateP/calculateError.py:60-61 and 130-131 on one process. -/
def procEnsureGlobalIoPtr (G : Geometry K) (rank size : Nat) (d : Disc K) : Proc (Msg K) (Disc K) :=
  if d.ioPtr.isNone then d.procSetIoPtr G rank size true else pure d

/-- /repo/bet/calculateP/calculateError.py:196-203 (and 414-421) on one process. -/
def procContourVolumes (G : Geometry K) (rank size : Nat) (d : Disc K) (inp : SampleSet K) :
    Proc (Msg K) (Disc K) :=
  match inp.glob.volumes, d.emInput with
  | some _, _ => pure d
  | none, some _ => d.procEstimateInputVolumeEmulated G rank size
  | none, none => do
      let inp ← inp.procEstimateVolumeMc rank size
      pure { d with input := some inp }

/-! ### `sampling_error` -/

/-- /repo/bet/calculateP/calculateError.py:28-89 `cell_connectivity_exact` on one process. -/
def procConnectivityExact (G : Geometry K) (rank size : Nat) (argsort : List K → List Nat)
    (delaunay : List (List K) → Except Err (List (List Nat))) (d : Disc K) :
    Proc (Msg K) (NeiList × Disc K) := do
  let _ ← Proc.ofExcept (checkVoronoi2 d)
  let num ← d.procCheckNums
  let d ← procEnsureGlobalIoPtr G rank size d
  let io ← Proc.ofExcept (orErr .typeError d.ioPtr)
  let inp ← Proc.ofExcept (orErr .attributeError d.input)
  let x ← Proc.ofExcept (orErr .attributeError inp.glob.values)
  let nei ← Proc.ofExcept (connectivityOf argsort delaunay num inp.dim x io)
  pure (nei, d)

/-- /repo/bet/calculateP/calculateError.py:92-142 `boundary_sets` on one process. -/
def procBoundarySets (G : Geometry K) (rank size : Nat) (d : Disc K) (nei : NeiList) :
    Proc (Msg K) (Keys × Disc K) := do
  let _ ← Proc.ofExcept (checkVoronoi2 d)
  let num ← d.procCheckNums
  let d ← procEnsureGlobalIoPtr G rank size d
  let io ← Proc.ofExcept (orErr .typeError d.ioPtr)
  let k ← Proc.ofExcept (boundarySets num nei io)
  pure (k, d)

/-- /repo/bet/calculateP/calculateError.py:150-178 `sampling_error.__init__` on one process. -/
def procSamplingErrorInit (G : Geometry K) (rank size : Nat) (argsort : List K → List Nat)
    (delaunay : List (List K) → Except Err (List (List Nat))) (d : Disc K) :
    Proc (Msg K) (Keys × Disc K) := do
  let _ ← d.procCheckNums
  let q ← procConnectivityExact G rank size argsort delaunay d
  procBoundarySets G rank size q.2 q.1

/-- /repo/bet/calculateP/calculateError.py:180-241 `calculate_for_contour_events` on one process: the
loop has no collectives, it works with global arrays. -/
def procSamplingContour (G : Geometry K) (rank size : Nat) (e : Keys) (d : Disc K) :
    Proc (Msg K) (List (Num K × Num K) × Keys × Disc K) := do
  let inp ← Proc.ofExcept (orErr .attributeError d.input)
  let d ← procContourVolumes G rank size d inp
  let ops ← Proc.ofExcept (orErr .attributeError d.outputProb)
  let _ ← ops.procCheckNum
  let probs ← Proc.ofExcept (orErr .typeError ops.glob.probabilities)
  let io ← Proc.ofExcept (orErr .typeError d.ioPtr)
  let inp ← Proc.ofExcept (orErr .attributeError d.input)
  let vols ← Proc.ofExcept (orErr .typeError inp.glob.volumes)
  let r := contourErrors e io vols probs
  pure (r.1, r.2, d)

/-- `np.logical_and`. -/
def and1 (a b : List Bool) : List Bool := List.zipWith (· && ·) a b

/-- `indices[ptr]` for the mask `np.equal(io_ptr, i)`. -/
def event1 (io : List Nat) (i : Nat) (ii : List Nat) : List Bool :=
  ii.map fun j => (npEqual io i).getD j false

/-- The loop over `j` of /repo/bet/calculateP/calculateError.py:325-333. -/
def mem1 (js ii : List Nat) : List Bool :=
  js.foldl (fun acc j => List.zipWith (· || ·) (npEqual ii j) acc) (List.replicate ii.length false)

/-- `comm.allreduce(np.sum(mask), op=MPI.SUM)`. -/
def reduceMask (m : List Bool) : Proc (Msg K) Nat := reduceCnt (m.count true)

/-- The contribution of one event to the bounds of a region
(/repo/bet/calculateP/calculateError.py:314-358) on one process, and the dictionaries, in which
reading adds keys; `none` is the early return. -/
def procRegionTerm (e : Keys) (io : List Nat) (inA : List Bool) (ii : List Nat) (i : Nat) (p : K) :
    Proc (Msg K) (Option (K × K) × Keys) := do
  let sum1 ← reduceMask (and1 inA (event1 io i ii))
  let sum2 ← reduceMask (event1 io i ii)
  if sum2 = 0 then pure (none, e)
  else do
    let sum3 ← reduceMask (and1 inA (mem1 (e.B.read i) ii))
    let sum4 ← reduceMask (mem1 (e.C.read i) ii)
    if sum4 = 0 then pure (none, ⟨e.B.touch i, e.C.touch i⟩)
    else do
      let sum5 ← reduceMask (and1 inA (mem1 (e.C.read i) ii))
      let sum6 ← reduceMask (mem1 (e.B.read i) ii)
      if sum6 = 0 then pure (none, ⟨e.B.touch i, e.C.touch i⟩)
      else
        pure (some
          (p * max ((sum3 : K) / (sum4 : K) - (sum1 : K) / (sum2 : K))
              ((sum5 : K) / (sum6 : K) - (sum1 : K) / (sum2 : K)),
            p * min ((sum3 : K) / (sum4 : K) - (sum1 : K) / (sum2 : K))
              ((sum5 : K) / (sum6 : K) - (sum1 : K) / (sum2 : K))), ⟨e.B.touch i, e.C.touch i⟩)

/-- The loop of /repo/bet/calculateP/calculateError.py:310-359 over the events that are left, on one
process: the early return ends it. -/
def procRegionLoop (io : List Nat) (inA : List Bool) (ii : List Nat) (probs : List K) :
    List Nat → Keys → K → K → Proc (Msg K) (Option (K × K) × Keys)
  | [], e, up, lo => pure (some (up, lo), e)
  | i :: is, e, up, lo =>
      if 0 < probs.getD i 0 then do
        let t ← procRegionTerm e io inA ii i (probs.getD i 0)
        match t.1 with
        | none => pure (none, t.2)
        | some x => procRegionLoop io inA ii probs is t.2 (up + x.1) (lo + x.2)
      else procRegionLoop io inA ii probs is e up lo

/-- Which points of `em` lie in the region of `s`
(/repo/bet/calculateP/calculateError.py:276-280 and 306, 490-494 and 513, 564-570) on one process. -/
def procRegionMask (G : Geometry K) (rank size : Nat) (s : SampleSet K) (region : Int)
    (em : SampleSet K) : Proc (Msg K) (List Bool) := do
  let marker ← Proc.ofExcept (regionMarker s region)
  let d ← procDiscNew (some s) (some s) none (some em) none
  let d ← d.procSetIiPtr G rank size false
  let ptr ← Proc.ofExcept (orErr .attributeError d.iiPtrLocal)
  Proc.ofExcept (ptr.flatten.mapM fun j => getIdx marker j)

/-- /repo/bet/calculateP/calculateError.py:243-359
`sampling_error.calculate_for_sample_set_region` on one process; changes of `self.disc` are left out
as in `samplingRegion`. -/
def procSamplingRegion (G : Geometry K) (rank size : Nat) (e : Keys) (d : Disc K) (s : SampleSet K)
    (region : Int) (em : Option (SampleSet K)) : Proc (Msg K) (Option (K × K) × Keys) := do
  let inp ← Proc.ofExcept (orErr .attributeError d.input)
  let inp ← inp.procLocalToGlobal
  let d := { d with input := some inp }
  let _ ← Proc.ofExcept (regionMarker s region)
  let pts ← Proc.ofExcept (regionPoints d em)
  let d ← Proc.ofExcept (d.setEmulatedInput pts)
  let d ← d.procSetIiPtr G rank size false
  let inA ← procRegionMask G rank size s region pts
  let ii ← Proc.ofExcept (orErr .attributeError d.iiPtrLocal)
  let io ← Proc.ofExcept (orErr .attributeError d.ioPtr)
  let ops ← Proc.ofExcept (orErr .attributeError d.outputProb)
  let _ ← ops.procCheckNum
  let probs ← Proc.ofExcept (orErr .typeError ops.glob.probabilities)
  procRegionLoop io inA ii.flatten probs (List.range probs.length) e 0 0

/-! ### `model_error` -/

/-- `if disc._io_ptr_local is None: disc.set_io_ptr()`
(/repo/bet/calculateP/calculateError.py:391-392) on one process. -/
def procEnsureIo (G : Geometry K) (rank size : Nat) (d : Disc K) : Proc (Msg K) (Disc K) :=
  if d.ioPtrLocal.isNone then d.procSetIoPtr G rank size true else pure d

/-- /repo/bet/calculateP/calculateError.py:375-401 `model_error.__init__` on one process. -/
def procModelErrorNew (G : Geometry K) (rank size : Nat) (d : Disc K) :
    Proc (Msg K) (ModelErr K) := do
  let out ← Proc.ofExcept (orErr .attributeError d.output)
  let out ← out.procGlobalToLocal rank size
  let d := { d with output := some out }
  let _ ← Proc.ofExcept (raiseIf (out.glob.errorEstimates.isNone && out.loc.errorEstimates.isNone)
    .wrongArgumentType)
  let _ ← d.procCheckNums
  let d ← procEnsureIo G rank size d
  let out ← Proc.ofExcept (orErr .attributeError d.output)
  let x ← Proc.ofExcept (orErr .typeError out.loc.values)
  let er ← Proc.ofExcept (orErr .typeError out.loc.errorEstimates)
  let new := { d with
    output := some { out with loc := { out.loc with values := some (addErrors x er) } } }
  let new ← new.procSetIoPtr G rank size false
  pure { disc := d, new := { new with ioPtr := none } }

/-- What process `r` has of a `model_error` object. -/
def ModelErr.view (r : Nat) (e : ModelErr K) : ModelErr K := ⟨e.disc.view r, e.new.view r⟩

/-- `ops_num` and the probabilities of the output cells
(/repo/bet/calculateP/calculateError.py:428-430, 516-519, 574-579) on one process. -/
def procMeasureProbs (d : Disc K) : Proc (Msg K) (List K) := do
  let ops ← Proc.ofExcept (orErr .attributeError d.outputProb)
  let _ ← ops.procCheckNum
  Proc.ofExcept (orErr .typeError ops.glob.probabilities)

/-- `comm.allreduce(np.sum(x[mask]), op=MPI.SUM)`. -/
def reduceSel (x : List K) (m : List Bool) : Proc (Msg K) K := reduceNum (maskSel x m).sum

/-- One event of /repo/bet/calculateP/calculateError.py:430-448 on one process. -/
def procContourEvent (vols : List K) (io io' : List Nat) (probs : List K) (i : Nat) :
    Proc (Msg K) (Num K) :=
  if 0 < probs.getD i 0 then do
    let jiA ← reduceSel vols (npEqual io i)
    let ji ← reduceSel vols (npEqual io i)
    let jiAe ← reduceSel vols (and1 (npEqual io i) (npEqual io' i))
    let jie ← reduceSel vols (npEqual io' i)
    pure (modelTerm (probs.getD i 0) jiA ji jiAe jie)
  else pure (.fin 0)

/-- `if disc._input_sample_set._volumes_local is None: disc._input_sample_set.global_to_local()`
(/repo/bet/calculateP/calculateError.py:423-424) on one process. -/
def procLocalizeVolumes (rank size : Nat) (d : Disc K) (inp : SampleSet K) :
    Proc (Msg K) (Disc K) :=
  if inp.loc.volumes.isNone then do
    let i ← inp.procGlobalToLocal rank size
    pure { d with input := some i }
  else pure d

/-- The counts of one event over all processes: /repo/bet/calculateP/calculateError.py:524-535 and
583-594, four `allreduce` after another. -/
def procCounts (inA in1 in2 : List Bool) : Proc (Msg K) (Nat × Nat × Nat × Nat) := do
  let jiA ← reduceMask (and1 inA in1)
  let ji ← reduceMask in1
  let jiAe ← reduceMask (and1 inA in2)
  let jie ← reduceMask in2
  pure (jiA, ji, jiAe, jie)

/-- The loop of /repo/bet/calculateP/calculateError.py:516-539 over the events that are left, on one
process.  An exception of the loop is a value. -/
def procModelRegion (inA : List Bool) (ii io io' : List Nat) (probs : List K) :
    List Nat → K → Proc (Msg K) (Except Err K)
  | [], er => pure (.ok er)
  | i :: is, er =>
      if 0 < probs.getD i 0 then do
        let c ← procCounts inA (event1 io i ii) (event1 io' i ii)
        match modelTermPy (probs.getD i 0) (c.1 : K) (c.2.1 : K) (c.2.2.1 : K) (c.2.2.2 : K) with
        | .error e => pure (.error e)
        | .ok t => procModelRegion inA ii io io' probs is (er + t)
      else procModelRegion inA ii io io' probs is er

/-- The cells the error of one event is charged to
(/repo/bet/calculateP/calculateError.py:598-604), on one process. -/
def cells1 (inA in1 in2 : List Bool) : List Bool :=
  List.zipWith (· || ·)
    (List.zipWith (· || ·) (and1 (and1 in1 (inA.map (! ·))) (and1 in2 inA))
      (and1 (and1 in2 (inA.map (! ·))) (and1 in1 inA)))
    (List.zipWith (· != ·) in1 in2)

/-- `error_id_local[error_cells] += er_cont / error_cells_num` when there are such cells
(/repo/bet/calculateP/calculateError.py:609-611). -/
def charge1 (ids : List (Num K)) (cells : List Bool) (num : Nat) (er : Num K) : List (Num K) :=
  if num = 0 then ids
  else List.zipWith (fun x (h : Bool) =>
    if h then x.add (Num.scale (1 / (num : K)) er) else x) ids cells

/-- One round of the loop of /repo/bet/calculateP/calculateError.py:577-611 on one process: five
`allreduce`. -/
def procMcStep (inA : List Bool) (io io' : List Nat) (probs : List K) (st : Num K × List (Num K))
    (i : Nat) : Proc (Msg K) (Num K × List (Num K)) :=
  if 0 < probs.getD i 0 then do
    let c ← procCounts inA (npEqual io i) (npEqual io' i)
    let num ← reduceMask (cells1 inA (npEqual io i) (npEqual io' i))
    let er := modelTermMc (probs.getD i 0) (c.1 : K) (c.2.1 : K) (c.2.2.1 : K) (c.2.2.2 : K)
    pure (st.1.add er, charge1 st.2 (cells1 inA (npEqual io i) (npEqual io' i)) num er)
  else pure st

namespace ModelErr

/-- /repo/bet/calculateP/calculateError.py:403-450 `calculate_for_contour_events` on one process. -/
def procContour (G : Geometry K) (rank size : Nat) (e : ModelErr K) :
    Proc (Msg K) (List (Num K) × ModelErr K) := do
  let inp ← Proc.ofExcept (orErr .attributeError e.disc.input)
  let d ← procContourVolumes G rank size e.disc inp
  let inp ← Proc.ofExcept (orErr .attributeError d.input)
  let d ← procLocalizeVolumes rank size d inp
  let probs ← procMeasureProbs d
  let inp ← Proc.ofExcept (orErr .attributeError d.input)
  let vols ← Proc.ofExcept (orErr .typeError inp.loc.volumes)
  let io ← Proc.ofExcept (orErr .typeError d.ioPtrLocal)
  let io' ← Proc.ofExcept (orErr .typeError e.new.ioPtrLocal)
  let _ ← Proc.ofExcept
    (sameLengths probs [lengthsOf vols, lengthsOf io, lengthsOf io'] .indexError)
  let er ← (List.range probs.length).mapM
    (procContourEvent vols.flatten io.flatten io'.flatten probs)
  pure (er, { e with disc := d })

/-- /repo/bet/calculateP/calculateError.py:484-486 and 497, 500-501 on one process. -/
def procGlobalized (e : ModelErr K) : Proc (Msg K) (ModelErr K) := do
  let inp ← Proc.ofExcept (orErr .attributeError e.disc.input)
  let inp ← inp.procLocalToGlobal
  let d ← Disc.procGlobalizePtrs { e.disc with input := some inp }
  let new ← e.new.procGlobalizePtrs
  pure { disc := d, new := new }

/-- /repo/bet/calculateP/calculateError.py:508-539 on one process. -/
def procRegionSum (G : Geometry K) (rank size : Nat) (e : ModelErr K) (pts : SampleSet K)
    (ii : List Nat) (s : SampleSet K) (region : Int) : Proc (Msg K) (Except Err K) := do
  let inA ← procRegionMask G rank size s region pts
  let probs ← procMeasureProbs e.disc
  let io ← Proc.ofExcept (orErr .typeError e.disc.ioPtr)
  let io' ← Proc.ofExcept (orErr .typeError e.new.ioPtr)
  procModelRegion inA ii io io' probs (List.range probs.length) 0

/-- /repo/bet/calculateP/calculateError.py:483-495, 508-539 on one process. -/
def procRegionGiven (G : Geometry K) (rank size : Nat) (e : ModelErr K) (s : SampleSet K)
    (region : Int) (em : SampleSet K) : Proc (Msg K) (Except Err K × ModelErr K) := do
  let e ← e.procGlobalized
  let d ← Proc.ofExcept (e.disc.setEmulatedInput em)
  let d ← d.procSetIiPtr G rank size false
  let ii ← Proc.ofExcept (orErr .typeError d.iiPtrLocal)
  let pts ← Proc.ofExcept (orErr .attributeError d.emInput)
  let r ← e.procRegionSum G rank size pts ii.flatten s region
  pure (r, e)

/-- /repo/bet/calculateP/calculateError.py:496-539 on one process. -/
def procRegionOwn (G : Geometry K) (rank size : Nat) (e : ModelErr K) (s : SampleSet K)
    (region : Int) : Proc (Msg K) (Except Err K × ModelErr K) := do
  let e ← e.procGlobalized
  let d ← e.disc.procEnsureIiPtr G rank size
  let new ← e.new.procSetIiPtr G rank size false
  let ii ← Proc.ofExcept (orErr .typeError d.iiPtrLocal)
  let pts ← Proc.ofExcept (orErr .attributeError d.emInput)
  let pts ← pts.procLocalized rank size
  let r ← procRegionSum G rank size { disc := d, new := new } pts ii.flatten s region
  pure (r, { disc := { d with emInput := some pts }, new := new })

/-- /repo/bet/calculateP/calculateError.py:541-612 `calculate_for_sample_set_region_mc` on one process:
the estimate and its part of `_error_id_local`. -/
def procRegionMc (G : Geometry K) (rank size : Nat) (e : ModelErr K) (s : SampleSet K)
    (region : Int) : Proc (Msg K) ((Num K × List (Num K)) × ModelErr K) := do
  let _ ← Proc.ofExcept (regionMarker s region)
  let inp ← Proc.ofExcept (orErr .attributeError e.disc.input)
  let inp ← inp.procLocalized rank size
  let inA ← procRegionMask G rank size s region inp
  let probs ← procMeasureProbs e.disc
  let num ← Proc.ofExcept (inp.checkNumLocal 0)
  let io ← Proc.ofExcept (orErr .typeError e.disc.ioPtrLocal)
  let io' ← Proc.ofExcept (orErr .typeError e.new.ioPtrLocal)
  let _ ← Proc.ofExcept
    (sameLengths probs [[num.getD 0], [inA.length], lengthsOf io, lengthsOf io'] .valueError)
  let r ← (List.range probs.length).foldlM (procMcStep inA io.flatten io'.flatten probs)
    (.fin 0, io.flatten.map fun _ => .fin 0)
  pure (r, { e with disc := { e.disc with input := some inp } })

/-- /repo/bet/calculateP/calculateError.py:541-612 as a call, on one process. -/
def procAskMc (G : Geometry K) (rank size : Nat) (e : ModelErr K) (s : SampleSet K)
    (region : Int) : Proc (Msg K) (ModelAnswer K × ModelErr K) := do
  let q ← e.procRegionMc G rank size s region
  pure (.value q.1.1 (some q.1.2), q.2)

/-- /repo/bet/calculateP/calculateError.py:452-539 `calculate_for_sample_set_region` on one process. -/
def procAskRegion (G : Geometry K) (rank size : Nat) (e : ModelErr K) (s : SampleSet K)
    (region : Int) : Option (SampleSet K) → Option (SampleSet K) →
    Proc (Msg K) (ModelAnswer K × ModelErr K)
  | some em, _ => do
      let q ← e.procRegionGiven G rank size s region em
      pure (regionAnswer q.1, q.2)
  | none, some _ => do
      let q ← e.procRegionOwn G rank size s region
      pure (regionAnswer q.1, q.2)
  | none, none => e.procAskMc G rank size s region

/-- The check of a region before a call (/repo/bet/calculateP/calculateError.py:468-476, 556-563) on
one process. -/
def procRefusing (e : ModelErr K) (k : Proc (Msg K) (ModelAnswer K × ModelErr K)) :
    Except Err (List Bool) → Proc (Msg K) (ModelAnswer K × ModelErr K)
  | .error err => pure (.raised err, e)
  | .ok _ => k

/-- One call (/repo/bet/calculateP/calculateError.py:403-612) on one process, with what it has of the
arguments. -/
def procAsk (G : Geometry K) (rank size : Nat) (e : ModelErr K) :
    ModelQuery K → Proc (Msg K) (ModelAnswer K × ModelErr K)
  | .contour => do
      let q ← e.procContour G rank size
      pure (.events q.1, q.2)
  | .region s region em =>
      e.procRefusing (e.procAskRegion G rank size (s.view rank) region
        (em.map (SampleSet.view rank)) e.disc.emInput) (regionMarker (s.view rank) region)
  | .regionMc s region =>
      e.procRefusing (e.procAskMc G rank size (s.view rank) region)
        (regionMarker (s.view rank) region)

/-- A history of calls on one object, on one process. -/
def procAskAll (G : Geometry K) (rank size : Nat) :
    ModelErr K → List (ModelQuery K) → Proc (Msg K) (List (ModelAnswer K) × ModelErr K)
  | e, [] => pure ([], e)
  | e, q :: qs => do
      let a ← e.procAsk G rank size q
      let r ← procAskAll G rank size a.2 qs
      pure (a.1 :: r.1, r.2)

end ModelErr

/-! ### Marginals -/

/-- `comm.Allreduce(..., op=MPI.SUM)` of a matrix of `m` rows and `n` columns. -/
def reduceMat (m n : Nat) (x : List (List K)) : Proc (Msg K) (List (List K)) :=
  .coll .allreduce (.mat x) fun ms =>
    .ret (allreduceMat m n (ms.map fun | .mat x => x | _ => []))

/-- What process `r` has of the argument of a function of postProcess. -/
def PostObj.view (r : Nat) : PostObj K → PostObj K
  | .disc d => .disc (d.view r)
  | .set s => .set (s.view r)
  | .other => .other

/-- /repo/bet/postProcess/plotP.py:71-76 (and 137-142) on one process. -/
def SampleSet.procLocalProbs (rank size : Nat) (s : SampleSet K) : Proc (Msg K) (SampleSet K) :=
  if s.loc.probabilities.isSome then pure s
  else do
    let _ ← Proc.ofExcept (raiseIf s.glob.probabilities.isNone .missingAttribute)
    s.procGlobalToLocal rank size

/-- /repo/bet/postProcess/plotP.py:92-96 on one process: its histogram and the sum over all. -/
def SampleSet.procMarginal (s : SampleSet K) (bins : List (List K)) (i : Nat) :
    Proc (Msg K) (List K) := do
  let v ← Proc.ofExcept (orErr .typeError s.loc.values)
  let p ← Proc.ofExcept (orErr .typeError s.loc.probabilities)
  let e ← Proc.ofExcept (getIdx bins i)
  let col ← Proc.ofExcept (v.flatten.mapM fun row => getIdx row i)
  let h ← Proc.ofExcept (histogram e col p.flatten)
  reduceArr (e.length - 1) h

/-- /repo/bet/postProcess/plotP.py:163-170 on one process. -/
def SampleSet.procMarginal2 (s : SampleSet K) (bins : List (List K)) (i j : Nat) :
    Proc (Msg K) (List (List K)) := do
  let v ← Proc.ofExcept (orErr .typeError s.loc.values)
  let p ← Proc.ofExcept (orErr .typeError s.loc.probabilities)
  let e ← Proc.ofExcept (getIdx bins i)
  let f ← Proc.ofExcept (getIdx bins j)
  let x ← Proc.ofExcept (v.flatten.mapM fun row => getIdx row i)
  let y ← Proc.ofExcept (v.flatten.mapM fun row => getIdx row j)
  let h ← Proc.ofExcept (histogram2 e f (x.zip y) p.flatten)
  reduceMat (e.length - 1) (f.length - 1) h

/-- /repo/bet/postProcess/plotP.py:37-98 `calculate_1D_marginal_probs` on one process. -/
def procCalculate1D (rank size : Nat) (nbins : NBins) (o : PostObj K) :
    Proc (Msg K) (Marginals K (List K)) := do
  let s ← Proc.ofExcept o.marginalSet
  let s ← s.procLocalProbs rank size
  let bins ← Proc.ofExcept (s.marginalBins (nbins.toArr s.dim))
  let m ← (List.range s.dim).mapM (s.procMarginal bins)
  pure ⟨s, bins, m⟩

/-- /repo/bet/postProcess/plotP.py:101-172 `calculate_2D_marginal_probs` on one process. -/
def procCalculate2D (rank size : Nat) (nbins : NBins) (o : PostObj K) :
    Proc (Msg K) (Marginals K ((Nat × Nat) × List (List K))) := do
  let s ← Proc.ofExcept o.marginalSet
  let s ← s.procLocalProbs rank size
  let _ ← Proc.ofExcept (raiseIf (s.dim < 2) .dimNotMatching)
  let bins ← Proc.ofExcept (s.marginalBins (nbins.toArr s.dim))
  let m ← (dimPairs s.dim).mapM fun (q : Nat × Nat) => do
    let t ← s.procMarginal2 bins q.1 q.2
    pure (q, t)
  pure ⟨s, bins, m⟩

end BET
