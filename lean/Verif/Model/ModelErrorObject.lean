import Verif.Model.SamplingError
import Verif.Model.CalculateP

/-!
# The class `model_error` (/repo/bet/calculateP/calculateError.py:362-612)

The loops are in `Model/CalcError.lean`; here are the set-up around them and what a call leaves of the
object.
-/

set_option autoImplicit false

namespace BET

variable {K : Type} [Field K] [LinearOrder K]

/-- `if disc._input_sample_set._volumes_local is None: disc._input_sample_set.global_to_local()`
(/repo/bet/calculateP/calculateError.py:423-424). -/
def localizeVolumes (size : Nat) (d : Disc K) (inp : SampleSet K) : Except Err (Disc K) :=
  if inp.loc.volumes.isNone then do
    let i ← inp.globalToLocal size
    pure { d with input := some i }
  else pure d

/-- `ops_num` and the probabilities of the output cells
(/repo/bet/calculateP/calculateError.py:428-430, 516-519, 574-579). -/
def measureProbs (size : Nat) (d : Disc K) : Except Err (List K) := do
  let ops ← orErr .attributeError d.outputProb
  let _ ← ops.checkNum size
  orErr .typeError ops.glob.probabilities

/-- numpy cannot combine arrays of different lengths: checked in the first round of a loop, if there
is an event of positive probability. Which exception is raised depends on the operation; here always
`err`. That numpy stretches an array of length one is left out. -/
def sameLengths (probs : List K) (lens : List (List Nat)) (err : Err) : Except Err Unit :=
  raiseIf (probs.any (fun p => decide (0 < p)) && !(lens.all fun l => decide (l = lens.headD [])))
    err

/-- `len` on every process. -/
def lengthsOf {α : Type} (c : Chunks α) : List Nat := c.map List.length

namespace ModelErr

/-- /repo/bet/calculateP/calculateError.py:403-450 `calculate_for_contour_events`. -/
def contour (G : Geometry K) (size : Nat) (e : ModelErr K) :
    Except Err (List (Num K) × ModelErr K) := do
  let inp ← orErr .attributeError e.disc.input
  let d ← contourVolumes G size e.disc inp
  let inp ← orErr .attributeError d.input
  let d ← localizeVolumes size d inp
  let probs ← measureProbs size d
  let inp ← orErr .attributeError d.input
  let vols ← orErr .typeError inp.loc.volumes
  let io ← orErr .typeError d.ioPtrLocal
  let io' ← orErr .typeError e.new.ioPtrLocal
  let _ ← sameLengths probs [lengthsOf vols, lengthsOf io, lengthsOf io'] .indexError
  pure (modelContour vols io io' probs, { e with disc := d })

/-- /repo/bet/calculateP/calculateError.py:484-486 and 497, 500-501. -/
def globalized (e : ModelErr K) : Except Err (ModelErr K) := do
  let inp ← orErr .attributeError e.disc.input
  pure { disc := { e.disc with input := some inp.localToGlobal }.globalizePtrs
         new := e.new.globalizePtrs }

/-- /repo/bet/calculateP/calculateError.py:508-539: the loop with the points `pts`, whose cells in
the input set are `ii`. An exception of the loop is a value here, because the object remains. -/
def regionSum (G : Geometry K) (size : Nat) (e : ModelErr K) (pts : SampleSet K) (ii : Chunks Nat)
    (s : SampleSet K) (region : Int) : Except Err (Except Err K) := do
  let inA ← regionMask G size s region pts
  let probs ← measureProbs size e.disc
  let io ← orErr .typeError e.disc.ioPtr
  let io' ← orErr .typeError e.new.ioPtr
  pure (modelRegion inA ii io io' probs)

/-- /repo/bet/calculateP/calculateError.py:483-495, 508-539 with the emulated points `em`: `disc` is a
copy. -/
def regionGiven (G : Geometry K) (size : Nat) (e : ModelErr K) (s : SampleSet K) (region : Int)
    (em : SampleSet K) : Except Err (Except Err K × ModelErr K) := do
  let e ← e.globalized
  let d ← e.disc.setEmulatedInput em
  let d ← d.setIiPtr G size false
  let ii ← orErr .typeError d.iiPtrLocal
  let pts ← orErr .attributeError d.emInput
  let r ← e.regionSum G size pts ii s region
  pure (r, e)

/-- /repo/bet/calculateP/calculateError.py:496-539 with the emulated points of the
discretization. -/
def regionOwn (G : Geometry K) (size : Nat) (e : ModelErr K) (s : SampleSet K) (region : Int) :
    Except Err (Except Err K × ModelErr K) := do
  let e ← e.globalized
  let d ← e.disc.ensureIiPtr G size
  let new ← e.new.setIiPtr G size false
  let ii ← orErr .typeError d.iiPtrLocal
  let pts ← orErr .attributeError d.emInput
  let pts ← pts.localized size
  let r ← regionSum G size { disc := d, new := new } pts ii s region
  pure (r, { disc := { d with emInput := some pts }, new := new })

/-- /repo/bet/calculateP/calculateError.py:541-612 `calculate_for_sample_set_region_mc`: the estimate
and `_error_id_local`, which is kept beside the sets because it may be infinite. The input set is
split here before `s_set` is checked. -/
def regionMc (G : Geometry K) (size : Nat) (e : ModelErr K) (s : SampleSet K) (region : Int) :
    Except Err ((Num K × Chunks (Num K)) × ModelErr K) := do
  let _ ← regionMarker s region
  let inp ← orErr .attributeError e.disc.input
  let inp ← inp.localized size
  let inA ← regionMask G size s region inp
  let probs ← measureProbs size e.disc
  let nums ← inp.checkNumLocals (List.range size)
  let io ← orErr .typeError e.disc.ioPtrLocal
  let io' ← orErr .typeError e.new.ioPtrLocal
  let _ ← sameLengths probs [nums, lengthsOf inA, lengthsOf io, lengthsOf io'] .valueError
  pure (modelRegionMc inA io io' probs, { e with disc := { e.disc with input := some inp } })

end ModelErr

/-- A call of a method of the object. -/
inductive ModelQuery (K : Type)
  | contour
  | region (s : SampleSet K) (region : Int) (em : Option (SampleSet K))
  | regionMc (s : SampleSet K) (region : Int)

/-- What a call gives: the list of estimates; the estimate of a region, and with the Monte Carlo
assumption the errors charged to the samples; or an exception that leaves the object usable. -/
inductive ModelAnswer (K : Type)
  | events (er : List (Num K))
  | value (er : Num K) (charges : Option (List (Num K)))
  | raised (e : Err)
deriving DecidableEq

/-- The answer of a region method. -/
def regionAnswer : Except Err K → ModelAnswer K
  | .ok er => .value (.fin er) none
  | .error e => .raised e

namespace ModelErr

/-- /repo/bet/calculateP/calculateError.py:541-612 as a call. -/
def askMc (G : Geometry K) (size : Nat) (e : ModelErr K) (s : SampleSet K) (region : Int) :
    Except Err (ModelAnswer K × ModelErr K) := do
  let q ← e.regionMc G size s region
  pure (.value q.1.1 (some (getGlobalValues q.1.2)), q.2)

/-- /repo/bet/calculateP/calculateError.py:452-539 `calculate_for_sample_set_region`: the three
branches of lines 483-506. -/
def askRegion (G : Geometry K) (size : Nat) (e : ModelErr K) (s : SampleSet K) (region : Int) :
    Option (SampleSet K) → Option (SampleSet K) → Except Err (ModelAnswer K × ModelErr K)
  | some em, _ => do
      let q ← e.regionGiven G size s region em
      pure (regionAnswer q.1, q.2)
  | none, some _ => do
      let q ← e.regionOwn G size s region
      pure (regionAnswer q.1, q.2)
  | none, none => e.askMc G size s region

/-- The sample set and the region of a call are checked before anything else
(/repo/bet/calculateP/calculateError.py:468-476, 556-563), so the object remains as it was if the
check fails. -/
def refusing (e : ModelErr K) (k : Except Err (ModelAnswer K × ModelErr K)) :
    Except Err (List Bool) → Except Err (ModelAnswer K × ModelErr K)
  | .error err => pure (.raised err, e)
  | .ok _ => k

/-- One call. -/
def ask (G : Geometry K) (size : Nat) (e : ModelErr K) :
    ModelQuery K → Except Err (ModelAnswer K × ModelErr K)
  | .contour => do
      let q ← e.contour G size
      pure (.events q.1, q.2)
  | .region s region em =>
      e.refusing (e.askRegion G size s region em e.disc.emInput) (regionMarker s region)
  | .regionMc s region => e.refusing (e.askMc G size s region) (regionMarker s region)

/-- A history of calls on one object. -/
def askAll (G : Geometry K) (size : Nat) :
    ModelErr K → List (ModelQuery K) → Except Err (List (ModelAnswer K) × ModelErr K)
  | e, [] => pure ([], e)
  | e, q :: qs => do
      let a ← e.ask G size q
      let r ← askAll G size a.2 qs
      pure (a.1 :: r.1, r.2)

end ModelErr

end BET
