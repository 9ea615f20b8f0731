import Verif.Model.Discretization

/-!
# /repo/bet/calculateP/calculateP.py
-/

set_option autoImplicit false

namespace BET

variable {K : Type} [Field K] [LinearOrder K]

/-- The local arrays of two distributed arrays are combined rank by rank; a
boolean mask of the wrong length raises `IndexError`. -/
def maskSelRanks {α : Type} (xs : Chunks α) (ms : Chunks Bool) : Except Err (Chunks α) :=
  (List.zip xs ms).mapM fun xm => maskSelE xm.1 xm.2

/-- The body of the loop of `prob`, /repo/bet/calculateP/calculateP.py:92-101, on all
ranks.  `vols` are the local volumes (`None[Itemp]` raises `TypeError`). -/
def probBody (probs : Option (List K)) (ptr : Chunks Nat) (vols : Option (Chunks K))
    (P : Chunks K) (i : Nat) : Except Err (Chunks K) := do
  let ps ← orErr .typeError probs
  let p ← getIdx ps i
  if p > 0 then
    let mask := ptr.map fun c => npEqual c i
    let vs ← orErr .typeError vols
    let sel ← maskSelRanks vs mask
    let s := allreduceSum (sel.map List.sum)
    if s > 0 then
      pure (List.zipWith (fun Pm vsel => maskSet Pm.1 Pm.2 (vsel.map fun v => p * v / s))
        (List.zip P mask) sel)
    else pure P
  else pure P

/-- The loop of `prob`, /repo/bet/calculateP/calculateP.py:91-101. -/
def probLoop (opNum : Nat) (probs : Option (List K)) (ptr : Chunks Nat)
    (vols : Option (Chunks K)) : Except Err (Chunks K) :=
  (List.range opNum).foldlM (probBody probs ptr vols)
    (ptr.map fun c => List.replicate c.length 0)

/-- /repo/bet/calculateP/calculateP.py:41-42 and 85-86. -/
def Disc.ensureIoPtr (G : Geometry K) (size : Nat) (d : Disc K) (globalize : Bool) :
    Except Err (Disc K) :=
  if d.ioPtrLocal.isNone then d.setIoPtr G size globalize else .ok d

/-- /repo/bet/calculateP/calculateP.py:43-44. -/
def Disc.ensureIiPtr (G : Geometry K) (size : Nat) (d : Disc K) : Except Err (Disc K) :=
  if d.iiPtrLocal.isNone then d.setIiPtr G size false else .ok d

/-- /repo/bet/calculateP/calculateP.py:67-106 `prob`. -/
def prob (G : Geometry K) (size : Nat) (d : Disc K) (globalize : Bool := true) :
    Except Err (Disc K) := do
  let _ ← d.checkNums size
  let ops ← orErr .attributeError d.outputProb
  let opNum ← ops.checkNum size
  let d ← d.ensureIoPtr G size false
  let inp ← orErr .attributeError d.input
  let inp ← inp.localized size
  let ptr ← orErr .typeError d.ioPtrLocal
  let ops ← orErr .attributeError d.outputProb
  let P ← probLoop opNum ops.glob.probabilities ptr inp.loc.volumes
  let inp := if globalize then
      { inp with glob := { inp.glob with probabilities := some (getGlobalValues P) } }
    else inp
  let inp := { inp with
    loc := { inp.loc with probabilities := some P }
    probType := some .voronoi }
  pure { d with input := some inp }

/-- The body of the loop of `prob_on_emulated_samples`,
/repo/bet/calculateP/calculateP.py:51-58. -/
def probEmBody (probs : Option (List K)) (ptr : Chunks Nat) (P : Chunks K) (i : Nat) :
    Except Err (Chunks K) := do
  let ps ← orErr .typeError probs
  let p ← getIdx ps i
  if p > 0 then
    let mask := ptr.map fun c => npEqual c i
    let s : Nat := allreduceSum (mask.map fun m => m.count true)
    if s > 0 then
      (List.zip P mask).mapM fun Pm => maskFillE Pm.1 Pm.2 (p / (s : K))
    else pure P
  else pure P

/-- `_io_ptr[_emulated_ii_ptr_local]`: fancy indexing, `IndexError` out of range. -/
def composePtr (io : List Nat) (ii : Chunks Nat) : Except Err (Chunks Nat) :=
  ii.mapM fun c => c.mapM fun j => getIdx io j

/-- /repo/bet/calculateP/calculateP.py:21-64 `prob_on_emulated_samples`. -/
def probOnEmulated (G : Geometry K) (size : Nat) (d : Disc K) (globalize : Bool := true) :
    Except Err (Disc K) := do
  let _ ← d.checkNums size
  let ops ← orErr .attributeError d.outputProb
  let opNum ← ops.checkNum size
  let em ← orErr .attributeError d.emInput
  let _ ← em.checkNum size
  let d ← d.ensureIoPtr G size true
  let d ← d.ensureIiPtr G size
  let em ← orErr .attributeError d.emInput
  let emVals ← orErr .attributeError em.loc.values
  let io ← orErr .typeError d.ioPtr
  let ii ← orErr .typeError d.iiPtrLocal
  let ptr ← composePtr io ii
  let ops ← orErr .attributeError d.outputProb
  let P ← (List.range opNum).foldlM (probEmBody ops.glob.probabilities ptr)
    (emVals.map fun c => List.replicate c.length 0)
  let em := { em with
    loc := { em.loc with probabilities := some P }
    probType := some .voronoi }
  let em := if globalize then em.localToGlobal else em
  pure { d with emInput := some em }

/-- /repo/bet/calculateP/calculateP.py:110-132 `prob_with_emulated_volumes`. -/
def probWithEmulatedVolumes (G : Geometry K) (size : Nat) (d : Disc K) :
    Except Err (Disc K) := do
  let _ ← d.checkNums size
  let ops ← orErr .attributeError d.outputProb
  let _ ← ops.checkNum size
  let ops ← ops.localized size
  let d := { d with outputProb := some ops }
  let d ← d.estimateInputVolumeEmulated G size
  prob G size d

/-- The loops of /repo/bet/calculateP/calculateP.py:197-201, 240-244 and 291-295:
entry `i` is the sum over all ranks of the local probabilities whose pointer is
`i`. -/
def gatherLoop (numNew : Nat) (ptr : Chunks Nat) (w : Chunks K) : Except Err (List K) :=
  (List.range numNew).mapM fun i => do
    let sel ← maskSelRanks w (ptr.map fun c => npEqual c i)
    pure (allreduceSum (sel.map List.sum))

/-- The same loop when the array may be `None`: `None[Itemp]` raises `TypeError` in
the first pass. -/
def gatherLoopOpt (numNew : Nat) (ptr : Chunks Nat) (w : Option (Chunks K)) :
    Except Err (List K) :=
  match w with
  | none => if numNew = 0 then .ok [] else .error .typeError
  | some w => gatherLoop numNew ptr w

/-- /repo/bet/calculateP/calculateP.py:209-249 `prob_from_sample_set`.  Returns the
new probabilities and the two sets. -/
def probFromSampleSet (G : Geometry K) (size : Nat) (old new : SampleSet K) :
    Except Err (List K × SampleSet K × SampleSet K) := do
  let _ ← old.checkNum size
  let numNew ← new.checkNum size
  let _ ← raiseIf (old.dim ≠ new.dim) .dimNotMatching
  let old ← old.localized size
  let x ← orErr .typeError old.loc.values
  let (new, ptr) ← new.query G size x
  let pn ← gatherLoopOpt numNew ptr old.loc.probabilities
  let new := { new with
    glob := { new.glob with probabilities := some pn }
    probType := some .voronoi }
  pure (pn, old, new)

/-- The first loop of `prob_from_sample_set_with_emulated_volumes`,
/repo/bet/calculateP/calculateP.py:179-187, body; the flag is `warn`. -/
def emBody (probs : Option (List K)) (ptr : Chunks Nat) (st : Chunks K × Bool) (i : Nat) :
    Except Err (Chunks K × Bool) := do
  let ps ← orErr .typeError probs
  let p ← getIdx ps i
  if p > 0 then
    let mask := ptr.map fun c => npEqual c i
    let s : Nat := allreduceSum (mask.map fun m => m.count true)
    if s > 0 then
      pure (List.zipWith (fun P m =>
        maskSet P m ((maskSel P m).map (· + p / (s : K)))) st.1 mask, st.2)
    else pure (st.1, true)
  else pure st

/-- /repo/bet/calculateP/calculateP.py:188-195.  When `warn` is set and the total is
zero numpy divides by zero (`nan`); the model raises `zeroDivision`. -/
def renormalize (warn : Bool) (pe : Chunks K) : Except Err (Chunks K) :=
  if warn then
    let total := allreduceSum (pe.map List.sum)
    if total = 0 then .error .zeroDivision else .ok (pe.map fun c => c.map (· / total))
  else .ok pe

/-- /repo/bet/calculateP/calculateP.py:135-206
`prob_from_sample_set_with_emulated_volumes` with a set of emulated points. -/
def probFromSampleSetEmulated (G : Geometry K) (size : Nat) (old new em : SampleSet K) :
    Except Err (List K × SampleSet K × SampleSet K × SampleSet K) := do
  let numOld ← old.checkNum size
  let numNew ← new.checkNum size
  let _ ← em.checkNum size
  let _ ← raiseIf (old.dim ≠ new.dim ∨ old.dim ≠ em.dim) .dimNotMatching
  let em ← em.localized size
  let x ← orErr .typeError em.loc.values
  let (old, ptr1) ← old.query G size x
  let (new, ptr2) ← new.query G size x
  let (pe, warn) ← (List.range numOld).foldlM (emBody old.glob.probabilities ptr1)
    (ptr1.map (fun c => List.replicate c.length (0 : K)), false)
  let pe ← renormalize warn pe
  let pn ← gatherLoop numNew ptr2 pe
  let new := { new with
    glob := { new.glob with probabilities := some pn }
    probType := some .voronoi }
  pure (pn, old, new, em)

/-- /repo/bet/calculateP/calculateP.py:135-206
`prob_from_sample_set_with_emulated_volumes`: without emulated points the call is
passed on to `prob_from_sample_set` (lines 153-155).  Returns the new probabilities
and the set that got them. -/
def probFromSampleSetWithEmulatedVolumes (G : Geometry K) (size : Nat) (old new : SampleSet K)
    (em : Option (SampleSet K)) : Except Err (List K × SampleSet K) :=
  match em with
  | none => do
      let r ← probFromSampleSet G size old new
      pure (r.1, r.2.2)
  | some em => do
      let r ← probFromSampleSetEmulated G size old new em
      pure (r.1, r.2.2.1)

/-- /repo/bet/calculateP/calculateP.py:252-300 `prob_from_discretization_input`. -/
def probFromDiscInput (G : Geometry K) (size : Nat) (d : Disc K) (new : SampleSet K) :
    Except Err (List K × SampleSet K) := do
  let em ← orErr .attributeError (d.emInput <|> d.input)
  let em ← em.localized size
  let pe ← orErr .attributeError em.loc.probabilities
  let d := match d.emInput with
    | none => { d with input := some em }
    | some _ => { d with emInput := some em }
  let _ ← d.checkNums size
  let numNew ← new.checkNum size
  let inp ← orErr .attributeError d.input
  let _ ← raiseIf (inp.dim ≠ new.dim) .dimNotMatching
  let x ← orErr .typeError em.loc.values
  let (new, ptr) ← new.query G size x
  let pn ← gatherLoop numNew ptr pe
  let new := { new with
    glob := { new.glob with probabilities := some pn }
    probType := some .voronoi }
  pure (pn, new)

end BET
