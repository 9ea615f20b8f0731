import Verif.Model.CalculateP

/-!
# /repo/bet/calculateP/calculateP.py in rounded arithmetic

The functions of `Model.CalculateP` once more, with every sum, product and quotient of floating point numbers
taken from an arbitrary arithmetic.  Counts and the conversion of a count to a floating point number stay exact
(they are, below `2 ^ 53`); overflow, underflow, `inf` and `nan` are left out.
-/

set_option autoImplicit false

namespace BET

/-- The operations on floating point numbers that calculateP.py uses: the scalar operations of numpy, `np.sum` of an
array and `comm.allreduce(…, op=MPI.SUM)` of the numbers of the ranks.  The order in which the two libraries add
is not fixed by the code, so the sums are operations of their own. -/
structure Arithmetic (K : Type) where
  add : K → K → K
  mul : K → K → K
  div : K → K → K
  npSum : List K → K
  reduceSum : List K → K

/-- The arithmetic without rounding. -/
def Arithmetic.exact (K : Type) [Field K] : Arithmetic K where
  add := (· + ·)
  mul := (· * ·)
  div := (· / ·)
  npSum := List.sum
  reduceSum := allreduceSum

variable {K : Type} [Field K] [LinearOrder K]

/-- The body of the loop of `prob`, /repo/bet/calculateP/calculateP.py:92-101. -/
def probBodyR (A : Arithmetic K) (probs : Option (List K)) (ptr : Chunks Nat) (vols : Option (Chunks K))
    (P : Chunks K) (i : Nat) : Except Err (Chunks K) := do
  let ps ← orErr .typeError probs
  let p ← getIdx ps i
  if p > 0 then
    let mask := ptr.map fun c => npEqual c i
    let vs ← orErr .typeError vols
    let sel ← maskSelRanks vs mask
    let s := A.reduceSum (sel.map A.npSum)
    if s > 0 then
      pure (List.zipWith (fun Pm vsel => maskSet Pm.1 Pm.2 (vsel.map fun v => A.div (A.mul p v) s))
        (List.zip P mask) sel)
    else pure P
  else pure P

/-- The loop of `prob`, /repo/bet/calculateP/calculateP.py:91-101. -/
def probLoopR (A : Arithmetic K) (opNum : Nat) (probs : Option (List K)) (ptr : Chunks Nat)
    (vols : Option (Chunks K)) : Except Err (Chunks K) :=
  (List.range opNum).foldlM (probBodyR A probs ptr vols)
    (ptr.map fun c => List.replicate c.length 0)

/-- /repo/bet/calculateP/calculateP.py:67-106 `prob`. -/
def probR (A : Arithmetic K) (G : Geometry K) (size : Nat) (d : Disc K) (globalize : Bool := true) :
    Except Err (Disc K) := do
  let _ ← d.checkNums size
  let ops ← orErr .attributeError d.outputProb
  let opNum ← ops.checkNum size
  let d ← d.ensureIoPtr G size false
  let inp ← orErr .attributeError d.input
  let inp ← inp.localized size
  let ptr ← orErr .typeError d.ioPtrLocal
  let ops ← orErr .attributeError d.outputProb
  let P ← probLoopR A opNum ops.glob.probabilities ptr inp.loc.volumes
  let inp := if globalize then
      { inp with glob := { inp.glob with probabilities := some (getGlobalValues P) } }
    else inp
  let inp := { inp with
    loc := { inp.loc with probabilities := some P }
    probType := some .voronoi }
  pure { d with input := some inp }

/-- The body of the loop of `prob_on_emulated_samples`, /repo/bet/calculateP/calculateP.py:51-58. -/
def probEmBodyR (A : Arithmetic K) (probs : Option (List K)) (ptr : Chunks Nat) (P : Chunks K) (i : Nat) :
    Except Err (Chunks K) := do
  let ps ← orErr .typeError probs
  let p ← getIdx ps i
  if p > 0 then
    let mask := ptr.map fun c => npEqual c i
    let s : Nat := allreduceSum (mask.map fun m => m.count true)
    if s > 0 then
      (List.zip P mask).mapM fun Pm => maskFillE Pm.1 Pm.2 (A.div p (s : K))
    else pure P
  else pure P

/-- /repo/bet/calculateP/calculateP.py:21-64 `prob_on_emulated_samples`. -/
def probOnEmulatedR (A : Arithmetic K) (G : Geometry K) (size : Nat) (d : Disc K) (globalize : Bool := true) :
    Except Err (Disc K) := do
  let _ ← d.checkNums size
  let ops ← orErr .attributeError d.outputProb
  let opNum ← ops.checkNum size
  let em ← orErr .attributeError d.emInput
  let _ ← em.checkNum size
  let d ← d.ensureIoPtr G size true
  let d ← d.ensureIiPtr G size
  let em ← orErr .attributeError d.emInput
  let emVals ← orErr .attributeError em.loc.values
  let io ← orErr .typeError d.ioPtr
  let ii ← orErr .typeError d.iiPtrLocal
  let ptr ← composePtr io ii
  let ops ← orErr .attributeError d.outputProb
  let P ← (List.range opNum).foldlM (probEmBodyR A ops.glob.probabilities ptr)
    (emVals.map fun c => List.replicate c.length 0)
  let em := { em with
    loc := { em.loc with probabilities := some P }
    probType := some .voronoi }
  let em := if globalize then em.localToGlobal else em
  pure { d with emInput := some em }

/-- The loops of /repo/bet/calculateP/calculateP.py:197-201, 240-244 and 291-295. -/
def gatherLoopR (A : Arithmetic K) (numNew : Nat) (ptr : Chunks Nat) (w : Chunks K) : Except Err (List K) :=
  (List.range numNew).mapM fun i => do
    let sel ← maskSelRanks w (ptr.map fun c => npEqual c i)
    pure (A.reduceSum (sel.map A.npSum))

/-- The same loop when the array may be `None`. -/
def gatherLoopOptR (A : Arithmetic K) (numNew : Nat) (ptr : Chunks Nat) (w : Option (Chunks K)) :
    Except Err (List K) :=
  match w with
  | none => if numNew = 0 then .ok [] else .error .typeError
  | some w => gatherLoopR A numNew ptr w

/-- /repo/bet/calculateP/calculateP.py:209-249 `prob_from_sample_set`. -/
def probFromSampleSetR (A : Arithmetic K) (G : Geometry K) (size : Nat) (old new : SampleSet K) :
    Except Err (List K × SampleSet K × SampleSet K) := do
  let _ ← old.checkNum size
  let numNew ← new.checkNum size
  let _ ← raiseIf (old.dim ≠ new.dim) .dimNotMatching
  let old ← old.localized size
  let x ← orErr .typeError old.loc.values
  let (new, ptr) ← new.query G size x
  let pn ← gatherLoopOptR A numNew ptr old.loc.probabilities
  let new := { new with
    glob := { new.glob with probabilities := some pn }
    probType := some .voronoi }
  pure (pn, old, new)

/-- The first loop of `prob_from_sample_set_with_emulated_volumes`,
/repo/bet/calculateP/calculateP.py:179-187, body; the flag is `warn`. -/
def emBodyR (A : Arithmetic K) (probs : Option (List K)) (ptr : Chunks Nat) (st : Chunks K × Bool) (i : Nat) :
    Except Err (Chunks K × Bool) := do
  let ps ← orErr .typeError probs
  let p ← getIdx ps i
  if p > 0 then
    let mask := ptr.map fun c => npEqual c i
    let s : Nat := allreduceSum (mask.map fun m => m.count true)
    if s > 0 then
      pure (List.zipWith (fun P m =>
        maskSet P m ((maskSel P m).map fun x => A.add x (A.div p (s : K)))) st.1 mask, st.2)
    else pure (st.1, true)
  else pure st

/-- /repo/bet/calculateP/calculateP.py:188-195.  When `warn` is set and the total is zero numpy divides by zero
(`nan`); the model raises `zeroDivision`. -/
def renormalizeR (A : Arithmetic K) (warn : Bool) (pe : Chunks K) : Except Err (Chunks K) :=
  if warn then
    let total := A.reduceSum (pe.map A.npSum)
    if total = 0 then .error .zeroDivision else .ok (pe.map fun c => c.map fun x => A.div x total)
  else .ok pe

/-- /repo/bet/calculateP/calculateP.py:135-206 `prob_from_sample_set_with_emulated_volumes` with a set of emulated
points. -/
def probFromSampleSetEmulatedR (A : Arithmetic K) (G : Geometry K) (size : Nat) (old new em : SampleSet K) :
    Except Err (List K × SampleSet K × SampleSet K × SampleSet K) := do
  let numOld ← old.checkNum size
  let numNew ← new.checkNum size
  let _ ← em.checkNum size
  let _ ← raiseIf (old.dim ≠ new.dim ∨ old.dim ≠ em.dim) .dimNotMatching
  let em ← em.localized size
  let x ← orErr .typeError em.loc.values
  let (old, ptr1) ← old.query G size x
  let (new, ptr2) ← new.query G size x
  let (pe, warn) ← (List.range numOld).foldlM (emBodyR A old.glob.probabilities ptr1)
    (ptr1.map (fun c => List.replicate c.length (0 : K)), false)
  let pe ← renormalizeR A warn pe
  let pn ← gatherLoopR A numNew ptr2 pe
  let new := { new with
    glob := { new.glob with probabilities := some pn }
    probType := some .voronoi }
  pure (pn, old, new, em)

/-- /repo/bet/sample.py:1278-1310 `estimate_volume_emulated`: the counts are exact, each is divided by the number of
points. -/
def SampleSet.estimateVolumeEmulatedR (A : Arithmetic K) (G : Geometry K) (size : Nat) (s em : SampleSet K) :
    Except Err (SampleSet K × SampleSet K) := do
  let num ← s.checkNum size
  let em ← em.localized size
  let x ← orErr .typeError em.loc.values
  let (s, ptr) ← s.query G size x
  let vol := (List.range num).map fun i =>
    allreduceSum (ptr.map fun c => (((npEqual c i).count true : Nat) : K))
  let numEmulate := allreduceSum (x.map List.length)
  let _ ← raiseIf (numEmulate = 0) .zeroDivision
  let s := { s with glob := { s.glob with volumes := some (vol.map fun v => A.div v (numEmulate : K)) } }
  let s ← s.globalToLocal size
  pure (s, em)

/-- /repo/bet/sample.py:2689-2704 `estimate_input_volume_emulated`. -/
def Disc.estimateInputVolumeEmulatedR (A : Arithmetic K) (G : Geometry K) (size : Nat) (d : Disc K) :
    Except Err (Disc K) := do
  let em ← orErr .attributeError d.emInput
  let inp ← orErr .attributeError d.input
  let (inp, em) ← inp.estimateVolumeEmulatedR A G size em
  pure { d with input := some inp, emInput := some em }

/-- /repo/bet/calculateP/calculateP.py:110-132 `prob_with_emulated_volumes`. -/
def probWithEmulatedVolumesR (A : Arithmetic K) (G : Geometry K) (size : Nat) (d : Disc K) :
    Except Err (Disc K) := do
  let _ ← d.checkNums size
  let ops ← orErr .attributeError d.outputProb
  let _ ← ops.checkNum size
  let ops ← ops.localized size
  let d := { d with outputProb := some ops }
  let d ← d.estimateInputVolumeEmulatedR A G size
  probR A G size d

/-- /repo/bet/calculateP/calculateP.py:252-300 `prob_from_discretization_input`. -/
def probFromDiscInputR (A : Arithmetic K) (G : Geometry K) (size : Nat) (d : Disc K) (new : SampleSet K) :
    Except Err (List K × SampleSet K) := do
  let em ← orErr .attributeError (d.emInput <|> d.input)
  let em ← em.localized size
  let pe ← orErr .attributeError em.loc.probabilities
  let d := match d.emInput with
    | none => { d with input := some em }
    | some _ => { d with emInput := some em }
  let _ ← d.checkNums size
  let numNew ← new.checkNum size
  let inp ← orErr .attributeError d.input
  let _ ← raiseIf (inp.dim ≠ new.dim) .dimNotMatching
  let x ← orErr .typeError em.loc.values
  let (new, ptr) ← new.query G size x
  let pn ← gatherLoopR A numNew ptr pe
  let new := { new with
    glob := { new.glob with probabilities := some pn }
    probType := some .voronoi }
  pure (pn, new)

/-- /repo/bet/sample.py:1312-1324 `estimate_volume_mc` with `globalize=True`: `1.0 / float(num) * np.ones((num,))`. -/
def SampleSet.estimateVolumeMcR (A : Arithmetic K) (size : Nat) (s : SampleSet K) : Except Err (SampleSet K) := do
  let num ← s.checkNum size
  let _ ← raiseIf (num = 0) .zeroDivision
  SampleSet.globalToLocal size
    { s with glob := { s.glob with volumes := some (List.replicate num (A.mul (A.div 1 (num : K)) 1)) } }

end BET
