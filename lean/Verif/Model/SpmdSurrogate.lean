import Verif.Model.SpmdError
import Verif.Model.Radii
import Verif.Model.Surrogates

/-!
# Radii and surrogates on one process

`Model.Radii` and `Model.Surrogates` run all processes in step.  Here is the program that one process
runs for the same calls of /repo/bet/sample.py and /repo/bet/surrogates.py.
-/

set_option autoImplicit false

namespace BET

variable {K : Type} [Field K] [LinearOrder K]

/-! ### Radii of cells -/

/-- `comm.Allreduce([xs, MPI.DOUBLE], [ys, MPI.DOUBLE], op=MPI.MAX)`. -/
def reduceMax (xs : List K) : Proc (Msg K) (List K) :=
  .coll .allreduce (.arr xs) fun ms => .ret (allreduceMax (ms.map Msg.toArr))

namespace SampleSet

/-- /repo/bet/sample.py:1546-1579 (and 1608-1641) on one process with its random points `mc`: its
pointers and its radii, before they are combined.  A cell without a point of the process raises. -/
def procLocalRadii (G : Geometry K) (s : SampleSet K) (mc : List (List K)) (normalize : Bool) :
    Proc (Msg K) (SampleSet K × List Nat × List K) := do
  let _ ← s.procCheckNum
  let values ← Proc.ofExcept (orErr .attributeError s.glob.values)
  let D ← Proc.ofExcept (orErr .typeError s.domain)
  let q ← s.procQuery G mc
  let rad ← Proc.ofExcept (radiiLocal G s.pNorm (unitCoords normalize D) values mc q.2)
  pure (q.1, q.2, rad)

/-- /repo/bet/sample.py:1528-1590 `estimate_radii` on one process. -/
def procEstimateRadii (G : Geometry K) (rank size : Nat) (s : SampleSet K) (mc : List (List K))
    (normalize : Bool) : Proc (Msg K) (SampleSet K) := do
  let q ← s.procLocalRadii G mc normalize
  let rad ← reduceMax q.2.2
  (q.1.storeRadii normalize rad).procGlobalToLocal rank size

/-- /repo/bet/sample.py:1592-1658 `estimate_radii_and_volume` on one process; `n` is
`n_mc_points`. -/
def procEstimateRadiiAndVolume (G : Geometry K) (rank size n : Nat) (s : SampleSet K)
    (mc : List (List K)) (normalize : Bool) : Proc (Msg K) (SampleSet K) := do
  let num ← s.procCheckNum
  let q ← s.procLocalRadii G mc normalize
  let rad ← reduceMax q.2.2
  let vol ← procVolumes num n q.2.1
  let s := q.1.storeRadii normalize rad
  procGlobalToLocal rank size { s with glob := { s.glob with volumes := some vol } }

/-- /repo/bet/sample.py:1312-1323 `estimate_volume_mc` with `globalize=False` on one process. -/
def procEstimateVolumeMcLocal (s : SampleSet K) : Proc (Msg K) (SampleSet K) := do
  let num ← s.procCheckNum
  let _ ← Proc.ofExcept (raiseIf (num = 0) .zeroDivision)
  let m ← Proc.ofExcept (s.checkNumLocal 0)
  let m ← Proc.ofExcept (orErr .typeError m)
  pure { s with loc := { s.loc with volumes := some [List.replicate m (1 / (num : K) * 1)] } }

end SampleSet

/-! ### Making a surrogate -/

/-- /repo/bet/surrogates.py:19-35 `__init__` on one process. -/
def procSurrogateInit (d : Disc K) : Proc (Msg K) (Disc K) := do
  let _ ← d.procCheckNums
  let inp ← Proc.ofExcept (orErr .attributeError d.input)
  let out ← Proc.ofExcept (orErr .attributeError d.output)
  let inp ← inp.procLocalToGlobal
  let out ← out.procLocalToGlobal
  pure { d with input := some inp, output := some out }

/-- /repo/bet/surrogates.py:89-95 on one process: `local_to_global()` is a collective. -/
def procSurrogateJacobians (inp : SampleSet K) : Proc (Msg K) (SampleSet K) :=
  if inp.glob.jacobians.isNone then
    if inp.loc.jacobians.isNone then .raise .wrongArgumentType else inp.procLocalToGlobal
  else pure inp

/-- /repo/bet/surrogates.py:97-104 for the points of one process. -/
def linear1 (qs : List (List K)) (jacs : List (List (List K))) (cs xs : List (List K)) :
    List (List K) :=
  List.zipWith (fun (a : List K × List (List K)) (b : List K × List K) =>
    linearValue a.1 a.2 b.1 b.2) (List.zip qs jacs) (List.zip cs xs)

/-- /repo/bet/surrogates.py:82-105 on one process. -/
def procSurrogateValues (order : Nat) (inp out : SampleSet K) (xs : List (List K))
    (ptr : List Nat) : Proc (Msg K) (List (List K)) := do
  let y ← Proc.ofExcept (orErr .typeError out.glob.values)
  if order = 0 then Proc.ofExcept (ptr.mapM (getIdx y))
  else do
    let inp ← procSurrogateJacobians inp
    let jac ← Proc.ofExcept (orErr .typeError inp.glob.jacobians)
    let jacs ← Proc.ofExcept (ptr.mapM (getIdx jac))
    let v ← Proc.ofExcept (orErr .typeError inp.glob.values)
    let cs ← Proc.ofExcept (ptr.mapM (getIdx v))
    let qs ← Proc.ofExcept (ptr.mapM (getIdx y))
    pure (linear1 qs jacs cs xs)

/-- /repo/bet/surrogates.py:107-111 on one process. -/
def procSurrogateErrors (out : SampleSet K) (ptr : List Nat) (new : SampleSet K) :
    Proc (Msg K) (SampleSet K) :=
  match out.glob.errorEstimates with
  | none => pure new
  | some ee => do
      let e ← Proc.ofExcept (ptr.mapM (getIdx ee))
      pure { new with loc := { new.loc with errorEstimates := some [e] } }

/-- /repo/bet/surrogates.py:37-115 `generate_for_input_set` on one process. -/
def procGenerate (G : Geometry K) (rank size : Nat) (d : Disc K) (new : SampleSet K)
    (order : Nat) : Proc (Msg K) (Surrogate K) := do
  let _ ← Proc.ofExcept (raiseIf (order ≠ 0 ∧ order ≠ 1) .wrongArgumentType)
  let _ ← new.procCheckNum
  let inp ← Proc.ofExcept (orErr .attributeError d.input)
  let _ ← Proc.ofExcept (raiseIf (new.dim ≠ inp.dim) .dimNotMatching)
  let out ← Proc.ofExcept (orErr .attributeError d.output)
  let dummy ← Proc.ofExcept (d.setEmulatedInput (inheritDomain inp new))
  let dummy ← dummy.procSetIiPtr G rank size false
  let ptr ← Proc.ofExcept (orErr .attributeError dummy.iiPtrLocal)
  let new ← Proc.ofExcept (orErr .attributeError dummy.emInput)
  let xs ← Proc.ofExcept (orErr .typeError new.loc.values)
  let w ← procSurrogateValues order inp out xs.flatten ptr.flatten
  let o ← Proc.ofExcept (({ dim := out.dim } : SampleSet K).setValuesLocal [w])
  let o ← procSurrogateErrors out ptr.flatten o
  let surr ← procDiscNew (some new) (some o) d.outputProb none none
  pure { disc := d, ptr := ptr, surr := surr }

/-- What process `r` has of a surrogate object. -/
def Surrogate.view (r : Nat) (S : Surrogate K) : Surrogate K where
  disc := S.disc.view r
  ptr := [S.ptr.getD r []]
  surr := S.surr.view r

/-! ### Solving the inverse problem with the surrogate -/

/-- `comm.allreduce(x, op=MPI.SUM)` of a number that may be infinite or `nan`. -/
def reduceExt (x : Num K) : Proc (Msg K) (Num K) :=
  .coll .allreduce (.ext x) fun ms => .ret (sumNum (ms.map fun | .ext x => x | _ => .fin 0))

/-- /repo/bet/surrogates.py:145-148 on one process. -/
def procEnsureVolumesMc (d : Disc K) : Proc (Msg K) (Disc K) := do
  let inp ← Proc.ofExcept (orErr .attributeError d.input)
  if inp.loc.volumes.isNone then do
    let i ← inp.procEstimateVolumeMcLocal
    pure { d with input := some i }
  else pure d

/-- One pass of the loop of /repo/bet/surrogates.py:154-166 on one process; as in `regionPass`, the
points of the surrogate are on the processes already. -/
def procRegionPass (G : Geometry K) (rank size : Nat) (s : SampleSet K) (pn : List K)
    (surr : Disc K) (region : Int) : Proc (Msg K) (RegionPass K) := do
  let e ← procModelErrorNew G rank size surr
  let io' ← Proc.ofExcept (orErr .attributeError e.new.ioPtrLocal)
  let marker ← Proc.ofExcept (regionMarker s region)
  let sel ← Proc.ofExcept (maskSelE pn marker)
  let inp ← Proc.ofExcept (orErr .attributeError e.disc.input)
  let inA ← procRegionMask G rank size s region inp
  let probs ← procMeasureProbs e.disc
  let io ← Proc.ofExcept (orErr .attributeError e.disc.ioPtrLocal)
  let r ← (List.range probs.length).foldlM (procMcStep inA io.flatten io'.flatten probs)
    (.fin 0, io.flatten.map fun _ => .fin 0)
  pure { prob := sel.sum, estimate := r.1, ids := [r.2], surr := e.disc }

/-- What process `r` has of the result of a pass. -/
def RegionPass.view (r : Nat) (x : RegionPass K) : RegionPass K where
  prob := x.prob
  estimate := x.estimate
  ids := [x.ids.getD r []]
  surr := x.surr.view r

/-- The loop of /repo/bet/surrogates.py:154-166 on one process. -/
def procSurrogateLoop (G : Geometry K) (rank size : Nat) (s : SampleSet K) (pn : List K) :
    Disc K → Option (Chunks (Num K)) → List Int →
    Proc (Msg K) (List K × List (Num K) × Option (Chunks (Num K)) × Disc K)
  | surr, ids, [] => pure ([], [], ids, surr)
  | surr, _, region :: rest => do
      let p ← procRegionPass G rank size s pn surr region
      let q ← procSurrogateLoop G rank size s pn p.surr (some p.ids) rest
      pure (p.prob :: q.1, p.estimate :: q.2.1, q.2.2)

/-- One round of the loop of /repo/bet/surrogates.py:172-179 on one process: two `allreduce`. -/
def procUpdateStep (ptr : List Nat) (probs : Option (Chunks K)) (ids : Option (Chunks (Num K)))
    (i : Nat) : Proc (Msg K) (K × Num K) := do
  let w ← Proc.ofExcept (orErr .typeError probs)
  let sel ← Proc.ofExcept (maskSelE w.flatten (npEqual ptr i))
  let p ← reduceNum sel.sum
  let v ← Proc.ofExcept (orErr .typeError ids)
  let e ← reduceExt (sumNum (maskSel v.flatten (npEqual ptr i)))
  pure (p, e)

/-- /repo/bet/surrogates.py:167-181 on one process. -/
def procUpdateInput (S : Surrogate K) (ids : Option (Chunks (Num K))) :
    Proc (Msg K) (Disc K × List (Num K)) := do
  let inp ← Proc.ofExcept (orErr .attributeError S.disc.input)
  let num ← inp.procCheckNum
  let sinp ← Proc.ofExcept (orErr .attributeError S.surr.input)
  let l ← (List.range num).mapM (procUpdateStep S.ptr.flatten sinp.loc.probabilities ids)
  pure ({ S.disc with
    input := some { inp with glob := { inp.glob with probabilities := some (l.map Prod.fst) } } },
    l.map Prod.snd)

/-- /repo/bet/surrogates.py:117-183 `calculate_prob_for_sample_set_region` on one process. -/
def procCalculateProbForRegions (G : Geometry K) (rank size : Nat) (S : Surrogate K)
    (s : SampleSet K) (regions : List Int) (update : Bool) : Proc (Msg K) (RegionResult K) := do
  let surr ← procEnsureVolumesMc S.surr
  let surr ← surr.procProbCall G rank size false
  let sinp ← Proc.ofExcept (orErr .attributeError surr.input)
  let t ← procProbFromSampleSet G rank size sinp s
  let surr := { surr with input := some t.2.1 }
  let q ← procSurrogateLoop G rank size t.2.2 t.1 surr none regions
  let S := { S with surr := q.2.2.2 }
  if update then do
    let u ← procUpdateInput S q.2.2.1
    pure {
      probs := q.1
      estimates := q.2.1
      state := { S with disc := u.1 }
      charges := q.2.2.1
      errorId := some u.2 }
  else pure {
    probs := q.1
    estimates := q.2.1
    state := S
    charges := q.2.2.1
    errorId := none }

/-- What process `r` has of the result. -/
def RegionResult.view (r : Nat) (x : RegionResult K) : RegionResult K where
  probs := x.probs
  estimates := x.estimates
  state := x.state.view r
  charges := oneOf r x.charges
  errorId := x.errorId

end BET
