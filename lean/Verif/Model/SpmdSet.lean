import Verif.Model.SpmdChoose

/-!
# The core of the library on one process

`Model.SampleSet`, `Model.Query`, `Model.Discretization` and `Model.CalculateP` run all processes
in step and keep the local arrays of all of them.  Here is what one process has of a sample set or
discretization, and the program that one process runs for the same calls.
-/

set_option autoImplicit false

namespace BET

/-- Local arrays as process `r` has them: only its own. -/
def oneOf {α : Type} (r : Nat) : Option (Chunks α) → Option (Chunks α) :=
  Option.map fun c => [c.getD r []]

/-- What process `r` has of a sample set: the global arrays and its own local ones. -/
def SampleSet.view {K : Type} (r : Nat) (s : SampleSet K) : SampleSet K :=
  { s with
    loc := s.loc.map fun a => oneOf r a
    localIndex := oneOf r s.localIndex }

/-- What process `r` has of a discretization. -/
def Disc.view {K : Type} (r : Nat) (d : Disc K) : Disc K where
  input := d.input.map (SampleSet.view r)
  output := d.output.map (SampleSet.view r)
  outputProb := d.outputProb.map (SampleSet.view r)
  emInput := d.emInput.map (SampleSet.view r)
  emOutput := d.emOutput.map (SampleSet.view r)
  ioPtr := d.ioPtr
  ioPtrLocal := oneOf r d.ioPtrLocal
  iiPtr := d.iiPtr
  iiPtrLocal := oneOf r d.iiPtrLocal
  ooPtr := d.ooPtr
  ooPtrLocal := oneOf r d.ooPtrLocal

/-- Lists that can be sent. -/
class Payload (K α : Type) where
  pack : List α → Msg K
  unpack : Msg K → List α
  law : ∀ x, unpack (pack x) = x

instance Payload.arr {K : Type} : Payload K K where
  pack := .arr
  unpack := fun | .arr x => x | _ => []
  law := fun _ => rfl

instance Payload.mat {K : Type} : Payload K (List K) where
  pack := .mat
  unpack := fun | .mat x => x | _ => []
  law := fun _ => rfl

instance Payload.cub {K : Type} : Payload K (List (List K)) where
  pack := .cub
  unpack := fun | .cub x => x | _ => []
  law := fun _ => rfl

instance Payload.nats {K : Type} : Payload K Nat where
  pack := .nats
  unpack := fun | .nats x => x | _ => []
  law := fun _ => rfl

instance Payload.ints {K : Type} : Payload K Int where
  pack := .ints
  unpack := fun | .ints x => x | _ => []
  law := fun _ => rfl

section
variable {K α : Type} [Payload K α]

/-- `util.get_global_values(xs)` (/repo/bet/util.py:74-111). -/
def gatherList (xs : List α) : Proc (Msg K) (List α) :=
  .coll .allgather (Payload.pack xs) fun ms => .ret (ms.map Payload.unpack).flatten

/-- `comm.Bcast([xs, MPI.DOUBLE], root=0)`: the array of the root overwrites that of the others.
The arrays have the same size on all processes. -/
def bcastList (rank : Nat) (xs : List α) : Proc (Msg K) (List α) :=
  .coll .bcast (Payload.pack xs) fun ms =>
    .ret (onRoot rank xs ((ms.head?.map Payload.unpack).getD []))

/-- One step of the loop of `local_to_global` (/repo/bet/sample.py:1229-1235). -/
def gatherField (l : Option (Chunks α)) (g : Option (List α)) : Proc (Msg K) (Option (List α)) :=
  match l with
  | some c => do
      let x ← gatherList c.flatten
      pure (some x)
  | none => pure g

end

/-- `comm.barrier()`. -/
def barrierM {K : Type} : Proc (Msg K) Unit := .coll .barrier .none fun _ => .ret ()

/-- One step of the loop of `global_to_local` (/repo/bet/sample.py:1332-1337) on process `rank`. -/
def splitOne {α : Type} (rank size : Nat) :
    Option (List α) → Option (Chunks α) → Option (Chunks α)
  | some xs, _ => some [(arraySplit size xs).getD rank []]
  | none, l => l

namespace SampleSet

section
variable {K : Type} [Field K] [LinearOrder K]

/-- /repo/bet/sample.py:717-749 `check_num` on one process: there is a collective only when there
is no global array. -/
def procCheckNum (s : SampleSet K) : Proc (Msg K) Nat := do
  let num ← Proc.ofExcept (checkNumLoop (s.glob.toList List.length) none)
  if colsOk s.dim s.glob.values then
    match num with
    | some n => pure n
    | none => do
        let m ← Proc.ofExcept (s.checkNumLocal 0)
        reduceCnt (m.getD 0)
  else Proc.raise .dimNotMatching

/-- /repo/bet/sample.py:1325-1337 `global_to_local` on one process. -/
def procGlobalToLocal (rank size : Nat) (s : SampleSet K) : Proc (Msg K) (SampleSet K) := do
  let num ← s.procCheckNum
  let _ ← barrierM
  pure { s with
    localIndex := some [(arraySplit size (List.range num)).getD rank []]
    loc := Arrays.map₂ (splitOne rank size) s.glob s.loc }

/-- `if s._values_local is None: s.global_to_local()` on one process. -/
def procLocalized (rank size : Nat) (s : SampleSet K) : Proc (Msg K) (SampleSet K) :=
  if s.loc.values.isNone then s.procGlobalToLocal rank size else pure s

/-- /repo/bet/sample.py:1227-1235 `local_to_global` on one process: one collective for every local
array, in the order of `array_names`. -/
def procLocalToGlobal (s : SampleSet K) : Proc (Msg K) (SampleSet K) := do
  let values ← gatherField s.loc.values s.glob.values
  let volumes ← gatherField s.loc.volumes s.glob.volumes
  let probabilities ← gatherField s.loc.probabilities s.glob.probabilities
  let densities ← gatherField s.loc.densities s.glob.densities
  let jacobians ← gatherField s.loc.jacobians s.glob.jacobians
  let errorEstimates ← gatherField s.loc.errorEstimates s.glob.errorEstimates
  let right ← gatherField s.loc.right s.glob.right
  let left ← gatherField s.loc.left s.glob.left
  let width ← gatherField s.loc.width s.glob.width
  let kdtreeValues ← gatherField s.loc.kdtreeValues s.glob.kdtreeValues
  let radii ← gatherField s.loc.radii s.glob.radii
  let normalizedRadii ← gatherField s.loc.normalizedRadii s.glob.normalizedRadii
  let region ← gatherField s.loc.region s.glob.region
  let errorId ← gatherField s.loc.errorId s.glob.errorId
  pure { s with glob := ⟨values, volumes, probabilities, densities, jacobians, errorEstimates,
    right, left, width, kdtreeValues, radii, normalizedRadii, region, errorId⟩ }

/-- /repo/bet/sample.py:1962-2001 and 2135-2172 for one row of `x` after `check_num`. -/
def regionRow (G : Geometry K) (num : Nat) (s : SampleSet K) (k : Nat) (x : List K) :
    Except Err (List (Nat × Bool)) :=
  match s.kind with
  | .ball => do
      if num ≤ 1 then pure (regionQueryRow num k fun _ => false)
      else do
        let values ← orErr .typeError s.glob.values
        let radii ← orErr .typeError s.glob.radii
        pure (regionQueryRow num k fun i =>
          match values[i]?, radii[i]? with
          | some c, some r => decide (G.dist s.pNorm x c < r)
          | _, _ => false)
  | _ => do
      if num ≤ 1 then pure (regionQueryRow num k fun _ => false)
      else do
        let right ← orErr .typeError s.glob.right
        let left ← orErr .typeError s.glob.left
        pure (regionQueryRow num k fun i =>
          match right[i]?, left[i]? with
          | some r, some l => inRect l r x
          | _, _ => false)

/-- Column 0 of the pointers of `query` for one row. -/
def regionPtr (G : Geometry K) (num : Nat) (s : SampleSet K) (x : List K) : Except Err Nat := do
  let row ← s.regionRow G num 1 x
  pure (row.getD 0 (0, false)).1

/-- /repo/bet/sample.py:1406-1409 on one process. -/
def procEnsureTree (s : SampleSet K) : Proc (Msg K) (SampleSet K) :=
  match s.kdtree with
  | none => Proc.ofExcept s.setKdtree
  | some _ => do
      let _ ← s.procCheckNum
      pure s

/-- `(_, ptr) = s.query(x)` (/repo/bet/sample.py:1395-1412, 1962-2001 and 2135-2172) on one process
with its own points. -/
def procQuery (G : Geometry K) (s : SampleSet K) (x : List (List K)) :
    Proc (Msg K) (SampleSet K × List Nat) :=
  match s.kind with
  | .voronoi => do
      let s ← s.procEnsureTree
      let pts ← Proc.ofExcept (orErr .valueError s.kdtree)
      pure (s, x.map (G.nn s.pNorm pts))
  | _ => do
      let num ← s.procCheckNum
      let ptr ← Proc.ofExcept (x.mapM (s.regionPtr G num))
      pure (s, ptr)

/-- /repo/bet/sample.py:1278-1310 `estimate_volume_emulated` on one process. -/
def procEstimateVolumeEmulated (G : Geometry K) (rank size : Nat) (s em : SampleSet K) :
    Proc (Msg K) (SampleSet K × SampleSet K) := do
  let num ← s.procCheckNum
  let em ← em.procLocalized rank size
  let x ← Proc.ofExcept (orErr .typeError em.loc.values)
  let q ← s.procQuery G x.flatten
  let vol ← procVolumesEm num q.2 x.flatten.length
  let s ← { q.1 with glob := { q.1.glob with volumes := some vol } }.procGlobalToLocal rank size
  pure (s, em)

/-- /repo/bet/sample.py:1253-1276 `estimate_volume` on one process; `mc` are its random points. -/
def procEstimateVolume (G : Geometry K) (rank size n : Nat) (s : SampleSet K)
    (mc : List (List K)) : Proc (Msg K) (SampleSet K) := do
  let num ← s.procCheckNum
  let _ ← Proc.ofExcept (orErr .typeError s.domain)
  let q ← s.procQuery G mc
  let vol ← procVolumes num n q.2
  { q.1 with glob := { q.1.glob with volumes := some vol } }.procGlobalToLocal rank size

end

end SampleSet

namespace Disc

section
variable {K : Type} [Field K] [LinearOrder K]

/-- /repo/bet/sample.py:2343-2360 `check_nums` on one process. -/
def procCheckNums (d : Disc K) : Proc (Msg K) Nat := do
  let out ← Proc.ofExcept (orErr .attributeError d.output)
  let outNum ← out.procCheckNum
  let inp ← Proc.ofExcept (orErr .attributeError d.input)
  let inNum ← inp.procCheckNum
  if outNum ≠ inNum && out.glob.values.isSome && inp.glob.values.isSome then
    Proc.raise .lengthNotMatching
  else pure inNum

/-- `if globalize: self._..._ptr = util.get_global_values(self._..._ptr_local)`
(/repo/bet/sample.py:2393-2394, 2433-2434 and 2474-2475) on one process; `old` is what there was. -/
def procGlobalPtr (globalize : Bool) (ptr : List Nat) (old : Option (List Nat)) :
    Proc (Msg K) (Option (List Nat)) :=
  if globalize then do
    let g ← gatherList ptr
    pure (some g)
  else pure old

/-- /repo/bet/sample.py:2378-2394 `set_io_ptr` on one process. -/
def procSetIoPtr (G : Geometry K) (rank size : Nat) (d : Disc K) (globalize : Bool) :
    Proc (Msg K) (Disc K) := do
  let out ← Proc.ofExcept (orErr .attributeError d.output)
  let out ← out.procLocalized rank size
  let ps ← Proc.ofExcept (orErr .attributeError d.outputProb)
  let x ← Proc.ofExcept (orErr .typeError out.loc.values)
  let q ← ps.procQuery G x.flatten
  let g ← procGlobalPtr globalize q.2 d.ioPtr
  pure { d with output := some out, outputProb := some q.1, ioPtrLocal := some [q.2], ioPtr := g }

/-- /repo/bet/sample.py:2413-2434 `set_emulated_ii_ptr` on one process. -/
def procSetIiPtr (G : Geometry K) (rank size : Nat) (d : Disc K) (globalize : Bool) :
    Proc (Msg K) (Disc K) := do
  let em ← Proc.ofExcept (orErr .attributeError d.emInput)
  let em ← em.procLocalized rank size
  let inp ← Proc.ofExcept (orErr .attributeError d.input)
  let x ← Proc.ofExcept (orErr .typeError em.loc.values)
  let q ← inp.procQuery G x.flatten
  let g ← procGlobalPtr globalize q.2 d.iiPtr
  pure { d with emInput := some em, input := some q.1, iiPtrLocal := some [q.2], iiPtr := g }

/-- /repo/bet/sample.py:2453-2475 `set_emulated_oo_ptr` on one process. -/
def procSetOoPtr (G : Geometry K) (rank size : Nat) (d : Disc K) (globalize : Bool) :
    Proc (Msg K) (Disc K) := do
  let em ← Proc.ofExcept (orErr .attributeError d.emOutput)
  let em ← em.procLocalized rank size
  let ps ← Proc.ofExcept (orErr .attributeError d.outputProb)
  let x ← Proc.ofExcept (orErr .typeError em.loc.values)
  let q ← ps.procQuery G x.flatten
  let g ← procGlobalPtr globalize q.2 d.ooPtr
  pure { d with emOutput := some em, outputProb := some q.1, ooPtrLocal := some [q.2], ooPtr := g }

/-- /repo/bet/sample.py:2689-2704 `estimate_input_volume_emulated` on one process. -/
def procEstimateInputVolumeEmulated (G : Geometry K) (rank size : Nat) (d : Disc K) :
    Proc (Msg K) (Disc K) := do
  let em ← Proc.ofExcept (orErr .attributeError d.emInput)
  let inp ← Proc.ofExcept (orErr .attributeError d.input)
  let r ← inp.procEstimateVolumeEmulated G rank size em
  pure { d with input := some r.1, emInput := some r.2 }

/-- /repo/bet/calculateP/calculateP.py:41-42 and 85-86 on one process. -/
def procEnsureIoPtr (G : Geometry K) (rank size : Nat) (d : Disc K) (globalize : Bool) :
    Proc (Msg K) (Disc K) :=
  if d.ioPtrLocal.isNone then d.procSetIoPtr G rank size globalize else pure d

/-- /repo/bet/calculateP/calculateP.py:43-44 on one process. -/
def procEnsureIiPtr (G : Geometry K) (rank size : Nat) (d : Disc K) : Proc (Msg K) (Disc K) :=
  if d.iiPtrLocal.isNone then d.procSetIiPtr G rank size false else pure d

/-- `prob` (/repo/bet/calculateP/calculateP.py:67-106), the whole call, on one process. -/
def procProbCall (G : Geometry K) (rank size : Nat) (d : Disc K) (globalize : Bool := true) :
    Proc (Msg K) (Disc K) := do
  let _ ← d.procCheckNums
  let ops ← Proc.ofExcept (orErr .attributeError d.outputProb)
  let opNum ← ops.procCheckNum
  let d ← d.procEnsureIoPtr G rank size false
  let inp ← Proc.ofExcept (orErr .attributeError d.input)
  let inp ← inp.procLocalized rank size
  let ptr ← Proc.ofExcept (orErr .typeError d.ioPtrLocal)
  let ops ← Proc.ofExcept (orErr .attributeError d.outputProb)
  let P ← procProb opNum ops.glob.probabilities globalize ptr.flatten
    (inp.loc.volumes.map List.flatten)
  pure { d with input := some { inp with
    glob := { inp.glob with probabilities := P.2 <|> inp.glob.probabilities }
    loc := { inp.loc with probabilities := some [P.1] }
    probType := some .voronoi } }

/-- `if globalize: em.local_to_global()` (/repo/bet/calculateP/calculateP.py:63-64) on one
process. -/
def procIfGlobal (globalize : Bool) (s : SampleSet K) : Proc (Msg K) (SampleSet K) :=
  if globalize then s.procLocalToGlobal else pure s

/-- `prob_on_emulated_samples` (/repo/bet/calculateP/calculateP.py:21-64), the whole call, on one
process. -/
def procProbOnEmulatedCall (G : Geometry K) (rank size : Nat) (d : Disc K)
    (globalize : Bool := true) : Proc (Msg K) (Disc K) := do
  let _ ← d.procCheckNums
  let ops ← Proc.ofExcept (orErr .attributeError d.outputProb)
  let opNum ← ops.procCheckNum
  let em ← Proc.ofExcept (orErr .attributeError d.emInput)
  let _ ← em.procCheckNum
  let d ← d.procEnsureIoPtr G rank size true
  let d ← d.procEnsureIiPtr G rank size
  let em ← Proc.ofExcept (orErr .attributeError d.emInput)
  let x ← Proc.ofExcept (orErr .attributeError em.loc.values)
  let io ← Proc.ofExcept (orErr .typeError d.ioPtr)
  let ii ← Proc.ofExcept (orErr .typeError d.iiPtrLocal)
  let ops ← Proc.ofExcept (orErr .attributeError d.outputProb)
  let P ← procProbEm opNum ops.glob.probabilities io ii.flatten x.flatten.length
  let em ← procIfGlobal globalize { em with
    loc := { em.loc with probabilities := some [P] }
    probType := some .voronoi }
  pure { d with emInput := some em }

/-- `prob_with_emulated_volumes` (/repo/bet/calculateP/calculateP.py:110-132), the whole call, on
one process. -/
def procProbWithEmulatedVolumes (G : Geometry K) (rank size : Nat) (d : Disc K) :
    Proc (Msg K) (Disc K) := do
  let _ ← d.procCheckNums
  let ops ← Proc.ofExcept (orErr .attributeError d.outputProb)
  let _ ← ops.procCheckNum
  let ops ← ops.procLocalized rank size
  let d ← procEstimateInputVolumeEmulated G rank size { d with outputProb := some ops }
  d.procProbCall G rank size

end

end Disc

section
variable {K : Type} [Field K] [LinearOrder K]

/-- The loop of `prob_from_sample_set` (/repo/bet/calculateP/calculateP.py:240-244) on one process
when the array may be `None`. -/
def procGatherOpt (numNew : Nat) (ptr : List Nat) (w : Option (Chunks K)) :
    Proc (Msg K) (List K) :=
  match w with
  | none => if numNew = 0 then pure [] else Proc.raise .typeError
  | some w => procGather numNew ptr w.flatten

/-- `prob_from_sample_set` (/repo/bet/calculateP/calculateP.py:209-249), the whole call, on one
process. -/
def procProbFromSampleSet (G : Geometry K) (rank size : Nat) (old new : SampleSet K) :
    Proc (Msg K) (List K × SampleSet K × SampleSet K) := do
  let _ ← old.procCheckNum
  let numNew ← new.procCheckNum
  let _ ← Proc.ofExcept (raiseIf (old.dim ≠ new.dim) .dimNotMatching)
  let old ← old.procLocalized rank size
  let x ← Proc.ofExcept (orErr .typeError old.loc.values)
  let q ← new.procQuery G x.flatten
  let pn ← procGatherOpt numNew q.2 old.loc.probabilities
  pure (pn, old, { q.1 with
    glob := { q.1.glob with probabilities := some pn }
    probType := some .voronoi })

/-- `prob_from_sample_set_with_emulated_volumes` with a set of emulated points
(/repo/bet/calculateP/calculateP.py:135-206), the whole call, on one process. -/
def procProbFromSampleSetEmulated (G : Geometry K) (rank size : Nat) (old new em : SampleSet K) :
    Proc (Msg K) (List K × SampleSet K × SampleSet K × SampleSet K) := do
  let numOld ← old.procCheckNum
  let numNew ← new.procCheckNum
  let _ ← em.procCheckNum
  let _ ← Proc.ofExcept (raiseIf (old.dim ≠ new.dim ∨ old.dim ≠ em.dim) .dimNotMatching)
  let em ← em.procLocalized rank size
  let x ← Proc.ofExcept (orErr .typeError em.loc.values)
  let q1 ← old.procQuery G x.flatten
  let q2 ← new.procQuery G x.flatten
  let pn ← procEm numOld q1.1.glob.probabilities numNew q1.2 q2.2
  pure (pn, q1.1, { q2.1 with
    glob := { q2.1.glob with probabilities := some pn }
    probType := some .voronoi }, em)

/-- The set that `prob_from_discretization_input` took from the discretization
(/repo/bet/calculateP/calculateP.py:266-269), after it was localized. -/
def Disc.putEmulated (d : Disc K) (em : SampleSet K) : Disc K :=
  match d.emInput with
  | none => { d with input := some em }
  | some _ => { d with emInput := some em }

/-- `prob_from_discretization_input` (/repo/bet/calculateP/calculateP.py:252-300), the whole call, on
one process. -/
def procProbFromDiscInput (G : Geometry K) (rank size : Nat) (d : Disc K) (new : SampleSet K) :
    Proc (Msg K) (List K × SampleSet K) := do
  let em ← Proc.ofExcept (orErr .attributeError (d.emInput <|> d.input))
  let em ← em.procLocalized rank size
  let pe ← Proc.ofExcept (orErr .attributeError em.loc.probabilities)
  let d := d.putEmulated em
  let _ ← d.procCheckNums
  let numNew ← new.procCheckNum
  let inp ← Proc.ofExcept (orErr .attributeError d.input)
  let _ ← Proc.ofExcept (raiseIf (inp.dim ≠ new.dim) .dimNotMatching)
  let x ← Proc.ofExcept (orErr .typeError em.loc.values)
  let q ← new.procQuery G x.flatten
  let pn ← procGather numNew q.2 pe.flatten
  pure (pn, { q.1 with
    glob := { q.1.glob with probabilities := some pn }
    probType := some .voronoi })

end

end BET
