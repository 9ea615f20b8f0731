import Verif.Model.CalcError

/-!
# The class `sampling_error` on a discretization (/repo/bet/calculateP/calculateError.py:28-241)

The connectivity and the loops are in `Model/CalcError.lean`; here are the checks of the arguments, the
pointers and the volumes around them. `argsort` is `numpy.argsort`, `delaunay` gives the simplices of
`scipy.spatial.Delaunay` or raises.
-/

set_option autoImplicit false

namespace BET

variable {K : Type} [Field K] [LinearOrder K]

/-- /repo/bet/calculateP/calculateError.py:45-56 and 113-125: only Voronoi sets with the 2-norm. A
discretization without an input set is refused by the first test. That the argument is a
discretization is given by its type here. -/
def checkVoronoi2 (d : Disc K) : Except Err Unit := do
  let inp ← orErr .wrongArgumentType d.input
  let _ ← raiseIf (inp.kind ≠ .voronoi) .wrongArgumentType
  raiseIf (inp.pNorm ≠ 2) .wrongArgumentType

/-- `if disc.get_io_ptr() is None: disc.set_io_ptr()`
(/repo/bet/calculateP/calculateError.py:60-61, 130-131). -/
def ensureGlobalIoPtr (G : Geometry K) (size : Nat) (d : Disc K) : Except Err (Disc K) :=
  if d.ioPtr.isNone then d.setIoPtr G size true else pure d

/-- /repo/bet/calculateP/calculateError.py:63-88 for samples `x` of dimension `dim`. -/
def connectivityOf (argsort : List K → List Nat)
    (delaunay : List (List K) → Except Err (List (List Nat))) (num dim : Nat) (x : List (List K))
    (io : List Nat) : Except Err NeiList :=
  if dim = 1 then connectivity1D num (argsort x.flatten) io
  else do
    let simplices ← delaunay x
    connectivityDelaunay simplices io

/-- /repo/bet/calculateP/calculateError.py:28-89 `cell_connectivity_exact`: the neighbour lists and
the discretization with its pointer. -/
def connectivityExact (G : Geometry K) (size : Nat) (argsort : List K → List Nat)
    (delaunay : List (List K) → Except Err (List (List Nat))) (d : Disc K) :
    Except Err (NeiList × Disc K) := do
  let _ ← checkVoronoi2 d
  let num ← d.checkNums size
  let d ← ensureGlobalIoPtr G size d
  let io ← orErr .typeError d.ioPtr
  let inp ← orErr .attributeError d.input
  let x ← orErr .attributeError inp.glob.values
  let nei ← connectivityOf argsort delaunay num inp.dim x io
  pure (nei, d)

/-- /repo/bet/calculateP/calculateError.py:92-142 `boundary_sets` on a discretization. -/
def boundarySetsOf (G : Geometry K) (size : Nat) (d : Disc K) (nei : NeiList) :
    Except Err (Keys × Disc K) := do
  let _ ← checkVoronoi2 d
  let num ← d.checkNums size
  let d ← ensureGlobalIoPtr G size d
  let io ← orErr .typeError d.ioPtr
  let k ← boundarySets num nei io
  pure (k, d)

/-- /repo/bet/calculateP/calculateError.py:150-178 `sampling_error.__init__` with `exact=True` (the
other value raises NotImplementedError): the dictionaries and the discretization. -/
def samplingErrorInit (G : Geometry K) (size : Nat) (argsort : List K → List Nat)
    (delaunay : List (List K) → Except Err (List (List Nat))) (d : Disc K) :
    Except Err (Keys × Disc K) := do
  let _ ← d.checkNums size
  let q ← connectivityExact G size argsort delaunay d
  boundarySetsOf G size q.2 q.1

/-- /repo/bet/calculateP/calculateError.py:196-203: volumes that are missing are estimated with the
emulated points, or else by the Monte Carlo assumption. -/
def contourVolumes (G : Geometry K) (size : Nat) (d : Disc K) (inp : SampleSet K) :
    Except Err (Disc K) :=
  match inp.glob.volumes, d.emInput with
  | some _, _ => pure d
  | none, some _ => d.estimateInputVolumeEmulated G size
  | none, none => do
      let inp ← inp.estimateVolumeMc size true
      pure { d with input := some inp }

/-- /repo/bet/calculateP/calculateError.py:180-241
`sampling_error.calculate_for_contour_events`: the bounds, the dictionaries and the discretization. -/
def samplingContour (G : Geometry K) (size : Nat) (e : Keys) (d : Disc K) :
    Except Err (List (Num K × Num K) × Keys × Disc K) := do
  let inp ← orErr .attributeError d.input
  let d ← contourVolumes G size d inp
  let ops ← orErr .attributeError d.outputProb
  let _ ← ops.checkNum size
  let probs ← orErr .typeError ops.glob.probabilities
  let io ← orErr .typeError d.ioPtr
  let inp ← orErr .attributeError d.input
  let vols ← orErr .typeError inp.glob.volumes
  let r := contourErrors e io vols probs
  pure (r.1, r.2, d)

end BET
