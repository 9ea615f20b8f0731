import Verif.Model.Discretization

/-!
# Error estimates (/repo/bet/calculateP/calculateError.py)
-/

set_option autoImplicit false

namespace BET

/-! ### Floating-point results that may be `nan` or infinite -/

/-- A numpy float: a number, `nan` or an infinity (`inf true` is `+inf`). -/
inductive Num (K : Type)
  | fin (x : K)
  | nan
  | inf (pos : Bool)
  deriving DecidableEq, Repr

namespace Num

variable {K : Type} [Field K] [LinearOrder K]

/-- Division of numpy floats: `x / 0` is infinite, `0 / 0` is `nan`. -/
def div (a b : K) : Num K :=
  if b = 0 then (if a = 0 then nan else inf (decide (0 < a))) else fin (a / b)

/-- `x - 1.0`. -/
def sub1 : Num K → Num K
  | fin x => fin (x - 1)
  | nan => nan
  | inf b => inf b

/-- `x < y` in floating point: false when one is `nan`. -/
def lt : Num K → Num K → Bool
  | fin x, fin y => decide (x < y)
  | fin _, inf b => b
  | inf b, fin _ => !b
  | inf a, inf b => !a && b
  | _, _ => false

/-- Python's `max(a, b)`: the first unless the second is larger. -/
def pyMax (a b : Num K) : Num K := if a.lt b then b else a

/-- Python's `min(a, b)`. -/
def pyMin (a b : Num K) : Num K := if b.lt a then b else a

/-- `p * x` for a positive number `p`. -/
def scale (p : K) : Num K → Num K
  | fin x => fin (p * x)
  | nan => nan
  | inf b => inf b

/-- `x + y`. -/
def add : Num K → Num K → Num K
  | fin x, fin y => fin (x + y)
  | nan, _ => nan
  | _, nan => nan
  | inf a, inf b => if a = b then inf a else nan
  | inf a, _ => inf a
  | _, inf b => inf b

end Num

/-! ### Connectivity -/

/-- The neighbour lists: for every cell the output cells of its neighbours, without
repetition.  The order in which Python lists a set plays no role. -/
abbrev NeiList := Nat → List Nat

/-- `neiList[p].add(v)`. -/
def NeiList.add (nei : NeiList) (p v : Nat) : NeiList := fun k =>
  if k = p then (if v ∈ nei p then nei p else nei p ++ [v]) else nei k

/-- `np.argwhere(np.equal(s, v))[0][0]`. -/
def argFirst (s : List Nat) (v : Nat) : Except Err Nat :=
  if v ∈ s then .ok (s.idxOf v) else .error .indexError

/-- The body of the loop of /repo/bet/calculateP/calculateError.py:71-77 when the rank is
positive. -/
def link1D (s io : List Nat) (nei : NeiList) (p order : Nat) : Except Err NeiList := do
  let a ← argFirst s (order - 1)
  let va ← getIdx io a
  let vp ← getIdx io p
  pure ((nei.add p va).add a vp)

/-- One round of that loop. -/
def step1D (s io : List Nat) (nei : NeiList) (p : Nat) : Except Err NeiList := do
  let order ← getIdx s p
  if 0 < order then link1D s io nei p order else pure nei

/-- /repo/bet/calculateP/calculateError.py:67-77, 86-89: connectivity in one dimension.
`s` is `argsort` of the values, `io` the input-output pointer. -/
def connectivity1D (num : Nat) (s io : List Nat) : Except Err NeiList :=
  (List.range num).foldlM (step1D s io) (fun _ => [])

/-- `itertools.combinations(p, 2)`. -/
def pairs : List Nat → List (Nat × Nat)
  | [] => []
  | a :: l => l.map (fun b => (a, b)) ++ pairs l

/-- One pair of /repo/bet/calculateP/calculateError.py:84-86. -/
def linkPair (io : List Nat) (nei : NeiList) (ij : Nat × Nat) : Except Err NeiList := do
  let vj ← getIdx io ij.2
  let vi ← getIdx io ij.1
  pure ((nei.add ij.1 vj).add ij.2 vi)

/-- /repo/bet/calculateP/calculateError.py:78-89: connectivity from the simplices of the
Delaunay triangulation, which scipy computes. -/
def connectivityDelaunay (simplices : List (List Nat)) (io : List Nat) : Except Err NeiList :=
  (simplices.flatMap pairs).foldlM (linkPair io) (fun _ => [])

/-! ### Interior and covering cells -/

/-- A Python `defaultdict(list)`. -/
abbrev ListDict := Nat → Option (List Nat)

/-- `d[k].append(v)`. -/
def ListDict.append (d : ListDict) (k v : Nat) : ListDict := fun x =>
  if x = k then some ((d k).getD [] ++ [v]) else d x

/-- Reading `d[k]` inserts the key. -/
def ListDict.touch (d : ListDict) (k : Nat) : ListDict := fun x =>
  if x = k then some ((d k).getD []) else d x

/-- What reading `d[k]` gives. -/
def ListDict.read (d : ListDict) (k : Nat) : List Nat := (d k).getD []

/-- The dictionaries `B_N` and `C_N`. -/
structure Keys where
  B : ListDict
  C : ListDict

/-- `if nei_list[i] == [contour_event]: B_N[contour_event].append(i)`. -/
def addInterior (nei : NeiList) (i event : Nat) (B : ListDict) : ListDict :=
  if nei i = [event] then B.append event i else B

/-- One round of the loop of /repo/bet/calculateP/calculateError.py:135-140. -/
def boundaryStep (nei : NeiList) (io : List Nat) (k : Keys) (i : Nat) : Except Err Keys := do
  let event ← getIdx io i
  pure ⟨addInterior nei i event k.B, (nei i).foldl (fun C j => C.append j i) k.C⟩

/-- /repo/bet/calculateP/calculateError.py:92-142 `boundary_sets`. -/
def boundarySets (num : Nat) (nei : NeiList) (io : List Nat) : Except Err Keys :=
  (List.range num).foldlM (boundaryStep nei io) ⟨fun _ => none, fun _ => none⟩

/-! ### `sampling_error` -/

section
variable {K : Type} [Field K] [LinearOrder K]

/-- `np.sum(x[idx])`. -/
def sumAt (x : List K) (idx : List Nat) : K := (idx.map fun j => x.getD j 0).sum

/-- The bounds of one contour event
(/repo/bet/calculateP/calculateError.py:208-238). -/
def contourBound (e : Keys) (io : List Nat) (vols : List K) (i : Nat) (p : K) :
    Num K × Num K :=
  if 0 < p then
    match e.B i with
    | some b =>
        let lam := List.zipWith (fun v h => if h then v else 0) vols (npEqual io i)
        let term1 := (Num.div (sumAt lam b) (sumAt vols (e.C.read i))).sub1
        let term2 := (Num.div (sumAt lam (e.C.read i)) (sumAt vols b)).sub1
        (Num.scale p (Num.pyMax term1 term2), Num.scale p (Num.pyMin term1 term2))
    | none => (.nan, .nan)
  else (.fin 0, .fin 0)

/-- What the loop does to the dictionaries: an event with a key in `B_N` has its `C_N`
read. -/
def contourTouch (e : Keys) (i : Nat) (p : K) : Keys :=
  if 0 < p then
    match e.B i with
    | some _ => { e with C := e.C.touch i }
    | none => e
  else e

/-- The loop of /repo/bet/calculateP/calculateError.py:205-240. -/
def contourLoop (io : List Nat) (vols probs : List K) : Keys → List Nat →
    List (Num K × Num K) × Keys
  | e, [] => ([], e)
  | e, i :: is =>
      let r := contourLoop io vols probs (contourTouch e i (probs.getD i 0)) is
      (contourBound e io vols i (probs.getD i 0) :: r.1, r.2)

/-- /repo/bet/calculateP/calculateError.py:180-241
`sampling_error.calculate_for_contour_events` when the volumes are known; pairs of upper and
lower bound, and the dictionaries afterwards. -/
def contourErrors (e : Keys) (io : List Nat) (vols probs : List K) :
    List (Num K × Num K) × Keys :=
  contourLoop io vols probs e (List.range probs.length)

/-- `comm.allreduce(np.sum(mask))`. -/
def countMask (m : Chunks Bool) : Nat := allreduceSum (m.map (List.count true))

/-- `np.logical_and` on every process. -/
def andMask (a b : Chunks Bool) : Chunks Bool := List.zipWith (List.zipWith (· && ·)) a b

/-- The loop over `j` of /repo/bet/calculateP/calculateError.py:325-333 on every process. -/
def memMask (js : List Nat) (ii : Chunks Nat) : Chunks Bool :=
  ii.map fun c => js.foldl (fun acc j => List.zipWith (· || ·) (npEqual c j) acc)
    (List.replicate c.length false)

/-- `indices[ptr]` for the mask `np.equal(io_ptr, i)`. -/
def eventMask (io : List Nat) (i : Nat) (ii : Chunks Nat) : Chunks Bool :=
  ii.map fun c => c.map fun j => (npEqual io i).getD j false

/-- The contribution of one event to the bounds of a region
(/repo/bet/calculateP/calculateError.py:314-358); `none` stands for the early return of
`(nan, nan)`. -/
def regionTerm (b c : List Nat) (io : List Nat) (inA : Chunks Bool) (ii : Chunks Nat) (i : Nat)
    (p : K) : Option (K × K) :=
  let inAi := eventMask io i ii
  let sum1 := countMask (andMask inA inAi)
  let sum2 := countMask inAi
  if sum2 = 0 then none
  else
    let E : K := (sum1 : K) / (sum2 : K)
    let inB := memMask b ii
    let inC := memMask c ii
    let sum3 := countMask (andMask inA inB)
    let sum4 := countMask inC
    if sum4 = 0 then none
    else
      let term1 : K := (sum3 : K) / (sum4 : K) - E
      let sum5 := countMask (andMask inA inC)
      let sum6 := countMask inB
      if sum6 = 0 then none
      else
        let term2 : K := (sum5 : K) / (sum6 : K) - E
        some (p * max term1 term2, p * min term1 term2)

/-- The dictionaries after one event: the early return for `sum2 == 0` comes before they are
read. -/
def regionTouch (e : Keys) (io : List Nat) (ii : Chunks Nat) (i : Nat) : Keys :=
  if countMask (eventMask io i ii) = 0 then e else ⟨e.B.touch i, e.C.touch i⟩

/-- The loop of /repo/bet/calculateP/calculateError.py:310-359 over the events that are
left. -/
def regionLoop (io : List Nat) (inA : Chunks Bool) (ii : Chunks Nat) (probs : List K) :
    List Nat → Keys → K → K → Option (K × K) × Keys
  | [], e, up, lo => (some (up, lo), e)
  | i :: is, e, up, lo =>
      if 0 < probs.getD i 0 then
        match regionTerm (e.B.read i) (e.C.read i) io inA ii i (probs.getD i 0) with
        | none => (none, regionTouch e io ii i)
        | some t => regionLoop io inA ii probs is (regionTouch e io ii i) (up + t.1) (lo + t.2)
      else regionLoop io inA ii probs is e up lo

/-- /repo/bet/calculateP/calculateError.py:243-359
`sampling_error.calculate_for_sample_set_region` after its set-up: `inA` says which emulated
points are in the region and `ii` is the cell of every emulated point.  Returns the bounds
(`none` is `(nan, nan)`) and the dictionaries. -/
def regionErrors (e : Keys) (io : List Nat) (inA : Chunks Bool) (ii : Chunks Nat)
    (probs : List K) : Option (K × K) × Keys :=
  regionLoop io inA ii probs (List.range probs.length) e 0 0

/-! ### `model_error` -/

/-- `p * ((JiA * Jie - JiAe * Ji) / (Ji * Jie))`. -/
def modelTerm (p jiA ji jiAe jie : K) : Num K := Num.scale p (Num.div (jiA * jie - jiAe * ji) (ji * jie))

/-- `comm.allreduce(np.sum(x[mask]))`. -/
def sumMask (x : Chunks K) (m : Chunks Bool) : K :=
  allreduceSum (List.zipWith (fun a b => (maskSel a b).sum) x m)

/-- `np.equal(ptr, i)` on every process. -/
def eqMask (ptr : Chunks Nat) (i : Nat) : Chunks Bool := ptr.map fun c => npEqual c i

/-- /repo/bet/calculateP/calculateError.py:403-450
`model_error.calculate_for_contour_events` with the local volumes `vols`, the local pointers
`io` and, with the errors added, `io'`. -/
def modelContour (vols : Chunks K) (io io' : Chunks Nat) (probs : List K) : List (Num K) :=
  (List.range probs.length).map fun i =>
    if 0 < probs.getD i 0 then
      modelTerm (probs.getD i 0) (sumMask vols (eqMask io i)) (sumMask vols (eqMask io i))
        (sumMask vols (andMask (eqMask io i) (eqMask io' i))) (sumMask vols (eqMask io' i))
    else .fin 0

/-- The contribution of one event in the region methods, where the counts are Python floats:
division by zero raises. -/
def modelTermPy (p jiA ji jiAe jie : K) : Except Err K := do
  let _ ← raiseIf (ji * jie = 0) .zeroDivision
  pure (p * ((jiA * jie - jiAe * ji) / (ji * jie)))

/-- One round of the loop of /repo/bet/calculateP/calculateError.py:516-537. -/
def modelRegionStep (inA : Chunks Bool) (ii : Chunks Nat) (io io' : List Nat) (probs : List K)
    (er : K) (i : Nat) : Except Err K :=
  if 0 < probs.getD i 0 then do
    let t ← modelTermPy (probs.getD i 0)
      (countMask (andMask inA (eventMask io i ii)) : K) (countMask (eventMask io i ii) : K)
      (countMask (andMask inA (eventMask io' i ii)) : K) (countMask (eventMask io' i ii) : K)
    pure (er + t)
  else pure er

/-- /repo/bet/calculateP/calculateError.py:452-539
`model_error.calculate_for_sample_set_region` after its set-up; the pointers `io`, `io'` are
global here. -/
def modelRegion (inA : Chunks Bool) (ii : Chunks Nat) (io io' : List Nat) (probs : List K) :
    Except Err K :=
  (List.range probs.length).foldlM (modelRegionStep inA ii io io' probs) 0

/-- One event of /repo/bet/calculateP/calculateError.py:587-596: infinite instead of a division
by zero. -/
def modelTermMc (p jiA ji jiAe jie : K) : Num K :=
  if ji * jie = 0 then .inf true else .fin (p * ((jiA * jie - jiAe * ji) / (ji * jie)))

/-- `np.not_equal` on every process. -/
def neMask (a b : Chunks Bool) : Chunks Bool := List.zipWith (List.zipWith (· != ·)) a b

/-- The cells the error of one event is charged to
(/repo/bet/calculateP/calculateError.py:598-604). -/
def errorCells (inA in1 in2 : Chunks Bool) : Chunks Bool :=
  let notA := inA.map (List.map (! ·))
  let e1 := andMask (andMask in1 notA) (andMask in2 inA)
  let e2 := andMask (andMask in2 notA) (andMask in1 inA)
  orMask (orMask e1 e2) (neMask in1 in2)
where
  /-- `np.logical_or` on every process. -/
  orMask (a b : Chunks Bool) : Chunks Bool := List.zipWith (List.zipWith (· || ·)) a b

/-- `error_id_local[error_cells] += er_cont / error_cells_num` when there are such cells
(/repo/bet/calculateP/calculateError.py:606-611). -/
def charge (ids : Chunks (Num K)) (cells : Chunks Bool) (er : Num K) : Chunks (Num K) :=
  if countMask cells = 0 then ids
  else List.zipWith (List.zipWith fun x (h : Bool) =>
    if h then x.add (Num.scale (1 / (countMask cells : K)) er) else x) ids cells

/-- One round of the loop of /repo/bet/calculateP/calculateError.py:574-611. -/
def modelMcStep (inA : Chunks Bool) (io io' : Chunks Nat) (probs : List K)
    (st : Num K × Chunks (Num K)) (i : Nat) : Num K × Chunks (Num K) :=
  if 0 < probs.getD i 0 then
    let er := modelTermMc (probs.getD i 0)
      (countMask (andMask inA (eqMask io i)) : K) (countMask (eqMask io i) : K)
      (countMask (andMask inA (eqMask io' i)) : K) (countMask (eqMask io' i) : K)
    (st.1.add er, charge st.2 (errorCells inA (eqMask io i) (eqMask io' i)) er)
  else st

/-- /repo/bet/calculateP/calculateError.py:541-612
`model_error.calculate_for_sample_set_region_mc` after its set-up: the estimate and
`_error_id_local`. -/
def modelRegionMc (inA : Chunks Bool) (io io' : Chunks Nat) (probs : List K) :
    Num K × Chunks (Num K) :=
  (List.range probs.length).foldl (modelMcStep inA io io' probs)
    (.fin 0, io.map fun c => c.map fun _ => .fin 0)

/-! ### Set-up of the region methods -/

/-- The marker of a region
(/repo/bet/calculateP/calculateError.py:262-268, 473-479, 556-562). -/
def regionMarker (s : SampleSet K) (region : Int) : Except Err (List Bool) := do
  let reg ← orErr .wrongArgumentType s.glob.region
  let _ ← raiseIf (!(reg.map fun r => decide (r = region)).any id) .wrongArgumentType
  pure (reg.map fun r => decide (r = region))

/-- Which points of `em` lie in the region of `s` (lines 276-280 and 306, 490-494 and 513,
564-570): the marker at the cell of `s` that holds the point. -/
def regionMask (G : Geometry K) (size : Nat) (s : SampleSet K) (region : Int)
    (em : SampleSet K) : Except Err (Chunks Bool) := do
  let marker ← regionMarker s region
  let d ← Disc.new size (some s) (some s) none (some em) none
  let d ← d.setIiPtr G size false
  let ptr ← orErr .attributeError d.iiPtrLocal
  ptr.mapM fun c => c.mapM fun j => getIdx marker j

/-- The emulated points a region method uses: the given set, else the emulated set of the
discretization, else its input samples (lines 271-304). -/
def regionPoints (d : Disc K) (em : Option (SampleSet K)) : Except Err (SampleSet K) :=
  match em, d.emInput with
  | some e, _ => pure e
  | none, some e => pure e
  | none, none => orErr .attributeError d.input

/-- /repo/bet/calculateP/calculateError.py:243-359
`sampling_error.calculate_for_sample_set_region` on the object with dictionaries `e`. Changes
of `self.disc` (split arrays, search trees, cell pointers of the emulated points) are not
returned; `copy` gives an equal discretization. When the points are not given but stored in the
discretization and a global pointer is present the method reuses the local pointer; here it is
always computed anew. -/
def samplingRegion (G : Geometry K) (size : Nat) (e : Keys) (d : Disc K) (s : SampleSet K)
    (region : Int) (em : Option (SampleSet K)) : Except Err (Option (K × K) × Keys) := do
  let inp ← orErr .attributeError d.input
  let d := { d with input := some inp.localToGlobal }
  let _ ← regionMarker s region
  let pts ← regionPoints d em
  let d ← d.setEmulatedInput pts
  let d ← d.setIiPtr G size false
  let inA ← regionMask G size s region pts
  let ii ← orErr .attributeError d.iiPtrLocal
  let io ← orErr .attributeError d.ioPtr
  let ops ← orErr .attributeError d.outputProb
  let _ ← ops.checkNum size
  let probs ← orErr .typeError ops.glob.probabilities
  pure (regionErrors e io inA ii probs)

/-- `if disc._io_ptr_local is None: disc.set_io_ptr()`. -/
def ensureIoPtr (G : Geometry K) (size : Nat) (d : Disc K) : Except Err (Disc K) :=
  if d.ioPtrLocal.isNone then d.setIoPtr G size true else pure d

/-- The outputs with the error estimates added on every process. -/
def addErrors (x er : Chunks (List K)) : Chunks (List K) :=
  List.zipWith (List.zipWith (List.zipWith (· + ·))) x er

/-- A `model_error` object: the discretization `disc` and its copy `disc_new` with the error
estimates added to the outputs. -/
structure ModelErr (K : Type) where
  disc : Disc K
  new : Disc K

/-- /repo/bet/calculateP/calculateError.py:375-401 `model_error.__init__`. `copy` gives an equal
discretization. -/
def modelErrorNew (G : Geometry K) (size : Nat) (d : Disc K) : Except Err (ModelErr K) := do
  let out ← orErr .attributeError d.output
  let out ← out.globalToLocal size
  let d := { d with output := some out }
  let _ ← raiseIf (out.glob.errorEstimates.isNone && out.loc.errorEstimates.isNone)
    .wrongArgumentType
  let _ ← d.checkNums size
  let d ← ensureIoPtr G size d
  let out ← orErr .attributeError d.output
  let x ← orErr .typeError out.loc.values
  let er ← orErr .typeError out.loc.errorEstimates
  let new := { d with
    output := some { out with loc := { out.loc with values := some (addErrors x er) } } }
  let new ← new.setIoPtr G size false
  pure { disc := d, new := { new with ioPtr := none } }

/-- `model_error.__init__`: the discretization with pointers and the local pointers of the outputs
with the error estimates added. -/
def modelErrorInit (G : Geometry K) (size : Nat) (d : Disc K) :
    Except Err (Disc K × Chunks Nat) := do
  let e ← modelErrorNew G size d
  let ptr ← orErr .attributeError e.new.ioPtrLocal
  pure (e.disc, ptr)

end

end BET
