import Verif.Model.Query

/-!
# Radii of Voronoi cells (/repo/bet/sample.py:1528-1656)
-/

set_option autoImplicit false

namespace BET

variable {K : Type} [Field K] [LinearOrder K]

/-- `(x - left) / width` of /repo/bet/sample.py:1552-1554, 1567-1569 for one point, or the point itself
when `normalize` is false. Widths are not 0 (numpy would give `nan`). -/
def unitCoords (normalize : Bool) (D : List (K × K)) (x : List K) : List K :=
  if normalize then List.zipWith (fun ab y => (y - ab.1) / (ab.2 - ab.1)) D x else x

/-- `mc_points[np.equal(emulate_ptr, i), :]`. -/
def ownPoints (ptr : List Nat) (pts : List (List K)) (i : Nat) : List (List K) :=
  (List.zip ptr pts).filterMap fun q => if q.1 = i then some q.2 else none

/-- `np.max`; of nothing it raises `ValueError`. -/
def maxOrRaise : List K → Except Err K
  | [] => .error .valueError
  | x :: xs => .ok (xs.foldl max x)

/-- /repo/bet/sample.py:1576-1579 on one process. -/
def radiiLocal (G : Geometry K) (p : Nat) (tr : List K → List K) (values : List (List K))
    (pts : List (List K)) (ptr : List Nat) : Except Err (List K) :=
  values.zipIdx.mapM fun v => maxOrRaise ((ownPoints ptr pts v.2).map fun x => G.dist p (tr x) (tr v.1))

/-- `comm.Allreduce(…, op=MPI.MAX)` for the arrays of all processes. -/
def allreduceMax : List (List K) → List K
  | [] => []
  | r :: rs => rs.foldl (List.zipWith max) r

/-- /repo/bet/sample.py:1585-1588: where the radii are stored. -/
def SampleSet.storeRadii (normalize : Bool) (rad : List K) (s : SampleSet K) : SampleSet K :=
  if normalize then
    { s with glob := { s.glob with
        left := none, right := none, width := none, normalizedRadii := some rad } }
  else { s with glob := { s.glob with radii := some rad } }

namespace SampleSet

/-- /repo/bet/sample.py:1546-1583: `mc` are the random points of all processes. The bounds that are set
and removed again around the query are left out. -/
def findRadii (G : Geometry K) (size : Nat) (s : SampleSet K) (mc : Chunks (List K))
    (normalize : Bool) : Except Err (SampleSet K × Chunks Nat × List K) := do
  let _ ← s.checkNum size
  let values ← orErr .attributeError s.glob.values
  let D ← orErr .typeError s.domain
  let q ← s.query G size mc
  let rows ← (List.zip mc q.2).mapM fun c =>
    radiiLocal G s.pNorm (unitCoords normalize D) values c.1 c.2
  pure (q.1, q.2, allreduceMax rows)

/-- /repo/bet/sample.py:1528-1590 `estimate_radii`. -/
def estimateRadii (G : Geometry K) (size : Nat) (s : SampleSet K) (mc : Chunks (List K))
    (normalize : Bool) : Except Err (SampleSet K) := do
  let q ← s.findRadii G size mc normalize
  (q.1.storeRadii normalize q.2.2).globalToLocal size

/-- /repo/bet/sample.py:1592-1656 `estimate_radii_and_volume`; `n` is `n_mc_points`. -/
def estimateRadiiAndVolume (G : Geometry K) (size n : Nat) (s : SampleSet K) (mc : Chunks (List K))
    (normalize : Bool) : Except Err (SampleSet K) := do
  let num ← s.checkNum size
  let q ← s.findRadii G size mc normalize
  let vol := (List.range num).map fun i =>
    allreduceSum (q.2.1.map fun c => (((npEqual c i).count true : Nat) : K))
  let _ ← raiseIf (n = 0) .zeroDivision
  let s := q.1.storeRadii normalize q.2.2
  let s := { s with glob := { s.glob with volumes := some (vol.map (· / (n : K))) } }
  s.globalToLocal size

end SampleSet

end BET
