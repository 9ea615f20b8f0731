import Verif.Model.Query

/-!
# Exact volumes of one-dimensional Voronoi cells (/repo/bet/sample.py:1414-1444)
-/

set_option autoImplicit false

namespace BET

variable {K : Type} [Field K]

/-- `np.zeros(n)` followed by `a[ind] = vals` (/repo/bet/sample.py:1440-1441): the
assignments are made from left to right. -/
def scatter (n : Nat) (ind : List Nat) (vals : List K) : List K :=
  (List.zip ind vals).foldl (fun acc iv => acc.set iv.1 iv.2) (List.replicate n 0)

/-- /repo/bet/sample.py:1431-1438: the edges of the cells of the sorted samples and
the differences of consecutive edges. -/
def cellLengths (a b : K) (sorted : List K) : List K :=
  let edges := a :: List.zipWith (fun x y => (x + y) * (1 / 2)) sorted.dropLast sorted.tail ++ [b]
  List.zipWith (fun x y => y - x) edges.dropLast edges.tail

namespace SampleSet

/-- /repo/bet/sample.py:1414-1444 `exact_volume_1D`.  `argsort` is `np.argsort` on the
only column (`check_num` has checked that there is only one).  For fewer than two samples
`np.squeeze` makes a 0-d array of the indices (or of the volumes) and the next indexing
raises `IndexError`. -/
def exactVolume1D (argsort : List K → List Nat) (size : Nat) (s : SampleSet K) :
    Except Err (SampleSet K) := do
  let _ ← s.checkNum size
  let _ ← raiseIf (s.dim ≠ 1) .dimNotMatching
  let values ← orErr .valueError s.glob.values
  let domain ← orErr .typeError s.domain
  let _ ← raiseIf (values.length < 2) .indexError
  let column := values.map fun row => row.getD 0 0
  let ab := domain.getD 0 (0, 0)
  let sortInd := argsort column
  let sorted := sortInd.map fun i => column.getD i 0
  let lamVol := scatter values.length sortInd (cellLengths ab.1 ab.2 sorted)
  globalToLocal size
    { s with glob := { s.glob with volumes := some (lamVol.map (· / (ab.2 - ab.1))) } }

end SampleSet

end BET
