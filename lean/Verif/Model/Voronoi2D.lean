import Verif.Model.Voronoi1D
import Mathlib.Algebra.Order.Group.Abs

/-!
# Exact volumes of Voronoi cells in the plane (/repo/bet/sample.py:1446-1522)
-/

set_option autoImplicit false

namespace BET

variable {K : Type} [Field K] [LinearOrder K]

/-- `scipy.spatial.Voronoi` and `Delaunay`: for point number `i` of the list, `none` if its region has the
vertex `-1`, and otherwise the triangles (of three points each) that `Delaunay` makes of the vertices of
the region. -/
structure Tessellation (K : Type) where
  triangles : List (List K) → Nat → Option (List (List (List K)))

/-- `a[mask, :]` and the assignment to column `d` (/repo/bet/sample.py:1465-1501). -/
def reflected (vals : List (List K)) (d : Nat) (mask : K → Bool) (f : K → K) : List (List K) :=
  (vals.filter fun r => mask (r.getD d 0)).map fun r => r.set d (f (r.getD d 0))

/-- The samples and their reflections across the four sides (/repo/bet/sample.py:1461-1502). -/
def withReflections (ratio : K) (d₀ d₁ : K × K) (vals : List (List K)) : List (List K) :=
  vals ++
  reflected vals 0 (fun x => decide (x < d₀.1 + ratio * (d₀.2 - d₀.1))) (fun x => d₀.1 - (x - d₀.1)) ++
  reflected vals 0 (fun x => decide (x > d₀.2 - ratio * (d₀.2 - d₀.1))) (fun x => d₀.2 + (-x + d₀.2)) ++
  reflected vals 1 (fun x => decide (x < d₁.1 + ratio * (d₁.2 - d₁.1))) (fun x => d₁.1 - (x - d₁.1)) ++
  reflected vals 1 (fun x => decide (x > d₁.2 - ratio * (d₁.2 - d₁.1))) (fun x => d₁.2 + (-x + d₁.2))

/-- `abs(1.0 / math.factorial(2) * linalg.det(mat))` with
`mat = (simplex[1:, :] - simplex[0, :]).transpose()` (/repo/bet/sample.py:1516-1520). -/
def triangleTerm (t : List (List K)) : K :=
  let c (i j : Nat) : K := (t.getD i []).getD j 0
  |1 / 2 * ((c 1 0 - c 0 0) * (c 2 1 - c 0 1) - (c 2 0 - c 0 0) * (c 1 1 - c 0 1))|

/-- The body of the loop over the cells (/repo/bet/sample.py:1508-1521): cells with the vertex `-1` keep
the volume zero. -/
def cellArea (V : Tessellation K) (pts : List (List K)) (i : Nat) : K :=
  match V.triangles pts i with
  | none => 0
  | some ts => (ts.map triangleTerm).foldl (· + ·) 0

/-- `np.arange(rank, num, size)` (/repo/bet/sample.py:1505). -/
def strided (size num rank : Nat) : List Nat :=
  (List.range ((num - rank + (size - 1)) / size)).map fun k => rank + size * k

namespace SampleSet

/-- /repo/bet/sample.py:1446-1526 `exact_volume_2D` on `size` processes. -/
def exactVolume2D (V : Tessellation K) (size : Nat) (ratio : K) (s : SampleSet K) :
    Except Err (SampleSet K) := do
  let num ← s.checkNum size
  let _ ← raiseIf (s.dim ≠ 2) .dimNotMatching
  let values ← orErr .typeError s.glob.values
  let domain ← orErr .typeError s.domain
  let d₀ ← getIdx domain 0
  let d₁ ← getIdx domain 1
  let pts := withReflections ratio d₀ d₁ values
  let lamSize := (domain.map fun d => d.2 - d.1).prod
  let index := (List.range size).map fun r => strided size num r
  let vols := index.map fun is => is.map fun i => cellArea V pts i / lamSize
  globalToLocal size
    { s with glob := { s.glob with volumes := some (scatter num index.flatten vols.flatten) } }

end SampleSet

end BET
