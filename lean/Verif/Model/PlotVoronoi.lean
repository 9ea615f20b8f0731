import Verif.Model.PlotP
import Verif.Model.CalculateR
import Verif.Model.Voronoi1D

/-!
# Plots of Voronoi cells (/repo/bet/postProcess/plotVoronoi.py)

A plot is modelled by the arguments of the drawing calls. Rank 0 draws, which is the rank modelled here;
the others do nothing after the checks.
-/

set_option autoImplicit false

namespace BET

variable {K : Type} [Field K] [LinearOrder K]

/-- /repo/bet/postProcess/plotVoronoi.py:65-72 (and 156-163): which set is drawn. -/
def PostObj.voronoiSet : PostObj K → Except Err (SampleSet K)
  | .disc d => orErr .missingAttribute d.input
  | .set s => .ok s
  | .other => .error .badObject

/-- /repo/bet/postProcess/plotVoronoi.py:78-82 (and 169-173): probabilities of all processes. -/
def SampleSet.plotProbs (s : SampleSet K) : Except Err (SampleSet K) :=
  if s.glob.probabilities.isSome then .ok s
  else if s.loc.probabilities.isNone then .error .missingAttribute
  else .ok s.localToGlobal

/-- What `plot_1D_voronoi` draws: the arguments of `plt.hlines`, the reference point, the label and the
name of the file. -/
structure Plot1D (K : Type) where
  heights : List K
  mins : List K
  maxes : List K
  ref : Option K
  label : String
  file : String

/-- /repo/bet/postProcess/plotVoronoi.py:88-91: midpoints of neighbours. -/
def midEnds (sorted : List K) : List K :=
  List.zipWith (fun x y => 1 / 2 * (x + y)) sorted.tail sorted.dropLast

/-- /repo/bet/postProcess/plotVoronoi.py:98-103. `ind_sort` has one column, so `ind_sort[0]` is an array
with the index of the smallest sample only, and `_probabilities[ind_sort[0]]` has one entry, which is
broadcast in the division. A cell of length zero gives `inf` or `nan`; here that raises. -/
def lineHeights (density : Bool) (probs : List K) (ind : List Nat) (mins maxes : List K) :
    Except Err (List K) := do
  let i ← getIdx ind 0
  let p ← getIdx probs i
  if density then do
    raiseIf (0 ∈ List.zipWith (fun x y => y - x) mins maxes) .zeroDivision
    pure (List.zipWith (fun x y => p / (y - x)) mins maxes)
  else pure [p]

/-- /repo/bet/postProcess/plotVoronoi.py:84-85 (and 177-178): the reference point. -/
def refPoint (lamRef ref : Option (List K)) : Option (List K) := lamRef.or ref

/-- `None` or coordinate `i` of the reference point. -/
def refCoord (r : Option (List K)) (i : Nat) : Except Err (Option K) :=
  match r with
  | none => .ok none
  | some x => do
    let v ← getIdx x i
    pure (some v)

/-- /repo/bet/postProcess/plotVoronoi.py:109-112. -/
def label1D (labels : Option (List String)) : Except Err String :=
  match labels with
  | none => .ok "$\\lambda$"
  | some l => getIdx l 0

/-- /repo/bet/postProcess/plotVoronoi.py:34-117 `plot_1D_voronoi`; returns the set after the call and the
drawing. -/
def plot1DVoronoi (argsort : List K → List Nat) (o : PostObj K) (density : Bool)
    (lamRef : Option (List K)) (labels : Option (List String)) (filename ext : String) :
    Except Err (SampleSet K × Plot1D K) := do
  let s ← o.voronoiSet
  raiseIf (s.dim ≠ 1) .dimNotMatching
  let s ← s.plotProbs
  let ref := refPoint lamRef s.referenceValue
  let values ← orErr .valueError s.glob.values
  let domain ← orErr .typeError s.domain
  let ab ← getIdx domain 0
  let column := values.map fun row => row.getD 0 0
  let ind := argsort column
  let ends := midEnds (ind.map fun i => column.getD i 0)
  let mins := ab.1 :: ends
  let maxes := ends ++ [ab.2]
  let probs ← orErr .typeError s.glob.probabilities
  let h ← lineHeights density probs ind mins maxes
  let r ← refCoord ref 0
  let label ← label1D labels
  pure (s, ⟨h, mins, maxes, r, label, filename ++ ext⟩)

/-! ## Two dimensions -/

/-- The attributes of `scipy.spatial.Voronoi` that are used; a vertex number -1 means that a region or a
ridge is unbounded. -/
structure Diagram (K : Type) where
  points : List (K × K)
  vertices : List (K × K)
  ridgePoints : List (Nat × Nat)
  ridgeVertices : List (Int × Int)
  pointRegion : List Nat
  regions : List (List Int)

/-- The mean of points, /repo/bet/postProcess/plotVoronoi.py:258 and 303. -/
def meanPoint (l : List (K × K)) : K × K :=
  ((l.map Prod.fst).sum / l.length, (l.map Prod.snd).sum / l.length)

/-- /repo/bet/postProcess/plotVoronoi.py:259-260: `vor.points.ptp().max()` is the range of all
coordinates. -/
def pointRange (l : List (K × K)) : Except Err K := do
  let all := l.map Prod.fst ++ l.map Prod.snd
  let hi ← npMax all
  let lo ← npMin all
  pure (hi - lo)

/-- /repo/bet/postProcess/plotVoronoi.py:262-266: the entries of `all_ridges[p]` in the order in which they
were appended. -/
def ridgesOf (v : Diagram K) (p : Nat) : List (Nat × Int × Int) :=
  (v.ridgePoints.zip v.ridgeVertices).flatMap fun r =>
    (if r.1.1 = p then [(r.1.2, r.2.1, r.2.2)] else []) ++
      (if r.1.2 = p then [(r.1.1, r.2.1, r.2.2)] else [])

/-- `np.sign`. -/
def npSign (x : K) : K := if x < 0 then -1 else if 0 < x then 1 else 0

/-- /repo/bet/postProcess/plotVoronoi.py:290-296: the end of an unbounded ridge between `a` and `b` that
starts in `w`. -/
def farPoint (sqrt : K → K) (center : K × K) (radius : K) (a b w : K × K) : Except Err (K × K) := do
  let t := (b.1 - a.1, b.2 - a.2)
  let len := sqrt (t.1 * t.1 + t.2 * t.2)
  raiseIf (len = 0) .zeroDivision
  let n := (-(t.2 / len), t.1 / len)
  let mid := ((a.1 + b.1) / 2, (a.2 + b.2) / 2)
  let d := npSign ((mid.1 - center.1) * n.1 + (mid.2 - center.2) * n.2)
  pure (w.1 + d * n.1 * radius, w.2 + d * n.2 * radius)

/-- /repo/bet/postProcess/plotVoronoi.py:281-299: one ridge of the loop; the state is the new region and
the vertices. If both vertices are missing `vor.vertices[-1]` would be the last vertex; this does not occur
in two dimensions and raises here. -/
def addRidge (sqrt : K → K) (v : Diagram K) (center : K × K) (radius : K) (p1 : Nat)
    (st : List Nat × List (K × K)) (r : Nat × Int × Int) : Except Err (List Nat × List (K × K)) :=
  let w := if r.2.2 < 0 then (r.2.2, r.2.1) else (r.2.1, r.2.2)
  if 0 ≤ w.1 then .ok st
  else do
    raiseIf (w.2 < 0) .indexError
    let a ← getIdx v.points p1
    let b ← getIdx v.points r.1
    let x ← getIdx v.vertices w.2.toNat
    let f ← farPoint sqrt center radius a b x
    pure (st.1 ++ [st.2.length], st.2 ++ [f])

/-- /repo/bet/postProcess/plotVoronoi.py:302-305: sorting by the angle around the mean. -/
def sortRegion (arctan2 : K → K → K) (argsort : List K → List Nat) (region : List Nat)
    (vertices : List (K × K)) : Except Err (List Nat) := do
  let vs ← region.mapM fun i => getIdx vertices i
  let c := meanPoint vs
  let angles := vs.map fun q => arctan2 (q.2 - c.2) (q.1 - c.1)
  (argsort angles).mapM fun i => getIdx region i

/-- /repo/bet/postProcess/plotVoronoi.py:269-308: one step of the loop over the points; the state is the
list of new regions and the vertices. -/
def finiteRegion (sqrt : K → K) (arctan2 : K → K → K) (argsort : List K → List Nat) (v : Diagram K)
    (center : K × K) (radius : K) (st : List (List Nat) × List (K × K)) (pr : Nat × Nat) :
    Except Err (List (List Nat) × List (K × K)) := do
  let vertices ← getIdx v.regions pr.2
  if vertices.all (fun i => decide (0 ≤ i)) then
    pure (st.1 ++ [vertices.map Int.toNat], st.2)
  else do
    raiseIf ((ridgesOf v pr.1).isEmpty) .keyError
    let q ← (ridgesOf v pr.1).foldlM (addRidge sqrt v center radius pr.1)
      ((vertices.filter fun i => decide (0 ≤ i)).map Int.toNat, st.2)
    let sorted ← sortRegion arctan2 argsort q.1 q.2
    pure (st.1 ++ [sorted], q.2)

/-- /repo/bet/postProcess/plotVoronoi.py:232-310 `voronoi_finite_polygons_2d`; points have two coordinates
by their type. -/
def finitePolygons (sqrt : K → K) (arctan2 : K → K → K) (argsort : List K → List Nat) (v : Diagram K)
    (radius : Option K) : Except Err (List (List Nat) × List (K × K)) := do
  let rng ← pointRange v.points
  let rad := radius.getD rng
  ((List.range v.pointRegion.length).zip v.pointRegion).foldlM
    (finiteRegion sqrt arctan2 argsort v (meanPoint v.points) rad) ([], v.vertices)

/-- What `plot_2D_voronoi` draws: a polygon and the argument of the colour map for each cell, the limits
of the axes, the reference point, labels, the largest value and the file. -/
structure Plot2D (K : Type) where
  cells : List (List (K × K) × K)
  axis : (K × K) × (K × K)
  ref : Option (K × K)
  labels : String × String
  vmax : K
  file : String

/-- /repo/bet/postProcess/plotVoronoi.py:189-192: the values drawn. Division by a volume zero gives `inf` or
`nan`; here that raises. -/
def cellValues (density : Bool) (s : SampleSet K) : Except Err (List K) := do
  let p ← orErr .typeError s.glob.probabilities
  if density then do
    let vol ← orErr .typeError s.glob.volumes
    raiseIf (p.length ≠ vol.length) .valueError
    raiseIf (0 ∈ vol) .zeroDivision
    pure (List.zipWith (· / ·) p vol)
  else pure p

/-- /repo/bet/postProcess/plotVoronoi.py:203-204. -/
def refPair (r : Option (List K)) : Except Err (Option (K × K)) :=
  match r with
  | none => .ok none
  | some x => do
    let a ← getIdx x 0
    let b ← getIdx x 1
    pure (some (a, b))

/-- /repo/bet/postProcess/plotVoronoi.py:206-213: with labels only `label1` is assigned, so that `label2`
is not bound in line 213. -/
def labels2D (labels : Option (List String)) : Except Err (String × String) :=
  match labels with
  | none => .ok ("$\\lambda_1$", "$\\lambda_2$")
  | some l => do
    let _ ← getIdx l 0
    let _ ← getIdx l 1
    .error .unboundLocal

/-- A row of the values as a point; the diagram needs two columns. -/
def rowPair (row : List K) : K × K := (row.getD 0 0, row.getD 1 0)

/-- /repo/bet/postProcess/plotVoronoi.py:196-199: one cell. -/
def drawCell (P : List K) (pmax : K) (vertices : List (K × K)) (ir : Nat × List Nat) :
    Except Err (List (K × K) × K) := do
  let poly ← ir.2.mapM fun i => getIdx vertices i
  let p ← getIdx P ir.1
  pure (poly, p / pmax)

/-- /repo/bet/postProcess/plotVoronoi.py:120-229 `plot_2D_voronoi`. `vor` is `scipy.spatial.Voronoi`. If
the largest value is zero the colours are `nan`; here that raises. -/
def plot2DVoronoi (vor : List (K × K) → Except Err (Diagram K)) (sqrt : K → K) (arctan2 : K → K → K)
    (argsort : List K → List Nat) (o : PostObj K) (density : Bool) (lamRef : Option (List K))
    (labels : Option (List String)) (filename ext : String) : Except Err (SampleSet K × Plot2D K) := do
  let s ← o.voronoiSet
  raiseIf (s.dim ≠ 2) .dimNotMatching
  let s ← s.plotProbs
  let s := if s.glob.values.isNone then s.localToGlobal else s
  let ref := refPoint lamRef s.referenceValue
  let values ← orErr .valueError s.glob.values
  let v ← vor (values.map rowPair)
  let q ← finitePolygons sqrt arctan2 argsort v none
  let P ← cellValues density s
  let pmax ← npMax P
  raiseIf (pmax = 0) .zeroDivision
  let cells ← ((List.range q.1.length).zip q.1).mapM (drawCell P pmax q.2)
  let domain ← orErr .typeError s.domain
  let d0 ← getIdx domain 0
  let d1 ← getIdx domain 1
  let r ← refPair ref
  let l ← labels2D labels
  pure (s, ⟨cells, (d0, d1), r, l, pmax, filename ++ ext⟩)

end BET
