import Verif.Model.SampleSet

/-!
# `query` of Voronoi, rectangle and ball sets (/repo/bet/sample.py)
-/

set_option autoImplicit false

namespace BET

/-- External numerical routines.  `nn p pts x` is the index that
`scipy.spatial.KDTree(pts).query(x, p=p, k=1)` returns; `dist p x y` is
`linalg.norm(x - y, p)`.  What is assumed of them is in `Spec.Geometry`. -/
structure Geometry (K : Type) where
  nn : Nat → List (List K) → List K → Nat
  dist : Nat → List K → List K → K

/-- One step of the inner loops of the rectangle and ball `query`
(/repo/bet/sample.py:1987-1996 and 2158-2167) for one row of `x`.  A row of the
result is the list of its `k` entries `(pt, dist is 0)`; `dist` is 0 or
infinity, so one bit is enough.  All numpy operations in the loop act on each
row of `x` separately. -/
def regionStep (num : Nat) (inRec : Nat → Bool) (i : Nat) (row : List (Nat × Bool)) (j : Nat) :
    List (Nat × Bool) :=
  let free := (row.getD j (0, false)).1 == num - 1
  let now :=
    if j = 0 then free && inRec i
    else (free && inRec i) && ((row.getD (j - 1) (0, false)).1 != i)
  if now then row.set j (i, true) else row

/-- The loops of /repo/bet/sample.py:1981-1996 and 2153-2167 for one row of `x`:
`inRec i` says whether the row lies in region `i`.  `num ≥ 1` in every set that
`setup` made. -/
def regionQueryRow (num k : Nat) (inRec : Nat → Bool) : List (Nat × Bool) :=
  (List.range (num - 1)).foldl
    (fun row i => (List.range k).foldl (regionStep num inRec i) row)
    (List.replicate k (num - 1, false))

/-- `np.all(x <= right[i]) and np.all(x > left[i])` (/repo/bet/sample.py:1984-1986)
for rows of equal length. -/
def inRect {K : Type} [LinearOrder K] (left right x : List K) : Bool :=
  (List.zipWith (fun a b => decide (a ≤ b)) x right).all id &&
  (List.zipWith (fun a b => decide (a > b)) x left).all id

namespace SampleSet

variable {K : Type} [LinearOrder K]

/-- /repo/bet/sample.py:1962-2001 and 2135-2172 for one row of `x`. -/
def regionQuery (G : Geometry K) (size : Nat) (s : SampleSet K) (k : Nat) (x : List K) :
    Except Err (List (Nat × Bool)) := do
  let num ← s.checkNum size
  match s.kind with
  | .ball => do
      if num ≤ 1 then pure (regionQueryRow num k fun _ => false)
      else do
        let values ← orErr .typeError s.glob.values
        let radii ← orErr .typeError s.glob.radii
        pure (regionQueryRow num k fun i =>
          match values[i]?, radii[i]? with
          | some c, some r => decide (G.dist s.pNorm x c < r)
          | _, _ => false)
  | _ => do
      if num ≤ 1 then pure (regionQueryRow num k fun _ => false)
      else do
        let right ← orErr .typeError s.glob.right
        let left ← orErr .typeError s.glob.left
        pure (regionQueryRow num k fun i =>
          match right[i]?, left[i]? with
          | some r, some l => inRect l r x
          | _, _ => false)

/-- /repo/bet/sample.py:1406-1409: the tree is built on first use; otherwise only the
numbers are checked. -/
def ensureTree (size : Nat) (s : SampleSet K) : Except Err (SampleSet K) :=
  match s.kdtree with
  | none => s.setKdtree
  | some _ => do
      let _ ← s.checkNum size
      pure s

/-- `(_, ptr) = s.query(x)` with `k=1`, for all rows of the local arrays `x` of all
processes.  Voronoi: /repo/bet/sample.py:1395-1412, where the tree is built on
first use and kept; the others as in `regionQuery`, column 0.  Returns the set
(its tree may have been built) and the pointers. -/
def query (G : Geometry K) (size : Nat) (s : SampleSet K) (xs : Chunks (List K)) :
    Except Err (SampleSet K × Chunks Nat) :=
  match s.kind with
  | .voronoi => do
      let s ← s.ensureTree size
      let pts ← orErr .valueError s.kdtree
      pure (s, xs.map fun c => c.map (G.nn s.pNorm pts))
  | _ => do
      let _ ← s.checkNum size
      let ptr ← xs.mapM fun c => c.mapM fun x => do
        let row ← s.regionQuery G size 1 x
        pure (row.getD 0 (0, false)).1
      pure (s, ptr)

/-- /repo/bet/sample.py:1278-1310 `estimate_volume_emulated`; returns both sets
because both may be changed.  Division by the number of emulated points: with
none numpy gives `nan`, the model raises `zeroDivision` instead. -/
def estimateVolumeEmulated [Field K] (G : Geometry K) (size : Nat) (s em : SampleSet K) :
    Except Err (SampleSet K × SampleSet K) := do
  let num ← s.checkNum size
  let em ← em.localized size
  let x ← orErr .typeError em.loc.values
  let (s, ptr) ← s.query G size x
  let vol := (List.range num).map fun i =>
    allreduceSum (ptr.map fun c => (((npEqual c i).count true : Nat) : K))
  let numEmulate := allreduceSum (x.map List.length)
  let _ ← raiseIf (numEmulate = 0) .zeroDivision
  let s := { s with glob := { s.glob with volumes := some (vol.map (· / (numEmulate : K))) } }
  let s ← s.globalToLocal size
  pure (s, em)

/-- /repo/bet/sample.py:1253-1276 `estimate_volume`: `mc` are the random points of
all processes (an input of the model; process `r` draws
`int(n / size) + int(r < n % size)` of them). -/
def estimateVolume [Field K] (G : Geometry K) (size n : Nat) (s : SampleSet K)
    (mc : Chunks (List K)) : Except Err (SampleSet K) := do
  let num ← s.checkNum size
  let _ ← orErr .typeError s.domain
  let (s, ptr) ← s.query G size mc
  let vol := (List.range num).map fun i =>
    allreduceSum (ptr.map fun c => (((npEqual c i).count true : Nat) : K))
  let _ ← raiseIf (n = 0) .zeroDivision
  let s := { s with glob := { s.glob with volumes := some (vol.map (· / (n : K))) } }
  s.globalToLocal size

end SampleSet

/-- The number of points rank `r` draws (/repo/bet/sample.py:1262-1263 and
/repo/bet/sampling/basicSampling.py:140-141): `int(n / size)` truncates the
quotient. -/
def numLocal (n size r : Nat) : Nat := n / size + if r < n % size then 1 else 0

end BET
