import Verif.Model.NumPy
import Mathlib.Algebra.Field.Basic
import Mathlib.Order.Lattice

/-!
# Data-consistent inversion (/repo/bet/calculateP/calculateR.py)

Kernel density estimates (`scipy.stats.gaussian_kde`) and random numbers are parameters.
-/

set_option autoImplicit false

namespace BET

/-- `np.max` of a one-dimensional array; raises `ValueError` for an empty one. -/
def npMax {K : Type} [Max K] : List K → Except Err K
  | [] => .error .valueError
  | a :: l => .ok (l.foldl max a)

/-- `np.min` of a one-dimensional array. -/
def npMin {K : Type} [Min K] : List K → Except Err K
  | [] => .error .valueError
  | a :: l => .ok (l.foldl min a)

/-- `np.where(region == i)[0]`. -/
def whereEq (region : List Int) (i : Nat) : List Nat :=
  (List.range region.length).filter fun k => decide (region[k]? = some (i : Int))

/-- The part of a (global) sample set the inversion uses: values, region labels, cluster maps and
initial weights. -/
structure RSet (K : Type) where
  values : List (List K)
  region : Option (List Int) := none
  maps : Option (List (List (List K))) := none
  weightsInit : Option (List K) := none

/-- `gaussian_kde(points.T, weights=w)` as a function of the points and weights, evaluated at one
point. -/
abbrev KdeFit (K : Type) := List (List K) → Option (List K) → List K → K

section
variable {K : Type} [Field K] [LinearOrder K]

/-- `x[idx]` for an array of indices. -/
def takeIdx {α : Type} (idx : List Nat) (x : List α) : Except Err (List α) :=
  idx.mapM fun k => getIdx x k

/-- The weights of the samples of a cluster, if there are initial weights. -/
def clusterWeightsInit (s : RSet K) (ptr : List Nat) : Except Err (Option (List K)) :=
  match s.weightsInit with
  | none => pure none
  | some w => (takeIdx ptr w).map some

/-- The labels of a set: `region`, or all zero when `zero`. -/
def labels (zero : Bool) (s : RSet K) : List Int :=
  if zero then s.values.map fun _ => 0 else s.region.getD []

/-- The density fitted to cluster `i` of the predicted samples
(/repo/bet/calculateP/calculateR.py:49-72). With cluster maps the number of clusters, not of
samples, is compared with 1. -/
def predictKde (F : KdeFit K) (s : RSet K) (reg : List Int) (i : Nat) :
    Except Err (Option (List K → K)) :=
  match s.maps with
  | some m =>
      if 1 < m.length then do
        let x ← getIdx m i
        let w ← clusterWeightsInit s (whereEq reg i)
        pure (some (F x w))
      else pure none
  | none =>
      if 1 < (whereEq reg i).length then do
        let x ← takeIdx (whereEq reg i) s.values
        let w ← clusterWeightsInit s (whereEq reg i)
        pure (some (F x w))
      else pure none

/-- The density fitted to cluster `i` of the observed samples (lines 74-84). -/
def observedKde (F : KdeFit K) (s : RSet K) (reg : List Int) (i : Nat) :
    Except Err (Option (List K → K)) :=
  match s.maps with
  | some m =>
      if 1 < m.length then do
        let x ← getIdx m i
        pure (some (F x none))
      else pure none
  | none =>
      if 1 < (whereEq reg i).length then do
        let x ← takeIdx (whereEq reg i) s.values
        pure (some (F x none))
      else pure none

/-- What `generate_output_kdes` computes and stores. -/
structure Kdes (K : Type) where
  num : Nat
  regP : List Int
  regO : List Int
  predict : List (Option (List K → K))
  observed : List (Option (List K → K))

/-- The number of clusters (lines 43-46). -/
def numClusters (s : RSet K) (reg : List Int) : Except Err Nat :=
  match s.maps with
  | none => (npMax reg).map fun m => (m + 1).toNat
  | some m => pure m.length

/-- /repo/bet/calculateP/calculateR.py:20-84 `generate_output_kdes`. -/
def generateKdes (F : KdeFit K) (ps os : RSet K) : Except Err (Kdes K) := do
  let zero := ps.region.isNone || os.region.isNone
  let regP := labels zero ps
  let regO := labels zero os
  let num ← numClusters ps regP
  let predict ← (List.range num).mapM (predictKde F ps regP)
  let observed ← (List.range num).mapM (observedKde F os regO)
  pure { num, regP, regO, predict, observed }

/-- `x[ptr] = r` for distinct positions; broadcasting of a single value over several positions is
not modelled and raises instead. -/
def scatterAt (x : List K) : List Nat → List K → Except Err (List K)
  | [], [] => pure x
  | k :: ks, v :: vs => if k < x.length then scatterAt (x.set k v) ks vs else .error .indexError
  | _, _ => .error .valueError

/-- The points at which the densities of cluster `i` are compared (lines 108-111). -/
def clusterPoints (s : RSet K) (ptr : List Nat) (i : Nat) : Except Err (List (List K)) :=
  match s.maps with
  | none => takeIdx ptr s.values
  | some m => getIdx m i

/-- `np.divide`, raising where numpy would give `nan` or infinity. -/
def npDivide (a b : List K) : Except Err (List K) := do
  let _ ← raiseIf (b.any fun y => decide (y = 0)) .zeroDivision
  pure (List.zipWith (· / ·) a b)

/-- The ratio for one cluster (lines 112-117): `none` for an empty cluster; calling a missing
density raises `TypeError`. -/
def clusterRatio (k : Kdes K) (ptr : List Nat) (vals : List (List K)) (i : Nat) :
    Except Err (Option (List K)) :=
  if 0 < ptr.length then do
    let o ← getIdx k.observed i
    let o ← orErr .typeError o
    let p ← getIdx k.predict i
    let p ← orErr .typeError p
    let r ← npDivide (vals.map o) (vals.map p)
    pure (some r)
  else pure none

/-- `weights[predict_pointer] = r[i]`; assigning `None` to no positions does nothing. -/
def assignWeights (w : List K) (ptr : List Nat) : Option (List K) → Except Err (List K)
  | none => pure w
  | some r => scatterAt w ptr r

/-- The state of the loop of `invert`. -/
structure Inversion (K : Type) where
  r : List (Option (List K))
  ptr : List (List Nat)
  weights : List K

/-- One round of the loop (lines 106-119). -/
def invertStep (k : Kdes K) (ps : RSet K) (st : Inversion K) (i : Nat) :
    Except Err (Inversion K) := do
  let vals ← clusterPoints ps (whereEq k.regP i) i
  let r ← clusterRatio k (whereEq k.regP i) vals i
  let w ← assignWeights st.weights (whereEq k.regP i) r
  pure ⟨st.r ++ [r], st.ptr ++ [whereEq k.regP i], w⟩

/-- /repo/bet/calculateP/calculateR.py:87-123 `invert`; the mean ratios are not returned. -/
def invert (F : KdeFit K) (ps os : RSet K) : Except Err (Kdes K × Inversion K) := do
  let k ← generateKdes F ps os
  let st ← (List.range k.num).foldlM (invertStep k ps)
    ⟨[], [], List.replicate ps.values.length 0⟩
  pure (k, st)

/-- `len(np.where(region == i)[0]) / num_obs` for every cluster
(/repo/bet/calculateP/calculateR.py:152-153, 252, 309, 381). -/
def clusterWeights (num : Nat) (regO : List Int) (numObs : Nat) : Except Err (List K) :=
  (List.range num).mapM fun i => do
    let _ ← raiseIf (numObs = 0) .zeroDivision
    pure (((whereEq regO i).length : K) / (numObs : K))

/-! ### Rejection sampling -/

/-- The positions of the accepted samples in a cluster (lines 190-193). If the largest ratio is 0, the
normalized ratios are `nan` or minus infinity, so that no comparison holds. -/
def acceptIdx (r us : List K) : Except Err (List Nat) := do
  let m ← npMax r
  let _ ← raiseIf (r.length ≠ us.length) .valueError
  pure ((List.range r.length).filter fun k => decide (m ≠ 0) && decide (us.getD k 0 ≤ r.getD k 0 / m))

/-- The accepted values of cluster `i` (lines 189-194); `None.size` raises. -/
def acceptCluster (x : List (List K)) (st : Inversion K) (us : Nat → List K) (i : Nat) :
    Except Err (List (List K)) := do
  let r ← getIdx st.r i
  let r ← orErr .attributeError r
  let idx ← acceptIdx r (us i)
  let ptr ← getIdx st.ptr i
  let sel ← takeIdx idx ptr
  takeIdx sel x

/-- `[np.min(vals[:, i]), np.max(vals[:, i])]`. -/
def columnRange (vals : List (List K)) (i : Nat) : Except Err (K × K) := do
  let hi ← npMax (vals.map fun row => row.getD i 0)
  let lo ← npMin (vals.map fun row => row.getD i 0)
  pure (lo, hi)

/-- The new sample set: values, probabilities and domain. -/
structure Accepted (K : Type) where
  values : List (List K)
  probabilities : List K
  domain : List (K × K)

/-- /repo/bet/calculateP/calculateR.py:170-209 `invert_rejection_sampling`; `x` are the input
values and `us i` the uniform random numbers drawn for cluster `i`. -/
def invertRejection (F : KdeFit K) (dim : Nat) (x : List (List K)) (ps os : RSet K)
    (us : Nat → List K) : Except Err (Accepted K) := do
  let q ← invert F ps os
  let news ← (List.range q.1.num).mapM (acceptCluster x q.2 us)
  let _ ← raiseIf news.isEmpty .valueError
  let vals := news.flatten
  let probs := vals.map fun _ => (1 : K) / (vals.length : K)
  let domain ← (List.range dim).mapM (columnRange vals)
  pure ⟨vals, probs, domain⟩

/-! ### Weighted mean and covariance -/

/-- The weighted mean of every column
(/repo/bet/calculateP/calculateR.py:225-230, 283-288). -/
def weightedMean (dim : Nat) (x : List (List K)) (w : List K) : List K :=
  (List.range dim).map fun i =>
    (List.zipWith (· * ·) (x.map fun row => row.getD i 0) w).sum / w.sum

/-- `np.outer(v, v)`. -/
def outer (v : List K) : List (List K) := v.map fun a => v.map fun b => a * b

/-- Sum of two matrices. -/
def matAdd (a b : List (List K)) : List (List K) := List.zipWith (List.zipWith (· + ·)) a b

/-- `weights[i] * np.outer(val, val)`. -/
def matScale (c : K) (a : List (List K)) : List (List K) := a.map fun row => row.map fun y => c * y

/-- The weighted covariance (lines 232-236). -/
def weightedCov (dim : Nat) (x : List (List K)) (w mean : List K) : List (List K) :=
  let zero := List.replicate dim (List.replicate dim (0 : K))
  let s := (List.zip x w).foldl (fun c xw =>
    matAdd c (matScale xw.2 (outer (List.zipWith (· - ·) xw.1 mean)))) zero
  s.map fun row => row.map fun y => y / w.sum

/-- /repo/bet/calculateP/calculateR.py:225-237 and 283-295 `weighted_mean_and_cov`; where the sum of the
weights is 0 numpy gives `nan`, here it raises. -/
def weightedMeanCov (dim : Nat) (x : List (List K)) (w : List K) :
    Except Err (List K × List (List K)) := do
  let _ ← raiseIf (w.sum = 0) .zeroDivision
  pure (weightedMean dim x w, weightedCov dim x w (weightedMean dim x w))

/-- Mean and covariance of one cluster (lines 251-258). -/
def gmmCluster (dim : Nat) (x : List (List K)) (st : Inversion K) (i : Nat) :
    Except Err (Option (List K × List (List K))) := do
  let r ← getIdx st.r i
  let ptr ← getIdx st.ptr i
  let sel ← takeIdx ptr x
  match r with
  | some r => (weightedMeanCov dim sel r).map some
  | none => pure none

/-- /repo/bet/calculateP/calculateR.py:212-267 `invert_to_gmm`: mean and covariance of every
cluster, and the cluster weights. -/
def invertGmm (F : KdeFit K) (dim : Nat) (x : List (List K)) (ps os : RSet K) :
    Except Err (List (Option (List K × List (List K))) × List K) := do
  let q ← invert F ps os
  let cw ← clusterWeights q.1.num q.1.regO os.values.length
  let mc ← (List.range q.1.num).mapM (gmmCluster dim x q.2)
  pure (mc, cw)

/-- One round of lines 308-310 and 380-382: `total_weights[lam_ptr[i]] = r[i] * weight`;
`None * weight` raises. -/
def totalStep (cw : List K) (st : Inversion K) (tot : List K) (i : Nat) : Except Err (List K) := do
  let r ← getIdx st.r i
  let r ← orErr .typeError r
  let ptr ← getIdx st.ptr i
  let c ← getIdx cw i
  scatterAt tot ptr (r.map fun y => y * c)

/-- The weights of all samples: ratio times cluster weight (lines 303-310, 375-382). -/
def totalWeights (F : KdeFit K) (n : Nat) (ps os : RSet K) : Except Err (List K) := do
  let q ← invert F ps os
  let cw ← clusterWeights q.1.num q.1.regO os.values.length
  (List.range q.1.num).foldlM (totalStep cw q.2) (List.replicate n 0)

/-- /repo/bet/calculateP/calculateR.py:270-321 `invert_to_multivariate_gaussian`. -/
def invertGaussian (F : KdeFit K) (dim : Nat) (x : List (List K)) (ps os : RSet K) :
    Except Err (List K × List (List K)) := do
  let tot ← totalWeights F x.length ps os
  weightedMeanCov dim x tot

/-- `np.repeat(params, counts, axis=0)`; a negative count raises `ValueError`. -/
def npRepeat (x : List (List K)) (counts : List Int) : Except Err (List (List K)) := do
  let _ ← raiseIf (counts.any fun c => decide (c < 0)) .valueError
  pure (List.zipWith (fun (row : List K) (c : Int) => List.replicate c.toNat row) x counts).flatten

/-- /repo/bet/calculateP/calculateR.py:383-384: the samples repeated according to their weights;
`rnd` is `np.round`. -/
def reweighted (rnd : K → Int) (m : Nat) (x : List (List K)) (tot : List K) :
    Except Err (List (List K)) := do
  let _ ← raiseIf (tot.sum = 0) .zeroDivision
  npRepeat x (tot.map fun t => rnd ((m : K) * t / tot.sum))

end

end BET
