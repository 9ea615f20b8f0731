import Verif.Model.Gradients
import Mathlib.Analysis.SpecialFunctions.ExpDeriv
import Mathlib.Analysis.SpecialFunctions.Pow.Real

/-!
# Gradients of radial basis function interpolants (/repo/bet/sensitivity/gradients.py)
-/

set_option autoImplicit false

namespace BET

/-- The kernels of /repo/bet/sensitivity/gradients.py:232-241 and 266-276; another name raises
`ValueError`. -/
inductive RbfKernel
  | c4matern
  | gaussian
  | multiquadric
  | inverseMultiquadric

/-- /repo/bet/sensitivity/gradients.py:213-243 `radial_basis_function` for one distance, in exact real
arithmetic. -/
noncomputable def radialBasis (k : RbfKernel) (ep r : ℝ) : ℝ :=
  match k with
  | .c4matern => (1 + ep * r + (ep * r) ^ 2 / 3) * Real.exp (-ep * r)
  | .gaussian => Real.exp (-(ep * r) ^ 2)
  | .multiquadric => (1 + (ep * r) ^ 2) ^ (0.5 : ℝ)
  | .inverseMultiquadric => 1 / (1 + (ep * r) ^ 2) ^ (0.5 : ℝ)

/-- /repo/bet/sensitivity/gradients.py:246-278 `radial_basis_function_dxi`. -/
noncomputable def radialBasisDxi (k : RbfKernel) (ep r xi : ℝ) : ℝ :=
  match k with
  | .c4matern => -(ep ^ 2 * xi * Real.exp (-ep * r) * (ep * r + 1)) / 3
  | .gaussian => -2 * ep ^ 2 * xi * Real.exp (-(ep * r) ^ 2)
  | .multiquadric => (ep ^ 2 * xi) / (1 + (ep * r) ^ 2) ^ (0.5 : ℝ)
  | .inverseMultiquadric => -(ep ^ 2 * xi) / (1 + (ep * r) ^ 2) ^ (1.5 : ℝ)

/-- What `calculate_gradients_rbf` uses: `near pts x k` are the indices and distances that the query of
the kd-tree of `pts` returns for `x` and `k` neighbours, `dist` is the distance of
`scipy.spatial.distance_matrix`, `kernel ep r` and `kernelDxi ep r xi` are the chosen radial basis
function and its derivative, `solve` is `numpy.linalg.solve`. -/
structure RbfTools (K : Type) where
  near : List (List K) → List K → Nat → List (Nat × K)
  dist : List K → List K → K
  kernel : K → K → K
  kernelDxi : K → K → K → K
  solve : List (List K) → List (List K) → Except Err (List (List K))

section
variable {K : Type} [Field K]

/-- The matrix of the interpolation conditions (/repo/bet/sensitivity/gradients.py:347-348 and 353).
The shape parameter is not passed on, so it is 1. -/
def rbfMatrix (T : RbfTools K) (pts : List (List K)) : List (List K) :=
  pts.map fun x => pts.map fun y => T.kernel 1 (T.dist x y)

/-- The partial derivatives of the radial basis functions at the centre (lines 341-344 and
354-355). -/
def rbfRhs (T : RbfTools K) (ep : K) (dim : Nat) (c : List K) (q : List (Nat × K))
    (pts : List (List K)) : List (List K) :=
  List.zipWith (fun e x => (List.range dim).map fun i =>
    T.kernelDxi ep e.2 (c.getD i 0 - x.getD i 0)) q pts

/-- The loop body for one centre (lines 338-358): row `n` of the result holds the weights of sample
`n`. -/
def rbfRow (T : RbfTools K) (ep : K) (dim num k : Nat) (samples : List (List K)) (c : List K) :
    Except Err (List (List K)) := do
  let q := T.near samples c k
  let pts ← q.mapM fun e => getIdx samples e.1
  let w ← T.solve (rbfMatrix T pts) (rbfRhs T ep dim c q pts)
  pure ((List.zip (q.map fun e => e.1) w).foldl (fun t e => t.set e.1 e.2)
    (List.replicate num (List.replicate dim 0)))

/-- Lines 360-361: the weights applied to the data. -/
def rbfGradient (dimO dimI : Nat) (t data : List (List K)) : List (List K) :=
  (List.range dimO).map fun o => (List.range dimI).map fun i =>
    (List.zipWith (fun w y => w.getD i 0 * y.getD o 0) t data).sum

variable [LinearOrder K]

/-- /repo/bet/sensitivity/gradients.py:281-388 `calculate_gradients_rbf`, for a discretization whose
input set has an up-to-date kd-tree or none. -/
def gradientsRbf (T : RbfTools K) (size : Nat) (d : Disc K) (numCenters numNeighbors : Option Nat)
    (ep : Option K) (normalize : Bool) : Except Err (Disc K) := do
  let inp ← orErr .attributeError d.input
  let out ← orErr .attributeError d.output
  let samples ← orErr .valueError inp.glob.values
  let data ← orErr .valueError out.glob.values
  let n ← d.checkNums size
  let nc := numCenters.getD (n / (inp.dim + 2))
  let cs ← (List.range nc).mapM (getIdx samples)
  let ts ← cs.mapM (rbfRow T (ep.getD 1) inp.dim n (numNeighbors.getD (inp.dim + 2)) samples)
  centerDisc size inp out (samples.take nc) (data.take nc)
    (normalizeIf normalize (ts.map fun t => rbfGradient out.dim inp.dim t data))

end

end BET
