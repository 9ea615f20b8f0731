import Verif.Model.Sampling

/-!
# Sampling from an updated measure (/repo/bet/sampling/basicSampling.py:33-89)
-/

set_option autoImplicit false

namespace BET

variable {K : Type} [Field K]

/-- What `_prob_type` and `_prob_parameters` may be (/repo/bet/sample.py:530-555): distributions for each
dimension, kernel density estimates for each dimension and cluster with the cluster weights, Gaussians for
each cluster with the weights, or something else. The estimates and Gaussians themselves are only used
through `Resampler`. -/
inductive Updated (K : Type)
  | rv (specs : List (RvSpec K))
  | kde (weights : List K)
  | gmm (weights : List K)
  | other

/-- The random numbers: `kde r i j n` are the `n` numbers that process `r` gets from
`param_marginals[i][j].resample(n)`, `gmm r j n` the `n` points (rows) that it gets from
`multivariate_normal.rvs(mean=means[j], cov=covariances[j], size=n)`. -/
structure Resampler (K : Type) where
  kde : Nat → Nat → Nat → Nat → List K
  gmm : Nat → Nat → Nat → List (List K)

/-- `util.fix_dimensions_data(values, dim)` and the check of `set_values_local`
(/repo/bet/util.py:205-209, /repo/bet/sample.py:1085-1088) for an array with the given rows of `cols`
entries: an array without `dim` columns is transposed. -/
def fixRows (dim cols : Nat) (rows : List (List K)) : Except Err (List (List K)) :=
  if cols = dim then .ok rows
  else if rows.length = dim then .ok (stackColumns cols rows)
  else .error .dimNotMatching

/-- The numbers of coordinate `i` that process `r` draws, cluster after cluster
(row `i` of `np.hstack(v_outer)`). -/
def kdeRow (rs : Resampler K) (r i : Nat) (counts : List Nat) : List K :=
  (counts.zipIdx.map fun c => rs.kde r i c.2 c.1).flatten

/-- /repo/bet/sampling/basicSampling.py:57-68 on process `r`; `np.hstack([])` raises `ValueError`. -/
def kdeLocal (rs : Resampler K) (dim r : Nat) (counts : List Nat) : Except Err (List (List K)) := do
  let _ ← raiseIf (counts = []) .valueError
  fixRows dim counts.sum ((List.range dim).map fun i => kdeRow rs r i counts)

/-- Have all lists the same length? -/
def sameLength (xs : List (List K)) : Bool :=
  xs.all fun x => x.length == (xs.headD []).length

/-- `np.vstack` of the points of each cluster. `rvs` squeezes its result: in one dimension the `n` points
are an array of shape `(n,)`, one row for `vstack`; rows of different length raise `ValueError`. In more
dimensions a single point is squeezed to one row of the right length. -/
def gmmLocal (rs : Resampler K) (dim r : Nat) (counts : List Nat) : Except Err (List (List K)) := do
  let _ ← raiseIf (counts = []) .valueError
  let blocks := counts.zipIdx.map fun c => rs.gmm r c.2 c.1
  let _ ← raiseIf (dim = 1 ∧ sameLength (blocks.map List.flatten) = false) .valueError
  if dim = 1 then fixRows dim (counts.headD 0) (blocks.map List.flatten)
  else fixRows dim dim blocks.flatten

/-- /repo/bet/sampling/basicSampling.py:66-73, 80-87: the new set. `prob_type_init` and its parameters are
in `Model.InitMeasure`. -/
def resampled (dim : Nat) (chunks : Chunks (List K)) (globalize : Bool) :
    Except Err (SampleSet K) := do
  let s ← ({ dim := dim } : SampleSet K).setValuesLocal chunks
  pure (s.globalizeIf globalize)

/-- /repo/bet/sampling/basicSampling.py:33-89 `sample_from_updated`; `dim` is the dimension of the set,
`u` its updated measure, `rnd` Python's `round` (with the weights and the number not negative). -/
def sampleFromUpdated (st : Stats K) (rs : Resampler K) (rnd : K → Nat) (size dim : Nat) (u : Updated K)
    (n : Nat) (globalize : Bool) : Except Err (SampleSet K) :=
  match u with
  | .rv specs => randomSampleSet st size (.list specs) (.set { dim := dim }) n globalize
  | .kde ws => do
      let chunks ← (List.range size).mapM fun r => kdeLocal rs dim r (updatedCounts rnd ws n size r)
      resampled dim chunks globalize
  | .gmm ws => do
      let chunks ← (List.range size).mapM fun r => gmmLocal rs dim r (updatedCounts rnd ws n size r)
      resampled dim chunks globalize
  | .other => .error .badObject

/-- /repo/bet/sampling/basicSampling.py:541-587 `create_random_discretization`; `num` is `none` when
`num_samples` is left out: then `self.num_samples` is read, which the sampler does not have. The file is
not modelled. -/
def createRandomDiscretization (st : Stats K) (size : Nat) (model : Nat → List (List K) → ModelOutput K)
    (outDim : Nat) (ee jac : Bool) (rv : RvArg K) (obj : InputObj K) (num : Option Nat)
    (globalize : Bool) : Except Err (Disc K) := do
  let n ← orErr .attributeError num
  let s ← randomSampleSet st size rv obj n globalize
  computeQoi size model outDim ee jac s globalize

end BET
