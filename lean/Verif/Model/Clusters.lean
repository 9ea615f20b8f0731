import Verif.Model.Gradients
import Mathlib.Analysis.SpecialFunctions.Pow.Real

/-!
# Clusters of samples around centres

Model of /repo/bet/sampling/LpGeneralizedSamples.py and of /repo/bet/sensitivity/gradients.py:17-126.

Random numbers are parameters. Arithmetic is exact.
-/

set_option autoImplicit false

namespace BET

/-! ### One sample of the ball -/

/-- `np.sum(np.abs(v)**p)**(1. / p)`, /repo/bet/sampling/LpGeneralizedSamples.py:62. -/
noncomputable def lpNorm (p : ℝ) (v : List ℝ) : ℝ := (v.map fun x => |x| ^ p).sum ^ (1 / p)

/-- /repo/bet/sampling/LpGeneralizedSamples.py:17-40 `Lp_generalized_normal` for one sample, with scale 1
and no location (as it is called): `g` comes from `np.random.gamma`, `e` from `np.random.randn`. -/
noncomputable def lpNormal (p : ℝ) (g e : List ℝ) : List ℝ :=
  List.zipWith (fun x y => |x| ^ (1 / p) * SignType.sign y) g e

/-- /repo/bet/sampling/LpGeneralizedSamples.py:17-40 `Lp_generalized_normal` for one sample, with a location; the
scale is that of the gamma law of `g`. -/
noncomputable def lpNormalAt (p : ℝ) (g e loc : List ℝ) : List ℝ := List.zipWith (· + ·) (lpNormal p g e) loc

/-- `samples * r * scale + loc` for one sample; a scalar scale is given once for each dimension. -/
def place (u : List ℝ) (r : ℝ) (scale loc : List ℝ) : List ℝ :=
  List.zipWith (· + ·) (List.zipWith (fun x s => x * r * s) u scale) loc

/-- A sample divided by its norm; zero divided by zero (`nan`s) is an error here. -/
noncomputable def onSphere (p : ℝ) (z : List ℝ) : Except Err (List ℝ) :=
  if lpNorm p z = 0 then .error .zeroDivision else .ok (z.map fun x => x / lpNorm p z)

/-- /repo/bet/sampling/LpGeneralizedSamples.py:43-72 `Lp_generalized_uniform` for one sample and finite
`p`; `r` comes from `np.random.beta`. -/
noncomputable def lpUniform (p : ℝ) (g e : List ℝ) (r : ℝ) (scale loc : List ℝ) :
    Except Err (List ℝ) := do
  let u ← onSphere p (lpNormal p g e)
  pure (place u r scale loc)

/-- The case `p = np.inf` (line 69); `u` comes from `np.random.random`. -/
noncomputable def lpUniformInf (u : List ℝ) (scale loc : List ℝ) : List ℝ :=
  List.zipWith (· + ·) (List.zipWith (fun x s => (x - 1 / 2) * 2 * s) u scale) loc

/-- /repo/bet/sampling/LpGeneralizedSamples.py:74-102 `Lp_generalized_beta` for one sample and finite `p`;
`b` comes from `np.random.beta`. -/
noncomputable def lpBeta (p : ℝ) (g e : List ℝ) (b : ℝ) (scale loc : List ℝ) :
    Except Err (List ℝ) := do
  let u ← onSphere p (lpNormal p g e)
  pure (place u (b ^ (1 / p)) scale loc)

/-! ### Clusters -/

section
variable {K : Type} [Field K] [LinearOrder K]

/-- Lines 59-64 for one point: it is within the bounds in every dimension. -/
def withinBounds (D : List (K × K)) (x : List K) : Bool :=
  (List.zipWith (fun ab y => decide (ab.1 ≤ y) && decide (y ≤ ab.2)) D x).all id

/-- /repo/bet/sensitivity/gradients.py:51-75 with a domain: the loop from attempt `t` on, in which
`draw t` are the samples of attempt `t` (ten times as many as before). `none` means that the loop has not
ended after `fuel` attempts. -/
def drawLoop (D : List (K × K)) (num : Nat) (draw : Nat → List (List K)) :
    Nat → Nat → Option (List (List K))
  | 0, _ => none
  | fuel + 1, t =>
      if num ≤ ((draw t).filter (withinBounds D)).length then
        some (((draw t).filter (withinBounds D)).take num)
      else drawLoop D num draw fuel (t + 1)

/-- The cluster of one centre. With `num_close` equal to 0 the loop does not run and `new_cluster` is
unbound. Without a domain the first samples are taken. -/
def clusterOf (D : Option (List (K × K))) (num : Nat) (draw : Nat → List (List K)) (fuel : Nat) :
    Except Err (Option (List (List K))) :=
  if num = 0 then .error .unboundLocal
  else match D with
    | none => .ok (some (draw 0))
    | some D => .ok (drawLoop D num draw fuel 0)

/-- The loop over the centres, lines 48-76; `draw i` are the samples around centre `i`. -/
def clusterLoop (D : Option (List (K × K))) (num : Nat) (draw : Nat → Nat → List (List K))
    (fuel : Nat) : List Nat → SampleSet K → Except Err (Option (SampleSet K))
  | [], c => .ok (some c)
  | i :: is, c => do
      let new ← clusterOf D num (draw i) fuel
      match new with
      | none => pure none
      | some v => do
          let c ← c.appendValues v
          clusterLoop D num draw fuel is c

/-- /repo/bet/sensitivity/gradients.py:16-80 `sample_lp_ball`: the centres followed by their clusters.
`sample_linf_ball` (lines 85-104) and `sample_l1_ball` (107-126) call it with another `p`, that is, other
samples. -/
def sampleLpBall (size fuel : Nat) (s : SampleSet K) (num : Nat) (draw : Nat → Nat → List (List K)) :
    Except Err (Option (SampleSet K)) := do
  let centers ← orErr .valueError s.glob.values
  let nc ← s.checkNum size
  let c ← withDomain { dim := s.dim } s.domain
  let c ← c.setValues centers
  clusterLoop s.domain num draw fuel (List.range nc) c

end

end BET
