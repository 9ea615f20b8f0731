import Verif.Model.LocalVolume
import Verif.Model.Radii
import Verif.Model.Clusters
import Mathlib.Analysis.SpecialFunctions.Gamma.Basic

/-!
# The random points of `estimate_local_volume` (/repo/bet/sample.py:1693-1787)

`Model/LocalVolume.lean` takes the numbers of points found as they come; here they are computed from the numbers
drawn. `_p_norm` is finite. Arithmetic is exact.
-/

set_option autoImplicit false

namespace BET

/-- What numpy returns for one emulated point: the gamma numbers, the normal numbers and the beta number. -/
abbrev LpDraw := List ℝ × List ℝ × ℝ

/-- /repo/bet/sample.py:1733-1737, for finite `p` (`Model.LocalMax` has the other case). -/
noncomputable def localBallVolume (p : ℝ) (dim : Nat) (r : ℝ) : ℝ :=
  r ^ dim * Real.Gamma (1 + 1 / p) / Real.Gamma (1 + dim / p)

/-- `kdtree.query(x, p, distance_upper_bound=r)`: the nearest point if it is nearer than `r`, or else the number of
points. -/
noncomputable def nnWithin (G : Geometry ℝ) (p : Nat) (pts : List (List ℝ)) (r : ℝ) (x : List ℝ) : Nat :=
  if G.dist p x (pts.getD (G.nn p pts x) []) < r then G.nn p pts x else pts.length

/-- /repo/bet/sample.py:1763-1773 for one emulated point: it lies in the unit cube and the query returns `i`. A point
with `nan`s does not lie in the cube. -/
noncomputable def foundIn (G : Geometry ℝ) (p : Nat) (pts : List (List ℝ)) (r : ℝ) (i : Nat) : Except Err (List ℝ) → Bool
  | .ok x => (x.all fun a => decide (0 ≤ a ∧ a ≤ 1)) && nnWithin G p pts r x == i
  | .error _ => false

/-- /repo/bet/sample.py:1755-1773: the number of points found among `t` points that are drawn in the ball of radius
`r` around point `i`. -/
noncomputable def cellCount (G : Geometry ℝ) (p dim : Nat) (pts : List (List ℝ)) (r : ℝ) (i : Nat)
    (draw : Nat → LpDraw) (t : Nat) : Nat :=
  ((List.range t).filter fun k => foundIn G p pts r i
    (lpUniform p (draw k).1 (draw k).2.1 (draw k).2.2 (List.replicate dim r) (pts.getD i []))).length

namespace SampleSet

/-- /repo/bet/sample.py:1708-1715: the normalized radii, or 1.5 times those that `estimate_radii` finds (`rad`). -/
noncomputable def localRadii (s : SampleSet ℝ) (rad : List ℝ) : List ℝ :=
  match s.glob.normalizedRadii with
  | some r => r
  | none => rad.map fun x => 3 / 2 * x

/-- /repo/bet/sample.py:1716-1731: a radius that is not positive is replaced by an estimate from the pairwise
distances (`other`, not modelled). -/
noncomputable def localRadius (s : SampleSet ℝ) (rad : List ℝ) (other : Nat → ℝ) (i : Nat) : ℝ :=
  if (s.localRadii rad).getD i 0 ≤ 0 then other i else (s.localRadii rad).getD i 0

/-- /repo/bet/sample.py:1694-1698: the samples in coordinates relative to the domain. -/
noncomputable def unitSamples (s : SampleSet ℝ) : List (List ℝ) :=
  (s.glob.values.getD []).map (unitCoords true (s.domain.getD []))

/-- /repo/bet/sample.py:1659-1787 `estimate_local_volume`; `draw i t k` are the numbers drawn for point `k` of the
round in which `t` points are drawn for sample `i`. -/
noncomputable def estimateLocalVolumeDrawn (G : Geometry ℝ) (size : Nat) (s : SampleSet ℝ) (rad : List ℝ)
    (other : Nat → ℝ) (draw : Nat → Nat → Nat → LpDraw) (numEm maxEm : Nat) : Except Err (SampleSet ℝ) :=
  s.estimateLocalVolume size rad (fun i => localBallVolume s.pNorm s.dim (s.localRadius rad other i))
    (fun i t => cellCount G s.pNorm s.dim s.unitSamples (s.localRadius rad other i) i (draw i t) t) numEm maxEm

end SampleSet

end BET
