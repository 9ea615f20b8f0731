import Verif.Model.LocalDrawn

/-!
# `estimate_local_volume` with `p = np.inf` (/repo/bet/sample.py:1659-1787)

`s.pNorm` is a number that stands for `np.inf`; the geometry says which distance it means.
-/

set_option autoImplicit false

namespace BET

/-- /repo/bet/sample.py:1738-1739. -/
def cubeVolume (dim : Nat) (r : ℝ) : ℝ := (2 * r) ^ dim

/-- /repo/bet/sample.py:1755-1773 with `p = np.inf`: the number of points found among `t` points that are drawn in the
cube of radius `r` around point `i`. -/
noncomputable def cubeCount (G : Geometry ℝ) (p dim : Nat) (pts : List (List ℝ)) (r : ℝ) (i : Nat)
    (draw : Nat → List ℝ) (t : Nat) : Nat :=
  ((List.range t).filter fun k => foundIn G p pts r i
    (.ok (lpUniformInf (draw k) (List.replicate dim r) (pts.getD i [])))).length

/-- /repo/bet/sample.py:1659-1787 `estimate_local_volume` with `p = np.inf`; `draw i t k` are the numbers drawn for
point `k` of the round in which `t` points are drawn for sample `i`. -/
noncomputable def SampleSet.estimateLocalVolumeMax (G : Geometry ℝ) (size : Nat) (s : SampleSet ℝ) (rad : List ℝ)
    (other : Nat → ℝ) (draw : Nat → Nat → Nat → List ℝ) (numEm maxEm : Nat) : Except Err (SampleSet ℝ) :=
  s.estimateLocalVolume size rad (fun i => cubeVolume s.dim (s.localRadius rad other i))
    (fun i t => cubeCount G s.pNorm s.dim s.unitSamples (s.localRadius rad other i) i (draw i t) t) numEm maxEm

end BET
