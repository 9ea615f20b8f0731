import Verif.Model.Draws
import Verif.Model.Radii

/-!
# The random points of `estimate_radii` (/repo/bet/sample.py:1528-1656)

As in `Verif.Model.Draws`: `U r k` is the row of random numbers `k` of process `r`.
-/

set_option autoImplicit false

namespace BET

variable {K : Type} [Field K] [LinearOrder K]

/-- /repo/bet/sample.py:1528-1590 `estimate_radii` with the rows drawn (lines 1559-1562). Without a domain it raises
before the points are used. -/
def SampleSet.estimateRadiiDrawn (G : Geometry K) (size n : Nat) (s : SampleSet K) (U : Nat → Nat → List K)
    (normalize : Bool) : Except Err (SampleSet K) :=
  s.estimateRadii G size (mcPoints (s.domain.getD []) size n U) normalize

/-- /repo/bet/sample.py:1592-1656 `estimate_radii_and_volume` with the rows drawn (lines 1618-1621). -/
def SampleSet.estimateRadiiAndVolumeDrawn (G : Geometry K) (size n : Nat) (s : SampleSet K)
    (U : Nat → Nat → List K) (normalize : Bool) : Except Err (SampleSet K) :=
  s.estimateRadiiAndVolume G size n (mcPoints (s.domain.getD []) size n U) normalize

end BET
