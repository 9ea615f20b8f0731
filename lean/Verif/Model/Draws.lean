import Verif.Model.Query

/-!
# The random points of `estimate_volume` (/repo/bet/sample.py:1253-1276)

In `SampleSet.estimateVolume` the points are an argument. Here they are made from the rows of random numbers that the
processes draw: `U r k` is row `k` of process `r`, an entry for each direction.
-/

set_option autoImplicit false

namespace BET

variable {K : Type} [Field K]

/-- `width * row + self._domain[:, 0]` with `width = self._domain[:, 1] - self._domain[:, 0]`,
/repo/bet/sample.py:1264-1266. -/
def boxPoint (domain : List (K × K)) (row : List K) : List K :=
  List.zipWith (fun ab u => (ab.2 - ab.1) * u + ab.1) domain row

/-- The points of all processes, /repo/bet/sample.py:1262-1266: process `r` makes its number of points from the first
rows it draws. -/
def mcPoints (domain : List (K × K)) (size n : Nat) (U : Nat → Nat → List K) : Chunks (List K) :=
  (List.range size).map fun r => (List.range (numLocal n size r)).map fun k => boxPoint domain (U r k)

/-- /repo/bet/sample.py:1253-1276 `estimate_volume` with the rows drawn. Without a domain it raises before the points
are used. -/
def SampleSet.estimateVolumeDrawn [LinearOrder K] (G : Geometry K) (size n : Nat) (s : SampleSet K)
    (U : Nat → Nat → List K) : Except Err (SampleSet K) :=
  s.estimateVolume G size n (mcPoints (s.domain.getD []) size n U)

end BET
