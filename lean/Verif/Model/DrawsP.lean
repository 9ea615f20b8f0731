import Verif.Model.Draws
import Verif.Model.CalculateP

/-!
# Volumes from random points, then probabilities

The two calls of the examples, /repo/examples/measure_methods/linearMap/BET_linearMap.py:86 and 135: the volumes of the
input samples are estimated with random points, and `prob` computes the probabilities from them.
-/

set_option autoImplicit false

namespace BET

variable {K : Type} [Field K] [LinearOrder K]

/-- `disc.get_input_sample_set().estimate_volume(n)` (/repo/bet/sample.py:1253-1276) and then `prob(disc)`
(/repo/bet/calculateP/calculateP.py:67-106). The set is an object that the discretization holds, so the call is seen
in the discretization. -/
def Disc.solveDrawn (G : Geometry K) (size n : Nat) (d : Disc K) (U : Nat → Nat → List K) : Except Err (Disc K) := do
  let inp ← orErr .attributeError d.input
  let inp ← inp.estimateVolumeDrawn G size n U
  prob G size { d with input := some inp }

end BET
