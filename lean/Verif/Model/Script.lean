import Verif.Model.Workflow
import Verif.Model.InitMeasure

/-!
# Scripts that draw their samples
(/repo/examples/measure_methods/linearMap/BET_linearMap.py)
-/

set_option autoImplicit false

namespace BET

variable {K : Type} [Field K] [LinearOrder K]

/-- /repo/examples/measure_methods/linearMap/BET_linearMap.py:64-69, 84-135 with `randomSampling = True`:
`random_sample_set(rv, obj, num_samples=n)` and then the inverse problem. `rv` is not `"lhs"`. -/
def randomProblem (G : Geometry K) (st : Stats K) (size : Nat) (rv : RvArg K) (obj : InputObj K) (n : Nat)
    (model : Nat → List (List K) → ModelOutput K) (outDim : Nat)
    (measure : DataSet K → Except Err (SampleSet K × DataSet K)) : Except Err (SampleSet K × Disc K) := do
  let s ← randomSampleSet st size rv.long obj n true
  inverseProblem G size model outDim s measure

end BET
