import Verif.Model.CalculateP
import Verif.Model.SimpleFun
import Verif.Model.Sampling

/-!
# A whole inverse problem
(/repo/examples/measure_methods/linearMap/BET_linearMap.py,
/repo/examples/measure_methods/validationExample/BET_linearMap.py)

The scripts only call functions of the library; the model calls their models in the same order.
-/

set_option autoImplicit false

namespace BET

variable {K : Type} [Field K] [LinearOrder K]

/-- The discretization that was passed as `data_set`. -/
def DataSet.asDisc : DataSet K → Except Err (Disc K)
  | .disc d => .ok d
  | _ => .error .attributeError

/-- /repo/examples/measure_methods/linearMap/BET_linearMap.py:84-92 and
/repo/examples/measure_methods/validationExample/BET_linearMap.py:66-74: equal volumes, then the
model at all samples. -/
def sampleAndRun (size : Nat) (model : Nat → List (List K) → ModelOutput K) (outDim : Nat)
    (s : SampleSet K) : Except Err (Disc K) := do
  let s ← s.estimateVolumeMc size true
  computeQoi size model outDim false false s true

/-- /repo/examples/measure_methods/linearMap/BET_linearMap.py:84-135 and
/repo/examples/measure_methods/validationExample/BET_linearMap.py:66-124: the samples `s` get equal
volumes, the model is run, `measure` (a function of `simpleFunP`) puts a measure on the data space,
and `calculateP.prob` inverts it. Returns the set of the measure and the discretization. Not modelled:
the files and the plots that the scripts write. -/
def inverseProblem (G : Geometry K) (size : Nat) (model : Nat → List (List K) → ModelOutput K)
    (outDim : Nat) (s : SampleSet K)
    (measure : DataSet K → Except Err (SampleSet K × DataSet K)) :
    Except Err (SampleSet K × Disc K) := do
  let d ← sampleAndRun size model outDim s
  let q ← measure (.disc d)
  let d ← q.2.asDisc
  let d ← prob G size d true
  pure (q.1, d)

end BET
