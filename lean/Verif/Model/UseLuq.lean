import Verif.Model.Discretization
import Verif.Model.CalculateR

/-!
# The interface to LUQ (/repo/bet/sampling/useLUQ.py)

The package LUQ is not part of the repository: what it computes is a parameter (`LuqResult`). The model of the user
is a parameter as well.
-/

set_option autoImplicit false

namespace BET

/-- A time-dependent model: parameter values and times to time series. -/
abbrev TimeModel (K : Type) := List (List K) → List K → List (List K)

/-- The attributes of a `luq.luq.LUQ` object that are read; `None` until they are computed. Every process has the
labels of all samples. -/
structure LuqResult (K : Type) where
  predicted : Option (List (List K))
  observed : Option (List (List K))
  times : List K
  numPcs : Option (List Nat) := none
  predictLabels : Option (List Int) := none
  predictMaps : Option (List (List (List K))) := none
  obsLabels : Option (List Int) := none
  obsMaps : Option (List (List (List K))) := none

/-- /repo/bet/sampling/useLUQ.py:42-62 `useLUQ.__init__`. -/
structure UseLuq (K : Type) where
  predictSet : SampleSet K
  model : TimeModel K
  times : List K
  obsSet : Option (SampleSet K) := none
  predictedSeries : Option (List (List K)) := none
  obsSeries : Option (List (List K)) := none
  learn : Option (LuqResult K) := none

/-- A `sample_set` with cluster maps. -/
structure MapSet (K : Type) where
  set : SampleSet K
  maps : Option (List (List (List K)))

/-- A `discretization` with cluster maps and observed set. -/
structure LuqDisc (K : Type) where
  input : SampleSet K
  output : MapSet K
  observed : Option (MapSet K)

namespace UseLuq

variable {K : Type}

/-- /repo/bet/sampling/useLUQ.py:72-76 `get_predictions`; without values the model is called with `None` (modelled as
`TypeError`). -/
def getPredictions (u : UseLuq K) : Except Err (UseLuq K) := do
  let v ← orErr .typeError u.predictSet.glob.values
  pure { u with predictedSeries := some (u.model v u.times) }

/-- /repo/bet/sampling/useLUQ.py:78-82 `get_obs`. -/
def getObs (u : UseLuq K) : Except Err (UseLuq K) := do
  let s ← orErr .attributeError u.obsSet
  let v ← orErr .typeError s.glob.values
  pure { u with obsSeries := some (u.model v u.times) }

/-- /repo/bet/sampling/useLUQ.py:84-91 `set_observed_time_series`. -/
def setObserved (u : UseLuq K) (ts : List (List K)) : UseLuq K := { u with obsSeries := some ts }

/-- `LUQ(predicted, observed, times)` (line 116): the object keeps its arguments. -/
def newLuq (p o : Option (List (List K))) (t : List K) : LuqResult K where
  predicted := p
  observed := o
  times := t

/-- /repo/bet/sampling/useLUQ.py:93-116 `initialize`: arguments that are `None` are replaced by what is stored.
(The package is assumed to be installed.) -/
def startLearning (u : UseLuq K) (predicted observed : Option (List (List K))) (times : Option (List K)) : UseLuq K :=
  { u with learn := some (newLuq (predicted.or u.predictedSeries) (observed.or u.obsSeries) (times.getD u.times)) }

/-- /repo/bet/sampling/useLUQ.py:118-124 `setup`. -/
def setup (u : UseLuq K) : Except Err (UseLuq K) := do
  let u ← u.getPredictions
  let u ← u.getObs
  pure (u.startLearning u.predictedSeries u.obsSeries (some u.times))

/-- /repo/bet/sampling/useLUQ.py:126-142 `clean_data`, `dynamics`, `learn_qois_and_transform`: a method of LUQ changes the LUQ
object only. -/
def luqMethod (u : UseLuq K) (f : LuqResult K → LuqResult K) : Except Err (UseLuq K) := do
  let l ← orErr .attributeError u.learn
  pure { u with learn := some (f l) }

/-- Lines 152-154 and 156-158: `sample_set(out_dim)` with local region and cluster maps. Each of the `size` processes
has all labels. -/
def labelledSet (size dim : Nat) (labels : Option (List Int)) (maps : Option (List (List (List K)))) : MapSet K where
  set := { dim := dim, loc := { region := labels.map (List.replicate size) } }
  maps := maps

/-- `local_to_global`. -/
def globalizeMapSet (s : MapSet K) : MapSet K := { s with set := s.set.localToGlobal }

/-- Lines 166-172: the second discretization, and the observed output set it leaves behind. -/
def obsDisc (size : Nat) (obsOut : MapSet K) : Option (SampleSet K) → Except Err (Option (LuqDisc K) × MapSet K)
  | none => pure (none, obsOut)
  | some s => do
      let _ ← Disc.new size (some s) (some obsOut.set) none none none
      pure (some ⟨s.localToGlobal, globalizeMapSet obsOut, none⟩, globalizeMapSet obsOut)

/-- /repo/bet/sampling/useLUQ.py:144-174 `make_disc`. `local_to_global` of a discretization does not reach its observed
set (/repo/bet/sample.py:2819-2833); the observed set of the first discretization and the output set of the second
are one object. -/
def makeDisc (size : Nat) (u : UseLuq K) : Except Err (LuqDisc K × Option (LuqDisc K)) := do
  let l ← orErr .attributeError u.learn
  let pcs ← orErr .typeError l.numPcs
  let dim ← getIdx pcs 0
  let predictOut := labelledSet size dim l.predictLabels l.predictMaps
  let obsOut := labelledSet size dim l.obsLabels l.obsMaps
  let _ ← Disc.new size (some u.predictSet) (some predictOut.set) none none none
  let q ← obsDisc size obsOut u.obsSet
  pure (⟨u.predictSet.localToGlobal, globalizeMapSet predictOut, some q.2⟩, q.1)

end UseLuq

/-- What the inversion (`Model.CalculateR`) reads of a set without values: only their number, which
`check_num` gives, and not the values themselves, because there are cluster maps. -/
def MapSet.forInversion {K : Type} (n : Nat) (s : MapSet K) : RSet K where
  values := List.replicate n []
  region := s.set.glob.region
  maps := s.maps

end BET
