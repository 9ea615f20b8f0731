import Verif.Model.ModelErrorObject

/-!
# The object `sampling_error` through a history of calls (/repo/bet/calculateP/calculateError.py:145-359)

The loops are in `Model/CalcError.lean`, the set-up of the object in `Model/SamplingError.lean`; here is what every call
leaves of the object.
-/

set_option autoImplicit false

namespace BET

variable {K : Type} [Field K] [LinearOrder K]

/-- A `sampling_error` object: the dictionaries `B_N`, `C_N` and the discretization `disc`. -/
structure SamplingErr (K : Type) where
  keys : Keys
  disc : Disc K

namespace SamplingErr

/-- /repo/bet/calculateP/calculateError.py:150-178 `sampling_error.__init__` with `exact=True`. -/
def new (G : Geometry K) (size : Nat) (argsort : List K → List Nat)
    (delaunay : List (List K) → Except Err (List (List Nat))) (d : Disc K) : Except Err (SamplingErr K) := do
  let q ← samplingErrorInit G size argsort delaunay d
  pure { keys := q.1, disc := q.2 }

/-- /repo/bet/calculateP/calculateError.py:180-241 `calculate_for_contour_events`. -/
def contour (G : Geometry K) (size : Nat) (e : SamplingErr K) : Except Err (List (Num K × Num K) × SamplingErr K) := do
  let r ← samplingContour G size e.keys e.disc
  pure (r.1, { keys := r.2.1, disc := r.2.2 })

/-- `self.disc._input_sample_set.local_to_global()` (/repo/bet/calculateP/calculateError.py:261). -/
def gathered (e : SamplingErr K) : Except Err (SamplingErr K) := do
  let inp ← orErr .attributeError e.disc.input
  pure { e with disc := { e.disc with input := some inp.localToGlobal } }

/-- /repo/bet/calculateP/calculateError.py:305-359: the loop with the points `pts`, whose cells in the input set are
`ii`. -/
def regionBounds (G : Geometry K) (size : Nat) (e : SamplingErr K) (pts : SampleSet K) (ii : Chunks Nat)
    (s : SampleSet K) (region : Int) : Except Err (Option (K × K) × SamplingErr K) := do
  let inA ← regionMask G size s region pts
  let probs ← measureProbs size e.disc
  let io ← orErr .typeError e.disc.ioPtr
  let r := regionErrors e.keys io inA ii probs
  pure (r.1, { e with keys := r.2 })

/-- /repo/bet/calculateP/calculateError.py:271-278 with the emulated points `em`: `disc` is a copy. -/
def regionGiven (G : Geometry K) (size : Nat) (e : SamplingErr K) (s : SampleSet K) (region : Int)
    (em : SampleSet K) : Except Err (Option (K × K) × SamplingErr K) := do
  let d ← e.disc.setEmulatedInput em
  let d ← d.setIiPtr G size false
  let ii ← orErr .typeError d.iiPtrLocal
  let pts ← orErr .attributeError d.emInput
  e.regionBounds G size pts ii s region

/-- `if disc._emulated_ii_ptr is None: disc.set_emulated_ii_ptr(globalize=False)`
(/repo/bet/calculateP/calculateError.py:283-284). -/
def ensureGlobalIiPtr (G : Geometry K) (size : Nat) (d : Disc K) : Except Err (Disc K) :=
  if d.iiPtr.isNone then d.setIiPtr G size false else pure d

/-- /repo/bet/calculateP/calculateError.py:279-291 with the emulated points of the discretization, which are split as
the emulated points of `disc_new`. A global pointer without a local one, which no method of the discretization leaves, is
a type error here; numpy would index with `None`. -/
def regionOwn (G : Geometry K) (size : Nat) (e : SamplingErr K) (s : SampleSet K) (region : Int) :
    Except Err (Option (K × K) × SamplingErr K) := do
  let d ← ensureGlobalIiPtr G size e.disc
  let ii ← orErr .typeError d.iiPtrLocal
  let pts ← orErr .attributeError d.emInput
  let pts ← pts.localized size
  regionBounds G size { e with disc := { d with emInput := some pts } } pts ii s region

/-- /repo/bet/calculateP/calculateError.py:292-303 with the samples as points: the pointer is set in a copy, and the
input set is split as the emulated points of `disc_new`. -/
def regionSamples (G : Geometry K) (size : Nat) (e : SamplingErr K) (s : SampleSet K) (region : Int) :
    Except Err (Option (K × K) × SamplingErr K) := do
  let inp ← orErr .attributeError e.disc.input
  let d ← e.disc.setEmulatedInput inp
  let d ← d.setIiPtr G size false
  let ii ← orErr .typeError d.iiPtrLocal
  let inp ← inp.localized size
  regionBounds G size { e with disc := { e.disc with input := some inp } } inp ii s region

end SamplingErr

/-- A call of a method of the object. -/
inductive SamplingQuery (K : Type)
  | contour
  | region (s : SampleSet K) (region : Int) (em : Option (SampleSet K))

/-- What a call gives: the upper and lower bounds of the events; the bounds of a region, where `none` is `(nan, nan)`; or
an exception that leaves the object usable. -/
inductive SamplingAnswer (K : Type)
  | events (b : List (Num K × Num K))
  | bounds (b : Option (K × K))
  | raised (e : Err)
deriving DecidableEq

namespace SamplingErr

/-- /repo/bet/calculateP/calculateError.py:243-359 `calculate_for_sample_set_region`: the three branches. -/
def region (G : Geometry K) (size : Nat) (e : SamplingErr K) (s : SampleSet K) (r : Int) :
    Option (SampleSet K) → Option (SampleSet K) → Except Err (Option (K × K) × SamplingErr K)
  | some em, _ => e.regionGiven G size s r em
  | none, some _ => e.regionOwn G size s r
  | none, none => e.regionSamples G size s r

/-- The answer of a region method. -/
def askRegion (G : Geometry K) (size : Nat) (e : SamplingErr K) (s : SampleSet K) (r : Int)
    (em : Option (SampleSet K)) : Except Err (SamplingAnswer K × SamplingErr K) := do
  let q ← e.region G size s r em e.disc.emInput
  pure (.bounds q.1, q.2)

/-- The sample set and the region of a call are checked first
(/repo/bet/calculateP/calculateError.py:262-268). -/
def refusing (e : SamplingErr K) (k : Except Err (SamplingAnswer K × SamplingErr K)) :
    Except Err (List Bool) → Except Err (SamplingAnswer K × SamplingErr K)
  | .error err => pure (.raised err, e)
  | .ok _ => k

/-- One call. -/
def ask (G : Geometry K) (size : Nat) (e : SamplingErr K) :
    SamplingQuery K → Except Err (SamplingAnswer K × SamplingErr K)
  | .contour => do
      let q ← e.contour G size
      pure (.events q.1, q.2)
  | .region s r em => do
      let e ← e.gathered
      e.refusing (e.askRegion G size s r em) (regionMarker s r)

/-- A history of calls on one object. -/
def askAll (G : Geometry K) (size : Nat) :
    SamplingErr K → List (SamplingQuery K) → Except Err (List (SamplingAnswer K) × SamplingErr K)
  | e, [] => pure ([], e)
  | e, q :: qs => do
      let a ← e.ask G size q
      let r ← askAll G size a.2 qs
      pure (a.1 :: r.1, r.2)

end SamplingErr

end BET
