import Verif.Model.Caught
import Verif.Model.SamplerHistory

/-!
# What is left when a call on a sampler raises

`Model.SamplerHistory` gives the state after a call that returns. Here a call also has a state when it
raises, as in `Model.Caught`. The processes are modelled together: a call raises when one of them raises
(the others may then wait for it, which is C114's business).
-/

set_option autoImplicit false

namespace BET

open Act

/-- What the user's model does besides returning: `fails r x` is the exception that it raises when process
`r` calls it for the samples `x`, if it does; `ref` is the model as it is called for the reference value. -/
structure Breakdown (K : Type) where
  fails : Nat → List (List K) → Option Err
  ref : RefArray K → Except Err (RefReply K)

/-- A statement that changes nothing when it raises. -/
def Act.attempt {S : Type} (f : S → Except Err S) : Act S Unit := fun s =>
  match f s with
  | .ok t => (.ok (), t)
  | .error e => (.error e, s)

section
variable {K : Type} [Field K]

/-- /repo/bet/sampling/basicSampling.py:141-182 `random_sample_set` on the set it is given. -/
def randomA (st : Stats K) (size : Nat) (rv : RvArg K) (n : Nat) (globalize : Bool) :
    Act (SampleSet K) Unit := do
  let specs ← look fun s => rv.perDim s.dim s.domain
  let chunks ← look fun _ => (List.range size).mapM fun r => drawLocal st specs (numLocal n size r) r
  let domain ← look fun _ => specs.mapM st.interval
  let _ ← attempt fun s => s.setValuesLocal chunks
  let _ ← change fun s => { s with domain := some domain }
  let _ ← look (SampleSet.checkNumLocalAll size)
  let _ ← look (SampleSet.checkNum size)
  change (SampleSet.globalizeIf globalize)

/-- `input_values` of /repo/bet/sampling/basicSampling.py:224-226. -/
def lhsValues (cube : List (List K)) (s : SampleSet K) : List (List K) :=
  cube.map fun row => List.zipWith (fun ab u => (ab.2 - ab.1) * u + ab.1) (domainOrUnit s) row

/-- /repo/bet/sampling/basicSampling.py:216-232 `lhs_sample_set` on the set it is given. -/
def lhsA (size : Nat) (cube : List (List K)) (globalize : Bool) : Act (SampleSet K) Unit := do
  let _ ← change fun s => { s with domain := some (domainOrUnit s) }
  let _ ← attempt fun s => s.updateBounds cube.length
  let _ ← attempt fun s => s.setValuesLocal (arraySplit size (lhsValues cube s))
  change (SampleSet.globalizeIf globalize)

/-- `if globalize: s.local_to_global()`. -/
def gatherIf (globalize : Bool) (s : SampleSet K) : SampleSet K :=
  if globalize then s.localToGlobal else s

/-- Line 466-483 on process `r`: the model is called and what it returns is taken apart. -/
def modelReply (S : SamplerModel K) (B : Breakdown K) (r : Nat) (x : List (List K)) :
    Except Err (List (List K) × Option (List (List K)) × Option (List (List (List K)))) :=
  match B.fails r x with
  | some e => .error e
  | none => unpack S.ee S.jac (S.model r x)

/-- /repo/bet/sampling/basicSampling.py:461-521 on `self.input_sample_set`: the result is the output set. The
processes wait for each other at lines 521 and 525. -/
def computeSetA (S : SamplerModel K) (B : Breakdown K) (globalize : Bool) :
    Act (SampleSet K) (SampleSet K) := do
  let _ ← SampleSet.localizedA S.size
  let vals ← look fun s => orErr .attributeError s.loc.values
  let outs ← look fun _ => vals.zipIdx.mapM fun c => modelReply S B c.2 c.1
  let out ← look fun _ => ({ dim := S.outDim } : SampleSet K).setValuesLocal (outs.map fun o => o.1)
  let q ← look fun s => mapReference B.ref S.outDim s.referenceValue
  let out ← look fun _ => withErrors S.ee (outs.map fun o => o.2.1) { out with referenceValue := q }
  let _ ← attempt (withJacobians S.jac (outs.map fun o => o.2.2))
  let _ ← change (SampleSet.globalizeIf globalize)
  let _ ← look fun i => Disc.new S.size (some i) (some (gatherIf globalize out)) none none none
  look fun _ => .ok (gatherIf globalize out)

namespace SamplerState

/-- A call on one of the sets. -/
def onSet {α : Type} (a : Nat) (x : Act (SampleSet K) α) : Act (SamplerState K) α := fun m =>
  match m.heap[a]? with
  | none => (.error .indexError, m)
  | some s => ((x s).1, { m with heap := m.heap.set a (x s).2 })

/-- A call on a new set, which is the current one if the call returns and lost if it raises. -/
def onNew (s : SampleSet K) (x : Act (SampleSet K) Unit) : Act (SamplerState K) Unit := fun m =>
  match x s with
  | (.ok _, t) => (.ok (), m.put t .other)
  | (.error e, _) => (.error e, m)

/-- /repo/bet/sampling/basicSampling.py:129-137 and 208-214 with 378 and 426: `input_obj` is the set that
is sampled into, or a new set is; `self.input_sample_set` is assigned when the function has returned. -/
def into (e : Err) (x : Act (SampleSet K) Unit) : ObjRef K → Act (SamplerState K) Unit
  | .ref a => do
      let _ ← onSet a x
      change fun m => { m with current := some a }
  | .dim d => onNew { dim := d } x
  | .domain D => onNew { dim := D.length, domain := some D } x
  | .other => look fun _ => .error e

/-- /repo/bet/sampling/basicSampling.py:437-532 `compute_qoi_and_create_discretization`, without a file. -/
def computeA (S : SamplerModel K) (B : Breakdown K) (input : Option Nat) (globalize : Bool) :
    Act (SamplerState K) Unit := do
  let _ ← change fun m => { m with current := input.or m.current }
  let a ← look fun m => orErr .attributeError m.current
  let out ← onSet a (computeSetA S B globalize)
  change fun m => { m with heap := m.heap ++ [out], discs := m.discs ++ [(a, m.heap.length)] }

/-- A call, with the state it leaves when it raises. `regular_sample_set` works on a copy
(/repo/bet/sampling/basicSampling.py:264). -/
def execA (S : SamplerModel K) (B : Breakdown K) : SamplerCall K → Act (SamplerState K) Unit
  | .newSet s => change fun m => { m with heap := m.heap ++ [s] }
  | .random st rv obj n globalize => into .wrongInput (randomA st S.size rv n globalize) obj
  | .lhs obj cube globalize => into .unboundLocal (lhsA S.size cube globalize) obj
  | .regular obj nums => attempt fun m => m.exec S (.regular obj nums)
  | .compute input globalize => computeA S B input globalize
  | .localToGlobal => change fun m => m.globalizeCurrent.globalizeDisc

/-- A program that goes on after exceptions. The model may do something else at each call. -/
def runCaught (S : SamplerModel K) (m : SamplerState K) (cs : List (SamplerCall K × Breakdown K)) :
    SamplerState K :=
  cs.foldl (fun m c => (execA S c.2 c.1 m).2) m

end SamplerState

end

end BET
