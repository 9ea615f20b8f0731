import Verif.Model.SamplerCaught
import Verif.Model.Pdf
import Verif.Model.Updated

/-!
# The initial measure that samplers record

`_prob_type_init` and `_prob_parameters_init` of the sets of a sampler (/repo/bet/sample.py:503-528): what the
functions of /repo/bet/sampling/basicSampling.py write there, and what `pdf_init` makes of it. The sets are those of
`Model.SamplerCaught`, with the record beside them.
-/

set_option autoImplicit false

namespace BET

open Act

/-- `_prob_type_init` with `_prob_parameters_init`: nothing (/repo/bet/sample.py:280-282), `"rv"` with a
distribution for each direction (/repo/bet/sampling/basicSampling.py:171-172), `"lhs"` with the criterion (235-236),
`"grid"` with the numbers of samples (310-311). -/
inductive InitMeasure (K : Type)
  | none
  | rv (specs : List (RvSpec K))
  | lhs (criterion : String)
  | grid (nums : GridNums)

/-- A sample set with its record. -/
structure TrackedSet (K : Type) where
  set : SampleSet K
  init : InitMeasure K := .none

/-- The state of `SamplerState` with the records. -/
structure TrackedState (K : Type) where
  heap : List (TrackedSet K) := []
  current : Option Nat := none
  discs : List (Nat × Nat) := []

/-- The calls of `SamplerCall`, with what `lhs(dim, num_samples, 'center')` returns if `rv` is `'lhs'`
(`centred`), and with the criterion. -/
inductive TrackedCall (K : Type)
  | newSet (s : SampleSet K)
  | random (st : Stats K) (rv : RvArg K) (obj : ObjRef K) (n : Nat) (globalize : Bool)
      (centred : List (List K))
  | lhs (obj : ObjRef K) (criterion : String) (cube : List (List K)) (globalize : Bool)
  | regular (obj : ObjRef K) (nums : GridNums)
  | compute (input : Option Nat) (globalize : Bool)
  | localToGlobal

/-- `rv == 'lhs'` (/repo/bet/sampling/basicSampling.py:125). -/
def RvArg.isLhs {K : Type} : RvArg K → Bool
  | .str name => name == "lhs"
  | _ => false

/-- /repo/bet/sampling/basicSampling.py:123-124: `"r"` and `"random"` stand for `"uniform"`. -/
def RvArg.long {K : Type} : RvArg K → RvArg K
  | .str name => .str (if name = "r" ∨ name = "random" then "uniform" else name)
  | rv => rv

/-- A statement on the set. -/
def onArrays {K α : Type} (x : Act (SampleSet K) α) : Act (TrackedSet K) α := fun t =>
  ((x t.set).1, { t with set := (x t.set).2 })

section
variable {K : Type} [Field K]

/-- /repo/bet/sampling/basicSampling.py:141-182 `random_sample_set` on the set it is given, with the record: the
record is written after the values and the domain, and before the numbers of samples are checked. -/
def randomT (st : Stats K) (size : Nat) (rv : RvArg K) (n : Nat) (globalize : Bool) :
    Act (TrackedSet K) Unit := do
  let specs ← onArrays (look fun s => rv.perDim s.dim s.domain)
  let chunks ← onArrays (look fun _ =>
    (List.range size).mapM fun r => drawLocal st specs (numLocal n size r) r)
  let domain ← onArrays (look fun _ => specs.mapM st.interval)
  let _ ← onArrays (attempt fun s => s.setValuesLocal chunks)
  let _ ← onArrays (change fun s => { s with domain := some domain })
  let _ ← change fun t => { t with init := .rv specs }
  let _ ← onArrays (look (SampleSet.checkNumLocalAll size))
  let _ ← onArrays (look (SampleSet.checkNum size))
  onArrays (change (SampleSet.globalizeIf globalize))

/-- /repo/bet/sampling/basicSampling.py:216-236 `lhs_sample_set` on the set it is given, with the record, which is
written last. -/
def lhsT (size : Nat) (criterion : String) (cube : List (List K)) (globalize : Bool) :
    Act (TrackedSet K) Unit := do
  let _ ← onArrays (lhsA size cube globalize)
  change fun t => { t with init := .lhs criterion }

namespace TrackedState

/-- A call on one of the sets. -/
def onSet {α : Type} (a : Nat) (x : Act (TrackedSet K) α) : Act (TrackedState K) α := fun m =>
  match m.heap[a]? with
  | none => (.error .indexError, m)
  | some s => ((x s).1, { m with heap := m.heap.set a (x s).2 })

/-- A new current set. -/
def put (m : TrackedState K) (t : TrackedSet K) : TrackedState K :=
  { m with heap := m.heap ++ [t], current := some m.heap.length }

/-- A call on a new set, which is the current one if the call returns and lost if it raises. -/
def onNew (s : SampleSet K) (x : Act (TrackedSet K) Unit) : Act (TrackedState K) Unit := fun m =>
  match x { set := s } with
  | (.ok _, t) => (.ok (), m.put t)
  | (.error e, _) => (.error e, m)

/-- /repo/bet/sampling/basicSampling.py:129-137 and 208-214 with 378 and 426 (see `SamplerState.into`). -/
def into (e : Err) (x : Act (TrackedSet K) Unit) : ObjRef K → Act (TrackedState K) Unit
  | .ref a => do
      let _ ← onSet a x
      change fun m => { m with current := some a }
  | .dim d => onNew { dim := d } x
  | .domain D => onNew { dim := D.length, domain := some D } x
  | .other => look fun _ => .error e

/-- The sets without the records. -/
def forget (m : TrackedState K) : SamplerState K :=
  ⟨m.heap.map fun t => t.set, m.current, m.discs⟩

/-- /repo/bet/sampling/basicSampling.py:241-313 and 401 `regular_sample_set`: on a copy, the record is written last. -/
def regular (S : SamplerModel K) (obj : ObjRef K) (nums : GridNums) (m : TrackedState K) :
    Except Err (TrackedState K) := do
  let x ← m.forget.resolve obj
  let s ← regularSampleSet S.size x nums
  pure (m.put ⟨s, .grid nums⟩)

/-- /repo/bet/sampling/basicSampling.py:437-532: the record of the input set is left alone, the output set has
none. -/
def compute (S : SamplerModel K) (B : Breakdown K) (input : Option Nat) (globalize : Bool) :
    Act (TrackedState K) Unit := do
  let _ ← change fun m => { m with current := input.or m.current }
  let a ← look fun m => orErr .attributeError m.current
  let out ← onSet a (onArrays (computeSetA S B globalize))
  change fun m => { m with heap := m.heap ++ [{ set := out }], discs := m.discs ++ [(a, m.heap.length)] }

/-- `local_to_global` of one set. -/
def globalizeAt (a : Nat) (m : TrackedState K) : TrackedState K :=
  { m with heap := m.heap.modify a fun t => { t with set := t.set.localToGlobal } }

/-- /repo/bet/sampling/basicSampling.py:343-344. -/
def globalizeCurrent (m : TrackedState K) : TrackedState K :=
  match m.current with
  | none => m
  | some a => m.globalizeAt a

/-- /repo/bet/sampling/basicSampling.py:345-346. -/
def globalizeDisc (m : TrackedState K) : TrackedState K :=
  match m.discs.getLast? with
  | none => m
  | some d => (m.globalizeAt d.1).globalizeAt d.2

/-- /repo/bet/sampling/basicSampling.py:122-127: `random_sample_set` with the abbreviations. -/
def random (st : Stats K) (size : Nat) (rv : RvArg K) (obj : ObjRef K) (n : Nat) (globalize : Bool)
    (centred : List (List K)) : Act (TrackedState K) Unit :=
  if rv.isLhs then into .unboundLocal (lhsT size "center" centred globalize) obj
  else into .wrongInput (randomT st size rv.long n globalize) obj

/-- A call, with the state it leaves when it raises. -/
def exec (S : SamplerModel K) (B : Breakdown K) : TrackedCall K → Act (TrackedState K) Unit
  | .newSet s => change fun m => { m with heap := m.heap ++ [{ set := s }] }
  | .random st rv obj n globalize centred => random st S.size rv obj n globalize centred
  | .lhs obj criterion cube globalize => into .unboundLocal (lhsT S.size criterion cube globalize) obj
  | .regular obj nums => attempt (regular S obj nums)
  | .compute input globalize => compute S B input globalize
  | .localToGlobal => change fun m => m.globalizeCurrent.globalizeDisc

/-- A program that goes on after exceptions. -/
def run (S : SamplerModel K) (m : TrackedState K) (cs : List (TrackedCall K × Breakdown K)) :
    TrackedState K :=
  cs.foldl (fun m c => (exec S c.2 c.1 m).2) m

end TrackedState

/-- The call without the abbreviations and the criterion. -/
def TrackedCall.plain : TrackedCall K → SamplerCall K
  | .newSet s => .newSet s
  | .random st rv obj n g centred => if rv.isLhs then .lhs obj centred g else .random st rv.long obj n g
  | .lhs obj _ cube g => .lhs obj cube g
  | .regular obj nums => .regular obj nums
  | .compute input g => .compute input g
  | .localToGlobal => .localToGlobal

/-- What `evaluate_pdf` and `evaluate_pdf_marginal` (/repo/bet/sample.py:65-158) make of a record: they know `"rv"`,
not `"lhs"`, `"grid"` or `None`. -/
def InitMeasure.fitted : InitMeasure K → FittedMeasure K
  | .rv specs => .rv specs
  | _ => .other

/-- /repo/bet/sample.py:949-965 `pdf_init`. -/
def TrackedSet.pdfInit (P : Pdfs K) (t : TrackedSet K) (vals : Vals K) : Except Err (List K) :=
  pdfOf P t.set.dim t.init.fitted vals

/-- /repo/bet/sample.py:988-1002 `marginal_pdf_init`. -/
def TrackedSet.marginalInit (P : Pdfs K) (t : TrackedSet K) (vals : Vals K) (i : Nat) :
    Except Err (List K) :=
  marginalPdfInit P t.init.fitted vals i

/-- What `sample_from_updated` uses of a measure. -/
def FittedMeasure.updated : FittedMeasure K → Updated K
  | .rv specs => .rv specs
  | .kde _ ws => .kde ws
  | .gmm _ _ _ ws => .gmm ws
  | .voronoi _ => .other
  | .other => .other

/-- /repo/bet/sampling/basicSampling.py:33-89 `sample_from_updated` with the record of the new set: `random_sample_set`
records the distributions (line 172; a list with an entry for each direction is left as it is), lines 68-69 and 83-84
record the parameters of the old set. -/
def resampleT (st : Stats K) (rs : Resampler K) (rnd : K → Nat) (size dim : Nat) (m : FittedMeasure K) (n : Nat)
    (globalize : Bool) : Except Err (SampleSet K × FittedMeasure K) := do
  let s ← sampleFromUpdated st rs rnd size dim m.updated n globalize
  pure (s, m)

end

end BET
