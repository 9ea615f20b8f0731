import Verif.Model.Query

/-!
# `discretization` (/repo/bet/sample.py:2235-2849)

The sample sets of a discretization are Python references; the model stores
values, so it covers discretizations whose sets are distinct objects.
-/

set_option autoImplicit false

namespace BET

/-- /repo/bet/sample.py:2250-2303.  The observed set plays no role in the modelled
methods and is left out. -/
structure Disc (K : Type) where
  input : Option (SampleSet K)
  output : Option (SampleSet K)
  outputProb : Option (SampleSet K) := none
  emInput : Option (SampleSet K) := none
  emOutput : Option (SampleSet K) := none
  ioPtr : Option (List Nat) := none
  ioPtrLocal : Option (Chunks Nat) := none
  iiPtr : Option (List Nat) := none
  iiPtrLocal : Option (Chunks Nat) := none
  ooPtr : Option (List Nat) := none
  ooPtrLocal : Option (Chunks Nat) := none

namespace Disc

variable {K : Type}

/-- /repo/bet/sample.py:2343-2360 `check_nums`. -/
def checkNums (size : Nat) (d : Disc K) : Except Err Nat := do
  let out ← orErr .attributeError d.output
  let outNum ← out.checkNum size
  let inp ← orErr .attributeError d.input
  let inNum ← inp.checkNum size
  if outNum ≠ inNum && out.glob.values.isSome && inp.glob.values.isSome then
    throw .lengthNotMatching
  else pure inNum

/-- /repo/bet/sample.py:2250-2303 `__init__` with all pointers `None`. -/
def new (size : Nat) (input output outputProb emInput emOutput : Option (SampleSet K)) :
    Except Err (Disc K) := do
  let d : Disc K := { input, output, outputProb, emInput, emOutput }
  if output.isSome then do
    let _ ← d.checkNums size
    pure d
  else pure d

/-- /repo/bet/sample.py:2362-2376 `globalize_ptrs`. -/
def globalizePtrs (d : Disc K) : Disc K :=
  let d := match d.ioPtrLocal, d.ioPtr with
    | some l, none => { d with ioPtr := some (getGlobalValues l) }
    | _, _ => d
  let d := match d.iiPtrLocal, d.iiPtr with
    | some l, none => { d with iiPtr := some (getGlobalValues l) }
    | _, _ => d
  match d.ooPtrLocal, d.ooPtr with
    | some l, none => { d with ooPtr := some (getGlobalValues l) }
    | _, _ => d

section
variable [LinearOrder K]

/-- /repo/bet/sample.py:2378-2394 `set_io_ptr`. -/
def setIoPtr (G : Geometry K) (size : Nat) (d : Disc K) (globalize : Bool) :
    Except Err (Disc K) := do
  let out ← orErr .attributeError d.output
  let out ← out.localized size
  let ps ← orErr .attributeError d.outputProb
  let x ← orErr .typeError out.loc.values
  let (ps, ptr) ← ps.query G size x
  let d := { d with output := some out, outputProb := some ps, ioPtrLocal := some ptr }
  pure (if globalize then { d with ioPtr := some (getGlobalValues ptr) } else d)

/-- /repo/bet/sample.py:2413-2434 `set_emulated_ii_ptr`. -/
def setIiPtr (G : Geometry K) (size : Nat) (d : Disc K) (globalize : Bool) :
    Except Err (Disc K) := do
  let em ← orErr .attributeError d.emInput
  let em ← em.localized size
  let inp ← orErr .attributeError d.input
  let x ← orErr .typeError em.loc.values
  let (inp, ptr) ← inp.query G size x
  let d := { d with emInput := some em, input := some inp, iiPtrLocal := some ptr }
  pure (if globalize then { d with iiPtr := some (getGlobalValues ptr) } else d)

/-- /repo/bet/sample.py:2453-2475 `set_emulated_oo_ptr`. -/
def setOoPtr (G : Geometry K) (size : Nat) (d : Disc K) (globalize : Bool) :
    Except Err (Disc K) := do
  let em ← orErr .attributeError d.emOutput
  let em ← em.localized size
  let ps ← orErr .attributeError d.outputProb
  let x ← orErr .typeError em.loc.values
  let (ps, ptr) ← ps.query G size x
  let d := { d with emOutput := some em, outputProb := some ps, ooPtrLocal := some ptr }
  pure (if globalize then { d with ooPtr := some (getGlobalValues ptr) } else d)

/-- /repo/bet/sample.py:2591-2617 `set_output_probability_set`. -/
def setOutputProbabilitySet (G : Geometry K) (size : Nat) (d : Disc K) (ps : SampleSet K) :
    Except Err (Disc K) := do
  let okOut := match d.output with
    | some o => o.dim == ps.dim
    | none => true
  let okEm := match d.emOutput with
    | some o => o.dim == ps.dim
    | none => true
  if okOut && okEm then
    let d := { d with outputProb := some ps }
    let out ← orErr .attributeError d.output
    if out.loc.values.isSome && ps.glob.values.isSome then d.setIoPtr G size false
    else pure d
  else throw .dimNotMatching

/-- /repo/bet/sample.py:2631-2654 `set_emulated_output_sample_set`. -/
def setEmulatedOutput (d : Disc K) (em : SampleSet K) : Except Err (Disc K) :=
  let okOut := match d.output with
    | some o => o.dim == em.dim
    | none => true
  let okPs := match d.outputProb with
    | some o => o.dim == em.dim
    | none => true
  if okOut && okPs then .ok { d with emOutput := some em } else .error .dimNotMatching

/-- /repo/bet/sample.py:2668-2687 `set_emulated_input_sample_set`. -/
def setEmulatedInput (d : Disc K) (em : SampleSet K) : Except Err (Disc K) :=
  match d.input with
  | some i => if i.dim = em.dim then .ok { d with emInput := some em } else .error .dimNotMatching
  | none => .ok { d with emInput := some em }

/-- /repo/bet/sample.py:2515-2527 `set_input_sample_set`. -/
def setInput (d : Disc K) (s : SampleSet K) : Disc K := { d with input := some s }

/-- /repo/bet/sample.py:2540-2552 `set_output_sample_set`. -/
def setOutput (d : Disc K) (s : SampleSet K) : Disc K := { d with output := some s }

/-- /repo/bet/sample.py:2689-2704 `estimate_input_volume_emulated`. -/
def estimateInputVolumeEmulated [Field K] (G : Geometry K) (size : Nat) (d : Disc K) :
    Except Err (Disc K) := do
  let em ← orErr .attributeError d.emInput
  let inp ← orErr .attributeError d.input
  let (inp, em) ← inp.estimateVolumeEmulated G size em
  pure { d with input := some inp, emInput := some em }

end

/-- /repo/bet/sample.py:2724-2742 `clip`. -/
def clip (size : Nat) (d : Disc K) (cnum : Nat) : Except Err (Disc K) := do
  let i ← orErr .attributeError d.input
  let ci ← i.clip size cnum
  let o ← orErr .attributeError d.output
  let co ← o.clip size cnum
  new size (some ci) (some co) d.outputProb d.emInput d.emOutput

/-- /repo/bet/sample.py:2744-2766 `merge`; the operands, which the call may have
localized, are not returned. -/
def merge [DecidableEq K] (size : Nat) (d e : Disc K) : Except Err (Disc K) := do
  let i ← orErr .attributeError d.input
  let i' ← orErr .attributeError e.input
  let (mi, _, _) ← i.merge size i'
  let o ← orErr .attributeError d.output
  let o' ← orErr .attributeError e.output
  let (mo, _, _) ← o.merge size o'
  let ei ← orErr .attributeError d.emInput
  let ei' ← orErr .attributeError e.emInput
  let (mei, _, _) ← ei.merge size ei'
  let eo ← orErr .attributeError d.emOutput
  let eo' ← orErr .attributeError e.emOutput
  let (meo, _, _) ← eo.merge size eo'
  new size (some mi) (some mo) d.outputProb (some mei) (some meo)

/-- /repo/bet/sample.py:2819-2833 `local_to_global`. -/
def localToGlobal (d : Disc K) : Disc K :=
  { d with
    input := d.input.map SampleSet.localToGlobal
    output := d.output.map SampleSet.localToGlobal
    outputProb := d.outputProb.map SampleSet.localToGlobal
    emInput := d.emInput.map SampleSet.localToGlobal
    emOutput := d.emOutput.map SampleSet.localToGlobal }

/-- `if s is not None: s.global_to_local()`. -/
def localizeOpt (size : Nat) : Option (SampleSet K) → Except Err (Option (SampleSet K))
  | none => .ok none
  | some s => do pure (some (← s.globalToLocal size))

/-- /repo/bet/sample.py:2835-2849 `global_to_local`.  The last statement of the
method names `global_to_local` without calling it, so the emulated output set
stays as it is. -/
def globalToLocal (size : Nat) (d : Disc K) : Except Err (Disc K) := do
  let input ← localizeOpt size d.input
  let output ← localizeOpt size d.output
  let outputProb ← localizeOpt size d.outputProb
  let emInput ← localizeOpt size d.emInput
  pure { d with input, output, outputProb, emInput }

end Disc

end BET
