import Verif.Model.CalculateP
import Verif.Model.DiscHistory

/-!
# What is left of a discretization when a call raises

The other models give the state after a call that returns.  Here a call also has a state when it
raises: the one in which the statement that raised left the object.  The methods are the same as in
`Model.SampleSet`, `Model.Query`, `Model.Discretization` and `Model.CalculateP`.
-/

set_option autoImplicit false

namespace BET

/-- A call on an object: the result or the exception, and the object afterwards. -/
def Act (S α : Type) : Type := S → Except Err α × S

namespace Act

variable {S α β : Type}

/-- Statements in sequence: the first one that raises ends the call. -/
def bind (m : Act S α) (f : α → Act S β) : Act S β := fun s =>
  match m s with
  | (.ok a, t) => f a t
  | (.error e, t) => (.error e, t)

instance : Monad (Act S) where
  pure a := fun s => (.ok a, s)
  bind := Act.bind

/-- An expression: it may raise and changes nothing. -/
def look (f : S → Except Err α) : Act S α := fun s => (f s, s)

/-- An assignment. -/
def change (f : S → S) : Act S Unit := fun s => (.ok (), f s)

/-- `if c: ...`, where the condition is about the object. -/
def whenever (c : S → Bool) (m : Act S Unit) : Act S Unit := fun s =>
  if c s then m s else (.ok (), s)

end Act

open Act

namespace SampleSet

variable {K : Type}

/-- /repo/bet/sample.py:1325-1337 `global_to_local`. -/
def globalToLocalA (size : Nat) : Act (SampleSet K) Unit := do
  let num ← look (checkNum size)
  change fun s => { s with
    localIndex := some (arraySplit size (List.range num))
    loc := Arrays.map₂ (splitArr size) s.glob s.loc }

/-- `if s._values_local is None: s.global_to_local()`. -/
def localizedA (size : Nat) : Act (SampleSet K) Unit :=
  whenever (fun s => s.loc.values.isNone) (globalToLocalA size)

/-- /repo/bet/sample.py:1090-1095 `set_kdtree`. -/
def setKdtreeA : Act (SampleSet K) Unit := do
  let v ← look fun s => orErr .valueError s.glob.values
  change fun s => { s with kdtree := some v, glob := { s.glob with kdtreeValues := some v } }

/-- /repo/bet/sample.py:1406-1409. -/
def ensureTreeA (size : Nat) : Act (SampleSet K) Unit := fun s =>
  if s.kdtree.isNone then setKdtreeA s
  else ((s.checkNum size).map fun _ => (), s)

/-- `self._kdtree.query(x)` (/repo/bet/sample.py:1411): points with another number of columns raise
`ValueError`. -/
def treeQuery (G : Geometry K) (xs : Chunks (List K)) (s : SampleSet K) : Except Err (Chunks Nat) := do
  let pts ← orErr .valueError s.kdtree
  let _ ← raiseIf (sameCols pts xs.flatten = false) .valueError
  pure (xs.map fun c => c.map (G.nn s.pNorm pts))

/-- /repo/bet/sample.py:1395-1412 `query` of a Voronoi set; the sets of the other classes
(1962-2001, 2135-2172) change nothing. -/
def queryA [LinearOrder K] (G : Geometry K) (size : Nat) (xs : Chunks (List K)) :
    Act (SampleSet K) (Chunks Nat) := fun s =>
  match s.kind with
  | .voronoi => (do
      let _ ← ensureTreeA size
      look (treeQuery G xs)) s
  | _ => ((s.query G size xs).map Prod.snd, s)

end SampleSet

/-- The sets of a discretization (/repo/bet/sample.py:2250-2303). -/
inductive SetName
  | input
  | output
  | prob
  | emInput
  | emOutput
  deriving DecidableEq

namespace Disc

variable {K : Type}

/-- The attribute. -/
def slot (d : Disc K) : SetName → Option (SampleSet K)
  | .input => d.input
  | .output => d.output
  | .prob => d.outputProb
  | .emInput => d.emInput
  | .emOutput => d.emOutput

/-- The object the attribute refers to has changed. -/
def putSlot (d : Disc K) (s : SampleSet K) : SetName → Disc K
  | .input => { d with input := some s }
  | .output => { d with output := some s }
  | .prob => { d with outputProb := some s }
  | .emInput => { d with emInput := some s }
  | .emOutput => { d with emOutput := some s }

/-- A call on one of the sets; `None` has no methods. -/
def on {α : Type} (k : SetName) (m : Act (SampleSet K) α) : Act (Disc K) α := fun d =>
  match d.slot k with
  | none => (.error .attributeError, d)
  | some s => ((m s).1, d.putSlot (m s).2 k)

/-- The set whose points a pointer is about: outputs, emulated inputs, emulated outputs
(/repo/bet/sample.py:2388, 2428, 2468). -/
def ptrPoints : PtrKind → SetName
  | .io => .output
  | .ii => .emInput
  | .oo => .emOutput

/-- The set whose cells it names (/repo/bet/sample.py:2390, 2430, 2470). -/
def ptrCells : PtrKind → SetName
  | .io => .prob
  | .ii => .input
  | .oo => .prob

/-- The assignment of the local pointer. -/
def putPtrLocal (k : PtrKind) (p : Chunks Nat) (d : Disc K) : Disc K :=
  match k with
  | .io => { d with ioPtrLocal := some p }
  | .ii => { d with iiPtrLocal := some p }
  | .oo => { d with ooPtrLocal := some p }

/-- The assignment of the pointer. -/
def putPtr (k : PtrKind) (p : List Nat) (d : Disc K) : Disc K :=
  match k with
  | .io => { d with ioPtr := some p }
  | .ii => { d with iiPtr := some p }
  | .oo => { d with ooPtr := some p }

section
variable [LinearOrder K]

/-- /repo/bet/sample.py:2378-2394 `set_io_ptr`, 2413-2434 `set_emulated_ii_ptr`, 2453-2475
`set_emulated_oo_ptr`. -/
def setPtrA (G : Geometry K) (size : Nat) (k : PtrKind) (globalize : Bool) : Act (Disc K) Unit := do
  let _ ← on (ptrPoints k) (SampleSet.localizedA size)
  let _ ← look fun d => orErr .attributeError (d.slot (ptrCells k))
  let x ← on (ptrPoints k) (look fun s => orErr .typeError s.loc.values)
  let ptr ← on (ptrCells k) (SampleSet.queryA G size x)
  let _ ← change (putPtrLocal k ptr)
  whenever (fun _ => globalize) (change (putPtr k (getGlobalValues ptr)))

/-- The dimensions of the output sets agree with that of `ps` (/repo/bet/sample.py:2601-2613). -/
def dimsAgree (d : Disc K) (ps : SampleSet K) : Bool :=
  (d.output.all fun o => o.dim == ps.dim) && (d.emOutput.all fun o => o.dim == ps.dim)

/-- /repo/bet/sample.py:2591-2617 `set_output_probability_set`: the attribute is assigned before
`self._output_sample_set._values_local` is read. -/
def setProbSetA (G : Geometry K) (size : Nat) (ps : SampleSet K) : Act (Disc K) Unit := do
  let _ ← look fun d => raiseIf (d.dimsAgree ps = false) .dimNotMatching
  let _ ← change fun d => { d with outputProb := some ps }
  let out ← look fun d => orErr .attributeError d.output
  whenever (fun _ => out.loc.values.isSome && ps.glob.values.isSome) (setPtrA G size .io false)

/-- /repo/bet/sample.py:2689-2704 `estimate_input_volume_emulated` and 2706-2722
`estimate_output_volume_emulated`, with 1278-1310 `estimate_volume_emulated`: the volumes of the
cells of `cells` from the points of `pts`. -/
def estimateA [Field K] (G : Geometry K) (size : Nat) (cells pts : SetName) : Act (Disc K) Unit := do
  let _ ← look fun d => orErr .attributeError (d.slot pts)
  let num ← on cells (look (SampleSet.checkNum size))
  let _ ← on pts (SampleSet.localizedA size)
  let x ← on pts (look fun s => orErr .typeError s.loc.values)
  let ptr ← on cells (SampleSet.queryA G size x)
  let _ ← look fun _ => raiseIf (allreduceSum (x.map List.length) = 0) .zeroDivision
  let _ ← on cells (change fun s => { s with glob := { s.glob with
    volumes := some (((List.range num).map fun i =>
      allreduceSum (ptr.map fun c => (((npEqual c i).count true : Nat) : K))).map
        (· / ((allreduceSum (x.map List.length) : Nat) : K))) } })
  on cells (SampleSet.globalToLocalA size)

/-- `if s is not None: s.global_to_local()`. -/
def localizeIf (size : Nat) (k : SetName) : Act (Disc K) Unit :=
  whenever (fun d => (d.slot k).isSome) (on k (SampleSet.globalToLocalA size))

/-- /repo/bet/sample.py:2835-2849 `global_to_local` (the last statement does nothing). -/
def globalToLocalA (size : Nat) : Act (Disc K) Unit := do
  let _ ← localizeIf size .input
  let _ ← localizeIf size .output
  let _ ← localizeIf size .prob
  localizeIf size .emInput

/-- `if self._io_ptr_local is None: self.set_io_ptr(...)` (/repo/bet/calculateP/calculateP.py:41-42
and 85-86). -/
def ensureIoPtrA (G : Geometry K) (size : Nat) (globalize : Bool) : Act (Disc K) Unit :=
  whenever (fun d => d.ioPtrLocal.isNone) (setPtrA G size .io globalize)

/-- /repo/bet/calculateP/calculateP.py:43-44. -/
def ensureIiPtrA (G : Geometry K) (size : Nat) : Act (Disc K) Unit :=
  whenever (fun d => d.iiPtrLocal.isNone) (setPtrA G size .ii false)

/-- The loop of `prob` (/repo/bet/calculateP/calculateP.py:91-101). -/
def probValues [Field K] (opNum : Nat) (d : Disc K) : Except Err (Chunks K) := do
  let inp ← orErr .attributeError d.input
  let ptr ← orErr .typeError d.ioPtrLocal
  let ops ← orErr .attributeError d.outputProb
  probLoop opNum ops.glob.probabilities ptr inp.loc.volumes

/-- /repo/bet/calculateP/calculateP.py:67-106 `prob`. -/
def probA [Field K] (G : Geometry K) (size : Nat) (globalize : Bool) : Act (Disc K) Unit := do
  let _ ← look (checkNums size)
  let opNum ← on .prob (look (SampleSet.checkNum size))
  let _ ← ensureIoPtrA G size false
  let _ ← on .input (SampleSet.localizedA size)
  let P ← look (probValues opNum)
  let _ ← whenever (fun _ => globalize) (on .input (change fun s =>
    { s with glob := { s.glob with probabilities := some (getGlobalValues P) } }))
  on .input (change fun s =>
    { s with loc := { s.loc with probabilities := some P }, probType := some .voronoi })

/-- The loop of `prob_on_emulated_samples` (/repo/bet/calculateP/calculateP.py:47-58). -/
def probEmValues [Field K] (opNum : Nat) (d : Disc K) : Except Err (Chunks K) := do
  let em ← orErr .attributeError d.emInput
  let emVals ← orErr .attributeError em.loc.values
  let io ← orErr .typeError d.ioPtr
  let ii ← orErr .typeError d.iiPtrLocal
  let ptr ← composePtr io ii
  let ops ← orErr .attributeError d.outputProb
  (List.range opNum).foldlM (probEmBody ops.glob.probabilities ptr)
    (emVals.map fun c => List.replicate c.length 0)

/-- /repo/bet/calculateP/calculateP.py:21-64 `prob_on_emulated_samples`. -/
def probOnEmulatedA [Field K] (G : Geometry K) (size : Nat) (globalize : Bool) :
    Act (Disc K) Unit := do
  let _ ← look (checkNums size)
  let opNum ← on .prob (look (SampleSet.checkNum size))
  let _ ← on .emInput (look (SampleSet.checkNum size))
  let _ ← ensureIoPtrA G size true
  let _ ← ensureIiPtrA G size
  let P ← look (probEmValues opNum)
  let _ ← on .emInput (change fun s =>
    { s with loc := { s.loc with probabilities := some P }, probType := some .voronoi })
  whenever (fun _ => globalize) (on .emInput (change SampleSet.localToGlobal))

/-- /repo/bet/calculateP/calculateP.py:110-132 `prob_with_emulated_volumes`. -/
def probWithEmulatedA [Field K] (G : Geometry K) (size : Nat) : Act (Disc K) Unit := do
  let _ ← look (checkNums size)
  let _ ← on .prob (look (SampleSet.checkNum size))
  let _ ← on .prob (SampleSet.localizedA size)
  let _ ← estimateA G size .input .emInput
  probA G size true

end

end Disc

/-- A call: those of `DiscOp` and the three functions of /repo/bet/calculateP/calculateP.py that
work on a discretization. -/
inductive DiscCall (K : Type)
  | op (o : DiscOp K)
  | prob (globalize : Bool)
  | probOnEmulated (globalize : Bool)
  | probWithEmulated

variable {K : Type} [Field K] [LinearOrder K]

/-- What a call does (see `DiscOp` and `DiscCall` for the lines); a call that only checks before its
one assignment leaves everything as it is when it raises. -/
def DiscCall.exec (G : Geometry K) (size : Nat) : DiscCall K → Act (Disc K) Unit
  | .op (.setInput s) => change fun d => d.setInput s
  | .op (.setOutput s) => change fun d => d.setOutput s
  | .op (.setProb s) => Disc.setProbSetA G size s
  | .op (.setEmOutput s) => fun d =>
      match d.setEmulatedOutput s with
      | .ok e => (.ok (), e)
      | .error e => (.error e, d)
  | .op (.setEmInput s) => fun d =>
      match d.setEmulatedInput s with
      | .ok e => (.ok (), e)
      | .error e => (.error e, d)
  | .op (.setPtr k g) => Disc.setPtrA G size k g
  | .op .globalizePtrs => change Disc.globalizePtrs
  | .op .estimateInput => Disc.estimateA G size .input .emInput
  | .op .estimateOutput => Disc.estimateA G size .output .emOutput
  | .op .localToGlobal => change Disc.localToGlobal
  | .op .globalToLocal => Disc.globalToLocalA size
  | .prob g => Disc.probA G size g
  | .probOnEmulated g => Disc.probOnEmulatedA G size g
  | .probWithEmulated => Disc.probWithEmulatedA G size

/-- A history of calls whose exceptions are caught: the program goes on with what is left. -/
def runCaught (G : Geometry K) (size : Nat) (d : Disc K) (cs : List (DiscCall K)) : Disc K :=
  cs.foldl (fun d c => (c.exec G size d).2) d

end BET
