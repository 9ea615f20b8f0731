import Verif.Model.SpmdSimpleFun
import Verif.Model.Caught

/-!
# Histories of calls on one process
-/

set_option autoImplicit false

namespace BET

variable {K : Type} [Field K] [LinearOrder K]

namespace Disc

/-- /repo/bet/sample.py:2706-2722 `estimate_output_volume_emulated` on one process. -/
def procEstimateOutputVolumeEmulated (G : Geometry K) (rank size : Nat) (d : Disc K) :
    Proc (Msg K) (Disc K) := do
  let em ← Proc.ofExcept (orErr .attributeError d.emOutput)
  let out ← Proc.ofExcept (orErr .attributeError d.output)
  let r ← out.procEstimateVolumeEmulated G rank size em
  pure { d with output := some r.1, emOutput := some r.2 }

/-- /repo/bet/sample.py:2591-2617 `set_output_probability_set` on one process. -/
def procSetOutputProbabilitySet (G : Geometry K) (rank size : Nat) (d : Disc K)
    (ps : SampleSet K) : Proc (Msg K) (Disc K) :=
  if (d.output.all fun o => o.dim == ps.dim) && (d.emOutput.all fun o => o.dim == ps.dim) then do
    let out ← Proc.ofExcept (orErr .attributeError d.output)
    if out.loc.values.isSome && ps.glob.values.isSome then
      procSetIoPtr G rank size { d with outputProb := some ps } false
    else pure { d with outputProb := some ps }
  else Proc.raise .dimNotMatching

/-- One statement of `globalize_ptrs` (/repo/bet/sample.py:2367-2376) on one process. -/
def procFillPtr (l : Option (Chunks Nat)) (g : Option (List Nat)) :
    Proc (Msg K) (Option (List Nat)) :=
  match l, g with
  | some l, none => do
      let x ← gatherList l.flatten
      pure (some x)
  | _, g => pure g

/-- /repo/bet/sample.py:2362-2376 `globalize_ptrs` on one process. -/
def procGlobalizePtrs (d : Disc K) : Proc (Msg K) (Disc K) := do
  let io ← procFillPtr d.ioPtrLocal d.ioPtr
  let ii ← procFillPtr d.iiPtrLocal d.iiPtr
  let oo ← procFillPtr d.ooPtrLocal d.ooPtr
  pure { d with ioPtr := io, iiPtr := ii, ooPtr := oo }

/-- `if s is not None: f(s)` on one process. -/
def procOpt (f : SampleSet K → Proc (Msg K) (SampleSet K)) :
    Option (SampleSet K) → Proc (Msg K) (Option (SampleSet K))
  | none => pure none
  | some s => do
      let s ← f s
      pure (some s)

/-- /repo/bet/sample.py:2819-2833 `local_to_global` on one process. -/
def procLocalToGlobal (d : Disc K) : Proc (Msg K) (Disc K) := do
  let input ← procOpt SampleSet.procLocalToGlobal d.input
  let output ← procOpt SampleSet.procLocalToGlobal d.output
  let outputProb ← procOpt SampleSet.procLocalToGlobal d.outputProb
  let emInput ← procOpt SampleSet.procLocalToGlobal d.emInput
  let emOutput ← procOpt SampleSet.procLocalToGlobal d.emOutput
  pure { d with input, output, outputProb, emInput, emOutput }

/-- /repo/bet/sample.py:2835-2849 `global_to_local` on one process. -/
def procGlobalToLocal (rank size : Nat) (d : Disc K) : Proc (Msg K) (Disc K) := do
  let input ← procOpt (SampleSet.procGlobalToLocal rank size) d.input
  let output ← procOpt (SampleSet.procGlobalToLocal rank size) d.output
  let outputProb ← procOpt (SampleSet.procGlobalToLocal rank size) d.outputProb
  let emInput ← procOpt (SampleSet.procGlobalToLocal rank size) d.emInput
  pure { d with input, output, outputProb, emInput }

/-- The three methods that compute a pointer, on one process. -/
def procSetPtr (G : Geometry K) (rank size : Nat) (d : Disc K) (k : PtrKind) (globalize : Bool) :
    Proc (Msg K) (Disc K) :=
  match k with
  | .io => d.procSetIoPtr G rank size globalize
  | .ii => d.procSetIiPtr G rank size globalize
  | .oo => d.procSetOoPtr G rank size globalize

/-- The data set that a constructor of simple functions was called with, as a discretization: the
constructors give a discretization back when they get one. -/
def ofData (d : Disc K) : DataSet K → Disc K
  | .disc d' => d'
  | _ => d

end Disc

/-- A call of a script that works with one discretization on `n` processes: those of `DiscCall`, and
the constructors of /repo/bet/calculateP/simpleFunP.py with the discretization as data set.  `unif`
and `draw` are random numbers that the root draws, `emu r` those that process `r` draws. -/
inductive ScriptCall (K : Type) (n : Nat)
  | call (c : DiscCall K)
  | uniformSize (q : Option (List K)) (rectSize : NumArg K) (unif : List (List K))
      (emu : Fin n → List (List K)) (num : Nat)
  | uniformScaled (q : Option (List K)) (scale : NumArg K) (unif : List (List K))
      (emu : Fin n → List (List K)) (num : Nat)
  | uniformDomain (rect unif : List (List K)) (emu : Fin n → List (List K)) (num : Nat)
  | regularSize (q : Option (List K)) (rectSize : NumArg K) (cells : CellArg)
  | regularScaled (q : Option (List K)) (scale : NumArg K) (cells : CellArg)
  | regularDomain (rect : List (List K)) (cells : CellArg)
  | dataSamples
  | uniformNormal (q std : NumArg K) (unif : List (List K)) (emu : Fin n → List (List K))
      (num : Nat)
  | normalNormal (q std : NumArg K) (pdf : List K → K) (draw : List (List K))
      (emu : Fin n → List (List K))
  | userPartition (partition distribution : DataSet K)

/-- The state after a call that succeeds, all processes in step (see `DiscOp` and `DiscCall` for the
lines). -/
def DiscCall.step (G : Geometry K) (size : Nat) (d : Disc K) : DiscCall K → Except Err (Disc K)
  | .op o => d.step G size o
  | .prob g => BET.prob G size d g
  | .probOnEmulated g => BET.probOnEmulated G size d g
  | .probWithEmulated => probWithEmulatedVolumes G size d

/-- The state after a call of a script, all processes in step. -/
def ScriptCall.step {n : Nat} (G : Geometry K) (d : Disc K) : ScriptCall K n → Except Err (Disc K)
  | .call c => c.step G n d
  | .uniformSize q rectSize unif emu num => do
      let r ← BET.uniformSize G n (.disc d) q rectSize unif (List.ofFn emu) num
      pure (d.ofData r.2)
  | .uniformScaled q scale unif emu num => do
      let r ← BET.uniformScaled G n (.disc d) q scale unif (List.ofFn emu) num
      pure (d.ofData r.2)
  | .uniformDomain rect unif emu num => do
      let r ← BET.uniformDomain G n (.disc d) rect unif (List.ofFn emu) num
      pure (d.ofData r.2)
  | .regularSize q rectSize cells => do
      let r ← BET.regularSize G n (.disc d) q rectSize cells
      pure (d.ofData r.2)
  | .regularScaled q scale cells => do
      let r ← BET.regularScaled G n (.disc d) q scale cells
      pure (d.ofData r.2)
  | .regularDomain rect cells => do
      let r ← BET.regularDomain G n (.disc d) rect cells
      pure (d.ofData r.2)
  | .dataSamples => do
      let r ← BET.dataSamples G n (.disc d)
      pure (d.ofData r.2)
  | .uniformNormal q std unif emu num => do
      let r ← BET.uniformNormal G n (.disc d) q std unif (List.ofFn emu) num
      pure (d.ofData r.2)
  | .normalNormal q std pdf draw emu => do
      let r ← BET.normalNormal G n (.disc d) q std pdf draw (List.ofFn emu)
      pure (d.ofData r.2)
  | .userPartition partition distribution => do
      let r ← BET.userPartition G n (.disc d) partition distribution
      pure (d.ofData r.2)

/-- The program of one process for a call of `DiscCall`; `d` is what the process has, a set that is an
argument is given to the process as it has it. -/
def DiscCall.proc (G : Geometry K) (rank size : Nat) (d : Disc K) :
    DiscCall K → Proc (Msg K) (Disc K)
  | .op (.setInput s) => pure (d.setInput (s.view rank))
  | .op (.setOutput s) => pure (d.setOutput (s.view rank))
  | .op (.setProb s) => d.procSetOutputProbabilitySet G rank size (s.view rank)
  | .op (.setEmOutput s) => Proc.ofExcept (d.setEmulatedOutput (s.view rank))
  | .op (.setEmInput s) => Proc.ofExcept (d.setEmulatedInput (s.view rank))
  | .op (.setPtr k g) => d.procSetPtr G rank size k g
  | .op .globalizePtrs => d.procGlobalizePtrs
  | .op .estimateInput => d.procEstimateInputVolumeEmulated G rank size
  | .op .estimateOutput => d.procEstimateOutputVolumeEmulated G rank size
  | .op .localToGlobal => d.procLocalToGlobal
  | .op .globalToLocal => d.procGlobalToLocal rank size
  | .prob g => d.procProbCall G rank size g
  | .probOnEmulated g => d.procProbOnEmulatedCall G rank size g
  | .probWithEmulated => d.procProbWithEmulatedVolumes G rank size

/-- The program of process `r` for a call of a script. -/
def ScriptCall.proc {n : Nat} (G : Geometry K) (r : Fin n) (d : Disc K) :
    ScriptCall K n → Proc (Msg K) (Disc K)
  | .call c => c.proc G r n d
  | .uniformSize q rectSize unif emu num => do
      let x ← procUniformSize G r n (.disc d) q rectSize unif (emu r) num
      pure (d.ofData x.2)
  | .uniformScaled q scale unif emu num => do
      let x ← procUniformScaled G r n (.disc d) q scale unif (emu r) num
      pure (d.ofData x.2)
  | .uniformDomain rect unif emu num => do
      let x ← procUniformDomain G r n (.disc d) rect unif (emu r) num
      pure (d.ofData x.2)
  | .regularSize q rectSize cells => do
      let x ← procRegularSize G r n (.disc d) q rectSize cells
      pure (d.ofData x.2)
  | .regularScaled q scale cells => do
      let x ← procRegularScaled G r n (.disc d) q scale cells
      pure (d.ofData x.2)
  | .regularDomain rect cells => do
      let x ← procRegularDomain G r n (.disc d) rect cells
      pure (d.ofData x.2)
  | .dataSamples => do
      let x ← procDataSamples G r n (.disc d)
      pure (d.ofData x.2)
  | .uniformNormal q std unif emu num => do
      let x ← procUniformNormal G r n (.disc d) q std unif (emu r) num
      pure (d.ofData x.2)
  | .normalNormal q std pdf draw emu => do
      let x ← procNormalNormal G r n (.disc d) q std pdf draw (emu r)
      pure (d.ofData x.2)
  | .userPartition partition distribution => do
      let x ← procUserPartition G r n (.disc d) (partition.view r) (distribution.view r)
      pure (d.ofData x.2)

/-- A script, all processes in step. -/
def runScript {n : Nat} (G : Geometry K) (d : Disc K) (cs : List (ScriptCall K n)) :
    Except Err (Disc K) :=
  cs.foldlM (fun d c => c.step G d) d

/-- The program of process `r` for a script. -/
def procScript {n : Nat} (G : Geometry K) (r : Fin n) (d : Disc K) (cs : List (ScriptCall K n)) :
    Proc (Msg K) (Disc K) :=
  cs.foldlM (fun d c => c.proc G r d) d

end BET
