import Verif.Model.Discretization

/-!
# Histories of calls on one discretization
-/

set_option autoImplicit false

namespace BET

/-- The three pointers of a discretization (/repo/bet/sample.py:2284-2298): from the outputs to
the output probability set, from the emulated inputs to the inputs, and from the emulated outputs
to the output probability set. -/
inductive PtrKind
  | io
  | ii
  | oo

/-- A call on a discretization: the setters /repo/bet/sample.py:2515-2527 `set_input_sample_set`,
2540-2552 `set_output_sample_set`, 2591-2617 `set_output_probability_set`, 2631-2654
`set_emulated_output_sample_set`, 2668-2687 `set_emulated_input_sample_set`; 2378-2394
`set_io_ptr`, 2413-2434 `set_emulated_ii_ptr` and 2453-2475 `set_emulated_oo_ptr`; 2362-2376
`globalize_ptrs`; 2689-2704 `estimate_input_volume_emulated` and 2706-2722
`estimate_output_volume_emulated`; 2819-2833 `local_to_global` and 2835-2849 `global_to_local`.
The getters change nothing and `clip`, `merge`, `copy` and `choose_inputs_outputs` return new
objects, so they are not listed.  The observed set is not modelled. -/
inductive DiscOp (K : Type)
  | setInput (s : SampleSet K)
  | setOutput (s : SampleSet K)
  | setProb (s : SampleSet K)
  | setEmOutput (s : SampleSet K)
  | setEmInput (s : SampleSet K)
  | setPtr (k : PtrKind) (globalize : Bool)
  | globalizePtrs
  | estimateInput
  | estimateOutput
  | localToGlobal
  | globalToLocal

namespace Disc

variable {K : Type} [Field K] [LinearOrder K]

/-- /repo/bet/sample.py:2706-2722 `estimate_output_volume_emulated`. -/
def estimateOutputVolumeEmulated (G : Geometry K) (size : Nat) (d : Disc K) :
    Except Err (Disc K) := do
  let em ← orErr .attributeError d.emOutput
  let out ← orErr .attributeError d.output
  let q ← out.estimateVolumeEmulated G size em
  pure { d with output := some q.1, emOutput := some q.2 }

/-- The three methods that compute a pointer: /repo/bet/sample.py:2378-2394 `set_io_ptr`,
2413-2434 `set_emulated_ii_ptr`, 2453-2475 `set_emulated_oo_ptr`. -/
def setPtr (G : Geometry K) (size : Nat) (d : Disc K) (k : PtrKind) (globalize : Bool) :
    Except Err (Disc K) :=
  match k with
  | .io => d.setIoPtr G size globalize
  | .ii => d.setIiPtr G size globalize
  | .oo => d.setOoPtr G size globalize

/-- The state after one successful call (see `DiscOp` for the lines in /repo/bet/sample.py). -/
def step (G : Geometry K) (size : Nat) (d : Disc K) : DiscOp K → Except Err (Disc K)
  | .setInput s => .ok (d.setInput s)
  | .setOutput s => .ok (d.setOutput s)
  | .setProb s => d.setOutputProbabilitySet G size s
  | .setEmOutput s => d.setEmulatedOutput s
  | .setEmInput s => d.setEmulatedInput s
  | .setPtr k g => d.setPtr G size k g
  | .globalizePtrs => .ok d.globalizePtrs
  | .estimateInput => d.estimateInputVolumeEmulated G size
  | .estimateOutput => d.estimateOutputVolumeEmulated G size
  | .localToGlobal => .ok d.localToGlobal
  | .globalToLocal => d.globalToLocal size

/-- A history of successful calls. -/
def run (G : Geometry K) (size : Nat) (d : Disc K) (ops : List (DiscOp K)) :
    Except Err (Disc K) :=
  ops.foldlM (fun d op => d.step G size op) d

end Disc

end BET
