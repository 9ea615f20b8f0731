import Verif.Model.SampleSet

/-!
# References and copies

The sample sets of a discretization are Python objects to which it holds references: `set_...` stores
the object it is given, `get_...` hands it out, methods change it in place, and `copy` copies the
objects. `Model/Discretization.lean` has values; here are the objects.
-/

set_option autoImplicit false

namespace BET

/-- The attributes of a discretization that hold a sample set (/repo/bet/sample.py:2271-2287). -/
inductive Slot
  | input
  | output
  | emInput
  | emOutput
  | outputProb
  | outputObserved
  deriving DecidableEq

/-- The slots in the order in which `__init__` creates the attributes, in which `copy.deepcopy`
visits them. -/
def Slot.all : List Slot := [.input, .output, .emInput, .emOutput, .outputProb, .outputObserved]

/-- A discretization: the object in each slot, if any.  The pointers are left out, they are replaced
as a whole. -/
abbrev DiscRefs := Slot → Option Nat

/-- All sample sets and all discretizations of a program; an object is referred to by its
position. -/
structure World (K : Type) where
  sets : List (SampleSet K) := []
  discs : List DiscRefs := []

/-- A call.  `change` is any method that changes a sample set in place, called by the user on the
set, `changeIn` one that a method of the discretization, or a function that is given the
discretization, calls on the set in a slot. -/
inductive ObjCall (K : Type)
  | newSet (s : SampleSet K)
  | newDisc (refs : DiscRefs)
  | setSlot (d : Nat) (slot : Slot) (a : Option Nat)
  | change (a : Nat) (f : SampleSet K → SampleSet K)
  | changeIn (d : Nat) (slot : Slot) (f : SampleSet K → SampleSet K)
  | copySet (a : Nat)
  | copyDisc (d : Nat)

namespace World

variable {K : Type}

/-- The objects that a discretization refers to, each once (the keys of the `memo` of
`copy.deepcopy`). -/
def reached (o : DiscRefs) : List Nat := (Slot.all.filterMap o).dedup

/-- An object is changed in place. -/
def modify (w : World K) (a : Nat) (f : SampleSet K → SampleSet K) : Except Err (World K) := do
  let s ← getIdx w.sets a
  pure { w with sets := w.sets.set a (f s) }

/-- `copy.deepcopy` of a discretization (/repo/bet/sample.py:2494-2502 `discretization.copy`): every
object is copied once, the `memo` has the copies already made. -/
def copyDisc (w : World K) (o : DiscRefs) : Except Err (World K) := do
  let copies ← (reached o).mapM fun a => getIdx w.sets a
  pure { sets := w.sets ++ copies
         discs := w.discs ++ [fun slot => (o slot).map fun a =>
           w.sets.length + (reached o).idxOf a] }

/-- The slots whose sets must have the same dimension as the set that is stored in a slot
(/repo/bet/sample.py:2600-2613, 2640-2652, 2677-2688). -/
def peers : Slot → List Slot
  | .outputProb => [.output, .emOutput]
  | .emOutput => [.output, .outputProb]
  | .emInput => [.input]
  | _ => []

/-- The check of the dimensions: `dim_not_matching`. -/
def checkDims (w : World K) (o : DiscRefs) (slot : Slot) (s : SampleSet K) : Except Err Unit := do
  let others ← ((peers slot).filterMap o).mapM fun a => getIdx w.sets a
  raiseIf (others.any fun t => t.dim ≠ s.dim) .dimNotMatching

/-- One call: the constructors; `set_input_sample_set`, `set_output_sample_set`,
`set_output_observed_set`, `set_output_probability_set`, `set_emulated_output_sample_set`,
`set_emulated_input_sample_set` (/repo/bet/sample.py:2515-2527, 2540-2552, 2565-2577, 2591-2617,
2631-2654, 2668-2691; `AttributeError` when the argument is not a sample set; the computing of a pointer in lines
2615-2617 changes no reference and is a `changeIn` of its own);
`sample_set_base.copy` (/repo/bet/sample.py:1339-1362). -/
def step (w : World K) : ObjCall K → Except Err (World K)
  | .newSet s => pure { w with sets := w.sets ++ [s] }
  | .newDisc refs => do
      let _ ← (reached refs).mapM fun a => getIdx w.sets a
      pure { w with discs := w.discs ++ [refs] }
  | .setSlot d slot a => do
      let o ← getIdx w.discs d
      let a ← orErr .attributeError a
      let s ← getIdx w.sets a
      let _ ← w.checkDims o slot s
      pure { w with discs := w.discs.set d (Function.update o slot (some a)) }
  | .change a f => w.modify a f
  | .changeIn d slot f => do
      let o ← getIdx w.discs d
      let a ← orErr .attributeError (o slot)
      w.modify a f
  | .copySet a => do
      let s ← getIdx w.sets a
      pure { w with sets := w.sets ++ [s] }
  | .copyDisc d => do
      let o ← getIdx w.discs d
      w.copyDisc o

/-- A history of calls. -/
def run (w : World K) (cs : List (ObjCall K)) : Except Err (World K) := cs.foldlM step w

/-- `get_input_sample_set` and the other getters (/repo/bet/sample.py:2504-2513, 2529-2538,
2554-2563, 2579-2589, 2619-2629, 2656-2666): the reference itself. -/
def getSlot (w : World K) (d : Nat) (slot : Slot) : Except Err (Option Nat) := do
  let o ← getIdx w.discs d
  pure (o slot)

end World

end BET
