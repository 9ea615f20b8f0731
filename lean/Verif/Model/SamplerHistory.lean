import Verif.Model.Sampling

/-!
# Calls on a `sampler` (/repo/bet/sampling/basicSampling.py:316-587)

Sample sets are objects: a set that is given to a sampler can be changed by it, also when it already belongs to a
discretization. `heap` has all sample sets of the program, a set is referred to by its position.
-/

set_option autoImplicit false

namespace BET

/-- /repo/bet/sampling/basicSampling.py:322-337 `sampler.__init__`: `input_sample_set` (`current`), and the
discretizations that were returned, the last of which is `discretization`. -/
structure SamplerState (K : Type) where
  heap : List (SampleSet K) := []
  current : Option Nat := none
  discs : List (Nat × Nat) := []

/-- `input_obj`: a sample set, the dimension, the domain, or something else. -/
inductive ObjRef (K : Type)
  | ref (a : Nat)
  | dim (d : Nat)
  | domain (d : List (K × K))
  | other

/-- A call on the sampler (or the construction of a set by the user). What is drawn is part of the call. -/
inductive SamplerCall (K : Type)
  | newSet (s : SampleSet K)
  | random (st : Stats K) (rv : RvArg K) (obj : ObjRef K) (n : Nat) (globalize : Bool)
  | lhs (obj : ObjRef K) (cube : List (List K)) (globalize : Bool)
  | regular (obj : ObjRef K) (nums : GridNums)
  | compute (input : Option Nat) (globalize : Bool)
  | localToGlobal

/-- The sampler as it was constructed: the model with the flags. -/
structure SamplerModel (K : Type) where
  size : Nat
  model : Nat → List (List K) → ModelOutput K
  outDim : Nat
  ee : Bool
  jac : Bool

namespace SamplerState

section
variable {K : Type}

/-- The object an argument refers to. -/
def resolve (m : SamplerState K) : ObjRef K → Except Err (InputObj K)
  | .ref a => do
      let s ← getIdx m.heap a
      pure (.set s)
  | .dim d => pure (.dim d)
  | .domain d => pure (.domain d)
  | .other => pure .other

/-- Where the sampled set is: the given object itself, or a new one. -/
def target (m : SamplerState K) : ObjRef K → Nat
  | .ref a => a
  | _ => m.heap.length

/-- The sampled set replaces the given object or is a new one; it is the current one. -/
def put (m : SamplerState K) (s : SampleSet K) : ObjRef K → SamplerState K
  | .ref a => { m with heap := m.heap.set a s, current := some a }
  | _ => { m with heap := m.heap ++ [s], current := some m.heap.length }

/-- `s.local_to_global()` for one object. -/
def globalizeAt (a : Nat) (m : SamplerState K) : SamplerState K :=
  { m with heap := m.heap.modify a SampleSet.localToGlobal }

/-- `if self.input_sample_set is not None: …` -/
def globalizeCurrent (m : SamplerState K) : SamplerState K :=
  match m.current with
  | none => m
  | some a => m.globalizeAt a

/-- `if self.discretization is not None: …`; /repo/bet/sample.py:2819-2833 (the other sets are `None`). -/
def globalizeDisc (m : SamplerState K) : SamplerState K :=
  match m.discs.getLast? with
  | none => m
  | some d => (m.globalizeAt d.1).globalizeAt d.2

end

section
variable {K : Type} [Field K]

/-- /repo/bet/sampling/basicSampling.py:437-532 `compute_qoi_and_create_discretization` (and 429-435, which calls it):
the input set is changed in place, the output set is new. -/
def compute (S : SamplerModel K) (input : Option Nat) (globalize : Bool) (m : SamplerState K) :
    Except Err (SamplerState K) := do
  let a ← orErr .attributeError (input.or m.current)
  let s ← getIdx m.heap a
  let d ← computeQoi S.size S.model S.outDim S.ee S.jac s globalize
  let i ← orErr .attributeError d.input
  let o ← orErr .attributeError d.output
  pure ⟨m.heap.set a i ++ [o], some a, m.discs ++ [(a, m.heap.length)]⟩

/-- One successful call. `random_sample_set` (/repo/bet/sampling/basicSampling.py:348-379) and `lhs_sample_set` (404-427)
work on the object they are given, `regular_sample_set` (381-402) on a copy of it; `local_to_global` is 339-346.
`create_random_discretization` (541-587) is `random` followed by `compute`. -/
def exec (S : SamplerModel K) (m : SamplerState K) : SamplerCall K → Except Err (SamplerState K)
  | .newSet s => pure { m with heap := m.heap ++ [s] }
  | .random st rv obj n globalize => do
      let x ← m.resolve obj
      let s ← randomSampleSet st S.size rv x n globalize
      pure (m.put s obj)
  | .lhs obj cube globalize => do
      let x ← m.resolve obj
      let s ← lhsSampleSet S.size x cube globalize
      pure (m.put s obj)
  | .regular obj nums => do
      let x ← m.resolve obj
      let s ← regularSampleSet S.size x nums
      pure (m.put s .other)
  | .compute input globalize => m.compute S input globalize
  | .localToGlobal => pure m.globalizeCurrent.globalizeDisc

/-- A history of successful calls. -/
def run (S : SamplerModel K) (m : SamplerState K) (cs : List (SamplerCall K)) : Except Err (SamplerState K) :=
  cs.foldlM (exec S) m

end

end SamplerState

/-! ### The reference value (/repo/bet/sampling/basicSampling.py:493-513) -/

/-- An array with one or two axes. -/
inductive RefArray (K : Type)
  | vec (v : List K)
  | rows (m : List (List K))

/-- What the model returns: an array, or a tuple. -/
inductive RefReply (K : Type)
  | array (a : RefArray K)
  | tuple

/-- /repo/bet/sample.py:557-567 `set_reference_value` of a set of dimension `dim`: the value that is stored. A tuple has no
`shape`. -/
def setReference {K : Type} (dim : Nat) : RefReply K → Except Err (List K)
  | .array (.vec v) => if v.length = dim then .ok v else .error .dimNotMatching
  | .array (.rows _) => .error .dimNotMatching
  | .tuple => .error .attributeError

/-- Line 502-503 or 508-509: call the model and store what it returns. -/
def tryReference {K : Type} (lb : RefArray K → Except Err (RefReply K)) (dim : Nat) (x : RefArray K) :
    Except Err (Option (List K)) := do
  let q ← lb x
  let v ← setReference dim q
  pure (some v)

/-- `except ValueError`. -/
def onValueError {α : Type} (x : Except Err α) (handler : Except Err α) : Except Err α :=
  match x with
  | .error .valueError => handler
  | _ => x

/-- /repo/bet/sampling/basicSampling.py:497-511: the reference value of the output set; `none` if the input set has none or
the model raises `ValueError` twice. (The reference value of a sample set is an array, so that line 499-500 does
nothing.) -/
def mapReference {K : Type} (lb : RefArray K → Except Err (RefReply K)) (dim : Nat) :
    Option (List K) → Except Err (Option (List K))
  | none => pure none
  | some lam => onValueError (tryReference lb dim (.vec lam))
      (onValueError (tryReference lb dim (.rows [lam])) (pure none))

end BET
