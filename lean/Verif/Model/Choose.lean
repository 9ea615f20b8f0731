import Verif.Model.Discretization

/-!
# `discretization.choose_inputs_outputs` (/repo/bet/sample.py:2768-2817)
-/

set_option autoImplicit false

namespace BET

/-- `xs[idx]` or `xs.take(idx)` for a list of non-negative indices (negative ones are not
modelled). -/
def selIdx {α : Type} (idx : List Nat) (xs : List α) : Except Err (List α) :=
  idx.mapM (getIdx xs)

/-- `m[:, idx]`.  (numpy checks the indices also when the matrix has no rows.) -/
def selCols {α : Type} (idx : List Nat) (m : List (List α)) : Except Err (List (List α)) :=
  m.mapM (selIdx idx)

/-- /repo/bet/sample.py:2812-2813 `nval.take(outputs, axis=1)`, then
`nval.take(inputs, axis=2)`. -/
def selJac {α : Type} (inputs outputs : List Nat) (j : List (List (List α))) :
    Except Err (List (List (List α))) := do
  let j ← selCols outputs j
  j.mapM (selCols inputs)

/-- `if val is not None: setattr(..., f(val))`. -/
def ifPresent {α β : Type} (f : α → Except Err β) : Option α → Except Err (Option β)
  | none => .ok none
  | some a => do pure (some (← f a))

namespace SampleSet

variable {K : Type}

/-- The part of /repo/bet/sample.py:2785-2814 that concerns one of the two sets: a new
Voronoi set with the chosen coordinates of domain, reference value, values and error
estimates. -/
def chooseCoords (s : SampleSet K) (idx : List Nat) : Except Err (SampleSet K) := do
  let domain ← ifPresent (selIdx idx) s.domain
  let ref ← ifPresent (selIdx idx) s.referenceValue
  let values ← ifPresent (selCols idx) s.glob.values
  let valuesLocal ← ifPresent (List.mapM (selCols idx)) s.loc.values
  let err ← ifPresent (selCols idx) s.glob.errorEstimates
  let errLocal ← ifPresent (List.mapM (selCols idx)) s.loc.errorEstimates
  pure { dim := idx.length
         pNorm := s.pNorm
         domain := domain
         referenceValue := ref
         glob := { values := values, errorEstimates := err }
         loc := { values := valuesLocal, errorEstimates := errLocal } }

end SampleSet

namespace Disc

variable {K : Type}

/-- /repo/bet/sample.py:2768-2817 `choose_inputs_outputs`.  The default `None` has no `len`.
The two sets do not interact, so the model treats the input set first. -/
def chooseInputsOutputs (size : Nat) (d : Disc K) (inputs outputs : Option (List Nat)) :
    Except Err (Disc K) := do
  let ins ← orErr .typeError inputs
  let outs ← orErr .typeError outputs
  let inp ← orErr .attributeError d.input
  let out ← orErr .attributeError d.output
  let i ← inp.chooseCoords ins
  let o ← out.chooseCoords outs
  let jac ← ifPresent (selJac ins outs) inp.glob.jacobians
  let jacLocal ← ifPresent (List.mapM (selJac ins outs)) inp.loc.jacobians
  new size
    (some { i with
      glob := { i.glob with jacobians := jac }
      loc := { i.loc with jacobians := jacLocal } })
    (some o) none none none

end Disc

end BET
