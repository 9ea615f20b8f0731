import Verif.Model.NumPy

/-!
# Normalising the domain (/repo/bet/sample.py:343-414)

`normalize_domain` uses the in-place operators `*=` and `-=`, so two attributes that
share memory influence each other.  This model therefore has a heap.  The unit of memory
is one row along the last axis of an array (all arrays concerned are broadcast against
vectors over the last axis); an array is the list of the addresses of its rows, so an
array may share all or some of its rows with another one (a numpy view).
-/

set_option autoImplicit false

namespace BET

/-- The attributes that `normalize_domain` touches (/repo/bet/sample.py:353, 360-363). -/
inductive NField
  | jacobians | jacobiansLocal
  | values | valuesLocal | errorEstimates | errorEstimatesLocal
  | left | leftLocal | right | rightLocal | referenceValue
  deriving DecidableEq, Repr

/-- /repo/bet/sample.py:353, 387. -/
def rescaleList : List NField := [.jacobians, .jacobiansLocal]

/-- /repo/bet/sample.py:360-363, 397-400. -/
def shiftList : List NField :=
  [.values, .valuesLocal, .errorEstimates, .errorEstimatesLocal, .left, .leftLocal,
   .right, .rightLocal, .referenceValue]

/-- A sample set of one process with the memory its attributes live in.  `next` is the first
unused address.  `domain` and `domainOriginal` are only replaced, never changed in place. -/
structure NState (K : Type) where
  heap : Nat → List K
  next : Nat
  attr : NField → Option (List Nat)
  domain : Option (List (K × K))
  domainOriginal : Option (List (K × K))
  dim : Nat

namespace NState

variable {K : Type}

/-- What the user sees when reading an attribute. -/
def read (s : NState K) (f : NField) : Option (List (List K)) :=
  (s.attr f).map fun r => r.map s.heap

/-- `val op= vector` for an array with rows at `r`: every row is changed where it is. -/
def inPlace (op : List K → List K) (r : List Nat) (s : NState K) : NState K :=
  { s with heap := fun a => if a ∈ r then op (s.heap a) else s.heap a }

/-- `setattr(self, f, val op vector)`: a new array. -/
def assignNew (op : List K → List K) (f : NField) (r : List Nat) (s : NState K) : NState K :=
  { s with
    heap := fun a => if a < s.next then s.heap a else
      ((r.map s.heap).map op).getD (a - s.next) []
    next := s.next + r.length
    attr := fun g => if g = f then some ((List.range r.length).map (s.next + ·)) else s.attr g }

/-- The local attribute of a global one among those of this model. -/
def globalOf : NField → Option NField
  | .jacobiansLocal => some .jacobians
  | .valuesLocal => some .values
  | .errorEstimatesLocal => some .errorEstimates
  | .leftLocal => some .left
  | .rightLocal => some .right
  | _ => none

/-- /repo/bet/sample.py:1325-1337 `global_to_local` on process `rank` of `size`: the local
arrays are views, `np.array_split` does not copy.  (`arraySplit` splits the addresses;
for the Jacobians this model has one address per row of every matrix, so the split is only
right for matrices of one row.) -/
def globalToLocal (size rank : Nat) (s : NState K) : NState K :=
  { s with attr := fun f => match (globalOf f).bind s.attr with
      | some r => some ((arraySplit size r).getD rank [])
      | none => s.attr f }

variable [Field K]

/-- `val * (domain[:, 1] - domain[:, 0])`. -/
def mulWidth (D : List (K × K)) (row : List K) : List K :=
  List.zipWith (fun v d => v * (d.2 - d.1)) row D

/-- `val / (domain[:, 1] - domain[:, 0])`. -/
def divWidth (D : List (K × K)) (row : List K) : List K :=
  List.zipWith (fun v d => v / (d.2 - d.1)) row D

/-- `val - domain[:, 0]`. -/
def subLeft (D : List (K × K)) (row : List K) : List K :=
  List.zipWith (fun v d => v - d.1) row D

/-- `val + domain[:, 0]`. -/
def addLeft (D : List (K × K)) (row : List K) : List K :=
  List.zipWith (fun v d => v + d.1) row D

/-- /repo/bet/sample.py:354-358, one round of the loop. -/
def normScaleStep (D : List (K × K)) (s : NState K) (f : NField) : NState K :=
  match s.attr f with
  | none => s
  | some r => s.inPlace (mulWidth D) r

/-- /repo/bet/sample.py:365-370, one round of the loop. -/
def normShiftStep (D : List (K × K)) (s : NState K) (f : NField) : NState K :=
  match s.attr f with
  | none => s
  | some r => (s.inPlace (subLeft D) r).assignNew (divWidth D) f r

/-- /repo/bet/sample.py:343-373 `normalize_domain`. -/
def normalize (s : NState K) : NState K :=
  match s.domain with
  | none => s
  | some D =>
      { shiftList.foldl (normShiftStep D) (rescaleList.foldl (normScaleStep D) s) with
        domainOriginal := some D
        domain := some (List.replicate s.dim (0, 1)) }

/-- /repo/bet/sample.py:388-395, one round of the loop. -/
def undoScaleStep (D : List (K × K)) (s : NState K) (f : NField) : NState K :=
  match s.attr f with
  | none => s
  | some r => s.assignNew (divWidth D) f r

/-- /repo/bet/sample.py:401-411, one round of the loop (two new arrays, of which the
second is kept). -/
def undoShiftStep (D : List (K × K)) (s : NState K) (f : NField) : NState K :=
  match s.attr f with
  | none => s
  | some r => s.assignNew (fun row => addLeft D (mulWidth D row)) f r

/-- /repo/bet/sample.py:375-414 `undo_normalize_domain`. -/
def undoNormalize (s : NState K) : NState K :=
  match s.domain, s.domainOriginal with
  | some _, some D =>
      { shiftList.foldl (undoShiftStep D) (rescaleList.foldl (undoScaleStep D) s) with
        domain := some D
        domainOriginal := none }
  | _, _ => s

end NState

end BET
