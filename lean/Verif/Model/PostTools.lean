import Verif.Model.Discretization
import Verif.Model.Choose
import Verif.Model.CalcError

/-!
# Selecting samples by probability (/repo/bet/postProcess/postTools.py)

`argsort` is `numpy.argsort` of floating point numbers: ascending, `nan` last.
-/

set_option autoImplicit false

namespace BET

variable {K : Type} [Field K] [LinearOrder K]

/-- The argument of the functions of this file. -/
inductive PostObj (K : Type)
  | set (s : SampleSet K)
  | disc (d : Disc K)
  | other

/-- The arrays they work on; for a discretization with the output values. -/
structure PostData (K : Type) where
  values : List (List K)
  probs : List K
  vols : Option (List K)
  data : Option (List (List K))

/-- /repo/bet/postProcess/postTools.py:43-54 (and 114-125): `None` has no `>` and no items. -/
def PostObj.read : PostObj K → Except Err (PostData K)
  | .disc d => do
    let i ← orErr .attributeError d.input
    let o ← orErr .attributeError d.output
    let p ← orErr .typeError i.glob.probabilities
    let v ← orErr .typeError i.glob.values
    let y ← orErr .typeError o.glob.values
    pure ⟨v, p, i.glob.volumes, some y⟩
  | .set s => do
    let p ← orErr .typeError s.glob.probabilities
    let v ← orErr .typeError s.glob.values
    pure ⟨v, p, s.glob.volumes, none⟩
  | .other => .error .badObject

/-- A new set with the given arrays. -/
def PostData.toSet (a : PostData K) (dim : Nat) : Except Err (SampleSet K) := do
  let s ← SampleSet.setValues { dim := dim } a.values
  pure { s with glob := { s.glob with probabilities := some a.probs, volumes := a.vols } }

/-- Lines 69-83 (and 158-171): the new object; the sets given to the constructor of the discretization
have no arrays yet. -/
def PostObj.write (size : Nat) (a : PostData K) : PostObj K → Except Err (PostObj K)
  | .disc d => do
    let i ← orErr .attributeError d.input
    let o ← orErr .attributeError d.output
    let _ ← Disc.new size (some ({ dim := i.dim } : SampleSet K)) (some { dim := o.dim }) none none none
    let s ← a.toSet i.dim
    let y ← orErr .typeError a.data
    let t ← SampleSet.setValues { dim := o.dim } y
    pure (.disc { input := some s, output := some t })
  | .set s => do
    let t ← a.toSet s.dim
    pure (.set t)
  | .other => .error .badObject

/-- Lines 57-60: the densities by which the samples are sorted. `P_samples / lam_vol` needs equal
lengths (a single volume for several samples is not modelled). -/
def densitiesOf (p : List K) : Option (List K) → Except Err (List (Num K))
  | none => .ok (p.map .fin)
  | some v => do
    let _ ← raiseIf (p.length ≠ v.length) .valueError
    pure (List.zipWith Num.div p v)

/-- Lines 56-60. -/
def rhoOrder (argsort : List (Num K) → List Nat) (p : List K) (v : Option (List K)) :
    Except Err (List Nat) := do
  let d ← densitiesOf p v
  pure ((argsort d).reverse.take (p.countP fun x => decide (0 < x)))

/-- Lines 61-66. -/
def PostData.select (a : PostData K) (idx : List Nat) : Except Err (PostData K) := do
  let p ← selIdx idx a.probs
  let v ← selIdx idx a.values
  let w ← ifPresent (selIdx idx) a.vols
  let y ← ifPresent (selIdx idx) a.data
  pure ⟨v, p, w, y⟩

/-- /repo/bet/postProcess/postTools.py:23-83 `sort_by_rho`. -/
def sortByRho (argsort : List (Num K) → List Nat) (size : Nat) (o : PostObj K) :
    Except Err (PostObj K × List Nat) := do
  let a ← o.read
  let idx ← rhoOrder argsort a.probs a.vols
  let b ← a.select idx
  let o' ← o.write size b
  pure (o', idx)

/-- `np.cumsum`. -/
def cumsumFrom (s : K) : List K → List K
  | [] => []
  | x :: l => (s + x) :: cumsumFrom (s + x) l

/-- The arrays reversed (lines 137-143). -/
def PostData.reversed (a : PostData K) : PostData K :=
  ⟨a.values.reverse, a.probs.reverse, a.vols.map List.reverse, a.data.map List.reverse⟩

/-- The first `n` samples (lines 148-156). -/
def PostData.first (a : PostData K) (n : Nat) : PostData K :=
  ⟨a.values.take n, a.probs.take n, a.vols.map (List.take n), a.data.map (List.take n)⟩

/-- Line 147. -/
def countUpTo (percentile : K) (p : List K) : Nat :=
  (cumsumFrom 0 p).countP fun c => decide (0 < c ∧ c ≤ percentile)

/-- Lines 127-137: the object that is used and `indices`, which is not bound without sorting. -/
def sortIf (argsort : List (Num K) → List Nat) (size : Nat) (sort : Bool) (o : PostObj K) :
    Except Err (PostObj K × Option (List Nat)) :=
  if sort then do
    let q ← sortByRho argsort size o
    pure (q.1, some q.2)
  else .ok (o, none)

/-- /repo/bet/postProcess/postTools.py:86-174 `sample_prob`. Reading `indices` (line 145 or 174) fails if
it is not bound; nothing is returned then, so the model reads it early. -/
def sampleProb (argsort : List (Num K) → List Nat) (size : Nat) (percentile : K) (o : PostObj K)
    (sort descending : Bool) : Except Err (Nat × PostObj K × List Nat) := do
  let _ ← o.read
  let q ← sortIf argsort size sort o
  let a ← q.1.read
  let idx ← orErr .unboundLocal q.2
  let a := if descending then a.reversed else a
  let idx := if descending then idx.reverse else idx
  let n := countUpTo percentile a.probs
  let o' ← q.1.write size (a.first n)
  pure (n, o', idx.take n)

/-- /repo/bet/postProcess/postTools.py:177-201 `sample_highest_prob`. -/
def sampleHighestProb (argsort : List (Num K) → List Nat) (size : Nat) (percentile : K)
    (o : PostObj K) (sort : Bool) : Except Err (Nat × PostObj K × List Nat) :=
  sampleProb argsort size percentile o sort false

/-- /repo/bet/postProcess/postTools.py:204-230 `sample_lowest_prob`. -/
def sampleLowestProb (argsort : List (Num K) → List Nat) (size : Nat) (percentile : K)
    (o : PostObj K) (sort : Bool) : Except Err (Nat × PostObj K × List Nat) :=
  sampleProb argsort size percentile o sort true

end BET
