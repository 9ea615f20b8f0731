import Verif.Model.CalculateP
import Verif.Model.CalcError
import Verif.Model.Sampling

/-!
# Piecewise polynomial surrogates (/repo/bet/surrogates.py)

The surrogate object shares the new input set and the output probability set with its
discretizations; the model covers the case that the sets handed in are distinct objects.
-/

set_option autoImplicit false

namespace BET

section
variable {K : Type} [Field K] [LinearOrder K]

/-- /repo/bet/surrogates.py:19-35 `__init__`: the input discretization after the call. -/
def surrogateInit (size : Nat) (d : Disc K) : Except Err (Disc K) := do
  let _ ← d.checkNums size
  let inp ← orErr .attributeError d.input
  let out ← orErr .attributeError d.output
  pure { d with input := some inp.localToGlobal, output := some out.localToGlobal }

/-- /repo/bet/surrogates.py:65-68: a missing domain is taken from the old input set, whose domain
has as many rows as the set has dimensions. -/
def inheritDomain (old new : SampleSet K) : SampleSet K :=
  { new with domain := new.domain <|> old.domain }

/-- `a[ptr]` on all processes: rows of `a` by index; `IndexError` out of range. -/
def takeRows {α : Type} (a : List α) (ptr : Chunks Nat) : Except Err (Chunks α) :=
  ptr.mapM fun c => c.mapM (getIdx a)

/-- `einsum('ijk,ik->ij')` for one sample: the Jacobian times the vector. -/
def jacApply (jac : List (List K)) (v : List K) : List K :=
  jac.map fun row => (List.zipWith (· * ·) row v).sum

/-- /repo/bet/surrogates.py:97-104 for one new point `x` in the cell of the sample `c` with output
`q` and Jacobian `jac`. The arrays have matching shapes. -/
def linearValue (q : List K) (jac : List (List K)) (c x : List K) : List K :=
  List.zipWith (· + ·) q (jacApply jac (List.zipWith (· - ·) c x))

/-- `linearValue` on all processes. -/
def linearValues (qs : Chunks (List K)) (jacs : Chunks (List (List K))) (cs xs : Chunks (List K)) :
    Chunks (List K) :=
  List.zipWith (List.zipWith fun (a : List K × List (List K)) (b : List K × List K) =>
    linearValue a.1 a.2 b.1 b.2) (List.zipWith List.zip qs jacs) (List.zipWith List.zip cs xs)

/-- /repo/bet/surrogates.py:89-95: the Jacobians, gathered when only the local ones exist. -/
def surrogateJacobians (inp : SampleSet K) : Except Err (SampleSet K) :=
  if inp.glob.jacobians.isNone then
    if inp.loc.jacobians.isNone then .error .wrongArgumentType else .ok inp.localToGlobal
  else .ok inp

/-- /repo/bet/surrogates.py:82-105: the local output values of the surrogate. -/
def surrogateValues (order : Nat) (inp out : SampleSet K) (xs : Chunks (List K))
    (ptr : Chunks Nat) : Except Err (Chunks (List K)) := do
  let y ← orErr .typeError out.glob.values
  if order = 0 then takeRows y ptr
  else do
    let inp ← surrogateJacobians inp
    let jac ← orErr .typeError inp.glob.jacobians
    let jacs ← takeRows jac ptr
    let v ← orErr .typeError inp.glob.values
    let cs ← takeRows v ptr
    let qs ← takeRows y ptr
    pure (linearValues qs jacs cs xs)

/-- /repo/bet/surrogates.py:107-111: piecewise constant error estimates, if there are any. -/
def surrogateErrors (out : SampleSet K) (ptr : Chunks Nat) (new : SampleSet K) :
    Except Err (SampleSet K) :=
  match out.glob.errorEstimates with
  | none => .ok new
  | some ee => do
      let e ← takeRows ee ptr
      pure { new with loc := { new.loc with errorEstimates := some e } }

/-- The surrogate object after `generate_for_input_set`: the input discretization, the pointers of
the dummy discretization and the surrogate discretization. -/
structure Surrogate (K : Type) where
  disc : Disc K
  ptr : Chunks Nat
  surr : Disc K

/-- /repo/bet/surrogates.py:37-115 `generate_for_input_set`. `d` is the input discretization after
`__init__`; the method works on a deep copy of it. A norm is always set in the model, so lines 69-72
do nothing. -/
def generateForInputSet (G : Geometry K) (size : Nat) (d : Disc K) (new : SampleSet K)
    (order : Nat) : Except Err (Surrogate K) := do
  let _ ← raiseIf (order ≠ 0 ∧ order ≠ 1) .wrongArgumentType
  let _ ← new.checkNum size
  let inp ← orErr .attributeError d.input
  let _ ← raiseIf (new.dim ≠ inp.dim) .dimNotMatching
  let out ← orErr .attributeError d.output
  let dummy ← d.setEmulatedInput (inheritDomain inp new)
  let dummy ← dummy.setIiPtr G size false
  let ptr ← orErr .attributeError dummy.iiPtrLocal
  let new ← orErr .attributeError dummy.emInput
  let xs ← orErr .typeError new.loc.values
  let w ← surrogateValues order inp out xs ptr
  let o ← ({ dim := out.dim } : SampleSet K).setValuesLocal w
  let o ← surrogateErrors out ptr o
  let surr ← Disc.new size (some new) (some o) d.outputProb none none
  pure { disc := d, ptr := ptr, surr := surr }

/-! ### Solving the inverse problem with the surrogate -/

/-- /repo/bet/surrogates.py:145-148. -/
def ensureVolumesMc (size : Nat) (d : Disc K) : Except Err (Disc K) := do
  let inp ← orErr .attributeError d.input
  if inp.loc.volumes.isNone then do
    let i ← inp.estimateVolumeMc size false
    pure { d with input := some i }
  else pure d

/-- What one pass of the loop yields: the probability of the region, the error estimate, the charges
of the surrogate samples and the surrogate discretization. -/
structure RegionPass (K : Type) where
  prob : K
  estimate : Num K
  ids : Chunks (Num K)
  surr : Disc K

/-- One pass of the loop of /repo/bet/surrogates.py:156-166. `pn` are the probabilities of the cells
of `s`. The search tree `s` may get here is not returned. -/
def regionPass (G : Geometry K) (size : Nat) (s : SampleSet K) (pn : List K) (surr : Disc K)
    (region : Int) : Except Err (RegionPass K) := do
  let q ← modelErrorInit G size surr
  let marker ← regionMarker s region
  let sel ← maskSelE pn marker
  let inp ← orErr .attributeError q.1.input
  let inA ← regionMask G size s region inp
  let ops ← orErr .attributeError q.1.outputProb
  let _ ← ops.checkNum size
  let probs ← orErr .typeError ops.glob.probabilities
  let io ← orErr .attributeError q.1.ioPtrLocal
  let r := modelRegionMc inA io q.2 probs
  pure { prob := sel.sum, estimate := r.1, ids := r.2, surr := q.1 }

/-- The loop of /repo/bet/surrogates.py:154-166. The charges of a later region replace those of an
earlier one. -/
def surrogateLoop (G : Geometry K) (size : Nat) (s : SampleSet K) (pn : List K) :
    Disc K → Option (Chunks (Num K)) → List Int →
    Except Err (List K × List (Num K) × Option (Chunks (Num K)) × Disc K)
  | surr, ids, [] => .ok ([], [], ids, surr)
  | surr, _, region :: rest => do
      let p ← regionPass G size s pn surr region
      let q ← surrogateLoop G size s pn p.surr (some p.ids) rest
      pure (p.prob :: q.1, p.estimate :: q.2.1, q.2.2)

/-- `np.sum` of an array that may contain infinities. -/
def sumNum (x : List (Num K)) : Num K := x.foldr Num.add (.fin 0)

/-- /repo/bet/surrogates.py:172-179 for the charges: entry `i` is the sum over all processes of the
charges of the surrogate samples in cell `i`. -/
def gatherNum (num : Nat) (ptr : Chunks Nat) (ids : Chunks (Num K)) : List (Num K) :=
  (List.range num).map fun i =>
    sumNum (List.zipWith (fun c v => sumNum (maskSel v (npEqual c i))) ptr ids)

/-- What `calculate_prob_for_sample_set_region` returns and leaves behind. The charges
`_error_id_local` of the surrogate's input set (`charges`) and `_error_id` of the input set may be
infinite and are kept beside the sets. -/
structure RegionResult (K : Type) where
  probs : List K
  estimates : List (Num K)
  state : Surrogate K
  charges : Option (Chunks (Num K))
  errorId : Option (List (Num K))

/-- /repo/bet/surrogates.py:167-181: new probabilities and charges of the input set. -/
def updateInput (size : Nat) (S : Surrogate K) (ids : Option (Chunks (Num K))) :
    Except Err (Disc K × List (Num K)) := do
  let inp ← orErr .attributeError S.disc.input
  let num ← inp.checkNum size
  let sinp ← orErr .attributeError S.surr.input
  let p ← gatherLoopOpt num S.ptr sinp.loc.probabilities
  let ids ← orErr .typeError ids
  pure ({ S.disc with
    input := some { inp with glob := { inp.glob with probabilities := some p } } },
    gatherNum num S.ptr ids)

/-- /repo/bet/surrogates.py:117-183 `calculate_prob_for_sample_set_region`, on a surrogate that has
been generated. -/
def calculateProbForRegions (G : Geometry K) (size : Nat) (S : Surrogate K) (s : SampleSet K)
    (regions : List Int) (update : Bool) : Except Err (RegionResult K) := do
  let surr ← ensureVolumesMc size S.surr
  let surr ← prob G size surr false
  let sinp ← orErr .attributeError surr.input
  let t ← probFromSampleSet G size sinp s
  let surr := { surr with input := some t.2.1 }
  let q ← surrogateLoop G size t.2.2 t.1 surr none regions
  let S := { S with surr := q.2.2.2 }
  if update then do
    let u ← updateInput size S q.2.2.1
    pure {
      probs := q.1
      estimates := q.2.1
      state := { S with disc := u.1 }
      charges := q.2.2.1
      errorId := some u.2 }
  else pure {
    probs := q.1
    estimates := q.2.1
    state := S
    charges := q.2.2.1
    errorId := none }

end

end BET
