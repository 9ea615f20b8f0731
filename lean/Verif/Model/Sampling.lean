import Verif.Model.Query
import Verif.Model.Util
import Verif.Model.Linspace
import Verif.Model.Discretization

/-!
# Sampling (/repo/bet/sampling/basicSampling.py)
-/

set_option autoImplicit false

namespace BET

variable {K : Type} [Field K]

/-- What `input_obj` may be: a sample set, the dimension, the domain, or something else. -/
inductive InputObj (K : Type)
  | set (s : SampleSet K)
  | dim (d : Nat)
  | domain (d : List (K × K))
  | other

/-- /repo/bet/sampling/basicSampling.py:129-137, 208-214, 263-271: the set that is filled. A set is
returned as it is: `random_sample_set` and `lhs_sample_set` work on the given object, a change of
the result is a change of the argument; `regular_sample_set` works on a copy. -/
def InputObj.toSet (e : Err) : InputObj K → Except Err (SampleSet K)
  | .set s => .ok s
  | .dim d => .ok { dim := d }
  | .domain d => .ok { dim := d.length, domain := some d }
  | .other => .error e

/-- /repo/bet/sampling/basicSampling.py:294-299: the coordinates used in one direction,
`list(np.linspace(a - w/2, b + w/2, n + 2))[1:n+1]` with `w = (b - a)/n`. -/
def gridVec (ab : K × K) (n : Nat) : List K :=
  let w := (ab.2 - ab.1) / (n : K)
  ((linspace (ab.1 - 1 / 2 * w) (ab.2 + 1 / 2 * w) (n + 2)).take (n + 1)).drop 1

/-- `num_samples_per_dim`: a number or an iterable. -/
inductive GridNums
  | scalar (n : Nat)
  | vector (ns : List Nat)

/-- /repo/bet/sampling/basicSampling.py:276-277. -/
def GridNums.perDim (dim : Nat) : GridNums → List Nat
  | .scalar n => List.replicate dim n
  | .vector ns => ns

/-- `self._domain`, or the unit cube (/repo/bet/sampling/basicSampling.py:283-288). -/
def domainOrUnit (s : SampleSet K) : List (K × K) :=
  s.domain.getD (List.replicate s.dim (0, 1))

/-- /repo/bet/sampling/basicSampling.py:290, 305-307: the columns of the grid, which has the `rows`, are assigned to those
of an array with `n` rows. `np.vstack` of an empty array raises `ValueError`; a single point is broadcast to all rows;
otherwise a grid with another number of points raises `ValueError`. -/
def assignGrid (n : Nat) (rows : List (List K)) : Except Err (List (List K)) :=
  if rows.length = 0 then .error .valueError
  else if rows.length = n then .ok rows
  else if rows.length = 1 then .ok (List.replicate n rows).flatten
  else .error .valueError

/-- /repo/bet/sampling/basicSampling.py:241-313 `regular_sample_set`. Fewer numbers than dimensions
raise `IndexError` in the loop; surplus numbers only count in the number of rows of the result. Numbers are
non-negative integers; for 0 the code warns and goes on. Exact arithmetic. `prob_type_init` and the parameters are in `Model.InitMeasure`. -/
def regularSampleSet (size : Nat) (obj : InputObj K) (nums : GridNums) :
    Except Err (SampleSet K) := do
  let s ← obj.toSet .badObject
  let ns := nums.perDim s.dim
  let _ ← raiseIf (ns.length < s.dim) .indexError
  let domain := domainOrUnit s
  let vecs := List.zipWith gridVec (domain.take s.dim) ns
  let num := (vecs.map List.length).prod
  let values ← assignGrid ns.prod (stackColumns num ((List.range s.dim).map (meshComponent vecs)))
  let s ← { s with domain := some domain }.setValues values
  s.globalToLocal size

/-- /repo/bet/sample.py:1077-1088 `set_values_local` on all processes, for matrices that already have
the shape (local_num, dim). -/
def SampleSet.setValuesLocal (s : SampleSet K) (v : Chunks (List K)) : Except Err (SampleSet K) :=
  if v.all (fun c => SampleSet.colsOk s.dim (some c)) then
    .ok { s with loc := { s.loc with values := some v } }
  else .error .dimNotMatching

/-! ### Random samples -/

/-- One distribution: its name in `scipy.stats` and the keyword arguments. -/
structure RvSpec (K : Type) where
  name : String
  args : List (String × K)
  deriving DecidableEq

/-- What `rv` may be: a string, a list or tuple `[str, dict]`, another list or tuple (of such pairs),
or something else. -/
inductive RvArg (K : Type)
  | str (name : String)
  | pair (r : RvSpec K)
  | list (rs : List (RvSpec K))
  | other

/-- /repo/bet/sampling/basicSampling.py:141-157: one distribution for each dimension. -/
def RvArg.perDim (dim : Nat) (domain : Option (List (K × K))) :
    RvArg K → Except Err (List (RvSpec K))
  | .str name =>
      match domain with
      | none => .ok (List.replicate dim ⟨name, []⟩)
      | some d => .ok (d.map fun ab => ⟨name, [("loc", ab.1), ("scale", ab.2 - ab.1)]⟩)
  | .pair r => .ok (List.replicate dim r)
  | .list rs => if rs.length ≠ dim then .error .dimNotMatching else .ok rs
  | .other => .error .wrongInput

/-- `scipy.stats`: `rvs rank i spec n` are the `n` numbers that process `rank` draws for dimension
`i`; `interval` is `rv.interval(1, **args)`. Unknown names and wrong arguments raise. -/
structure Stats (K : Type) where
  rvs : Nat → Nat → RvSpec K → Nat → Except Err (List K)
  interval : RvSpec K → Except Err (K × K)

/-- The rows of the matrix with the given columns: `a[:, i] = columns[i]` for all `i`, in an array of
`n` rows; a column of another length raises `ValueError`. -/
def fromColumns {α : Type} (n : Nat) (columns : List (List α)) : Except Err (List (List α)) :=
  if columns.all (fun c => c.length == n) then .ok (stackColumns n columns)
  else .error .valueError

/-- Lines 163-170 on one process. -/
def drawLocal (st : Stats K) (specs : List (RvSpec K)) (n rank : Nat) :
    Except Err (List (List K)) := do
  let columns ← specs.zipIdx.mapM fun e => st.rvs rank e.2 e.1 n
  fromColumns n columns

/-- `check_num_local()` on every process. -/
def SampleSet.checkNumLocalAll (size : Nat) (s : SampleSet K) : Except Err Unit := do
  let _ ← (List.range size).mapM fun r => s.checkNumLocal r
  pure ()

/-- The end of `random_sample_set` and `lhs_sample_set` (lines 178-182 and 228-232). -/
def SampleSet.globalizeIf (globalize : Bool) (s : SampleSet K) : SampleSet K :=
  if globalize then s.localToGlobal else { s with glob := { s.glob with values := none } }

/-- /repo/bet/sampling/basicSampling.py:92-182 `random_sample_set`, without the abbreviations `"r"`,
`"random"` for `"uniform"` and `"lhs"` for `lhs_sample_set`. Those, `prob_type_init` and the
parameters are in `Model.InitMeasure`. -/
def randomSampleSet (st : Stats K) (size : Nat) (rv : RvArg K) (obj : InputObj K) (n : Nat)
    (globalize : Bool) : Except Err (SampleSet K) := do
  let s ← obj.toSet .wrongInput
  let specs ← rv.perDim s.dim s.domain
  let chunks ← (List.range size).mapM fun r => drawLocal st specs (numLocal n size r) r
  let domain ← specs.mapM st.interval
  let s ← s.setValuesLocal chunks
  let s := { s with domain := some domain }
  let _ ← s.checkNumLocalAll size
  let _ ← s.checkNum size
  pure (s.globalizeIf globalize)

/-! ### Latin hypercubes -/

/-- /repo/bet/sample.py:635-646 `update_bounds(num)`. -/
def SampleSet.updateBounds (s : SampleSet K) (num : Nat) : Except Err (SampleSet K) := do
  let d ← orErr .typeError s.domain
  pure { s with glob := { s.glob with
    left := some (List.replicate num (d.map Prod.fst))
    right := some (List.replicate num (d.map Prod.snd))
    width := some (List.replicate num (d.map fun ab => ab.2 - ab.1)) } }

/-- /repo/bet/sampling/basicSampling.py:185-238 `lhs_sample_set`. `cube` is what
`lhs(dim, num_samples, criterion)` of pyDOE returns, on every process the same (each process calls it;
they agree only if the generators are seeded alike). An object of another type leaves
`input_sample_set` unbound. -/
def lhsSampleSet (size : Nat) (obj : InputObj K) (cube : List (List K)) (globalize : Bool) :
    Except Err (SampleSet K) := do
  let s ← obj.toSet .unboundLocal
  let domain := domainOrUnit s
  let s ← { s with domain := some domain }.updateBounds cube.length
  let values := cube.map fun row =>
    List.zipWith (fun ab u => (ab.2 - ab.1) * u + ab.1) domain row
  let s ← s.setValuesLocal (arraySplit size values)
  pure (s.globalizeIf globalize)

/-! ### Running the model -/

/-- What the model may return for the samples of one process: an array, a tuple of one, two or three
arrays, a tuple of another length, or something else. Arrays are given by their rows. -/
inductive ModelOutput (K : Type)
  | array (q : List (List K))
  | tuple1 (q : List (List K))
  | tuple2 (q : List (List K)) (x : List (List K)) (j : List (List (List K)))
  | tuple3 (q : List (List K)) (ee : List (List K)) (jac : List (List (List K)))
  | tupleN
  | other

/-- What is bound after /repo/bet/sampling/basicSampling.py:468-483 on one process: output values,
error estimates, Jacobians. The second entry of a pair is read as error estimates (`x`) or as
Jacobians (`j`), depending on the flags. -/
def unpack (ee jac : Bool) : ModelOutput K →
    Except Err (List (List K) × Option (List (List K)) × Option (List (List (List K))))
  | .array q => .ok (q, none, none)
  | .tuple1 q => .ok (q, none, none)
  | .tuple2 q x j =>
      if ee then .ok (q, some x, none) else if jac then .ok (q, none, some j)
      else .error .unboundLocal
  | .tuple3 q e j => .ok (q, some e, some j)
  | .tupleN => .error .unboundLocal
  | .other => .error .badObject

/-- Use the error estimates of all processes if the flag is set. -/
def withErrors (flag : Bool) (parts : List (Option (List (List K)))) (s : SampleSet K) :
    Except Err (SampleSet K) :=
  if flag then do
    let e ← parts.mapM (orErr .unboundLocal)
    pure { s with loc := { s.loc with errorEstimates := some e } }
  else .ok s

/-- Use the Jacobians of all processes if the flag is set. -/
def withJacobians (flag : Bool) (parts : List (Option (List (List (List K))))) (s : SampleSet K) :
    Except Err (SampleSet K) :=
  if flag then do
    let e ← parts.mapM (orErr .unboundLocal)
    pure { s with loc := { s.loc with jacobians := some e } }
  else .ok s

/-- /repo/bet/sampling/basicSampling.py:437-532 `compute_qoi_and_create_discretization`.  `model r`
is `lb_model` as process `r` calls it, `outDim` the number of columns of its outputs (the same on all
processes). Not modelled: the reference value and the output file. The sampler keeps the input set and
the discretization; both are in the result. -/
def computeQoi (size : Nat) (model : Nat → List (List K) → ModelOutput K) (outDim : Nat)
    (ee jac : Bool) (s : SampleSet K) (globalize : Bool) : Except Err (Disc K) := do
  let s ← s.localized size
  let vals ← orErr .attributeError s.loc.values
  let outs ← vals.zipIdx.mapM fun c => unpack ee jac (model c.2 c.1)
  let out ← ({ dim := outDim } : SampleSet K).setValuesLocal (outs.map fun o => o.1)
  let out ← withErrors ee (outs.map fun o => o.2.1) out
  let s ← withJacobians jac (outs.map fun o => o.2.2) s
  let s := s.globalizeIf globalize
  let out := if globalize then out.localToGlobal else out
  Disc.new size (some s) (some out) none none none

/-! ### Resampling from an updated measure -/

/-- /repo/bet/sampling/basicSampling.py:61-63, 76-78: how many samples each process draws from each
cluster; `rnd` is Python's `round`. -/
def updatedCounts (rnd : K → Nat) (weights : List K) (n size rank : Nat) : List Nat :=
  weights.map fun w => numLocal (rnd (w * (n : K))) size rank

end BET
