import Verif.Model.Discretization
import Verif.Model.Rectangle
import Verif.Model.Linspace

/-!
# Simple-function approximations of the output density
(/repo/bet/calculateP/simpleFunP.py)

The random numbers that the code draws are arguments of the model, so every statement
about it holds for every outcome of the sampling.  A shape that numpy would broadcast
(one column against many) is an error here.
-/

set_option autoImplicit false

namespace BET

variable {K : Type}

/-- The kinds of data set that every constructor accepts: an array with its number of
columns, a sample set, or a discretization. -/
inductive DataSet (K : Type)
  | array (dim : Nat) (values : List (List K))
  | set (s : SampleSet K)
  | disc (d : Disc K)

/-- A numerical argument: `None`, a number, a Python list (or tuple), an array. -/
inductive NumArg (K : Type)
  | missing
  | scalar (x : K)
  | pylist (l : List K)
  | array (l : List K)

/-- What the constructors learn about the data set. -/
structure Inputs (K : Type) where
  num : Nat
  dim : Nat
  values : Option (List (List K))

/-- /repo/bet/calculateP/simpleFunP.py:98-119 `check_inputs_no_reference`. -/
def DataSet.inputs (size : Nat) : DataSet K → Except Err (Inputs K)
  | .set s => do
      let num ← s.checkNum size
      pure ⟨num, s.dim, s.glob.values⟩
  | .disc d => do
      let num ← d.checkNums size
      let out ← orErr .attributeError d.output
      pure ⟨num, out.dim, out.glob.values⟩
  | .array dim v => pure ⟨v.length, dim, some v⟩

/-- /repo/bet/calculateP/simpleFunP.py:48-57 `infer_Q`. -/
def DataSet.inferQ : DataSet K → Except Err (Option (List K))
  | .set s => pure s.referenceValue
  | .disc d => do
      let out ← orErr .attributeError d.output
      pure out.referenceValue
  | .array _ _ => pure none

/-- `if Q_ref is None: Q_ref = infer_Q(data_set)`. -/
def DataSet.orInfer (ds : DataSet K) : Option (List K) → Except Err (Option (List K))
  | some q => pure (some q)
  | none => ds.inferQ

/-- /repo/bet/calculateP/simpleFunP.py:60-95 `check_inputs` after `infer_Q`: without a
reference value after that it raises (the branch of line 83 cannot be reached, because
`infer_Q` has looked up the same attribute). -/
def DataSet.checkInputs (size : Nat) (ds : DataSet K) (q : Option (List K)) :
    Except Err (Inputs K × List K) := do
  let q ← ds.orInfer q
  let inp ← ds.inputs size
  let q ← orErr .wrongArgumentType q
  pure (inp, q)

/-- The last lines of every constructor (e.g. /repo/bet/calculateP/simpleFunP.py:251-254):
a discretization gets the new set as output probability set and new pointers.  Returns the
set and the data set. -/
def DataSet.attach [LinearOrder K] (G : Geometry K) (size : Nat) (ds : DataSet K)
    (s : SampleSet K) : Except Err (SampleSet K × DataSet K) :=
  match ds with
  | .disc d => do
      let d ← { d with outputProb := some s }.setIoPtr G size false
      let ps ← orErr .attributeError d.outputProb
      pure (ps, .disc d)
  | ds => pure (s, ds)

section
variable [Field K] [LinearOrder K]

/-- `c * size * (u - 0.5) + centre` for one row `u` of uniform random numbers
(/repo/bet/calculateP/simpleFunP.py:206, 225, 694); the three vectors must have the same
length. -/
def stretch (c : K) (size centre u : List K) : List K :=
  List.zipWith (fun p q => p + q)
    (List.zipWith (fun r x => c * r * (x - 1 / 2)) size u) centre

/-- The set with the given samples whose probabilities are found by binning
(/repo/bet/calculateP/simpleFunP.py:213-243, 700-731, 818-841): `emulate` are the points of
the processes, `M` the number of bins that are counted, `denom` the number by which the
counts are divided.  A division by 0 gives
`nan` in numpy and is an error here. -/
def binnedSet (G : Geometry K) (size dim M : Nat) (samples : List (List K))
    (emulate : Chunks (List K)) (denom : K) : Except Err (SampleSet K) := do
  let s : SampleSet K := { dim }
  let s ← s.setValues samples
  let s ← s.setKdtree
  let q ← s.query G size emulate
  let counts := (List.range M).map fun i =>
    allreduceSum (q.2.map fun c => (((npEqual c i).count true : Nat) : K))
  let _ ← raiseIf (denom = 0) .zeroDivision
  pure { q.1 with glob := { q.1.glob with probabilities := some (counts.map (· / denom)) } }

/-- /repo/bet/calculateP/simpleFunP.py:168-174, 391-398: the sizes as an array. -/
def sizeArray (dim : Nat) : NumArg K → Except Err (List K)
  | .missing => .error .wrongArgumentType
  | .scalar x => pure (List.replicate dim x)
  | .pylist l => pure l
  | .array l => pure l

/-- `1.5 * rect_size` raises `TypeError` for a Python list
(/repo/bet/calculateP/simpleFunP.py:206). -/
def notPyList : NumArg K → Except Err Unit
  | .pylist _ => .error .typeError
  | _ => .ok ()

/-- /repo/bet/calculateP/simpleFunP.py:122-254
`uniform_partition_uniform_distribution_rectangle_size`.  `unif` are the `M` rows of uniform
numbers for the samples, `emu` those of the processes for the emulation. -/
def uniformSize (G : Geometry K) (size : Nat) (ds : DataSet K) (q : Option (List K))
    (rectSize : NumArg K) (unif : List (List K)) (emu : Chunks (List K)) (num : Nat) :
    Except Err (SampleSet K × DataSet K) := do
  let c ← ds.checkInputs size q
  let rs ← sizeArray c.1.dim rectSize
  let _ ← raiseIf (∃ r ∈ rs, r ≤ 0) .wrongArgumentType
  let _ ← notPyList rectSize
  let _ ← raiseIf (rs.length ≠ c.1.dim ∨ c.2.length ≠ c.1.dim) .valueError
  let s ← binnedSet G size c.1.dim unif.length (unif.map (stretch (3 / 2) rs c.2))
    (emu.map fun ch => ch.map (stretch 1 rs c.2)) (num : K)
  ds.attach G size s

/-- `np.max(values, 0)` and `np.min(values, 0)`: `f` is `max` or `min`. -/
def colFold (f : K → K → K) : List (List K) → Except Err (List K)
  | [] => .error .valueError
  | r :: rs => .ok (rs.foldl (List.zipWith f) r)

/-- `(np.max(values, 0) - np.min(values, 0))`. -/
def extent (v : List (List K)) : Except Err (List K) := do
  let hi ← colFold max v
  let lo ← colFold min v
  pure (List.zipWith (fun a b => a - b) hi lo)

/-- `extent * rect_scale`, for a number or a vector. -/
def scaleBy (w : List K) : NumArg K → Except Err (List K)
  | .missing => .error .typeError
  | .scalar x => pure (w.map (· * x))
  | .pylist l => if w.length = l.length then pure (List.zipWith (· * ·) w l) else .error .valueError
  | .array l => if w.length = l.length then pure (List.zipWith (· * ·) w l) else .error .valueError

/-- /repo/bet/calculateP/simpleFunP.py:257-307
`uniform_partition_uniform_distribution_rectangle_scaled`. -/
def uniformScaled (G : Geometry K) (size : Nat) (ds : DataSet K) (q : Option (List K))
    (scale : NumArg K) (unif : List (List K)) (emu : Chunks (List K)) (num : Nat) :
    Except Err (SampleSet K × DataSet K) := do
  let c ← ds.checkInputs size q
  let v ← orErr .typeError c.1.values
  let w ← extent v
  let rs ← scaleBy w scale
  uniformSize G size ds (some c.2) (.array rs) unif emu num

/-- `np.mean(rect_domain, 0)`. -/
def colMean (v : List (List K)) : Except Err (List K) := do
  let _ ← raiseIf (v = []) .valueError
  pure ((v.tail.foldl (List.zipWith (· + ·)) (v.headD [])).map (· / (v.length : K)))

/-- /repo/bet/calculateP/simpleFunP.py:310-355
`uniform_partition_uniform_distribution_rectangle_domain`, for a `rect_domain` whose rows
are points of the output space (`fix_dimensions_data` is in `Model.Util`). -/
def uniformDomain (G : Geometry K) (size : Nat) (ds : DataSet K) (rect : List (List K))
    (unif : List (List K)) (emu : Chunks (List K)) (num : Nat) :
    Except Err (SampleSet K × DataSet K) := do
  let inp ← ds.inputs size
  let _ ← orErr .attributeError inp.values
  let centre ← colMean rect
  let lengths ← extent rect
  uniformSize G size ds (some centre) (.array lengths) unif emu num

/-- The number of cells per dimension: one number for all or a list. -/
inductive CellArg
  | scalar (n : Nat)
  | list (l : List Nat)

/-- /repo/bet/calculateP/simpleFunP.py:400-401, 409: `cells_per_dimension[i]`. -/
def CellArg.get (c : CellArg) (i : Nat) : Except Err Nat :=
  match c with
  | .scalar n => .ok n
  | .list l => getIdx l i

/-- The loop of /repo/bet/calculateP/simpleFunP.py:406-409. -/
def gridVectors (mins maxes : List K) (cells : CellArg) (dim : Nat) :
    Except Err (List (List K)) :=
  (List.range dim).mapM fun i => do
    let a ← getIdx mins i
    let b ← getIdx maxes i
    let n ← cells.get i
    pure (linspace a b (n + 1))

/-- /repo/bet/calculateP/simpleFunP.py:358-425
`regular_partition_uniform_distribution_rectangle_size`. -/
def regularSize (G : Geometry K) (size : Nat) (ds : DataSet K) (q : Option (List K))
    (rectSize : NumArg K) (cells : CellArg) : Except Err (SampleSet K × DataSet K) := do
  let c ← ds.checkInputs size q
  let rs ← sizeArray c.1.dim rectSize
  let _ ← raiseIf (∃ r ∈ rs, r ≤ 0) .wrongArgumentType
  let _ ← raiseIf (rs.length ≠ c.2.length) .valueError
  let maxes := List.zipWith (fun q r => q + 1 / 2 * r) c.2 rs
  let mins := List.zipWith (fun q r => q - 1 / 2 * r) c.2 rs
  let xi ← gridVectors mins maxes cells c.1.dim
  let s : SampleSet K := { dim := c.1.dim, kind := .rectangle }
  let s ← s.setupCartesian xi
  let _ ← raiseIf (mins.length ≠ c.1.dim) .valueError
  let s := { s with domain := some (List.zip mins maxes) }
  let s ← s.exactVolumeLebesgue size
  let vols ← orErr .typeError s.glob.volumes
  let vol := vols.dropLast.sum
  let _ ← raiseIf (vol = 0) .zeroDivision
  let s := { s with glob := { s.glob with
    probabilities := some (vols.dropLast.map (· / vol) ++ [0]) } }
  ds.attach G size s

/-- /repo/bet/calculateP/simpleFunP.py:428-464
`regular_partition_uniform_distribution_rectangle_domain`. -/
def regularDomain (G : Geometry K) (size : Nat) (ds : DataSet K) (rect : List (List K))
    (cells : CellArg) : Except Err (SampleSet K × DataSet K) := do
  let inp ← ds.inputs size
  let _ ← orErr .attributeError inp.values
  let centre ← colMean rect
  let lengths ← extent rect
  regularSize G size ds (some centre) (.array lengths) cells

/-- /repo/bet/calculateP/simpleFunP.py:467-510
`regular_partition_uniform_distribution_rectangle_scaled`. -/
def regularScaled (G : Geometry K) (size : Nat) (ds : DataSet K) (q : Option (List K))
    (scale : NumArg K) (cells : CellArg) : Except Err (SampleSet K × DataSet K) := do
  let c ← ds.checkInputs size q
  let v ← orErr .typeError c.1.values
  let w ← extent v
  let rs ← scaleBy w scale
  regularSize G size ds (some c.2) (.array rs) cells

/-- The set that /repo/bet/calculateP/simpleFunP.py:530-546 starts from and the number of
its samples. -/
def DataSet.asSet (size : Nat) : DataSet K → Except Err (SampleSet K × Nat)
  | .set s => do
      let num ← s.checkNum size
      pure (s, num)
  | .disc d => do
      let num ← d.checkNums size
      let out ← orErr .attributeError d.output
      pure (out, num)
  | .array dim v => do
      let s ← SampleSet.setValues { dim } v
      pure (s, v.length)

/-- /repo/bet/calculateP/simpleFunP.py:513-556
`uniform_partition_uniform_distribution_data_samples`.  `copy` is a deep copy. -/
def dataSamples (G : Geometry K) (size : Nat) (ds : DataSet K) :
    Except Err (SampleSet K × DataSet K) := do
  let sn ← ds.asSet size
  let s := { sn.1 with glob := { sn.1.glob with
    probabilities := some (List.replicate sn.2 (1 / (sn.2 : K))) } }
  ds.attach G size s

/-- The dimension that `check_type` infers (/repo/bet/calculateP/simpleFunP.py:28-33): an
array counts as one-dimensional. -/
def DataSet.typeDim : DataSet K → Except Err Nat
  | .set s => .ok s.dim
  | .disc d => do
      let out ← orErr .attributeError d.output
      pure out.dim
  | .array _ _ => .ok 1

/-- /repo/bet/calculateP/simpleFunP.py:23-45 `check_type`.  `None` becomes an array that
holds `None`, with which no arithmetic works. -/
def checkType (ds : DataSet K) (a : NumArg K) : Except Err (List K) := do
  let dim ← ds.typeDim
  match a with
  | .missing => throw .typeError
  | .scalar x => pure (List.replicate dim x)
  | .pylist l => if l.length ≠ dim then throw .dimNotMatching else pure l
  | .array l => pure l

/-- `if Q_ref is None: Q_ref = infer_Q(data_set)`, for an argument of `check_type`. -/
def DataSet.orInferArg (ds : DataSet K) : NumArg K → Except Err (NumArg K)
  | .missing => do
      let r ← ds.inferQ
      pure (match r with
        | some q => NumArg.array q
        | none => NumArg.missing)
  | a => pure a

/-- /repo/bet/calculateP/simpleFunP.py:656-738 `uniform_partition_normal_distribution`.
`emu` are the normal samples that the processes draw. -/
def uniformNormal (G : Geometry K) (size : Nat) (ds : DataSet K) (q std : NumArg K)
    (unif : List (List K)) (emu : Chunks (List K)) (num : Nat) :
    Except Err (SampleSet K × DataSet K) := do
  let q ← ds.orInferArg q
  let qr ← checkType ds q
  let sd ← checkType ds std
  let _ ← raiseIf (sd.length ≠ qr.length) .valueError
  let s ← binnedSet G size qr.length unif.length (unif.map (stretch 4 sd qr)) emu (num : K)
  ds.attach G size s

/-- /repo/bet/calculateP/simpleFunP.py:559-653 `normal_partition_normal_distribution`.
`samples` and `emu` are the normal samples that are drawn, `pdf` is the density of the
normal distribution (`scipy.stats.multivariate_normal.pdf`).  When everything sums to 0
numpy gives `nan`, the model an error. -/
def normalNormal (G : Geometry K) (size : Nat) (ds : DataSet K) (q std : NumArg K)
    (pdf : List K → K) (samples : List (List K)) (emu : Chunks (List K)) :
    Except Err (SampleSet K × DataSet K) := do
  let q ← ds.orInferArg q
  let qr ← checkType ds q
  let sd ← checkType ds std
  let _ ← raiseIf (sd.length ≠ qr.length) .valueError
  let s : SampleSet K := { dim := qr.length }
  let s ← s.setValues samples
  let s ← s.setKdtree
  let k ← s.query G size emu
  let counts := (List.range samples.length).map fun i =>
    allreduceSum (k.2.map fun c => (((npEqual c i).count true : Nat) : K))
  let volumes := (List.range samples.length).map fun i =>
    allreduceSum (List.zipWith (fun c xs =>
      ((maskSel xs (npEqual c i)).map fun x => 1 / pdf x).sum) k.2 emu)
  let rho := List.zipWith (· * ·) counts volumes
  let _ ← raiseIf (rho.sum = 0) .zeroDivision
  ds.attach G size { k.1 with glob := { k.1.glob with
    probabilities := some (rho.map (· / rho.sum)), volumes := some volumes } }

/-- The dimension of the data set (/repo/bet/calculateP/simpleFunP.py:768-778). -/
def DataSet.dimOf : DataSet K → Except Err Nat
  | .set s => .ok s.dim
  | .disc d => do
      let out ← orErr .attributeError d.output
      pure out.dim
  | .array dim _ => .ok dim

/-- /repo/bet/calculateP/simpleFunP.py:741-845 `user_partition_user_distribution`: every
process bins all the points, the counts are divided by `num * size`. -/
def userPartition (G : Geometry K) (size : Nat) (ds partition distribution : DataSet K) :
    Except Err (SampleSet K × DataSet K) := do
  let dim ← ds.dimOf
  let par ← partition.inputs size
  let samples ← orErr .attributeError par.values
  let dist ← distribution.inputs size
  let pts ← orErr .attributeError dist.values
  let _ ← raiseIf (dist.dim ≠ dim ∨ par.dim ≠ dim) .wrongArgumentType
  let s ← binnedSet G size dim par.num samples (List.replicate size pts)
    ((dist.num * size : Nat) : K)
  ds.attach G size s

end

end BET
