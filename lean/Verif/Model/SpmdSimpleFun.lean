import Verif.Model.SpmdSet
import Verif.Model.SimpleFun

/-!
# The constructors of simple functions on one process (/repo/bet/calculateP/simpleFunP.py)

Only the root computes the samples of the new set, the others get them with `Bcast`.  The random
numbers are arguments, and every process has its own.
-/

set_option autoImplicit false

namespace BET

variable {K : Type}

/-- What process `r` has of a data set. -/
def DataSet.view (r : Nat) : DataSet K → DataSet K
  | .array dim v => .array dim v
  | .set s => .set (s.view r)
  | .disc d => .disc (d.view r)

section
variable [Field K] [LinearOrder K]

/-- /repo/bet/calculateP/simpleFunP.py:98-119 `check_inputs_no_reference` on one process. -/
def DataSet.procInputs : DataSet K → Proc (Msg K) (Inputs K)
  | .set s => do
      let num ← s.procCheckNum
      pure ⟨num, s.dim, s.glob.values⟩
  | .disc d => do
      let num ← d.procCheckNums
      let out ← Proc.ofExcept (orErr .attributeError d.output)
      pure ⟨num, out.dim, out.glob.values⟩
  | .array dim v => pure ⟨v.length, dim, some v⟩

/-- /repo/bet/calculateP/simpleFunP.py:60-95 `check_inputs` after `infer_Q` on one process. -/
def DataSet.procCheckInputs (ds : DataSet K) (q : Option (List K)) :
    Proc (Msg K) (Inputs K × List K) := do
  let q ← Proc.ofExcept (ds.orInfer q)
  let inp ← ds.procInputs
  let q ← Proc.ofExcept (orErr .wrongArgumentType q)
  pure (inp, q)

/-- The last lines of every constructor (e.g. /repo/bet/calculateP/simpleFunP.py:251-254) on one
process. -/
def DataSet.procAttach (G : Geometry K) (rank size : Nat) (ds : DataSet K) (s : SampleSet K) :
    Proc (Msg K) (SampleSet K × DataSet K) :=
  match ds with
  | .disc d => do
      let d ← Disc.procSetIoPtr G rank size { d with outputProb := some s } false
      let ps ← Proc.ofExcept (orErr .attributeError d.outputProb)
      pure (ps, .disc d)
  | ds => pure (s, ds)

/-- The set with the given samples whose probabilities are found by binning
(/repo/bet/calculateP/simpleFunP.py:213-243, 700-731, 818-841) on one process.  `pts` are the points
of the process. -/
def procBinned (G : Geometry K) (dim M : Nat) (samples : List (List K))
    (pts : Except Err (List (List K))) (denom : K) : Proc (Msg K) (SampleSet K) := do
  let s : SampleSet K := { dim }
  let s ← Proc.ofExcept (s.setValues samples)
  let s ← Proc.ofExcept s.setKdtree
  let pts ← Proc.ofExcept pts
  let q ← s.procQuery G pts
  let counts ← reduceArr M ((List.range M).map fun i => (((npEqual q.2 i).count true : Nat) : K))
  let _ ← Proc.ofExcept (raiseIf (denom = 0) .zeroDivision)
  pure { q.1 with glob := { q.1.glob with probabilities := some (counts.map (· / denom)) } }

/-- `1.5 * rect_size * (np.random.random((M, dim)) - 0.5) + Q_ref`
(/repo/bet/calculateP/simpleFunP.py:206-207), on the root. -/
def rootUniform (dim : Nat) (rectSize : NumArg K) (rs q : List K) (unif : List (List K)) :
    Except Err (List (List K)) := do
  let _ ← notPyList rectSize
  let _ ← raiseIf (rs.length ≠ dim ∨ q.length ≠ dim) .valueError
  pure (unif.map (stretch (3 / 2) rs q))

/-- `rect_size * (np.random.random((num_d_emulate_local, dim)) - 0.5) + Q_ref`
(/repo/bet/calculateP/simpleFunP.py:225-226). -/
def ownUniform (dim : Nat) (rs q : List K) (emu : List (List K)) : Except Err (List (List K)) := do
  let _ ← raiseIf (rs.length ≠ dim ∨ q.length ≠ dim) .valueError
  pure (emu.map (stretch 1 rs q))

/-- /repo/bet/calculateP/simpleFunP.py:122-254
`uniform_partition_uniform_distribution_rectangle_size` on one process.  `unif` are the random
numbers that the root draws (on the others `np.empty` makes an array of the same size), `emu` those
of the process. -/
def procUniformSize (G : Geometry K) (rank size : Nat) (ds : DataSet K) (q : Option (List K))
    (rectSize : NumArg K) (unif emu : List (List K)) (num : Nat) :
    Proc (Msg K) (SampleSet K × DataSet K) := do
  let c ← ds.procCheckInputs q
  let rs ← Proc.ofExcept (sizeArray c.1.dim rectSize)
  let _ ← Proc.ofExcept (raiseIf (∃ r ∈ rs, r ≤ 0) .wrongArgumentType)
  let mine ← Proc.ofExcept (onRoot rank (rootUniform c.1.dim rectSize rs c.2 unif)
    (.ok (List.replicate unif.length (List.replicate c.1.dim 0))))
  let samples ← bcastList rank mine
  let s ← procBinned G c.1.dim unif.length samples (ownUniform c.1.dim rs c.2 emu) (num : K)
  ds.procAttach G rank size s

/-- /repo/bet/calculateP/simpleFunP.py:257-307
`uniform_partition_uniform_distribution_rectangle_scaled` on one process. -/
def procUniformScaled (G : Geometry K) (rank size : Nat) (ds : DataSet K) (q : Option (List K))
    (scale : NumArg K) (unif emu : List (List K)) (num : Nat) :
    Proc (Msg K) (SampleSet K × DataSet K) := do
  let c ← ds.procCheckInputs q
  let v ← Proc.ofExcept (orErr .typeError c.1.values)
  let w ← Proc.ofExcept (extent v)
  let rs ← Proc.ofExcept (scaleBy w scale)
  procUniformSize G rank size ds (some c.2) (.array rs) unif emu num

/-- /repo/bet/calculateP/simpleFunP.py:310-355
`uniform_partition_uniform_distribution_rectangle_domain` on one process. -/
def procUniformDomain (G : Geometry K) (rank size : Nat) (ds : DataSet K) (rect : List (List K))
    (unif emu : List (List K)) (num : Nat) : Proc (Msg K) (SampleSet K × DataSet K) := do
  let inp ← ds.procInputs
  let _ ← Proc.ofExcept (orErr .attributeError inp.values)
  let centre ← Proc.ofExcept (colMean rect)
  let lengths ← Proc.ofExcept (extent rect)
  procUniformSize G rank size ds (some centre) (.array lengths) unif emu num

/-- The set that /repo/bet/calculateP/simpleFunP.py:530-546 starts from, on one process. -/
def DataSet.procAsSet : DataSet K → Proc (Msg K) (SampleSet K × Nat)
  | .set s => do
      let num ← s.procCheckNum
      pure (s, num)
  | .disc d => do
      let num ← d.procCheckNums
      let out ← Proc.ofExcept (orErr .attributeError d.output)
      pure (out, num)
  | .array dim v => do
      let s ← Proc.ofExcept (SampleSet.setValues { dim } v)
      pure (s, v.length)

/-- /repo/bet/calculateP/simpleFunP.py:513-556
`uniform_partition_uniform_distribution_data_samples` on one process. -/
def procDataSamples (G : Geometry K) (rank size : Nat) (ds : DataSet K) :
    Proc (Msg K) (SampleSet K × DataSet K) := do
  let sn ← ds.procAsSet
  ds.procAttach G rank size { sn.1 with glob := { sn.1.glob with
    probabilities := some (List.replicate sn.2 (1 / (sn.2 : K))) } }

/-- `len(check_type(Q_ref, data_set))` (/repo/bet/calculateP/simpleFunP.py:23-45): `None` becomes an
array of length 1. -/
def refLen (ds : DataSet K) (q : NumArg K) : Except Err Nat :=
  match q with
  | .missing => do
      let _ ← ds.typeDim
      pure 1
  | q => do
      let l ← checkType ds q
      pure l.length

/-- The points around the reference value that only the root computes
(/repo/bet/calculateP/simpleFunP.py:600-603 and 693-695), and the points of the process (lines
619-622 and 711-714): no arithmetic works with `None`, and the lengths must agree. -/
def aroundRef (ds : DataSet K) (q : NumArg K) (sd : List K) (make : List K → List (List K)) :
    Except Err (List (List K)) := do
  let qr ← checkType ds q
  let _ ← raiseIf (sd.length ≠ qr.length) .valueError
  pure (make qr)

/-- /repo/bet/calculateP/simpleFunP.py:656-738 `uniform_partition_normal_distribution` on one
process. -/
def procUniformNormal (G : Geometry K) (rank size : Nat) (ds : DataSet K) (q std : NumArg K)
    (unif emu : List (List K)) (num : Nat) : Proc (Msg K) (SampleSet K × DataSet K) := do
  let q ← Proc.ofExcept (ds.orInferArg q)
  let dim ← Proc.ofExcept (refLen ds q)
  let sd ← Proc.ofExcept (checkType ds std)
  let mine ← Proc.ofExcept (onRoot rank
    (aroundRef ds q sd fun qr => unif.map (stretch 4 sd qr))
    (.ok (List.replicate unif.length (List.replicate dim 0))))
  let samples ← bcastList rank mine
  let s ← procBinned G dim unif.length samples (aroundRef ds q sd fun _ => emu) (num : K)
  ds.procAttach G rank size s

/-- /repo/bet/calculateP/simpleFunP.py:559-653 `normal_partition_normal_distribution` on one process:
two reductions, of the counts and of the volumes. -/
def procNormalNormal (G : Geometry K) (rank size : Nat) (ds : DataSet K) (q std : NumArg K)
    (pdf : List K → K) (draw emu : List (List K)) :
    Proc (Msg K) (SampleSet K × DataSet K) := do
  let q ← Proc.ofExcept (ds.orInferArg q)
  let dim ← Proc.ofExcept (refLen ds q)
  let sd ← Proc.ofExcept (checkType ds std)
  let mine ← Proc.ofExcept (onRoot rank (aroundRef ds q sd fun _ => draw)
    (.ok (List.replicate draw.length (List.replicate dim 0))))
  let samples ← bcastList rank mine
  let s : SampleSet K := { dim }
  let s ← Proc.ofExcept (s.setValues samples)
  let s ← Proc.ofExcept s.setKdtree
  let pts ← Proc.ofExcept (aroundRef ds q sd fun _ => emu)
  let k ← s.procQuery G pts
  let counts ← reduceArr draw.length ((List.range draw.length).map fun i =>
    (((npEqual k.2 i).count true : Nat) : K))
  let volumes ← reduceArr draw.length ((List.range draw.length).map fun i =>
    ((maskSel pts (npEqual k.2 i)).map fun x => 1 / pdf x).sum)
  let rho := List.zipWith (· * ·) counts volumes
  let _ ← Proc.ofExcept (raiseIf (rho.sum = 0) .zeroDivision)
  ds.procAttach G rank size { k.1 with glob := { k.1.glob with
    probabilities := some (rho.map (· / rho.sum)), volumes := some volumes } }

/-- /repo/bet/calculateP/simpleFunP.py:741-845 `user_partition_user_distribution` on one process:
nothing is broadcast, every process bins all the points. -/
def procUserPartition (G : Geometry K) (rank size : Nat) (ds partition distribution : DataSet K) :
    Proc (Msg K) (SampleSet K × DataSet K) := do
  let dim ← Proc.ofExcept ds.dimOf
  let par ← partition.procInputs
  let samples ← Proc.ofExcept (orErr .attributeError par.values)
  let dist ← distribution.procInputs
  let pts ← Proc.ofExcept (orErr .attributeError dist.values)
  let _ ← Proc.ofExcept (raiseIf (dist.dim ≠ dim ∨ par.dim ≠ dim) .wrongArgumentType)
  let s ← procBinned G dim par.num samples (.ok pts) ((dist.num * size : Nat) : K)
  ds.procAttach G rank size s

/-- /repo/bet/sample.py:2003-2013 `exact_volume_lebesgue` on one process. -/
def SampleSet.procExactVolume (s : SampleSet K) : Proc (Msg K) (SampleSet K) := do
  let _ ← s.procCheckNum
  let domain ← Proc.ofExcept (orErr .typeError s.domain)
  let width ← Proc.ofExcept (orErr .typeError s.glob.width)
  let vols := width.dropLast.map (SampleSet.relVolume domain)
  pure { s with glob := { s.glob with volumes := some (vols ++ [1 - vols.sum]) } }

/-- /repo/bet/calculateP/simpleFunP.py:358-425 `regular_partition_uniform_distribution_rectangle_size`
on one process: the grid is made by every process for itself. -/
def procRegularSize (G : Geometry K) (rank size : Nat) (ds : DataSet K) (q : Option (List K))
    (rectSize : NumArg K) (cells : CellArg) : Proc (Msg K) (SampleSet K × DataSet K) := do
  let c ← ds.procCheckInputs q
  let rs ← Proc.ofExcept (sizeArray c.1.dim rectSize)
  let _ ← Proc.ofExcept (raiseIf (∃ r ∈ rs, r ≤ 0) .wrongArgumentType)
  let _ ← Proc.ofExcept (raiseIf (rs.length ≠ c.2.length) .valueError)
  let maxes := List.zipWith (fun q r => q + 1 / 2 * r) c.2 rs
  let mins := List.zipWith (fun q r => q - 1 / 2 * r) c.2 rs
  let xi ← Proc.ofExcept (gridVectors mins maxes cells c.1.dim)
  let s : SampleSet K := { dim := c.1.dim, kind := .rectangle }
  let s ← Proc.ofExcept (s.setupCartesian xi)
  let _ ← Proc.ofExcept (raiseIf (mins.length ≠ c.1.dim) .valueError)
  let s := { s with domain := some (List.zip mins maxes) }
  let s ← s.procExactVolume
  let vols ← Proc.ofExcept (orErr .typeError s.glob.volumes)
  let vol := vols.dropLast.sum
  let _ ← Proc.ofExcept (raiseIf (vol = 0) .zeroDivision)
  let s := { s with glob := { s.glob with
    probabilities := some (vols.dropLast.map (· / vol) ++ [0]) } }
  ds.procAttach G rank size s

/-- /repo/bet/calculateP/simpleFunP.py:428-464
`regular_partition_uniform_distribution_rectangle_domain` on one process. -/
def procRegularDomain (G : Geometry K) (rank size : Nat) (ds : DataSet K) (rect : List (List K))
    (cells : CellArg) : Proc (Msg K) (SampleSet K × DataSet K) := do
  let inp ← ds.procInputs
  let _ ← Proc.ofExcept (orErr .attributeError inp.values)
  let centre ← Proc.ofExcept (colMean rect)
  let lengths ← Proc.ofExcept (extent rect)
  procRegularSize G rank size ds (some centre) (.array lengths) cells

/-- /repo/bet/calculateP/simpleFunP.py:467-510
`regular_partition_uniform_distribution_rectangle_scaled` on one process. -/
def procRegularScaled (G : Geometry K) (rank size : Nat) (ds : DataSet K) (q : Option (List K))
    (scale : NumArg K) (cells : CellArg) : Proc (Msg K) (SampleSet K × DataSet K) := do
  let c ← ds.procCheckInputs q
  let v ← Proc.ofExcept (orErr .typeError c.1.values)
  let w ← Proc.ofExcept (extent v)
  let rs ← Proc.ofExcept (scaleBy w scale)
  procRegularSize G rank size ds (some c.2) (.array rs) cells

end

end BET
