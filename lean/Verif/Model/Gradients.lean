import Verif.Model.Discretization

/-!
# Finite difference gradients (/repo/bet/sensitivity/gradients.py)

Data are finite numbers, which `clean_data` leaves as they are (`Props.CleanData`), and are not
modified otherwise. A radius 0, for which the code gives infinities and `nan`s, is modelled as an
error.
-/

set_option autoImplicit false

namespace BET

section
variable {K : Type}

/-- `np.repeat(a, k, axis=0)`. -/
def repeatRows {α : Type} (k : Nat) (a : List α) : List α := a.flatMap fun x => List.replicate k x

/-- `np.tile(a, (k, 1))`. -/
def tileRows {α : Type} (k : Nat) (a : List α) : List α := (List.replicate k a).flatten

/-- `set_domain` when there is a domain (/repo/bet/sample.py:830-841). -/
def withDomain (s : SampleSet K) : Option (List (K × K)) → Except Err (SampleSet K)
  | none => .ok s
  | some D => if D.length = s.dim then .ok { s with domain := some D } else .error .dimNotMatching

/-- `a.diagonal()`. -/
def diagonal (a : List (List K)) : List K :=
  (List.range a.length).filterMap fun i => (a[i]?).bind fun row => row[i]?

end

section
variable {K : Type} [Field K]

/-- `np.eye(dim) * radii`, where a scalar or a single radius is broadcast. -/
def scaledEye (dim : Nat) (radii : List K) : Except Err (List (List K)) :=
  if radii.length = dim ∨ radii.length = 1 then
    .ok ((List.range dim).map fun i => (List.range dim).map fun j =>
      (if i = j then 1 else 0) * radii.getD (if radii.length = 1 then 0 else j) 0)
  else .error .valueError

/-- The cluster set of `pick_ffd_points` and `pick_cfd_points`. -/
def clusterSet (s : SampleSet K) (centers samples : List (List K)) : Except Err (SampleSet K) := do
  let c ← withDomain { dim := s.dim } s.domain
  let c ← c.setValues centers
  c.appendValues samples

/-- /repo/bet/sensitivity/gradients.py:129-166 `pick_ffd_points`. For a set of one dimension a longer
list of radii is not modelled. -/
def pickFfd (s : SampleSet K) (radii : List K) : Except Err (SampleSet K) := do
  let centers ← orErr .valueError s.glob.values
  let eye ← scaledEye s.dim radii
  clusterSet s centers (List.zipWith (List.zipWith (· + ·)) (repeatRows s.dim centers)
    (tileRows centers.length eye))

/-- /repo/bet/sensitivity/gradients.py:169-210 `pick_cfd_points`. -/
def pickCfd (s : SampleSet K) (radii : List K) : Except Err (SampleSet K) := do
  let centers ← orErr .valueError s.glob.values
  let eye ← scaledEye s.dim radii
  clusterSet s centers (List.zipWith (List.zipWith (· + ·)) (repeatRows (2 * s.dim) centers)
    (tileRows centers.length (eye ++ eye.map fun row => row.map fun x => -x)))

/-- The radii read off the first cluster (/repo/bet/sensitivity/gradients.py:427-428 and 510-511). -/
def radiiFrom (nc dim : Nat) (samples : List (List K)) : Except Err (List K) := do
  let s0 ← getIdx samples 0
  pure (diagonal (((samples.drop nc).take dim).map fun row => List.zipWith (· - ·) row s0))

/-- Lines 434-435 and 517-518: the radius of every row of the difference matrix, for every output. -/
def radiiMat (nc dimO : Nat) (radii : List K) : List (List K) :=
  tileRows nc (radii.map fun r => List.replicate dimO r)

/-- Lines 442-443 and 528-529: `mat` has a row for every centre and direction. The transpose is
reshaped to (outputs, directions, centres) in Fortran order, the first index running fastest, and the
centres become the first index. -/
def toTensor (nc dimO dimI : Nat) (mat : List (List K)) : List (List (List K)) :=
  (List.range nc).map fun c => (List.range dimO).map fun o => (List.range dimI).map fun i =>
    mat.flatten.getD (o + dimO * (i + dimI * c)) 0

/-- Lines 438-439: the forward differences. A wrong number of rows raises `ValueError` (also for a
single sample, for which broadcasting gives an empty result). (A zero radius gives `inf` or `nan`
in numpy and 0 here.) -/
def ffdMat (nc dimI dimO : Nat) (data : List (List K)) (radii : List K) :
    Except Err (List (List K)) :=
  if (data.drop nc).length = nc * dimI ∧ radii.length = dimI then
    .ok (List.zipWith (List.zipWith (· * ·))
      (List.zipWith (List.zipWith (· - ·)) (data.drop nc) (repeatRows dimI (data.take nc)))
      ((radiiMat nc dimO radii).map fun row => row.map fun r => 1 / r))
  else .error .valueError

/-- Lines 521-523: the rows of the two points of every difference. -/
def cfdInds (nc dimI : Nat) : List Nat :=
  List.zipWith (· + ·) (repeatRows dimI ((List.range nc).map fun c => 2 * dimI * c))
    (tileRows nc (List.range dimI))

/-- Line 525: the central differences. -/
def cfdMat (nc dimI dimO : Nat) (data : List (List K)) (radii : List K) :
    Except Err (List (List K)) := do
  let _ ← raiseIf (radii.length ≠ dimI) .valueError
  let a ← (cfdInds nc dimI).mapM (getIdx data)
  let b ← ((cfdInds nc dimI).map (· + dimI)).mapM (getIdx data)
  pure (List.zipWith (List.zipWith (· * ·)) (List.zipWith (List.zipWith (· - ·)) a b)
    ((radiiMat nc dimO radii).map fun row => row.map fun r => (1 / 2) / r))

/-- Lines 374-388, 456-470 and 542-556: the discretization of the centres. -/
def centerDisc (size : Nat) (inp out : SampleSet K) (values data : List (List K))
    (tensor : List (List (List K))) : Except Err (Disc K) := do
  let ci ← SampleSet.setValues { dim := inp.dim } values
  let ci ← withDomain ci inp.domain
  let ci := { ci with glob := { ci.glob with jacobians := some tensor } }
  let co ← SampleSet.setValues { dim := out.dim } data
  let co ← withDomain co out.domain
  Disc.new size (some ci) (some co) none none none

variable [LinearOrder K]

/-- `np.linalg.norm(v, ord=1)` of a vector. -/
def norm1 (v : List K) : K := (v.map fun x => |x|).sum

/-- Lines 363-372, 445-454 and 531-540 for one gradient vector: the norm 0 is replaced by 1. -/
def normalizeVec (v : List K) : List K :=
  v.map fun x => x / (if norm1 v = 0 then 1 else norm1 v)

/-- The same for the tensor, if asked for. -/
def normalizeIf (normalize : Bool) (t : List (List (List K))) : List (List (List K)) :=
  if normalize then t.map fun m => m.map normalizeVec else t

/-- /repo/bet/sensitivity/gradients.py:391-470 `calculate_gradients_ffd`. -/
def gradientsFfd (size : Nat) (d : Disc K) (normalize : Bool) : Except Err (Disc K) := do
  let inp ← orErr .attributeError d.input
  let out ← orErr .attributeError d.output
  let samples ← orErr .valueError inp.glob.values
  let data ← orErr .valueError out.glob.values
  let n ← d.checkNums size
  let nc := n / (inp.dim + 1)
  let radii ← radiiFrom nc inp.dim samples
  let _ ← raiseIf (radii.any fun r => decide (r = 0)) .zeroDivision
  let mat ← ffdMat nc inp.dim out.dim data radii
  centerDisc size inp out (samples.take nc) (data.take nc)
    (normalizeIf normalize (toTensor nc out.dim inp.dim mat))

/-- /repo/bet/sensitivity/gradients.py:473-556 `calculate_gradients_cfd`. Line 514 drops the rows of
the centres from the data, and line 549 takes the outputs of the centres from what is left. -/
def gradientsCfd (size : Nat) (d : Disc K) (normalize : Bool) : Except Err (Disc K) := do
  let inp ← orErr .attributeError d.input
  let out ← orErr .attributeError d.output
  let samples ← orErr .valueError inp.glob.values
  let data ← orErr .valueError out.glob.values
  let n ← d.checkNums size
  let nc := n / (2 * inp.dim + 1)
  let radii ← radiiFrom nc inp.dim samples
  let _ ← raiseIf (radii.any fun r => decide (r = 0)) .zeroDivision
  let mat ← cfdMat nc inp.dim out.dim (data.drop nc) radii
  centerDisc size inp out (samples.take nc) ((data.drop nc).take nc)
    (normalizeIf normalize (toTensor nc out.dim inp.dim mat))

end

end BET
