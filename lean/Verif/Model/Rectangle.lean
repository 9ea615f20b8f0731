import Verif.Model.Query

/-!
# Rectangle, ball and Cartesian sample sets (/repo/bet/sample.py:1835-2232)
-/

set_option autoImplicit false

namespace BET

namespace SampleSet

variable {K : Type} [Field K]

/-- /repo/bet/sample.py:1847-1883 `rectangle_sample_set.setup`.  The rows of the last
entry (the remainder) are infinite in the code; here they are zero rows, which
`query` and `exact_volume_lebesgue` never read. -/
def setupRect (s : SampleSet K) (maxes mins : List (List K)) : Except Err (SampleSet K) := do
  let _ ← raiseIf (maxes.length ≠ mins.length) .lengthNotMatching
  let _ ← raiseIf (¬ (maxes.all (fun r => r.length == s.dim) ∧
    mins.all (fun r => r.length == s.dim))) .lengthNotMatching
  let pad := [List.replicate s.dim (0 : K)]
  let values := List.zipWith (List.zipWith fun a b => 1 / 2 * (a + b)) maxes mins ++ pad
  let width := List.zipWith (List.zipWith fun a b => a - b) maxes mins ++ pad
  pure { s with
    kind := .rectangle
    glob := { s.glob with
      values := some values
      right := some (maxes ++ pad)
      left := some (mins ++ pad)
      width := some width
      region := some ((List.range (maxes.length + 1)).map Int.ofNat) } }

/-- The relative volume of one rectangle: `np.prod(width / domain_width)`
(/repo/bet/sample.py:2011-2012). -/
def relVolume (domain : List (K × K)) (width : List K) : K :=
  (List.zipWith (fun w d => w / (d.2 - d.1)) width domain).prod

/-- /repo/bet/sample.py:2003-2013 `exact_volume_lebesgue`. -/
def exactVolumeLebesgue (size : Nat) (s : SampleSet K) : Except Err (SampleSet K) := do
  let _ ← s.checkNum size
  let domain ← orErr .typeError s.domain
  let width ← orErr .typeError s.glob.width
  let vols := width.dropLast.map (relVolume domain)
  pure { s with glob := { s.glob with volumes := some (vols ++ [1 - vols.sum]) } }

/-- /repo/bet/sample.py:2029-2056 `ball_sample_set.setup`.  The centre of the last entry
is `nan` and its radius infinite in the code; neither is ever read. -/
def setupBall (s : SampleSet K) (centers : List (List K)) (radii : List K) :
    Except Err (SampleSet K) := do
  let _ ← raiseIf (centers.length ≠ radii.length) .lengthNotMatching
  let _ ← raiseIf (¬ centers.all (fun r => r.length == s.dim)) .lengthNotMatching
  pure { s with
    kind := .ball
    glob := { s.glob with
      values := some (centers ++ [List.replicate s.dim (0 : K)])
      radii := some (radii ++ [0])
      region := some ((List.range (centers.length + 1)).map Int.ofNat) } }

end SampleSet

/-- The rows of `np.vstack(np.array(np.meshgrid(*xs)).T)` reshaped to a matrix
(/repo/bet/sample.py:2220-2230), in the order in which numpy lists them: for one
vector the vector itself; for two, the first coordinate is the slow one; every
further coordinate is slower than all before it (`meshgrid` swaps the first two
axes and `.T` reverses all). -/
def gridRows {α : Type} : List (List α) → List (List α)
  | [] => []
  | [a] => a.map fun x => [x]
  | a :: b :: rest =>
      rest.foldl (fun acc c => c.flatMap fun z => acc.map fun row => row ++ [z])
        (a.flatMap fun x => b.map fun y => [x, y])

namespace SampleSet

variable {K : Type} [Field K]

/-- /repo/bet/sample.py:2200-2232 `cartesian_sample_set.setup`: `xv[1::]` is `tail`,
`xv[0:-1]` is `dropLast`. -/
def setupCartesian (s : SampleSet K) (xi : List (List K)) : Except Err (SampleSet K) := do
  let _ ← raiseIf (xi.length ≠ s.dim) .dimNotMatching
  s.setupRect (gridRows (xi.map List.tail)) (gridRows (xi.map List.dropLast))

end SampleSet

end BET
