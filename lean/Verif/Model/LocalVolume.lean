import Verif.Model.Query

/-!
# `estimate_local_volume` (/repo/bet/sample.py:1659-1787)
-/

set_option autoImplicit false

namespace BET

/-- The `while` loop of /repo/bet/sample.py:1746-1770 for one sample.  `count t` is the
number of emulated points found in the cell when `t` points are drawn (the outcome of the
random sampling); the state is `(samples_in_cell, total_samples)`.  (`0 < total` holds
throughout and is there for the termination proof.) -/
def emulateLoop (numEm maxEm : Nat) (count : Nat → Nat) (inCell total : Nat) : Nat × Nat :=
  if inCell < numEm ∧ total < maxEm ∧ 0 < total then
    emulateLoop numEm maxEm count (count (total * 10)) (total * 10)
  else (inCell, total)
termination_by maxEm - total
decreasing_by omega

/-- /repo/bet/sample.py:1743-1776: the raw volume of one sample, from the volume of its ball. -/
def localVolume {K : Type} [Field K] (numEm maxEm : Nat) (count : Nat → Nat) (ballVol : K) : K :=
  ballVol * ((emulateLoop numEm maxEm count 0 10).1 : K) /
    ((emulateLoop numEm maxEm count 0 10).2 : K)

namespace SampleSet

variable {K : Type} [Field K]

/-- /repo/bet/sample.py:635-646 `update_bounds(num)`, for a given number of rows. -/
def setBounds (num : Nat) (D : List (K × K)) (s : SampleSet K) : SampleSet K :=
  { s with glob := { s.glob with
      left := some (List.replicate num (D.map Prod.fst))
      right := some (List.replicate num (D.map Prod.snd))
      width := some (List.replicate num (D.map fun d => d.2 - d.1)) } }

/-- What /repo/bet/sample.py:1706-1712 leaves behind: without normalized radii
`estimate_radii` is called, which resets the bounds, stores the radii (`rad`, a result of
random sampling) and localizes the set. -/
def ensureRadii (size : Nat) (rad : List K) (s : SampleSet K) : Except Err (SampleSet K) :=
  match s.glob.normalizedRadii with
  | some _ => .ok s
  | none =>
      globalToLocal size { s with glob := { s.glob with
        left := none, right := none, width := none, normalizedRadii := some rad } }

/-- /repo/bet/sample.py:1659-1787 `estimate_local_volume`.  `ballVol i` is the volume of the
ball of sample `i` computed in lines 1711-1739 from its radius; `count i t` the number of
the `t` points drawn around sample `i` that lie in its cell.  When the volumes add up to 0
numpy divides by zero and gives `nan`; the model raises `zeroDivision` instead. -/
def estimateLocalVolume [DecidableEq K] (size : Nat) (s : SampleSet K) (rad : List K)
    (ballVol : Nat → K) (count : Nat → Nat → Nat) (numEm maxEm : Nat) :
    Except Err (SampleSet K) := do
  let _ ← s.checkNum size
  let v ← orErr .attributeError s.glob.values
  let D ← orErr .typeError s.domain
  let s := s.setBounds v.length D
  let s ← s.ensureRadii size rad
  let s ← s.globalToLocal size
  let idx ← orErr .attributeError s.localIndex
  let lam := idx.map fun c => c.map fun i => localVolume numEm maxEm (count i) (ballVol i)
  let s := localToGlobal { s with loc := { s.loc with volumes := some lam } }
  let vols ← orErr .typeError s.glob.volumes
  let total := vols.sum
  let _ ← raiseIf (total = 0) .zeroDivision
  pure { s with
    glob := { s.glob with volumes := some (vols.map (· / total)) }
    loc := { s.loc with volumes := some (lam.map fun c => c.map (· / total)) } }

end SampleSet

end BET
