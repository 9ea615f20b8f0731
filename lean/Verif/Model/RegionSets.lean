import Verif.Model.Rectangle

/-!
# Appending to sets of each class (/repo/bet/sample.py)

`sample_set_base` grows its arrays when something is appended to it; the rectangle and ball
classes override the same methods with ones that only log a warning.
-/

set_option autoImplicit false

namespace BET

/-- A call on a sample set of any class:
/repo/bet/sample.py:664-676 `append_values`, 678-690 `append_values_local` (one array for every
process), 1024-1039 `append_jacobians`, 1061-1075 `append_error_estimates`, 635-646
`update_bounds`, 648-662 `update_bounds_local` (one number for every process), 853-861
`set_volumes`, 873-881 `set_probabilities`, 1004-1012 `set_jacobians`, 1041-1049
`set_error_estimates`, 1325-1337 `global_to_local`, 1227-1235 `local_to_global`, 2003-2013
`exact_volume_lebesgue` of a rectangle set. -/
inductive RegionOp (K : Type)
  | appendValues (v : List (List K))
  | appendValuesLocal (v : Chunks (List K))
  | appendJacobians (j : List (List (List K)))
  | appendErrorEstimates (e : List (List K))
  | updateBounds (num : Option Nat)
  | updateBoundsLocal (num : Option (List Nat))
  | setVolumes (v : List K)
  | setProbabilities (v : List K)
  | setJacobians (j : List (List (List K)))
  | setErrorEstimates (e : List (List K))
  | globalToLocal
  | localToGlobal
  | exactVolume

namespace SampleSet

variable {K : Type} [Field K]

/-- /repo/bet/sample.py:678-690 of the base class, on all processes.  Here and in the next two
arrays of other shapes, which `np.concatenate` rejects, are not modelled. -/
def growValuesLocal (s : SampleSet K) (v : Chunks (List K)) : Except Err (SampleSet K) := do
  let old ← orErr .valueError s.loc.values
  pure { s with loc := { s.loc with values := some (List.zipWith (· ++ ·) old v) } }

/-- /repo/bet/sample.py:1024-1039 of the base class. -/
def growJacobians (s : SampleSet K) (j : List (List (List K))) : Except Err (SampleSet K) := do
  let old ← orErr .valueError s.glob.jacobians
  pure { s with glob := { s.glob with jacobians := some (old ++ j) } }

/-- /repo/bet/sample.py:1061-1075 of the base class. -/
def growErrorEstimates (s : SampleSet K) (e : List (List K)) : Except Err (SampleSet K) := do
  let old ← orErr .valueError s.glob.errorEstimates
  pure { s with glob := { s.glob with errorEstimates := some (old ++ e) } }

/-- `num` or the number of values (/repo/bet/sample.py:642-643); `None` has no `shape`. -/
def boundsCount (s : SampleSet K) : Option Nat → Except Err Nat
  | some n => .ok n
  | none => do
      let v ← orErr .attributeError s.glob.values
      pure v.length

/-- /repo/bet/sample.py:635-646 of the base class; a missing domain cannot be indexed. -/
def domainBounds (s : SampleSet K) (num : Option Nat) : Except Err (SampleSet K) := do
  let n ← s.boundsCount num
  let dom ← orErr .typeError s.domain
  pure { s with glob := { s.glob with
    left := some (List.replicate n (dom.map Prod.fst))
    right := some (List.replicate n (dom.map Prod.snd))
    width := some (List.replicate n (dom.map fun d => d.2 - d.1)) } }

/-- The same two lines for the local arrays of all processes (/repo/bet/sample.py:658-659). -/
def boundsCounts (s : SampleSet K) : Option (List Nat) → Except Err (List Nat)
  | some ns => .ok ns
  | none => do
      let v ← orErr .attributeError s.loc.values
      pure (v.map List.length)

/-- /repo/bet/sample.py:648-662 of the base class, on all processes. -/
def domainBoundsLocal (s : SampleSet K) (num : Option (List Nat)) : Except Err (SampleSet K) := do
  let ns ← s.boundsCounts num
  let dom ← orErr .typeError s.domain
  pure { s with loc := { s.loc with
    left := some (ns.map fun n => List.replicate n (dom.map Prod.fst))
    right := some (ns.map fun n => List.replicate n (dom.map Prod.snd))
    width := some (ns.map fun n => List.replicate n (dom.map fun d => d.2 - d.1)) } }

/-- Which method the call reaches: that of the base class, or, for a rectangle set
(/repo/bet/sample.py:1885-1960) and for a ball set (2058-2133), one that logs a warning and
returns. -/
def unlessRegions (s : SampleSet K) (base : Except Err (SampleSet K)) : Except Err (SampleSet K) :=
  match s.kind with
  | .voronoi => base
  | .rectangle => .ok s
  | .ball => .ok s

/-- The state after one call.  Only rectangle sets have `exact_volume_lebesgue`. -/
def regionOp (size : Nat) (s : SampleSet K) : RegionOp K → Except Err (SampleSet K)
  | .appendValues v => s.unlessRegions (s.appendValues v)
  | .appendValuesLocal v => s.unlessRegions (s.growValuesLocal v)
  | .appendJacobians j => s.unlessRegions (s.growJacobians j)
  | .appendErrorEstimates e => s.unlessRegions (s.growErrorEstimates e)
  | .updateBounds num => s.unlessRegions (s.domainBounds num)
  | .updateBoundsLocal num => s.unlessRegions (s.domainBoundsLocal num)
  | .setVolumes v => .ok { s with glob := { s.glob with volumes := some v } }
  | .setProbabilities v => .ok { s with glob := { s.glob with probabilities := some v } }
  | .setJacobians j => .ok { s with glob := { s.glob with jacobians := some j } }
  | .setErrorEstimates e => .ok { s with glob := { s.glob with errorEstimates := some e } }
  | .globalToLocal => s.globalToLocal size
  | .localToGlobal => .ok s.localToGlobal
  | .exactVolume =>
      match s.kind with
      | .rectangle => s.exactVolumeLebesgue size
      | _ => .error .attributeError

/-- A history of successful calls. -/
def regionRun (size : Nat) (s : SampleSet K) (ops : List (RegionOp K)) :
    Except Err (SampleSet K) :=
  ops.foldlM (regionOp size) s

end SampleSet

end BET
