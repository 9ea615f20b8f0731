import Verif.Model.Query

/-!
# Histories of calls on one sample set
-/

set_option autoImplicit false

namespace BET

/-- A call on a Voronoi sample set.  The setters are /repo/bet/sample.py:808-818
`set_values`, 664-676 `append_values`, 854-862 `set_volumes`, 874-882
`set_probabilities`, 1090-1095 `set_kdtree`; 1227-1235 `local_to_global`,
1325-1337 `global_to_local`, 1395-1412 `query` and 1312-1323
`estimate_volume_mc`. -/
inductive SetOp (K : Type)
  | setValues (v : List (List K))
  | append (v : List (List K))
  | setVolumes (v : List K)
  | setProbabilities (v : List K)
  | setKdtree
  | globalToLocal
  | localToGlobal
  | query (xs : Chunks (List K))
  | estimateVolumeMc

/-- The state after one successful call. -/
def SampleSet.step {K : Type} [Field K] [LinearOrder K] (G : Geometry K) (size : Nat)
    (s : SampleSet K) : SetOp K → Except Err (SampleSet K)
  | .setValues v => s.setValues v
  | .append v => s.appendValues v
  | .setVolumes v => .ok { s with glob := { s.glob with volumes := some v } }
  | .setProbabilities v => .ok { s with glob := { s.glob with probabilities := some v } }
  | .setKdtree => s.setKdtree
  | .globalToLocal => s.globalToLocal size
  | .localToGlobal => .ok s.localToGlobal
  | .query xs => do
      let r ← s.query G size xs
      pure r.1
  | .estimateVolumeMc => s.estimateVolumeMc size true

/-- A history of successful calls. -/
def SampleSet.run {K : Type} [Field K] [LinearOrder K] (G : Geometry K) (size : Nat)
    (s : SampleSet K) (ops : List (SetOp K)) : Except Err (SampleSet K) :=
  ops.foldlM (fun s op => s.step G size op) s

end BET
