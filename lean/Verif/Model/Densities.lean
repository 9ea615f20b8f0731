import Verif.Model.Query

/-!
# Densities (/repo/bet/sample.py:893-947, 1158-1173)
-/

set_option autoImplicit false

namespace BET

namespace SampleSet

variable {K : Type} [Field K]

/-- `probs / vols` for two arrays; numpy raises `ValueError` when the lengths differ (a
length of one would be broadcast; not modelled).  Where the volume is zero numpy returns `inf` or
`nan` and the model 0; the theorems say nothing about those entries. -/
def divArr (p v : List K) : Except Err (List K) := do
  let _ ← raiseIf (p.length ≠ v.length) .valueError
  pure (List.zipWith (· / ·) p v)

/-- /repo/bet/sample.py:904-907: 1 without a domain, else the product of its widths. -/
def totalVol (domain : Option (List (K × K))) : K :=
  match domain with
  | none => 1
  | some d => (d.map fun e => e.2 - e.1).prod

/-- /repo/bet/sample.py:893-911 `set_densities()` without an argument. -/
def setDensities (s : SampleSet K) : Except Err (SampleSet K) := do
  let probs ← orErr .typeError s.glob.probabilities
  let vols ← orErr .typeError s.glob.volumes
  let dens ← divArr probs (vols.map (· * totalVol s.domain))
  pure { s with glob := { s.glob with densities := some dens } }

/-- /repo/bet/sample.py:1158-1173 `set_densities_local()` without an argument, on every
process; also the expression on line 943. -/
def setDensitiesLocal (s : SampleSet K) : Except Err (SampleSet K) := do
  let probs ← orErr .typeError s.loc.probabilities
  let vols ← orErr .typeError s.loc.volumes
  let dens ← (List.zip probs vols).mapM fun pv => divArr pv.1 pv.2
  pure { s with loc := { s.loc with densities := some dens } }

/-- /repo/bet/sample.py:940-942: Monte Carlo volumes when there are none. -/
def ensureVolumesLocal (size : Nat) (s : SampleSet K) : Except Err (SampleSet K) :=
  if s.loc.volumes.isNone then s.estimateVolumeMc size false else .ok s

/-- /repo/bet/sample.py:939-943. -/
def ensureDensitiesLocal (size : Nat) (s : SampleSet K) : Except Err (SampleSet K) :=
  if s.loc.densities.isNone then do
    let s ← s.ensureVolumesLocal size
    s.setDensitiesLocal
  else .ok s

/-- /repo/bet/sample.py:923-947 `pdf` for `_prob_type == 'voronoi'` with
/repo/bet/sample.py:98-100 `evaluate_pdf`.  Every process passes the same `vals`. -/
def pdfVoronoi [LinearOrder K] (G : Geometry K) (size : Nat) (s : SampleSet K)
    (vals : List (List K)) : Except Err (SampleSet K × List K) := do
  let _ ← raiseIf (¬ vals.all (fun r => r.length == s.dim)) .dimNotMatching
  let _ ← raiseIf (s.loc.probabilities.isNone ∧ s.glob.probabilities.isNone) .wrongInput
  let s ← s.ensureDensitiesLocal size
  let q ← s.localToGlobal.query G size [vals]
  let dens ← orErr .typeError q.1.glob.densities
  let out ← q.2.flatten.mapM fun i => orErr .indexError dens[i]?
  pure (q.1, out)

end SampleSet

end BET
