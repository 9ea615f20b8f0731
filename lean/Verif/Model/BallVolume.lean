import Verif.Model.Rectangle
import Mathlib.Analysis.SpecialFunctions.Gamma.Basic

/-!
# Exact volumes of ball sample sets (/repo/bet/sample.py:2174-2187)
-/

set_option autoImplicit false

namespace BET

namespace SampleSet

/-- /repo/bet/sample.py:2183-2186: the volume given to one ball of radius `r`.
`scipy.special.gamma` is the Gamma function; `_p_norm` is a finite number. -/
noncomputable def ballVolume (dim p : Nat) (domainVol r : ℝ) : ℝ :=
  2 ^ dim * r ^ dim * Real.Gamma (1 + 1 / (p : ℝ)) ^ dim / Real.Gamma (1 + (dim : ℝ) / (p : ℝ)) *
    (1 / domainVol)

/-- /repo/bet/sample.py:2174-2187 `ball_sample_set.exact_volume`. -/
noncomputable def exactVolumeBall (size : Nat) (s : SampleSet ℝ) : Except Err (SampleSet ℝ) := do
  let _ ← s.checkNum size
  let domain ← orErr .typeError s.domain
  let radii ← orErr .typeError s.glob.radii
  let vols := radii.dropLast.map
    (ballVolume s.dim s.pNorm (domain.map fun d => d.2 - d.1).prod)
  pure { s with glob := { s.glob with volumes := some (vols ++ [1 - vols.sum]) } }

end SampleSet

end BET
