import Verif.Model.LocalDrawn

/-!
# Radii from pairwise distances (/repo/bet/sample.py:1716-1731)

`pair i j` is the entry of `squareform(pdist(samples, …))`. It is a parameter: `pdist` gets the keyword `p` but no
metric, and what it makes of that depends on the version of SciPy.
-/

set_option autoImplicit false

namespace BET

/-- `np.std` of a list. -/
noncomputable def stdDev (l : List ℝ) : ℝ :=
  √((l.map fun x => (x - l.sum / l.length) ^ 2).sum / l.length)

/-- /repo/bet/sample.py:1724-1730: column `i` without the entries that are not positive (masked). Without entries the
result is masked; its value is zero. -/
noncomputable def pairwiseRadius (pair : Nat → Nat → ℝ) (m i : Nat) : ℝ :=
  stdDev ((((List.range m).map fun j => pair j i).filter fun x => decide (0 < x)).map fun x => x * (1 / 2)) * 2

/-- /repo/bet/sample.py:1659-1787 `estimate_local_volume` with these radii where the others are not positive. -/
noncomputable def SampleSet.estimateLocalVolumePaired (G : Geometry ℝ) (size : Nat) (s : SampleSet ℝ) (rad : List ℝ)
    (pair : Nat → Nat → ℝ) (draw : Nat → Nat → Nat → LpDraw) (numEm maxEm : Nat) : Except Err (SampleSet ℝ) :=
  s.estimateLocalVolumeDrawn G size rad (pairwiseRadius pair (s.glob.values.getD []).length) draw numEm maxEm

end BET
