import Verif.Model.NumPy

/-!
# `numpy.linspace`
-/

set_option autoImplicit false

namespace BET

variable {K : Type} [Field K]

/-- `np.linspace(a, b, n)`, used in /repo/bet/sampling/basicSampling.py:296 and
/repo/bet/calculateP/simpleFunP.py:407. -/
def linspace (a b : K) (n : Nat) : List K :=
  (List.range n).map fun (k : Nat) => a + (k : K) * ((b - a) / ((n - 1 : Nat) : K))

end BET
