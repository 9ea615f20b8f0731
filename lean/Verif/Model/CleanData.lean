import Verif.Model.CalcError

/-!
# `clean_data` (/repo/bet/util.py:212-225)
-/

set_option autoImplicit false

namespace BET

variable {K : Type} [Field K]

/-- `data[np.isnan(data)] = 0.0`, line 222. -/
def zeroNan : Num K → Num K
  | .nan => .fin 0
  | x => x

/-- `data[np.isinf(data)] = np.sign(data[np.isinf(data)]) * sys.float_info[0]`, line 223; `big` is
the largest float. -/
def capInf (big : K) : Num K → Num K
  | .inf true => .fin (1 * big)
  | .inf false => .fin (-1 * big)
  | x => x

/-- /repo/bet/util.py:212-225 `clean_data`, on the entries of the array. -/
def cleanData (big : K) (data : List (Num K)) : List (Num K) :=
  (data.map zeroNan).map (capInf big)

end BET
