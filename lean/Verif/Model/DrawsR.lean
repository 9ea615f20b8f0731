import Verif.Model.CalculateR

/-!
# The random numbers of rejection sampling (/repo/bet/calculateP/calculateR.py:188-194)

In `invertRejection` the random numbers of every cluster are an argument. Here they come from streams: `V i k` is the
number with which sample `k` of cluster `i` is compared.
-/

set_option autoImplicit false

namespace BET

variable {K : Type} [Field K] [LinearOrder K]

/-- `np.random.uniform(low=0, high=1, size=r[i].size)`, /repo/bet/calculateP/calculateR.py:190. -/
def rejectionNumbers (st : Inversion K) (V : Nat → Nat → K) (i : Nat) : List K :=
  match st.r[i]? with
  | some (some r) => (List.range r.length).map (V i)
  | _ => []

/-- /repo/bet/calculateP/calculateR.py:170-209 `invert_rejection_sampling` with the numbers drawn. -/
def invertRejectionDrawn (F : KdeFit K) (dim : Nat) (x : List (List K)) (ps os : RSet K) (V : Nat → Nat → K) :
    Except Err (Accepted K) := do
  let q ← invert F ps os
  invertRejection F dim x ps os (rejectionNumbers q.2 V)

end BET
