import Verif.Model.CompareP

/-!
# Kullback-Leibler and Minkowski distances (/repo/bet/postProcess/compareP.py:169-182, 253-266)

The branches of `distance` and `distance_marginal` for the names `kl` and `mink` (and their synonyms). An infinite
value, or `nan`, is the error `zeroDivision` here.
-/

set_option autoImplicit false

namespace BET

variable {K : Type} [Field K] [LinearOrder K]

/-- `scipy.special.rel_entr(x, y)`: `x log (x / y)` for positive numbers, zero for `x = 0 ≤ y`, otherwise infinite. -/
def relEntr (log : K → K) (x y : K) : Except Err K :=
  if 0 < x ∧ 0 < y then .ok (x * log (x / y)) else if x = 0 ∧ 0 ≤ y then .ok 0 else .error .zeroDivision

/-- `scipy.stats.entropy(p, q)`, used in /repo/bet/postProcess/compareP.py:180-181 and 263-264: both arrays are divided
by their sums, then `rel_entr` is summed. -/
def klDiv (log : K → K) (p q : List K) : Except Err K := do
  raiseIf (p.length ≠ q.length) .valueError
  let p' ← normalized p
  let q' ← normalized q
  let r ← (p'.zip q').mapM fun z => relEntr log z.1 z.2
  pure r.sum

/-- `ds.minkowski(p, q, r)`: `(Σ |p_i - q_i| ^ r) ^ (1 / r)` for a positive order `r`. -/
def minkowski (rpow : K → K → K) (r : K) (p q : List K) : Except Err K := do
  raiseIf (p.length ≠ q.length) .valueError
  raiseIf (r ≤ 0) .valueError
  pure (rpow (List.zipWith (fun x y => rpow |x - y| r) p q).sum (1 / r))

/-- /repo/bet/postProcess/compareP.py:135-184 `distance` for the names of line 179, and the object after the call. -/
def Compare.distanceKl (log : K → K) (c : Compare K) (normalize : Bool) : Except Err (K × Compare K) := do
  let a ← c.prepare normalize
  let p ← orErr .typeError a.1.pdfs1
  let q ← orErr .typeError a.1.pdfs2
  let d ← klDiv log p q
  pure (d, a.1)

/-- /repo/bet/postProcess/compareP.py:135-184 `distance` for the names of line 169; the keyword `p` is the order `r`
(the default of SciPy is 2). -/
def Compare.distanceMink (rpow : K → K → K) (r : K) (c : Compare K) (normalize : Bool) :
    Except Err (K × Compare K) := do
  let a ← c.prepare normalize
  let p ← orErr .typeError a.1.pdfs1
  let q ← orErr .typeError a.1.pdfs2
  let d ← minkowski rpow r p q
  pure (a.2 * d, a.1)

/-- /repo/bet/postProcess/compareP.py:186-268 `distance_marginal` for the names of line 262. -/
def Compare.distanceMarginalKl (log : K → K) (c : Compare K) (i : Nat) (interval : Option (K × K)) (num : Nat)
    (factor : K) (normalize : Bool) : Except Err K := do
  let x ← c.marginalPoints i interval num factor
  let p ← c.dens1.marginal x i
  let q ← c.dens2.marginal x i
  let r ← marginalFactor normalize x p q
  klDiv log r.1.1 r.1.2

/-- /repo/bet/postProcess/compareP.py:186-268 `distance_marginal` for the names of line 253; there is no factor. -/
def Compare.distanceMarginalMink (rpow : K → K → K) (r : K) (c : Compare K) (i : Nat) (interval : Option (K × K))
    (num : Nat) (factor : K) (normalize : Bool) : Except Err K := do
  let x ← c.marginalPoints i interval num factor
  let p ← c.dens1.marginal x i
  let q ← c.dens2.marginal x i
  let s ← marginalFactor normalize x p q
  minkowski rpow r s.1.1 s.1.2

end BET
