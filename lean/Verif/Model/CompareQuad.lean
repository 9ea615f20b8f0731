import Verif.Model.CompareP

/-!
# Statistical distances of marginals by quadrature (/repo/bet/postProcess/compareP.py:270-349)
-/

set_option autoImplicit false

namespace BET

variable {K : Type} [Field K] [LinearOrder K]

/-- `quadrature(error, a, b)[0]`: the function takes an array of points and gives an array of values, or
raises. -/
abbrev Quad (K : Type) := (List K → Except Err (List K)) → K → K → Except Err K

/-- The argument `functional`: the names that have a branch of their own, another string, or a function
of two arrays. -/
inductive QuadFn (K : Type)
  | tv | euclid | norm | sqhell | hell | kl
  | name (s : String)
  | fn (f : List K → List K → Except Err (List K))

/-- `error(x)`: the values of both marginals at the points, combined elementwise. -/
def errorAt (c : Compare K) (i : Nat) (op : K → K → K) (x : List K) : Except Err (List K) := do
  let p ← c.dens1.marginal x i
  let q ← c.dens2.marginal x i
  pure (List.zipWith op p q)

/-- /repo/bet/postProcess/compareP.py:346-349: `functional(pdf1(x, i), pdf2(x, i))`. -/
def errorFn (c : Compare K) (i : Nat) (f : List K → List K → Except Err (List K)) (x : List K) :
    Except Err (List K) := do
  let p ← c.dens1.marginal x i
  let q ← c.dens2.marginal x i
  f p q

/-- /repo/bet/postProcess/compareP.py:295-309: the interval. -/
def Compare.quadInterval (c : Compare K) (i : Nat) (interval : Option (K × K)) (factor : K) :
    Except Err (K × K) :=
  match interval with
  | some ab => .ok ab
  | none => c.autoInterval i factor

/-- /repo/bet/postProcess/compareP.py:320-349 for a given interval, without the branch `hell`. A string
that is no name of a branch is called like a function, which raises `TypeError`. -/
def Compare.quadValue (sqrt log : K → K) (Q : Quad K) (c : Compare K) (i : Nat) (a b : K) :
    QuadFn K → Except Err K
  | .tv => do
      let d ← Q (errorAt c i fun x y => |x - y|) a b
      pure (1 / 2 * d)
  | .euclid => do
      let d ← Q (errorAt c i fun x y => (x - y) * (x - y)) a b
      pure (sqrt d)
  | .norm => Q (errorAt c i fun x y => x - y) a b
  | .sqhell => Q (errorAt c i fun x y => 1 / 2 * ((sqrt x - sqrt y) * (sqrt x - sqrt y))) a b
  | .hell => .error .recursionError
  | .kl => Q (errorAt c i fun x y => x * log (x / y)) a b
  | .name _ => Q (errorFn c i fun _ _ => .error .typeError) a b
  | .fn f => Q (errorFn c i f) a b

/-- /repo/bet/postProcess/compareP.py:270-349 `distance_marginal_quad`; `hell` calls the function again
with the interval that was found and takes the square root. -/
def Compare.distanceMarginalQuad (sqrt log : K → K) (Q : Quad K) (c : Compare K) (i : Nat)
    (interval : Option (K × K)) (factor : K) (fn : QuadFn K) : Except Err K := do
  let ab ← c.quadInterval i interval factor
  match fn with
  | .hell => do
      let d ← c.quadValue sqrt log Q i ab.1 ab.2 .sqhell
      pure (sqrt d)
  | f => c.quadValue sqrt log Q i ab.1 ab.2 f

end BET
