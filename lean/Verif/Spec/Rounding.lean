import Verif.Model.Rounded
import Mathlib.Algebra.Order.Field.Basic

/-!
# Rounded arithmetic
-/

set_option autoImplicit false

namespace BET.Spec

variable {K : Type} [Field K] [LinearOrder K]

/-- `SumOf add h l s`: the number `s` is obtained from the numbers in `l` by additions, in some order and with some
placement of parentheses, such that no number goes through more than `h` additions. -/
inductive SumOf (add : K → K → K) : Nat → List K → K → Prop
  | nil (h : Nat) : SumOf add h [] 0
  | one (h : Nat) (x : K) : SumOf add h [x] x
  | add {h : Nat} {l m : List K} {a b : K} : SumOf add h l a → SumOf add h m b → SumOf add (h + 1) (l ++ m) (add a b)
  | perm {h : Nat} {l m : List K} {a : K} : l.Perm m → SumOf add h l a → SumOf add h m a

/-- The standard model of floating point arithmetic with unit roundoff `u` (`2 ^ -53` for the numbers of numpy): each
operation returns the exact result up to the relative error `u`, and the two kinds of sums add their terms in some
order. -/
structure Rounds (A : Arithmetic K) (u : K) : Prop where
  nonneg : 0 ≤ u
  lt_one : u < 1
  add : ∀ x y, |A.add x y - (x + y)| ≤ u * |x + y|
  mul : ∀ x y, |A.mul x y - x * y| ≤ u * |x * y|
  div : ∀ x y, y ≠ 0 → |A.div x y - x / y| ≤ u * |x / y|
  npSum : ∀ l, SumOf A.add l.length l (A.npSum l)
  reduceSum : ∀ l, SumOf A.add l.length l (A.reduceSum l)

/-- `y` equals `x` up to `k` rounding errors: their quotient lies between `(1 - u) ^ k` and `1 / (1 - u) ^ k`. -/
def Close (u : K) (k : Nat) (x y : K) : Prop := (1 - u) ^ k * x ≤ y ∧ (1 - u) ^ k * y ≤ x

/-- The same for lists, entry by entry. -/
def AllClose (u : K) (k : Nat) (x y : List K) : Prop := List.Forall₂ (Close u k) x y

end BET.Spec
