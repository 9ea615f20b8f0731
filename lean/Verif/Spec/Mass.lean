import Mathlib.Algebra.BigOperators.Group.List.Basic

/-!
# Specification vocabulary: mass of an event, shapes of distributed arrays

Nothing in this file refers to the model of the code.
-/

set_option autoImplicit false

namespace BET.Spec

/-- The total weight `w j` of the samples `j` that lie in cell `i`, where `cell j` is
the cell of sample `j`. -/
def mass {K : Type} [AddMonoid K] (cell : List Nat) (w : List K) (i : Nat) : K :=
  (((cell.zip w).filter (fun cw => cw.1 = i)).map Prod.snd).sum

/-- How many samples lie in cell `i`. -/
def hits (cell : List Nat) (i : Nat) : Nat := cell.count i

/-- Two distributed arrays have the same number of entries on every process. -/
def SameShape {α β : Type} (a : List (List α)) (b : List (List β)) : Prop :=
  List.Forall₂ (fun x y => x.length = y.length) a b

/-- A probability vector. -/
def IsProbVector {K : Type} [AddMonoid K] [One K] [LE K] (w : List K) : Prop :=
  (∀ x ∈ w, 0 ≤ x) ∧ w.sum = 1

end BET.Spec
