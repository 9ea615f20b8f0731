import Verif.Spec.Svd
import Mathlib.LinearAlgebra.LinearIndependent.Defs
import Mathlib.LinearAlgebra.Span.Basic
import Mathlib.Order.Bounds.Defs

/-!
# The gradients of a set of QoIs at some centres
-/

set_option autoImplicit false

namespace BET.Spec

/-- The gradients of the chosen QoIs at one centre; no choice means all. -/
def chosen (q : Option (List Nat)) (A : List (List ℝ)) : List (List ℝ) :=
  match q with
  | none => A
  | some q => q.map fun i => A.getD i []

/-- How many QoIs are chosen out of `c`. -/
def count (c : Nat) : Option (List Nat) → Nat
  | none => c
  | some q => q.length

/-- `G` are the Jacobians of `c` QoIs with respect to `n` inputs at one or more centres; `q` chooses
QoIs that exist, at most `n` of them. -/
structure Choice (G : List (List (List ℝ))) (c n : Nat) (q : Option (List Nat)) : Prop where
  centres : G ≠ []
  shape : ∀ A ∈ G, IsMat c n A
  valid : ∀ l, q = some l → ∀ i ∈ l, i < c
  few : count c q ≤ n

/-- The chosen gradients at a centre are linearly independent. -/
def Indep (c n : Nat) (q : Option (List Nat)) (A : List (List ℝ)) : Prop :=
  LinearIndependent ℝ (rowVec (count c q) n (chosen q A))

/-- The volume of the parallelepiped the chosen gradients span at a centre: the square root of the
determinant of their inner products. -/
noncomputable def spanned (c n : Nat) (q : Option (List Nat)) (A : List (List ℝ)) : ℝ :=
  Real.sqrt (gram (count c q) n (chosen q A)).det

/-- `r` is the part of row `i` perpendicular to the other rows: the rest is in their span. -/
def IsPerp (m n : Nat) (A : List (List ℝ)) (i : Fin m) (r : Fin n → ℝ) : Prop :=
  (∀ j, j ≠ i → r ⬝ᵥ rowVec m n A j = 0) ∧
    rowVec m n A i - r ∈ Submodule.span ℝ {v | ∃ j, j ≠ i ∧ v = rowVec m n A j}

/-- The Euclidean norm. -/
noncomputable def norm2 {n : Nat} (r : Fin n → ℝ) : ℝ := Real.sqrt (r ⬝ᵥ r)

/-- `x` is the harmonic mean of positive or infinite numbers with the reciprocals `s`. -/
def IsHarmonicMean (x : ℝ) (s : List ℝ) : Prop := x * s.sum = s.length

end BET.Spec
