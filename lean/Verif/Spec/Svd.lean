import Mathlib.LinearAlgebra.Matrix.Charpoly.Basic
import Mathlib.Analysis.Real.Sqrt

/-!
# Matrices given by rows, Gram matrices and singular values
-/

set_option autoImplicit false

namespace BET.Spec

open Polynomial

/-- The list of rows is an `m` by `n` matrix. -/
def IsMat (m n : Nat) (A : List (List ℝ)) : Prop := A.length = m ∧ ∀ r ∈ A, r.length = n

/-- The matrix with the given rows. -/
def matOf (m n : Nat) (A : List (List ℝ)) : Matrix (Fin m) (Fin n) ℝ :=
  fun i j => (A.getD i []).getD j 0

/-- Row `i` as a vector. -/
def rowVec (m n : Nat) (A : List (List ℝ)) (i : Fin m) : Fin n → ℝ := fun j => matOf m n A i j

/-- The matrix of the inner products of the rows. -/
def gram (m n : Nat) (A : List (List ℝ)) : Matrix (Fin m) (Fin m) ℝ :=
  matOf m n A * (matOf m n A).transpose

/-- What `np.linalg.svd(A, compute_uv=False)` promises for a matrix with at most as many rows as
columns: one non-negative number for every row, in descending order; their squares are the eigenvalues
of the Gram matrix with multiplicities. -/
structure IsSvd (svd : List (List ℝ) → List ℝ) : Prop where
  length : ∀ (m n : Nat) (A : List (List ℝ)), m ≤ n → IsMat m n A → (svd A).length = m
  nonneg : ∀ (m n : Nat) (A : List (List ℝ)), m ≤ n → IsMat m n A → ∀ s ∈ svd A, 0 ≤ s
  sorted : ∀ (m n : Nat) (A : List (List ℝ)), m ≤ n → IsMat m n A →
    (svd A).Pairwise fun s t => t ≤ s
  eigen : ∀ (m n : Nat) (A : List (List ℝ)), m ≤ n → IsMat m n A →
    ((svd A).map fun s => (X - C (s ^ 2) : ℝ[X])).prod = (gram m n A).charpoly

/-- The Euclidean length of a vector. -/
noncomputable def len (v : List ℝ) : ℝ := Real.sqrt (v.map fun x => x ^ 2).sum

end BET.Spec
