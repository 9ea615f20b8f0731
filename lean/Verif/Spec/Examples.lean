import Verif.Spec.Cells
import Mathlib.Algebra.Order.Field.Rat
import Mathlib.Algebra.Order.Group.Unbundled.Abs
import Mathlib.Data.Rat.Cast.Order

/-!
# A concrete geometry over the rationals

Used only to show that the hypotheses of the theorems are satisfiable.
-/

set_option autoImplicit false

namespace BET.Ex

open BET.Spec

/-- The exception of a failed call. -/
def errOf {α : Type} : Except Err α → Option Err
  | .error e => some e
  | .ok _ => none

/-- The 1-norm distance. -/
def dist1 (x y : List ℚ) : ℚ := (List.zipWith (fun a b => |a - b|) x y).sum

/-- Index of the first point with the smallest distance, and that distance. -/
def argmin (x : List ℚ) : List (List ℚ) → Nat × Option ℚ
  | [] => (0, none)
  | p :: ps =>
      match (argmin x ps).2 with
      | none => (0, some (dist1 x p))
      | some d =>
          if dist1 x p ≤ d then (0, some (dist1 x p)) else ((argmin x ps).1 + 1, some d)

/-- Nearest neighbours by exhaustive search in the 1-norm. -/
def G : Geometry ℚ where
  nn _ pts x := (argmin x pts).1
  dist _ := dist1

theorem argmin_spec (x : List ℚ) (pts : List (List ℚ)) (h : pts ≠ []) :
    ∃ c, pts[(argmin x pts).1]? = some c ∧ (argmin x pts).2 = some (dist1 x c) ∧
      ∀ c' ∈ pts, dist1 x c ≤ dist1 x c' := by
  induction pts with
  | nil => exact absurd rfl h
  | cons p ps ih =>
    by_cases hps : ps = []
    · subst hps
      exact ⟨p, by simp [argmin]⟩
    · obtain ⟨c, hc, hd, hmin⟩ := ih hps
      by_cases hle : dist1 x p ≤ dist1 x c
      · refine ⟨p, ?_, ?_, ?_⟩
        · simp [argmin, hd, hle]
        · simp [argmin, hd, hle]
        · intro c' hc'
          rcases List.mem_cons.mp hc' with rfl | hc'
          · exact le_refl _
          · exact hle.trans (hmin c' hc')
      · refine ⟨c, ?_, ?_, ?_⟩
        · simp [argmin, hd, hle, hc]
        · simp [argmin, hd, hle]
        · intro c' hc'
          rcases List.mem_cons.mp hc' with rfl | hc'
          · exact (not_le.mp hle).le
          · exact hmin c' hc'

theorem sound_G : Sound G := by
  intro p pts x h
  obtain ⟨c, hc, _, hmin⟩ := argmin_spec x pts h
  exact ⟨c, hc, hmin⟩

end BET.Ex
