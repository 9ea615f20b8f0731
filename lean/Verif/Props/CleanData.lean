import Verif.Model.CleanData
import Mathlib.Algebra.Order.Ring.Rat
import Mathlib.Tactic.Linarith

/-!
# `clean_data` (C75)
-/

set_option autoImplicit false
set_option linter.unusedSectionVars false

namespace BET

variable {K : Type} [Field K] [LinearOrder K] [IsStrictOrderedRing K]

namespace Spec

/-- `a ≤ b` for floats, `nan` excluded. -/
def FloatLe : Num K → Num K → Prop
  | .fin x, .fin y => x ≤ y
  | .inf false, .fin _ => True
  | .fin _, .inf true => True
  | .inf a, .inf b => a = true → b = true
  | _, _ => False

end Spec

open Spec

/-- **C75.** After `clean_data` all entries are finite and of the same number; finite entries are
unchanged, `nan` has become 0, the infinities the largest floats of the same sign; the order of
entries (finite entries being floats, so at most `big` in size) is kept; and cleaning again changes
nothing. -/
theorem C75_clean_data (big : K) (hb : 0 < big) (data : List (Num K)) :
    (cleanData big data).length = data.length ∧
    (∀ y ∈ cleanData big data, ∃ x, y = .fin x) ∧
    (∀ (i : Nat) x, data[i]? = some (.fin x) → (cleanData big data)[i]? = some (.fin x)) ∧
    (∀ (i : Nat), data[i]? = some .nan → (cleanData big data)[i]? = some (.fin 0)) ∧
    (∀ (i : Nat), data[i]? = some (.inf true) → (cleanData big data)[i]? = some (.fin big)) ∧
    (∀ (i : Nat), data[i]? = some (.inf false) → (cleanData big data)[i]? = some (.fin (-big))) ∧
    cleanData big (cleanData big data) = cleanData big data ∧
    (∀ (i j : Nat) a b a' b', (∀ x, .fin x ∈ data → |x| ≤ big) → data[i]? = some a →
      data[j]? = some b → FloatLe a b → (cleanData big data)[i]? = some a' →
      (cleanData big data)[j]? = some b' → FloatLe a' b') := by
  refine ⟨by simp [cleanData], ?_, ?_, ?_, ?_, ?_, ?_, ?_⟩
  · intro y hy
    simp only [cleanData, List.map_map, List.mem_map] at hy
    obtain ⟨x, -, rfl⟩ := hy
    rcases x with x | _ | (_ | _) <;> exact ⟨_, rfl⟩
  · intro i x h
    simp [cleanData, h, zeroNan, capInf]
  · intro i h
    simp [cleanData, h, zeroNan, capInf]
  · intro i h
    simp [cleanData, h, zeroNan, capInf]
  · intro i h
    simp [cleanData, h, zeroNan, capInf]
  · simp only [cleanData, List.map_map]
    refine List.map_congr_left fun x _ => ?_
    rcases x with x | _ | (_ | _) <;> rfl
  · intro i j a b a' b' hfin ha hb' hle ha' hb''
    have hma := List.mem_of_getElem? ha
    have hmb := List.mem_of_getElem? hb'
    simp only [cleanData, List.getElem?_map, ha, hb', Option.map_some, Option.some.injEq]
      at ha' hb''
    subst ha'
    subst hb''
    rcases a with x | _ | (_ | _) <;> rcases b with y | _ | (_ | _) <;>
      simp only [FloatLe, zeroNan, capInf, one_mul, neg_mul] at hle ⊢
    · exact hle
    · exact (abs_le.1 (hfin x hma)).2
    · exact (abs_le.1 (hfin y hmb)).1
    · exact le_refl _
    · linarith
    · simp at hle
    · exact le_refl _

namespace Ex

example : cleanData (100 : ℚ) [.fin 3, .nan, .inf false, .inf true]
    = [.fin 3, .fin 0, .fin (-100), .fin 100] := by decide +kernel

end Ex

end BET
