import Verif.Spec.Arrays
import Verif.Lemmas.Basic

set_option linter.unusedSectionVars false
set_option linter.unusedSimpArgs false

set_option autoImplicit false

namespace BET

open Spec

namespace SampleSet

variable {K : Type}

theorem checkNumLoop_some (l : List (Option Nat)) (m : Nat) (r : Option Nat) :
    checkNumLoop l (some m) = .ok r ↔ r = some m ∧ ∀ n, some n ∈ l → n = m := by
  induction l with
  | nil => simp [checkNumLoop, eq_comm]
  | cons a l ih =>
    cases a with
    | none => simp [checkNumLoop, ih]
    | some n =>
      by_cases h : m = n
      · subst h; simp [checkNumLoop, ih]
      · simp only [checkNumLoop, h, ne_eq, not_false_eq_true, if_true, List.mem_cons]
        constructor
        · intro h'; cases h'
        · rintro ⟨_, h'⟩; exact absurd (h' n (Or.inl rfl)).symm h

theorem checkNumLoop_none (l : List (Option Nat)) (r : Option Nat) :
    checkNumLoop l none = .ok r ↔
      (r = none ∧ ∀ x ∈ l, x = none) ∨
      ∃ n, r = some n ∧ some n ∈ l ∧ ∀ m, some m ∈ l → m = n := by
  induction l with
  | nil => simp [checkNumLoop, eq_comm]
  | cons a l ih =>
    cases a with
    | none => simp [checkNumLoop, ih]
    | some n =>
      simp only [checkNumLoop, checkNumLoop_some]
      constructor
      · rintro ⟨rfl, h⟩
        refine Or.inr ⟨n, rfl, by simp, ?_⟩
        intro m hm
        rcases List.mem_cons.mp hm with h' | h'
        · exact (Option.some.inj h')
        · exact h m h'
      · rintro (⟨_, h⟩ | ⟨k, rfl, hk, h⟩)
        · have := h (some n) (by simp); simp at this
        · have := h n (by simp); subst this
          exact ⟨rfl, fun m hm => h m (by simp [hm])⟩

/-- The only exceptions of the loop. -/
theorem checkNumLoop_error (l : List (Option Nat)) (num : Option Nat) (e : Err)
    (h : checkNumLoop l num = .error e) : e = .lengthNotMatching := by
  induction l generalizing num with
  | nil => simp [checkNumLoop] at h
  | cons a l ih =>
    cases a with
    | none => exact ih num h
    | some n =>
      cases num with
      | none => exact ih _ h
      | some m =>
        by_cases hm : m = n
        · simp only [checkNumLoop, hm, ne_eq, not_true, if_false] at h; exact ih _ h
        · simp only [checkNumLoop, hm, ne_eq, not_false_eq_true, if_true] at h
          exact (Except.error.inj h).symm

theorem map_eq_some_len {α : Type} (o : Option (List α)) (n : Nat) :
    (some n = o.map List.length) ↔ ∃ v, o = some v ∧ v.length = n := by
  cases o <;> simp [eq_comm]

theorem allLength_iff (a : Arrays List K) (n : Nat) :
    (∀ m, some m ∈ a.toList List.length → m = n) ↔ AllLength a n := by
  constructor
  · intro h
    constructor <;> intro v hv <;> refine h _ ?_ <;> simp [Arrays.toList, hv]
  · intro h m hm
    simp only [Arrays.toList, List.mem_cons, List.not_mem_nil, or_false, map_eq_some_len] at hm
    rcases hm with ⟨v, hv, rfl⟩ | ⟨v, hv, rfl⟩ | ⟨v, hv, rfl⟩ | ⟨v, hv, rfl⟩ | ⟨v, hv, rfl⟩ |
      ⟨v, hv, rfl⟩ | ⟨v, hv, rfl⟩ | ⟨v, hv, rfl⟩ | ⟨v, hv, rfl⟩ | ⟨v, hv, rfl⟩ | ⟨v, hv, rfl⟩ |
      ⟨v, hv, rfl⟩ | ⟨v, hv, rfl⟩ | ⟨v, hv, rfl⟩
    · exact h.values v hv
    · exact h.volumes v hv
    · exact h.probabilities v hv
    · exact h.densities v hv
    · exact h.jacobians v hv
    · exact h.errorEstimates v hv
    · exact h.right v hv
    · exact h.left v hv
    · exact h.width v hv
    · exact h.kdtreeValues v hv
    · exact h.radii v hv
    · exact h.normalizedRadii v hv
    · exact h.region v hv
    · exact h.errorId v hv

theorem nonePresent_iff {F : Type → Type} {β : Type} (f : ∀ {α : Type}, F α → β)
    (a : Arrays F K) : (∀ x ∈ a.toList f, x = none) ↔ NonePresent a := by
  constructor
  · intro h
    constructor <;> · rw [← Option.map_eq_none_iff (f := f)]
                      refine h _ ?_
                      simp [Arrays.toList]
  · intro h x hx
    simp only [Arrays.toList, List.mem_cons, List.not_mem_nil, or_false, h.values, h.volumes,
      h.probabilities, h.densities, h.jacobians, h.errorEstimates, h.right, h.left, h.width,
      h.kdtreeValues, h.radii, h.normalizedRadii, h.region, h.errorId, Option.map_none,
      or_self] at hx
    exact hx

theorem colsOk_iff (dim : Nat) (v : Option (List (List K))) :
    colsOk dim v = true ↔ HasCols dim v := by
  cases v <;> simp [colsOk, HasCols]

/-- `check_num` on a set with a global array. -/
theorem checkNum_consistent {size : Nat} {s : SampleSet K} {n : Nat} (h : Consistent s n) :
    s.checkNum size = .ok n := by
  obtain ⟨hl, hp, hc⟩ := h
  have : checkNumLoop (s.glob.toList List.length) none = .ok (some n) := by
    rw [checkNumLoop_none]
    refine Or.inr ⟨n, rfl, ?_, (allLength_iff _ _).mpr hl⟩
    by_contra hn
    apply hp
    rw [← nonePresent_iff List.length]
    intro x hx
    cases x with
    | none => rfl
    | some m => exact absurd ((allLength_iff _ _).mpr hl m hx ▸ hx) hn
  unfold checkNum
  rw [this]
  simp [(colsOk_iff _ _).mpr hc, pure, Except.pure]

theorem checkNum_ok {size : Nat} {s : SampleSet K} {n : Nat} (h : s.checkNum size = .ok n) :
    Consistent s n ∨ NonePresent s.glob := by
  unfold checkNum at h
  rw [bind_eq_ok] at h
  obtain ⟨num, hnum, h⟩ := h
  by_cases hc : colsOk s.dim s.glob.values = true
  · rcases (checkNumLoop_none _ _).mp hnum with ⟨rfl, hn⟩ | ⟨m, rfl, hm, hall⟩
    · exact Or.inr ((nonePresent_iff _ _).mp hn)
    · simp only [hc, if_true, pure_eq_ok] at h
      subst h
      refine Or.inl ⟨(allLength_iff _ _).mp hall, ?_, (colsOk_iff _ _).mp hc⟩
      intro hnp
      have := (nonePresent_iff List.length s.glob).mpr hnp _ hm
      simp at this
  · simp only [hc] at h
    exact absurd h (throw_ne_ok _ _)

theorem consistent_of_checkNum {size : Nat} {s : SampleSet K} {n : Nat}
    (h : s.checkNum size = .ok n) (hv : s.glob.values.isSome = true) : Consistent s n := by
  rcases checkNum_ok h with h | h
  · exact h
  · rw [h.values] at hv; cases hv

theorem checkNum_allLength {size : Nat} {s : SampleSet K} {n : Nat}
    (h : s.checkNum size = .ok n) : AllLength s.glob n := by
  rcases checkNum_ok h with h | h
  · exact h.1
  · constructor <;> simp [h.values, h.volumes, h.probabilities, h.densities, h.jacobians,
      h.errorEstimates, h.right, h.left, h.width, h.kdtreeValues, h.radii, h.normalizedRadii,
      h.region, h.errorId]

end SampleSet

end BET
