import Verif.Lemmas.Mask
import Verif.Lemmas.CheckNum

set_option linter.unusedSectionVars false
set_option linter.unusedSimpArgs false

set_option autoImplicit false

namespace BET

open Spec

theorem splitOff_succ (n p r : Nat) : splitOff n p (r + 1) = splitOff n p r + splitLen n p r := by
  unfold splitOff splitLen
  rw [Nat.succ_mul]
  split <;> omega

theorem splitOff_self (n p : Nat) (hp : 0 < p) : splitOff n p p = n := by
  unfold splitOff
  have := Nat.mod_lt n hp
  have h2 := Nat.div_add_mod n p
  rw [min_eq_right this.le]
  exact h2

theorem flatten_split_aux {α : Type} (p : Nat) (xs : List α) (k : Nat) :
    ((List.range k).map fun r =>
      (xs.drop (splitOff xs.length p r)).take (splitLen xs.length p r)).flatten =
      xs.take (splitOff xs.length p k) := by
  induction k with
  | zero => simp [splitOff]
  | succ k ih =>
    rw [List.range_succ, List.map_append, List.flatten_append, ih, splitOff_succ,
      List.take_add]
    simp

theorem flatten_arraySplit {α : Type} (p : Nat) (xs : List α) (hp : 0 < p) :
    (arraySplit p xs).flatten = xs := by
  unfold arraySplit
  rw [flatten_split_aux, splitOff_self _ _ hp, List.take_length]

theorem length_arraySplit {α : Type} (p : Nat) (xs : List α) : (arraySplit p xs).length = p := by
  simp [arraySplit]

theorem splitOff_mono (n p : Nat) {r k : Nat} (h : r ≤ k) : splitOff n p r ≤ splitOff n p k := by
  induction k with
  | zero => simp_all
  | succ k ih =>
    rcases Nat.lt_or_ge k r with h' | h'
    · have : r = k + 1 := by omega
      subst this; exact Nat.le_refl _
    · exact (ih h').trans (by rw [splitOff_succ]; omega)

theorem splitOff_add_le (n p r : Nat) (hr : r < p) : splitOff n p r + splitLen n p r ≤ n := by
  rw [← splitOff_succ]
  calc splitOff n p (r + 1) ≤ splitOff n p p := splitOff_mono n p hr
    _ = n := splitOff_self n p (by omega)

theorem arraySplit_lengths {α : Type} (p : Nat) (xs : List α) :
    (arraySplit p xs).map List.length = (List.range p).map (splitLen xs.length p) := by
  simp only [arraySplit, List.map_map]
  refine List.map_congr_left fun r hr => ?_
  have := splitOff_add_le xs.length p r (List.mem_range.mp hr)
  simp only [Function.comp, List.length_take, List.length_drop]
  omega

theorem sameShape_iff {α β : Type} (a : List (List α)) (b : List (List β)) :
    SameShape a b ↔ a.map List.length = b.map List.length := by
  unfold SameShape
  rw [← List.forall₂_eq_eq_eq, List.forall₂_map_left_iff, List.forall₂_map_right_iff]

theorem arraySplit_sameShape {α β : Type} (p : Nat) (xs : List α) (ys : List β)
    (h : xs.length = ys.length) : SameShape (arraySplit p xs) (arraySplit p ys) := by
  rw [sameShape_iff, arraySplit_lengths, arraySplit_lengths, h]

theorem arraySplit_map {α β : Type} (f : α → β) (p : Nat) (xs : List α) :
    arraySplit p (xs.map f) = (arraySplit p xs).map fun c => c.map f := by
  simp [arraySplit, List.map_take, List.map_drop, Function.comp_def]

/-- A distributed array that has the shape of the split of its concatenation is
that split. -/
theorem eq_of_flatten_eq {α : Type} {a b : List (List α)} (h : SameShape a b)
    (hf : a.flatten = b.flatten) : a = b := by
  induction h with
  | nil => rfl
  | cons hab _ ih =>
    simp only [List.flatten_cons] at hf
    obtain ⟨h1, h2⟩ := List.append_inj hf hab
    rw [h1, ih h2]

theorem arraySplit_one {α : Type} (xs : List α) : arraySplit 1 xs = [xs] := by
  simp [arraySplit, splitOff, splitLen]

end BET
