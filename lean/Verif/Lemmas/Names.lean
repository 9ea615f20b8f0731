import Init.Data.Nat.ToString

/-!
# Names of files that contain numbers
-/

set_option autoImplicit false

namespace BET

theorem toList_toString (n : Nat) : (toString n).toList = Nat.toDigits 10 n := by
  rw [Nat.toString_eq_repr, Nat.toList_repr]

theorem toDigits_injective {m n : Nat} (h : Nat.toDigits 10 m = Nat.toDigits 10 n) : m = n := by
  rw [← Nat.ofDigitChars_ten_toDigits (n := m), h, Nat.ofDigitChars_ten_toDigits]

/-- The first occurrence of a character splits a list. -/
theorem split_first {α : Type} {c : α} : ∀ {a b r s : List α}, c ∉ a → c ∉ b →
    a ++ c :: r = b ++ c :: s → a = b ∧ r = s
  | [], [], r, s, _, _, h => by simpa using h
  | [], y :: b, r, s, _, hb, h => by
      simp only [List.nil_append, List.cons_append, List.cons.injEq] at h
      exact absurd (List.mem_cons.mpr (Or.inl h.1)) hb
  | x :: a, [], r, s, ha, _, h => by
      simp only [List.nil_append, List.cons_append, List.cons.injEq] at h
      exact absurd (List.mem_cons.mpr (Or.inl h.1.symm)) ha
  | x :: a, y :: b, r, s, ha, hb, h => by
      simp only [List.cons_append, List.cons.injEq] at h
      obtain ⟨h1, h2⟩ := split_first (fun m => ha (List.mem_cons_of_mem _ m))
        (fun m => hb (List.mem_cons_of_mem _ m)) h.2
      exact ⟨by rw [h.1, h1], h2⟩

/-- Different numbers give different names. -/
theorem name1_injective {p e : String} {i j : Nat}
    (h : p ++ toString i ++ e = p ++ toString j ++ e) : i = j := by
  have := congrArg String.toList h
  simp only [String.toList_append, toList_toString, List.append_assoc, List.append_cancel_left_eq,
    List.append_cancel_right_eq] at this
  exact toDigits_injective this

/-- Different pairs of numbers give different names, if what stands between the numbers starts with
a character that is not a digit. -/
theorem name2_injective {p q e : String} {c : Char} {l : List Char} (hq : q.toList = c :: l)
    (hc : c.isDigit = false) {i j i' j' : Nat}
    (h : p ++ toString i ++ q ++ toString j ++ e = p ++ toString i' ++ q ++ toString j' ++ e) :
    i = i' ∧ j = j' := by
  have h := congrArg String.toList h
  simp only [String.toList_append, toList_toString, List.append_assoc, List.append_cancel_left_eq, hq,
    List.cons_append] at h
  have hn : ∀ n : Nat, c ∉ Nat.toDigits 10 n := by
    intro n hm
    have := Nat.isDigit_of_mem_toDigits (by decide) (by decide) hm
    rw [hc] at this
    cases this
  obtain ⟨h1, h2⟩ := split_first (hn i) (hn i') h
  simp only [List.append_cancel_left_eq, List.append_cancel_right_eq] at h2
  exact ⟨toDigits_injective h1, toDigits_injective h2⟩

end BET
