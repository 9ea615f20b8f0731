import Verif.Model.CalculateP
import Verif.Spec.Mass
import Mathlib.Algebra.Order.BigOperators.Group.List
import Mathlib.Algebra.BigOperators.Ring.List
import Mathlib.Tactic.Ring

set_option autoImplicit false

namespace BET

open Spec

section mass
variable {K : Type} [AddCommMonoid K]

@[simp] theorem mass_nil (w : List K) (i : Nat) : mass [] w i = 0 := by simp [mass]

@[simp] theorem mass_nil_right (c : List Nat) (i : Nat) : mass c ([] : List K) i = 0 := by
  simp [mass]

theorem mass_cons (c : Nat) (cs : List Nat) (x : K) (w : List K) (i : Nat) :
    mass (c :: cs) (x :: w) i = (if c = i then x else 0) + mass cs w i := by
  by_cases h : c = i <;> simp [mass, h]

theorem mass_append (c c' : List Nat) (w w' : List K) (i : Nat) (h : c.length = w.length) :
    mass (c ++ c') (w ++ w') i = mass c w i + mass c' w' i := by
  simp [mass, List.zip_append h]

theorem mass_flatten (c : Chunks Nat) (w : Chunks K) (i : Nat) (h : SameShape c w) :
    mass c.flatten w.flatten i = (List.zipWith (fun a b => mass a b i) c w).sum := by
  induction h with
  | nil => simp
  | cons hab _ ih =>
    simp only [List.flatten_cons, List.zipWith_cons_cons, List.sum_cons]
    rw [mass_append _ _ _ _ _ hab, ih]

theorem maskSel_npEqual_sum (c : List Nat) (w : List K) (i : Nat) :
    (maskSel w (npEqual c i)).sum = mass c w i := by
  induction c generalizing w with
  | nil => cases w <;> simp [npEqual, maskSel]
  | cons a c ih =>
    cases w with
    | nil => simp [maskSel]
    | cons x w =>
      rw [mass_cons, ← ih]
      by_cases h : a = i <;> simp [npEqual, maskSel, h]

theorem mass_map_zipWith (c : List Nat) (w : List K) (f : Nat → K → K) (i : Nat) :
    mass c (List.zipWith f c w) i = mass c (w.map (f i)) i := by
  induction c generalizing w with
  | nil => simp
  | cons a c ih =>
    cases w with
    | nil => simp
    | cons x w =>
      simp only [List.zipWith_cons_cons, List.map_cons, mass_cons, ih]
      by_cases h : a = i <;> simp [h]

theorem sum_range_mass (c : List Nat) (w : List K) (n : Nat) (hl : c.length = w.length)
    (h : ∀ j ∈ c, j < n) : ((List.range n).map (mass c w)).sum = w.sum := by
  induction c generalizing w with
  | nil =>
    cases w with
    | nil =>
      have : mass ([] : List Nat) ([] : List K) = fun _ => 0 := by funext i; simp
      simp [this]
    | cons => simp at hl
  | cons a c ih =>
    cases w with
    | nil => simp at hl
    | cons x w =>
      have e : mass (a :: c) (x :: w) = fun i => (if a = i then x else 0) + mass c w i := by
        funext i; exact mass_cons ..
      have hs : ∀ n, a < n → ((List.range n).map fun i => if a = i then x else 0).sum = x := by
        intro n hn
        have key : ∀ m, ((List.range m).map fun i => if a = i then x else 0).sum =
            if a < m then x else 0 := by
          intro m
          induction m with
          | zero => simp
          | succ m ihm =>
            rw [List.range_succ, List.map_append, List.sum_append, ihm]
            by_cases h1 : a < m
            · have : a ≠ m := by omega
              simp [h1, this, Nat.lt_succ_of_lt h1]
            · by_cases h2 : a = m
              · simp [h2]
              · have : ¬ a < m + 1 := by omega
                simp [h1, h2, this]
        rw [key, if_pos hn]
      rw [e, List.sum_map_add, hs n (h a (by simp)),
        ih w (by simpa using hl) (fun j hj => h j (by simp [hj]))]
      simp

end mass

theorem mass_map_mul {K : Type} [NonUnitalNonAssocSemiring K] (c : List Nat) (w : List K)
    (k : K) (i : Nat) : mass c (w.map (k * ·)) i = k * mass c w i := by
  induction c generalizing w with
  | nil => simp
  | cons a c ih =>
    cases w with
    | nil => simp
    | cons x w =>
      simp only [List.map_cons, mass_cons, ih, mul_add]
      by_cases h : a = i <;> simp [h]

theorem mass_map_self {K : Type} [NonAssocSemiring K] (c : List Nat) (f : Nat → K) (i : Nat) :
    mass c (c.map f) i = (hits c i : K) * f i := by
  induction c with
  | nil => simp [hits]
  | cons a c ih =>
    simp only [List.map_cons, mass_cons, ih, hits, List.count_cons]
    by_cases h : a = i
    · subst h; simp [add_mul, add_comm]
    · simp [h]

theorem mass_nonneg {K : Type} [AddCommMonoid K] [PartialOrder K] [IsOrderedAddMonoid K]
    (c : List Nat) (w : List K) (i : Nat) (h : ∀ x ∈ w, 0 ≤ x) : 0 ≤ mass c w i := by
  unfold mass
  refine List.sum_nonneg ?_
  intro x hx
  simp only [List.mem_map, List.mem_filter] at hx
  obtain ⟨⟨a, b⟩, ⟨hab, _⟩, rfl⟩ := hx
  exact h _ (List.of_mem_zip hab).2

theorem Spec.SameShape.length_flatten {α β : Type} {a : List (List α)} {b : List (List β)}
    (h : SameShape a b) : a.flatten.length = b.flatten.length := by
  induction h with
  | nil => rfl
  | cons hab _ ih => simp only [List.flatten_cons, List.length_append, hab, ih]

theorem Spec.SameShape.symm {α β : Type} {a : List (List α)} {b : List (List β)}
    (h : SameShape a b) : SameShape b a := by
  induction h with
  | nil => exact .nil
  | cons hab _ ih => exact .cons hab.symm ih

theorem Spec.SameShape.trans {α β γ : Type} {a : List (List α)} {b : List (List β)}
    {c : List (List γ)} (h : SameShape a b) (h' : SameShape b c) : SameShape a c := by
  induction h generalizing c with
  | nil => cases h'; exact .nil
  | cons hab _ ih =>
    cases h' with
    | cons hbc ht => exact .cons (hab.trans hbc) (ih ht)

theorem Spec.SameShape.refl {α : Type} (a : List (List α)) : SameShape a a := by
  induction a with
  | nil => exact .nil
  | cons _ _ ih => exact .cons rfl ih

theorem Spec.SameShape.map_map {α β : Type} (a : List (List α)) (f : α → β) :
    SameShape a (a.map fun c => c.map f) := by
  induction a with
  | nil => exact .nil
  | cons _ _ ih => exact .cons (by simp) ih

theorem flatten_zipWith_zipWith {α β γ : Type} (f : α → β → γ) {a : List (List α)}
    {b : List (List β)} (h : SameShape a b) :
    (List.zipWith (List.zipWith f) a b).flatten = List.zipWith f a.flatten b.flatten := by
  induction h with
  | nil => rfl
  | cons hab _ ih =>
    simp only [List.zipWith_cons_cons, List.flatten_cons, ih]
    rw [List.zipWith_append hab]

theorem Spec.SameShape.zipWith_left {α β γ : Type} (f : α → β → γ) {a : List (List α)}
    {b : List (List β)} (h : SameShape a b) :
    SameShape a (List.zipWith (List.zipWith f) a b) := by
  induction h with
  | nil => exact .nil
  | cons hab _ ih => exact .cons (by simp [hab]) ih

theorem flatten_zeros {K : Type} [Zero K] (ptr : Chunks Nat) :
    (ptr.map fun c => List.replicate c.length (0 : K)).flatten = ptr.flatten.map fun _ => 0 := by
  induction ptr with
  | nil => rfl
  | cons a ptr ih =>
    simp only [List.map_cons, List.flatten_cons, ih, List.map_append]
    simp

theorem maskSet_zipWith {α : Type} (c : List Nat) (w : List α) (f : Nat → α → α) (g : α → α)
    (i : Nat) :
    maskSet (List.zipWith f c w) (npEqual c i) ((maskSel w (npEqual c i)).map g) =
      List.zipWith (fun j v => if j = i then g v else f j v) c w := by
  induction c generalizing w with
  | nil => simp [npEqual, maskSet]
  | cons a c ih =>
    cases w with
    | nil => simp [npEqual, maskSet]
    | cons x w =>
      have ih := ih w
      unfold npEqual at ih ⊢
      by_cases h : a = i
      · simp [maskSet, maskSel, h, ih]
      · have hb : (a == i) = false := by simp [h]
        simp [maskSet, maskSel, h, hb, ih]

theorem maskFill_map {α : Type} (c : List Nat) (f : Nat → α) (v : α) (i : Nat) :
    maskFill (c.map f) (npEqual c i) v = c.map fun j => if j = i then v else f j := by
  induction c with
  | nil => simp [npEqual, maskFill]
  | cons a c ih =>
    unfold npEqual at ih ⊢
    simp only [List.map_cons, maskFill, ih]
    by_cases h : a = i <;> simp [h]

theorem maskSelRanks_ok {α : Type} (ptr : Chunks Nat) (w : Chunks α) (i : Nat)
    (h : SameShape ptr w) :
    maskSelRanks w (ptr.map fun c => npEqual c i) =
      .ok (List.zipWith (fun c v => maskSel v (npEqual c i)) ptr w) := by
  unfold maskSelRanks
  induction h with
  | nil => rfl
  | @cons a b as bs hab _ ih =>
    simp only [List.map_cons, List.zip_cons_cons, List.mapM_cons, List.zipWith_cons_cons]
    have : maskSelE b (npEqual a i) = .ok (maskSel b (npEqual a i)) := by
      simp [maskSelE, npEqual, hab]
    rw [this, ih]
    rfl

theorem count_npEqual (c : List Nat) (i : Nat) : (npEqual c i).count true = c.count i := by
  induction c with
  | nil => rfl
  | cons a c ih =>
    unfold npEqual at ih ⊢
    simp only [List.map_cons, List.count_cons, ih]
    by_cases h : a = i <;> simp [h]

theorem hits_flatten (c : Chunks Nat) (i : Nat) :
    hits c.flatten i = (c.map fun x => x.count i).sum := by
  induction c with
  | nil => rfl
  | cons a c ih => simpa [hits, List.count_append] using ih

end BET
