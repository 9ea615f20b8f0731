import Verif.Model.Rectangle
import Mathlib.Algebra.BigOperators.Ring.List
import Mathlib.Data.List.Forall2
import Mathlib.Data.List.Nodup
import Mathlib.Data.List.Induction
import Mathlib.Tactic.Ring

set_option linter.unusedSectionVars false
set_option linter.unusedSimpArgs false
set_option autoImplicit false

namespace BET

/-- One more coordinate, slower than the others. -/
def gridStep {α : Type} (acc : List (List α)) (c : List α) : List (List α) :=
  c.flatMap fun z => acc.map fun row => row ++ [z]

theorem gridRows_snoc {α : Type} (a b : List α) (rest : List (List α)) (c : List α) :
    gridRows (a :: b :: (rest ++ [c])) = gridStep (gridRows (a :: b :: rest)) c := by
  simp [gridRows, gridStep, List.foldl_append]

/-- Induction principle for grids. -/
theorem gridRows_induct {α : Type} {P : (xs : List (List α)) → xs ≠ [] → Prop}
    (h1 : ∀ a, P [a] (by simp)) (h2 : ∀ a b, P [a, b] (by simp))
    (hs : ∀ a b rest c, P (a :: b :: rest) (by simp) → P (a :: b :: (rest ++ [c])) (by simp))
    (xs : List (List α)) (hne : xs ≠ []) : P xs hne := by
  match xs, hne with
  | [a], _ => exact h1 a
  | a :: b :: rest, _ =>
    induction rest using List.reverseRecOn with
    | nil => exact h2 a b
    | append_singleton rest c ih => exact hs a b rest c (ih (by simp))

theorem mem_gridRows {α : Type} (xs : List (List α)) (hne : xs ≠ []) (r : List α) :
    r ∈ gridRows xs ↔ List.Forall₂ (fun x l => x ∈ l) r xs := by
  induction xs, hne using gridRows_induct generalizing r with
  | h1 a =>
    simp only [gridRows, List.mem_map]
    constructor
    · rintro ⟨x, hx, rfl⟩; exact .cons hx .nil
    · intro h
      cases h with
      | cons hx ht => cases ht; exact ⟨_, hx, rfl⟩
  | h2 a b =>
    simp only [gridRows, List.foldl_nil, List.mem_flatMap, List.mem_map]
    constructor
    · rintro ⟨x, hx, y, hy, rfl⟩; exact .cons hx (.cons hy .nil)
    · intro h
      cases h with
      | cons hx ht =>
        cases ht with
        | cons hy ht => cases ht; exact ⟨_, hx, _, hy, rfl⟩
  | hs a b rest c ih =>
    rw [gridRows_snoc]
    simp only [gridStep, List.mem_flatMap, List.mem_map]
    constructor
    · rintro ⟨z, hz, row, hrow, rfl⟩
      have := (ih row).mp hrow
      have h2 := List.rel_append this (.cons hz .nil : List.Forall₂ (fun x l => x ∈ l) [z] [c])
      simpa using h2
    · intro h
      have hlen := h.length_eq
      have hne : r ≠ [] := by rintro rfl; simp at hlen
      obtain ⟨row, z, rfl⟩ : ∃ row z, r = row ++ [z] :=
        ⟨r.dropLast, r.getLast hne, (List.dropLast_append_getLast hne).symm⟩
      have h' : List.Forall₂ (fun x l => x ∈ l) (row ++ [z]) ((a :: b :: rest) ++ [c]) := by
        simpa using h
      have hl : row.length = (a :: b :: rest).length := by
        simpa using hlen
      have h1 := List.forall₂_take (a :: b :: rest).length h'
      have h2 := List.forall₂_drop (a :: b :: rest).length h'
      rw [List.take_left' hl, List.take_left' rfl] at h1
      rw [List.drop_left' hl, List.drop_left' rfl] at h2
      cases h2 with
      | cons hz _ => exact ⟨z, hz, row, (ih row).mpr h1, rfl⟩

theorem gridRows_map {α β : Type} (f : α → β) (xs : List (List α)) :
    gridRows (xs.map (List.map f)) = (gridRows xs).map (List.map f) := by
  by_cases hne : xs = []
  · subst hne; rfl
  induction xs, hne using gridRows_induct with
  | h1 a => simp [gridRows]
  | h2 a b =>
    simp [gridRows, List.flatMap_map, List.map_flatMap, Function.comp_def]
  | hs a b rest c ih =>
    have e : (a :: b :: (rest ++ [c])).map (List.map f) =
        (a.map f) :: (b.map f) :: (rest.map (List.map f) ++ [c.map f]) := by simp
    rw [e, gridRows_snoc, gridRows_snoc]
    have ih' : gridRows (a.map f :: b.map f :: rest.map (List.map f)) =
      (gridRows (a :: b :: rest)).map (List.map f) := by simpa using ih
    rw [ih']
    simp [gridStep, List.flatMap_map, List.map_flatMap, Function.comp_def]

theorem length_of_mem_gridRows {α : Type} {xs : List (List α)} {r : List α}
    (h : r ∈ gridRows xs) : r.length = xs.length := by
  by_cases hne : xs = []
  · subst hne; simp [gridRows] at h
  · exact ((mem_gridRows xs hne r).mp h).length_eq

theorem length_gridRows {α : Type} (xs : List (List α)) (hne : xs ≠ []) :
    (gridRows xs).length = (xs.map List.length).prod := by
  induction xs, hne using gridRows_induct with
  | h1 a => simp [gridRows]
  | h2 a b => simp [gridRows, List.length_flatMap]
  | hs a b rest c ih =>
    rw [gridRows_snoc]
    simp [gridStep, List.length_flatMap, ih, Nat.mul_comm, Nat.mul_left_comm, Nat.mul_assoc]

theorem nodup_gridRows {α : Type} (xs : List (List α)) (hne : xs ≠ [])
    (h : ∀ l ∈ xs, l.Nodup) : (gridRows xs).Nodup := by
  induction xs, hne using gridRows_induct with
  | h1 a => exact (h a (by simp)).map (fun x y hxy => by simpa using hxy)
  | h2 a b =>
    simp only [gridRows, List.foldl_nil]
    rw [List.nodup_flatMap]
    refine ⟨fun x _ => (h b (by simp)).map (fun y z hyz => by simpa using hyz), ?_⟩
    refine (h a (by simp)).imp ?_
    intro x y hxy r hr hr'
    obtain ⟨_, _, rfl⟩ := List.mem_map.mp hr
    obtain ⟨_, _, h2⟩ := List.mem_map.mp hr'
    simp at h2
    exact hxy h2.1.symm
  | hs a b rest c ih =>
    rw [gridRows_snoc]
    have ih := ih fun l hl => h l (by simp at hl ⊢; tauto)
    unfold gridStep
    rw [List.nodup_flatMap]
    refine ⟨fun z _ => ih.map (fun r r' hr => by simpa using hr), ?_⟩
    refine (h c (by simp)).imp ?_
    intro x y hxy r hr hr'
    obtain ⟨_, _, rfl⟩ := List.mem_map.mp hr
    obtain ⟨_, _, h2⟩ := List.mem_map.mp hr'
    simp only [List.append_eq_append_iff, List.cons.injEq] at h2
    have := congrArg List.getLast? (show _ ++ [y] = _ ++ [x] from (List.mem_map.mp hr').choose_spec.2)
    simp at this
    exact hxy this.symm

theorem sum_flatMap' {α K : Type} [AddCommMonoid K] (l : List α) (f : α → List K) :
    (l.flatMap f).sum = (l.map fun x => (f x).sum).sum := by
  induction l with
  | nil => rfl
  | cons x t ih => simp [ih]

theorem sum_map_mul_left' {K : Type} [CommSemiring K] (l : List K) (r : K) :
    (l.map fun x => r * x).sum = r * l.sum := by
  induction l with
  | nil => simp
  | cons x t ih => simp [ih, mul_add]

theorem sum_map_mul_right' {K : Type} [CommSemiring K] (l : List K) (r : K) :
    (l.map fun x => x * r).sum = l.sum * r := by
  induction l with
  | nil => simp
  | cons x t ih => simp [ih, add_mul]

theorem sum_prod_gridRows {K : Type} [CommSemiring K] (xs : List (List K)) (hne : xs ≠ []) :
    ((gridRows xs).map List.prod).sum = (xs.map List.sum).prod := by
  induction xs, hne using gridRows_induct with
  | h1 a => simp [gridRows, List.map_map, Function.comp_def]
  | h2 a b =>
    simp only [gridRows, List.foldl_nil, List.map_flatMap, List.map_map, sum_flatMap']
    simp only [Function.comp_def, List.prod_cons, List.prod_nil, mul_one, List.map_cons,
      List.map_nil, sum_map_mul_left', sum_map_mul_right']
  | hs a b rest c ih =>
    rw [gridRows_snoc]
    simp only [gridStep, List.map_flatMap, List.map_map, sum_flatMap']
    simp only [Function.comp_def, List.prod_append, List.prod_cons, List.prod_nil, mul_one,
      List.sum_map_mul_right, ih, List.map_cons, List.map_append, List.map_nil,
      sum_map_mul_left']
    ring

/-- `gridRows` commutes with functions that depend on the coordinate. -/
theorem gridRows_zipWith {α β : Type} (xs : List (List α)) (hne : xs ≠ [])
    (fs : List (α → β)) (hl : fs.length = xs.length) :
    gridRows (List.zipWith (fun f l => l.map f) fs xs) =
      (gridRows xs).map (List.zipWith (fun f x => f x) fs) := by
  induction xs, hne using gridRows_induct generalizing fs with
  | h1 a =>
    match fs, hl with
    | [f], _ => simp [gridRows]
  | h2 a b =>
    match fs, hl with
    | [f, g], _ => simp [gridRows, List.flatMap_map, List.map_flatMap, Function.comp_def]
  | hs a b rest c ih =>
    have hlf : fs.length = (a :: b :: rest).length + 1 := by simpa using hl
    have hne' : fs ≠ [] := by rintro rfl; simp at hlf
    obtain ⟨fs', g, rfl⟩ : ∃ fs' g, fs = fs' ++ [g] :=
      ⟨fs.dropLast, fs.getLast hne', (List.dropLast_append_getLast hne').symm⟩
    have hl' : fs'.length = (a :: b :: rest).length := by simpa using hlf
    have ih' := ih fs' hl'
    match fs', hl' with
    | f1 :: f2 :: fs', hl' =>
      have hlr : fs'.length = rest.length := by simpa using hl'
      have e : List.zipWith (fun (f : α → β) l => l.map f) (f1 :: f2 :: fs' ++ [g])
          (a :: b :: (rest ++ [c])) = (a.map f1) :: (b.map f2) ::
            (List.zipWith (fun (f : α → β) l => l.map f) fs' rest ++ [c.map g]) := by
        simp [List.zipWith_append hlr]
      rw [e, gridRows_snoc, gridRows_snoc]
      have ih'' : gridRows (a.map f1 :: b.map f2 ::
          List.zipWith (fun (f : α → β) l => l.map f) fs' rest) =
          (gridRows (a :: b :: rest)).map (List.zipWith (fun f x => f x) (f1 :: f2 :: fs')) := by
        simpa using ih'
      rw [ih'']
      simp only [gridStep, List.flatMap_map, List.map_flatMap, List.map_map]
      congr 1
      funext z
      refine List.map_congr_left fun row hrow => ?_
      have hr := length_of_mem_gridRows hrow
      have : (f1 :: f2 :: fs').length = row.length := by simpa [hr] using hl'
      simp only [Function.comp_apply]
      rw [List.zipWith_append this]
      simp

end BET
