import Verif.Model.ChooseQois
import Verif.Lemmas.Basic
import Verif.Props.Choose
import Mathlib.Tactic.Ring

/-!
# C53: `find_unique_vecs`
-/

set_option linter.unusedSectionVars false
set_option linter.unusedSimpArgs false
set_option autoImplicit false

namespace BET

open Spec

/-! ### Combinations -/

theorem mem_combos {α : Type} (k : Nat) (l c : List α) :
    c ∈ combos k l ↔ c.Sublist l ∧ c.length = k := by
  induction l generalizing k c with
  | nil =>
    cases k with
    | zero => simp [combos]
    | succ k =>
      simp only [combos, List.not_mem_nil, List.sublist_nil, false_iff]
      rintro ⟨rfl, h⟩
      simp at h
  | cons a l ih =>
    cases k with
    | zero =>
      simp only [combos, List.mem_singleton, List.length_eq_zero_iff]
      exact ⟨fun h => ⟨h ▸ List.nil_sublist _, h⟩, fun h => h.2⟩
    | succ k =>
      simp only [combos, List.mem_append, List.mem_map, ih, List.sublist_cons_iff]
      constructor
      · rintro (⟨c', ⟨h1, h2⟩, rfl⟩ | ⟨h1, h2⟩)
        · exact ⟨Or.inr ⟨c', rfl, h1⟩, by simp [h2]⟩
        · exact ⟨Or.inl h1, h2⟩
      · rintro ⟨h1 | ⟨c', rfl, h1⟩, h2⟩
        · exact Or.inr ⟨h1, h2⟩
        · exact Or.inl ⟨c', ⟨h1, by simpa using h2⟩, rfl⟩

theorem nodup_combos {α : Type} (k : Nat) {l : List α} (h : l.Nodup) : (combos k l).Nodup := by
  induction l generalizing k with
  | nil => cases k <;> simp [combos]
  | cons a l ih =>
    cases k with
    | zero => simp [combos]
    | succ k =>
      obtain ⟨ha, hl⟩ := List.nodup_cons.1 h
      simp only [combos]
      refine List.Nodup.append ((ih k hl).map (List.cons_injective)) (ih (k + 1) hl) ?_
      intro c h1 h2
      obtain ⟨c', -, rfl⟩ := List.mem_map.1 h1
      exact ha (((mem_combos _ _ _).1 h2).1.subset (by simp))

/-- The pairs of a list. -/
theorem combos_two {α : Type} (a : α) (l : List α) :
    combos 2 (a :: l) = l.map (fun b => [a, b]) ++ combos 2 l := by
  have h1 : ∀ l : List α, combos 1 l = l.map fun b => [b] := by
    intro l
    induction l with
    | nil => rfl
    | cons b l ih =>
      simp only [combos, ih]
      cases l <;> rfl
  simp only [combos, h1, List.map_map]
  rfl

/-! ### Vocabulary -/

/-- `enum` lists the elements of a set, each once. -/
def Spec.Enumerates (enum : List Nat → List Nat) : Prop :=
  ∀ l, (enum l).Nodup ∧ ∀ i, i ∈ enum l ↔ i ∈ l

section
variable {K : Type} [Field K] [LinearOrder K]

/-- The gradient of QoI `i` at centre `c`. -/
def Spec.grad (G : List (List (List K))) (c i : Nat) : List K := (G.getD c []).getD i []

/-- A vector divided by its length. -/
def Spec.direction (norm2 : List K → K) (v : List K) : List K :=
  v.map fun x => x / (if norm2 v = 0 then 1 else norm2 v)

/-- The average over the centres of the inner products of the directions of two QoIs. -/
def Spec.avgAlign (norm2 : List K → K) (G : List (List (List K))) (i j : Nat) : K :=
  (∑ c ∈ Finset.range G.length,
    (List.zipWith (· * ·) (direction norm2 (grad G c i)) (direction norm2 (grad G c j))).sum) /
    (G.length : K)

/-- A tensor of `m` QoIs. -/
def Spec.HasQois (G : List (List (List K))) (m : Nat) : Prop := G ≠ [] ∧ ∀ x ∈ G, x.length = m

/-- QoI `i` has a zero gradient at some centre. -/
def Spec.SomewhereZero (norm2 : List K → K) (G : List (List (List K))) (i : Nat) : Prop :=
  ∃ c < G.length, norm2 (grad G c i) = 0

/-! ### Inner products -/

theorem avgAlign_symm (norm2 : List K → K) (G : List (List (List K))) (i j : Nat) :
    avgAlign norm2 G i j = avgAlign norm2 G j i := by
  unfold avgAlign
  congr 1
  refine Finset.sum_congr rfl fun c _ => ?_
  rw [List.zipWith_comm]
  congr 2
  funext a b
  ring

theorem qoiColumn_unit (norm2 : List K → K) {G : List (List (List K))} {m : Nat}
    (hG : HasQois G m) {i : Nat} (hi : i < m) :
    qoiColumn (unitGradients norm2 G) i =
      .ok ((List.range G.length).map fun c => direction norm2 (grad G c i)) := by
  unfold qoiColumn unitGradients
  rw [mapM_eq_ok, List.forall₂_map_left_iff, List.forall₂_iff_get]
  refine ⟨by simp, fun c hc hc' => ?_⟩
  have hm := hG.2 _ (List.getElem_mem hc)
  simp only [List.get_eq_getElem, List.getElem_map, List.getElem_range, getIdx, List.getElem?_map]
  rw [List.getElem?_eq_getElem (by omega)]
  have hg : grad G c i = G[c][i] := by
    unfold grad
    rw [List.getD_eq_getElem?_getD, List.getD_eq_getElem?_getD, List.getElem?_eq_getElem hc]
    simp only [Option.getD_some]
    rw [List.getElem?_eq_getElem (by omega)]
    rfl
  rw [hg]
  rfl

theorem sum_zipWith_range (f g : Nat → List K) (n : Nat) :
    (List.zipWith (fun v w => (List.zipWith (· * ·) v w).sum) ((List.range n).map f)
      ((List.range n).map g)).sum =
      ∑ c ∈ Finset.range n, (List.zipWith (· * ·) (f c) (g c)).sum := by
  rw [List.zipWith_map, List.zipWith_self]
  induction n with
  | zero => simp
  | succ n ih =>
    rw [List.range_succ, List.map_append, List.sum_append, ih, Finset.sum_range_succ]
    simp

theorem avgInner_unit (norm2 : List K → K) {G : List (List (List K))} {m : Nat}
    (hG : HasQois G m) {i j : Nat} (hi : i < m) (hj : j < m) :
    avgInner (unitGradients norm2 G) i j = .ok (avgAlign norm2 G i j) := by
  unfold avgInner
  rw [qoiColumn_unit norm2 hG hi, ok_bind, qoiColumn_unit norm2 hG hj, ok_bind, sum_zipWith_range]
  simp [unitGradients, avgAlign]
  rfl

theorem mem_zeroQois (norm2 : List K → K) {G : List (List (List K))} {m : Nat}
    (hG : HasQois G m) (i : Nat) :
    i ∈ zeroQois norm2 G ↔ i < m ∧ SomewhereZero norm2 G i := by
  have hh : (G.headD []).length = m := by
    obtain ⟨hne, hm⟩ := hG
    cases G with
    | nil => exact absurd rfl hne
    | cons a G => exact hm a (by simp)
  unfold zeroQois SomewhereZero grad
  rw [List.mem_filter, List.mem_range, hh]
  refine and_congr_right fun hi => ?_
  rw [List.any_eq_true]
  constructor
  · rintro ⟨x, hx, h⟩
    obtain ⟨c, hc, rfl⟩ := List.getElem_of_mem hx
    have hm := hG.2 _ (List.getElem_mem hc)
    refine ⟨c, hc, ?_⟩
    rw [decide_eq_true_eq, List.getD_eq_getElem?_getD, List.getElem?_map,
      List.getElem?_eq_getElem (by omega)] at h
    rw [List.getD_eq_getElem?_getD, List.getD_eq_getElem?_getD, List.getElem?_eq_getElem hc]
    simp only [Option.getD_some]
    rw [List.getElem?_eq_getElem (by omega)]
    exact h
  · rintro ⟨c, hc, h⟩
    have hm := hG.2 _ (List.getElem_mem hc)
    refine ⟨G[c], List.getElem_mem hc, ?_⟩
    rw [List.getD_eq_getElem?_getD, List.getD_eq_getElem?_getD, List.getElem?_eq_getElem hc] at h
    simp only [Option.getD_some] at h
    rw [List.getElem?_eq_getElem (by omega)] at h
    rw [decide_eq_true_eq, List.getD_eq_getElem?_getD, List.getElem?_map,
      List.getElem?_eq_getElem (by omega)]
    exact h

/-! ### The greedy elimination -/

/-- One round, for valid QoIs. -/
theorem repeatStep_ok (norm2 : List K → K) {G : List (List (List K))} {m : Nat} (hG : HasQois G m)
    (tol : K) (rep : List Nat) {i j : Nat} (hi : i < m) (hj : j < m) :
    repeatStep (unitGradients norm2 G) tol rep [i, j] =
      .ok (if i ∉ rep ∧ j ∉ rep ∧ tol < |avgAlign norm2 G i j| then rep ++ [j] else rep) := by
  have h0 : ([i, j] : List Nat).getD 0 0 = i := rfl
  have h1 : ([i, j] : List Nat).getD 1 0 = j := rfl
  unfold repeatStep
  rw [h0, h1]
  by_cases h : i ∈ rep ∨ j ∈ rep
  · rw [if_pos h, if_neg (by tauto)]
  · rw [if_neg h, avgInner_unit norm2 hG hi hj, ok_bind]
    unfold repeatIf
    push Not at h
    simp [h]
    rfl

/-- The rounds of one QoI with the later ones. -/
theorem repeat_row (norm2 : List K → K) {G : List (List (List K))} {m : Nat} (hG : HasQois G m)
    (tol : K) {i : Nat} (hi : i < m) (l : List Nat) (hl : ∀ j ∈ l, j < m) (rep : List Nat)
    (hn : (i :: l).Nodup) :
    ∃ rep', (l.map fun j => [i, j]).foldlM (repeatStep (unitGradients norm2 G) tol) rep = .ok rep' ∧
      ∀ b, b ∈ rep' ↔ b ∈ rep ∨ (b ∈ l ∧ i ∉ rep ∧ tol < |avgAlign norm2 G i b|) := by
  induction l generalizing rep with
  | nil => exact ⟨rep, rfl, by simp⟩
  | cons j l ih =>
    have hil : i ≠ j := by simp at hn; tauto
    have hn' : (i :: l).Nodup := by
      simp only [List.nodup_cons, List.mem_cons] at hn ⊢; tauto
    rw [List.map_cons, List.foldlM_cons, repeatStep_ok norm2 hG tol rep hi (hl j (by simp)), ok_bind]
    obtain ⟨rep', hr, hm⟩ := ih (fun j hj => hl j (by simp [hj])) _ hn'
    refine ⟨rep', hr, fun b => ?_⟩
    rw [hm b]
    by_cases hc : i ∉ rep ∧ j ∉ rep ∧ tol < |avgAlign norm2 G i j|
    · rw [if_pos hc]
      simp only [List.mem_append, List.mem_singleton, List.mem_cons, List.not_mem_nil, or_false]
      constructor
      · rintro ((h | rfl) | h)
        · exact Or.inl h
        · exact Or.inr ⟨Or.inl rfl, hc.1, hc.2.2⟩
        · exact Or.inr ⟨Or.inr h.1, hc.1, h.2.2⟩
      · rintro (h | ⟨rfl | h, h1, h2⟩)
        · exact Or.inl (Or.inl h)
        · exact Or.inl (Or.inr rfl)
        · exact Or.inr ⟨h, by simp only [not_or]; exact ⟨h1, hil⟩, h2⟩
    · rw [if_neg hc]
      constructor
      · rintro (h | ⟨h, h1, h2⟩)
        · exact Or.inl h
        · exact Or.inr ⟨by simp [h], h1, h2⟩
      · rintro (h | ⟨h, h1, h2⟩)
        · exact Or.inl h
        · rcases List.mem_cons.1 h with rfl | h
          · left
            by_contra hb
            exact hc ⟨h1, hb, h2⟩
          · exact Or.inr ⟨h, h1, h2⟩

/-- The whole elimination. -/
theorem repeat_all (norm2 : List K → K) {G : List (List (List K))} {m : Nat} (hG : HasQois G m)
    (tol : K) (l : List Nat) (hl : ∀ j ∈ l, j < m) (hn : l.Nodup) (rep : List Nat) :
    ∃ rep', (combos 2 l).foldlM (repeatStep (unitGradients norm2 G) tol) rep = .ok rep' ∧
      (∀ b ∈ rep, b ∈ rep') ∧
      (∀ b ∈ rep', b ∈ rep ∨
        (b ∈ l ∧ ∃ a ∈ l, a ∉ rep' ∧ a ≠ b ∧ tol < |avgAlign norm2 G a b|)) ∧
      ∀ a ∈ l, ∀ b ∈ l, a ≠ b → a ∉ rep' → b ∉ rep' → ¬ tol < |avgAlign norm2 G a b| := by
  induction l generalizing rep with
  | nil => exact ⟨rep, rfl, by simp, by simp, by simp⟩
  | cons i l ih =>
    obtain ⟨r1, h1, hm1⟩ := repeat_row norm2 hG tol (hl i (by simp)) l
      (fun j hj => hl j (by simp [hj])) rep hn
    obtain ⟨hil, hnl⟩ := List.nodup_cons.1 hn
    obtain ⟨r2, h2, hsub, hadd, hind⟩ := ih (fun j hj => hl j (by simp [hj])) hnl r1
    refine ⟨r2, ?_, ?_, ?_, ?_⟩
    · rw [combos_two, List.foldlM_append, h1, ok_bind, h2]
    · intro b hb
      exact hsub b ((hm1 b).2 (Or.inl hb))
    · have hi2 : i ∉ rep → i ∉ r2 := by
        intro hi h
        rcases hadd i h with h | ⟨h, -⟩
        · rcases (hm1 i).1 h with h | ⟨h, -⟩
          · exact hi h
          · exact hil h
        · exact hil h
      intro b hb
      rcases hadd b hb with hb | ⟨hb, a, ha, h⟩
      · rcases (hm1 b).1 hb with hb | ⟨hb, hi, ht⟩
        · exact Or.inl hb
        · refine Or.inr ⟨by simp [hb], i, by simp, hi2 hi, ?_, ht⟩
          rintro rfl
          exact hil hb
      · exact Or.inr ⟨by simp [hb], a, by simp [ha], h⟩
    · have key : ∀ b ∈ l, i ∉ r2 → b ∉ r2 → ¬ tol < |avgAlign norm2 G i b| := by
        intro b hb hi2 hb2 ht
        refine hb2 (hsub b ((hm1 b).2 (Or.inr ⟨hb, fun hi => hi2 (hsub i ((hm1 i).2 (Or.inl hi))), ht⟩)))
      intro a ha b hb hab ha2 hb2
      rcases List.mem_cons.1 ha with hai | hal <;> rcases List.mem_cons.1 hb with hbi | hbl
      · exact absurd (hai.trans hbi.symm) hab
      · subst hai; exact key b hbl ha2 hb2
      · subst hbi; rw [avgAlign_symm]; exact key a hal hb2 ha2
      · exact hind a hal b hbl hab ha2 hb2

/-- **C53.** For valid QoIs `find_unique_vecs` returns QoIs among those asked for, each once, none with
a zero gradient at a centre (if these are to be removed); no two of them have an average inner product
above the tolerance; and every QoI asked for that is not returned has a zero gradient, or has an average
inner product above the tolerance with one that is returned. -/
theorem C53_unique {enum : List Nat → List Nat} (he : Enumerates enum) (norm2 : List K → K)
    {G : List (List (List K))} {m : Nat} (hG : HasQois G m) (tol : K) (qois : Option (List Nat))
    (hq : ∀ i ∈ qois.getD (List.range m), i < m) (rz : Bool) :
    ∃ u, uniqueVecs enum norm2 (some G) tol qois rz = .ok u ∧ u.Nodup ∧
      (∀ i ∈ u, i ∈ qois.getD (List.range m) ∧ (rz = true → ¬ SomewhereZero norm2 G i)) ∧
      (∀ i ∈ u, ∀ j ∈ u, i ≠ j → |avgAlign norm2 G i j| ≤ tol) ∧
      ∀ i ∈ qois.getD (List.range m), i ∉ u → (rz = true ∧ SomewhereZero norm2 G i) ∨
        ∃ j ∈ u, j ≠ i ∧ tol < |avgAlign norm2 G i j| := by
  have hh : (G.headD []).length = m := by
    obtain ⟨hne, hm⟩ := hG
    cases G with
    | nil => exact absurd rfl hne
    | cons a G => exact hm a (by simp)
  unfold uniqueVecs
  simp only [orErr_some, ok_bind, hh]
  set req := qois.getD (List.range m) with hreq
  set zeros := (if rz = true then zeroQois norm2 G else []) with hz
  have hzm : ∀ i < m, i ∈ zeros ↔ (rz = true ∧ SomewhereZero norm2 G i) := by
    intro i hi
    rw [hz]
    split
    · rename_i h
      rw [mem_zeroQois norm2 hG]
      exact ⟨fun h' => ⟨h, h'.2⟩, fun h' => ⟨hi, h'.2⟩⟩
    · rename_i h
      simp [h]
  set l := enum (req.filter fun i => decide (i ∉ zeros)) with hl
  have hlm : ∀ i, i ∈ l ↔ i ∈ req ∧ i ∉ zeros := by
    intro i
    rw [hl, (he _).2, List.mem_filter]
    simp
  obtain ⟨rep, hrun, -, hadd, hind⟩ := repeat_all norm2 hG tol l
    (fun j hj => hq j ((hlm j).1 hj).1) (he _).1 []
  rw [hrun, ok_bind]
  have hum : ∀ i, i ∈ enum (l.filter fun i => decide (i ∉ rep)) ↔ i ∈ l ∧ i ∉ rep := by
    intro i
    rw [(he _).2, List.mem_filter]
    simp
  refine ⟨_, rfl, (he _).1, ?_, ?_, ?_⟩
  · intro i hi
    obtain ⟨hi, -⟩ := (hum i).1 hi
    obtain ⟨h1, h2⟩ := (hlm i).1 hi
    refine ⟨h1, fun hr hs => h2 ((hzm i (hq i h1)).2 ⟨hr, hs⟩)⟩
  · intro i hi j hj hij
    obtain ⟨hi, hi'⟩ := (hum i).1 hi
    obtain ⟨hj, hj'⟩ := (hum j).1 hj
    exact not_lt.1 (hind i hi j hj hij hi' hj')
  · intro i hi hu
    by_cases hzi : i ∈ zeros
    · exact Or.inl ((hzm i (hq i hi)).1 hzi)
    · right
      have hil : i ∈ l := (hlm i).2 ⟨hi, hzi⟩
      have hir : i ∈ rep := by
        by_contra h
        exact hu ((hum i).2 ⟨hil, h⟩)
      rcases hadd i hir with h | ⟨-, a, ha, har, hne, ht⟩
      · cases h
      · exact ⟨a, (hum a).2 ⟨ha, har⟩, hne, by rw [avgAlign_symm]; exact ht⟩

end

namespace Ex

/-- Python lists a set of small numbers in ascending order. -/
def enumSorted (l : List Nat) : List Nat := (l.dedup).insertionSort (· ≤ ·)

theorem enumSorted_enumerates : Enumerates enumSorted := by
  intro l
  have hp := List.perm_insertionSort (· ≤ ·) l.dedup
  exact ⟨hp.nodup_iff.2 (List.nodup_dedup l), fun i => by
    unfold enumSorted; rw [hp.mem_iff, List.mem_dedup]⟩

/-- A norm for vectors along the axes. -/
def normAxis (v : List ℚ) : ℚ := (v.map fun x => |x|).sum

/-- One centre: QoIs 0 and 2 are parallel, QoI 1 is orthogonal to them, QoI 3 is zero. -/
def qoiG : List (List (List ℚ)) := [[[1, 0], [0, 2], [-3, 0], [0, 0]]]

example : HasQois qoiG 4 ∧ SomewhereZero normAxis qoiG 3 :=
  ⟨⟨by decide, by decide⟩, 0, by decide, by decide +kernel⟩

example : (uniqueVecs enumSorted normAxis (some qoiG) (9/10) none true).toOption = some [0, 1] := by
  decide +kernel

example : (uniqueVecs enumSorted normAxis (some qoiG) (9/10) (some [2, 3, 0, 2]) false).toOption =
    some [0, 3] := by
  decide +kernel

end Ex

end BET
