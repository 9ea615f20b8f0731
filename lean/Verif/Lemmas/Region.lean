import Verif.Lemmas.Prob

set_option linter.unusedSectionVars false
set_option linter.unusedSimpArgs false

set_option autoImplicit false

namespace BET

/-- Column `j` of the result: the first hit in even columns, the second in odd ones. -/
def altCol (num : Nat) (hs : List Nat) (j : Nat) : Nat × Bool :=
  match hs with
  | [] => (num - 1, false)
  | [a] => if j % 2 = 0 then (a, true) else (num - 1, false)
  | a :: b :: _ => if j % 2 = 0 then (a, true) else (b, true)

theorem getD_map_range {α : Type} (f : Nat → α) (k j : Nat) (d : α) (h : j < k) :
    ((List.range k).map f).getD j d = f j := by
  simp [List.getD, h]

theorem set_map_range {α : Type} (f : Nat → α) (k j : Nat) (v : α) :
    ((List.range k).map f).set j v = (List.range k).map (fun t => if t = j then v else f t) := by
  apply List.ext_getElem
  · simp
  · intro n h1 h2
    simp only [List.getElem_set, List.getElem_map, List.getElem_range]
    by_cases h : j = n
    · simp [h]
    · have : ¬ n = j := fun e => h e.symm
      simp [h, this]

/-- The inner loop of the region query for one region. -/
theorem region_inner (num k i : Nat) (inRec : Nat → Bool) (hs : List Nat)
    (hh : ∀ a ∈ hs, a < i) (hi : i < num - 1) :
    (List.range k).foldl (regionStep num inRec i) ((List.range k).map (altCol num hs)) =
      (List.range k).map (altCol num (if inRec i then hs ++ [i] else hs)) := by
  by_cases hr : inRec i = true
  · simp only [hr, if_true]
    have key : ∀ t, t ≤ k → (List.range t).foldl (regionStep num inRec i)
        ((List.range k).map (altCol num hs)) =
        (List.range k).map fun j => if j < t then altCol num (hs ++ [i]) j else altCol num hs j := by
      intro t
      induction t with
      | zero => intro _; simp
      | succ t ih =>
        intro ht
        rw [List.range_succ, List.foldl_append, ih (by omega)]
        simp only [List.foldl_cons, List.foldl_nil, regionStep, hr, Bool.and_true]
        rw [getD_map_range _ _ _ _ (by omega : t < k)]
        simp only [lt_irrefl, if_false]
        have hprev : t ≠ 0 → ((List.range k).map fun j =>
            if j < t then altCol num (hs ++ [i]) j else altCol num hs j).getD (t - 1) (0, false) =
            altCol num (hs ++ [i]) (t - 1) := by
          intro h0
          rw [getD_map_range _ _ _ _ (by omega : t - 1 < k), if_pos (by omega)]
        have fin : ∀ v, altCol num (hs ++ [i]) t = v →
            (((List.range k).map fun j =>
              if j < t then altCol num (hs ++ [i]) j else altCol num hs j).set t v) =
            (List.range k).map fun j =>
              if j < t + 1 then altCol num (hs ++ [i]) j else altCol num hs j := by
          intro v hv
          rw [set_map_range]
          refine List.map_congr_left fun j _ => ?_
          by_cases hj : j = t
          · subst hj; simp [hv]
          · have : j < t + 1 ↔ j < t := by omega
            simp only [hj, if_false, this]
        have nofin : altCol num (hs ++ [i]) t = altCol num hs t →
            ((List.range k).map fun j =>
              if j < t then altCol num (hs ++ [i]) j else altCol num hs j) =
            (List.range k).map fun j =>
              if j < t + 1 then altCol num (hs ++ [i]) j else altCol num hs j := by
          intro hv
          refine List.map_congr_left fun j _ => ?_
          by_cases hj : j = t
          · subst hj; simp [hv]
          · have : j < t + 1 ↔ j < t := by omega
            simp only [this]
        match hs, hh with
        | [], _ =>
          by_cases h0 : t = 0
          · subst h0
            simp only [if_true, altCol, beq_self_eq_true, if_pos]
            exact fin _ (by simp [altCol])
          · rw [if_neg h0, hprev h0]
            by_cases he : t % 2 = 0
            · have : ¬ (t - 1) % 2 = 0 := by omega
              have hne : num - 1 ≠ i := by omega
              simp only [altCol, List.nil_append, this, if_false, beq_self_eq_true, Bool.true_and,
                bne_iff_ne, ne_eq, hne, not_false_eq_true, if_true]
              exact fin _ (by simp [altCol, he])
            · have : (t - 1) % 2 = 0 := by omega
              simp only [altCol, List.nil_append, this, if_true, beq_self_eq_true, Bool.true_and,
                bne_self_eq_false, Bool.false_eq_true, if_false]
              exact nofin (by simp [altCol, he])
        | [a], hh =>
          have ha : a < i := hh a (by simp)
          have hane : a ≠ num - 1 := by omega
          have hai : a ≠ i := by omega
          by_cases he : t % 2 = 0
          · have hb : (a == num - 1) = false := by simp [hane]
            simp only [altCol, he, if_true, hb, Bool.false_and, ite_self, Bool.false_eq_true, if_false]
            exact nofin (by simp [altCol, he])
          · have h0 : t ≠ 0 := by rintro rfl; simp at he
            have hp : (t - 1) % 2 = 0 := by omega
            rw [if_neg h0, hprev h0]
            simp only [altCol, he, if_false, beq_self_eq_true, Bool.true_and, List.cons_append,
              List.nil_append, hp, if_true, bne_iff_ne, ne_eq, hai, not_false_eq_true]
            exact fin _ (by simp [altCol, he])
        | a :: b :: l, hh =>
          have ha : a < i := hh a (by simp)
          have hb : b < i := hh b (by simp)
          have h1 : (a == num - 1) = false := by
            have : a ≠ num - 1 := by omega
            simp [this]
          have h2 : (b == num - 1) = false := by
            have : b ≠ num - 1 := by omega
            simp [this]
          have h3 : ((altCol num (a :: b :: l) t).1 == num - 1) = false := by
            by_cases he : t % 2 = 0 <;> simp only [altCol, he, if_true, if_false, h1, h2]
          simp only [h3, Bool.false_and, ite_self, Bool.false_eq_true, if_false]
          exact nofin (by simp [altCol])
    have := key k (Nat.le_refl k)
    rw [this]
    refine List.map_congr_left fun j hj => ?_
    rw [if_pos (List.mem_range.mp hj)]
  · simp only [hr]
    have hf : inRec i = false := by simpa using hr
    have step : ∀ (row : List (Nat × Bool)) j, regionStep num inRec i row j = row := by
      intro row j
      simp [regionStep, hf]
    have : ∀ (l : List Nat) (row : List (Nat × Bool)),
        l.foldl (regionStep num inRec i) row = row := by
      intro l
      induction l with
      | nil => intro row; rfl
      | cons x l ih => intro row; rw [List.foldl_cons, step, ih]
    rw [this]
    simp

/-- Exact result of the region query for every `k`: columns alternate between the
first and the second region that contain the point. -/
theorem regionQueryRow_eq (num k : Nat) (inRec : Nat → Bool) :
    regionQueryRow num k inRec =
      (List.range k).map (altCol num ((List.range (num - 1)).filter inRec)) := by
  unfold regionQueryRow
  have h0 : List.replicate k (num - 1, false) = (List.range k).map (altCol num []) := by
    apply List.ext_getElem
    · simp
    · intros; simp [altCol]
  rw [h0]
  have key : ∀ m, m ≤ num - 1 → (List.range m).foldl
      (fun row i => (List.range k).foldl (regionStep num inRec i) row)
      ((List.range k).map (altCol num [])) =
      (List.range k).map (altCol num ((List.range m).filter inRec)) := by
    intro m
    induction m with
    | zero => intro _; simp
    | succ m ih =>
      intro hm
      rw [List.range_succ, List.foldl_append, ih (by omega), List.filter_append]
      simp only [List.foldl_cons, List.foldl_nil]
      rw [region_inner num k m inRec _ ?_ (by omega)]
      · by_cases hr : inRec m = true <;> simp [hr]
      · intro a ha
        exact List.mem_range.mp (List.mem_filter.mp ha).1
  exact key _ (Nat.le_refl _)

/-- The region that `query` with `k = 1` reports. -/
def firstRegion (num : Nat) (inRec : Nat → Bool) : Nat :=
  (((List.range (num - 1)).filter inRec).head?).getD (num - 1)

theorem regionQueryRow_one (num : Nat) (inRec : Nat → Bool) :
    ((regionQueryRow num 1 inRec).getD 0 (0, false)).1 = firstRegion num inRec := by
  rw [regionQueryRow_eq, firstRegion]
  cases (List.range (num - 1)).filter inRec with
  | nil => simp [altCol]
  | cons a l => cases l <;> simp [altCol]

theorem firstRegion_spec (num : Nat) (inRec : Nat → Bool) :
    (firstRegion num inRec < num - 1 ∧ inRec (firstRegion num inRec) = true ∧
      ∀ i < firstRegion num inRec, inRec i = false) ∨
    (firstRegion num inRec = num - 1 ∧ ∀ i < num - 1, inRec i = false) := by
  unfold firstRegion
  cases h : (List.range (num - 1)).filter inRec with
  | nil =>
    right
    refine ⟨by simp, fun i hi => ?_⟩
    rw [List.filter_eq_nil_iff] at h
    simpa using h i (List.mem_range.mpr hi)
  | cons a l =>
    left
    have ha : a ∈ (List.range (num - 1)).filter inRec := by rw [h]; simp
    rw [List.mem_filter, List.mem_range] at ha
    refine ⟨by simpa using ha.1, by simpa using ha.2, fun i hi => ?_⟩
    simp only [List.head?_cons, Option.getD_some] at hi
    by_contra hc
    have hc : inRec i = true := by simpa using hc
    have hmem : i ∈ a :: l := by
      rw [← h, List.mem_filter, List.mem_range]; exact ⟨by omega, hc⟩
    have hs : List.Pairwise (· < ·) (a :: l) := by
      rw [← h]
      exact List.Pairwise.filter _ List.pairwise_lt_range
    rcases List.mem_cons.mp hmem with rfl | hm
    · omega
    · have := (List.pairwise_cons.mp hs).1 i hm
      omega

end BET
