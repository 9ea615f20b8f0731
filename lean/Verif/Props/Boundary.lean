import Verif.Model.CalcError
import Verif.Props.Transport
import Verif.Props.Choose
import Verif.Spec.Examples
import Mathlib.Tactic.Linarith

/-!
# Interior and covering cells, and the sampling error of contour events (C36, C37, C69)
-/

set_option autoImplicit false
set_option linter.unusedSectionVars false
set_option linter.unusedSimpArgs false

namespace BET

open Spec

namespace Spec

/-- Cell `i` is interior to the contour event `ev`: it belongs to the event and so does every
neighbour, of which there is one. `nei i` lists the events of the neighbours of cell `i`. -/
def Interior (num : Nat) (nei : Nat → List Nat) (io : List Nat) (ev i : Nat) : Prop :=
  i < num ∧ io[i]? = some ev ∧ nei i = [ev]

/-- Cell `i` has a neighbour in the contour event `ev`. -/
def Touches (num : Nat) (nei : Nat → List Nat) (ev i : Nat) : Prop :=
  i < num ∧ ev ∈ nei i

instance (num : Nat) (nei : Nat → List Nat) (io : List Nat) (ev : Nat) :
    DecidablePred (Interior num nei io ev) := fun i => by unfold Interior; infer_instance

instance (num : Nat) (nei : Nat → List Nat) (ev : Nat) :
    DecidablePred (Touches num nei ev) := fun i => by unfold Touches; infer_instance

/-- The volume of the cells with property `P`. -/
def volOf {K : Type} [AddMonoid K] (vols : List K) (P : Nat → Prop) [DecidablePred P] : K :=
  ((List.range vols.length).map fun i => if P i then vols.getD i 0 else 0).sum

end Spec

theorem ListDict.read_append (d : ListDict) (k v x : Nat) :
    (d.append k v).read x = if x = k then d.read x ++ [v] else d.read x := by
  unfold ListDict.read ListDict.append
  split
  · next h => subst h; rfl
  · rfl

theorem ListDict.read_touch (d : ListDict) (k x : Nat) : (d.touch k).read x = d.read x := by
  unfold ListDict.read ListDict.touch
  split
  · next h => subst h; rfl
  · rfl

theorem foldl_append_read (js : List Nat) (C : ListDict) (i x : Nat) :
    (js.foldl (fun C j => C.append j i) C).read x =
      C.read x ++ List.replicate (js.count x) i := by
  induction js generalizing C with
  | nil => simp
  | cons j js ih =>
    rw [List.foldl_cons, ih, ListDict.read_append]
    by_cases h : x = j
    · subst h
      simp [List.replicate_succ]
    · rw [if_neg h, List.count_cons_of_ne (Ne.symm h)]

/-- What `boundary_sets` computes for a list of cells. -/
theorem boundary_fold (nei : NeiList) (io : List Nat) (l : List Nat) (k k' : Keys)
    (h : l.foldlM (boundaryStep nei io) k = .ok k') :
    (∀ i ∈ l, ∃ e, io[i]? = some e) ∧
    (∀ ev, k'.B.read ev = k.B.read ev ++
      l.filter (fun i => decide (io[i]? = some ev ∧ nei i = [ev]))) ∧
    (∀ ev, k'.B ev = none ↔ k.B ev = none ∧
      l.filter (fun i => decide (io[i]? = some ev ∧ nei i = [ev])) = []) ∧
    (∀ ev, k'.C.read ev = k.C.read ev ++
      l.flatMap (fun i => List.replicate ((nei i).count ev) i)) := by
  induction l generalizing k with
  | nil =>
    cases h
    simp
  | cons i l ih =>
    rw [List.foldlM_cons, bind_eq_ok] at h
    obtain ⟨k₁, h₁, h⟩ := h
    unfold boundaryStep at h₁
    rw [bind_eq_ok] at h₁
    obtain ⟨e, he, h₁⟩ := h₁
    rw [getIdx_eq_ok] at he
    cases h₁
    obtain ⟨hi, hB, hN, hC⟩ := ih _ h
    refine ⟨?_, ?_, ?_, ?_⟩
    · intro j hj
      rcases List.mem_cons.1 hj with rfl | hj
      · exact ⟨e, he⟩
      · exact hi j hj
    · intro ev
      rw [hB, List.filter_cons, he]
      unfold addInterior
      simp only [Option.some.injEq]
      by_cases h1 : nei i = [e]
      · rw [if_pos h1, ListDict.read_append]
        by_cases h2 : ev = e
        · subst h2; simp [h1]
        · simp [h2, Ne.symm h2]
      · rw [if_neg h1]
        by_cases h2 : e = ev
        · subst h2; simp [h1]
        · simp [h2]
    · intro ev
      rw [hN, List.filter_cons, he]
      unfold addInterior
      simp only [Option.some.injEq]
      by_cases h1 : nei i = [e]
      · rw [if_pos h1]
        by_cases h2 : ev = e
        · subst h2; simp [h1, ListDict.append]
        · simp [h2, Ne.symm h2, ListDict.append]
      · rw [if_neg h1]
        by_cases h2 : e = ev
        · subst h2; simp [h1]
        · simp [h2]
    · intro ev
      rw [hC, foldl_append_read, List.flatMap_cons, List.append_assoc]

theorem boundarySets_eq {num : Nat} {nei : NeiList} {io : List Nat} {k : Keys}
    (h : boundarySets num nei io = .ok k) :
    (∀ ev, k.B.read ev = (List.range num).filter
      (fun i => decide (io[i]? = some ev ∧ nei i = [ev]))) ∧
    (∀ ev, k.B ev = none ↔ ∀ i, ¬ Interior num nei io ev i) ∧
    (∀ ev, k.C.read ev =
      (List.range num).flatMap (fun i => List.replicate ((nei i).count ev) i)) := by
  obtain ⟨-, hB, hN, hC⟩ := boundary_fold nei io _ _ _ h
  refine ⟨fun ev => by simpa [ListDict.read] using hB ev, fun ev => ?_,
    fun ev => by simpa [ListDict.read] using hC ev⟩
  rw [hN]
  simp only [true_and, List.filter_eq_nil_iff, List.mem_range, decide_eq_true_eq, Interior]
  constructor
  · rintro h i ⟨h1, h2⟩
    exact h i h1 h2
  · rintro h i h1 h2
    exact h i ⟨h1, h2⟩

/-- **C36.** For every neighbour relation and every contour event `ev`: `boundary_sets` lists
under `B_N[ev]` exactly the interior cells of the event and under `C_N[ev]` exactly the cells
with a neighbour in it, each once, so `B_N[ev]` is part of `C_N[ev]`. -/
theorem C36_interior_subset {num : Nat} {nei : NeiList} {io : List Nat} {k : Keys}
    (hnd : ∀ i, (nei i).Nodup) (h : boundarySets num nei io = .ok k) (ev : Nat) :
    (∀ i, i ∈ k.B.read ev ↔ Interior num nei io ev i) ∧
      (∀ i, i ∈ k.C.read ev ↔ Touches num nei ev i) ∧
      (k.B.read ev).Nodup ∧ (k.C.read ev).Nodup ∧ k.B.read ev ⊆ k.C.read ev := by
  obtain ⟨hB, -, hC⟩ := boundarySets_eq h
  have hB' : ∀ i, i ∈ k.B.read ev ↔ Interior num nei io ev i := fun i => by
    rw [hB]; simp [Interior]
  have hC' : ∀ i, i ∈ k.C.read ev ↔ Touches num nei ev i := fun i => by
    rw [hC]
    simp only [List.mem_flatMap, List.mem_range, List.mem_replicate, Touches]
    constructor
    · rintro ⟨j, hj, hne, rfl⟩
      exact ⟨hj, List.count_pos_iff.1 (Nat.pos_of_ne_zero hne)⟩
    · rintro ⟨hj, hp⟩
      exact ⟨i, hj, Nat.pos_iff_ne_zero.1 (List.count_pos_iff.2 hp), rfl⟩
  refine ⟨hB', hC', ?_, ?_, ?_⟩
  · rw [hB]; exact List.nodup_range.filter _
  · have : (fun i => List.replicate ((nei i).count ev) i) =
        fun i => if ev ∈ nei i then [i] else [] := by
      funext i
      split
      · next hm => rw [List.count_eq_one_of_mem (hnd i) hm]; rfl
      · next hm => rw [List.count_eq_zero_of_not_mem hm]; rfl
    rw [hC, this]
    have : ((List.range num).flatMap fun i => if ev ∈ nei i then [i] else []) =
        (List.range num).filter (fun i => decide (ev ∈ nei i)) := by
      induction List.range num with
      | nil => rfl
      | cons a l ih =>
        rw [List.flatMap_cons, ih, List.filter_cons]
        by_cases ha : ev ∈ nei a <;> simp [ha]
    rw [this]
    exact List.nodup_range.filter _
  · intro i hi
    rw [hC']
    obtain ⟨h1, h2, h3⟩ := (hB' i).1 hi
    exact ⟨h1, by rw [h3]; exact List.mem_singleton_self _⟩

/-- **C36, contour events are disjoint.** No cell is interior to two events. -/
theorem C36_interior_disjoint {num : Nat} {nei : NeiList} {io : List Nat} {k : Keys}
    (h : boundarySets num nei io = .ok k) {ev ev' i : Nat} (hi : i ∈ k.B.read ev)
    (hi' : i ∈ k.B.read ev') : ev = ev' := by
  obtain ⟨hB, -, -⟩ := boundarySets_eq h
  rw [hB] at hi hi'
  simp only [List.mem_filter, List.mem_range, decide_eq_true_eq] at hi hi'
  have := hi.2.1.symm.trans hi'.2.1
  exact Option.some.inj this

/-- **C36, the method succeeds** whenever the pointer covers all cells. -/
theorem C36_defined (num : Nat) (nei : NeiList) (io : List Nat) (hio : io.length = num) :
    ∃ k, boundarySets num nei io = .ok k := by
  unfold boundarySets
  have : ∀ (l : List Nat) (k : Keys), (∀ i ∈ l, i < io.length) →
      ∃ k', l.foldlM (boundaryStep nei io) k = .ok k' := by
    intro l
    induction l with
    | nil => exact fun k _ => ⟨k, rfl⟩
    | cons i l ih =>
      intro k hl
      have hi := hl i (List.mem_cons_self ..)
      obtain ⟨k', hk'⟩ := ih ⟨addInterior nei i io[i] k.B,
        (nei i).foldl (fun C j => C.append j i) k.C⟩ fun j hj => hl j (List.mem_cons_of_mem _ hj)
      refine ⟨k', ?_⟩
      rw [List.foldlM_cons]
      simp only [boundaryStep, getIdx, List.getElem?_eq_getElem hi]
      exact hk'
  exact this _ _ fun i hi => hio ▸ List.mem_range.1 hi

/-! ### Covering -/

/-- **C69 (exactly).** A cell of the contour event `ev` is among the cells `C_N[ev]` if and
only if one of its neighbours belongs to the event. -/
theorem C69_covered_iff {num : Nat} {nei : NeiList} {io : List Nat} {k : Keys}
    (h : boundarySets num nei io = .ok k) {ev i : Nat} (hi : i < num) :
    i ∈ k.C.read ev ↔ ev ∈ nei i := by
  obtain ⟨-, -, hC⟩ := boundarySets_eq h
  rw [hC]
  simp only [List.mem_flatMap, List.mem_range, List.mem_replicate]
  constructor
  · rintro ⟨j, hj, hne, rfl⟩
    exact List.count_pos_iff.1 (Nat.pos_of_ne_zero hne)
  · intro hp
    exact ⟨i, hi, Nat.pos_iff_ne_zero.1 (List.count_pos_iff.2 hp), rfl⟩

/-- **C69 (partial).** If every cell of a contour event has a neighbour in the event, `C_N`
covers the event. Missing: events with an isolated cell, where it does not
(`Ex.C69_negation_isolated`). -/
theorem C69_covering_partial {num : Nat} {nei : NeiList} {io : List Nat} {k : Keys}
    (h : boundarySets num nei io = .ok k) {ev : Nat}
    (hiso : ∀ i < num, io[i]? = some ev → ev ∈ nei i) :
    ∀ i < num, io[i]? = some ev → i ∈ k.C.read ev :=
  fun i hi he => (C69_covered_iff h hi).2 (hiso i hi he)

/-! ### The bounds for contour events -/

section
variable {K : Type} [Field K] [LinearOrder K] [IsStrictOrderedRing K]

theorem contourTouch_B (e : Keys) (i : Nat) (p : K) : (contourTouch e i p).B = e.B := by
  unfold contourTouch
  split
  · split <;> rfl
  · rfl

theorem contourTouch_C (e : Keys) (i : Nat) (p : K) (x : Nat) :
    (contourTouch e i p).C.read x = e.C.read x := by
  unfold contourTouch
  split
  · split
    · exact ListDict.read_touch ..
    · rfl
  · rfl

theorem contourBound_congr {e e' : Keys} {i : Nat} (hB : e'.B i = e.B i)
    (hC : e'.C.read i = e.C.read i) (io : List Nat) (vols : List K) (p : K) :
    contourBound e' io vols i p = contourBound e io vols i p := by
  unfold contourBound
  rw [hB, hC]

theorem contourLoop_eq (io : List Nat) (vols probs : List K) (l : List Nat) (e : Keys) :
    (contourLoop io vols probs e l).1 =
      l.map fun i => contourBound e io vols i (probs.getD i 0) := by
  induction l generalizing e with
  | nil => rfl
  | cons i l ih =>
    rw [contourLoop, List.map_cons, ih]
    refine congrArg _ (List.map_congr_left fun j _ => ?_)
    exact contourBound_congr (by rw [contourTouch_B]) (contourTouch_C ..) _ _ _

/-- The bounds, event by event. -/
theorem contourErrors_eq (e : Keys) (io : List Nat) (vols probs : List K) :
    (contourErrors e io vols probs).1 =
      (List.range probs.length).map fun i => contourBound e io vols i (probs.getD i 0) :=
  contourLoop_eq ..

theorem sumAt_filter (x : List K) (p : Nat → Bool) (l : List Nat) :
    sumAt x (l.filter p) = (l.map fun i => if p i then x.getD i 0 else 0).sum := by
  induction l with
  | nil => rfl
  | cons a l ih =>
    rw [List.filter_cons, List.map_cons, List.sum_cons, ← ih]
    cases p a <;> simp [sumAt]

theorem sumAt_flatMap (x : List K) (c : Nat → Nat) (l : List Nat) :
    sumAt x (l.flatMap fun i => List.replicate (c i) i) =
      (l.map fun i => (c i : K) * x.getD i 0).sum := by
  induction l with
  | nil => rfl
  | cons a l ih =>
    rw [List.flatMap_cons, List.map_cons, List.sum_cons, ← ih]
    simp [sumAt]

theorem lam_getD (io : List Nat) (vols : List K) (ev i : Nat) (h : io.length = vols.length) :
    (List.zipWith (fun v (h : Bool) => if h then v else 0) vols (npEqual io ev)).getD i 0 =
      if io[i]? = some ev then vols.getD i 0 else 0 := by
  rw [List.getD_eq_getElem?_getD, List.getElem?_zipWith]
  by_cases hi : i < vols.length
  · have hi' : i < io.length := h ▸ hi
    simp only [npEqual, List.getElem?_map, List.getElem?_eq_getElem hi,
      List.getElem?_eq_getElem hi', Option.map_some, Option.some.injEq,
      List.getD_eq_getElem?_getD, Option.getD_some, beq_iff_eq]
  · simp [List.getElem?_eq_none (not_lt.1 hi), List.getD_eq_getElem?_getD]

theorem sum_le_sum_map {ι : Type} (l : List ι) (f g : ι → K) (h : ∀ i ∈ l, f i ≤ g i) :
    (l.map f).sum ≤ (l.map g).sum := by
  induction l with
  | nil => exact le_rfl
  | cons a l ih =>
    simp only [List.map_cons, List.sum_cons]
    exact add_le_add (h a (List.mem_cons_self ..))
      (ih fun i hi => h i (List.mem_cons_of_mem _ hi))

/-- **C37.** For non-negative volumes and the cells of `boundary_sets`,
`calculate_for_contour_events` returns for the event `i` of probability `p`:
`0` and `0` if `p` is zero; `nan` if the event has no interior cell; otherwise, when the interior
has positive volume `b`, with `c` the volume of the cells with a neighbour in the event and `a`
the part of `c` inside the event, the upper bound `p (a / b - 1) ≥ 0` and the lower bound
`p (b / c - 1) ≤ 0`. -/
theorem C37_bounds {num : Nat} {nei : NeiList} {io : List Nat} {e : Keys} {vols probs : List K}
    (hnd : ∀ i, (nei i).Nodup) (hio : io.length = num) (hvl : vols.length = num)
    (hv : ∀ v ∈ vols, 0 ≤ v) (h : boundarySets num nei io = .ok e) :
    (contourErrors e io vols probs).1.length = probs.length ∧
    ∀ i p, probs[i]? = some p → ∃ up lo,
      (contourErrors e io vols probs).1[i]? = some (up, lo) ∧
      (p ≤ 0 → up = .fin 0 ∧ lo = .fin 0) ∧
      (0 < p → (∀ j, ¬ Interior num nei io i j) → up = .nan ∧ lo = .nan) ∧
      (0 < p → 0 < volOf vols (Interior num nei io i) →
        0 < volOf vols (Touches num nei i) ∧
        up = .fin (p * (volOf vols (fun j => Touches num nei i j ∧ io[j]? = some i) /
          volOf vols (Interior num nei io i) - 1)) ∧
        lo = .fin (p * (volOf vols (Interior num nei io i) /
          volOf vols (Touches num nei i) - 1)) ∧
        0 ≤ p * (volOf vols (fun j => Touches num nei i j ∧ io[j]? = some i) /
          volOf vols (Interior num nei io i) - 1) ∧
        p * (volOf vols (Interior num nei io i) / volOf vols (Touches num nei i) - 1) ≤ 0) := by
  obtain ⟨hB, hN, hC⟩ := boundarySets_eq h
  have hgd : ∀ j, 0 ≤ vols.getD j 0 := fun j => by
    rw [List.getD_eq_getElem?_getD]
    by_cases hj : j < vols.length
    · rw [List.getElem?_eq_getElem hj]; exact hv _ (List.getElem_mem hj)
    · rw [List.getElem?_eq_none (not_lt.1 hj)]; exact le_rfl
  refine ⟨by simp [contourErrors_eq], fun i p hp => ?_⟩
  have hi : i < probs.length := (List.getElem?_eq_some_iff.1 hp).1
  have hpd : probs.getD i 0 = p := by rw [List.getD_eq_getElem?_getD, hp]; rfl
  refine ⟨(contourBound e io vols i p).1, (contourBound e io vols i p).2, ?_, ?_, ?_, ?_⟩
  · rw [contourErrors_eq, List.getElem?_map, List.getElem?_range hi]
    simp only [Option.map_some, hpd]
  · intro hp0
    simp [contourBound, not_lt.2 hp0]
  · intro hp0 hno
    have := (hN i).2 hno
    simp [contourBound, hp0, this]
  · intro hp0 hpos
    -- the four volumes of the code
    have vB : ∀ x : List K, sumAt x (e.B.read i) = ((List.range num).map fun j =>
        if io[j]? = some i ∧ nei j = [i] then x.getD j 0 else 0).sum := fun x => by
      rw [hB, sumAt_filter]
      simp only [decide_eq_true_eq]
    have vC : ∀ x : List K, sumAt x (e.C.read i) = ((List.range num).map fun j =>
        if i ∈ nei j then x.getD j 0 else 0).sum := fun x => by
      rw [hC, sumAt_flatMap]
      refine congrArg _ (List.map_congr_left fun j _ => ?_)
      split
      · next hm => rw [List.count_eq_one_of_mem (hnd j) hm]; simp
      · next hm => rw [List.count_eq_zero_of_not_mem hm]; simp
    have hI : volOf vols (Interior num nei io i) = sumAt vols (e.B.read i) := by
      rw [vB, volOf, hvl]
      refine congrArg _ (List.map_congr_left fun j hj => ?_)
      simp [Interior, List.mem_range.1 hj]
    have hT : volOf vols (Touches num nei i) = sumAt vols (e.C.read i) := by
      rw [vC, volOf, hvl]
      refine congrArg _ (List.map_congr_left fun j hj => ?_)
      simp [Touches, List.mem_range.1 hj]
    have hlam := fun j => lam_getD io vols i j (hio.trans hvl.symm)
    have hTA : volOf vols (fun j => Touches num nei i j ∧ io[j]? = some i) = sumAt
        (List.zipWith (fun v (h : Bool) => if h then v else 0) vols (npEqual io i))
        (e.C.read i) := by
      rw [vC, volOf, hvl]
      refine congrArg _ (List.map_congr_left fun j hj => ?_)
      rw [hlam]
      simp only [Touches, List.mem_range.1 hj, true_and]
      by_cases h1 : i ∈ nei j <;> by_cases h2 : io[j]? = some i <;> simp [h1, h2]
    have hIA : sumAt (List.zipWith (fun v (h : Bool) => if h then v else 0) vols (npEqual io i))
        (e.B.read i) = volOf vols (Interior num nei io i) := by
      rw [hI, vB, vB]
      refine congrArg _ (List.map_congr_left fun j hj => ?_)
      rw [hlam]
      by_cases h1 : io[j]? = some i <;> simp [h1]
    have hle1 : volOf vols (Interior num nei io i) ≤
        volOf vols (fun j => Touches num nei i j ∧ io[j]? = some i) := by
      refine sum_le_sum_map _ _ _ fun j _ => ?_
      by_cases h1 : Interior num nei io i j
      · rw [if_pos h1, if_pos ⟨⟨h1.1, by rw [h1.2.2]; exact List.mem_singleton_self _⟩, h1.2.1⟩]
      · rw [if_neg h1]
        split
        · exact hgd j
        · exact le_rfl
    have hle2 : volOf vols (fun j => Touches num nei i j ∧ io[j]? = some i) ≤
        volOf vols (Touches num nei i) := by
      refine sum_le_sum_map _ _ _ fun j _ => ?_
      by_cases h1 : Touches num nei i j
      · rw [if_pos h1]
        split
        · exact le_rfl
        · exact hgd j
      · rw [if_neg h1, if_neg fun h => h1 h.1]
    have hTpos : 0 < volOf vols (Touches num nei i) := lt_of_lt_of_le hpos (hle1.trans hle2)
    have hkey : ∃ b, e.B i = some b := by
      cases hb : e.B i with
      | some b => exact ⟨b, rfl⟩
      | none =>
        exfalso
        have := (hN i).1 hb
        have h0 : volOf vols (Interior num nei io i) = 0 := by
          unfold volOf
          refine List.sum_eq_zero fun x hx => ?_
          obtain ⟨j, -, rfl⟩ := List.mem_map.1 hx
          simp [this j]
        exact hpos.ne' h0
    obtain ⟨b, hb⟩ := hkey
    have hbr : e.B.read i = b := by unfold ListDict.read; rw [hb]; rfl
    have ht2 : 0 ≤ volOf vols (fun j => Touches num nei i j ∧ io[j]? = some i) /
          volOf vols (Interior num nei io i) - 1 := by
      rw [sub_nonneg, le_div_iff₀ hpos, one_mul]; exact hle1
    have ht1 : volOf vols (Interior num nei io i) / volOf vols (Touches num nei i) - 1 ≤ 0 := by
      rw [sub_nonpos, div_le_iff₀ hTpos, one_mul]; exact hle1.trans hle2
    have hcb : contourBound e io vols i p =
        (.fin (p * (volOf vols (fun j => Touches num nei i j ∧ io[j]? = some i) /
          volOf vols (Interior num nei io i) - 1)),
         .fin (p * (volOf vols (Interior num nei io i) /
          volOf vols (Touches num nei i) - 1))) := by
      unfold contourBound
      rw [if_pos hp0, hb]
      simp only
      rw [← hbr, ← hI, ← hT, ← hTA, hIA]
      simp only [Num.div, if_neg hpos.ne', if_neg hTpos.ne', Num.sub1, Num.pyMax, Num.pyMin,
        Num.lt, decide_eq_true_eq]
      rcases lt_or_eq_of_le (ht1.trans ht2) with hlt | heq
      · rw [if_pos hlt, if_neg (not_lt.2 hlt.le)]; rfl
      · simp only [heq, lt_irrefl, if_false, Num.scale]
    rw [hcb]
    exact ⟨hTpos, rfl, rfl, mul_nonneg hp0.le ht2, mul_nonpos_of_nonneg_of_nonpos hp0.le ht1⟩

end

/-! ### Examples -/

namespace Ex

/-- Five cells on a line; the first three belong to event 0, the others to event 1. -/
def lineNei : NeiList := fun i => [[0], [0], [0, 1], [0, 1], [1]].getD i []

def lineIo : List Nat := [0, 0, 0, 1, 1]

theorem lineNei_nodup (i : Nat) : (lineNei i).Nodup := by
  rcases i with _ | _ | _ | _ | _ | i <;> first | decide +kernel | exact List.nodup_nil

theorem lineInterior : ∃ k, boundarySets 5 lineNei lineIo = .ok k ∧
    k.B.read 0 = [0, 1] ∧ k.C.read 0 = [0, 1, 2, 3] ∧ k.B.read 1 = [4] ∧
      k.C.read 1 = [2, 3, 4] := by
  refine ⟨_, rfl, ?_, ?_, ?_, ?_⟩ <;> decide +kernel

example : ∃ k, boundarySets 5 lineNei lineIo = .ok k ∧ k.B.read 0 ⊆ k.C.read 0 ∧
    (1 ∈ k.B.read 0) := by
  obtain ⟨k, hk, h0, -⟩ := lineInterior
  exact ⟨k, hk, (C36_interior_subset lineNei_nodup hk 0).2.2.2.2, by rw [h0]; decide⟩

/-- The hypotheses of `C37_bounds` hold, with interior cells of positive volume, for these
cells: the bounds of event 0 with probability 1/2 and volumes 1, 1, 2, 1, 1 are
`1/2 (4/2 - 1)` and `1/2 (2/5 - 1)`. -/
example : ∃ k, boundarySets 5 lineNei lineIo = .ok k ∧
    (contourErrors k lineIo [1, 1, 2, 1, 1] [(1 / 2 : ℚ), 1 / 2]).1[0]? =
      some (.fin (1 / 2), .fin (-3 / 10)) := by
  refine ⟨_, rfl, ?_⟩
  decide +kernel

example : 0 < volOf [(1 : ℚ), 1, 2, 1, 1] (Interior 5 lineNei lineIo 0) := by decide +kernel

/-- Three cells on a line in the events 0, 1, 0: every neighbour is in another event. -/
def combNei : NeiList := fun i => [[1], [0], [1]].getD i []

/-- **C69 fails in general**: cell 0 belongs to event 0 and is not among the covering cells of
event 0. -/
theorem C69_negation_isolated : ∃ k, boundarySets 3 combNei [0, 1, 0] = .ok k ∧
    ([0, 1, 0] : List Nat)[0]? = some 0 ∧ 0 ∉ k.C.read 0 := by
  refine ⟨_, rfl, rfl, ?_⟩
  decide +kernel

example : ∀ i < 5, lineIo[i]? = some 0 → 0 ∈ lineNei i := by decide +kernel

end Ex

end BET
