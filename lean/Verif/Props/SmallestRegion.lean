import Verif.Props.PostTools
import Mathlib.Algebra.Order.BigOperators.Group.Finset

/-!
# C174: the selected samples are the smallest region of their probability
-/

set_option linter.unusedSectionVars false
set_option linter.unusedSimpArgs false
set_option autoImplicit false

namespace BET

variable {K : Type} [Field K] [LinearOrder K]

/-! ## Specification -/

/-- The volume of a sample; every sample counts one if there are no volumes. -/
def Spec.cellSize (a : PostData K) (i : Nat) : K :=
  match a.vols with
  | none => 1
  | some v => v.getD i 0

/-- The probability of a set of samples. -/
def Spec.probIn (a : PostData K) (S : Finset Nat) : K := ∑ i ∈ S, a.probs.getD i 0

/-- The volume of a set of samples. -/
def Spec.volIn (a : PostData K) (S : Finset Nat) : K := ∑ i ∈ S, Spec.cellSize a i

open Spec

variable [IsStrictOrderedRing K]

/-! ## Exchange -/

theorem cellSize_pos {a : PostData K} {n m q : Nat} (ha : Sized a n m q) (hv : PosVols a) {i : Nat} (hi : i < n) :
    0 < cellSize a i := by
  unfold cellSize
  cases hw : a.vols with
  | none => exact one_pos
  | some w =>
    simp only
    rw [List.getD_eq_getElem?_getD, List.getElem?_eq_getElem (by rw [ha.vols w hw]; exact hi)]
    exact hv w hw _ (List.getElem_mem _)

theorem prob_eq_rho {a : PostData K} {n m q : Nat} (ha : Sized a n m q) (hv : PosVols a) {i : Nat} (hi : i < n) :
    a.probs.getD i 0 = rho a i * cellSize a i := by
  have h := cellSize_pos ha hv hi
  unfold rho cellSize at *
  cases hw : a.vols with
  | none => simp
  | some w =>
    simp only [hw] at h ⊢
    rw [div_mul_cancel₀ _ h.ne']

theorem volIn_nonneg {a : PostData K} {n m q : Nat} (ha : Sized a n m q) (hv : PosVols a) {S : Finset Nat}
    (hS : ∀ i ∈ S, i < n) : 0 ≤ volIn a S :=
  Finset.sum_nonneg fun i hi => (cellSize_pos ha hv (hS i hi)).le

/-- If `f` is not negative on `H` and not positive on the rest of `S`, then `H` has the larger sum. -/
theorem sum_le_best {f : Nat → K} {H S : Finset Nat} (h1 : ∀ i ∈ H, 0 ≤ f i) (h2 : ∀ i ∈ S, i ∉ H → f i ≤ 0) :
    ∑ i ∈ S, f i ≤ ∑ i ∈ H, f i := by
  calc ∑ i ∈ S, f i ≤ ∑ i ∈ S, if i ∈ H then f i else 0 := by
        refine Finset.sum_le_sum fun i hi => ?_
        split_ifs with h
        · exact le_rfl
        · exact h2 i hi h
    _ = ∑ i ∈ S ∩ H, f i := by rw [Finset.sum_ite_mem]
    _ ≤ ∑ i ∈ H, f i := Finset.sum_le_sum_of_subset_of_nonneg Finset.inter_subset_right fun i hi _ => h1 i hi

theorem exchange_high {a : PostData K} {n m q : Nat} (ha : Sized a n m q) (hv : PosVols a) {H S : Finset Nat} {τ : K}
    (hH : ∀ i ∈ H, i < n ∧ τ ≤ rho a i) (hS : ∀ i ∈ S, i < n) (hout : ∀ i < n, i ∉ H → rho a i ≤ τ) :
    probIn a S - probIn a H ≤ τ * (volIn a S - volIn a H) := by
  have key := sum_le_best (f := fun i => a.probs.getD i 0 - τ * cellSize a i) (H := H) (S := S)
    (fun i hi => by
      rw [prob_eq_rho ha hv (hH i hi).1]
      have := mul_le_mul_of_nonneg_right (hH i hi).2 (cellSize_pos ha hv (hH i hi).1).le
      linarith)
    (fun i hi hn => by
      rw [prob_eq_rho ha hv (hS i hi)]
      have := mul_le_mul_of_nonneg_right (hout i (hS i hi) hn) (cellSize_pos ha hv (hS i hi)).le
      linarith)
  simp only [Finset.sum_sub_distrib, ← Finset.mul_sum] at key
  unfold probIn volIn
  linarith

theorem exchange_low {a : PostData K} {n m q : Nat} (ha : Sized a n m q) (hv : PosVols a) {H S : Finset Nat} {τ : K}
    (hH : ∀ i ∈ H, i < n ∧ rho a i ≤ τ) (hS : ∀ i ∈ S, i < n) (hout : ∀ i ∈ S, i ∉ H → τ ≤ rho a i) :
    τ * (volIn a S - volIn a H) ≤ probIn a S - probIn a H := by
  have key := sum_le_best (f := fun i => τ * cellSize a i - a.probs.getD i 0) (H := H) (S := S)
    (fun i hi => by
      rw [prob_eq_rho ha hv (hH i hi).1]
      have := mul_le_mul_of_nonneg_right (hH i hi).2 (cellSize_pos ha hv (hH i hi).1).le
      linarith)
    (fun i hi hn => by
      rw [prob_eq_rho ha hv (hS i hi)]
      have := mul_le_mul_of_nonneg_right (hout i hi hn) (cellSize_pos ha hv (hS i hi)).le
      linarith)
  simp only [Finset.sum_sub_distrib, ← Finset.mul_sum] at key
  unfold probIn volIn
  linarith

theorem probIn_toFinset (a : PostData K) {l : List Nat} (h : l.Nodup) :
    probIn a l.toFinset = (l.map fun i => a.probs.getD i 0).sum := by
  unfold probIn
  rw [List.sum_toFinset _ h]

/-! ## Claims -/

/-- **C174.** No set of samples that has at least the probability of the samples of `sample_highest_prob` has a smaller
volume, no set of at most their volume has a larger probability, and no set that has at least the percentile has a
smaller volume. If not all samples of positive probability are returned, one more sample has more than the
percentile. -/
theorem C174_smallest {argsort : List (Num K) → List Nat} (hA : SortsNum argsort) (size : Nat)
    (perc : K) {o : PostObj K} {a : PostData K} (ho : Carries o a) {n m q : Nat} (hd : InDims o m q)
    (ha : Sized a n m q) (hv : PosVols a) :
    ∃ num o' idx, sampleHighestProb argsort size perc o true = .ok (num, o', idx) ∧ idx.Nodup ∧
      (∀ i ∈ idx, i < n) ∧ Carries o' (picked a idx) ∧
      (∀ S : Finset Nat, (∀ i ∈ S, i < n) →
        (probIn a idx.toFinset ≤ probIn a S → volIn a idx.toFinset ≤ volIn a S) ∧
        (volIn a S ≤ volIn a idx.toFinset → probIn a S ≤ probIn a idx.toFinset) ∧
        (perc ≤ probIn a S → volIn a idx.toFinset ≤ volIn a S)) ∧
      ((∀ j < n, 0 < a.probs.getD j 0 → j ∈ idx) ∨
        ∃ j < n, j ∉ idx ∧ perc < probIn a (insert j idx.toFinset)) := by
  obtain ⟨num, o', order, h1, h2, h3, h4, -, hc, h5, h6, h7⟩ := C57_prefix_partial hA size perc ho hd ha hv false
  have hnd : (order.take num).Nodup := h2.sublist (List.take_sublist _ _)
  have hlt : ∀ i ∈ order.take num, i < n ∧ 0 < a.probs.getD i 0 := fun i hi => (h3 i).1 (List.mem_of_mem_take hi)
  have hord : ∀ i ∈ order.take num, ∀ j < n, j ∉ order.take num → rho a j ≤ rho a i := by
    intro i hi j hj hni
    by_cases hp : 0 < a.probs.getD j 0
    · have hjo := (h3 j).2 ⟨hj, hp⟩
      have hjd : j ∈ order.drop num := by
        rw [← List.take_append_drop num order, List.mem_append] at hjo
        exact hjo.resolve_left hni
      have h4' := h4
      rw [← List.take_append_drop num order] at h4'
      simpa using (List.pairwise_append.1 h4').2.2 i hi j hjd
    · have h8 : ¬ 0 < rho a j := fun h => hp ((rho_pos ha hv hj).1 h)
      have h9 := (rho_pos ha hv (hlt i hi).1).2 (hlt i hi).2
      exact (not_lt.1 h8).trans h9.le
  have hmain : ∀ S : Finset Nat, (∀ i ∈ S, i < n) →
      (probIn a (order.take num).toFinset ≤ probIn a S → volIn a (order.take num).toFinset ≤ volIn a S) ∧
      (volIn a S ≤ volIn a (order.take num).toFinset → probIn a S ≤ probIn a (order.take num).toFinset) := by
    intro S hS
    rcases Nat.eq_zero_or_pos (order.take num).length with h0 | h0
    · rw [List.eq_nil_of_length_eq_zero h0]
      refine ⟨fun _ => by simpa [volIn] using volIn_nonneg ha hv hS, fun hle => ?_⟩
      have : S = ∅ := by
        by_contra hne
        obtain ⟨i, hi⟩ := Finset.nonempty_iff_ne_empty.2 hne
        have : 0 < volIn a S := Finset.sum_pos (fun i hi => cellSize_pos ha hv (hS i hi)) ⟨i, hi⟩
        simp [volIn] at hle this
        linarith
      rw [this]
      simp
    · -- the last of the returned samples has the smallest density
      set i₀ := (order.take num).getLast (List.ne_nil_of_length_pos h0) with hi₀
      have hi₀m : i₀ ∈ order.take num := List.getLast_mem _
      have hlast : ∀ i ∈ order.take num, rho a i₀ ≤ rho a i := by
        intro i hi
        have hs : (order.take num).Pairwise fun i j => rho a j ≤ rho a i :=
          (h4.sublist (List.take_sublist _ _)).imp fun h => by simpa using h
        rw [← List.dropLast_append_getLast (List.ne_nil_of_length_pos h0), List.mem_append] at hi
        rcases hi with hi | hi
        · rw [← List.dropLast_append_getLast (List.ne_nil_of_length_pos h0)] at hs
          exact (List.pairwise_append.1 hs).2.2 i hi _ (List.mem_singleton.2 rfl)
        · rw [List.mem_singleton.1 hi]
      have hpos : 0 < rho a i₀ := (rho_pos ha hv (hlt i₀ hi₀m).1).2 (hlt i₀ hi₀m).2
      have key := exchange_high ha hv (H := (order.take num).toFinset) (S := S) (τ := rho a i₀)
        (fun i hi => ⟨(hlt i (List.mem_toFinset.1 hi)).1, hlast i (List.mem_toFinset.1 hi)⟩) hS
        (fun i hi hni => hord i₀ hi₀m i hi fun h => hni (List.mem_toFinset.2 h))
      constructor
      · intro hle
        have h10 : 0 ≤ rho a i₀ * (volIn a S - volIn a (order.take num).toFinset) := by linarith
        have := nonneg_of_mul_nonneg_right h10 hpos
        linarith
      · intro hle
        have := mul_nonneg hpos.le (sub_nonneg.2 hle)
        linarith
  refine ⟨num, o', order.take num, h1, hnd, fun i hi => (hlt i hi).1, hc, fun S hS => ⟨(hmain S hS).1, (hmain S hS).2, ?_⟩, ?_⟩
  · intro hle
    rcases Nat.eq_zero_or_pos num with h0 | h0
    · rw [h0]
      simpa [volIn] using volIn_nonneg ha hv hS
    · refine (hmain S hS).1 ?_
      rw [probIn_toFinset a hnd]
      exact (h6 h0).trans hle
  · rcases Nat.lt_or_ge num order.length with h | h
    · right
      refine ⟨order[num], ((h3 _).1 (List.getElem_mem h)).1, ?_, ?_⟩
      · intro hmem
        have h8 : (order.take (num + 1)).Nodup := h2.sublist (List.take_sublist _ _)
        rw [List.take_succ_eq_append_getElem h] at h8
        exact (List.nodup_append.1 h8).2.2 _ hmem _ (List.mem_singleton.2 rfl) rfl
      · have h8 : (order.take (num + 1)).Nodup := h2.sublist (List.take_sublist _ _)
        have h9 := h7 h
        rw [← probIn_toFinset a h8] at h9
        have h10 : (order.take (num + 1)).toFinset = insert order[num] (order.take num).toFinset := by
          rw [List.take_succ_eq_append_getElem h, List.toFinset_append, Finset.union_comm]
          rfl
        rwa [h10] at h9
    · left
      intro j hj hp
      rw [List.take_of_length_le h]
      exact (h3 j).2 ⟨hj, hp⟩

/-- **C174.** The samples of `sample_lowest_prob` are the largest region of their probability: among sets of samples of
positive probability, none with at most their probability has a larger volume, and none with at least their volume has
a smaller probability. -/
theorem C174_largest {argsort : List (Num K) → List Nat} (hA : SortsNum argsort) (size : Nat)
    (perc : K) {o : PostObj K} {a : PostData K} (ho : Carries o a) {n m q : Nat} (hd : InDims o m q)
    (ha : Sized a n m q) (hv : PosVols a) :
    ∃ num o' idx, sampleLowestProb argsort size perc o true = .ok (num, o', idx) ∧ idx.Nodup ∧
      (∀ i ∈ idx, i < n) ∧ Carries o' (picked a idx) ∧
      ∀ S : Finset Nat, (∀ i ∈ S, i < n ∧ 0 < a.probs.getD i 0) →
        (probIn a S ≤ probIn a idx.toFinset → volIn a S ≤ volIn a idx.toFinset) ∧
        (volIn a idx.toFinset ≤ volIn a S → probIn a idx.toFinset ≤ probIn a S) := by
  obtain ⟨num, o', order, h1, h2, h3, h4, -, hc, h5, h6, h7⟩ := C57_prefix_partial hA size perc ho hd ha hv true
  have hnd : (order.take num).Nodup := h2.sublist (List.take_sublist _ _)
  have hlt : ∀ i ∈ order.take num, i < n ∧ 0 < a.probs.getD i 0 := fun i hi => (h3 i).1 (List.mem_of_mem_take hi)
  refine ⟨num, o', order.take num, h1, hnd, fun i hi => (hlt i hi).1, hc, ?_⟩
  intro S hS
  rcases Nat.eq_zero_or_pos (order.take num).length with h0 | h0
  · rw [List.eq_nil_of_length_eq_zero h0]
    have hP : 0 ≤ probIn a S := Finset.sum_nonneg fun i hi => (hS i hi).2.le
    refine ⟨fun hle => ?_, fun _ => by simpa [probIn] using hP⟩
    have : S = ∅ := by
      by_contra hne
      obtain ⟨i, hi⟩ := Finset.nonempty_iff_ne_empty.2 hne
      have : 0 < probIn a S := Finset.sum_pos (fun i hi => (hS i hi).2) ⟨i, hi⟩
      simp [probIn] at hle this
      linarith
    rw [this]
    simp
  · set i₀ := (order.take num).getLast (List.ne_nil_of_length_pos h0) with hi₀
    have hi₀m : i₀ ∈ order.take num := List.getLast_mem _
    have hlast : ∀ i ∈ order.take num, rho a i ≤ rho a i₀ := by
      intro i hi
      have hs : (order.take num).Pairwise fun i j => rho a i ≤ rho a j :=
        (h4.sublist (List.take_sublist _ _)).imp fun h => by simpa using h
      rw [← List.dropLast_append_getLast (List.ne_nil_of_length_pos h0), List.mem_append] at hi
      rcases hi with hi | hi
      · rw [← List.dropLast_append_getLast (List.ne_nil_of_length_pos h0)] at hs
        exact (List.pairwise_append.1 hs).2.2 i hi _ (List.mem_singleton.2 rfl)
      · rw [List.mem_singleton.1 hi]
    have hpos : 0 < rho a i₀ := (rho_pos ha hv (hlt i₀ hi₀m).1).2 (hlt i₀ hi₀m).2
    have key := exchange_low ha hv (H := (order.take num).toFinset) (S := S) (τ := rho a i₀)
      (fun i hi => ⟨(hlt i (List.mem_toFinset.1 hi)).1, hlast i (List.mem_toFinset.1 hi)⟩) (fun i hi => (hS i hi).1)
      (fun i hi hni => by
        have hjo := (h3 i).2 (hS i hi)
        have hjd : i ∈ order.drop num := by
          rw [← List.take_append_drop num order, List.mem_append] at hjo
          exact hjo.resolve_left fun h => hni (List.mem_toFinset.2 h)
        have h4' := h4
        rw [← List.take_append_drop num order] at h4'
        simpa using (List.pairwise_append.1 h4').2.2 i₀ hi₀m i hjd)
    constructor
    · intro hle
      by_contra hgt
      have := mul_pos hpos (sub_pos.2 (not_le.1 hgt))
      linarith
    · intro hle
      have := mul_nonneg hpos.le (sub_nonneg.2 hle)
      linarith

namespace Ex

/-- Four samples, one without probability. -/
def regionSet : SampleSet ℚ :=
  { dim := 1, glob := globOf [[0], [1], [2], [3]] [1/4, 0, 1/4, 1/2] (some [1, 1, 4, 1]) }

/-- Its arrays. -/
def regionArr : PostData ℚ := ⟨[[0], [1], [2], [3]], [1/4, 0, 1/4, 1/2], some [1, 1, 4, 1], none⟩

theorem regionArr_ok : Carries (.set regionSet) regionArr ∧ InDims (.set regionSet) 1 0 ∧ Sized regionArr 4 1 0 ∧
    PosVols regionArr :=
  ⟨⟨rfl, rfl, rfl, rfl⟩, rfl, ⟨rfl, by decide, rfl, by rintro v ⟨⟩; rfl, by rintro v ⟨⟩⟩, by
    rintro v ⟨⟩
    decide +kernel⟩

example := C174_smallest argsortNum_sorts 1 (3/4) regionArr_ok.1 regionArr_ok.2.1 regionArr_ok.2.2.1 regionArr_ok.2.2.2

example := C174_largest argsortNum_sorts 1 (3/4) regionArr_ok.1 regionArr_ok.2.1 regionArr_ok.2.2.1 regionArr_ok.2.2.2

/-- Three quarters of the probability in the volume 2, and in the volume 5. -/
example : ((sampleHighestProb argsortNum 1 (3/4) (.set regionSet) true).toOption.map fun r => (r.1, r.2.2)) =
    some (2, [3, 0]) ∧ volIn regionArr {3, 0} = 2 ∧ probIn regionArr {3, 0} = 3/4 ∧
    ((sampleLowestProb argsortNum 1 (3/4) (.set regionSet) true).toOption.map fun r => (r.1, r.2.2)) =
    some (2, [2, 0]) ∧ volIn regionArr {2, 0} = 5 := by decide +kernel

end Ex

end BET
