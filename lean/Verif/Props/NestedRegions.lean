import Verif.Props.SmallestRegion
import Mathlib.Algebra.BigOperators.Group.Finset.Basic

/-!
# C175: regions of different percentiles
-/

set_option linter.unusedSectionVars false
set_option linter.unusedSimpArgs false
set_option autoImplicit false

namespace BET

variable {K : Type} [Field K] [LinearOrder K] [IsStrictOrderedRing K]

open Spec

/-- More are counted up to a larger percentile. -/
theorem countUpTo_mono {p q : K} (h : p ≤ q) (l : List K) : countUpTo p l ≤ countUpTo q l := by
  unfold countUpTo
  refine List.countP_mono_left fun c _ hc => ?_
  simp only [decide_eq_true_eq] at hc ⊢
  exact ⟨hc.1, hc.2.trans h⟩

/-- The probability of the first `k` samples of a list. -/
theorem sum_take_lt (f : Nat → K) (l : List Nat) (hf : ∀ i ∈ l, 0 < f i) {j k : Nat} (hjk : j < k) (hk : k ≤ l.length) :
    ((l.take j).map f).sum < ((l.take k).map f).sum := by
  induction k with
  | zero => omega
  | succ k ih =>
    have hstep : ((l.take k).map f).sum < ((l.take (k + 1)).map f).sum := by
      rw [List.take_succ_eq_append_getElem (by omega), List.map_append, List.sum_append]
      have := hf (l[k]) (List.getElem_mem _)
      simp
      exact this
    rcases Nat.lt_or_ge j k with h | h
    · exact (ih h (by omega)).trans hstep
    · obtain rfl : j = k := by omega
      exact hstep

theorem sum_take_reverse (f : Nat → K) (l : List Nat) {k : Nat} (_hk : k ≤ l.length) :
    ((l.reverse.take k).map f).sum = (l.map f).sum - ((l.take (l.length - k)).map f).sum := by
  rw [List.take_reverse, List.map_reverse, List.sum_reverse]
  have h := congrArg List.sum (congrArg (List.map f) (List.take_append_drop (l.length - k) l))
  rw [List.map_append, List.sum_append] at h
  linarith

/-- The samples of positive probability carry all the probability. -/
theorem sum_positive {a : PostData K} {n m q : Nat} (ha : Sized a n m q) (hp : ∀ p ∈ a.probs, 0 ≤ p) {idx : List Nat}
    (h1 : idx.Nodup) (h2 : ∀ i, i ∈ idx ↔ i < n ∧ 0 < a.probs.getD i 0) :
    (idx.map fun i => a.probs.getD i 0).sum = a.probs.sum := by
  have e1 : a.probs.sum = ∑ i ∈ Finset.range n, a.probs.getD i 0 := by
    conv_lhs => rw [show a.probs = (List.range n).map fun i => a.probs.getD i 0 from by
      apply List.ext_getElem
      · simp [ha.probs]
      · intro i h3 h4
        simp [List.getD, List.getElem?_eq_getElem h3]]
    rw [← List.sum_toFinset _ List.nodup_range, List.toFinset_range]
  rw [e1, ← List.sum_toFinset _ h1]
  refine Finset.sum_subset (fun i hi => ?_) fun i hi hni => ?_
  · exact Finset.mem_range.2 ((h2 i).1 (List.mem_toFinset.1 hi)).1
  · have hi' := Finset.mem_range.1 hi
    have h3 : ¬ 0 < a.probs.getD i 0 := fun h => hni (List.mem_toFinset.2 ((h2 i).2 ⟨hi', h⟩))
    have h4 : 0 ≤ a.probs.getD i 0 := by
      rw [List.getD_eq_getElem?_getD, List.getElem?_eq_getElem (by rw [ha.probs]; exact hi')]
      exact hp _ (List.getElem_mem _)
    exact le_antisymm (not_lt.1 h3) h4

/-! ## Claims -/

/-- **C175.** The samples for a percentile are the first of the samples for a larger percentile, for the highest and for
the lowest densities. -/
theorem C175_nested {argsort : List (Num K) → List Nat} (hA : SortsNum argsort) (size : Nat) {perc perc' : K}
    (hle : perc ≤ perc') {o : PostObj K} {a : PostData K} (ho : Carries o a) {n m q : Nat} (hd : InDims o m q)
    (ha : Sized a n m q) (hv : PosVols a) :
    (∃ num o₁ idx num' o₂ idx', sampleHighestProb argsort size perc o true = .ok (num, o₁, idx) ∧
      sampleHighestProb argsort size perc' o true = .ok (num', o₂, idx') ∧
      Carries o₁ (picked a idx) ∧ Carries o₂ (picked a idx') ∧ idx <+: idx') ∧
    (∃ num o₁ idx num' o₂ idx', sampleLowestProb argsort size perc o true = .ok (num, o₁, idx) ∧
      sampleLowestProb argsort size perc' o true = .ok (num', o₂, idx') ∧
      Carries o₁ (picked a idx) ∧ Carries o₂ (picked a idx') ∧ idx <+: idx') := by
  obtain ⟨idx, h1, h2, h3, h4⟩ := sampleProb_prefix hA size ho hd ha hv
  constructor
  · obtain ⟨num, o₁, e1, f1, -, g1, -⟩ := h4 perc false _ rfl
    obtain ⟨num', o₂, e2, f2, -, g2, -⟩ := h4 perc' false _ rfl
    refine ⟨num, o₁, _, num', o₂, _, f1, f2, g1, g2, ?_⟩
    exact List.take_prefix_take_left (by rw [e1, e2]; exact countUpTo_mono hle _)
  · obtain ⟨num, o₁, e1, f1, -, g1, -⟩ := h4 perc true _ rfl
    obtain ⟨num', o₂, e2, f2, -, g2, -⟩ := h4 perc' true _ rfl
    refine ⟨num, o₁, _, num', o₂, _, f1, f2, g1, g2, ?_⟩
    exact List.take_prefix_take_left (by rw [e1, e2]; exact countUpTo_mono hle _)

/-- **C175.** If the probabilities are not negative and the two percentiles add up to the total probability, then no
sample is both among the highest densities for one and among the lowest for the other, and at most one sample of
positive probability is among neither. -/
theorem C175_complement {argsort : List (Num K) → List Nat} (hA : SortsNum argsort) (size : Nat) {perc perc' : K}
    (h0 : 0 ≤ perc) (h0' : 0 ≤ perc') {o : PostObj K} {a : PostData K} (ho : Carries o a) {n m q : Nat}
    (hd : InDims o m q) (ha : Sized a n m q) (hv : PosVols a) (hp : ∀ p ∈ a.probs, 0 ≤ p)
    (hs : a.probs.sum = perc + perc') :
    ∃ num o₁ idx num' o₂ idx', sampleHighestProb argsort size perc o true = .ok (num, o₁, idx) ∧
      sampleLowestProb argsort size perc' o true = .ok (num', o₂, idx') ∧
      Carries o₁ (picked a idx) ∧ Carries o₂ (picked a idx') ∧ (∀ i ∈ idx, i ∉ idx') ∧
      (∀ i < n, ∀ j < n, 0 < a.probs.getD i 0 → 0 < a.probs.getD j 0 → i ∉ idx → i ∉ idx' → j ∉ idx → j ∉ idx' →
        i = j) := by
  obtain ⟨l, h1, h2, h3, h4⟩ := sampleProb_prefix hA size ho hd ha hv
  obtain ⟨h, o₁, -, f1, -, g1, len1, up1, lo1⟩ := h4 perc false l rfl
  obtain ⟨k, o₂, -, f2, -, g2, len2, up2, lo2⟩ := h4 perc' true l.reverse rfl
  rw [List.length_reverse] at len2 lo2
  set f : Nat → K := fun i => a.probs.getD i 0 with hf
  have hpos : ∀ i ∈ l, 0 < f i := fun i hi => ((h2 i).1 hi).2
  have htot : (l.map f).sum = perc + perc' := by rw [← hs]; exact sum_positive ha hp h1 h2
  have hu1 : ((l.take h).map f).sum ≤ perc := by
    rcases Nat.eq_zero_or_pos h with e | e
    · rw [e]; simpa using h0
    · exact up1 e
  have hu2 : ((l.reverse.take k).map f).sum ≤ perc' := by
    rcases Nat.eq_zero_or_pos k with e | e
    · rw [e]; simpa using h0'
    · exact up2 e
  rw [sum_take_reverse f l len2, htot] at hu2
  have hhk : h ≤ l.length - k := by
    by_contra hlt
    have := sum_take_lt f l hpos (not_le.1 hlt) len1
    linarith
  have hhk' : l.length - k ≤ h + 1 := by
    by_contra hlt
    have e1 := lo1 (by omega)
    have e2 := lo2 (by omega)
    rw [sum_take_reverse f l (by omega), htot] at e2
    have : ((l.take (h + 1)).map f).sum ≤ ((l.take (l.length - (k + 1))).map f).sum := by
      rcases Nat.lt_or_ge (h + 1) (l.length - (k + 1)) with e | e
      · exact (sum_take_lt f l hpos e (by omega)).le
      · rw [show l.length - (k + 1) = h + 1 by omega]
    linarith
  refine ⟨h, o₁, _, k, o₂, _, f1, f2, g1, g2, ?_, ?_⟩
  · intro i hi hi'
    rw [List.take_reverse, List.mem_reverse] at hi'
    have hnd := h1
    rw [← List.take_append_drop (l.length - k) l] at hnd
    exact (List.nodup_append.1 hnd).2.2 i ((List.take_prefix_take_left hhk).subset hi) i hi' rfl
  · have key : ∀ i < n, 0 < a.probs.getD i 0 → i ∉ l.take h → i ∉ l.reverse.take k → l[h]? = some i := by
      intro i hi hpi hn1 hn2
      obtain ⟨t, ht, rfl⟩ := List.mem_iff_getElem.1 ((h2 i).2 ⟨hi, hpi⟩)
      rw [List.take_reverse, List.mem_reverse] at hn2
      have ht1 : ¬ t < h := fun hlt => hn1 (List.mem_take_iff_getElem.2 ⟨t, by omega, rfl⟩)
      have ht2 : t < l.length - k := by
        by_contra hge
        refine hn2 (List.mem_drop_iff_getElem.2 ⟨t - (l.length - k), by omega, ?_⟩)
        congr 1
        omega
      rw [show h = t by omega, List.getElem?_eq_getElem ht]
    intro i hi j hj hpi hpj a1 a2 b1 b2
    exact Option.some.inj ((key i hi hpi a1 a2).symm.trans (key j hj hpj b1 b2))

/-- **C175.** A percentile of at least the total probability returns all samples of positive probability; a percentile
that is not positive returns none. -/
theorem C175_extremes {argsort : List (Num K) → List Nat} (hA : SortsNum argsort) (size : Nat) {perc : K}
    {o : PostObj K} {a : PostData K} (ho : Carries o a) {n m q : Nat} (hd : InDims o m q) (ha : Sized a n m q)
    (hv : PosVols a) (hp : ∀ p ∈ a.probs, 0 ≤ p) :
    ∃ num o₁ idx num' o₂ idx', sampleHighestProb argsort size perc o true = .ok (num, o₁, idx) ∧
      sampleLowestProb argsort size perc o true = .ok (num', o₂, idx') ∧
      Carries o₁ (picked a idx) ∧ Carries o₂ (picked a idx') ∧
      (a.probs.sum ≤ perc → idx' = idx.reverse ∧ ∀ i, i ∈ idx ↔ i < n ∧ 0 < a.probs.getD i 0) ∧
      (perc ≤ 0 → idx = [] ∧ idx' = []) := by
  obtain ⟨l, h1, h2, h3, h4⟩ := sampleProb_prefix hA size ho hd ha hv
  obtain ⟨h, o₁, c1, f1, -, g1, len1, up1, lo1⟩ := h4 perc false l rfl
  obtain ⟨k, o₂, c2, f2, -, g2, len2, up2, lo2⟩ := h4 perc true l.reverse rfl
  set f : Nat → K := fun i => a.probs.getD i 0 with hf
  have hpos : ∀ i ∈ l, 0 < f i := fun i hi => ((h2 i).1 hi).2
  have htot : (l.map f).sum = a.probs.sum := sum_positive ha hp h1 h2
  refine ⟨h, o₁, _, k, o₂, _, f1, f2, g1, g2, fun hle => ?_, fun hle => ?_⟩
  · have hall : ∀ {r : List Nat} {t : Nat}, (∀ i ∈ r, 0 < f i) → (r.map f).sum = a.probs.sum → t ≤ r.length →
        (t < r.length → perc < ((r.take (t + 1)).map f).sum) → r.take t = r := by
      intro r t hr hsum _ hlo
      refine List.take_of_length_le ?_
      by_contra hlt
      have e1 := hlo (by omega)
      rcases Nat.lt_or_ge (t + 1) r.length with e | e
      · have := sum_take_lt f r hr e le_rfl
        rw [List.take_length] at this
        linarith
      · rw [List.take_of_length_le e] at e1
        linarith
    rw [hall hpos htot len1 lo1, hall (fun i hi => hpos i (List.mem_reverse.1 hi))
      (by rw [List.map_reverse, List.sum_reverse]; exact htot) len2 lo2]
    exact ⟨rfl, h2⟩
  · have h00 : ∀ r : List K, countUpTo perc r = 0 := by
      intro r
      unfold countUpTo
      rw [List.countP_eq_zero]
      intro c _ hc
      simp only [decide_eq_true_eq] at hc
      linarith
    rw [c1, c2, h00, h00]
    simp

namespace Ex

example := C175_nested argsortNum_sorts 1 (perc := 1/2) (perc' := 3/4) (by norm_num) regionArr_ok.1 regionArr_ok.2.1
  regionArr_ok.2.2.1 regionArr_ok.2.2.2

example := C175_complement argsortNum_sorts 1 (perc := 3/5) (perc' := 2/5) (by norm_num) (by norm_num) regionArr_ok.1
  regionArr_ok.2.1 regionArr_ok.2.2.1 regionArr_ok.2.2.2 (by decide +kernel) (by decide +kernel)

example := C175_extremes argsortNum_sorts 1 (perc := 1) regionArr_ok.1 regionArr_ok.2.1 regionArr_ok.2.2.1
  regionArr_ok.2.2.2 (by decide +kernel)

/-- Sample 3 among the highest, sample 2 among the lowest, sample 0 among neither. -/
example : ((sampleHighestProb argsortNum 1 (3/5) (.set regionSet) true).toOption.map fun r => r.2.2) = some [3] ∧
    ((sampleLowestProb argsortNum 1 (2/5) (.set regionSet) true).toOption.map fun r => r.2.2) = some [2] := by
  decide +kernel

end Ex

end BET
