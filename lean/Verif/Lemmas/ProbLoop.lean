import Verif.Lemmas.Mask
import Verif.Lemmas.Basic

set_option linter.unusedSectionVars false
set_option linter.unusedSimpArgs false

set_option autoImplicit false

namespace BET

open Spec

variable {K : Type} [Field K] [LinearOrder K]

/-- One pass of `probBody` on a matrix of the form `zipWith f`. -/
theorem probBody_zipWith (probs : List K) (ptr : Chunks Nat) (vs : Chunks K) (i : Nat)
    (f : Nat → K → K) (h : SameShape ptr vs) (hi : i < probs.length) :
    probBody (some probs) ptr (some vs) (List.zipWith (List.zipWith f) ptr vs) i =
      .ok (List.zipWith (List.zipWith fun j v =>
        if j = i ∧ probs[i] > 0 ∧ mass ptr.flatten vs.flatten i > 0 then
          probs[i] * v / mass ptr.flatten vs.flatten i
        else f j v) ptr vs) := by
  have hget : getIdx probs i = .ok probs[i] := by simp [getIdx, hi]
  have hs : allreduceSum ((List.zipWith (fun c v => maskSel v (npEqual c i)) ptr vs).map
      List.sum) = mass ptr.flatten vs.flatten i := by
    rw [mass_flatten _ _ _ h, List.map_zipWith]
    simp only [maskSel_npEqual_sum]
    rfl
  unfold probBody
  simp only [orErr, hget, bind, Except.bind, pure, Except.pure]
  by_cases hp : probs[i] > 0
  · simp only [hp, if_true, maskSelRanks_ok _ _ _ h, hs]
    by_cases hm : mass ptr.flatten vs.flatten i > 0
    · simp only [hm, if_true, and_true]
      congr 1
      generalize mass ptr.flatten vs.flatten i = m
      clear hs hm
      induction h with
      | nil => rfl
      | cons hab _ ih =>
        simp only [List.zipWith_cons_cons, List.map_cons, List.zip_cons_cons]
        rw [ih, maskSet_zipWith]
    · simp [hm]
  · simp [hp]

/-- Closed form of the loop of `prob`. -/
theorem probLoop_eq (probs : List K) (ptr : Chunks Nat) (vs : Chunks K) (n : Nat)
    (h : SameShape ptr vs) (hn : n ≤ probs.length) :
    probLoop n (some probs) ptr (some vs) =
      .ok (List.zipWith (List.zipWith fun j v =>
        if j < n ∧ probs.getD j 0 > 0 ∧ mass ptr.flatten vs.flatten j > 0 then
          probs.getD j 0 * v / mass ptr.flatten vs.flatten j
        else 0) ptr vs) := by
  unfold probLoop
  have h0 : (ptr.map fun c => List.replicate c.length (0 : K)) =
      List.zipWith (List.zipWith fun _ _ => (0 : K)) ptr vs := by
    induction h with
    | nil => rfl
    | @cons a b as bs hab _ ih =>
      simp only [List.map_cons, List.zipWith_cons_cons]
      rw [ih]
      congr 1
      apply List.ext_getElem
      · simp [hab]
      · intros; simp
  rw [h0]
  induction n with
  | zero => simp [pure, Except.pure]
  | succ n ih =>
    rw [List.range_succ, List.foldlM_append, ih (by omega)]
    simp only [bind, Except.bind, List.foldlM_cons, List.foldlM_nil]
    rw [probBody_zipWith _ _ _ _ _ h (by omega)]
    simp only [pure, Except.pure]
    congr 3
    funext j v
    have hg : probs.getD n 0 = probs[n] := by simp [List.getD, show n < probs.length by omega]
    by_cases hj : j = n
    · subst hj
      simp only [lt_irrefl, false_and, if_false, true_and, Nat.lt_succ_self, hg]
    · have : j < n + 1 ↔ j < n := by omega
      simp only [hj, false_and, if_false, this]

/-- Closed form of the loop of `prob_on_emulated_samples`. -/
theorem probEmLoop_eq (probs : List K) (ptr : Chunks Nat) (n : Nat) (hn : n ≤ probs.length) :
    (List.range n).foldlM (probEmBody (some probs) ptr)
        (ptr.map fun c => List.replicate c.length (0 : K)) =
      .ok (ptr.map fun c => c.map fun j =>
        if j < n ∧ probs.getD j 0 > 0 then probs.getD j 0 / (hits ptr.flatten j : K) else 0) := by
  have h0 : (ptr.map fun c => List.replicate c.length (0 : K)) =
      ptr.map fun c => c.map fun _ => (0 : K) := by simp
  rw [h0]
  induction n with
  | zero => simp [pure, Except.pure]
  | succ n ih =>
    rw [List.range_succ, List.foldlM_append, ih (by omega)]
    simp only [bind, Except.bind, List.foldlM_cons, List.foldlM_nil]
    have hg : probs.getD n 0 = probs[n] := by simp [List.getD, show n < probs.length by omega]
    have hget : getIdx probs n = .ok probs[n] := by
      simp [getIdx, show n < probs.length by omega]
    have hs : allreduceSum ((ptr.map fun c => npEqual c n).map fun m => m.count true) =
        hits ptr.flatten n := by
      rw [hits_flatten]
      simp [allreduceSum, Function.comp_def, count_npEqual]
    unfold probEmBody
    simp only [orErr, hget, bind, Except.bind, pure, Except.pure, hs]
    by_cases hp : probs[n] > 0
    · simp only [hp, if_true]
      by_cases hm : hits ptr.flatten n > 0
      · simp only [hm, if_true]
        rw [List.zip_map', List.mapM_map, mapM_ok _ (fun c => c.map fun j =>
          if j < n + 1 ∧ probs.getD j 0 > 0 then probs.getD j 0 / (hits ptr.flatten j : K) else 0)]
        intro c _
        simp only [Function.comp, maskFillE, npEqual, List.length_map, if_true]
        congr 1
        have := maskFill_map c (fun j => if j < n ∧ probs.getD j 0 > 0 then
          probs.getD j 0 / (hits ptr.flatten j : K) else 0) (probs[n] / (hits ptr.flatten n : K)) n
        rw [npEqual] at this
        rw [this]
        refine List.map_congr_left fun j _ => ?_
        by_cases hj : j = n
        · subst hj
          simp only [if_true, hg, hp, Nat.lt_succ_self, and_self]
        · have : j < n + 1 ↔ j < n := by omega
          simp only [hj, if_false, this]
      · simp only [hm, if_false]
        congr 1
        refine List.map_congr_left fun c hc => List.map_congr_left fun j hj => ?_
        have hne : j ≠ n := by
          rintro rfl
          apply hm
          exact List.count_pos_iff.mpr (List.mem_flatten.mpr ⟨c, hc, hj⟩)
        have : j < n + 1 ↔ j < n := by omega
        simp only [this]
    · simp only [hp, if_false]
      congr 1
      refine List.map_congr_left fun c _ => List.map_congr_left fun j _ => ?_
      by_cases hj : j = n
      · subst hj; simp only [hg, hp, and_false, if_false, lt_irrefl, false_and]
      · have : j < n + 1 ↔ j < n := by omega
        simp only [this]

/-- Closed form of the gathering loops. -/
theorem gatherLoop_eq (ptr : Chunks Nat) (w : Chunks K) (n : Nat) (h : SameShape ptr w) :
    gatherLoop n ptr w = .ok ((List.range n).map (mass ptr.flatten w.flatten)) := by
  unfold gatherLoop
  have hstep : ∀ i, (do
      let sel ← maskSelRanks w (ptr.map fun c => npEqual c i)
      pure (allreduceSum (sel.map List.sum)) : Except Err K) =
      .ok (mass ptr.flatten w.flatten i) := by
    intro i
    rw [maskSelRanks_ok _ _ _ h]
    simp only [bind, Except.bind, pure, Except.pure]
    rw [mass_flatten _ _ _ h, List.map_zipWith]
    simp only [maskSel_npEqual_sum]
    rfl
  simp only [hstep]
  generalize List.range n = l
  induction l with
  | nil => rfl
  | cons a l ih => rw [List.mapM_cons, ih]; rfl

/-- Closed form of the first loop of `prob_from_sample_set_with_emulated_volumes`. -/
theorem emLoop_eq (probs : List K) (ptr : Chunks Nat) (n : Nat) (hn : n ≤ probs.length) :
    (List.range n).foldlM (emBody (some probs) ptr)
        (ptr.map (fun c => List.replicate c.length (0 : K)), false) =
      .ok (ptr.map fun c => c.map fun j =>
        if j < n ∧ probs.getD j 0 > 0 then probs.getD j 0 / (hits ptr.flatten j : K) else 0,
        (List.range n).any fun i => decide (probs.getD i 0 > 0) && hits ptr.flatten i == 0) := by
  have h0 : (ptr.map fun c => List.replicate c.length (0 : K)) =
      ptr.map fun c => c.map fun _ => (0 : K) := by simp
  rw [h0]
  induction n with
  | zero => simp [pure, Except.pure]
  | succ n ih =>
    rw [List.range_succ, List.foldlM_append, ih (by omega), List.any_append]
    simp only [bind, Except.bind, List.foldlM_cons, List.foldlM_nil, List.any_cons, List.any_nil,
      Bool.or_false]
    have hg : probs.getD n 0 = probs[n] := by simp [List.getD, show n < probs.length by omega]
    have hget : getIdx probs n = .ok probs[n] := by
      simp [getIdx, show n < probs.length by omega]
    have hs : allreduceSum ((ptr.map fun c => npEqual c n).map fun m => m.count true) =
        hits ptr.flatten n := by
      rw [hits_flatten]
      simp [allreduceSum, Function.comp_def, count_npEqual]
    unfold emBody
    simp only [orErr, hget, bind, Except.bind, pure, Except.pure, hs, hg]
    by_cases hp : probs[n] > 0
    · simp only [hp, if_true]
      by_cases hm : hits ptr.flatten n > 0
      · have hm0 : (hits ptr.flatten n == 0) = false := by simpa using hm.ne'
        simp only [hm, if_true, hm0, Bool.and_false, Bool.or_false]
        congr 2
        rw [List.zipWith_map, List.zipWith_self]
        refine List.map_congr_left fun c _ => ?_
        have hz := maskSet_zipWith (α := K) c (c.map fun j => if j < n ∧ probs.getD j 0 > 0 then
          probs.getD j 0 / (hits ptr.flatten j : K) else 0) (fun _ v => v)
          (· + probs[n] / (hits ptr.flatten n : K)) n
        have hid : List.zipWith (fun (_ : Nat) (v : K) => v) c
            (c.map fun j => if j < n ∧ probs.getD j 0 > 0 then
              probs.getD j 0 / (hits ptr.flatten j : K) else 0) =
            c.map fun j => if j < n ∧ probs.getD j 0 > 0 then
              probs.getD j 0 / (hits ptr.flatten j : K) else 0 := by
          rw [List.zipWith_map_right, List.zipWith_self]
        rw [hid] at hz
        rw [hz, List.zipWith_map_right, List.zipWith_self]
        refine List.map_congr_left fun j _ => ?_
        by_cases hj : j = n
        · subst hj
          simp only [if_true, hg, hp, Nat.lt_succ_self, and_self, lt_irrefl, false_and, if_false,
            zero_add]
        · have : j < n + 1 ↔ j < n := by omega
          simp only [hj, if_false, this]
      · have hm0 : (hits ptr.flatten n == 0) = true := by
          have : hits ptr.flatten n = 0 := by omega
          simp [this]
        simp only [hm, if_false, hm0]
        have hd : (decide (probs[n] > 0) && true) = true := by simp [hp]
        simp only [decide_true, Bool.and_true, Bool.or_true]
        congr 2
        refine List.map_congr_left fun c hc => List.map_congr_left fun j hj => ?_
        have hne : j ≠ n := by
          rintro rfl
          apply hm
          exact List.count_pos_iff.mpr (List.mem_flatten.mpr ⟨c, hc, hj⟩)
        have : j < n + 1 ↔ j < n := by omega
        simp only [this]
    · simp only [hp, if_false, decide_false, Bool.false_and, Bool.or_false]
      congr 2
      refine List.map_congr_left fun c _ => List.map_congr_left fun j _ => ?_
      by_cases hj : j = n
      · subst hj; simp only [hg, hp, and_false, if_false, lt_irrefl, false_and]
      · have : j < n + 1 ↔ j < n := by omega
        simp only [this]

end BET
