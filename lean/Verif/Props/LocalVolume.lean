import Verif.Model.LocalVolume
import Verif.Props.Choose
import Mathlib.Logic.Function.Iterate
import Mathlib.Tactic.Positivity

/-!
# C28: `estimate_local_volume`
-/

set_option autoImplicit false
set_option linter.unusedSectionVars false
set_option linter.unusedSimpArgs false

namespace BET

namespace Spec

/-- A `while guard: step` loop started at `init` stops after `n` rounds in `final`. -/
def WhileStops {σ : Type} (guard : σ → Prop) (step : σ → σ) (init : σ) (n : Nat) (final : σ) :
    Prop :=
  step^[n] init = final ∧ ¬ guard final ∧ ∀ m < n, guard (step^[m] init)

/-- The body of the emulation loop: draw ten times as many points as before. -/
def emulateStep (count : Nat → Nat) (st : Nat × Nat) : Nat × Nat := (count (st.2 * 10), st.2 * 10)

/-- Its condition: too few points in the cell and still allowed to draw more. -/
def emulateGuard (numEm maxEm : Nat) (st : Nat × Nat) : Prop := st.1 < numEm ∧ st.2 < maxEm

end Spec

open Spec

section c28

theorem emulateLoop_stops (numEm maxEm : Nat) (count : Nat → Nat) (inCell total : Nat)
    (ht : 0 < total) :
    ∃ n, WhileStops (emulateGuard numEm maxEm) (emulateStep count) (inCell, total) n
      (emulateLoop numEm maxEm count inCell total) ∧
      (0 < n → total * 10 ^ (n - 1) < maxEm) ∧
      (emulateLoop numEm maxEm count inCell total).2 = total * 10 ^ n := by
  fun_induction emulateLoop numEm maxEm count inCell total with
  | case1 inCell total h ih =>
    obtain ⟨n, ⟨h1, h2, h3⟩, h4, h5⟩ := ih (by omega)
    refine ⟨n + 1, ⟨by simpa [emulateStep] using h1, h2, ?_⟩, ?_, ?_⟩
    · intro m hm
      cases m with
      | zero => exact ⟨h.1, h.2.1⟩
      | succ m => simpa [emulateStep] using h3 m (by omega)
    · intro _
      cases n with
      | zero => simpa using h.2.1
      | succ n =>
        have := h4 (by omega)
        simp only [Nat.add_sub_cancel] at this ⊢
        rw [pow_succ']
        rw [← mul_assoc]
        exact this
    · rw [h5, pow_succ']
      ring
  | case2 inCell total h =>
    refine ⟨0, ⟨rfl, ?_, by simp⟩, by simp, by simp⟩
    rintro ⟨h1, h2⟩
    exact h ⟨h1, h2, ht⟩

/-- **C28.** The emulation loop of a sample stops, whatever the random points do: after `n`
rounds, where before the last round fewer than `max_num_emulate` points had been drawn, so
`10 ^ n < max_num_emulate`; then it has enough points in the cell or has reached the
maximum. -/
theorem C28_terminates (numEm maxEm : Nat) (count : Nat → Nat) :
    ∃ n, WhileStops (emulateGuard numEm maxEm) (emulateStep count) (0, 10) n
      (emulateLoop numEm maxEm count 0 10) ∧ (0 < n → 10 ^ n < maxEm) ∧
      (emulateLoop numEm maxEm count 0 10).2 = 10 ^ (n + 1) := by
  obtain ⟨n, h1, h2, h3⟩ := emulateLoop_stops numEm maxEm count 0 10 (by omega)
  refine ⟨n, h1, fun hn => ?_, by rw [h3, pow_succ']⟩
  have := h2 hn
  rwa [← pow_succ', Nat.sub_add_cancel hn] at this

variable {K : Type} [Field K] [LinearOrder K]

/-- The share of the points drawn last for sample `i` that are in its cell, times the volume of
its ball. -/
def Spec.rawVolume (numEm maxEm : Nat) (count : Nat → Nat → Nat) (ballVol : Nat → K) (i : Nat) : K :=
  ballVol i * ((emulateLoop numEm maxEm (count i) 0 10).1 : K) /
    ((emulateLoop numEm maxEm (count i) 0 10).2 : K)

theorem consistent_setBounds {s : SampleSet K} {n : Nat} (h : Consistent s n) (D : List (K × K)) :
    Consistent (s.setBounds n D) n := by
  obtain ⟨h1, h2, h3⟩ := h
  refine ⟨⟨h1.values, h1.volumes, h1.probabilities, h1.densities, h1.jacobians,
    h1.errorEstimates, ?_, ?_, ?_, h1.kdtreeValues, h1.radii, h1.normalizedRadii, h1.region,
    h1.errorId⟩, fun hn => ?_, h3⟩
  · intro v hv; cases hv; simp
  · intro v hv; cases hv; simp
  · intro v hv; cases hv; simp
  · exact absurd hn.left (by simp [SampleSet.setBounds])

theorem ensureRadii_ok {s : SampleSet K} {n : Nat} (h : Consistent s n) (size : Nat)
    {rad : List K} (hr : rad.length = n) :
    ∃ s', s.ensureRadii size rad = .ok s' ∧ Consistent s' n ∧ s'.glob.values = s.glob.values ∧
      s'.domain = s.domain := by
  unfold SampleSet.ensureRadii
  split
  · exact ⟨s, rfl, h, rfl, rfl⟩
  · obtain ⟨h1, h2, h3⟩ := h
    have hc : Consistent { s with glob := { s.glob with
        left := none, right := none, width := none, normalizedRadii := some rad } } n := by
      refine ⟨⟨h1.values, h1.volumes, h1.probabilities, h1.densities, h1.jacobians,
        h1.errorEstimates, nofun, nofun, nofun, h1.kdtreeValues, h1.radii, ?_, h1.region,
        h1.errorId⟩, fun hn => ?_, h3⟩
      · intro v hv; cases hv; exact hr
      · exact absurd hn.normalizedRadii (by simp)
    exact ⟨_, SampleSet.globalToLocal_ok hc size, hc, rfl, rfl⟩

theorem estimateLocalVolume_ok {s : SampleSet K} {n size : Nat} (hsize : 0 < size)
    (h : Consistent s n) (hv : s.glob.values.isSome) (hD : s.domain.isSome) {rad : List K}
    (hr : rad.length = n) (ballVol : Nat → K) (count : Nat → Nat → Nat) (numEm maxEm : Nat) :
    (((List.range n).map (rawVolume numEm maxEm count ballVol)).sum = 0 →
      s.estimateLocalVolume size rad ballVol count numEm maxEm = .error .zeroDivision) ∧
    (((List.range n).map (rawVolume numEm maxEm count ballVol)).sum ≠ 0 →
      ∃ s' vol l, s.estimateLocalVolume size rad ballVol count numEm maxEm = .ok s' ∧
        s'.glob.volumes = some vol ∧
        vol = (List.range n).map (fun i => rawVolume numEm maxEm count ballVol i /
          ((List.range n).map (rawVolume numEm maxEm count ballVol)).sum) ∧
        s'.loc.volumes = some l ∧ IsBalancedSplit size vol l ∧
        s'.glob.values = s.glob.values) := by
  obtain ⟨v, hv⟩ := Option.isSome_iff_exists.mp hv
  obtain ⟨D, hD⟩ := Option.isSome_iff_exists.mp hD
  have hvl : v.length = n := h.1.values v hv
  obtain ⟨s1, e1, c1, v1, -⟩ := ensureRadii_ok (consistent_setBounds h D) size hr
  have hflat : (((arraySplit size (List.range n)).map fun c => c.map fun i =>
      localVolume numEm maxEm (count i) (ballVol i))).flatten =
      (List.range n).map (rawVolume numEm maxEm count ballVol) := by
    rw [← List.map_flatten, flatten_arraySplit _ _ hsize]
    rfl
  have hval : (Arrays.map₂ SampleSet.gatherArr
      ({ (s1.splitSet size n).loc with volumes := some ((arraySplit size (List.range n)).map
        fun c => c.map fun i => localVolume numEm maxEm (count i) (ballVol i)) } :
          Arrays Chunks K)
      (s1.splitSet size n).glob).values = s.glob.values := by
    have : s1.glob.values = some v := by rw [v1]; exact hv
    simp only [Arrays.map₂, SampleSet.splitSet, this, SampleSet.splitArr_some,
      SampleSet.gatherArr_some, flatten_arraySplit _ _ hsize, hv]
  unfold SampleSet.estimateLocalVolume
  simp only [SampleSet.checkNum_consistent h, ok_bind, hv, hD, orErr_some, hvl, e1,
    SampleSet.globalToLocal_ok c1]
  have hidx : (s1.splitSet size n).localIndex = some (arraySplit size (List.range n)) := rfl
  simp only [hidx, orErr_some, ok_bind, SampleSet.localToGlobal]
  have hvols : (Arrays.map₂ SampleSet.gatherArr
      ({ (s1.splitSet size n).loc with volumes := some ((arraySplit size (List.range n)).map
        fun c => c.map fun i => localVolume numEm maxEm (count i) (ballVol i)) } :
          Arrays Chunks K)
      (s1.splitSet size n).glob).volumes =
      some ((List.range n).map (rawVolume numEm maxEm count ballVol)) := by
    simp only [Arrays.map₂, SampleSet.gatherArr_some, hflat]
  simp only [hvols, orErr_some, ok_bind]
  constructor
  · intro h0
    simp [raiseIf, h0]
  · intro h0
    rw [raiseIf, if_neg h0]
    refine ⟨_, _, _, rfl, rfl, by simp, rfl, ?_, by rw [← hv, ← hval]⟩
    have key : (arraySplit size (List.range n)).map (fun c => c.map fun i =>
        rawVolume numEm maxEm count ballVol i /
          ((List.range n).map (rawVolume numEm maxEm count ballVol)).sum) =
        arraySplit size ((List.range n).map fun i => rawVolume numEm maxEm count ballVol i /
          ((List.range n).map (rawVolume numEm maxEm count ballVol)).sum) := by
      simp only [arraySplit, List.map_map, List.length_map, List.length_range]
      refine List.map_congr_left fun r _ => ?_
      simp [List.map_take, List.map_drop]
    have := isBalancedSplit_arraySplit size hsize ((List.range n).map fun i =>
      rawVolume numEm maxEm count ballVol i /
        ((List.range n).map (rawVolume numEm maxEm count ballVol)).sum)
    rw [← key] at this
    simpa [List.map_map, Function.comp_def, localVolume, rawVolume] using this

variable [IsStrictOrderedRing K]

theorem rawVolume_nonneg {numEm maxEm : Nat} {count : Nat → Nat → Nat} {ballVol : Nat → K}
    {i : Nat} (hb : 0 < ballVol i) : 0 ≤ rawVolume numEm maxEm count ballVol i := by
  unfold rawVolume
  positivity

theorem rawVolume_pos {numEm maxEm : Nat} {count : Nat → Nat → Nat} {ballVol : Nat → K}
    {i : Nat} (hb : 0 < ballVol i) :
    0 < rawVolume numEm maxEm count ballVol i ↔
      0 < (emulateLoop numEm maxEm (count i) 0 10).1 := by
  obtain ⟨n, _, _, h⟩ := C28_terminates numEm maxEm (count i)
  unfold rawVolume
  rw [h]
  rcases Nat.eq_zero_or_pos (emulateLoop numEm maxEm (count i) 0 10).1 with h0 | h0
  · simp [h0]
  · simp only [h0, iff_true]
    positivity

/-- **C28 (part).** If for some sample a point was found in its cell, the volumes are
non-negative, add up to one, are split over the processes, and a volume is positive
exactly if a point was found in the cell of its sample.  Missing: that all are positive
(`C28_negation_zero_volume`), and that some point is found (`C28_negation_no_points`). -/
theorem C28_volumes_partial {s : SampleSet K} {n size : Nat} (hsize : 0 < size)
    (h : Consistent s n) (hv : s.glob.values.isSome) (hD : s.domain.isSome) {rad : List K}
    (hr : rad.length = n) {ballVol : Nat → K} (hb : ∀ i < n, 0 < ballVol i)
    (count : Nat → Nat → Nat) (numEm maxEm : Nat)
    (hsome : ∃ i < n, 0 < (emulateLoop numEm maxEm (count i) 0 10).1) :
    ∃ s' vol l, s.estimateLocalVolume size rad ballVol count numEm maxEm = .ok s' ∧
      s'.glob.volumes = some vol ∧ vol.length = n ∧ IsProbVector vol ∧
      (∀ (i : Nat) x, vol[i]? = some x →
        (0 < x ↔ 0 < (emulateLoop numEm maxEm (count i) 0 10).1)) ∧
      s'.loc.volumes = some l ∧ IsBalancedSplit size vol l ∧
      s'.glob.values = s.glob.values := by
  have hpos : 0 < ((List.range n).map (rawVolume numEm maxEm count ballVol)).sum := by
    obtain ⟨i, hi, hc⟩ := hsome
    refine lt_of_lt_of_le ((rawVolume_pos (hb i hi)).mpr hc) ?_
    apply List.single_le_sum
    · intro x hx
      obtain ⟨j, hj, rfl⟩ := List.mem_map.mp hx
      exact rawVolume_nonneg (hb j (List.mem_range.mp hj))
    · exact List.mem_map.mpr ⟨i, List.mem_range.mpr hi, rfl⟩
  obtain ⟨s', vol, l, h1, h2, rfl, h4, h5, h6⟩ :=
    (estimateLocalVolume_ok hsize h hv hD hr ballVol count numEm maxEm).2 hpos.ne'
  refine ⟨s', _, l, h1, h2, by simp, ⟨?_, ?_⟩, ?_, h4, h5, h6⟩
  · intro x hx
    obtain ⟨i, hi, rfl⟩ := List.mem_map.mp hx
    exact div_nonneg (rawVolume_nonneg (hb i (List.mem_range.mp hi))) hpos.le
  · have : ((List.range n).map fun i => rawVolume numEm maxEm count ballVol i /
        ((List.range n).map (rawVolume numEm maxEm count ballVol)).sum) =
      ((List.range n).map (rawVolume numEm maxEm count ballVol)).map (· *
        (((List.range n).map (rawVolume numEm maxEm count ballVol)).sum)⁻¹) := by
      simp [div_eq_mul_inv]
    rw [this, List.sum_map_mul_right, List.map_id', mul_inv_cancel₀ hpos.ne']
  · intro i x hx
    obtain ⟨hi, hx⟩ := List.getElem?_eq_some_iff.mp hx
    simp only [List.length_map, List.length_range] at hi
    simp only [List.getElem_map, List.getElem_range] at hx
    subst hx
    rw [div_pos_iff_of_pos_right hpos]
    exact rawVolume_pos (hb i hi)

end c28

/-! ### Concrete cases -/

namespace Ex

/-- Two samples on the unit interval with radii. -/
def lvSet : SampleSet ℚ where
  dim := 1
  domain := some [(0, 1)]
  glob := { values := some [[1 / 4], [1 / 2]], normalizedRadii := some [3 / 8, 1 / 2] }

/-- A tenth of the points around sample 0 and a fifth of those around sample 1 lie in the cell. -/
def lvCount (i t : Nat) : Nat := if i = 0 then t / 10 else t / 5

/-- C28: the hypotheses are met. -/
example : Consistent lvSet 2 ∧ lvSet.domain.isSome ∧
    (∃ i < 2, 0 < (emulateLoop 5 1000 (lvCount i) 0 10).1) := by
  refine ⟨consistent_of _ _ rfl rfl, rfl, 0, by omega, ?_⟩
  simp [emulateLoop, lvCount]

/-- **C28, negation.** If none of the points drawn for a sample falls into its cell, its volume
is zero, although other volumes are positive: here sample 0 of two. -/
theorem C28_negation_zero_volume :
    ∃ s', lvSet.estimateLocalVolume 1 [1, 1] (fun _ => 1) (fun i t => if i = 0 then 0 else t)
      500 1000 = .ok s' ∧ s'.glob.volumes = some [0, 1] := by
  have e0 : (emulateLoop 500 1000 (fun _ => 0) 0 10) = (0, 1000) := by simp [emulateLoop]
  have e1 : (emulateLoop 500 1000 (fun t => t) 0 10) = (1000, 1000) := by simp [emulateLoop]
  have hr0 : rawVolume 500 1000 (fun i t => if i = 0 then 0 else t) (fun _ => (1 : ℚ)) 0 = 0 := by
    simp [rawVolume, e0]
  have hr1 : rawVolume 500 1000 (fun i t => if i = 0 then 0 else t) (fun _ => (1 : ℚ)) 1 = 1 := by
    simp [rawVolume, e1]
  have hr : (List.range 2).map (rawVolume 500 1000 (fun i t => if i = 0 then 0 else t)
      fun _ => (1 : ℚ)) = [0, 1] := by
    simp [List.range_succ, hr0, hr1]
  obtain ⟨s', vol, l, h1, h2, h3, -⟩ := (estimateLocalVolume_ok (size := 1) (n := 2) (by omega)
    (consistent_of lvSet 2 rfl rfl) rfl rfl (rad := [1, 1]) rfl (fun _ => (1 : ℚ))
    (fun i t => if i = 0 then 0 else t) 500 1000).2 (by rw [hr]; decide +kernel)
  refine ⟨s', h1, ?_⟩
  rw [h2, h3, hr]
  simp [List.range_succ, hr0, hr1]

/-- **C28, negation.** If `max_num_emulate` is at most 10 no point is drawn at all, all
volumes are `0 / 0`. -/
theorem C28_negation_no_points (count : Nat → Nat → Nat) :
    lvSet.estimateLocalVolume 1 [1, 1] (fun _ => 1) count 500 10 = .error .zeroDivision := by
  refine (estimateLocalVolume_ok (size := 1) (n := 2) (by omega)
    (consistent_of lvSet 2 rfl rfl) rfl rfl (rad := [1, 1]) rfl (fun _ => (1 : ℚ))
    count 500 10).1 ?_
  have e : ∀ c, (emulateLoop 500 10 c 0 10) = (0, 10) := by intro c; simp [emulateLoop]
  simp [List.range_succ, rawVolume, e]

end Ex

end BET
