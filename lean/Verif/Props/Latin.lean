import Verif.Props.RandomSampling
import Mathlib.Tactic.Ring
import Mathlib.Tactic.Linarith
import Mathlib.Tactic.FieldSimp

/-!
# Latin hypercubes (C77)
-/

set_option autoImplicit false
set_option linter.unusedSectionVars false
set_option linter.unusedSimpArgs false

namespace BET

open Spec

section
variable {K : Type} [Field K]

/-- The box that is sampled: the domain, or the unit cube if there is none. -/
def Spec.boxOf (dim : Nat) : Option (List (K × K)) → List (K × K)
  | some D => D
  | none => List.replicate dim (0, 1)

theorem space_box {obj : InputObj K} {dim : Nat} {D : Option (List (K × K))} (h : Space obj dim D) :
    (boxOf dim D).length = dim := by
  cases h with
  | dim d => simp [boxOf]
  | domain D => rfl
  | bare s h => simp [boxOf]
  | boxed s D h h2 => exact h2

theorem domainOrUnit_eq (s : SampleSet K) : domainOrUnit s = boxOf s.dim s.domain := by
  unfold domainOrUnit boxOf
  cases s.domain <;> rfl

/-- On success the set has one sample for each row of the Latin hypercube, coordinate `i` of sample
`k` is `a_i + (b_i - a_i) u_{k i}`, and the domain is the box. -/
theorem C77_values {size : Nat} (hsize : 0 < size) {obj : InputObj K} {dim : Nat}
    {D : Option (List (K × K))} (hs : Space obj dim D) {cube : List (List K)}
    (hcube : ∀ row ∈ cube, row.length = dim) {globalize : Bool} {t : SampleSet K}
    (h : lhsSampleSet size obj cube globalize = .ok t) :
    ∃ v : List (List K), v.length = cube.length ∧ t.domain = some (boxOf dim D) ∧
      (∃ c, t.loc.values = some c ∧ c.length = size ∧ c.flatten = v) ∧
      (globalize = true → t.glob.values = some v) ∧
      (∀ row ∈ v, row.length = dim) ∧
      ∀ (k i : Nat) (u : List K) (x : K) (ab : K × K), cube[k]? = some u → u[i]? = some x →
        (boxOf dim D)[i]? = some ab →
        ∃ row, v[k]? = some row ∧ row[i]? = some (ab.1 + (ab.2 - ab.1) * x) := by
  have hbox := space_box hs
  obtain ⟨s, h1, rfl, rfl⟩ := space_ok hs .unboundLocal
  simp only [lhsSampleSet, h1, ok_bind, bind_eq_ok, pure_eq_ok, SampleSet.updateBounds,
    orErr_some, domainOrUnit_eq] at h
  obtain ⟨s2, rfl, s3, h5, rfl⟩ := h
  obtain ⟨rfl, -⟩ := setValuesLocal_eq_ok h5
  refine ⟨cube.map fun row => List.zipWith (fun ab u => (ab.2 - ab.1) * u + ab.1)
    (boxOf s.dim s.domain) row, by simp, by cases globalize <;> rfl, ?_, ?_, ?_, ?_⟩
  · refine ⟨_, by cases globalize <;> rfl, ?_, flatten_arraySplit _ _ hsize⟩
    simp [arraySplit]
  · rintro rfl
    simp [SampleSet.globalizeIf, SampleSet.localToGlobal, Arrays.map₂, SampleSet.gatherArr,
      getGlobalValues, flatten_arraySplit _ _ hsize]
  · intro row hrow
    obtain ⟨r, hr, rfl⟩ := List.mem_map.1 hrow
    simp [hbox, hcube r hr]
  · intro k i u x ab hk hi hab
    refine ⟨_, by rw [List.getElem?_map, hk]; rfl, ?_⟩
    rw [List.getElem?_zipWith, hab, hi]
    simp only
    congr 1
    ring

/-- For a set without arrays, a dimension or a domain the call succeeds, and the set is consistent
with one sample for each row. -/
theorem C77_defined_partial {size : Nat} (hsize : 0 < size) {obj : InputObj K} {dim : Nat}
    {D : Option (List (K × K))} (hs : Space obj dim D) (hfresh : NoArrays obj)
    {cube : List (List K)} (hcube : ∀ row ∈ cube, row.length = dim) (globalize : Bool) :
    ∃ t, lhsSampleSet size obj cube globalize = .ok t ∧ t.checkNum size = .ok cube.length := by
  have hbox := space_box hs
  obtain ⟨s, h1, rfl, rfl⟩ := space_ok hs .unboundLocal
  obtain ⟨hg, hl⟩ := noArrays_set hfresh h1
  have hrows : ∀ row ∈ cube.map fun row =>
      List.zipWith (fun ab u => (ab.2 - ab.1) * u + ab.1) (boxOf s.dim s.domain) row,
      row.length = s.dim := by
    intro row hrow
    obtain ⟨r, hr, rfl⟩ := List.mem_map.1 hrow
    simp [hbox, hcube r hr]
  have hch : ∀ c ∈ arraySplit size (cube.map fun row =>
      List.zipWith (fun ab u => (ab.2 - ab.1) * u + ab.1) (boxOf s.dim s.domain) row),
      ∀ row ∈ c, row.length = s.dim := by
    intro c hc row hrow
    apply hrows
    have := flatten_arraySplit size (cube.map fun row =>
      List.zipWith (fun ab u => (ab.2 - ab.1) * u + ab.1) (boxOf s.dim s.domain) row) hsize
    rw [← this]
    exact List.mem_flatten.2 ⟨c, hc, hrow⟩
  have hrun : ∃ t, lhsSampleSet size obj cube globalize = .ok t := by
    simp only [lhsSampleSet, h1, ok_bind, SampleSet.updateBounds, orErr_some, domainOrUnit_eq,
      pure_bind_ok]
    rw [setValuesLocal_ok _ _ (by exact hch)]
    exact ⟨_, rfl⟩
  obtain ⟨t, ht⟩ := hrun
  refine ⟨t, ht, ?_⟩
  · simp only [lhsSampleSet, h1, ok_bind, SampleSet.updateBounds, orErr_some, domainOrUnit_eq,
      pure_bind_ok] at ht
    rw [setValuesLocal_ok _ _ (by exact hch)] at ht
    cases ht
    apply SampleSet.checkNum_consistent
    cases globalize with
    | true =>
      simp only [SampleSet.globalizeIf, if_true, SampleSet.localToGlobal, Arrays.map₂, hg, hl,
        SampleSet.gatherArr, getGlobalValues, flatten_arraySplit _ _ hsize]
      refine ⟨⟨?_, nofun, nofun, nofun, nofun, nofun, ?_, ?_, ?_, nofun, nofun, nofun, nofun,
        nofun⟩, ?_, ?_⟩
      · intro w hw; cases hw; simp
      · intro w hw; cases hw; simp
      · intro w hw; cases hw; simp
      · intro w hw; cases hw; simp
      · intro hnp
        have := hnp.values
        cases this
      · intro w hw
        cases hw
        exact hrows
    | false =>
      simp only [SampleSet.globalizeIf, Bool.false_eq_true, if_false, hg, hl]
      refine ⟨⟨nofun, nofun, nofun, nofun, nofun, nofun, ?_, ?_, ?_, nofun, nofun, nofun, nofun,
        nofun⟩, ?_, nofun⟩
      · intro w hw; cases hw; simp
      · intro w hw; cases hw; simp
      · intro w hw; cases hw; simp
      · intro hnp
        have := hnp.left
        cases this

end

section
variable {K : Type} [Field K] [LinearOrder K] [IsStrictOrderedRing K]

/-- All samples lie in the box, if the Latin hypercube lies in the unit cube. -/
theorem C77_in_domain {size : Nat} (hsize : 0 < size) {obj : InputObj K} {dim : Nat}
    {D : Option (List (K × K))} (hs : Space obj dim D)
    (hD : ∀ ab ∈ boxOf dim D, ab.1 ≤ ab.2) {cube : List (List K)}
    (hcube : ∀ row ∈ cube, row.length = dim ∧ ∀ x ∈ row, 0 ≤ x ∧ x ≤ 1) {t : SampleSet K}
    (h : lhsSampleSet size obj cube true = .ok t) :
    ∃ v, t.glob.values = some v ∧ v.length = cube.length ∧
      ∀ row ∈ v, List.Forall₂ (fun x ab => ab.1 ≤ x ∧ x ≤ ab.2) row (boxOf dim D) := by
  have hbox := space_box hs
  obtain ⟨v, h1, -, -, h2, h3, h4⟩ := C77_values hsize hs (fun r hr => (hcube r hr).1) h
  refine ⟨v, h2 rfl, h1, ?_⟩
  intro row hrow
  rw [List.forall₂_iff_get]
  refine ⟨by rw [h3 row hrow, hbox], ?_⟩
  intro i hi1 hi2
  obtain ⟨k, hk, rfl⟩ := List.getElem_of_mem hrow
  have hkc : k < cube.length := by omega
  have hu := hcube cube[k] (by simp)
  have hiu : i < cube[k].length := by rw [hu.1, ← hbox]; exact hi2
  obtain ⟨row', e1, e2⟩ := h4 k i _ _ _ (List.getElem?_eq_getElem hkc)
    (List.getElem?_eq_getElem hiu) (List.getElem?_eq_getElem hi2)
  rw [List.getElem?_eq_getElem hk] at e1
  cases e1
  rw [List.getElem?_eq_getElem hi1] at e2
  simp only [Option.some.injEq] at e2
  rw [List.get_eq_getElem, List.get_eq_getElem, e2]
  have hab := hD _ (List.getElem_mem hi2)
  obtain ⟨hx0, hx1⟩ := hu.2 _ (List.getElem_mem hiu)
  have hw : 0 ≤ ((boxOf dim D)[i]).2 - ((boxOf dim D)[i]).1 := sub_nonneg.2 hab
  constructor
  · linarith [mul_nonneg hw hx0]
  · linarith [mul_le_of_le_one_right hw hx1]

/-- Every one of the `n` equal slices of `[a, b)` in direction `i` holds exactly one of the `n`
points. -/
def Spec.LatinIn (pts : List (List K)) (i : Nat) (a b : K) : Prop :=
  ∀ j : Nat, j < pts.length → ∃! k : Nat, ∃ row x, pts[k]? = some row ∧ row[i]? = some x ∧
    a + (b - a) * ((j : K) / (pts.length : K)) ≤ x ∧
    x < a + (b - a) * (((j + 1 : Nat) : K) / (pts.length : K))

/-- The samples form a Latin hypercube in the box, if the points of the unit cube do in the unit
cube. -/
theorem C77_latin {size : Nat} (hsize : 0 < size) {obj : InputObj K} {dim : Nat}
    {D : Option (List (K × K))} (hs : Space obj dim D) {cube : List (List K)}
    (hcube : ∀ row ∈ cube, row.length = dim) {t : SampleSet K}
    (h : lhsSampleSet size obj cube true = .ok t) :
    ∃ v, t.glob.values = some v ∧ ∀ (i : Nat) (ab : K × K), (boxOf dim D)[i]? = some ab →
      ab.1 < ab.2 → LatinIn cube i 0 1 → LatinIn v i ab.1 ab.2 := by
  have hbox := space_box hs
  obtain ⟨v, h1, -, -, h2, h3, h4⟩ := C77_values hsize hs hcube h
  refine ⟨v, h2 rfl, ?_⟩
  intro i ab hab hlt hL j hj
  have hw : 0 < ab.2 - ab.1 := sub_pos.2 hlt
  have hi : i < dim := by rw [← hbox]; exact (List.getElem?_eq_some_iff.1 hab).1
  have key : ∀ k : Nat, (∃ row x, v[k]? = some row ∧ row[i]? = some x ∧
      ab.1 + (ab.2 - ab.1) * ((j : K) / (v.length : K)) ≤ x ∧
      x < ab.1 + (ab.2 - ab.1) * (((j + 1 : Nat) : K) / (v.length : K))) ↔
      ∃ row x, cube[k]? = some row ∧ row[i]? = some x ∧
      0 + (1 - 0) * ((j : K) / (cube.length : K)) ≤ x ∧
      x < 0 + (1 - 0) * (((j + 1 : Nat) : K) / (cube.length : K)) := by
    intro k
    rw [h1]
    constructor
    · rintro ⟨row, x, e1, e2, e3, e4⟩
      have hk : k < cube.length := by rw [← h1]; exact (List.getElem?_eq_some_iff.1 e1).1
      have hiu : i < cube[k].length := by rw [hcube _ (List.getElem_mem hk)]; exact hi
      obtain ⟨row', f1, f2⟩ := h4 k i _ _ _ (List.getElem?_eq_getElem hk)
        (List.getElem?_eq_getElem hiu) hab
      rw [e1] at f1
      cases f1
      rw [e2] at f2
      simp only [Option.some.injEq] at f2
      refine ⟨_, _, List.getElem?_eq_getElem hk, List.getElem?_eq_getElem hiu, ?_, ?_⟩
      · rw [f2] at e3
        have := le_of_mul_le_mul_left (le_of_add_le_add_left e3) hw
        linarith
      · rw [f2] at e4
        have := lt_of_mul_lt_mul_left (lt_of_add_lt_add_left e4) hw.le
        linarith
    · rintro ⟨row, x, e1, e2, e3, e4⟩
      obtain ⟨row', f1, f2⟩ := h4 k i _ _ _ e1 e2 hab
      refine ⟨row', _, f1, f2, ?_, ?_⟩
      · have := mul_le_mul_of_nonneg_left (by linarith : (j : K) / (cube.length : K) ≤ x) hw.le
        linarith
      · have := mul_lt_mul_of_pos_left
          (by linarith : x < ((j + 1 : Nat) : K) / (cube.length : K)) hw
        linarith
  obtain ⟨k, hk, huniq⟩ := hL j (by omega)
  exact ⟨k, (key k).2 hk, fun k' hk' => huniq k' ((key k').1 hk')⟩

end

namespace Ex

/-- The centred Latin hypercube (1/6, 1/2), (1/2, 5/6), (5/6, 1/6). -/
def cube3 : List (List ℚ) := [[1 / 6, 1 / 2], [1 / 2, 5 / 6], [5 / 6, 1 / 6]]

example : ((lhsSampleSet 2 (.domain [(0, 1), (2, 5)]) cube3 true).toOption.bind fun t =>
    t.glob.values) = some [[1 / 6, 7 / 2], [1 / 2, 9 / 2], [5 / 6, 5 / 2]] := by decide +kernel

example : ∀ row ∈ cube3, row.length = 2 ∧ ∀ x ∈ row, 0 ≤ x ∧ x ≤ 1 := by decide +kernel

example : Spec.LatinIn cube3 0 0 1 := by
  intro j hj
  have hk : ∀ (k : Nat) row x, cube3[k]? = some row → row[0]? = some x →
      (k = 0 ∧ x = 1 / 6) ∨ (k = 1 ∧ x = 1 / 2) ∨ (k = 2 ∧ x = 5 / 6) := by
    intro k row x h1 h2
    match k with
    | 0 => cases h1; cases h2; simp
    | 1 => cases h1; cases h2; simp
    | 2 => cases h1; cases h2; simp
    | k + 3 => simp [cube3] at h1
  have hlen : cube3.length = 3 := rfl
  rw [hlen] at hj ⊢
  refine ⟨j, ?_, ?_⟩
  · match j, hj with
    | 0, _ => exact ⟨_, _, rfl, rfl, by decide +kernel, by decide +kernel⟩
    | 1, _ => exact ⟨_, _, rfl, rfl, by decide +kernel, by decide +kernel⟩
    | 2, _ => exact ⟨_, _, rfl, rfl, by decide +kernel, by decide +kernel⟩
  · rintro k ⟨row, x, h1, h2, h3, h4⟩
    rcases hk k row x h1 h2 with ⟨rfl, rfl⟩ | ⟨rfl, rfl⟩ | ⟨rfl, rfl⟩ <;>
      match j, hj with
      | 0, _ => first | rfl | (exfalso; revert h3 h4; norm_num)
      | 1, _ => first | rfl | (exfalso; revert h3 h4; norm_num)
      | 2, _ => first | rfl | (exfalso; revert h3 h4; norm_num)

/-- The stale probabilities of a reused set are kept here as well. -/
theorem C77_negation_stale :
    ((lhsSampleSet 1 (.set ({ dim := 2, glob := { values := some [[0, 0]], probabilities := some [1] } }
      : SampleSet ℚ))      cube3 true).toOption.bind fun t => errOf (t.checkNum 1)) = some .lengthNotMatching := by
  decide +kernel

end Ex

end BET
