import Verif.Props.LatinMean
import Verif.Props.PlotP

/-!
# C166: Marginals of Latin hypercubes
-/

set_option autoImplicit false
set_option linter.unusedSectionVars false
set_option linter.unusedSimpArgs false

namespace BET

open Spec

/-! ### Counting samples -/

open scoped Classical in
theorem massOf_equal {A : List ℝ → Prop} [DecidablePred A] {i : Nat} {S : Set ℝ}
    (hA : ∀ row, A row ↔ row.getD i 0 ∈ S) {c : ℝ} :
    ∀ {v : List (List ℝ)} {W : List ℝ}, W.length = v.length → (∀ w ∈ W, w = c) →
      massOf A v W = c * ((v.filter fun row => decide (row.getD i 0 ∈ S)).length : ℝ)
  | [], _, _, _ => by simp [massOf]
  | row :: v, [], h, _ => by simp at h
  | row :: v, w :: W, h, hW => by
    have ih := massOf_equal hA (v := v) (W := W) (by simpa using h)
      (fun x hx => hW x (List.mem_cons_of_mem _ hx))
    have hw := hW w List.mem_cons_self
    subst hw
    unfold massOf at ih ⊢
    rw [List.zipWith_cons_cons, List.sum_cons, ih, List.filter_cons]
    by_cases h1 : row.getD i 0 ∈ S
    · rw [if_pos ((hA row).2 h1), if_pos (by simpa using h1), List.length_cons]
      push_cast
      ring
    · rw [if_neg (fun h2 => h1 ((hA row).1 h2)), if_neg (by simpa using h1), zero_add]

theorem massOf_share {A : List ℝ → Prop} [DecidablePred A] {i : Nat} {S : Set ℝ}
    (hA : ∀ row, A row ↔ row.getD i 0 ∈ S) {v : List (List ℝ)} {W : List ℝ} (hl : W.length = v.length)
    (hW : ∀ w ∈ W, w = 1 / (v.length : ℝ)) : massOf A v W = shareIn i S v := by
  rw [massOf_equal hA hl hW, shareIn, div_mul_eq_mul_div, one_mul]

/-- A cell of the histogram is an interval. -/
theorem inCell_iff {a b : ℝ} {n k : Nat} (hn : 0 < n) (x : ℝ) :
    InCell a b n k x ↔ x ∈ if k + 1 = n then
        Set.Icc (a + (k : ℝ) * ((b - a) / n)) b
      else Set.Ico (a + (k : ℝ) * ((b - a) / n)) (a + ((k : ℝ) + 1) * ((b - a) / n)) := by
  have hn' : (n : ℝ) ≠ 0 := by exact_mod_cast hn.ne'
  unfold InCell
  by_cases h : k + 1 = n
  · rw [if_pos h, Set.mem_Icc]
    have e : a + ((k : ℝ) + 1) * ((b - a) / n) = b := by
      have : ((k : ℝ) + 1) = n := by exact_mod_cast h
      rw [this]
      field_simp
      ring
    rw [e]
    simp only [h, true_and, le_iff_lt_or_eq (a := x) (b := b)]
  · rw [if_neg h, Set.mem_Ico]
    simp only [h, false_and, or_false]

section
variable {size dim : Nat} {obj : InputObj ℝ} {D : Option (List (ℝ × ℝ))} {cube : List (List ℝ)}
  {t : SampleSet ℝ}

/-- **C166.** Marginals of a Latin hypercube. Let `lhs_sample_set` have made a set from a Latin hypercube, and
let the samples of a set, or of the inputs of a discretization, be these, each with the same probability. Then
`calculate_1D_marginal_probs` returns, for every input and every number of bins, probabilities that differ
from one divided by the number of bins (what the uniform distribution on the box gives) by at most two divided
by the number of samples, on any number of processes. -/
theorem C166_marginals {size' : Nat} (hsize : 0 < size) (hsize' : 0 < size') (hs : Space obj dim D)
    (hcube : ∀ row ∈ cube, row.length = dim) (hne : cube ≠ [])
    (hlat : ∀ i, i < dim → LatinIn cube i 0 1)
    (h : lhsSampleSet size obj cube true = .ok t) {v : List (List ℝ)} (hv : t.glob.values = some v)
    {o : PostObj ℝ} {s : SampleSet ℝ} {W : List ℝ} {nb : List Nat} {nbins : NBins}
    (hh : Histo o s v W (boxOf dim D) nb nbins) (hl : W.length = v.length)
    (hW : ∀ w ∈ W, w = 1 / (v.length : ℝ)) :
    ∃ r, calculate1D size' nbins o = .ok r ∧ ∀ i n, i < dim → nb[i]? = some n →
      ∃ m, r.margs[i]? = some m ∧ m.length = n ∧ ∀ x ∈ m, |x - 1 / (n : ℝ)| ≤ 2 / (cube.length : ℝ) := by
  obtain ⟨v', e1, e2, h3⟩ := C165_shares hsize hs hcube hne hlat hh.lo_lt_hi h
  obtain rfl : v' = v := Option.some.inj (e1.symm.trans hv)
  obtain ⟨r, hr, -, -, -, -, hall⟩ := C61_marginal hh hsize'
  have hdim : s.dim = dim := hh.dims.symm.trans (space_box hs)
  refine ⟨r, hr, fun i n hi hn => ?_⟩
  obtain ⟨m, q1, q2, q3⟩ := hall i n (by rw [hdim]; exact hi) hn
  refine ⟨m, q1, q2, fun x hx => ?_⟩
  obtain ⟨k, hk, hkx⟩ := List.getElem_of_mem hx
  have hkn : k < n := q2 ▸ hk
  have hx' : x = massOf (InBin (boxOf dim D) nb i k) v' W := by
    have := q3 k hkn
    rw [List.getElem?_eq_getElem hk, hkx] at this
    exact Option.some.inj this
  have hib : i < (boxOf dim D).length := by rw [space_box hs]; exact hi
  have hab : (boxOf dim D)[i]? = some ((boxOf dim D)[i]) := List.getElem?_eq_getElem hib
  have hlt := hh.lo_lt_hi _ (List.mem_of_getElem? hab)
  set a := ((boxOf dim D)[i]).1 with ha
  set b := ((boxOf dim D)[i]).2 with hb
  have hn0 : 0 < n := by omega
  have hn' : (0 : ℝ) < n := by exact_mod_cast hn0
  have hw : 0 < (b - a) / n := div_pos (sub_pos.mpr hlt) hn'
  have hA : ∀ row, InBin (boxOf dim D) nb i k row ↔ row.getD i 0 ∈ if k + 1 = n then
        Set.Icc (a + (k : ℝ) * ((b - a) / n)) b
      else Set.Ico (a + (k : ℝ) * ((b - a) / n)) (a + ((k : ℝ) + 1) * ((b - a) / n)) := by
    intro row
    rw [← inCell_iff hn0]
    unfold InBin
    rw [List.getD_eq_getElem?_getD, hab, List.getD_eq_getElem?_getD (l := nb), hn]
    rfl
  rw [hx', massOf_share hA hl hW, ← e2]
  have hk1 : ((k : ℝ) + 1) ≤ n := by exact_mod_cast hkn
  have hend : a + (n : ℝ) * ((b - a) / n) = b := by
    field_simp
    ring
  have l1 : a ≤ a + (k : ℝ) * ((b - a) / n) := by
    have : 0 ≤ (k : ℝ) * ((b - a) / n) := by positivity
    linarith
  have l3 : a + ((k : ℝ) + 1) * ((b - a) / n) ≤ b := by
    have := mul_le_mul_of_nonneg_right hk1 hw.le
    linarith
  have l2 : a + (k : ℝ) * ((b - a) / n) ≤ a + ((k : ℝ) + 1) * ((b - a) / n) := by
    linarith
  have hba : b - a ≠ 0 := (sub_pos.mpr hlt).ne'
  by_cases hlast : k + 1 = n
  · rw [if_pos hlast]
    have e : ((k : ℝ) + 1) = n := by exact_mod_cast hlast
    have := (h3 i _ hab _ b l1 (l2.trans l3) le_rfl).2.1
    have e4 : (b - (a + (k : ℝ) * ((b - a) / n))) / (b - a) = 1 / n := by
      have : (k : ℝ) = n - 1 := by linarith
      rw [this]
      field_simp
      ring
    rwa [e4] at this
  · rw [if_neg hlast]
    have := (h3 i _ hab _ _ l1 l2 l3).2.2
    have e4 : (a + ((k : ℝ) + 1) * ((b - a) / n) - (a + (k : ℝ) * ((b - a) / n))) / (b - a) = 1 / n := by
      field_simp
      ring
    rwa [e4] at this

end

namespace Ex

/-- Samples of a rectangle with equal probabilities. -/
noncomputable def equalSet (v : List (List ℝ)) : SampleSet ℝ :=
  { dim := 2, domain := some [(0, 1), (2, 5)],
    glob := { values := some v, probabilities := some [1 / 2, 1 / 2] } }

/-- The hypotheses are met: two samples of a rectangle with equal probabilities, and three bins. -/
example : ∃ t v r, lhsSampleSet 2 (.domain [(0, 1), (2, 5)]) cube2 true = .ok t ∧
    t.glob.values = some v ∧ calculate1D 4 (.int 3) (.set (equalSet v)) = .ok r ∧
    ∃ m : List ℝ, r.margs[1]? = some m ∧ m.length = 3 ∧
      ∀ x ∈ m, |x - 1 / ((3 : Nat) : ℝ)| ≤ 2 / ((2 : Nat) : ℝ) := by
  have hs : Space (K := ℝ) (.domain [(0, 1), (2, 5)]) 2 (some [(0, 1), (2, 5)]) := .domain _
  have hc : ∀ row ∈ cube2, row.length = 2 := by simp [cube2]
  obtain ⟨t, ht, -⟩ := C77_defined_partial (size := 2) (by decide) hs trivial hc true
  obtain ⟨v, h1, -, -, h2, h3, -⟩ := C77_values (by decide) hs hc ht
  have hv := h2 rfl
  obtain ⟨r1, r2, rfl⟩ : ∃ r1 r2, v = [r1, r2] := by
    match v, h1 with
    | [r1, r2], _ => exact ⟨r1, r2, rfl⟩
  obtain ⟨a, b, rfl⟩ : ∃ a b, r1 = [a, b] := by
    match r1, h3 r1 (by simp) with
    | [a, b], _ => exact ⟨a, b, rfl⟩
  obtain ⟨c, d, rfl⟩ : ∃ c d, r2 = [c, d] := by
    match r2, h3 r2 (by simp) with
    | [c, d], _ => exact ⟨c, d, rfl⟩
  have hh : Histo (.set (equalSet [[a, b], [c, d]])) (equalSet [[a, b], [c, d]]) [[a, b], [c, d]]
      [1 / 2, 1 / 2] (boxOf 2 (some [(0, 1), (2, 5)])) [3, 3] (.int 3) :=
    { obj := rfl
      samples := Or.inr ⟨rfl, rfl, rfl, 2, SampleSet.consistent_of_checkNum (size := 1) rfl rfl⟩
      rows := h3
      domain := rfl
      dims := rfl
      lo_lt_hi := by intro ab hab; simp [boxOf] at hab; rcases hab with rfl | rfl <;> norm_num
      bins := Or.inl ⟨rfl, rfl⟩
      numBins := rfl
      pos := by decide }
  obtain ⟨r, hr, hm⟩ := C166_marginals (size' := 4) (by decide) (by decide) hs hc (by simp [cube2])
    cube2_latin ht hv hh rfl (by simp)
  exact ⟨t, _, r, ht, hv, hr, hm 1 3 (by decide) rfl⟩

end Ex

end BET
