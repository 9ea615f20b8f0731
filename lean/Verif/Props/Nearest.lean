import Verif.Props.Divergence
import Verif.Props.Subdivide

/-!
# C170: the solution is the consistent one that is nearest to the volumes
-/

set_option autoImplicit false
set_option linter.unusedSectionVars false
set_option linter.unusedSimpArgs false

namespace BET

open Spec

variable {K : Type} [Field K] [LinearOrder K]

namespace Spec

/-- Probabilities of the input samples that explain the data: each cell `k` of the output probabilities, which `cell`
assigns to the outputs, gets the prescribed probability, and samples without volume get none. -/
structure Explains (cell : List Nat) (m : Nat) (vols p Q : List K) : Prop where
  dominated : List.Forall₂ DominatedPair Q vols
  pushed : ∀ k < m, mass cell Q k = p.getD k 0

end Spec

section order
variable [IsStrictOrderedRing K]

theorem Explains.length {cell : List Nat} {m : Nat} {vols p Q : List K} (h : Explains cell m vols p Q) :
    Q.length = vols.length := h.dominated.length_eq

theorem Explains.at {cell : List Nat} {m : Nat} {vols p Q : List K} (h : Explains cell m vols p Q) {i : Nat}
    (hi : i < vols.length) : DominatedPair (Q.getD i 0) (vols.getD i 0) := by
  have hQ : i < Q.length := by rw [Explains.length h]; exact hi
  have := List.forall₂_iff_get.mp h.dominated
  have := this.2 i hQ hi
  simpa [List.getD, List.getElem?_eq_getElem hQ, List.getElem?_eq_getElem hi] using this

theorem Explains.nonneg {cell : List Nat} {m : Nat} {vols p Q : List K} (h : Explains cell m vols p Q) :
    (∀ x ∈ Q, 0 ≤ x) ∧ ∀ x ∈ vols, 0 ≤ x := by
  constructor
  · intro x hx
    obtain ⟨i, hi, rfl⟩ := List.getElem_of_mem hx
    have := (Explains.at h (i := i) (by rw [← Explains.length h]; exact hi)).1
    simpa [List.getD, List.getElem?_eq_getElem hi] using this
  · intro x hx
    obtain ⟨i, hi, rfl⟩ := List.getElem_of_mem hx
    have := (Explains.at h hi).2.1
    simpa [List.getD, List.getElem?_eq_getElem hi] using this

/-- The solution. -/
def solvedList (c : List Nat) (v p : List K) : List K :=
  List.zipWith (fun k x => if 0 < p.getD k 0 ∧ 0 < mass c v k then p.getD k 0 * x / mass c v k else 0) c v

/-- In a cell without volume there is no probability to explain. -/
theorem Explains.zero {cell : List Nat} {m : Nat} {vols p Q : List K} (h : Explains cell m vols p Q) {k : Nat} (hk : k < m)
    (h0 : ¬ 0 < mass cell vols k) : p.getD k 0 = 0 := by
  have h1 := (mass_subadditive C167_chi.2 cell h.dominated k).1
  rw [h.pushed k hk] at h1
  exact h1.2.2 (le_antisymm (not_lt.mp h0) h1.2.1)

theorem volumes_as_shares {c : List Nat} {v : List K} (hl : c.length = v.length) (hv : ∀ x ∈ v, 0 ≤ x) {m : Nat}
    (hc : ∀ k ∈ c, k < m) :
    v = List.zipWith (fun k s => ((List.range m).map (mass c v)).getD k 0 * s) c (shareIn c v) := by
  apply List.ext_getElem
  · simp [shareIn, hl]
  · intro i h1 h2
    have hi : i < c.length := by omega
    have hk : c[i] < m := hc _ (List.getElem_mem hi)
    simp only [List.getElem_zipWith, shareIn]
    have e : ((List.range m).map (mass c v)).getD c[i] 0 = mass c v c[i] := by
      simp [List.getD_eq_getElem?_getD, hk]
    rw [e]
    split
    · next h => field_simp
    · next h =>
      rw [mul_zero]
      by_contra h3
      exact h (mass_positive hv hi h1 (lt_of_le_of_ne (hv _ (List.getElem_mem h1)) (Ne.symm h3)))

theorem solved_nearest {φ : K → K → K} (h1 : HomogeneousTerm φ) (h2 : SubadditiveTerm DominatedPair φ) {c : List Nat} {v : List K}
    (hl : c.length = v.length) {m : Nat} (hc : ∀ k ∈ c, k < m) {p Q : List K} (hp : ∀ x ∈ p, 0 ≤ x)
    (hQ : Explains c m v p Q) : divergence φ (solvedList c v p) v ≤ divergence φ Q v := by
  have hv := (Explains.nonneg hQ).2
  have hVn : ∀ x ∈ (List.range m).map (mass c v), 0 ≤ x := by
    intro x hx
    obtain ⟨k, -, rfl⟩ := List.mem_map.mp hx
    exact mass_nonneg c v k hv
  have e : divergence φ (solvedList c v p) v =
      ((List.range m).map fun k => φ (p.getD k 0) (((List.range m).map (mass c v)).getD k 0) * mass c (shareIn c v) k).sum := by
    rw [solvedList, solved_eq c v hp, ← divergence_weights h1 (shareIn_length hl).symm (shareIn_nonneg c hv) hc hp hVn]
    conv_lhs => rw [volumes_as_shares hl hv hc]
    rw [← volumes_as_shares hl hv hc]
  rw [e]
  unfold divergence
  rw [← sum_range_mass c (List.zipWith φ Q v) m (by simp [hl, Explains.length hQ]) hc]
  refine List.sum_le_sum fun k hk => ?_
  rw [List.mem_range] at hk
  have h3 := (mass_subadditive h2 c hQ.dominated k).2
  rw [hQ.pushed k hk] at h3
  have e2 : ((List.range m).map (mass c v)).getD k 0 = mass c v k := by simp [List.getD_eq_getElem?_getD, hk]
  rw [e2, mass_shareIn]
  split
  · simpa using h3
  · next h0 =>
    rw [mul_zero]
    have h4 := Explains.zero hQ hk h0
    rw [h4, show mass c v k = 0 from le_antisymm (not_lt.mp h0) (mass_nonneg c v k hv), h2.zero.2] at h3
    exact h3

/-! ## The difference of two explanations -/

theorem sum_by_cells {c : List Nat} {w : List K} (hl : c.length = w.length) {m : Nat} (hc : ∀ k ∈ c, k < m) (L : Nat → K) :
    ((List.range w.length).map fun i => L (c.getD i 0) * w.getD i 0).sum = ((List.range m).map fun k => L k * mass c w k).sum := by
  have e : ((List.range w.length).map fun i => L (c.getD i 0) * w.getD i 0) = List.zipWith (fun k x => L k * x) c w := by
    apply List.ext_getElem
    · simp [hl]
    · intro i h1 h2
      have h3 : i < w.length := by simpa using h1
      have h4 : i < c.length := by omega
      simp [List.getD_eq_getElem?_getD, h3, h4]
  rw [e, ← sum_range_mass c _ m (by simp [hl]) hc]
  congr 1
  refine List.map_congr_left fun k _ => ?_
  rw [mass_map_zipWith, mass_map_mul]

theorem solvedList_length {c : List Nat} {v : List K} (hl : c.length = v.length) (p : List K) :
    (solvedList c v p).length = v.length := by simp [solvedList, hl]

theorem solvedList_at {c : List Nat} {v : List K} (hl : c.length = v.length) (p : List K) {i : Nat} (hi : i < v.length) :
    (solvedList c v p).getD i 0 = if 0 < p.getD (c.getD i 0) 0 ∧ 0 < mass c v (c.getD i 0) then
      p.getD (c.getD i 0) 0 * v.getD i 0 / mass c v (c.getD i 0) else 0 := by
  have h4 : i < c.length := by omega
  simp [solvedList, List.getD_eq_getElem?_getD, hi, h4]

/-- A number for each cell does not distinguish explanations. -/
theorem explains_balance {c : List Nat} {v : List K} (hl : c.length = v.length) {m : Nat} (hc : ∀ k ∈ c, k < m) {p Q : List K}
    (hp : ∀ x ∈ p, 0 ≤ x) (hQ : Explains c m v p Q) (L : Nat → K) :
    ((List.range v.length).map fun i => L (c.getD i 0) * Q.getD i 0).sum =
      ((List.range v.length).map fun i => L (c.getD i 0) * (solvedList c v p).getD i 0).sum := by
  have h1 := sum_by_cells (w := Q) (by rw [Explains.length hQ]; exact hl) hc L
  have h2 := sum_by_cells (w := solvedList c v p) (by rw [solvedList_length hl]; exact hl) hc L
  rw [Explains.length hQ] at h1
  rw [solvedList_length hl] at h2
  rw [h1, h2]
  congr 1
  refine List.map_congr_left fun k hk => ?_
  rw [List.mem_range] at hk
  rw [hQ.pushed k hk, solvedList, mass_solved_all hp]
  split
  · rfl
  · next h0 => rw [Explains.zero hQ hk h0]

/-- Where an explanation has probability, so has the solution; where there is no volume, neither has. -/
theorem explains_pos {c : List Nat} {v : List K} (hl : c.length = v.length) {m : Nat} (hc : ∀ k ∈ c, k < m) {p Q : List K}
    (hQ : Explains c m v p Q) {i : Nat} (hi : i < v.length) (h : 0 < Q.getD i 0) :
    0 < v.getD i 0 ∧ 0 < p.getD (c.getD i 0) 0 ∧ 0 < mass c v (c.getD i 0) := by
  obtain ⟨h1, h2, h3⟩ := Explains.at hQ hi
  have hv0 : 0 < v.getD i 0 := lt_of_le_of_ne h2 fun e => h.ne' (h3 e.symm)
  have hic : i < c.length := by omega
  have hiQ : i < Q.length := by rw [Explains.length hQ]; exact hi
  have e1 : c.getD i 0 = c[i] := by simp [List.getD, List.getElem?_eq_getElem hic]
  have e2 : v.getD i 0 = v[i] := by simp [List.getD, List.getElem?_eq_getElem hi]
  have e3 : Q.getD i 0 = Q[i] := by simp [List.getD, List.getElem?_eq_getElem hiQ]
  refine ⟨hv0, ?_, ?_⟩
  · rw [e1, ← hQ.pushed _ (hc _ (List.getElem_mem hic))]
    exact mass_positive (Explains.nonneg hQ).1 hic hiQ (e3 ▸ h)
  · rw [e1]
    exact mass_positive (Explains.nonneg hQ).2 hic hi (e2 ▸ hv0)

theorem explains_sum {c : List Nat} {v : List K} (hl : c.length = v.length) {m : Nat} (hc : ∀ k ∈ c, k < m) {p Q : List K}
    (hp : ∀ x ∈ p, 0 ≤ x) (hQ : Explains c m v p Q) {φ : K → K → K} {χ : K → K → K → K} (L : Nat → K)
    (h : ∀ i < v.length, φ (Q.getD i 0) (v.getD i 0) = χ (Q.getD i 0) ((solvedList c v p).getD i 0) (v.getD i 0) +
      φ ((solvedList c v p).getD i 0) (v.getD i 0) +
      L (c.getD i 0) * (Q.getD i 0 - (solvedList c v p).getD i 0)) :
    divergence φ Q v = ((List.range v.length).map fun i =>
      χ (Q.getD i 0) ((solvedList c v p).getD i 0) (v.getD i 0)).sum + divergence φ (solvedList c v p) v := by
  rw [divergence_getD (Explains.length hQ) rfl, divergence_getD (solvedList_length hl p) rfl]
  have hb := explains_balance hl hc hp hQ L
  have e : ((List.range v.length).map fun i => φ (Q.getD i 0) (v.getD i 0)) = (List.range v.length).map fun i =>
      (χ (Q.getD i 0) ((solvedList c v p).getD i 0) (v.getD i 0) + φ ((solvedList c v p).getD i 0) (v.getD i 0)) +
      (L (c.getD i 0) * Q.getD i 0 + -1 * (L (c.getD i 0) * (solvedList c v p).getD i 0)) := by
    refine List.map_congr_left fun i hi => ?_
    rw [h i (List.mem_range.mp hi)]
    ring
  rw [e, List.sum_map_add, List.sum_map_add, List.sum_map_add, List.sum_map_mul_left, hb]
  ring

/-! ## The solution of prob -/

theorem fresh_solved {G : Geometry K} (hG : Sound G) {size : Nat} (hsize : 0 < size) {d : Disc K} {n m : Nat}
    {inp out ops : SampleSet K} {y : List (List K)} {vols p : List K} (f : FreshDisc d n m inp out ops y vols p) :
    solution G size d = some (solvedList (y.map (ops.cell G)) vols p) ∧ (y.map (ops.cell G)).length = vols.length ∧
      ∀ k ∈ y.map (ops.cell G), k < m := by
  obtain ⟨hy, hvl, -⟩ := FreshDisc.lengths f
  refine ⟨FreshDisc.solved f hsize, by simp [hy, hvl], fun k hk => ?_⟩
  obtain ⟨x, -, rfl⟩ := List.mem_map.mp hk
  exact SampleSet.cell_lt hG f.hready x

/-- **C170.** Of all probabilities of the input samples that explain the data, those found by `prob` are nearest to the
volumes, for every divergence that is homogeneous and subadditive (chi-squared, Kullback-Leibler, Hellinger, total
variation). -/
theorem C170_nearest {φ : K → K → K} (h1 : HomogeneousTerm φ) (h2 : SubadditiveTerm DominatedPair φ) {G : Geometry K}
    (hG : Sound G) {size : Nat} (hsize : 0 < size) {d : Disc K} {n m : Nat}
    {inp out ops : SampleSet K} {y : List (List K)} {vols p : List K} (f : FreshDisc d n m inp out ops y vols p)
    (hp : ∀ x ∈ p, 0 ≤ x) :
    ∃ P, solution G size d = some P ∧ ∀ Q, Explains (y.map (ops.cell G)) m vols p Q →
      divergence φ P vols ≤ divergence φ Q vols := by
  obtain ⟨e, hl, hc⟩ := fresh_solved hG hsize f
  exact ⟨_, e, fun Q hQ => solved_nearest h1 h2 hl hc hp hQ⟩

/-- **C170.** The solution explains the data, if every cell of positive probability is reached by a sample of positive
volume; and if anything explains the data, every such cell is reached. -/
theorem C170_explains {G : Geometry K}
    (hG : Sound G) {size : Nat} (hsize : 0 < size) {d : Disc K} {n m : Nat}
    {inp out ops : SampleSet K} {y : List (List K)} {vols p : List K} (f : FreshDisc d n m inp out ops y vols p)
    (hp : ∀ x ∈ p, 0 ≤ x) (hv : ∀ x ∈ vols, 0 ≤ x) :
    ∃ P, solution G size d = some P ∧
      (Explains (y.map (ops.cell G)) m vols p P ↔
        ∀ k < m, 0 < p.getD k 0 → 0 < mass (y.map (ops.cell G)) vols k) ∧
      ((∃ Q, Explains (y.map (ops.cell G)) m vols p Q) →
        ∀ k < m, 0 < p.getD k 0 → 0 < mass (y.map (ops.cell G)) vols k) := by
  obtain ⟨e, hl, hc⟩ := fresh_solved hG hsize f
  have key : ∀ Q, Explains (y.map (ops.cell G)) m vols p Q →
      ∀ k < m, 0 < p.getD k 0 → 0 < mass (y.map (ops.cell G)) vols k := by
    intro Q hQ k hk h0
    by_contra h
    exact h0.ne' (Explains.zero hQ hk h)
  refine ⟨_, e, ⟨key _, fun h => ⟨?_, fun k hk => ?_⟩⟩, fun ⟨Q, hQ⟩ => key Q hQ⟩
  · rw [List.forall₂_iff_get]
    refine ⟨solvedList_length hl p, fun i h1 h2 => ?_⟩
    have hic : i < (y.map (ops.cell G)).length := by omega
    simp only [List.get_eq_getElem, solvedList, List.getElem_zipWith]
    have h3 := hv _ (List.getElem_mem h2)
    refine ⟨?_, h3, fun h0 => ?_⟩
    · split
      · next h5 => exact div_nonneg (mul_nonneg h5.1.le h3) h5.2.le
      · exact le_rfl
    · rw [h0]
      simp
  · rw [solvedList, mass_solved_all hp]
    split
    · rfl
    · next h0 =>
      by_contra h5
      exact h0 (h k hk (lt_of_le_of_ne (getD_nonneg hp k) h5))

/-- **C170.** How much farther another explanation is, in the chi-squared divergence: by the sum of the squares of the
differences from the solution, each divided by the volume. So the solution is the only nearest explanation. -/
theorem C170_chi {G : Geometry K}
    (hG : Sound G) {size : Nat} (hsize : 0 < size) {d : Disc K} {n m : Nat}
    {inp out ops : SampleSet K} {y : List (List K)} {vols p : List K} (f : FreshDisc d n m inp out ops y vols p)
    (hp : ∀ x ∈ p, 0 ≤ x) :
    ∃ P, solution G size d = some P ∧ ∀ Q, Explains (y.map (ops.cell G)) m vols p Q →
      divergence chiTerm Q vols = ((List.range n).map fun i => (Q.getD i 0 - P.getD i 0) ^ 2 / vols.getD i 0).sum +
        divergence chiTerm P vols ∧
      (divergence chiTerm Q vols ≤ divergence chiTerm P vols → Q = P) := by
  obtain ⟨e, hl, hc⟩ := fresh_solved hG hsize f
  obtain ⟨-, hn, -⟩ := FreshDisc.lengths f
  subst hn
  refine ⟨_, e, fun Q hQ => ?_⟩
  set c := y.map (ops.cell G) with hcdef
  have hz : ∀ i < vols.length, vols.getD i 0 = 0 → Q.getD i 0 = 0 ∧ (solvedList c vols p).getD i 0 = 0 := by
    intro i hi h0
    refine ⟨(Explains.at hQ hi).2.2 h0, ?_⟩
    rw [solvedList_at hl p hi, h0]
    simp
  have hsum : divergence chiTerm Q vols = _ := explains_sum hl hc hp hQ (φ := chiTerm)
    (χ := fun a b v => (a - b) ^ 2 / v) (L := fun k => 2 * (p.getD k 0 / mass c vols k - 1)) (by
    intro i hi
    rcases eq_or_ne (vols.getD i 0) 0 with h0 | h0
    · obtain ⟨h1, h2⟩ := hz i hi h0
      rw [h0, h1, h2]
      simp [chiTerm]
    · have hvpos : 0 < vols.getD i 0 := lt_of_le_of_ne (Explains.at hQ hi).2.1 (Ne.symm h0)
      have hic : i < c.length := by omega
      have hV : 0 < mass c vols (c.getD i 0) := by
        have e1 : c.getD i 0 = c[i] := by simp [List.getD, List.getElem?_eq_getElem hic]
        have e2 : vols.getD i 0 = vols[i] := by simp [List.getD, List.getElem?_eq_getElem hi]
        rw [e1]
        exact mass_positive (Explains.nonneg hQ).2 hic hi (e2 ▸ hvpos)
      have hP : (solvedList c vols p).getD i 0 = p.getD (c.getD i 0) 0 * vols.getD i 0 / mass c vols (c.getD i 0) := by
        rw [solvedList_at hl p hi]
        split
        · rfl
        · next h5 =>
          have : p.getD (c.getD i 0) 0 = 0 := by
            by_contra h6
            exact h5 ⟨lt_of_le_of_ne (getD_nonneg hp _) (Ne.symm h6), hV⟩
          rw [this]
          simp
      rw [hP]
      simp only [chiTerm]
      field_simp
      ring)
  refine ⟨hsum, fun hle => ?_⟩
  rw [hsum] at hle
  have hnn : ∀ x ∈ (List.range vols.length).map fun i =>
      (Q.getD i 0 - (solvedList c vols p).getD i 0) ^ 2 / vols.getD i 0, 0 ≤ x := by
    intro x hx
    obtain ⟨i, hi, rfl⟩ := List.mem_map.mp hx
    exact div_nonneg (sq_nonneg _) (Explains.at hQ (List.mem_range.mp hi)).2.1
  have h0 : ((List.range vols.length).map fun i =>
      (Q.getD i 0 - (solvedList c vols p).getD i 0) ^ 2 / vols.getD i 0).sum = 0 :=
    le_antisymm (by linarith) (List.sum_nonneg hnn)
  apply List.ext_getElem
  · rw [Explains.length hQ, solvedList_length hl]
  · intro i h1 h2
    have hi : i < vols.length := by rw [← Explains.length hQ]; exact h1
    have h3 := List.all_zero_of_le_zero_le_of_sum_eq_zero (fun x hx => hnn x hx) h0
      (List.mem_map.mpr ⟨i, List.mem_range.mpr hi, rfl⟩)
    have e1 : Q.getD i 0 = Q[i] := by simp [List.getD, List.getElem?_eq_getElem h1]
    have e2 : (solvedList c vols p).getD i 0 = (solvedList c vols p)[i] := by
      simp [List.getD, List.getElem?_eq_getElem h2]
    rw [← e1, ← e2]
    rcases div_eq_zero_iff.mp h3 with h4 | h4
    · exact sub_eq_zero.mp (pow_eq_zero_iff (two_ne_zero)|>.mp h4)
    · obtain ⟨h5, h6⟩ := hz i hi h4
      rw [h5, h6]

/-! ## Emulated points -/

/-- **C170.** Of all probabilities of the emulated points that explain the data, those found by
`prob_on_emulated_samples` are nearest to equal weights. -/
theorem C170_emulated {φ : K → K → K} (h1 : HomogeneousTerm φ) (h2 : SubadditiveTerm DominatedPair φ) {G : Geometry K}
    (hG : Sound G) {size : Nat} (hsize : 0 < size) {d : Disc K} {n m k : Nat}
    {inp out ops em : SampleSet K} {y z : List (List K)} {p : List K}
    (f : FreshEm d n m k inp out ops em y z p) (hp : ∀ x ∈ p, 0 ≤ x) {cell : List Nat}
    (hcell : List.Forall₂ (fun x j => ∃ w, y[inp.cell G x]? = some w ∧ ops.cell G w = j) z cell) :
    ∃ P, emulatedSolution G size d = some P ∧ ∀ Q, Explains cell m (List.replicate k 1) p Q →
      divergence φ P (List.replicate k 1) ≤ divergence φ Q (List.replicate k 1) := by
  have hz : z.length = k := f.hemC.1.values z f.hemVals
  set c : List K → Nat := fun x => (y.map (ops.cell G)).getD (inp.cell G x) 0 with hcdef
  have e0 : cell = z.map c := by
    have : List.Forall₂ (fun x j => c x = j) z cell := by
      refine hcell.imp ?_
      rintro x j ⟨w, h3, h4⟩
      simp [hcdef, List.getD_eq_getElem?_getD, h3, h4]
    rw [← List.forall₂_eq_eq_eq, List.forall₂_map_right_iff]
    exact this.flip.imp fun _ _ h => h.symm
  subst e0
  have hc : ∀ j ∈ z.map c, j < m := by
    intro j hj
    obtain ⟨x, -, rfl⟩ := List.mem_map.mp hj
    have h1 : inp.cell G x < (y.map (ops.cell G)).length := by
      rw [List.length_map, f.houtputC.1.values y f.houtVals]; exact SampleSet.cell_lt hG f.hready x
    simp only [hcdef, List.getD_eq_getElem?_getD, List.getElem?_eq_getElem h1, Option.getD_some, List.getElem_map]
    exact SampleSet.cell_lt hG f.hopsReady _
  have e1 : ((z.map c).map fun _ => (1 : K)) = List.replicate k 1 := by
    rw [List.map_const', List.length_map, hz]
  refine ⟨_, FreshEm.solved hG f hsize, fun Q hQ => ?_⟩
  have e2 := emulated_as_solved (z := z) c p
  rw [e1] at e2
  rw [show (z.map fun x => _) = _ from e2]
  exact solved_nearest h1 h2 (by simp [hz]) hc hp hQ

/-- Sums that do not increase for non-negative pairs do not for dominated pairs. -/
theorem C170_dominated {φ : K → K → K} (h : SubadditiveTerm NonnegPair φ) : SubadditiveTerm DominatedPair φ :=
  ⟨⟨C167_chi.2.zero.1, h.zero.2⟩, fun a b a' b' h1 h2 => ⟨(C167_chi.2.add a b a' b' h1 h2).1,
    (h.add a b a' b' ⟨h1.1, h1.2.1⟩ ⟨h2.1, h2.2.1⟩).2⟩⟩

end order

/-! ## Kullback-Leibler -/

theorem klTerm_ge_sub {a b : ℝ} (h : DominatedPair a b) : a - b ≤ klTerm a b ∧ (klTerm a b = a - b → a = b) := by
  have h1 := klTerm_ge h one_pos
  simp only [Real.log_one, mul_zero, zero_add, mul_one] at h1
  refine ⟨h1, fun he => ?_⟩
  obtain ⟨ha, hb, hab⟩ := h
  rcases ha.eq_or_lt with rfl | ha
  · simp [klTerm] at he
    linarith
  · have hb' : 0 < b := lt_of_le_of_ne hb fun e => ha.ne' (hab e.symm)
    by_contra hne
    have hq : b / a ≠ 1 := fun e => hne ((div_eq_one_iff_eq ha.ne').mp e).symm
    have h2 := Real.log_lt_sub_one_of_pos (div_pos hb' ha) hq
    have h3 : Real.log (a / b) = - Real.log (b / a) := by rw [← Real.log_inv, inv_div]
    rw [klTerm, h3] at he
    have h4 : a * (b / a) = b := by field_simp
    nlinarith

/-- **C170.** How much farther another explanation is, in the Kullback-Leibler divergence: by its divergence from the
solution. So the solution is the only nearest explanation. -/
theorem C170_kl {G : Geometry ℝ}
    (hG : Sound G) {size : Nat} (hsize : 0 < size) {d : Disc ℝ} {n m : Nat}
    {inp out ops : SampleSet ℝ} {y : List (List ℝ)} {vols p : List ℝ} (f : FreshDisc d n m inp out ops y vols p)
    (hp : ∀ x ∈ p, 0 ≤ x) :
    ∃ P, solution G size d = some P ∧ ∀ Q, Explains (y.map (ops.cell G)) m vols p Q →
      divergence klTerm Q vols = divergence klTerm Q P + divergence klTerm P vols ∧
      (divergence klTerm Q vols ≤ divergence klTerm P vols → Q = P) := by
  obtain ⟨e, hl, hc⟩ := fresh_solved hG hsize f
  refine ⟨_, e, fun Q hQ => ?_⟩
  set c := y.map (ops.cell G) with hcdef
  have hPpos : ∀ i < vols.length, 0 < Q.getD i 0 → (solvedList c vols p).getD i 0 =
      p.getD (c.getD i 0) 0 * vols.getD i 0 / mass c vols (c.getD i 0) ∧ 0 < (solvedList c vols p).getD i 0 := by
    intro i hi h
    obtain ⟨h1, h2, h3⟩ := explains_pos hl hc hQ hi h
    have h4 : (solvedList c vols p).getD i 0 = p.getD (c.getD i 0) 0 * vols.getD i 0 / mass c vols (c.getD i 0) := by
      rw [solvedList_at hl p hi, if_pos ⟨h2, h3⟩]
    exact ⟨h4, h4 ▸ div_pos (mul_pos h2 h1) h3⟩
  have hPn : ∀ i < vols.length, 0 ≤ (solvedList c vols p).getD i 0 := by
    intro i hi
    rw [solvedList_at hl p hi]
    split
    · next h5 => exact div_nonneg (mul_nonneg h5.1.le (Explains.at hQ hi).2.1) h5.2.le
    · exact le_rfl
  have hsum : divergence klTerm Q vols = _ := explains_sum hl hc hp hQ (φ := klTerm)
    (χ := fun a b _ => klTerm a b) (L := fun k => Real.log (p.getD k 0 / mass c vols k)) (by
    intro i hi
    have hself : klTerm ((solvedList c vols p).getD i 0) (vols.getD i 0) =
        (solvedList c vols p).getD i 0 * Real.log (p.getD (c.getD i 0) 0 / mass c vols (c.getD i 0)) := by
      rcases (hPn i hi).eq_or_lt with h0 | h0
      · rw [← h0]; simp [klTerm]
      · have h1 := solvedList_at hl p hi
        rw [klTerm]
        congr 2
        split at h1
        · next h5 =>
          have h6 : vols.getD i 0 ≠ 0 := by
            intro h7
            rw [h7] at h1
            simp at h1
            rw [List.getD_eq_getElem?_getD, h1] at h0
            exact lt_irrefl _ h0
          rw [h1]
          have := h5.2.ne'
          field_simp
        · rw [h1] at h0
          exact absurd h0 (lt_irrefl _)
    rw [hself]
    rcases ((Explains.at hQ hi).1).eq_or_lt with h0 | h0
    · rw [← h0]
      simp [klTerm]
      ring
    · obtain ⟨h1, h2⟩ := hPpos i hi h0
      obtain ⟨h3, h4, h5⟩ := explains_pos hl hc hQ hi h0
      have h6 : Real.log (Q.getD i 0 / vols.getD i 0) = Real.log (Q.getD i 0 / (solvedList c vols p).getD i 0) +
          Real.log (p.getD (c.getD i 0) 0 / mass c vols (c.getD i 0)) := by
        rw [← Real.log_mul (div_pos h0 h2).ne' (div_pos h4 h5).ne']
        congr 1
        rw [h1]
        field_simp
      simp only [klTerm]
      rw [h6]
      ring)
  have hQP : divergence klTerm Q (solvedList c vols p) = ((List.range vols.length).map fun i =>
      klTerm (Q.getD i 0) ((solvedList c vols p).getD i 0)).sum :=
    divergence_getD (Explains.length hQ) (solvedList_length hl p)
  have hsum' : divergence klTerm Q vols = divergence klTerm Q (solvedList c vols p) +
      divergence klTerm (solvedList c vols p) vols := by rw [hsum, hQP]
  refine ⟨hsum', fun hle => ?_⟩
  have hb := explains_balance hl hc hp hQ fun _ => 1
  simp only [one_mul] at hb
  have hdom : ∀ i < vols.length, DominatedPair (Q.getD i 0) ((solvedList c vols p).getD i 0) := by
    intro i hi
    refine ⟨(Explains.at hQ hi).1, hPn i hi, fun h0 => ?_⟩
    by_contra h1
    exact (hPpos i hi (lt_of_le_of_ne (Explains.at hQ hi).1 (Ne.symm h1))).2.ne' h0
  have hnn : ∀ x ∈ (List.range vols.length).map fun i =>
      klTerm (Q.getD i 0) ((solvedList c vols p).getD i 0) + -1 * (Q.getD i 0) + (solvedList c vols p).getD i 0, 0 ≤ x := by
    intro x hx
    obtain ⟨i, hi, rfl⟩ := List.mem_map.mp hx
    have := (klTerm_ge_sub (hdom i (List.mem_range.mp hi))).1
    linarith
  have h0 : ((List.range vols.length).map fun i =>
      klTerm (Q.getD i 0) ((solvedList c vols p).getD i 0) + -1 * (Q.getD i 0) + (solvedList c vols p).getD i 0).sum = 0 := by
    refine le_antisymm ?_ (List.sum_nonneg hnn)
    rw [List.sum_map_add, List.sum_map_add, List.sum_map_mul_left, hb, ← hQP]
    linarith
  apply List.ext_getElem
  · rw [Explains.length hQ, solvedList_length hl]
  · intro i h1 h2
    have hi : i < vols.length := by rw [← Explains.length hQ]; exact h1
    have h3 := List.all_zero_of_le_zero_le_of_sum_eq_zero (fun x hx => hnn x hx) h0
      (List.mem_map.mpr ⟨i, List.mem_range.mpr hi, rfl⟩)
    have e1 : Q.getD i 0 = Q[i] := by simp [List.getD, List.getElem?_eq_getElem h1]
    have e2 : (solvedList c vols p).getD i 0 = (solvedList c vols p)[i] := by
      simp [List.getD, List.getElem?_eq_getElem h2]
    rw [← e1, ← e2]
    exact (klTerm_ge_sub (hdom i hi)).2 (by linarith)

end BET

namespace BET.Ex

open BET.Spec

/-- Another explanation of the data of C01: within the cells the probability is moved. -/
theorem other_explains : Explains (K := ℚ) (([[0], [1/10], [1], [11/10]] : List (List ℚ)).map
    (SampleSet.cell G { dim := 1, glob := { values := some [[0], [1], [7]], probabilities := some [1/2, 1/2, 0] } })) 3
    [1/8, 3/8, 1/4, 1/4] [1/2, 1/2, 0] [1/4, 1/4, 1/2, 0] :=
  ⟨by refine .cons ?_ (.cons ?_ (.cons ?_ (.cons ?_ .nil))) <;> norm_num [DominatedPair], by decide +kernel⟩

/-- The solution, and how much nearer it is. -/
example : ∃ P, solution G 2 (probDiscWith [1/8, 3/8, 1/4, 1/4] [1/2, 1/2, 0]) = some P ∧
    divergence (K := ℚ) tvTerm P [1/8, 3/8, 1/4, 1/4] ≤ divergence (K := ℚ) tvTerm [1/4, 1/4, 1/2, 0] [1/8, 3/8, 1/4, 1/4] := by
  obtain ⟨P, h1, h2⟩ := C170_nearest C167_tv.1 (C170_dominated C167_tv.2) sound_G (size := 2) (by decide)
    (probDiscWith_fresh (1/8) (3/8) (1/4) (1/4) (1/2) (1/2) 0) (by decide +kernel)
  exact ⟨P, h1, h2 _ other_explains⟩

example : solution G 2 (probDiscWith [1/8, 3/8, 1/4, 1/4] [1/2, 1/2, 0]) = some [1/8, 3/8, 1/4, 1/4] ∧
    divergence (K := ℚ) chiTerm [1/4, 1/4, 1/2, 0] [1/8, 3/8, 1/4, (1/4 : ℚ)] = 2/3 := by decide +kernel

/-- With other volumes. -/
example : ∃ P, solution G 2 (probDiscWith [1/8, 3/8, 1/4, 1/4] [1/4, 3/4, 0]) = some P ∧
    ∃ Q, Q ≠ P ∧ divergence (K := ℚ) chiTerm P [1/8, 3/8, 1/4, 1/4] < divergence (K := ℚ) chiTerm Q [1/8, 3/8, 1/4, 1/4] := by
  obtain ⟨P, h1, h2⟩ := C170_chi sound_G (size := 2) (by decide)
    (probDiscWith_fresh (1/8) (3/8) (1/4) (1/4) (1/4) (3/4) 0) (by decide +kernel)
  have hE : Explains (K := ℚ) (([[0], [1/10], [1], [11/10]] : List (List ℚ)).map
      (SampleSet.cell G { dim := 1, glob := { values := some [[0], [1], [7]], probabilities := some [1/4, 3/4, 0] } })) 3
      [1/8, 3/8, 1/4, 1/4] [1/4, 3/4, 0] [1/4, 0, 3/4, 0] :=
    ⟨by refine .cons ?_ (.cons ?_ (.cons ?_ (.cons ?_ .nil))) <;> norm_num [DominatedPair], by decide +kernel⟩
  have hP : solution G 2 (probDiscWith [1/8, 3/8, 1/4, 1/4] [1/4, 3/4, 0]) = some [1/16, 3/16, 3/8, 3/8] := by
    decide +kernel
  obtain rfl := Option.some.inj (hP.symm.trans h1)
  have hne : ([1/4, 0, 3/4, 0] : List ℚ) ≠ [1/16, 3/16, 3/8, 3/8] := by decide +kernel
  exact ⟨_, h1, _, hne, not_le.mp fun h => hne ((h2 _ hE).2 h)⟩

/-- Emulated points: the cells of the points of C04. -/
example : ∃ P, emulatedSolution G 2 (emDiscWith [1/2, 1/2, 0]) = some P ∧
    divergence (K := ℚ) chiTerm P (List.replicate 5 1) ≤ divergence (K := ℚ) chiTerm [1/2, 0, 0, 1/2, 0] (List.replicate 5 1) := by
  obtain ⟨P, h1, h2⟩ := C170_emulated C167_chi.1 C167_chi.2 sound_G (size := 2) (by decide)
    (emDiscWith_fresh (1/2) (1/2) 0) (by decide +kernel) (cell := [0, 0, 1, 1, 1])
    (.cons ⟨[0], by decide +kernel⟩ (.cons ⟨[0], by decide +kernel⟩ (.cons ⟨[1], by decide +kernel⟩
      (.cons ⟨[1], by decide +kernel⟩ (.cons ⟨[11/10], by decide +kernel⟩ .nil)))))
  exact ⟨P, h1, h2 _ ⟨by
    refine .cons ?_ (.cons ?_ (.cons ?_ (.cons ?_ (.cons ?_ .nil)))) <;> norm_num [DominatedPair],
    by decide +kernel⟩⟩

end BET.Ex
