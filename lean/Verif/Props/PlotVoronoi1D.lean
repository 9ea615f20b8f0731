import Verif.Model.PlotVoronoi
import Verif.Props.Voronoi1D
import Verif.Props.Choose

/-!
# C95: plots of one-dimensional Voronoi cells
-/

set_option autoImplicit false
set_option linter.unusedSectionVars false
set_option linter.unusedSimpArgs false

namespace BET

open Spec

section
variable {K : Type} [Field K] [LinearOrder K] [IsStrictOrderedRing K]

/-! ## Specification -/

/-- A one-dimensional set with the samples `xs` in `[a, b]` and their probabilities `ps`. -/
structure Spec.OnLine (a b : K) (xs ps : List K) (s : SampleSet K) : Prop where
  dim : s.dim = 1
  domain : s.domain = some [(a, b)]
  values : s.glob.values = some (xs.map fun x => [x])
  probs : s.glob.probabilities = some ps
  length : ps.length = xs.length
  nonempty : xs ≠ []
  distinct : xs.Nodup
  inside : ∀ x ∈ xs, a ≤ x ∧ x ≤ b
  sides : a < b

/-- Line `k` of the plot goes from `l` to `r` at height `h`. -/
def Spec.Line (p : Plot1D K) (k : Nat) (l r h : K) : Prop :=
  p.mins[k]? = some l ∧ p.maxes[k]? = some r ∧ p.heights[k]? = some h

/-- The plot shows the density: for every sample there is a line over its cell, and its height is the
probability of the sample divided by the length of the cell; there are no other lines. -/
def Spec.ShowsDensity (a b : K) (xs ps : List K) (p : Plot1D K) : Prop :=
  p.mins.length = xs.length ∧ p.maxes.length = xs.length ∧ p.heights.length = xs.length ∧
  ∀ (i : Nat) (x q : K), xs[i]? = some x → ps[i]? = some q →
    ∃ (k : Nat) (l r : K), l < r ∧ nearestCell xs a b x = Set.Icc l r ∧ Line p k l r (q / (r - l))

/-! ## Lemmas -/

theorem midEnds_eq (sorted : List K) :
    midEnds sorted = List.zipWith (fun x y => (x + y) * (1 / 2)) sorted.dropLast sorted.tail := by
  unfold midEnds
  rw [List.zipWith_comm]
  congr 1
  funext x y
  ring

theorem edges_mins (a b : K) (sorted : List K) (h : sorted ≠ []) {k : Nat} (hk : k < sorted.length) :
    (a :: midEnds sorted)[k]? = (edges a b sorted)[k]? := by
  have := List.length_pos_iff.mpr h
  unfold edges
  rw [midEnds_eq, List.getElem?_append_left (by simp; omega)]

theorem edges_maxes (a b : K) (sorted : List K) (k : Nat) :
    (midEnds sorted ++ [b])[k]? = (edges a b sorted)[k + 1]? := by
  unfold edges
  rw [midEnds_eq, List.cons_append, List.getElem?_cons_succ]

theorem length_midEnds (sorted : List K) : (midEnds sorted).length = sorted.length - 1 := by
  simp [midEnds]

/-- What is known about the sorting of the samples. -/
theorem argsort_facts {argsort : List K → List Nat} (hA : IsArgsort argsort) {xs : List K}
    (hnd : xs.Nodup) :
    (argsort xs).Nodup ∧ (argsort xs).length = xs.length ∧ (∀ i ∈ argsort xs, i < xs.length) ∧
      ((argsort xs).map fun i => xs.getD i 0).Perm xs ∧
      ((argsort xs).map fun i => xs.getD i 0).Pairwise (· < ·) := by
  obtain ⟨hperm, hsort⟩ := hA xs
  have hsp : ((argsort xs).map fun i => xs.getD i 0).Perm xs := by
    refine (hperm.map _).trans ?_
    have : (List.range xs.length).map (fun i => xs.getD i 0) = xs := by
      apply List.ext_getElem
      · simp
      · intro i h1 h2; simp [List.getD_eq_getElem?_getD, List.getElem?_eq_getElem h2]
    rw [this]
  refine ⟨hperm.nodup_iff.mpr List.nodup_range, by rw [hperm.length_eq]; simp,
    fun i hi => List.mem_range.mp (hperm.mem_iff.mp hi), hsp, ?_⟩
  exact (hsort.and (hsp.nodup_iff.mpr hnd)).imp fun h => lt_of_le_of_ne h.1 h.2

/-- The cells have positive lengths. -/
theorem nearestCell_pos {a b : K} (hab : a < b) (sorted : List K) (hs : sorted.Pairwise (· < ·))
    (hin : ∀ x ∈ sorted, a ≤ x ∧ x ≤ b) (p : Nat) (hp : p < sorted.length) {l r : K}
    (hl : (edges a b sorted)[p]? = some l) (hr : (edges a b sorted)[p + 1]? = some r) : l < r := by
  have hlt : ∀ i j (hi : i < sorted.length) (hj : j < sorted.length), i < j → sorted[i] < sorted[j] :=
    fun i j hi hj h => List.pairwise_iff_getElem.mp hs i j hi hj h
  have hinp : ∀ i (hi : i < sorted.length), a ≤ sorted[i] ∧ sorted[i] ≤ b := fun i hi =>
    hin _ (List.getElem_mem hi)
  have hne : sorted ≠ [] := by rintro rfl; simp at hp
  have hl' : l = a ∧ p = 0 ∨ ∃ q, ∃ (h : q + 1 < sorted.length), p = q + 1 ∧ l < sorted[q + 1] := by
    cases p with
    | zero =>
      rw [edges_zero] at hl
      exact .inl ⟨(Option.some.inj hl).symm, rfl⟩
    | succ q =>
      rw [edges_mid a b sorted q hp] at hl
      refine .inr ⟨q, hp, rfl, ?_⟩
      have := hlt q (q + 1) (by omega) hp (by omega)
      rw [← Option.some.inj hl]
      linarith
  have hr' : r = b ∧ p + 1 = sorted.length ∨ sorted[p] < r := by
    by_cases hq : p + 1 < sorted.length
    · rw [edges_mid a b sorted p hq] at hr
      have := hlt p (p + 1) (by omega) hq (by omega)
      refine .inr ?_
      rw [← Option.some.inj hr]
      linarith
    · have e : p + 1 = sorted.length := by omega
      rw [e, edges_last a b sorted hne] at hr
      exact .inl ⟨(Option.some.inj hr).symm, e⟩
  have hip := hinp p hp
  rcases hl' with ⟨rfl, h0⟩ | ⟨q, hq, rfl, h0⟩ <;> rcases hr' with ⟨rfl, h1⟩ | h1
  · exact hab
  · linarith
  · linarith
  · linarith

/-! ## C95 -/

variable {argsort : List K → List Nat} {a b : K} {xs ps : List K} {s : SampleSet K}

/-- The smallest sample. -/
theorem first_of_argsort (hA : IsArgsort argsort) (h : OnLine a b xs ps s) :
    ∃ (m : Nat) (p : K), (argsort xs)[0]? = some m ∧ ps[m]? = some p ∧
      ∃ x, xs[m]? = some x ∧ ∀ y ∈ xs, x ≤ y := by
  obtain ⟨hn, hlen, hlt, hsp, hs⟩ := argsort_facts hA h.distinct
  have h0 : 0 < xs.length := List.length_pos_iff.mpr h.nonempty
  have hm0 : 0 < (argsort xs).length := by omega
  have hm := hlt _ (List.getElem_mem hm0)
  have hmp : (argsort xs)[0] < ps.length := by rw [h.length]; exact hm
  refine ⟨_, _, List.getElem?_eq_getElem hm0, List.getElem?_eq_getElem hmp, _,
    List.getElem?_eq_getElem hm, fun y hy => ?_⟩
  obtain ⟨j, hj, rfl⟩ := List.mem_iff_getElem.mp (hsp.mem_iff.mpr hy)
  have e : ((argsort xs).map fun i => xs.getD i 0)[0]'(by simpa using hm0) = xs[(argsort xs)[0]] := by
    simp [List.getD_eq_getElem?_getD, List.getElem?_eq_getElem hm]
  rw [← e]
  rcases Nat.eq_zero_or_pos j with rfl | hj0
  · exact le_refl _
  · exact (List.pairwise_iff_getElem.mp hs 0 j (by simpa using hm0) hj hj0).le

/-- **C95** The lines. With at least one sample, distinct samples in the domain and their probabilities,
`plot_1D_voronoi` draws one line for each sample, over exactly the points of the domain that are nearest to
it, and does not change the set. The height of every line is the probability of the *smallest* sample
divided by the length of the line. -/
theorem C95_lines (hA : IsArgsort argsort) (h : OnLine a b xs ps s) (hr : s.referenceValue = none)
    (filename ext : String) :
    ∃ pl m p, plot1DVoronoi argsort (.set s) true none none filename ext = .ok (s, pl) ∧
      pl.file = filename ++ ext ∧ (argsort xs)[0]? = some m ∧ ps[m]? = some p ∧
      pl.mins.length = xs.length ∧ pl.maxes.length = xs.length ∧ pl.heights.length = xs.length ∧
      (∀ (i : Nat) (x : K), xs[i]? = some x → ∃ (k : Nat) (l r : K), l < r ∧
        nearestCell xs a b x = Set.Icc l r ∧ Line pl k l r (p / (r - l))) ∧
      (∀ (k : Nat), k < xs.length → ∃ (l r : K), l < r ∧ Line pl k l r (p / (r - l))) ∧
      List.zipWith (fun x y => y - x) pl.mins pl.maxes =
        cellLengths a b ((argsort xs).map fun i => xs.getD i 0) ∧
      pl.heights = List.zipWith (fun x y => p / (y - x)) pl.mins pl.maxes := by
  obtain ⟨m, p, hm, hp, -⟩ := first_of_argsort hA h
  obtain ⟨hn, hlen, hlt, hsp, hs⟩ := argsort_facts hA h.distinct
  set sorted := (argsort xs).map fun i => xs.getD i 0 with hsorted
  have hslen : sorted.length = xs.length := hsp.length_eq
  have hne : sorted ≠ [] := by
    intro e; rw [e] at hslen
    exact h.nonempty (List.length_eq_zero_iff.mp hslen.symm)
  have hpos : 0 < sorted.length := List.length_pos_iff.mpr hne
  have hin' : ∀ x ∈ sorted, a ≤ x ∧ x ≤ b := fun x hx => h.inside x (hsp.mem_iff.mp hx)
  have hml : (a :: midEnds sorted).length = xs.length := by
    rw [List.length_cons, length_midEnds]; omega
  have hMl : (midEnds sorted ++ [b]).length = xs.length := by
    rw [List.length_append, length_midEnds]; simp; omega
  have hcol : (xs.map fun x => [x]).map (fun row => row.getD 0 0) = xs := by
    rw [List.map_map]; simp [Function.comp_def]
  have hline : ∀ k (hk : k < sorted.length), ∃ l r, l < r ∧ (a :: midEnds sorted)[k]? = some l ∧
      (midEnds sorted ++ [b])[k]? = some r ∧ nearestCell sorted a b sorted[k] = Set.Icc l r := by
    intro k hk
    obtain ⟨l, r, h1, h2, -, h4⟩ := nearestCell_sorted a b sorted hs hin' k hk
    refine ⟨l, r, nearestCell_pos h.sides sorted hs hin' k hk h1 h2, ?_, ?_, h4⟩
    · rw [edges_mins a b sorted hne hk, h1]
    · rw [edges_maxes a b, h2]
  have hzero : (0 : K) ∉ List.zipWith (fun x y => y - x) (a :: midEnds sorted) (midEnds sorted ++ [b]) := by
    intro h0
    obtain ⟨k, hk, e⟩ := List.mem_iff_getElem.mp h0
    have hk' : k < sorted.length := by
      rw [List.length_zipWith, hml, hMl] at hk; omega
    obtain ⟨l, r, hlr, h1, h2, -⟩ := hline k hk'
    have : (List.zipWith (fun x y => y - x) (a :: midEnds sorted) (midEnds sorted ++ [b]))[k]? =
      some (r - l) := by rw [List.getElem?_zipWith, h1, h2]
    rw [List.getElem?_eq_getElem hk, e] at this
    have := Option.some.inj this
    linarith
  have hheights : ∀ k (hk : k < sorted.length) l r, (a :: midEnds sorted)[k]? = some l →
      (midEnds sorted ++ [b])[k]? = some r →
      (List.zipWith (fun x y => p / (y - x)) (a :: midEnds sorted) (midEnds sorted ++ [b]))[k]? =
        some (p / (r - l)) := by
    intro k _ l r h1 h2
    rw [List.getElem?_zipWith, h1, h2]
  refine ⟨⟨List.zipWith (fun x y => p / (y - x)) (a :: midEnds sorted) (midEnds sorted ++ [b]),
    a :: midEnds sorted, midEnds sorted ++ [b], none, "$\\lambda$", filename ++ ext⟩, m, p, ?_, rfl, hm, hp,
    hml, hMl, ?_, ?_, ?_, ?_, rfl⟩
  · simp only [plot1DVoronoi, PostObj.voronoiSet, ok_bind, h.dim, raiseIf, ne_eq, not_true_eq_false,
      if_false, SampleSet.plotProbs, h.probs, Option.isSome_some, if_true, h.values, h.domain,
      orErr_some, getIdx, List.getElem?_cons_zero, refPoint, hr, Option.or_none, refCoord, label1D,
      hcol, lineHeights, hm, hp]
    simp only [← hsorted, hzero, if_false, if_true, ok_bind]
    rfl
  · simp only [List.length_zipWith]
    rw [hml, hMl]; omega
  · intro i x hx
    obtain ⟨k, hk, hkx⟩ := List.mem_iff_getElem.mp (hsp.mem_iff.mpr (List.mem_of_getElem? hx))
    obtain ⟨l, r, hlr, h1, h2, h4⟩ := hline k hk
    refine ⟨k, l, r, hlr, ?_, h1, h2, hheights k hk l r h1 h2⟩
    rw [← h4, hkx]
    ext z
    simp only [nearestCell, Set.mem_ofPred_eq, hsp.mem_iff]
  · intro k hk
    obtain ⟨l, r, hlr, h1, h2, -⟩ := hline k (by omega)
    exact ⟨l, r, hlr, h1, h2, hheights k (by omega) l r h1 h2⟩
  · apply List.ext_getElem?
    intro k
    by_cases hk : k < sorted.length
    · obtain ⟨l, r, hlr, h1, h2, -⟩ := hline k hk
      have e1 := cellLengths_getElem a b sorted k (l := l) (r := r)
        ((edges_mins a b sorted hne hk).symm.trans h1) ((edges_maxes a b sorted k).symm.trans h2)
      rw [e1, List.getElem?_zipWith, h1, h2]
    · rw [List.getElem?_eq_none, List.getElem?_eq_none]
      · rw [length_cellLengths a b sorted hne]; omega
      · rw [List.length_zipWith, hml, hMl]; omega

/-- **C95, part** If all samples have the same probability, as after `estimate_volume_mc` with a uniform
measure, the plot shows the density. -/
theorem C95_density_partial (hA : IsArgsort argsort) (h : OnLine a b xs ps s)
    (hr : s.referenceValue = none) (filename ext : String) {q : K} (hq : ∀ p ∈ ps, p = q) :
    ∃ pl, plot1DVoronoi argsort (.set s) true none none filename ext = .ok (s, pl) ∧
      ShowsDensity a b xs ps pl := by
  obtain ⟨pl, m, p, h1, -, -, hp, h2, h3, h4, h5, -⟩ := C95_lines hA h hr filename ext
  refine ⟨pl, h1, h2, h3, h4, fun i x q' hx hq' => ?_⟩
  obtain ⟨k, l, r, hlr, he, hl⟩ := h5 i x hx
  refine ⟨k, l, r, hlr, he, ?_⟩
  rw [hq q' (List.mem_of_getElem? hq'), ← hq p (List.mem_of_getElem? hp)]
  exact hl

/-- **C95 (negation)** As soon as one sample has another probability than the smallest sample, the plot does
not show the density. -/
theorem C95_negation_density (hA : IsArgsort argsort) (h : OnLine a b xs ps s)
    (hr : s.referenceValue = none) (filename ext : String) {m i : Nat} {p q : K}
    (hm : (argsort xs)[0]? = some m) (hp : ps[m]? = some p) (hq : ps[i]? = some q) (hne : q ≠ p) :
    ∃ pl, plot1DVoronoi argsort (.set s) true none none filename ext = .ok (s, pl) ∧
      ¬ ShowsDensity a b xs ps pl := by
  obtain ⟨pl, m', p', h1, -, hm', hp', h2, h3, h4, h5, h6, -⟩ := C95_lines hA h hr filename ext
  rw [hm] at hm'
  obtain rfl := Option.some.inj hm'
  rw [hp] at hp'
  obtain rfl := Option.some.inj hp'
  refine ⟨pl, h1, fun hS => ?_⟩
  have hi : i < xs.length := by rw [← h.length]; exact (List.getElem?_eq_some_iff.mp hq).1
  obtain ⟨k, l, r, hlr, -, hl1, hl2, hl3⟩ := hS.2.2.2 i _ q (List.getElem?_eq_getElem hi) hq
  have hk : k < xs.length := by rw [← h2]; exact (List.getElem?_eq_some_iff.mp hl1).1
  obtain ⟨l', r', hlr', e1, e2, e3⟩ := h6 k hk
  rw [hl1] at e1
  obtain rfl := Option.some.inj e1
  rw [hl2] at e2
  obtain rfl := Option.some.inj e2
  rw [hl3] at e3
  have e4 := Option.some.inj e3
  rw [div_left_inj' (by linarith : r - l ≠ 0)] at e4
  exact hne e4

/-- **C95 (negation)** The area under the lines is the number of samples times the probability of the
smallest one, instead of the sum of the probabilities. -/
theorem C95_negation_area (hA : IsArgsort argsort) (h : OnLine a b xs ps s)
    (hr : s.referenceValue = none) (filename ext : String) :
    ∃ pl m p, plot1DVoronoi argsort (.set s) true none none filename ext = .ok (s, pl) ∧
      (argsort xs)[0]? = some m ∧ ps[m]? = some p ∧
      (List.zipWith (· * ·) pl.heights (List.zipWith (fun x y => y - x) pl.mins pl.maxes)).sum =
        xs.length * p := by
  obtain ⟨pl, m, p, h1, -, hm, hp, h2, h3, h4, h5, h6, h7, h8⟩ := C95_lines hA h hr filename ext
  refine ⟨pl, m, p, h1, hm, hp, ?_⟩
  have : List.zipWith (· * ·) pl.heights (List.zipWith (fun x y => y - x) pl.mins pl.maxes) =
      List.replicate xs.length p := by
    apply List.ext_getElem?
    intro k
    by_cases hk : k < xs.length
    · obtain ⟨l, r, hlr, e1, e2, e3⟩ := h6 k hk
      rw [List.getElem?_zipWith, List.getElem?_zipWith, e1, e2, e3]
      simp only [List.getElem?_replicate, hk, if_true]
      rw [div_mul_cancel₀ _ (by linarith : r - l ≠ 0)]
    · rw [List.getElem?_eq_none, List.getElem?_eq_none]
      · simp; omega
      · simp only [List.length_zipWith]; omega
  rw [this, List.sum_replicate, nsmul_eq_mul]

/-- **C95 (negation)** With `density=False` the drawing call gets a single height, that of the smallest
sample, for all lines. -/
theorem C95_negation_measure (hA : IsArgsort argsort) (h : OnLine a b xs ps s)
    (hr : s.referenceValue = none) (filename ext : String) :
    ∃ pl m p, plot1DVoronoi argsort (.set s) false none none filename ext = .ok (s, pl) ∧
      (argsort xs)[0]? = some m ∧ ps[m]? = some p ∧ pl.heights = [p] ∧ pl.mins.length = xs.length := by
  obtain ⟨m, p, hm, hp, -⟩ := first_of_argsort hA h
  obtain ⟨hn, hlen, hlt, hsp, hs⟩ := argsort_facts hA h.distinct
  have hcol : (xs.map fun x => [x]).map (fun row => row.getD 0 0) = xs := by
    rw [List.map_map]; simp [Function.comp_def]
  refine ⟨⟨[p], a :: midEnds ((argsort xs).map fun i => xs.getD i 0),
    midEnds ((argsort xs).map fun i => xs.getD i 0) ++ [b], none, "$\\lambda$", filename ++ ext⟩, m, p, ?_,
    hm, hp, rfl, ?_⟩
  · simp only [plot1DVoronoi, PostObj.voronoiSet, ok_bind, h.dim, raiseIf, ne_eq, not_true_eq_false,
      if_false, SampleSet.plotProbs, h.probs, Option.isSome_some, if_true, h.values, h.domain,
      orErr_some, getIdx, List.getElem?_cons_zero, refPoint, hr, Option.or_none, refCoord, label1D,
      hcol, lineHeights, hm, hp]
    rfl
  · have := List.length_pos_iff.mpr h.nonempty
    simp only [List.length_cons, length_midEnds, List.length_map]; omega

end

section
variable {K : Type} [Field K] [LinearOrder K]

/-- **C95** What is refused: an object that is no set or discretization, a discretization without input
set, another dimension, and a set without probabilities. -/
theorem C95_refused (argsort : List K → List Nat) (density : Bool) (lamRef : Option (List K))
    (labels : Option (List String)) (filename ext : String) :
    plot1DVoronoi argsort (.other : PostObj K) density lamRef labels filename ext = .error .badObject ∧
    (∀ d : Disc K, d.input = none →
      plot1DVoronoi argsort (.disc d) density lamRef labels filename ext = .error .missingAttribute) ∧
    (∀ s : SampleSet K, s.dim ≠ 1 →
      plot1DVoronoi argsort (.set s) density lamRef labels filename ext = .error .dimNotMatching) ∧
    (∀ s : SampleSet K, s.dim = 1 → s.glob.probabilities = none → s.loc.probabilities = none →
      plot1DVoronoi argsort (.set s) density lamRef labels filename ext = .error .missingAttribute) ∧
    ∀ (d : Disc K) (s : SampleSet K), d.input = some s →
      plot1DVoronoi argsort (.disc d) density lamRef labels filename ext =
        plot1DVoronoi argsort (.set s) density lamRef labels filename ext := by
  refine ⟨rfl, fun d hd => ?_, fun s hs => ?_, fun s hs h1 h2 => ?_, fun d s hd => ?_⟩
  · simp [plot1DVoronoi, PostObj.voronoiSet, hd, orErr_none, error_bind]
  · simp [plot1DVoronoi, PostObj.voronoiSet, hs, ok_bind, raiseIf, error_bind]
  · simp [plot1DVoronoi, PostObj.voronoiSet, hs, h1, h2, ok_bind, raiseIf, error_bind,
      SampleSet.plotProbs]
  · simp only [plot1DVoronoi, PostObj.voronoiSet, hd, orErr_some]

end

namespace Ex

/-- Samples 1/2, 0 and 3/4 with probabilities 1/2, 1/6, 1/3. -/
def plotLine : SampleSet ℚ :=
  { line with glob := { values := some [[1/2], [0], [3/4]], probabilities := some [1/2, 1/6, 1/3] } }

theorem plotLine_ok : OnLine 0 1 [1/2, 0, 3/4] [1/2, 1/6, 1/3] plotLine :=
  ⟨rfl, rfl, rfl, rfl, rfl, by simp, by decide +kernel, by decide +kernel, by norm_num⟩

/-- The lines and their heights; the density of the three cells would be 2/3, 4/3 and 8/9. -/
example : ((plot1DVoronoi argsort (.set plotLine) true none none "f" ".png").toOption.map
    fun q => (q.2.mins, q.2.maxes, q.2.heights)) =
    some ([0, 1/4, 5/8], [1/4, 5/8, 1], [2/3, 4/9, 4/9]) := by decide +kernel

example : (argsort [1/2, 0, 3/4])[0]? = some 1 ∧ ([1/2, 1/6, 1/3] : List ℚ)[1]? = some (1/6) ∧
    ([1/2, 1/6, 1/3] : List ℚ)[0]? = some (1/2) ∧ (1/2 : ℚ) ≠ 1/6 := by decide +kernel

/-- Hypotheses of `C95_density_partial`. -/
example : OnLine 0 1 [1/2, 0, 3/4] [1/3, 1/3, 1/3]
    { plotLine with glob := { plotLine.glob with probabilities := some [1/3, 1/3, 1/3] } } ∧
    ∀ p ∈ ([1/3, 1/3, 1/3] : List ℚ), p = 1/3 :=
  ⟨⟨rfl, rfl, rfl, rfl, rfl, by simp, by decide +kernel, by decide +kernel, by norm_num⟩, by simp⟩

end Ex

end BET
