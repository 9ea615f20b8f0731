import Verif.Props.Ball
import Verif.Model.Voronoi1D

/-!
# C21: exact volumes of one-dimensional cells
-/

set_option linter.unusedSectionVars false
set_option linter.unusedSimpArgs false
set_option autoImplicit false

namespace BET

open Spec

section c21
variable {K : Type} [Field K] [LinearOrder K] [IsStrictOrderedRing K]

/-- What is assumed of `np.argsort`: a permutation of the indices that sorts. -/
def Spec.IsArgsort (argsort : List K → List Nat) : Prop :=
  ∀ xs, (argsort xs).Perm (List.range xs.length) ∧
    ((argsort xs).map fun i => xs.getD i 0).Pairwise (· ≤ ·)

/-- The points of `[a, b]` whose distance to `y` is not larger than that to any sample. -/
def Spec.nearestCell (xs : List K) (a b y : K) : Set K :=
  {x | a ≤ x ∧ x ≤ b ∧ ∀ z ∈ xs, |x - y| ≤ |x - z|}

theorem foldl_set_length {α : Type} (l : List (Nat × α)) (acc : List α) :
    (l.foldl (fun acc iv => acc.set iv.1 iv.2) acc).length = acc.length := by
  induction l generalizing acc with
  | nil => rfl
  | cons p l ih => rw [List.foldl_cons, ih]; simp

theorem foldl_set_notMem {α : Type} (l : List (Nat × α)) (acc : List α) (i : Nat)
    (h : i ∉ l.map Prod.fst) :
    (l.foldl (fun acc iv => acc.set iv.1 iv.2) acc)[i]? = acc[i]? := by
  induction l generalizing acc with
  | nil => rfl
  | cons p l ih =>
    simp only [List.map_cons, List.mem_cons, not_or] at h
    rw [List.foldl_cons, ih _ h.2, List.getElem?_set_ne (Ne.symm h.1)]

theorem foldl_set_mem {α : Type} (l : List (Nat × α)) (acc : List α)
    (hnd : (l.map Prod.fst).Nodup) (p : Nat × α) (hp : p ∈ l) (hi : p.1 < acc.length) :
    (l.foldl (fun acc iv => acc.set iv.1 iv.2) acc)[p.1]? = some p.2 := by
  induction l generalizing acc with
  | nil => cases hp
  | cons q l ih =>
    rw [List.map_cons, List.nodup_cons] at hnd
    rw [List.foldl_cons]
    rcases List.mem_cons.mp hp with rfl | hp
    · rw [foldl_set_notMem _ _ _ hnd.1]
      simp [hi]
    · exact ih _ hnd.2 hp (by simpa using hi)

theorem length_scatter (n : Nat) (ind : List Nat) (vals : List K) :
    (scatter n ind vals).length = n := by
  simp [scatter, foldl_set_length]

theorem scatter_getElem {n : Nat} {ind : List Nat} {vals : List K} (hnd : ind.Nodup)
    (hlen : ind.length = vals.length) {p : Nat} (hp : p < ind.length) (hi : ind[p] < n) :
    (scatter n ind vals)[ind[p]]? = vals[p]? := by
  unfold scatter
  have hz : (List.zip ind vals)[p]'(by simp [hp]; omega) = (ind[p], vals[p]'(by omega)) := by simp
  have := foldl_set_mem (List.zip ind vals) (List.replicate n 0)
    (by rw [List.map_fst_zip (by omega)]; exact hnd) (ind[p], vals[p]'(by omega))
    (by rw [← hz]; exact List.getElem_mem _) (by simpa using hi)
  rw [this]
  simp

theorem scatter_perm {n : Nat} {ind : List Nat} {vals : List K} (h : ind.Perm (List.range n))
    (hlen : ind.length = vals.length) : (scatter n ind vals).Perm vals := by
  have hnd : ind.Nodup := h.nodup_iff.mpr List.nodup_range
  have e1 : vals = ind.map fun i => (scatter n ind vals).getD i 0 := by
    apply List.ext_getElem
    · simp [hlen]
    · intro p h1 h2
      have hp : p < ind.length := by omega
      have hi : ind[p] < n := List.mem_range.mp (h.mem_iff.mp (List.getElem_mem hp))
      have := scatter_getElem hnd hlen hp hi
      rw [List.getElem_map, List.getD_eq_getElem?_getD, this, List.getElem?_eq_getElem h1]
      rfl
  have e2 : (List.range n).map (fun i => (scatter n ind vals).getD i 0) = scatter n ind vals := by
    apply List.ext_getElem
    · simp [length_scatter]
    · intro p h1 h2
      simp [List.getD_eq_getElem?_getD, List.getElem?_eq_getElem h2]
  have e3 := (h.map fun i => (scatter n ind vals).getD i 0).symm
  rw [e2, ← e1] at e3
  exact e3

/-- The edges of the cells of sorted samples. -/
def edges (a b : K) (sorted : List K) : List K :=
  a :: List.zipWith (fun x y => (x + y) * (1 / 2)) sorted.dropLast sorted.tail ++ [b]

theorem length_edges (a b : K) (sorted : List K) (h : sorted ≠ []) :
    (edges a b sorted).length = sorted.length + 1 := by
  have := List.length_pos_iff.mpr h
  simp [edges]
  omega

theorem edges_zero (a b : K) (sorted : List K) : (edges a b sorted)[0]? = some a := by
  simp [edges]

theorem edges_mid (a b : K) (sorted : List K) (p : Nat) (hp : p + 1 < sorted.length) :
    (edges a b sorted)[p + 1]? = some ((sorted[p] + sorted[p + 1]) * (1 / 2)) := by
  unfold edges
  rw [List.cons_append, List.getElem?_cons_succ, List.getElem?_append_left (by simp; omega),
    List.getElem?_zipWith, List.getElem?_eq_getElem (by simp; omega),
    List.getElem?_eq_getElem (by simp; omega)]
  simp

theorem edges_last (a b : K) (sorted : List K) (h : sorted ≠ []) :
    (edges a b sorted)[sorted.length]? = some b := by
  have := List.length_pos_iff.mpr h
  unfold edges
  rw [List.getElem?_append_right (by simp; omega)]
  have : sorted.length - (a :: List.zipWith (fun x y => (x + y) * (1 / 2)) sorted.dropLast
    sorted.tail).length = 0 := by simp; omega
  rw [this]
  rfl

theorem telescope (l : List K) {a b : K} (ha : l.head? = some a) (hb : l.getLast? = some b) :
    (List.zipWith (fun x y => y - x) l.dropLast l.tail).sum = b - a := by
  have := sum_intervals l 1 ha hb
  simpa [intervals, List.zip_eq_zipWith, List.map_zipWith] using this

theorem sum_cellLengths (a b : K) (sorted : List K) : (cellLengths a b sorted).sum = b - a := by
  unfold cellLengths
  refine telescope _ (by simp) ?_
  rw [List.getLast?_append]
  rfl

theorem length_cellLengths (a b : K) (sorted : List K) (h : sorted ≠ []) :
    (cellLengths a b sorted).length = sorted.length := by
  have h1 : cellLengths a b sorted =
    List.zipWith (fun x y => y - x) (edges a b sorted).dropLast (edges a b sorted).tail := rfl
  rw [h1, List.length_zipWith, List.length_dropLast, List.length_tail, length_edges a b sorted h]
  omega

theorem cellLengths_getElem (a b : K) (sorted : List K) (p : Nat) {l r : K}
    (hl : (edges a b sorted)[p]? = some l) (hr : (edges a b sorted)[p + 1]? = some r) :
    (cellLengths a b sorted)[p]? = some (r - l) := by
  have h1 : cellLengths a b sorted =
    List.zipWith (fun x y => y - x) (edges a b sorted).dropLast (edges a b sorted).tail := rfl
  have hp := (List.getElem?_eq_some_iff.mp hr).1
  rw [h1, List.getElem?_zipWith]
  have e1 : (edges a b sorted).dropLast[p]? = some l := by
    rw [List.getElem?_dropLast, if_pos (by omega), hl]
  have e2 : (edges a b sorted).tail[p]? = some r := by
    rw [List.getElem?_tail, hr]
  rw [e1, e2]

/-- Of two points the larger one is nearer exactly from the middle on. -/
theorem abs_le_abs_iff_mid {x s t : K} (h : s < t) :
    |x - t| ≤ |x - s| ↔ (s + t) * (1 / 2) ≤ x := by
  rw [← sq_le_sq, ← sub_nonneg]
  have e : (x - s) ^ 2 - (x - t) ^ 2 = 2 * (t - s) * (x - (s + t) * (1 / 2)) := by ring
  rw [e]
  have : 0 < 2 * (t - s) := by linarith
  rw [mul_nonneg_iff_of_pos_left this, sub_nonneg]

theorem abs_le_abs_iff_mid' {x s t : K} (h : s < t) :
    |x - s| ≤ |x - t| ↔ x ≤ (s + t) * (1 / 2) := by
  rw [← sq_le_sq, ← sub_nonneg]
  have e : (x - t) ^ 2 - (x - s) ^ 2 = 2 * (t - s) * ((s + t) * (1 / 2) - x) := by ring
  rw [e]
  have : 0 < 2 * (t - s) := by linarith
  rw [mul_nonneg_iff_of_pos_left this, sub_nonneg]

/-- The cell of sorted sample `p` is the interval between its edges. -/
theorem nearestCell_sorted (a b : K) (sorted : List K) (hs : sorted.Pairwise (· < ·))
    (hin : ∀ x ∈ sorted, a ≤ x ∧ x ≤ b) (p : Nat) (hp : p < sorted.length) :
    ∃ l r, (edges a b sorted)[p]? = some l ∧ (edges a b sorted)[p + 1]? = some r ∧ l ≤ r ∧
      nearestCell sorted a b sorted[p] = Set.Icc l r := by
  have hlt : ∀ i j (hi : i < sorted.length) (hj : j < sorted.length), i < j → sorted[i] < sorted[j] :=
    fun i j hi hj h => List.pairwise_iff_getElem.mp hs i j hi hj h
  have hle : ∀ i j (hi : i < sorted.length) (hj : j < sorted.length), i ≤ j → sorted[i] ≤ sorted[j] := by
    intro i j hi hj h
    rcases Nat.lt_or_eq_of_le h with h | rfl
    · exact (hlt i j hi hj h).le
    · exact le_refl _
  have hne : sorted ≠ [] := by rintro rfl; simp at hp
  have hinp : ∀ i (hi : i < sorted.length), a ≤ sorted[i] ∧ sorted[i] ≤ b := fun i hi =>
    hin _ (List.getElem_mem hi)
  -- the lower edge
  obtain ⟨l, hl, hal, hlp, hlow⟩ : ∃ l, (edges a b sorted)[p]? = some l ∧ a ≤ l ∧ l ≤ sorted[p] ∧
      ∀ x, a ≤ x → (l ≤ x ↔ ∀ j (hj : j < p), |x - sorted[p]| ≤ |x - sorted[j]|) := by
    cases p with
    | zero => exact ⟨a, edges_zero .., le_refl _, (hinp 0 hp).1, fun x hx => ⟨fun _ j hj => by omega, fun _ => hx⟩⟩
    | succ q =>
      refine ⟨_, edges_mid a b sorted q hp, ?_, ?_, fun x hx => ⟨fun h j hj => ?_, fun h => ?_⟩⟩
      · have h1 := hinp q (by omega); have h2 := hinp (q + 1) hp; linarith
      · have := hlt q (q + 1) (by omega) hp (by omega); linarith
      · rw [abs_le_abs_iff_mid (hlt j (q + 1) (by omega) hp hj)]
        have := hle j q (by omega) (by omega) (by omega)
        linarith
      · exact (abs_le_abs_iff_mid (hlt q (q + 1) (by omega) hp (by omega))).mp (h q (by omega))
  -- the upper edge
  obtain ⟨r, hr, hrb, hpr, hupp⟩ : ∃ r, (edges a b sorted)[p + 1]? = some r ∧ r ≤ b ∧
      sorted[p] ≤ r ∧ ∀ x, x ≤ b → (x ≤ r ↔
        ∀ j (_ : p < j) (hj : j < sorted.length), |x - sorted[p]| ≤ |x - sorted[j]|) := by
    by_cases hq : p + 1 < sorted.length
    · refine ⟨_, edges_mid a b sorted p hq, ?_, ?_, fun x hx => ⟨fun h j hpj hj => ?_, fun h => ?_⟩⟩
      · have h1 := hinp p hp; have h2 := hinp (p + 1) hq; linarith
      · have := hlt p (p + 1) hp hq (by omega); linarith
      · rw [abs_le_abs_iff_mid' (hlt p j hp hj hpj)]
        have := hle (p + 1) j hq hj (by omega)
        linarith
      · exact (abs_le_abs_iff_mid' (hlt p (p + 1) hp hq (by omega))).mp (h (p + 1) (by omega) hq)
    · have e : p + 1 = sorted.length := by omega
      exact ⟨b, by rw [e]; exact edges_last a b sorted hne, le_refl _, (hinp p hp).2,
        fun x hx => ⟨fun _ j hpj hj => by omega, fun _ => hx⟩⟩
  refine ⟨l, r, hl, hr, hlp.trans hpr, ?_⟩
  ext x
  simp only [nearestCell, Set.mem_ofPred_eq, Set.mem_Icc]
  constructor
  · rintro ⟨h1, h2, h3⟩
    exact ⟨(hlow x h1).mpr fun j hj => h3 _ (List.getElem_mem _),
      (hupp x h2).mpr fun j _ hj => h3 _ (List.getElem_mem _)⟩
  · rintro ⟨h1, h2⟩
    refine ⟨hal.trans h1, h2.trans hrb, fun z hz => ?_⟩
    obtain ⟨j, hj, rfl⟩ := List.mem_iff_getElem.mp hz
    rcases lt_trichotomy j p with h | rfl | h
    · exact (hlow x (hal.trans h1)).mp h1 j h
    · exact le_refl _
    · exact (hupp x (h2.trans hrb)).mp h2 j h hj

/-- **C21.** For at least two distinct samples in `[a, b]`, in any order, the volume of sample
`i` is the length of the interval of the points of `[a, b]` nearest to it, divided by `b - a`; the
volumes are non-negative and sum to 1.  Missing: one sample, where the call raises. -/
theorem C21_exact_length_partial {argsort : List K → List Nat} (hA : IsArgsort argsort)
    {size : Nat} {s : SampleSet K} {xs : List K} {a b : K} (hc : Consistent s xs.length)
    (hdim : s.dim = 1) (hdom : s.domain = some [(a, b)])
    (hv : s.glob.values = some (xs.map fun x => [x])) (hn : 2 ≤ xs.length) (hnd : xs.Nodup)
    (hin : ∀ x ∈ xs, a ≤ x ∧ x ≤ b) :
    ∃ t vols, s.exactVolume1D argsort size = .ok t ∧ t.glob.volumes = some vols ∧
      t.glob.values = s.glob.values ∧
      (∀ (i : Nat) y, xs[i]? = some y → ∃ l r, l ≤ r ∧ nearestCell xs a b y = Set.Icc l r ∧
        vols[i]? = some ((r - l) / (b - a))) ∧
      vols.length = xs.length ∧ (∀ v ∈ vols, 0 ≤ v) ∧ vols.sum = 1 := by
  obtain ⟨hperm, hsort⟩ := hA xs
  set ind := argsort xs with hind
  set sorted := ind.map fun i => xs.getD i 0 with hsorted
  have hindn : ind.Nodup := hperm.nodup_iff.mpr List.nodup_range
  have hindlen : ind.length = xs.length := by rw [hperm.length_eq]; simp
  have hlt : ∀ i ∈ ind, i < xs.length := fun i hi => List.mem_range.mp (hperm.mem_iff.mp hi)
  have hsp : sorted.Perm xs := by
    rw [hsorted]
    refine (hperm.map _).trans ?_
    have : (List.range xs.length).map (fun i => xs.getD i 0) = xs := by
      apply List.ext_getElem
      · simp
      · intro i h1 h2; simp [List.getD_eq_getElem?_getD, List.getElem?_eq_getElem h2]
    rw [this]
  have hslen : sorted.length = xs.length := hsp.length_eq
  have hs : sorted.Pairwise (· < ·) := by
    have hnd' : sorted.Nodup := hsp.nodup_iff.mpr hnd
    exact (hsort.and hnd').imp fun h => lt_of_le_of_ne h.1 h.2
  have hin' : ∀ x ∈ sorted, a ≤ x ∧ x ≤ b := fun x hx => hin x (hsp.mem_iff.mp hx)
  have hne : sorted ≠ [] := by rintro h; rw [h] at hslen; simp at hslen; omega
  have hab : a < b := by
    have h1 := hin' _ (List.getElem_mem (show 0 < sorted.length by omega))
    have h2 := hin' _ (List.getElem_mem (show 1 < sorted.length by omega))
    have h3 := List.pairwise_iff_getElem.mp hs 0 1 (by omega) (by omega) (by omega)
    linarith
  set cl := cellLengths a b sorted with hcl
  have hcll : ind.length = cl.length := by
    rw [hcl, length_cellLengths a b sorted hne]; omega
  set vols := (scatter xs.length ind cl).map (· / (b - a)) with hvols
  have hvlen : vols.length = xs.length := by rw [hvols, List.length_map, length_scatter]
  have hcol : (xs.map fun x => [x]).map (fun row => row.getD 0 0) = xs := by
    rw [List.map_map]; simp [Function.comp_def]
  have hc' := consistent_setVolumes hc hvlen
  have hcells : ∀ (i : Nat) y, xs[i]? = some y → ∃ l r, l ≤ r ∧ nearestCell xs a b y = Set.Icc l r ∧
        vols[i]? = some ((r - l) / (b - a)) := by
    intro i y hy
    obtain ⟨hi, hy'⟩ := List.getElem?_eq_some_iff.mp hy
    obtain ⟨p, hp, hpi⟩ := List.mem_iff_getElem.mp (hperm.mem_iff.mpr (List.mem_range.mpr hi))
    have hps : p < sorted.length := by omega
    have hsy : sorted[p] = y := by
      simp only [hsorted, List.getElem_map, hpi, List.getD_eq_getElem?_getD, hy]
      rfl
    obtain ⟨l, r, h1, h2, h3, h4⟩ := nearestCell_sorted a b sorted hs hin' p hps
    refine ⟨l, r, h3, ?_, ?_⟩
    · rw [← h4, hsy]
      ext x
      simp only [nearestCell, Set.mem_ofPred_eq]
      simp only [hsp.mem_iff]
    · have := scatter_getElem hindn hcll hp (hpi ▸ hi)
      rw [hvols, List.getElem?_map]
      rw [hpi] at this
      rw [this, cellLengths_getElem a b sorted p h1 h2]
      rfl
  refine ⟨({ s with glob := { s.glob with volumes := some vols } } : SampleSet K).splitSet size
    xs.length, vols, ?_, rfl, ?_, hcells, hvlen, ?_, ?_⟩
  · unfold SampleSet.exactVolume1D
    simp only [SampleSet.checkNum_consistent hc, ok_bind, raiseIf, hdim, hv, hdom, orErr_some,
      ne_eq, not_true_eq_false, if_false, List.length_map, show ¬ xs.length < 2 by omega, hcol,
      List.getD_cons_zero]
    simpa only [hdim, hv, hdom] using SampleSet.globalToLocal_ok hc' size
  · rfl
  · intro v hvm
    obtain ⟨i, hi, rfl⟩ := List.mem_iff_getElem.mp hvm
    obtain ⟨l, r, h1, _, h3⟩ := hcells i _ (List.getElem?_eq_getElem (by omega))
    rw [List.getElem?_eq_getElem hi] at h3
    rw [Option.some.inj h3]
    exact div_nonneg (by linarith) (by linarith)
  · have hsum : (scatter xs.length ind cl).sum = b - a := by
      rw [(scatter_perm hperm hcll).sum_eq, hcl, sum_cellLengths]
    have : vols.sum = (scatter xs.length ind cl).sum / (b - a) := by
      rw [hvols]
      simp only [div_eq_mul_inv]
      exact sum_map_mul_right' _ _
    rw [this, hsum, div_self (by linarith)]

end c21

/-- **C21.** The same over the reals, as a Lebesgue measure. -/
theorem C21_lebesgue_partial {argsort : List ℝ → List Nat} (hA : IsArgsort argsort)
    {size : Nat} {s : SampleSet ℝ} {xs : List ℝ} {a b : ℝ} (hc : Consistent s xs.length)
    (hdim : s.dim = 1) (hdom : s.domain = some [(a, b)])
    (hv : s.glob.values = some (xs.map fun x => [x])) (hn : 2 ≤ xs.length) (hnd : xs.Nodup)
    (hin : ∀ x ∈ xs, a ≤ x ∧ x ≤ b) :
    ∃ t vols, s.exactVolume1D argsort size = .ok t ∧ t.glob.volumes = some vols ∧
      ∀ (i : Nat) y, xs[i]? = some y →
        vols[i]? = some ((MeasureTheory.volume (nearestCell xs a b y)).toReal / (b - a)) := by
  obtain ⟨t, vols, h1, h2, _, h3, _⟩ := C21_exact_length_partial hA hc hdim hdom hv hn hnd hin
    (size := size)
  refine ⟨t, vols, h1, h2, fun i y hy => ?_⟩
  obtain ⟨l, r, hlr, he, hvi⟩ := h3 i y hy
  rw [hvi, he, Real.volume_Icc, ENNReal.toReal_ofReal (by linarith)]

/-! ### Concrete cases -/

namespace Ex

/-- A sorting permutation by insertion. -/
def argsort (xs : List ℚ) : List Nat :=
  (List.range xs.length).insertionSort fun i j => xs.getD i 0 ≤ xs.getD j 0

theorem isArgsort_argsort : IsArgsort argsort := by
  intro xs
  refine ⟨List.perm_insertionSort _ _, ?_⟩
  unfold argsort
  rw [List.pairwise_map]
  exact List.pairwise_insertionSort (fun i j => xs.getD i 0 ≤ xs.getD j 0) _

/-- Three unsorted samples of `[0, 1]`. -/
def line : SampleSet ℚ :=
  { dim := 1, domain := some [(0, 1)], glob := { values := some [[1/2], [0], [3/4]] } }

/-- C21. -/
example : Consistent line 3 := consistent_of _ _ rfl rfl

example : ((line.exactVolume1D argsort 2).toOption.bind (·.glob.volumes)) =
    some [3/8, 1/4, 3/8] := by decide +kernel

/-- **C21, negation.** With a single sample, which owns the whole interval, the call raises. -/
theorem C21_negation_single_sample :
    errOf (({ dim := 1, domain := some [(0, 1)], glob := { values := some [[1/2]] } } :
      SampleSet ℚ).exactVolume1D argsort 1) = some .indexError := by decide +kernel

end Ex

end BET
