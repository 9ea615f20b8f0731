import Verif.Props.ErrorQueries
import Verif.Props.SamplingErrorObject
import Verif.Props.ModelErrorObject
import Verif.Props.ProbLimit
import Mathlib.MeasureTheory.Measure.Real

/-!
# The sampling error bounds contain the sampling error (C134)
-/

set_option autoImplicit false
set_option linter.unusedSectionVars false
set_option linter.unusedSimpArgs false

namespace BET

open Spec

/-! ### Specification -/

namespace Spec

/-- The cells resolve the contour events of positive probability, as far as the points can tell: point
`k` lies in cell `cells[k]` and the model itself sends it to the event `truth[k]`. A point in an
interior cell of an event really belongs to the event, and a point that really belongs to an event
lies in a cell with a neighbour in the event. -/
structure Resolved {K : Type} [Zero K] [LT K] (adj : Nat → Nat → Prop) (event : List Nat) (probs : List K)
    (cells truth : List Nat) : Prop where
  length : truth.length = cells.length
  interior : ∀ (k c t i : Nat), cells[k]? = some c → truth[k]? = some t → 0 < probs.getD i 0 →
    InteriorCell adj event i c → t = i
  cover : ∀ (k c t : Nat), cells[k]? = some c → truth[k]? = some t → 0 < probs.getD t 0 →
    TouchingCell adj event t c

/-- The neighbours that `sampling_error` finds for the samples `x`: next to each other on a line, if
`argsort` is its own inverse, or in a common simplex. -/
inductive CellNeighbours {K : Type} [LinearOrder K] [Zero K] (argsort : List K → List Nat)
    (delaunay : List (List K) → Except Err (List (List Nat))) (x : List (List K)) (dim : Nat) :
    (Nat → Nat → Prop) → Prop
  | line (z : List K) (hdim : dim = 1) (hx : x = z.map fun a => [a]) (hz : z.Nodup)
      (hs : IsArgsortOf z (argsort z))
      (hinv : ∀ p a : Nat, (argsort z)[p]? = some a → (argsort z)[a]? = some p) :
      CellNeighbours argsort delaunay x dim (AdjacentOnLine z)
  | simplices (t : List (List Nat)) (hdim : dim ≠ 1) (hd : delaunay x = .ok t)
      (ht : ∀ s ∈ t, ∀ i ∈ s, i < x.length) :
      CellNeighbours argsort delaunay x dim (ShareSimplex t)

/-- The points that `calculate_for_sample_set_region` counts: those of the given set, else those stored
with the discretization, else the samples themselves. -/
inductive CountedPoints {K : Type} (size : Nat) (d : Disc K) (inp : SampleSet K) (x : List (List K)) :
    Option (SampleSet K) → List (List K) → Prop
  | given (em : SampleSet K) (k : Nat) (pts : List (List K)) (h : PointSet size k inp.dim pts em) :
      CountedPoints size d inp x (some em) pts
  | stored (em : SampleSet K) (k : Nat) (pts : List (List K)) (hd : d.emInput = some em)
      (h : PointSet size k inp.dim pts em) : CountedPoints size d inp x none pts
  | samples (hd : d.emInput = none) : CountedPoints size d inp x none x

/-- The points of the cells with property `P`, for cells `V 0, ..., V (n - 1)`. -/
def cellUnion {X : Type} (V : Nat → Set X) (n : Nat) (P : Nat → Prop) : Set X :=
  {a | ∃ j, j < n ∧ P j ∧ a ∈ V j}

/-- The cells as sets: they do not overlap and `vols` are their measures. -/
structure CellSets {X : Type} [MeasurableSpace X] (μ : MeasureTheory.Measure X) (V : Nat → Set X) (n : Nat)
    (vols : List ℝ) : Prop where
  measurable : ∀ j, j < n → MeasurableSet (V j)
  disjoint : ∀ i j, i < n → j < n → i ≠ j → Disjoint (V i) (V j)
  volumes : vols = (List.range n).map fun j => μ.real (V j)

/-- The cells resolve the exact contour events `E` of positive probability: the interior cells of an event
lie in the exact event, which lies in the cells with a neighbour in the event. -/
structure ResolvedSets {X : Type} (V : Nat → Set X) (n : Nat) (adj : Nat → Nat → Prop) (event : List Nat)
    (probs : List ℝ) (E : Nat → Set X) : Prop where
  interior : ∀ i, 0 < probs.getD i 0 → cellUnion V n (InteriorCell adj event i) ⊆ E i
  cover : ∀ i, 0 < probs.getD i 0 → E i ⊆ cellUnion V n (TouchingCell adj event i)

/-- The probability of `A` when event `i` of probability `probs[i]` is the set `E i`, inside which the
probability is spread evenly with respect to `μ`. -/
noncomputable def exactProbability {X : Type} [MeasurableSpace X] (μ : MeasureTheory.Measure X)
    (E : Nat → Set X) (probs : List ℝ) (A : Set X) : ℝ :=
  ((List.range probs.length).map fun i => probs.getD i 0 * (μ.real (A ∩ E i) / μ.real (E i))).sum

end Spec

/-! ### Counting -/

section
variable {K : Type} [Field K] [LinearOrder K] [IsStrictOrderedRing K]

/-- If `B` implies `E` and `E` implies `C`, the fraction of `E` in the region lies between the two
quotients that need only `B` and `C`. -/
theorem fraction_between {α : Type} (T : List α) (A B E C : α → Bool)
    (hBE : ∀ q ∈ T, B q = true → E q = true) (hEC : ∀ q ∈ T, E q = true → C q = true)
    (hB : T.countP B ≠ 0) :
    (T.countP (fun q => A q && B q) : K) / T.countP C ≤ (T.countP (fun q => A q && E q) : K) / T.countP E ∧
    (T.countP (fun q => A q && E q) : K) / T.countP E ≤ (T.countP (fun q => A q && C q) : K) / T.countP B := by
  have m1 : T.countP B ≤ T.countP E := List.countP_mono_left hBE
  have m2 : T.countP E ≤ T.countP C := List.countP_mono_left hEC
  have m3 : T.countP (fun q => A q && B q) ≤ T.countP (fun q => A q && E q) :=
    List.countP_mono_left fun q hq h => by
      simp only [Bool.and_eq_true] at h ⊢
      exact ⟨h.1, hBE q hq h.2⟩
  have m4 : T.countP (fun q => A q && E q) ≤ T.countP (fun q => A q && C q) :=
    List.countP_mono_left fun q hq h => by
      simp only [Bool.and_eq_true] at h ⊢
      exact ⟨h.1, hEC q hq h.2⟩
  have pB : (0 : K) < T.countP B := Nat.cast_pos.2 (Nat.pos_of_ne_zero hB)
  have pE : (0 : K) < T.countP E := pB.trans_le (Nat.cast_le.2 m1)
  exact ⟨div_le_div₀ (Nat.cast_nonneg _) (Nat.cast_le.2 m3) pE (Nat.cast_le.2 m2),
    div_le_div₀ (Nat.cast_nonneg _) (Nat.cast_le.2 m4) pB (Nat.cast_le.2 m1)⟩

/-- The points with their flag, their cell and their event. -/
def triples (inA : List Bool) (cells truth : List Nat) : List (Bool × Nat × Nat) :=
  inA.zip (cells.zip truth)

theorem triples_cells {inA : List Bool} {cells truth : List Nat} (h1 : inA.length = cells.length)
    (h2 : truth.length = cells.length) :
    (triples inA cells truth).map (fun q => (q.1, q.2.1)) = inA.zip cells := by
  unfold triples
  induction inA generalizing cells truth with
  | nil => rfl
  | cons a l ih =>
    cases cells with
    | nil => cases h1
    | cons c cells =>
      cases truth with
      | nil => cases h2
      | cons t truth => simp [ih (Nat.succ.inj h1) (Nat.succ.inj h2)]

theorem triples_truth {inA : List Bool} {cells truth : List Nat} (h1 : inA.length = cells.length)
    (h2 : truth.length = cells.length) :
    (triples inA cells truth).map (fun q => (q.1, q.2.2)) = inA.zip truth := by
  unfold triples
  induction inA generalizing cells truth with
  | nil => rfl
  | cons a l ih =>
    cases cells with
    | nil => cases h1
    | cons c cells =>
      cases truth with
      | nil => cases h2
      | cons t truth => simp [ih (Nat.succ.inj h1) (Nat.succ.inj h2)]

theorem mem_triples {inA : List Bool} {cells truth : List Nat} {q : Bool × Nat × Nat}
    (h : q ∈ triples inA cells truth) : ∃ k : Nat, cells[k]? = some q.2.1 ∧ truth[k]? = some q.2.2 := by
  obtain ⟨k, hk, rfl⟩ := List.mem_iff_getElem.1 h
  simp only [triples, List.getElem_zip]
  unfold triples at hk
  simp only [List.length_zip] at hk
  exact ⟨k, List.getElem?_eq_getElem (by omega), List.getElem?_eq_getElem (by omega)⟩

theorem share_eq (inA : List Bool) (ev : List Nat) (h : inA.length = ev.length) (i : Nat) :
    (share inA ev i : K) = ((inA.zip ev).countP (fun q => q.1 && q.2 == i) : K) /
      (inA.zip ev).countP (fun q => q.2 == i) := by
  unfold share
  have h1 : (inA.zip ev).count (true, i) = (inA.zip ev).countP (fun q => q.1 && q.2 == i) := by
    rw [List.count]
    refine List.countP_congr fun q _ => ?_
    obtain ⟨a, b⟩ := q
    cases a <;> simp
  have h2 : ev.count i = (inA.zip ev).countP (fun q => q.2 == i) := by
    rw [List.count]; exact (countP_zip_snd (fun k => k == i) inA ev h).symm
  rw [h1, h2]

/-- The contribution of one event. -/
theorem regionTerm_exact {b c io : List Nat} {inA : Chunks Bool} {ii : Chunks Nat} {truth : List Nat}
    (h : SameShape inA ii) (hl : truth.length = ii.flatten.length) {i : Nat} {p : K} (hp : 0 ≤ p)
    (hio : ∀ k ∈ ii.flatten, k < io.length)
    (hb : ∀ k cl t : Nat, ii.flatten[k]? = some cl → truth[k]? = some t → cl ∈ b → t = i)
    (hc : ∀ k cl : Nat, ii.flatten[k]? = some cl → truth[k]? = some i → cl ∈ c)
    {t : K × K} (ht : regionTerm b c io inA ii i p = some t) :
    t.2 ≤ p * (share inA.flatten truth i - share inA.flatten (ii.flatten.map fun j => io.getD j 0) i) ∧
    p * (share inA.flatten truth i - share inA.flatten (ii.flatten.map fun j => io.getD j 0) i) ≤ t.1 := by
  rw [regionTerm_eq _ _ _ _ _ h] at ht
  have hlA := h.length_flatten
  split_ifs at ht with h0
  simp only [Option.some.injEq] at ht
  push Not at h0
  obtain ⟨h2, h4, h6⟩ := h0
  have hap : (share inA.flatten (ii.flatten.map fun j => io.getD j 0) i : K) =
      (pointCount (inA.flatten.zip ii.flatten) (fun a k => a = true ∧ io[k]? = some i) : K) /
        pointCount (inA.flatten.zip ii.flatten) (fun _ k => io[k]? = some i) := by
    rw [share_eq _ _ (by rw [List.length_map]; exact hlA)]
    have hz : inA.flatten.zip (ii.flatten.map fun j => io.getD j 0) =
        (inA.flatten.zip ii.flatten).map fun q => (q.1, io.getD q.2 0) := by
      rw [List.zip_map_right]
      rfl
    have hmem : ∀ q ∈ inA.flatten.zip ii.flatten, (io.getD q.2 0 == i) = decide (io[q.2]? = some i) := by
      intro q hq
      have hq2 := hio _ (List.of_mem_zip hq).2
      rw [List.getD_eq_getElem?_getD, List.getElem?_eq_getElem hq2]
      simp [Nat.beq_eq_true_eq, beq_eq_decide]
    rw [hz, List.countP_map, List.countP_map]
    unfold pointCount
    congr 2
    · refine List.countP_congr fun q hq => ?_
      simp only [Function.comp_def, hmem q hq, Bool.and_eq_true, decide_eq_true_eq]
    · refine List.countP_congr fun q hq => ?_
      simp only [Function.comp_def, hmem q hq, decide_eq_true_eq]
  set T := triples inA.flatten ii.flatten truth with hT
  have hTc : T.map (fun q => (q.1, q.2.1)) = inA.flatten.zip ii.flatten := triples_cells hlA hl
  have hTt : T.map (fun q => (q.1, q.2.2)) = inA.flatten.zip truth := triples_truth hlA hl
  have hex : (share inA.flatten truth i : K) = (T.countP (fun q => q.1 && q.2.2 == i) : K) /
      T.countP (fun q => q.2.2 == i) := by
    rw [share_eq _ _ (hlA.trans hl.symm), ← hTt, List.countP_map, List.countP_map]
    rfl
  have hcnt : ∀ (P : Bool → Nat → Prop) [∀ a c, Decidable (P a c)],
      pointCount (inA.flatten.zip ii.flatten) P = T.countP fun q => decide (P q.1 q.2.1) := by
    intro P _
    rw [← hTc, pointCount, List.countP_map]
    rfl
  obtain ⟨k1, k2⟩ := fraction_between (K := K) T (fun q => q.1) (fun q => decide (q.2.1 ∈ b))
    (fun q => q.2.2 == i) (fun q => decide (q.2.1 ∈ c))
    (fun q hq hB => by
      obtain ⟨k, e1, e2⟩ := mem_triples hq
      simp only [decide_eq_true_eq, beq_iff_eq] at hB ⊢
      exact hb k _ _ e1 e2 hB)
    (fun q hq hE => by
      obtain ⟨k, e1, e2⟩ := mem_triples hq
      simp only [decide_eq_true_eq, beq_iff_eq] at hE ⊢
      rw [hE] at e2
      exact hc k _ e1 e2)
    (by rw [← hcnt fun _ k => k ∈ b]; exact h6)
  have r1 : ∀ l : List Nat, T.countP (fun q => q.1 && decide (q.2.1 ∈ l)) =
      pointCount (inA.flatten.zip ii.flatten) (fun a k => a = true ∧ k ∈ l) := fun l => by
    rw [hcnt]
    refine List.countP_congr fun q _ => ?_
    simp
  have r2 : ∀ l : List Nat, T.countP (fun q => decide (q.2.1 ∈ l)) =
      pointCount (inA.flatten.zip ii.flatten) (fun _ k => k ∈ l) := fun l => by rw [hcnt]
  rw [← hex, r1, r2] at k1 k2
  rw [← ht]
  dsimp only
  rw [hap]
  exact ⟨mul_le_mul_of_nonneg_left ((min_le_left _ _).trans (sub_le_sub_right k1 _)) hp,
    mul_le_mul_of_nonneg_left ((sub_le_sub_right k2 _).trans (le_max_right _ _)) hp⟩

theorem regionLoop_exact (io : List Nat) (inA : Chunks Bool) (ii : Chunks Nat) (probs : List K)
    (h : SameShape inA ii) {truth : List Nat} (hl : truth.length = ii.flatten.length)
    (hio : ∀ k ∈ ii.flatten, k < io.length) (l : List Nat) (e : Keys) (up lo : K)
    (hB : ∀ i ∈ l, 0 < probs.getD i 0 → ∀ k cl t : Nat, ii.flatten[k]? = some cl → truth[k]? = some t →
      cl ∈ e.B.read i → t = i)
    (hC : ∀ i ∈ l, 0 < probs.getD i 0 → ∀ k cl : Nat, ii.flatten[k]? = some cl → truth[k]? = some i →
      cl ∈ e.C.read i)
    {r : K × K} (hr : (regionLoop io inA ii probs l e up lo).1 = some r) :
    r.2 - lo ≤ (l.map fun i => if 0 < probs.getD i 0 then probs.getD i 0 * (share inA.flatten truth i -
      share inA.flatten (ii.flatten.map fun j => io.getD j 0) i) else 0).sum ∧
    (l.map fun i => if 0 < probs.getD i 0 then probs.getD i 0 * (share inA.flatten truth i -
      share inA.flatten (ii.flatten.map fun j => io.getD j 0) i) else 0).sum ≤ r.1 - up := by
  induction l generalizing e up lo with
  | nil =>
    simp only [regionLoop, Option.some.injEq] at hr
    subst hr
    simp
  | cons i l ih =>
    unfold regionLoop at hr
    rw [List.map_cons, List.sum_cons]
    by_cases hp : 0 < probs.getD i 0
    · rw [if_pos hp] at hr ⊢
      cases ht : regionTerm (e.B.read i) (e.C.read i) io inA ii i (probs.getD i 0) with
      | none => rw [ht] at hr; cases hr
      | some t =>
        rw [ht] at hr
        have hsame := regionTouch_reads e io ii i
        have hrec := ih (regionTouch e io ii i) (up + t.1) (lo + t.2)
          (fun j hj hpj k cl t h1 h2 hm => hB j (List.mem_cons_of_mem _ hj) hpj k cl t h1 h2
            (by rw [← hsame.1]; exact hm))
          (fun j hj hpj k cl h1 h2 => by
            rw [hsame.2]; exact hC j (List.mem_cons_of_mem _ hj) hpj k cl h1 h2) hr
        have hbr := regionTerm_exact h hl hp.le hio (hB i (List.mem_cons_self ..) hp)
          (hC i (List.mem_cons_self ..) hp) ht
        constructor <;> linarith [hrec.1, hrec.2, hbr.1, hbr.2]
    · rw [if_neg hp] at hr ⊢
      rw [zero_add]
      exact ih e up lo (fun j hj => hB j (List.mem_cons_of_mem _ hj))
        (fun j hj => hC j (List.mem_cons_of_mem _ hj)) hr

/-- The bounds are numbers exactly when every event of positive probability has a point in an interior
cell. -/
theorem regionLoop_isSome (io : List Nat) (inA : Chunks Bool) (ii : Chunks Nat) (probs : List K)
    (h : SameShape inA ii) (l : List Nat) (e : Keys) (up lo : K)
    (hB : ∀ i ∈ l, 0 < probs.getD i 0 → ∀ k ∈ e.B.read i, io[k]? = some i ∧ k ∈ e.C.read i) :
    (regionLoop io inA ii probs l e up lo).1.isSome ↔
      ∀ i ∈ l, 0 < probs.getD i 0 → ∃ k ∈ ii.flatten, k ∈ e.B.read i := by
  have hlA := h.length_flatten
  induction l generalizing e up lo with
  | nil => simp [regionLoop]
  | cons i l ih =>
    unfold regionLoop
    rw [List.forall_mem_cons]
    by_cases hp : 0 < probs.getD i 0
    · rw [if_pos hp]
      have hsome : (regionTerm (e.B.read i) (e.C.read i) io inA ii i (probs.getD i 0)).isSome ↔
          ∃ k ∈ ii.flatten, k ∈ e.B.read i := by
        rw [regionTerm_eq _ _ _ _ _ h]
        have hz : ∀ (f : Nat → Prop) [DecidablePred f],
            pointCount (inA.flatten.zip ii.flatten) (fun _ k => f k) = 0 ↔ ∀ k ∈ ii.flatten, ¬ f k := by
          intro f _
          unfold pointCount
          rw [countP_zip_snd (fun k => decide (f k)) inA.flatten ii.flatten hlA, List.countP_eq_zero]
          simp
        constructor
        · intro hs
          split_ifs at hs with h0
          · cases hs
          · push Not at h0
            have h3 := mt (hz fun k => k ∈ e.B.read i).2 h0.2.2
            push Not at h3
            exact h3
        · rintro ⟨k, hk, hm⟩
          obtain ⟨g1, g2⟩ := hB i (List.mem_cons_self ..) hp k hm
          rw [if_neg]
          · rfl
          · rintro (h0 | h0 | h0)
            · exact (hz fun k => io[k]? = some i).1 h0 k hk g1
            · exact (hz fun k => k ∈ e.C.read i).1 h0 k hk g2
            · exact (hz fun k => k ∈ e.B.read i).1 h0 k hk hm
      cases ht : regionTerm (e.B.read i) (e.C.read i) io inA ii i (probs.getD i 0) with
      | none =>
        rw [ht] at hsome
        simp only [Option.isSome_none, Bool.false_eq_true, false_iff] at hsome ⊢
        exact fun hh => hsome (hh.1 hp)
      | some t =>
        rw [ht] at hsome
        have hsame := regionTouch_reads e io ii i
        simp only
        refine (ih (regionTouch e io ii i) _ _ fun j hj hpj k hk => ?_).trans ?_
        · rw [hsame.1] at hk
          rw [hsame.2]
          exact hB j (List.mem_cons_of_mem _ hj) hpj k hk
        constructor
        · intro hh
          exact ⟨fun _ => hsome.1 rfl, fun j hj hpj => by
            obtain ⟨k, hk, hm⟩ := hh j hj hpj
            exact ⟨k, hk, by rw [← hsame.1]; exact hm⟩⟩
        · rintro ⟨-, hh⟩ j hj hpj
          obtain ⟨k, hk, hm⟩ := hh j hj hpj
          exact ⟨k, hk, by rw [hsame.1]; exact hm⟩
    · rw [if_neg hp]
      refine (ih _ _ _ fun j hj => hB j (List.mem_cons_of_mem _ hj)).trans ?_
      exact ⟨fun hh => ⟨fun h0 => absurd h0 hp, hh⟩, fun hh => hh.2⟩

/-! ### The method -/

theorem setEmulated_ok {d : Disc K} {inp em : SampleSet K} (hi : d.input = some inp) (h : em.dim = inp.dim) :
    d.setEmulatedInput em = .ok { d with emInput := some em } := by
  unfold Disc.setEmulatedInput
  rw [hi]
  simp only [h, if_true]

theorem regionMask_points {G : Geometry K} (hG : Sound G) {size k dim ms : Nat} {P : List (List K)}
    {em s : SampleSet K} (hem : PointSet size k dim P em) (hr : Ready s ms) {r : Int} (h : HasRegion s r) :
    regionMask G size s r em = .ok (arraySplit size (inside G s r P)) := by
  obtain ⟨em', h1, h2, h3⟩ := hem.localized
  rw [← (regionMask_inside hG h3 hr h).2]
  have hd : ∀ q : SampleSet K, Disc.new size (some s) (some s) none (some q) none =
      .ok { input := some s, output := some s, outputProb := none, emInput := some q, emOutput := none } := by
    intro q
    unfold Disc.new
    simp only [Option.isSome_some, if_true]
    rw [checkNums_ok rfl rfl hr.consistent hr.consistent]
    rfl
  unfold regionMask
  simp only [hd, ok_bind]
  simp only [Disc.setIiPtr, orErr_some, ok_bind, h1, SampleSet.localized_some size h3]

/-- `calculate_for_sample_set_region`, with the points on one list. -/
theorem samplingRegion_value {G : Geometry K} (hG : Sound G) {size n m ms : Nat} (hsize : 0 < size)
    {e : Keys} {d : Disc K} {inp ps s : SampleSet K} {x : List (List K)} {io : List Nat} {probs : List K}
    (hi : d.input = some inp) (hx : inp.glob.values = some x) (hir : Ready inp n) (his : SplitEvenly size inp)
    (hio : d.ioPtr = some io) (hps : d.outputProb = some ps) (hpr : Ready ps m)
    (hpp : ps.glob.probabilities = some probs) (hr : Ready s ms) {r : Int} (hreg : HasRegion s r)
    {em : Option (SampleSet K)} {P : List (List K)} (hP : CountedPoints size d inp x em P) :
    samplingRegion G size e d s r em = .ok (regionErrors e io (arraySplit size (inside G s r P))
      (arraySplit size (P.map (inp.cell G))) probs) := by
  obtain ⟨pts, k, hpts, hset⟩ : ∃ (pts : SampleSet K) (k : Nat), regionPoints d em = .ok pts ∧
      PointSet size k inp.dim P pts := by
    cases hP with
    | given em k pts h => exact ⟨em, k, rfl, h⟩
    | stored em k pts hd h => exact ⟨em, k, by unfold regionPoints; simp only [hd]; rfl, h⟩
    | samples hd =>
      exact ⟨inp, n, by unfold regionPoints; simp only [hd, hi, orErr_some],
        hir.consistent, hir.pos, his, hx, rfl⟩
  obtain ⟨pts', h1, h2, h3⟩ := hset.localized
  obtain ⟨inp', hq, -, -, -⟩ := SampleSet.query_ready (G := G) (size := size) hir (arraySplit size P)
  have hd0 : ({ d with input := some inp.localToGlobal } : Disc K) = d := by
    rw [SplitEvenly.localToGlobal hsize his, ← hi]
  have hmk : ∃ mk, regionMarker s r = .ok mk := (regionMask_inside (P := P) (size := size)
    (em := pts') hG h3 hr hreg).1
  obtain ⟨mk, hmk⟩ := hmk
  unfold samplingRegion
  simp only [hi, orErr_some, ok_bind]
  rw [hd0]
  simp only [hmk, ok_bind, hpts, setEmulated_ok hi hset.dim, Disc.setIiPtr, orErr_some, h1, hi, h3, hq,
    regionMask_points hG hset hr hreg, hio, hps, SampleSet.checkNum_consistent hpr.consistent, hpp]
  rw [arraySplit_map]
  simp only [Bool.false_eq_true, if_false, pure_bind_ok, ok_bind, orErr_some, hio, hps,
    SampleSet.checkNum_consistent hpr.consistent, hpp]
  rfl

theorem init_neighbours {G : Geometry K} (hG : Sound G) {size : Nat} (hsize : 0 < size)
    {argsort : List K → List Nat} {delaunay : List (List K) → Except Err (List (List Nat))} {d : Disc K}
    {inp out ps : SampleSet K} {x y : List (List K)} {probs : List K} {m : Nat}
    (h : SamplingProblem G d inp out ps x y probs m) {adj : Nat → Nat → Prop}
    (hadj : CellNeighbours argsort delaunay x inp.dim adj) :
    ∃ e d1 ps1 nei io, samplingErrorInit G size argsort delaunay d = .ok (e, d1) ∧
      boundarySets x.length nei io = .ok e ∧
      (∀ p v, (nei p).Nodup ∧ (v ∈ nei p ↔ IsNeighbourEvent adj io p v)) ∧
      d1.input = some inp ∧ d1.ioPtr = some io ∧ d1.outputProb = some ps1 ∧ Ready ps1 m ∧
      ps1.glob.probabilities = some probs ∧ d1.emInput = d.emInput ∧ io.length = x.length ∧
      List.Forall₂ (IsCell G ps) y io := by
  have hyl : y.length = x.length := h.outputOk.1.values _ h.outputs
  obtain ⟨d1, out1, ps1, g1, g2, g3, g4, g5, g6, g7, g8, g9⟩ := ensureGlobalIoPtr_ok hsize h
  set io := d.ioPtr.getD (y.map (ps.cell G)) with hio
  have hcell : List.Forall₂ (IsCell G ps) y io := by
    rw [hio]
    cases hp : d.ioPtr with
    | some l => exact h.pointer l hp
    | none => exact forall₂_cells hG h.measureOk y
  have hiol : io.length = x.length := by rw [← hcell.length_eq, hyl]
  obtain ⟨nei, hconn, hnei⟩ : ∃ nei, connectivityOf argsort delaunay x.length inp.dim x io = .ok nei ∧
      ∀ p v, (nei p).Nodup ∧ (v ∈ nei p ↔ IsNeighbourEvent adj io p v) := by
    cases hadj with
    | simplices t hdim hd ht =>
      obtain ⟨nei, hnei⟩ := delaunay_total t io (fun s hs i hi => by rw [hiol]; exact ht s hs i hi)
      refine ⟨nei, ?_, fun p v => C38_delaunay hnei p v⟩
      simp only [connectivityOf, hdim, if_false, hd, ok_bind]
      exact hnei
    | line z hdim hx hz hs hinv =>
      have hxl : x.length = z.length := by rw [hx, List.length_map]
      have hfl : x.flatten = z := by
        rw [hx]
        clear hs hinv hz hx hxl
        induction z with
        | nil => rfl
        | cons a l ih => simpa using ih
      obtain ⟨nei, hnei⟩ := C38_defined x.length (argsort z) io (by rw [hxl]; exact hs.1) hiol
      refine ⟨nei, by simp only [connectivityOf, hdim, if_true, hfl]; exact hnei, fun p v => ?_⟩
      rw [hxl] at hnei
      exact C38_adjacent_partial hs hz hinv hnei p v
  obtain ⟨e, he⟩ := C36_defined x.length nei io hiol
  have hinpc := h.inputOk.consistent
  have hc0 : d.checkNums size = .ok x.length := checkNums_ok h.input h.output hinpc h.outputOk size
  have hc1 : d1.checkNums size = .ok x.length := checkNums_ok g2 g3 hinpc g4 size
  have hv : ∀ {d' : Disc K}, d'.input = some inp → checkVoronoi2 d' = .ok () := by
    intro d' hd'
    simp [checkVoronoi2, hd', h.voronoi, h.norm, raiseIf, ok_bind, pure, Except.pure]
  have hens : ensureGlobalIoPtr G size d1 = .ok d1 := by
    simp [ensureGlobalIoPtr, g9, pure, Except.pure]
  have hinit : samplingErrorInit G size argsort delaunay d = .ok (e, d1) := by
    simp only [samplingErrorInit, connectivityExact, boundarySetsOf, hc0, hc1, hv h.input, hv g2, g1,
      hens, g9, g2, h.values, orErr_some, ok_bind, hconn, pure_bind_ok, he]
    rfl
  exact ⟨e, d1, ps1, nei, io, hinit, he, hnei, g2, g9, g5, g6, g7, g8, hiol, hcell⟩

/-- **C134 (regions).** `sampling_error(disc)` and then `calculate_for_sample_set_region(s, r, em)`
succeed. The answer is a pair of numbers exactly when every event of positive probability has a counted
point in an interior cell. If the cells resolve the events, as far as the counted points can tell, the
difference between the probability of the region that the model itself gives on these points and the
computed probability of the region lies between the two numbers. -/
theorem C134_region {G : Geometry K} (hG : Sound G) {size : Nat} (hsize : 0 < size)
    {argsort : List K → List Nat} {delaunay : List (List K) → Except Err (List (List Nat))} {d : Disc K}
    {inp out ps : SampleSet K} {x y : List (List K)} {probs : List K} {m : Nat}
    (h : SamplingProblem G d inp out ps x y probs m) (hin : SplitEvenly size inp) {adj : Nat → Nat → Prop}
    (hadj : CellNeighbours argsort delaunay x inp.dim adj) {s : SampleSet K} {ms : Nat} (hs : Ready s ms)
    {r : Int} (hreg : HasRegion s r) {em : Option (SampleSet K)} {P : List (List K)}
    (hP : CountedPoints size d inp x em P) :
    ∃ e d1 b e2 event cells inA, samplingErrorInit G size argsort delaunay d = .ok (e, d1) ∧
      samplingRegion G size e d1 s r em = .ok (b, e2) ∧
      List.Forall₂ (IsCell G ps) y event ∧ List.Forall₂ (IsCell G inp) P cells ∧ InRegion G s r P inA ∧
      (b.isSome ↔ ∀ (i : Nat) p, probs[i]? = some p → 0 < p → ∃ c ∈ cells, InteriorCell adj event i c) ∧
      ∀ up lo truth, b = some (up, lo) → Resolved adj event probs cells truth →
        lo ≤ regionError inA truth (cells.map (event.getD · 0)) probs ∧
        regionError inA truth (cells.map (event.getD · 0)) probs ≤ up := by
  obtain ⟨e, d1, ps1, nei, io, hinit, hsets, hnei, g2, g9, g5, g6, g7, g8, hiol, hcell⟩ :=
    init_neighbours hG hsize h hadj
  have hP1 : CountedPoints size d1 inp x em P := by
    cases hP with
    | given em k pts h => exact .given em k _ h
    | stored em k pts hd h => exact .stored em k _ (g8.trans hd) h
    | samples hd => exact .samples (g8.trans hd)
  have hval := samplingRegion_value (e := e) hG hsize g2 h.values h.inputOk hin g9 g5 g6 g7 hs hreg hP1
  obtain ⟨hBC⟩ : Nonempty (∀ ev, (∀ i, i ∈ e.B.read ev ↔ Interior x.length nei io ev i) ∧
      (∀ i, i ∈ e.C.read ev ↔ Touches x.length nei ev i) ∧ (e.B.read ev).Nodup ∧ (e.C.read ev).Nodup ∧
      e.B.read ev ⊆ e.C.read ev) := ⟨fun ev => C36_interior_subset (fun i => (hnei i 0).1) hsets ev⟩
  have hB : ∀ ev i, i ∈ e.B.read ev ↔ InteriorCell adj io ev i := fun ev i =>
    ((hBC ev).1 i).trans (interior_iff hiol hnei ev i)
  have hC : ∀ ev i, i < x.length → (i ∈ e.C.read ev ↔ TouchingCell adj io ev i) := fun ev i hi =>
    ((hBC ev).2.1 i).trans ((touches_iff hnei ev i).trans (and_iff_right hi))
  have f1 := flatten_arraySplit size (inside G s r P) hsize
  have f2 := flatten_arraySplit size (P.map (inp.cell G)) hsize
  have hsame : SameShape (arraySplit size (inside G s r P)) (arraySplit size (P.map (inp.cell G))) :=
    arraySplit_sameShape size _ _ (by simp [inside])
  have hlt : ∀ k ∈ P.map (inp.cell G), k < x.length := fun k hk => by
    obtain ⟨p, -, rfl⟩ := List.mem_map.1 hk
    exact SampleSet.cell_lt hG h.inputOk p
  refine ⟨e, d1, _, _, io, P.map (inp.cell G), inside G s r P, hinit, hval, hcell,
    forall₂_cells hG h.inputOk P, inside_spec hG hs hreg P, ?_, ?_⟩
  · refine (regionLoop_isSome io _ _ probs hsame (List.range probs.length) e 0 0 ?_).trans ?_
    · intro i _ _ k hk
      exact ⟨((hB i k).1 hk).1, (hBC i).2.2.2.2 hk⟩
    · rw [f2]
      constructor
      · intro hh i p hp hp0
        have hi := (List.getElem?_eq_some_iff.1 hp).1
        obtain ⟨k, hk, hm⟩ := hh i (List.mem_range.2 hi)
          (by rw [List.getD_eq_getElem?_getD, hp]; exact hp0)
        exact ⟨k, hk, (hB i k).1 hm⟩
      · intro hh i hi hp0
        have hi' := List.mem_range.1 hi
        obtain ⟨k, hk, hm⟩ := hh i probs[i] (List.getElem?_eq_getElem hi')
          (by rw [List.getD_eq_getElem?_getD, List.getElem?_eq_getElem hi'] at hp0; exact hp0)
        exact ⟨k, hk, (hB i k).2 hm⟩
  · intro up lo truth hb hres
    obtain ⟨r1, r2⟩ := regionLoop_exact io _ _ probs hsame (truth := truth) (by rw [f2]; exact hres.length)
      (by rw [f2, hiol]; exact hlt) (List.range probs.length) e 0 0
      (fun i _ hp k cl t h1 h2 hm => hres.interior k cl t i (f2 ▸ h1) h2 hp ((hB i cl).1 hm))
      (fun i _ hp k cl h1 h2 => (hC i cl (hlt _ (f2 ▸ List.mem_of_getElem? h1))).2
        (hres.cover k cl i (f2 ▸ h1) h2 hp)) hb
    rw [f1, f2, sub_zero] at r1 r2
    exact ⟨r1, r2⟩

end

/-! ### Contour events -/

section
open MeasureTheory
variable {X : Type} [MeasurableSpace X]

theorem volumeOf_cells {μ : Measure X} [IsFiniteMeasure μ] {V : Nat → Set X} {n : Nat} {vols : List ℝ}
    (h : CellSets μ V n vols) (P : Nat → Prop) : volumeOf vols P = μ.real (cellUnion V n P) := by
  classical
  have hu : cellUnion V n P = ⋃ j ∈ (Finset.range n).filter P, V j := by
    ext a
    simp [cellUnion, and_assoc]
  rw [hu, measureReal_biUnion_finset]
  · have hlen : vols.length = n := by rw [h.volumes]; simp
    unfold volumeOf
    rw [Finset.sum_filter, hlen, sum_range_list]
    refine Finset.sum_congr rfl fun j hj => ?_
    have hj := Finset.mem_range.1 hj
    have : vols.getD j 0 = μ.real (V j) := by
      rw [h.volumes, List.getD_eq_getElem?_getD, List.getElem?_map, List.getElem?_range hj]
      rfl
    rw [this]
  · intro i hi j hj hij
    simp only [Finset.coe_filter, Finset.mem_range] at hi hj
    exact h.disjoint i j hi.1 hj.1 hij
  · intro j hj
    exact h.measurable j (Finset.mem_range.1 (Finset.mem_filter.1 hj).1)

/-- **C134 (contour events).** For an input set with the exact volumes of its cells,
`sampling_error(disc)` and `calculate_for_contour_events()` succeed. For exact events that the cells
resolve and an event `i` of positive probability `p` whose interior has positive volume, the two numbers
for event `i` contain the difference between the part of the exact probability of the cells of the event
that comes from event `i` itself and the computed probability `p` of these cells; the lower one is also
below the full difference. The upper one need not be above it (`Ex.C134_negation_contour`). -/
theorem C134_contour {G : Geometry ℝ} (hG : Sound G) {size : Nat} (hsize : 0 < size)
    {argsort : List ℝ → List Nat} {delaunay : List (List ℝ) → Except Err (List (List Nat))} {d : Disc ℝ}
    {inp out ps : SampleSet ℝ} {x y : List (List ℝ)} {probs : List ℝ} {m : Nat}
    (h : SamplingProblem G d inp out ps x y probs m) (hem : EmulatedOk d) {adj : Nat → Nat → Prop}
    (hadj : CellNeighbours argsort delaunay x inp.dim adj) {μ : Measure X} [IsFiniteMeasure μ]
    {V : Nat → Set X} {vols : List ℝ} (hvol : inp.glob.volumes = some vols)
    (hV : CellSets μ V x.length vols) (hprobs : ∀ p ∈ probs, 0 ≤ p) :
    ∃ e d1 bounds e2 d2 event, samplingErrorInit G size argsort delaunay d = .ok (e, d1) ∧
      samplingContour G size e d1 = .ok (bounds, e2, d2) ∧ List.Forall₂ (IsCell G ps) y event ∧
      ∀ E : Nat → Set X, ResolvedSets V x.length adj event probs E →
        ∀ (i : Nat) p, probs[i]? = some p → 0 < p →
          0 < μ.real (cellUnion V x.length (InteriorCell adj event i)) →
          ∃ up lo, bounds[i]? = some (.fin up, .fin lo) ∧
            lo ≤ p * (μ.real (cellUnion V x.length (fun j => event[j]? = some i) ∩ E i) / μ.real (E i)) - p ∧
            p * (μ.real (cellUnion V x.length (fun j => event[j]? = some i) ∩ E i) / μ.real (E i)) - p ≤ up ∧
            lo ≤ exactProbability μ E probs (cellUnion V x.length fun j => event[j]? = some i) - p := by
  have hpos : ∀ w, inp.glob.volumes = some w → ∀ v ∈ w, 0 ≤ v := by
    intro w hw v hv
    rw [hvol] at hw
    obtain rfl := Option.some.inj hw
    rw [hV.volumes] at hv
    obtain ⟨j, -, rfl⟩ := List.mem_map.1 hv
    exact measureReal_nonneg
  have key : ∃ e d1 bounds e2 d2 event w, samplingErrorInit G size argsort delaunay d = .ok (e, d1) ∧
      samplingContour G size e d1 = .ok (bounds, e2, d2) ∧ List.Forall₂ (IsCell G ps) y event ∧
      UsedVolumes G d inp x.length w ∧ ContourBounds adj event w probs bounds := by
    cases hadj with
    | line z hdim hx hz hs hinv => exact C110_line hG hsize h hem hpos hdim hx hz hs hinv
    | simplices t hdim hd ht => exact C110_delaunay hG hsize h hem hpos hdim hd ht
  obtain ⟨e, d1, bounds, e2, d2, event, w, h1, h2, h3, h4, h5⟩ := key
  obtain rfl : vols = w := by
    rcases h4 with h4 | ⟨h4, -⟩ | ⟨h4, -⟩
    · exact Option.some.inj (hvol.symm.trans h4)
    · rw [hvol] at h4; cases h4
    · rw [hvol] at h4; cases h4
  refine ⟨e, d1, bounds, e2, d2, event, h1, h2, h3, fun E hE i p hp hp0 hB => ?_⟩
  have hpd : probs.getD i 0 = p := by rw [List.getD_eq_getElem?_getD, hp]; rfl
  obtain ⟨up, lo, hb, -, -, hup, hlo⟩ := h5.bound i p hp hp0 (by rw [volumeOf_cells hV]; exact hB)
  rw [volumeOf_cells hV, volumeOf_cells hV] at hup hlo
  set A := cellUnion V x.length (fun j => event[j]? = some i) with hA
  set B := cellUnion V x.length (InteriorCell adj event i) with hBdef
  set C := cellUnion V x.length (TouchingCell adj event i) with hCdef
  have hBE : B ⊆ E i := hE.interior i (by rw [hpd]; exact hp0)
  have hEC : E i ⊆ C := hE.cover i (by rw [hpd]; exact hp0)
  have hBA : B ⊆ A := fun a ⟨j, hj, hI, ha⟩ => ⟨j, hj, hI.1, ha⟩
  have hAC : A ∩ C ⊆ cellUnion V x.length (fun j => TouchingCell adj event i j ∧ event[j]? = some i) := by
    rintro a ⟨⟨j, hj, hI, ha⟩, ⟨k, hk, hT, ha'⟩⟩
    by_cases hjk : j = k
    · subst hjk
      exact ⟨j, hj, ⟨hT, hI⟩, ha⟩
    · exact absurd ha' (Set.disjoint_left.1 (hV.disjoint j k hj hk hjk) ha)
  have m1 : μ.real B ≤ μ.real (E i) := measureReal_mono hBE
  have m2 : μ.real (E i) ≤ μ.real C := measureReal_mono hEC
  have m3 : μ.real B ≤ μ.real (A ∩ E i) := measureReal_mono (Set.subset_inter hBA hBE)
  have m4 : μ.real (A ∩ E i) ≤
      μ.real (cellUnion V x.length (fun j => TouchingCell adj event i j ∧ event[j]? = some i)) :=
    measureReal_mono ((Set.inter_subset_inter_right A hEC).trans hAC)
  have pE : 0 < μ.real (E i) := hB.trans_le m1
  have q1 : μ.real B / μ.real C ≤ μ.real (A ∩ E i) / μ.real (E i) :=
    div_le_div₀ measureReal_nonneg m3 pE m2
  have q2 : μ.real (A ∩ E i) / μ.real (E i) ≤
      μ.real (cellUnion V x.length (fun j => TouchingCell adj event i j ∧ event[j]? = some i)) / μ.real B :=
    div_le_div₀ measureReal_nonneg m4 hB m1
  have r1 : lo ≤ p * (μ.real (A ∩ E i) / μ.real (E i)) - p := by
    rw [hlo]
    have := mul_le_mul_of_nonneg_left q1 hp0.le
    linarith
  refine ⟨up, lo, hb, r1, ?_, ?_⟩
  · rw [hup]
    have := mul_le_mul_of_nonneg_left q2 hp0.le
    linarith
  · refine r1.trans (sub_le_sub_right ?_ _)
    unfold exactProbability
    have hi : i < probs.length := (List.getElem?_eq_some_iff.1 hp).1
    have hmem : p * (μ.real (A ∩ E i) / μ.real (E i)) ∈ (List.range probs.length).map fun k =>
        probs.getD k 0 * (μ.real (A ∩ E k) / μ.real (E k)) :=
      List.mem_map.2 ⟨i, List.mem_range.2 hi, by rw [hpd]⟩
    refine List.single_le_sum (fun v hv => ?_) _ hmem
    obtain ⟨k, hk, rfl⟩ := List.mem_map.1 hv
    have hk := List.mem_range.1 hk
    have : 0 ≤ probs.getD k 0 := by
      rw [List.getD_eq_getElem?_getD, List.getElem?_eq_getElem hk]
      exact hprobs _ (List.getElem_mem hk)
    have := measureReal_nonneg (μ := μ) (s := A ∩ E k)
    have := measureReal_nonneg (μ := μ) (s := E k)
    positivity

end

/-! ### Examples -/

namespace Ex

/-- Six samples on the line, with cells of volume one. -/
def ebInput : SampleSet ℚ :=
  { dim := 1, glob := { values := some [[0], [1], [2], [3], [4], [5]], volumes := some [1, 1, 1, 1, 1, 1] } }

/-- Outputs in the two events: the first three samples in the first one. -/
def ebOut : SampleSet ℚ := { dim := 1, glob := { values := some [[0], [0], [0], [1], [1], [1]] } }

/-- The first event has the probability 1/10. -/
def ebMeasure : SampleSet ℚ :=
  { dim := 1, glob := { values := some [[0], [1]], probabilities := some [1 / 10, 9 / 10] } }

def ebDisc : Disc ℚ := { input := some ebInput, output := some ebOut, outputProb := some ebMeasure }

theorem ebProblem : Spec.SamplingProblem G ebDisc ebInput ebOut ebMeasure
    [[0], [1], [2], [3], [4], [5]] [[0], [0], [0], [1], [1], [1]] [1 / 10, 9 / 10] 2 where
  input := rfl
  inputOk := ⟨consistent_of _ _ rfl rfl, by decide, rfl, Or.inl rfl, nofun, nofun⟩
  values := rfl
  voronoi := rfl
  norm := rfl
  output := rfl
  outputOk := consistent_of _ _ rfl rfl
  outputs := rfl
  current := Or.inl rfl
  measure := rfl
  measureOk := ⟨consistent_of _ _ rfl rfl, by decide, rfl, Or.inl rfl, nofun, nofun⟩
  probs := rfl
  pointer := nofun

/-- The region 1 is the first three cells. -/
def ebRegion : SampleSet ℚ :=
  { dim := 1, glob := { values := some [[1], [4]], region := some [1, 2] } }

theorem ebRegion_ready : Spec.Ready ebRegion 2 :=
  ⟨consistent_of _ _ rfl rfl, by decide, rfl, Or.inl rfl, nofun, nofun⟩

theorem ebNeighbours : Spec.CellNeighbours (fun z : List ℚ => List.range z.length) (fun _ => .ok [])
    [[0], [1], [2], [3], [4], [5]] 1 (Spec.AdjacentOnLine [(0 : ℚ), 1, 2, 3, 4, 5]) :=
  Spec.CellNeighbours.line (argsort := fun z : List ℚ => List.range z.length)
    [0, 1, 2, 3, 4, 5] rfl rfl (by decide +kernel) ⟨by decide +kernel, by decide +kernel⟩ (by
    intro p a h
    obtain ⟨h1, rfl⟩ := List.getElem?_eq_some_iff.1 h
    simp only [List.getElem_range] at h ⊢
    exact h)

/-- The hypotheses of `C134_region` hold, on two processes. -/
example := C134_region (G := G) sound_G (size := 2) (by norm_num) ebProblem
  ⟨⟨nofun, nofun, nofun, nofun, nofun, nofun, nofun, nofun, nofun, nofun, nofun, nofun, nofun, nofun⟩,
    Or.inl rfl⟩ ebNeighbours ebRegion_ready (r := 1) ⟨_, rfl, by decide⟩ (.samples rfl)

/-- The bounds for the region with the samples as counted points, and for the contour events. -/
example : ((samplingErrorInit G 2 (fun z => List.range z.length) (fun _ => .ok []) ebDisc).toOption.bind
    fun q => (samplingRegion G 2 q.1 q.2 ebRegion 1 none).toOption.map fun r => r.1) =
    some (some (1 / 20 + 9 / 20, -1 / 20)) := by decide +kernel

theorem line_six (p q : Nat) (hp : p < 6) (hq : q < 6) (h : p = q + 1 ∨ q = p + 1) :
    Spec.AdjacentOnLine [(0 : ℚ), 1, 2, 3, 4, 5] p q := by
  have key : ∀ (p : Nat) (hp : p < 6) (q : Nat) (hq : q < 6), (p = q + 1 ∨ q = p + 1) →
      [(0 : ℚ), 1, 2, 3, 4, 5][p] ≠ [(0 : ℚ), 1, 2, 3, 4, 5][q] ∧ ∀ (r : Nat) (hr : r < 6),
        ¬ ([(0 : ℚ), 1, 2, 3, 4, 5][p] < [(0 : ℚ), 1, 2, 3, 4, 5][r] ∧
          [(0 : ℚ), 1, 2, 3, 4, 5][r] < [(0 : ℚ), 1, 2, 3, 4, 5][q]) ∧
        ¬ ([(0 : ℚ), 1, 2, 3, 4, 5][q] < [(0 : ℚ), 1, 2, 3, 4, 5][r] ∧
          [(0 : ℚ), 1, 2, 3, 4, 5][r] < [(0 : ℚ), 1, 2, 3, 4, 5][p]) := by
    decide +kernel
  exact ⟨hp, hq, key p hp q hq h⟩

/-- The model really sends the third sample to the second event; the cells resolve this. -/
theorem eb_resolved : Spec.Resolved (Spec.AdjacentOnLine [(0 : ℚ), 1, 2, 3, 4, 5]) [0, 0, 0, 1, 1, 1]
    [(1 / 10 : ℚ), 9 / 10] [0, 1, 2, 3, 4, 5] [0, 0, 1, 1, 1, 1] where
  length := rfl
  interior := by
    intro k c t i hc ht _ hI
    have hk : k < 6 := (List.getElem?_eq_some_iff.1 hc).1
    obtain ⟨h1, -, h3⟩ := hI
    have h23 := h3 3 1
    interval_cases k <;> simp at hc ht <;> subst hc <;> subst ht <;> simp at h1 <;> subst h1 <;> try rfl
    exact h23 (line_six 2 3 (by decide) (by decide) (by decide)) rfl
  cover := by
    intro k c t hc ht _
    have hk : k < 6 := (List.getElem?_eq_some_iff.1 hc).1
    interval_cases k <;> simp at hc ht <;> subst hc <;> subst ht
    · exact ⟨1, line_six _ _ (by decide) (by decide) (by decide), rfl⟩
    · exact ⟨0, line_six _ _ (by decide) (by decide) (by decide), rfl⟩
    · exact ⟨3, line_six _ _ (by decide) (by decide) (by decide), rfl⟩
    · exact ⟨4, line_six _ _ (by decide) (by decide) (by decide), rfl⟩
    · exact ⟨3, line_six _ _ (by decide) (by decide) (by decide), rfl⟩
    · exact ⟨4, line_six _ _ (by decide) (by decide) (by decide), rfl⟩

/-- The error of the region is 9/40, inside the bounds of the region. -/
example : Spec.regionError [true, true, true, false, false, false] [0, 0, 1, 1, 1, 1] [0, 0, 0, 1, 1, 1]
    [(1 / 10 : ℚ), 9 / 10] = 9 / 40 := by decide +kernel

/-- **C134 fails for the upper bound of `calculate_for_contour_events`.** One sample in every cell of
volume one, and the events are resolved. The exact probability of the cells of the first event is larger
than the computed one by more than the upper bound for this event, because a part of the second event
lies in these cells and the bound does not count it. -/
theorem C134_negation_contour :
    ∃ up, ((samplingErrorInit G 2 (fun z => List.range z.length) (fun _ => .ok []) ebDisc).toOption.bind
      fun q => (samplingContour G 2 q.1 q.2).toOption.map fun r => r.1[0]?.map fun b => b.1) =
        some (some (.fin up)) ∧
    Spec.Resolved (Spec.AdjacentOnLine [(0 : ℚ), 1, 2, 3, 4, 5]) [0, 0, 0, 1, 1, 1] [(1 / 10 : ℚ), 9 / 10]
      [0, 1, 2, 3, 4, 5] [0, 0, 1, 1, 1, 1] ∧
    up < Spec.regionError ([0, 0, 0, 1, 1, 1].map fun ev => decide (ev = 0)) [0, 0, 1, 1, 1, 1]
      [0, 0, 0, 1, 1, 1] [(1 / 10 : ℚ), 9 / 10] :=
  ⟨1 / 20, by decide +kernel, eb_resolved, by decide +kernel⟩

/-- **C134 fails for events that are not resolved.** Here the model really sends the second sample, in an
interior cell of the first event, to the second event: the error of the region is outside the bounds. -/
theorem C134_negation_unresolved :
    ∃ up lo, ((samplingErrorInit G 2 (fun z => List.range z.length) (fun _ => .ok []) ebDisc).toOption.bind
      fun q => (samplingRegion G 2 q.1 q.2 ebRegion 1 none).toOption.map fun r => r.1) =
        some (some (up, lo)) ∧
    up < Spec.regionError [true, true, true, false, false, false] [1, 1, 1, 1, 0, 0] [0, 0, 0, 1, 1, 1]
      [(1 / 10 : ℚ), 9 / 10] :=
  ⟨1 / 20 + 9 / 20, -1 / 20, by decide +kernel, by decide +kernel⟩

open MeasureTheory in
/-- The cells of six points, one in every cell. -/
noncomputable def rbVols : List ℝ :=
  (List.range 6).map fun j => (Measure.count : Measure (Fin 6)).real {k : Fin 6 | k.val = j}

noncomputable def rbInput : SampleSet ℝ :=
  { dim := 1, glob := { values := some [[0], [1], [2], [3], [4], [5]], volumes := some rbVols } }

noncomputable def rbOut : SampleSet ℝ := { dim := 1, glob := { values := some [[0], [0], [0], [1], [1], [1]] } }

noncomputable def rbMeasure : SampleSet ℝ :=
  { dim := 1, glob := { values := some [[0], [1]], probabilities := some [1 / 10, 9 / 10] } }

noncomputable def rbDisc : Disc ℝ :=
  { input := some rbInput, output := some rbOut, outputProb := some rbMeasure }

theorem rbProblem : Spec.SamplingProblem euclid rbDisc rbInput rbOut rbMeasure
    [[0], [1], [2], [3], [4], [5]] [[0], [0], [0], [1], [1], [1]] [1 / 10, 9 / 10] 2 where
  input := rfl
  inputOk := ⟨SampleSet.consistent_of_checkNum (size := 1) rfl rfl, by norm_num, rfl, Or.inl rfl, nofun, nofun⟩
  values := rfl
  voronoi := rfl
  norm := rfl
  output := rfl
  outputOk := SampleSet.consistent_of_checkNum (size := 1) rfl rfl
  outputs := rfl
  current := Or.inl rfl
  measure := rfl
  measureOk := ⟨SampleSet.consistent_of_checkNum (size := 1) rfl rfl, by norm_num, rfl, Or.inl rfl, nofun, nofun⟩
  probs := rfl
  pointer := nofun

theorem rbCells : Spec.CellSets (MeasureTheory.Measure.count : MeasureTheory.Measure (Fin 6))
    (fun j => {k : Fin 6 | k.val = j}) 6 rbVols where
  measurable := fun _ _ => MeasurableSet.of_discrete
  disjoint := fun _ _ _ _ hij => Set.disjoint_left.2 fun _ hk hk' => hij (hk.symm.trans hk')
  volumes := rfl

theorem rbNeighbours : Spec.CellNeighbours (fun z : List ℝ => List.range z.length) (fun _ => .ok [])
    [[0], [1], [2], [3], [4], [5]] 1 (Spec.AdjacentOnLine [(0 : ℝ), 1, 2, 3, 4, 5]) :=
  Spec.CellNeighbours.line (argsort := fun z : List ℝ => List.range z.length)
    [0, 1, 2, 3, 4, 5] rfl rfl (by norm_num) ⟨List.Perm.refl _, by
      show List.Pairwise (· ≤ ·) [(0 : ℝ), 1, 2, 3, 4, 5]
      norm_num⟩ (by
    intro p a h
    obtain ⟨h1, rfl⟩ := List.getElem?_eq_some_iff.1 h
    simp only [List.getElem_range] at h ⊢
    exact h)

/-- The hypotheses of `C134_contour` hold. -/
example := C134_contour euclid_sound (size := 2) (by norm_num) rbProblem
  (fun _ h => by simp [rbDisc] at h) rbNeighbours rfl rbCells
  (by intro p hp; simp at hp; rcases hp with rfl | rfl <;> norm_num)

/-- Exact events that the cells resolve: the third cell really belongs to the second event. -/
example (adj : Nat → Nat → Prop)
    (hadj : ∀ p q, adj p q ↔ p < 6 ∧ q < 6 ∧ (p = q + 1 ∨ q = p + 1)) :
    Spec.ResolvedSets (fun j => {k : Fin 6 | k.val = j}) 6 adj [0, 0, 0, 1, 1, 1] [1 / 10, 9 / 10]
      (fun i => {k : Fin 6 | if i = 0 then k.val < 2 else 2 ≤ k.val}) where
  interior := by
    rintro i hi k ⟨j, hj, ⟨h1, -, h3⟩, rfl⟩
    have h23 := h3 3 1
    have h32 := h3 2 0
    obtain ⟨k, hk⟩ := k
    simp only [hadj] at h23 h32
    simp only at h1 h23 h32 ⊢
    interval_cases k <;> simp at h1 h23 h32 <;> subst h1 <;> simp_all
  cover := by
    intro i hi k hk
    obtain ⟨k, hk6⟩ := k
    have hi2 : i < 2 := by
      by_contra h
      rw [List.getD_eq_getElem?_getD, List.getElem?_eq_none (by simp; omega)] at hi
      simp at hi
    refine ⟨k, hk6, ?_, rfl⟩
    simp only [Set.mem_ofPred_eq] at hk
    interval_cases i <;> simp at hk
    · interval_cases k
      · exact ⟨1, (hadj _ _).2 (by decide), rfl⟩
      · exact ⟨0, (hadj _ _).2 (by decide), rfl⟩
    · interval_cases k
      · exact ⟨3, (hadj _ _).2 (by decide), rfl⟩
      · exact ⟨4, (hadj _ _).2 (by decide), rfl⟩
      · exact ⟨3, (hadj _ _).2 (by decide), rfl⟩
      · exact ⟨4, (hadj _ _).2 (by decide), rfl⟩

end Ex

end BET
