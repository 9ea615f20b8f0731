import Verif.Props.ErrorQueries
import Verif.Lemmas.Fresh
import Verif.Lemmas.Query

/-!
# Model error estimates (C40, C70, C72)
-/

set_option autoImplicit false
set_option linter.unusedSectionVars false
set_option linter.unusedSimpArgs false

namespace BET

open Spec

section
variable {K : Type} [Field K] [LinearOrder K] [IsStrictOrderedRing K]

/-! ### Sums over masks -/

theorem andMask_self (m : Chunks Bool) : andMask m m = m := by
  unfold andMask
  rw [List.zipWith_self]
  conv_rhs => rw [← List.map_id m]
  refine List.map_congr_left fun c _ => ?_
  rw [List.zipWith_self]
  conv_rhs => rw [id, ← List.map_id c]
  exact List.map_congr_left fun b _ => Bool.and_self b

/-- The volume of contour event `i`: the total volume of the samples whose output is in cell
`i`. -/
theorem sumMask_eqMask (vols : Chunks K) (io : Chunks Nat) (i : Nat) (h : SameShape io vols) :
    sumMask vols (eqMask io i) = mass io.flatten vols.flatten i := by
  unfold sumMask eqMask allreduceSum
  rw [mass_flatten _ _ _ h]
  congr 1
  rw [List.zipWith_map_right, List.zipWith_comm]
  congr 1
  funext c v
  exact maskSel_npEqual_sum c v i

theorem maskSel_sum_mono (v : List K) (a b : List Bool) (hv : ∀ x ∈ v, 0 ≤ x) :
    (maskSel v (List.zipWith (· && ·) a b)).sum ≤ (maskSel v b).sum ∧
      0 ≤ (maskSel v (List.zipWith (· && ·) a b)).sum := by
  induction v generalizing a b with
  | nil =>
    cases b <;> cases a <;> exact ⟨le_rfl, le_rfl⟩
  | cons x v ih =>
    cases b with
    | nil => cases a <;> exact ⟨le_rfl, le_rfl⟩
    | cons b bs =>
      have hx := hv x (List.mem_cons_self ..)
      have hv' : ∀ y ∈ v, 0 ≤ y := fun y hy => hv y (List.mem_cons_of_mem _ hy)
      cases a with
      | nil =>
        refine ⟨?_, le_rfl⟩
        show (0 : K) ≤ _
        have hnn : ∀ (v : List K) (m : List Bool), (∀ y ∈ v, 0 ≤ y) → 0 ≤ (maskSel v m).sum := by
          intro v
          induction v with
          | nil => intro m _; cases m <;> exact le_rfl
          | cons y v ih =>
            intro m hy
            cases m with
            | nil => exact le_rfl
            | cons b m =>
              have h1 := hy y (List.mem_cons_self ..)
              have h2 := ih m fun z hz => hy z (List.mem_cons_of_mem _ hz)
              cases b
              · exact h2
              · exact add_nonneg h1 h2
        exact hnn _ _ hv
      | cons a as =>
        obtain ⟨h1, h2⟩ := ih as bs hv'
        cases a <;> cases b <;> simp only [List.zipWith_cons_cons, maskSel, Bool.and_true,
          Bool.and_false, Bool.and_self, if_true, if_false, List.sum_cons, Bool.false_eq_true]
        · exact ⟨h1, h2⟩
        · exact ⟨by linarith, h2⟩
        · exact ⟨h1, h2⟩
        · exact ⟨by linarith, by linarith⟩

theorem sumMask_mono (vols : Chunks K) (a b : Chunks Bool)
    (hv : ∀ c ∈ vols, ∀ x ∈ c, 0 ≤ x) (hab : vols.length ≤ a.length) :
    sumMask vols (andMask a b) ≤ sumMask vols b ∧ 0 ≤ sumMask vols (andMask a b) := by
  unfold sumMask andMask allreduceSum
  induction vols generalizing a b with
  | nil => simp
  | cons v vols ih =>
    cases a with
    | nil => simp at hab
    | cons a as =>
      cases b with
      | nil => simp
      | cons b bs =>
        obtain ⟨h1, h2⟩ := ih as bs (fun c hc => hv c (List.mem_cons_of_mem _ hc))
          (by simpa using hab)
        obtain ⟨h3, h4⟩ := maskSel_sum_mono v a b (hv v (List.mem_cons_self ..))
        simp only [List.zipWith_cons_cons, List.sum_cons]
        exact ⟨add_le_add h3 h1, add_nonneg h4 h2⟩

/-! ### C40 -/

/-- **C40 (contour events, partial).** When the two pointers agree, the model error of every
contour event of probability zero or of non-zero volume is 0. An event of positive probability
and volume zero gives `nan` instead: the second part says so. -/
theorem C40_contour_partial {vols : Chunks K} {io : Chunks Nat} {probs : List K} {i : Nat} {p : K}
    (hs : SameShape io vols) (hp : probs[i]? = some p) :
    (0 < p → mass io.flatten vols.flatten i ≠ 0) →
      (modelContour vols io io probs)[i]? = some (.fin 0) := by
  intro hne
  have hi : i < probs.length := (List.getElem?_eq_some_iff.1 hp).1
  have hpd : probs.getD i 0 = p := by rw [List.getD_eq_getElem?_getD, hp]; rfl
  rw [modelContour, List.getElem?_map, List.getElem?_range hi]
  simp only [Option.map_some, hpd, andMask_self, sumMask_eqMask vols io i hs]
  by_cases h0 : 0 < p
  · have := hne h0
    rw [if_pos h0, modelTerm, Num.div, if_neg (mul_ne_zero this this), sub_self, zero_div]
    simp [Num.scale]
  · rw [if_neg h0]

/-- **C40, the exact answer** for contour events when the two pointers agree: `nan` precisely for
events of positive probability and volume zero. -/
theorem C40_contour_nan {vols : Chunks K} {io : Chunks Nat} {probs : List K} {i : Nat} {p : K}
    (hs : SameShape io vols) (hp : probs[i]? = some p) (h0 : 0 < p)
    (hne : mass io.flatten vols.flatten i = 0) :
    (modelContour vols io io probs)[i]? = some .nan := by
  have hi : i < probs.length := (List.getElem?_eq_some_iff.1 hp).1
  have hpd : probs.getD i 0 = p := by rw [List.getD_eq_getElem?_getD, hp]; rfl
  rw [modelContour, List.getElem?_map, List.getElem?_range hi]
  simp only [Option.map_some, hpd, andMask_self, sumMask_eqMask vols io i hs, if_pos h0, modelTerm,
    hne, Num.div, mul_zero, sub_self, if_true]
  rfl

/-- The emulated points in contour event `i`. -/
theorem countMask_event (io : List Nat) (i : Nat) (ii : Chunks Nat) :
    countMask (eventMask io i ii) = ii.flatten.countP fun k => decide (io[k]? = some i) := by
  have : eventMask io i ii = ii.map fun c => c.map fun k => decide (io[k]? = some i) := by
    unfold eventMask
    refine List.map_congr_left fun c _ => List.map_congr_left fun k _ => ?_
    rw [List.getD_eq_getElem?_getD, npEqual, List.getElem?_map]
    cases io[k]? with
    | none => simp
    | some j => simp only [Option.map_some, Option.getD_some, Option.some.injEq,
        Nat.beq_eq_true_eq, beq_eq_decide]
  rw [this, countMask_map]

theorem modelTermPy_self (p a : K) (j : K) (hj : j ≠ 0) :
    modelTermPy p a j a j = .ok 0 := by
  unfold modelTermPy
  rw [raiseIf_false (by simp [hj])]
  show Except.ok _ = _
  rw [sub_self, zero_div, mul_zero]

/-- **C40 (region, partial).** When the two pointers agree and every event of positive probability
has an emulated point, the model error of every region is 0. Without an emulated point in such an
event the method raises `ZeroDivisionError` (`C40_region_raises`). -/
theorem C40_region_partial (inA : Chunks Bool) (ii : Chunks Nat) (io : List Nat) (probs : List K)
    (hne : ∀ i < probs.length, 0 < probs.getD i 0 → ∃ k ∈ ii.flatten, io[k]? = some i) :
    modelRegion inA ii io io probs = .ok 0 := by
  have : ∀ l : List Nat, (∀ i ∈ l, i < probs.length) →
      l.foldlM (modelRegionStep inA ii io io probs) 0 = .ok 0 := by
    intro l
    induction l with
    | nil => exact fun _ => rfl
    | cons i l ih =>
      intro hl
      have hstep : modelRegionStep inA ii io io probs 0 i = .ok 0 := by
        unfold modelRegionStep
        split
        · next hp =>
          obtain ⟨k, hk, hio⟩ := hne i (hl i (List.mem_cons_self ..)) hp
          rw [modelTermPy_self]
          · show Except.ok _ = _
            rw [add_zero]
          · rw [Ne, Nat.cast_eq_zero, countMask_event, List.countP_eq_zero]
            intro h
            exact absurd hio (by simpa using h k hk)
        · rfl
      rw [List.foldlM_cons, hstep]
      exact ih fun j hj => hl j (List.mem_cons_of_mem _ hj)
  exact this _ fun i hi => List.mem_range.1 hi

/-- **C40**: an event of positive probability without emulated points makes the region method
raise, whatever the pointers. -/
theorem C40_region_raises (inA : Chunks Bool) (ii : Chunks Nat) (io io' : List Nat)
    (probs : List K) {i : Nat} (hi : i < probs.length) (hp : 0 < probs.getD i 0)
    (hno : ∀ k ∈ ii.flatten, io[k]? ≠ some i) :
    modelRegion inA ii io io' probs = .error .zeroDivision := by
  have hz : countMask (eventMask io i ii) = 0 := by
    rw [countMask_event, List.countP_eq_zero]
    intro k hk
    simpa using hno k hk
  have key : ∀ (l : List Nat) (er : K), i ∈ l →
      l.foldlM (modelRegionStep inA ii io io' probs) er = .error .zeroDivision := by
    intro l
    induction l with
    | nil => intro er h; cases h
    | cons j l ih =>
      intro er hmem
      rw [List.foldlM_cons]
      by_cases hj : j = i
      · subst hj
        unfold modelRegionStep
        rw [if_pos hp]
        simp only [modelTermPy, hz, Nat.cast_zero, zero_mul, raiseIf, decide_true, if_true]
        rfl
      · have hl : i ∈ l := by
          rcases List.mem_cons.1 hmem with rfl | h
          · exact absurd rfl hj
          · exact h
        cases hs : modelRegionStep inA ii io io' probs er j with
        | ok er' => exact ih er' hl
        | error e =>
          -- the only error is a division by zero
          have : e = .zeroDivision := by
            unfold modelRegionStep at hs
            split at hs
            · unfold modelTermPy at hs
              unfold raiseIf at hs
              split at hs
              · cases hs; rfl
              · cases hs
            · cases hs
          subst this
          rfl
  exact key _ _ (List.mem_range.2 hi)

theorem countMask_eqMask (io : Chunks Nat) (i : Nat) :
    countMask (eqMask io i) = hits io.flatten i := by
  have : eqMask io i = io.map fun c => c.map fun k => k == i := rfl
  rw [this, countMask_map]
  rfl

theorem neMask_self (m : Chunks Bool) : countMask (neMask m m) = 0 := by
  have : neMask m m = m.map fun c => c.map fun _ => false := by
    unfold neMask
    rw [List.zipWith_self]
    refine List.map_congr_left fun c _ => ?_
    rw [List.zipWith_self]
    exact List.map_congr_left fun b _ => by simp
  rw [this, countMask_map, List.countP_eq_zero]
  exact fun _ _ => Bool.false_ne_true

/-- Only the cells whose event changes are charged: the other two cases of the code are empty. -/
theorem errorCells_eq (inA in1 in2 : Chunks Bool) (h1 : SameShape inA in1)
    (h2 : SameShape in1 in2) : errorCells inA in1 in2 = neMask in1 in2 := by
  unfold errorCells errorCells.orMask neMask andMask
  induction h1 generalizing in2 with
  | nil => cases h2; rfl
  | @cons a b as bs hl _ ih =>
    obtain ⟨c, cs, rfl⟩ : ∃ c cs, in2 = c :: cs := by
      cases h2 with
      | cons _ _ => exact ⟨_, _, rfl⟩
    have hc : b.length = c.length := by cases h2 with | cons h _ => exact h
    have hcs : SameShape bs cs := by cases h2 with | cons _ h => exact h
    simp only [List.map_cons, List.zipWith_cons_cons, ih cs hcs]
    congr 1
    clear ih h2 hcs
    induction a generalizing b c with
    | nil =>
      cases b with
      | nil => simp
      | cons _ _ => simp at hl
    | cons x a ih =>
      cases b with
      | nil => simp at hl
      | cons y b =>
        cases c with
        | nil => simp at hc
        | cons z c =>
          simp only [List.map_cons, List.zipWith_cons_cons]
          rw [ih (by simpa using hl) _ (by simpa using hc)]
          congr 1
          cases x <;> cases y <;> cases z <;> rfl

theorem modelTermMc_self (p a j : K) (hj : j ≠ 0) : modelTermMc p a j a j = .fin 0 := by
  unfold modelTermMc
  rw [if_neg (mul_ne_zero hj hj), sub_self, zero_div, mul_zero]

/-- **C40 (region by Monte Carlo, partial).** When the two pointers agree and every event of
positive probability contains a sample, the estimate is 0 and no cell is charged. Without a sample
in such an event the estimate is infinite (`Ex.C40_negation_mc`). -/
theorem C40_region_mc_partial (inA : Chunks Bool) (io : Chunks Nat) (probs : List K)
    (hs : SameShape inA io)
    (hne : ∀ i < probs.length, 0 < probs.getD i 0 → i ∈ io.flatten) :
    modelRegionMc inA io io probs = (.fin 0, io.map fun c => c.map fun _ => .fin 0) := by
  have : ∀ l : List Nat, (∀ i ∈ l, i < probs.length) → ∀ ids,
      l.foldl (modelMcStep inA io io probs) (.fin 0, ids) = (.fin 0, ids) := by
    intro l
    induction l with
    | nil => exact fun _ _ => rfl
    | cons i l ih =>
      intro hl ids
      have hstep : modelMcStep inA io io probs (.fin 0, ids) i = (.fin 0, ids) := by
        unfold modelMcStep
        split
        · next hp =>
          have hm := hne i (hl i (List.mem_cons_self ..)) hp
          have hsh : SameShape io (eqMask io i) := SameShape.map_map io _
          simp only
          rw [modelTermMc_self, errorCells_eq _ _ _ (hs.trans hsh) (SameShape.refl _), charge,
            if_pos (neMask_self _)]
          · simp [Num.add]
          · rw [Ne, Nat.cast_eq_zero, countMask_eqMask, hits]
            exact fun h => (List.count_pos_iff.2 hm).ne' h
        · rfl
      rw [List.foldl_cons, hstep]
      exact ih (fun j hj => hl j (List.mem_cons_of_mem _ hj)) ids
  exact this _ (fun i hi => List.mem_range.1 hi) _

/-! ### The constructor -/

/-- **C40 (constructor).** For a discretization without pointers, `model_error` computes the
output cell of every output value and of every output value plus its error estimate. -/
theorem C40_constructor {G : Geometry K} {size n m : Nat} {d : Disc K} {inp out ops : SampleSet K}
    {y er : List (List K)} (hinp : d.input = some inp) (hinpc : Consistent inp n)
    (hout : d.output = some out) (houtc : Consistent out n)
    (hy : out.glob.values = some y) (her : out.glob.errorEstimates = some er)
    (hlen : er.length = y.length)
    (hops : d.outputProb = some ops) (hr : Ready ops m) (hio : d.ioPtrLocal = none)
    (hsize : 0 < size) :
    ∃ d' ptr, modelErrorInit G size d = .ok (d', ptr) ∧
      d'.ioPtrLocal = some (arraySplit size (y.map (ops.cell G))) ∧
      ptr = arraySplit size
        ((List.zipWith (List.zipWith (· + ·)) y er).map (ops.cell G)) := by
  have hsplit := SampleSet.globalToLocal_ok houtc size
  have hv : (out.splitSet size n).loc.values = some (arraySplit size y) := by
    simp [SampleSet.splitSet, Arrays.map₂, hy]
  have he : (out.splitSet size n).loc.errorEstimates = some (arraySplit size er) := by
    simp [SampleSet.splitSet, Arrays.map₂, her]
  have heg : (out.splitSet size n).glob.errorEstimates = some er := her
  have hoc : Consistent (out.splitSet size n) n := houtc
  obtain ⟨ops', hq, hr', hcell, -⟩ := SampleSet.query_ready (G := G) (size := size) hr
    (arraySplit size y)
  obtain ⟨ops'', hq', -, -, -⟩ := SampleSet.query_ready (G := G) (size := size) hr'
    (addErrors (arraySplit size y) (arraySplit size er))
  have hadd : addErrors (arraySplit size y) (arraySplit size er) =
      arraySplit size (List.zipWith (List.zipWith (· + ·)) y er) := by
    have hss := arraySplit_sameShape size y er hlen.symm
    refine eq_of_flatten_eq ?_ ?_
    · refine (hss.zipWith_left _).symm.trans (arraySplit_sameShape size _ _ ?_)
      simp [hlen]
    · rw [addErrors, flatten_zipWith_zipWith _ hss, flatten_arraySplit _ _ hsize,
        flatten_arraySplit _ _ hsize, flatten_arraySplit _ _ hsize]
  have hcn : ∀ d : Disc K, d.input = some inp → d.output = some (out.splitSet size n) →
      d.checkNums size = .ok n := fun d h1 h2 => by
    unfold Disc.checkNums
    simp [h1, h2, SampleSet.checkNum_consistent hinpc, SampleSet.checkNum_consistent hoc, pure,
      Except.pure]
  have hrun : modelErrorInit G size d = .ok ({ d with
      output := some (out.splitSet size n)
      outputProb := some ops'
      ioPtrLocal := some ((arraySplit size y).map fun c => c.map (ops.cell G))
      ioPtr := some (getGlobalValues ((arraySplit size y).map fun c => c.map (ops.cell G))) },
      (addErrors (arraySplit size y) (arraySplit size er)).map fun c => c.map (ops'.cell G)) := by
    unfold modelErrorInit modelErrorNew
    rw [hout]
    simp only [orErr_some, ok_bind, hsplit, heg, Option.isNone_some, Bool.false_and, raiseIf]
    rw [if_neg (by simp), ok_bind, hcn _ (by exact hinp) rfl, ok_bind]
    simp only [ensureIoPtr, hio, Option.isNone_none, if_true, Disc.setIoPtr, orErr_some, ok_bind,
      SampleSet.localized_some size hv, hops, hv, hq, pure_bind_ok, he]
    rw [SampleSet.localized_some size rfl]
    simp only [ok_bind, orErr_some, hq']
    rfl
  refine ⟨_, _, hrun, ?_, ?_⟩
  · simp only [arraySplit_map]
  · rw [hadd, hcell, arraySplit_map]

/-- **C40 (the exact model).** If adding its error estimate moves no output value to another
output cell, the two pointers of a fresh `model_error` agree, so that the estimates are those of
`C40_contour_partial`, `C40_region_partial` and `C40_region_mc_partial`. -/
theorem C40_exact_model {G : Geometry K} {size n m : Nat} {d : Disc K}
    {inp out ops : SampleSet K}
    {y er : List (List K)} (hinp : d.input = some inp) (hinpc : Consistent inp n)
    (hout : d.output = some out) (houtc : Consistent out n)
    (hy : out.glob.values = some y) (her : out.glob.errorEstimates = some er)
    (hlen : er.length = y.length)
    (hops : d.outputProb = some ops) (hr : Ready ops m) (hio : d.ioPtrLocal = none)
    (hsize : 0 < size)
    (hexact : ∀ (i : Nat) (a b : List K), y[i]? = some a → er[i]? = some b →
      ops.cell G (List.zipWith (· + ·) a b) = ops.cell G a) :
    ∃ d' ptr, modelErrorInit G size d = .ok (d', ptr) ∧ d'.ioPtrLocal = some ptr := by
  obtain ⟨d', ptr, h1, h2, rfl⟩ := C40_constructor hinp hinpc hout houtc hy her hlen hops hr hio
    hsize
  refine ⟨d', _, h1, ?_⟩
  rw [h2]
  congr 2
  refine List.ext_getElem? fun i => ?_
  rw [List.getElem?_map, List.getElem?_map, List.getElem?_zipWith]
  cases hyi : y[i]? with
  | none => rfl
  | some a =>
    cases hei : er[i]? with
    | none =>
      have h3 := (List.getElem?_eq_some_iff.1 hyi).1
      rw [List.getElem?_eq_none_iff, hlen] at hei
      omega
    | some b => exact congrArg some (hexact i a b hyi hei).symm

/-! ### C70: size of the estimates -/

/-- **C70 (contour events).** For non-negative volumes the model error of a contour event whose
two volumes are not zero lies between 0 and its probability. -/
theorem C70_contour_bounds {vols : Chunks K} {io io' : Chunks Nat} {probs : List K} {i : Nat}
    {p : K} (hs : SameShape io vols) (hs' : SameShape io' vols)
    (hv : ∀ c ∈ vols, ∀ x ∈ c, 0 ≤ x) (hp : probs[i]? = some p) (hp0 : 0 ≤ p)
    (hJ : mass io.flatten vols.flatten i ≠ 0) (hJ' : mass io'.flatten vols.flatten i ≠ 0) :
    ∃ er, (modelContour vols io io' probs)[i]? = some (.fin er) ∧ 0 ≤ er ∧ er ≤ p := by
  have hi : i < probs.length := (List.getElem?_eq_some_iff.1 hp).1
  have hpd : probs.getD i 0 = p := by rw [List.getD_eq_getElem?_getD, hp]; rfl
  rw [modelContour, List.getElem?_map, List.getElem?_range hi]
  simp only [Option.map_some, hpd, sumMask_eqMask vols io i hs, sumMask_eqMask vols io' i hs']
  have hlen : vols.length ≤ (eqMask io i).length := by
    rw [eqMask, List.length_map, hs.length_eq]
  obtain ⟨h1, h2⟩ := sumMask_mono vols (eqMask io i) (eqMask io' i) hv hlen
  rw [sumMask_eqMask vols io' i hs'] at h1
  set j := mass io.flatten vols.flatten i
  set j' := mass io'.flatten vols.flatten i
  set a := sumMask vols (andMask (eqMask io i) (eqMask io' i))
  have hj' : 0 < j' := lt_of_le_of_ne (h2.trans h1) (Ne.symm hJ')
  by_cases h0 : 0 < p
  · refine ⟨p * (1 - a / j'), ?_, ?_, ?_⟩
    · rw [if_pos h0, modelTerm, Num.div, if_neg (mul_ne_zero hJ hJ')]
      simp only [Num.scale]
      congr 3
      field_simp
    · refine mul_nonneg hp0 (sub_nonneg.2 ?_)
      rw [div_le_one hj']; exact h1
    · have : 0 ≤ a / j' := div_nonneg h2 hj'.le
      nlinarith
  · refine ⟨0, by rw [if_neg h0], le_rfl, hp0⟩

/-- One term of the estimate for a region is at most the probability of the event. -/
theorem modelTermPy_bound {p a j a' j' t : K} (hp : 0 ≤ p) (ha : 0 ≤ a) (haj : a ≤ j)
    (ha' : 0 ≤ a') (haj' : a' ≤ j') (h : modelTermPy p a j a' j' = .ok t) : |t| ≤ p := by
  unfold modelTermPy at h
  rw [bind_eq_ok] at h
  obtain ⟨_, h1, h⟩ := h
  rw [raiseIf_eq_ok] at h1
  cases h
  have hne : j * j' ≠ 0 := by simpa using h1
  have hj : j ≠ 0 := left_ne_zero_of_mul hne
  have hj' : j' ≠ 0 := right_ne_zero_of_mul hne
  have hjp : 0 < j := lt_of_le_of_ne (ha.trans haj) (Ne.symm hj)
  have hjp' : 0 < j' := lt_of_le_of_ne (ha'.trans haj') (Ne.symm hj')
  have heq : (a * j' - a' * j) / (j * j') = a / j - a' / j' := by field_simp
  rw [heq, abs_mul, abs_of_nonneg hp]
  have e1 : 0 ≤ a / j := div_nonneg ha hjp.le
  have e2 : a / j ≤ 1 := (div_le_one hjp).2 haj
  have e3 : 0 ≤ a' / j' := div_nonneg ha' hjp'.le
  have e4 : a' / j' ≤ 1 := (div_le_one hjp').2 haj'
  have : |a / j - a' / j'| ≤ 1 := abs_le.2 ⟨by linarith, by linarith⟩
  calc p * |a / j - a' / j'| ≤ p * 1 := mul_le_mul_of_nonneg_left this hp
    _ = p := mul_one p

theorem countMask_and_le (inA m : Chunks Bool) : countMask (andMask inA m) ≤ countMask m := by
  unfold countMask andMask allreduceSum
  induction inA generalizing m with
  | nil => simp
  | cons a inA ih =>
    cases m with
    | nil => simp
    | cons b m =>
      simp only [List.zipWith_cons_cons, List.map_cons, List.sum_cons]
      refine Nat.add_le_add ?_ (ih m)
      clear ih
      induction a generalizing b with
      | nil => simp
      | cons x a ih =>
        cases b with
        | nil => simp
        | cons y b =>
          simp only [List.zipWith_cons_cons, List.count_cons]
          have := ih b
          cases x <;> cases y <;> simp <;> omega

/-- **C70 (regions).** The model error of a region is at most the total probability of the contour
events, in absolute value. -/
theorem C70_region_bounds {inA : Chunks Bool} {ii : Chunks Nat} {io io' : List Nat}
    {probs : List K} {er : K} (hp : ∀ p ∈ probs, 0 ≤ p)
    (h : modelRegion inA ii io io' probs = .ok er) : |er| ≤ probs.sum := by
  have hgd : ∀ i, 0 ≤ probs.getD i 0 := fun i => by
    rw [List.getD_eq_getElem?_getD]
    by_cases hi : i < probs.length
    · rw [List.getElem?_eq_getElem hi]; exact hp _ (List.getElem_mem hi)
    · rw [List.getElem?_eq_none (not_lt.1 hi)]; exact le_rfl
  have key : ∀ (l : List Nat) (e0 er : K),
      l.foldlM (modelRegionStep inA ii io io' probs) e0 = .ok er →
      |er - e0| ≤ (l.map fun i => probs.getD i 0).sum := by
    intro l
    induction l with
    | nil => rintro e0 er ⟨⟩; simp
    | cons i l ih =>
      intro e0 er h
      rw [List.foldlM_cons, bind_eq_ok] at h
      obtain ⟨e1, h1, h⟩ := h
      have hrec := ih e1 er h
      have hstep : |e1 - e0| ≤ probs.getD i 0 := by
        unfold modelRegionStep at h1
        split at h1
        · rw [bind_eq_ok] at h1
          obtain ⟨t, ht, h1⟩ := h1
          cases h1
          rw [add_sub_cancel_left]
          exact modelTermPy_bound (hgd i) (Nat.cast_nonneg _)
            (Nat.cast_le.2 (countMask_and_le _ _)) (Nat.cast_nonneg _)
            (Nat.cast_le.2 (countMask_and_le _ _)) ht
        · cases h1
          rw [sub_self, abs_zero]
          exact hgd i
      rw [List.map_cons, List.sum_cons]
      calc |er - e0| = |(er - e1) + (e1 - e0)| := by ring_nf
        _ ≤ |er - e1| + |e1 - e0| := abs_add_le _ _
        _ ≤ _ := by linarith
  have := key _ _ _ h
  rw [sub_zero] at this
  have hsum : ((List.range probs.length).map fun i => probs.getD i 0) = probs := by
    refine List.ext_getElem (by simp) fun i h1 h2 => ?_
    simp [List.getD_eq_getElem?_getD, h2]
  rwa [hsum] at this

/-! ### C72: the error charged to the cells adds up -/

/-- Numbers as floats on every process. -/
def liftNum (ids : Chunks K) : Chunks (Num K) := ids.map fun c => c.map Num.fin

theorem zipWith_charge (t : K) (ids : List K) (m : List Bool) (h : ids.length = m.length) :
    (List.zipWith (fun (x : Num K) (b : Bool) => if b then x.add (.fin t) else x)
      (ids.map Num.fin) m) =
      (List.zipWith (fun (x : K) (b : Bool) => if b then x + t else x) ids m).map Num.fin ∧
    (List.zipWith (fun (x : K) (b : Bool) => if b then x + t else x) ids m).sum =
      ids.sum + m.count true * t := by
  induction ids generalizing m with
  | nil =>
    cases m with
    | nil => simp
    | cons _ _ => simp at h
  | cons x ids ih =>
    cases m with
    | nil => simp at h
    | cons b m =>
      obtain ⟨h1, h2⟩ := ih m (by simpa using h)
      simp only [List.map_cons, List.zipWith_cons_cons, h1, List.sum_cons, h2, List.count_cons]
      cases b
      · simp; ring
      · simp [Num.add]; ring

theorem charge_lift (t : K) (ids : Chunks K) (m : Chunks Bool) (h : SameShape ids m)
    (h0 : countMask m ≠ 0) :
    ∃ ids', charge (liftNum ids) m (.fin t) = liftNum ids' ∧ SameShape ids' m ∧
      ids'.flatten.sum = ids.flatten.sum + t := by
  have hc : (countMask m : K) ≠ 0 := Nat.cast_ne_zero.2 h0
  have key : ∀ (u : K) (ids : Chunks K) (m : Chunks Bool), SameShape ids m →
      ∃ ids', List.zipWith (List.zipWith fun (x : Num K) (b : Bool) =>
        if b then x.add (.fin u) else x) (liftNum ids) m = liftNum ids' ∧ SameShape ids' m ∧
        ids'.flatten.sum = ids.flatten.sum + countMask m * u := by
    intro u ids m h
    induction h with
    | nil => exact ⟨[], rfl, .nil, by simp [countMask, allreduceSum]⟩
    | @cons a b as bs hab _ ih =>
      obtain ⟨ids', h1, h2, h3⟩ := ih
      obtain ⟨h4, h5⟩ := zipWith_charge u a b hab
      refine ⟨List.zipWith (fun (x : K) (b : Bool) => if b then x + u else x) a b :: ids', ?_,
        .cons ?_ h2, ?_⟩
      · simp only [liftNum, List.map_cons, List.zipWith_cons_cons]
        rw [h4]
        congr 1
      · simp [hab]
      · simp only [List.flatten_cons, List.sum_append, h5, h3]
        simp only [countMask, allreduceSum, List.map_cons, List.sum_cons, Nat.cast_add]
        ring
  unfold charge
  rw [if_neg h0]
  obtain ⟨ids', h1, h2, h3⟩ := key (1 / (countMask m : K) * t) ids m h
  refine ⟨ids', h1, h2, ?_⟩
  rw [h3]
  field_simp

/-- If no cell changes its membership, the masks are equal. -/
theorem neMask_zero {a b : Chunks Bool} (h : SameShape a b) (h0 : countMask (neMask a b) = 0) :
    a = b := by
  unfold countMask neMask allreduceSum at h0
  induction h with
  | nil => rfl
  | @cons x y xs ys hxy _ ih =>
    simp only [List.zipWith_cons_cons, List.map_cons, List.sum_cons, Nat.add_eq_zero_iff] at h0
    rw [ih h0.2]
    congr 1
    have := h0.1
    clear ih h0
    induction x generalizing y with
    | nil =>
      cases y with
      | nil => rfl
      | cons _ _ => simp at hxy
    | cons p x ih =>
      cases y with
      | nil => simp at hxy
      | cons q y =>
        simp only [List.zipWith_cons_cons, List.count_cons, Nat.add_eq_zero_iff] at this
        rw [ih (by simpa using hxy) this.1]
        cases p <;> cases q <;> simp_all

/-- **C72.** When every contour event of positive probability contains a sample before and after
adding the errors, the errors that `calculate_for_sample_set_region_mc` charges to the cells
(`_error_id`) are numbers that add up to the estimate it returns, for every number of
processes. -/
theorem C72_error_id_sum (inA : Chunks Bool) (io io' : Chunks Nat) (probs : List K)
    (hs : SameShape inA io) (hs' : SameShape io io')
    (hne : ∀ i < probs.length, 0 < probs.getD i 0 → i ∈ io.flatten ∧ i ∈ io'.flatten) :
    ∃ (er : K) (ids : Chunks K), modelRegionMc inA io io' probs = (.fin er, liftNum ids) ∧
      SameShape io ids ∧ ids.flatten.sum = er := by
  have key : ∀ (l : List Nat), (∀ i ∈ l, i < probs.length) → ∀ (e0 : K) (ids0 : Chunks K),
      SameShape io ids0 → ids0.flatten.sum = e0 →
      ∃ (er : K) (ids : Chunks K),
        l.foldl (modelMcStep inA io io' probs) (.fin e0, liftNum ids0) = (.fin er, liftNum ids) ∧
        SameShape io ids ∧ ids.flatten.sum = er := by
    intro l
    induction l with
    | nil => exact fun _ e0 ids0 h1 h2 => ⟨e0, ids0, rfl, h1, h2⟩
    | cons i l ih =>
      intro hl e0 ids0 h1 h2
      have hstep : ∃ (e1 : K) (ids1 : Chunks K),
          modelMcStep inA io io' probs (.fin e0, liftNum ids0) i = (.fin e1, liftNum ids1) ∧
          SameShape io ids1 ∧ ids1.flatten.sum = e1 := by
        unfold modelMcStep
        split
        · next hp =>
          obtain ⟨hm, hm'⟩ := hne i (hl i (List.mem_cons_self ..)) hp
          have hsh : SameShape io (eqMask io i) := SameShape.map_map io _
          have hsh' : SameShape io' (eqMask io' i) := SameShape.map_map io' _
          have hmask : SameShape (eqMask io i) (eqMask io' i) :=
            hsh.symm.trans (hs'.trans hsh')
          have hj : (countMask (eqMask io i) : K) ≠ 0 := by
            rw [Ne, Nat.cast_eq_zero, countMask_eqMask, hits]
            exact fun h => (List.count_pos_iff.2 hm).ne' h
          have hj' : (countMask (eqMask io' i) : K) ≠ 0 := by
            rw [Ne, Nat.cast_eq_zero, countMask_eqMask, hits]
            exact fun h => (List.count_pos_iff.2 hm').ne' h
          simp only
          rw [modelTermMc, if_neg (mul_ne_zero hj hj'),
            errorCells_eq _ _ _ (hs.trans hsh) hmask]
          set t := probs.getD i 0 * (((countMask (andMask inA (eqMask io i)) : K) *
            (countMask (eqMask io' i) : K) - (countMask (andMask inA (eqMask io' i)) : K) *
            (countMask (eqMask io i) : K)) / ((countMask (eqMask io i) : K) *
            (countMask (eqMask io' i) : K))) with ht
          by_cases h0 : countMask (neMask (eqMask io i) (eqMask io' i)) = 0
          · have heq := neMask_zero hmask h0
            have ht0 : t = 0 := by rw [ht, heq, sub_self, zero_div, mul_zero]
            refine ⟨e0 + t, ids0, ?_, h1, by rw [ht0, add_zero]; exact h2⟩
            rw [charge, if_pos h0]
            rfl
          · obtain ⟨ids', h3, h4, h5⟩ := charge_lift t ids0 _
              (h1.symm.trans (hsh.trans (hmask.zipWith_left (· != ·)))) h0
            refine ⟨e0 + t, ids', ?_, ?_, by rw [h5, h2]⟩
            · have : charge (liftNum ids0) (neMask (eqMask io i) (eqMask io' i)) (.fin t) =
                liftNum ids' := h3
              rw [this]
              rfl
            · exact hsh.trans ((hmask.zipWith_left (· != ·)).trans h4.symm)
        · exact ⟨e0, ids0, rfl, h1, h2⟩
      obtain ⟨e1, ids1, h3, h4, h5⟩ := hstep
      rw [List.foldl_cons, h3]
      exact ih (fun j hj => hl j (List.mem_cons_of_mem _ hj)) e1 ids1 h4 h5
  have hz : (io.map fun c => c.map fun _ => (Num.fin 0 : Num K)) =
      liftNum (io.map fun c => c.map fun _ => (0 : K)) := by
    simp [liftNum, Function.comp_def]
  unfold modelRegionMc
  rw [hz]
  refine key _ (fun i hi => List.mem_range.1 hi) _ _ (SameShape.map_map io _) ?_
  have : (io.map fun c => c.map fun _ => (0 : K)).flatten = io.flatten.map fun _ => 0 := by
    rw [List.map_flatten]
  rw [this]
  refine List.sum_eq_zero fun x hx => ?_
  obtain ⟨_, _, rfl⟩ := List.mem_map.1 hx
  rfl

end

/-! ### Examples -/

namespace Ex

/-- **C40 fails in general** for contour events: the pointers agree, event 1 has positive
probability and no sample, and its estimate is `nan`. -/
theorem C40_negation_contour :
    modelContour [[(1 : ℚ), 1]] [[0, 0]] [[0, 0]] [1 / 2, 1 / 2] = [.fin 0, .nan] := by
  decide +kernel

/-- **C40 fails in general** for regions: here the method raises. -/
theorem C40_negation_region :
    errOf (modelRegion [[true, false]] [[0, 1]] [0, 0] [0, 0] [(1 / 2 : ℚ), 1 / 2]) =
      some .zeroDivision := by
  decide +kernel

/-- **C40 fails in general** for regions by Monte Carlo: the estimate is infinite. -/
theorem C40_negation_mc :
    (modelRegionMc [[true, false]] [[0, 0]] [[0, 0]] [(1 / 2 : ℚ), 1 / 2]).1 = .inf true := by
  decide +kernel

/-- Two processes, four samples, one sample moves from event 0 to event 1. -/
example : modelContour [[(1 : ℚ), 1], [1, 1]] [[0, 0], [1, 1]] [[0, 1], [1, 1]] [1 / 2, 1 / 2] =
    [.fin 0, .fin (1 / 6)] := by decide +kernel

example : (modelRegion [[true, false], [false, true]] [[0, 1], [2, 3]] [0, 0, 1, 1] [0, 1, 1, 1]
    [(1 / 2 : ℚ), 1 / 2]).toOption = some (-1 / 6) := by decide +kernel

example : modelRegionMc [[true, false], [false, true]] [[0, 0], [1, 1]] [[0, 1], [1, 1]]
    [(1 / 2 : ℚ), 1 / 2] = (.fin (-1 / 6), [[.fin 0, .fin (-1 / 6)], [.fin 0, .fin 0]]) := by
  decide +kernel

/-- Two output samples 0 and 3 in the cells of the samples 0 and 4, with error estimates 1. -/
def errOut : SampleSet ℚ :=
  { kind := .voronoi, dim := 1,
    glob := { values := some [[0], [3]], errorEstimates := some [[1], [1]] } }

def errProb : SampleSet ℚ :=
  { kind := .voronoi, dim := 1,
    glob := { values := some [[0], [4]], probabilities := some [1 / 2, 1 / 2] } }

def errDisc : Disc ℚ :=
  { input := some { kind := .voronoi, dim := 1, glob := { values := some [[5], [6]] } },
    output := some errOut, outputProb := some errProb }

example : (modelErrorInit G 2 errDisc).toOption.map (fun q => (q.1.ioPtrLocal, q.2)) =
    some (some [[0], [1]], [[0], [1]]) := by decide +kernel

end Ex

end BET
