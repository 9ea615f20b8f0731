import Verif.Props.ScriptLimit
import Verif.Lemmas.RegularBoxes
import Verif.Lemmas.Moving

/-!
# C137: solutions converge when the rectangle is scaled to the sampled data
-/

set_option linter.unusedSectionVars false
set_option linter.unusedSimpArgs false
set_option autoImplicit false

namespace BET

open Spec MeasureTheory ProbabilityTheory Filter Topology

variable {Ω : Type} [MeasurableSpace Ω] {P : Measure Ω} {d e : Nat}

/-! ## Boxes that move -/

theorem cell_regular {G : Geometry ℝ} (hG : Sound G) {t : SampleSet ℝ} {q rs : List ℝ} {ns : List Nat}
    (hr : Ready t (ns.prod + 1)) (hreg : IsRegularPartition t q rs ns) (hns : ns.length = e) {c : Nat}
    (hc : c < ns.prod) (y : Fin e → ℝ) : t.cell G (List.ofFn y) = c ↔ InRectangle t (List.ofFn y) c := by
  have h1 := SampleSet.cell_isCell hG hr (List.ofFn y)
  have hset := cellSet_regular (G := G) hr hreg hns hc
  constructor
  · intro h
    rw [h] at h1
    have : y ∈ cellSet e G t c := h1
    rw [hset] at this
    exact this
  · intro h
    have h2 : y ∈ cellSet e G t c := by rw [hset]; exact h
    have h2 : IsCell G t (List.ofFn y) c := h2
    obtain ⟨w, hw⟩ := Option.isSome_iff_exists.mp hr.values
    obtain ⟨⟨r, hR⟩, ⟨l, hL⟩⟩ := (hr.rect hreg.kind).imp Option.isSome_iff_exists.mp
      Option.isSome_iff_exists.mp
    unfold IsCell at h1 h2
    rw [hreg.kind] at h1 h2
    exact isFirst_unique (h1 w r l hw hR hL) (h2 w r l hw hR hL)

/-- The points of a strip around the faces of a box. -/
def faceStrip (Q : (Fin d → ℝ) → Fin e → ℝ) (a b : Fin e → ℝ) (m : ℕ) : Set (Fin d → ℝ) :=
  {x | ∃ k, |Q x k - a k| ≤ 1 / ((m : ℝ) + 1) ∨ |Q x k - b k| ≤ 1 / ((m : ℝ) + 1)}

theorem measurable_faceStrip {Q : (Fin d → ℝ) → Fin e → ℝ} (hQ : Measurable Q) (a b : Fin e → ℝ) (m : ℕ) :
    MeasurableSet (faceStrip Q a b m) := by
  have : faceStrip Q a b m = ⋃ k, ({x | |Q x k - a k| ≤ 1 / ((m : ℝ) + 1)} ∪
      {x | |Q x k - b k| ≤ 1 / ((m : ℝ) + 1)}) := by
    ext x; simp [faceStrip]
  rw [this]
  have hk : ∀ k, Measurable fun x => Q x k := fun k => (measurable_pi_apply k).comp hQ
  refine MeasurableSet.iUnion fun k => MeasurableSet.union ?_ ?_
  · exact measurableSet_le ((hk k).sub_const _).abs measurable_const
  · exact measurableSet_le ((hk k).sub_const _).abs measurable_const

theorem antitone_faceStrip (Q : (Fin d → ℝ) → Fin e → ℝ) (a b : Fin e → ℝ) : Antitone (faceStrip Q a b) := by
  intro m m' h x hx
  obtain ⟨k, hk⟩ := hx
  have : 1 / ((m' : ℝ) + 1) ≤ 1 / ((m : ℝ) + 1) :=
    one_div_le_one_div_of_le (by positivity) (by exact_mod_cast Nat.succ_le_succ h)
  exact ⟨k, hk.imp (fun h => h.trans this) fun h => h.trans this⟩

theorem iInter_faceStrip {Q : (Fin d → ℝ) → Fin e → ℝ} {a b : Fin e → ℝ} {μ : Measure (Fin d → ℝ)}
    (hatom : ∀ k y, μ {x | Q x k = y} = 0) : μ (⋂ m, faceStrip Q a b m) = 0 := by
  refine measure_mono_null (t := ⋃ k, ({x | Q x k = a k} ∪ {x | Q x k = b k})) (fun x hx => ?_)
    (measure_iUnion_null fun k => measure_union_null (hatom k _) (hatom k _))
  by_contra hno
  have hk : ∀ k, ∀ᶠ m : ℕ in atTop, 1 / ((m : ℝ) + 1) < |Q x k - a k| ∧ 1 / ((m : ℝ) + 1) < |Q x k - b k| := by
    intro k
    have h1 : Q x k ≠ a k := fun h => hno (Set.mem_iUnion.2 ⟨k, Or.inl h⟩)
    have h2 : Q x k ≠ b k := fun h => hno (Set.mem_iUnion.2 ⟨k, Or.inr h⟩)
    have hz := tendsto_one_div_add_atTop_nhds_zero_nat (𝕜 := ℝ)
    exact ((tendsto_order.1 hz).2 _ (abs_pos.2 (sub_ne_zero.2 h1))).and
      ((tendsto_order.1 hz).2 _ (abs_pos.2 (sub_ne_zero.2 h2)))
  obtain ⟨m, hm⟩ := (eventually_all.2 hk).exists
  obtain ⟨k, h | h⟩ := Set.mem_iInter.1 hx m
  · exact absurd h (not_le.2 (hm k).1)
  · exact absurd h (not_le.2 (hm k).2)

/-- Boxes that tend to a box differ from it only in strips around its faces. -/
theorem moving_box (Q : (Fin d → ℝ) → Fin e → ℝ) {a b : Fin e → ℝ} {an bn : ℕ → Fin e → ℝ}
    (ha : ∀ k, Tendsto (fun n => an n k) atTop (𝓝 (a k))) (hb : ∀ k, Tendsto (fun n => bn n k) atTop (𝓝 (b k)))
    (m : ℕ) : ∀ᶠ n in atTop, ∀ x ∉ faceStrip Q a b m,
      ((∀ k, an n k < Q x k ∧ Q x k ≤ bn n k) ↔ ∀ k, a k < Q x k ∧ Q x k ≤ b k) := by
  have hpos : (0 : ℝ) < 1 / ((m : ℝ) + 1) := by positivity
  have h1 : ∀ k, ∀ᶠ n in atTop, |an n k - a k| < 1 / ((m : ℝ) + 1) ∧ |bn n k - b k| < 1 / ((m : ℝ) + 1) := fun k =>
    ((Metric.tendsto_nhds.1 (ha k)) _ hpos).and ((Metric.tendsto_nhds.1 (hb k)) _ hpos)
  filter_upwards [eventually_all.2 h1] with n hn x hx
  refine forall_congr' fun k => ?_
  have hxk : 1 / ((m : ℝ) + 1) < |Q x k - a k| ∧ 1 / ((m : ℝ) + 1) < |Q x k - b k| := by
    constructor
    · by_contra h
      exact hx ⟨k, Or.inl (not_lt.1 h)⟩
    · by_contra h
      exact hx ⟨k, Or.inr (not_lt.1 h)⟩
  obtain ⟨h2, h3⟩ := hn k
  rw [abs_lt] at h2 h3
  refine and_congr ⟨fun h => ?_, fun h => ?_⟩ ⟨fun h => ?_, fun h => ?_⟩
  · rcases lt_abs.1 hxk.1 with h4 | h4 <;> linarith
  · rcases lt_abs.1 hxk.1 with h4 | h4 <;> linarith
  · rcases lt_abs.1 hxk.2 with h4 | h4 <;> linarith
  · rcases lt_abs.1 hxk.2 with h4 | h4 <;> linarith

theorem checkInputs_ranDisc {size : Nat} {D : Disc ℝ} {v : List (List ℝ)} {f : List ℝ → List ℝ}
    {inp out : SampleSet ℝ} (hr : RanDisc size D v f e inp out) (q : List ℝ) :
    (DataSet.disc D).checkInputs size (some q) = .ok (⟨v.length, e, some (v.map f)⟩, q) := by
  have hcn : D.checkNums size = .ok v.length := by
    unfold Disc.checkNums
    simp [hr.houtput, hr.hinput, SampleSet.checkNum_consistent hr.houtputC,
      SampleSet.checkNum_consistent hr.hinputC, pure, Except.pure, ok_bind]
  simp only [DataSet.checkInputs, DataSet.orInfer, pure_bind_ok, DataSet.inputs, hcn, ok_bind,
    hr.houtput, orErr_some, hr.houtDim, hr.houtputVals]
  rfl

section
variable [IsProbabilityMeasure P]

/-- The whole inverse problem with a regular partition of a rectangle that depends on the samples and tends to a
rectangle. -/
theorem moving_rectangle {G : Geometry ℝ} (hG : Sound G) {model : Nat → List (List ℝ) → ModelOutput ℝ}
    {f e' : List ℝ → List ℝ} {j : List ℝ → List (List ℝ)} (hm : RowWise model false false f e' j)
    {Q : (Fin d → ℝ) → Fin e → ℝ} (hQ : Measurable Q) (hf : ∀ x, f (List.ofFn x) = List.ofFn (Q x))
    {μ : Measure (Fin d → ℝ)} {X : ℕ → ℕ → Ω → Fin d → ℝ} (hX : RandomSamples P μ X) {parts : Nat}
    (hparts : 0 < parts) {s : ℕ → Ω → Nat → SampleSet ℝ}
    (hs : ∀ n ω, HoldSamples (s n ω) (drawnRows parts n fun r k => X r k ω)) (hdim : 0 < e) {q R : List ℝ}
    (hq : q.length = e) (hR : R.length = e) (hRpos : ∀ r ∈ R, 0 < r) {cells : CellArg} {ns : List Nat}
    (hns : ns.length = e) (hcells : UsedCells cells ns) (hn : ∀ n ∈ ns, 0 < n)
    (hatom : ∀ k y, μ {x | Q x k = y} = 0) {rs : ℕ → Ω → List ℝ}
    (hrs : ∀ n ω, 0 < n → (rs n ω).length = e)
    (hconv : ∀ᵐ ω ∂P, ∀ k : Fin e, Tendsto (fun n => (rs n ω).getD k 0) atTop (𝓝 (R.getD k 0)))
    {measure : ℕ → Ω → Nat → DataSet ℝ → Except Err (SampleSet ℝ × DataSet ℝ)}
    (hmeas : ∀ n ω, 0 < n → ∀ size > 0, ∀ D inp out,
      RanDisc size D (drawnRows parts n fun r k => X r k ω) f e inp out →
      measure n ω size (.disc D) = regularSize G size (.disc D) (some q) (.array (rs n ω)) cells) :
    ∃ t, IsRegularPartition t q R ns ∧
      ((∀ c < ns.prod, μ {x | InRectangle t (List.ofFn (Q x)) c} ≠ 0) → ∀ size > 0,
      ∀ g : (Fin d → ℝ) → ℝ, Integrable g μ → ∀ᵐ ω ∂P,
        (∀ᶠ n in atTop, (solutionMean g (inverseProblem G size model e (s n ω size) (measure n ω size))).isSome) ∧
        Tendsto (fun n => (solutionMean g (inverseProblem G size model e (s n ω size) (measure n ω size))).getD 0) atTop
          (𝓝 (conditionalMean ns.prod (fun _ => 1 / ns.prod)
            (fun c => {x | InRectangle t (List.ofFn (Q x)) c}) μ g))) := by
  obtain ⟨place, hplace⟩ := regular_boxes (K := ℝ) hdim hns hcells hn
  obtain ⟨t, hrt, hreg, -, hbox⟩ := hplace G q R hq hR hRpos
  refine ⟨t, hreg, fun hpos size hsize g hg => ?_⟩
  -- the faces of the boxes of the limit
  let a : ℕ → Fin e → ℝ := fun c k => (placeInterval q R ns (k, place c k)).1
  let b : ℕ → Fin e → ℝ := fun c k => (placeInterval q R ns (k, place c k)).2
  have hmeasurable : ∀ c, NullMeasurableSet {x | InRectangle t (List.ofFn (Q x)) c} μ := fun c =>
    ((measurable_inRectangle t c).preimage hQ).nullMeasurableSet
  have hlim : ∀ᵐ ω ∂P, ∀ c < ns.prod, ∀ An : ℕ → Set (Fin d → ℝ),
      (∀ m, ∀ᶠ n in atTop, ∀ x ∉ faceStrip Q (a c) (b c) m,
        (x ∈ An n ↔ x ∈ {x | InRectangle t (List.ofFn (Q x)) c})) →
      Tendsto (fun n : ℕ => (∑ rk ∈ drawSet parts n, g (X rk.1 rk.2 ω) * ind (An n) (X rk.1 rk.2 ω)) /
        ∑ rk ∈ drawSet parts n, ind (An n) (X rk.1 rk.2 ω)) atTop
        (𝓝 ((∫ x in {x | InRectangle t (List.ofFn (Q x)) c}, g x ∂μ) /
          μ.real {x | InRectangle t (List.ofFn (Q x)) c})) := by
    refine ae_all_iff.2 fun c => ?_
    by_cases hc : c < ns.prod
    · have := moving_conditional hparts hX.law hX.indep hg (hmeasurable c) (hpos c hc)
        (B := faceStrip Q (a c) (b c)) (measurable_faceStrip hQ _ _) (antitone_faceStrip Q _ _)
        (iInter_faceStrip hatom)
      filter_upwards [this] with ω hω _
      exact hω
    · exact Eventually.of_forall fun ω h => absurd h hc
  filter_upwards [hlim, hconv] with ω hω hr
  -- from some number on all sides are positive
  have hsides : ∀ᶠ n in atTop, 0 < n ∧ ∀ r ∈ rs n ω, 0 < r := by
    have h1 : ∀ k : Fin e, ∀ᶠ n in atTop, 0 < (rs n ω).getD k 0 := by
      intro k
      refine (tendsto_order.1 (hr k)).1 0 ?_
      rw [List.getD_eq_getElem?_getD, List.getElem?_eq_getElem (by omega), Option.getD_some]
      exact hRpos _ (List.getElem_mem _)
    filter_upwards [eventually_all.2 h1, eventually_gt_atTop 0] with n h2 h3
    refine ⟨h3, fun r hr => ?_⟩
    obtain ⟨k, hk, rfl⟩ := List.mem_iff_getElem.1 hr
    have := h2 ⟨k, by rw [← hrs n ω h3]; exact hk⟩
    rwa [List.getD_eq_getElem?_getD, List.getElem?_eq_getElem hk, Option.getD_some] at this
  let An : ℕ → ℕ → Set (Fin d → ℝ) := fun c n =>
    {x | ∀ k : Fin e, (placeInterval q (rs n ω) ns (k, place c k)).1 < Q x k ∧
      Q x k ≤ (placeInterval q (rs n ω) ns (k, place c k)).2}
  have hval : ∀ᶠ n in atTop, solutionMean g (inverseProblem G size model e (s n ω size) (measure n ω size)) =
      some (∑ c ∈ Finset.range ns.prod, 1 / (ns.prod : ℝ) *
        ((∑ rk ∈ drawSet parts n, g (X rk.1 rk.2 ω) * ind (An c n) (X rk.1 rk.2 ω)) /
          ∑ rk ∈ drawSet parts n, ind (An c n) (X rk.1 rk.2 ω))) := by
    filter_upwards [hsides] with n hn'
    obtain ⟨hn0, hrpos⟩ := hn'
    obtain ⟨T, hT1, hT2, hT3, hT4⟩ := hplace G q (rs n ω) hq (hrs n ω hn0) hrpos
    have h := inverse_mean hG hm hf hparts hn0 (hs n ω) hT1 hT2.probabilities (by
        intro x hx
        rw [List.mem_append] at hx
        rcases hx with hx | hx
        · rw [List.eq_of_mem_replicate hx]; positivity
        · simp at hx; rw [hx]) hsize (measure := measure n ω size) (by
        intro D inp out hD
        rw [hmeas n ω hn0 size hsize D inp out hD]
        exact hT3 size (.disc D) (some q) _ _ (checkInputs_ranDisc hD q) rfl rfl) g
    have key := draw_shares (size := parts) (n := n) (m := ns.prod + 1) (z := fun r k => X r k ω)
      (L := fun x : Fin d → ℝ => T.cell G (f (List.ofFn x))) (fun x => SampleSet.cell_lt hG hT1 _)
      (fun c => (List.replicate ns.prod (1 / (ns.prod : ℝ)) ++ [0]).getD c 0) g
    refine h.trans ((congrArg some key).trans ?_)
    rw [Finset.sum_range_succ]
    have hlast : (List.replicate ns.prod (1 / (ns.prod : ℝ)) ++ [0]).getD ns.prod 0 = 0 := by
      rw [List.getD_eq_getElem?_getD, List.getElem?_append_right (by simp)]
      simp
    rw [hlast, zero_mul, add_zero]
    congr 1
    refine Finset.sum_congr rfl fun c hc => ?_
    have hc := Finset.mem_range.1 hc
    have hset : {x : Fin d → ℝ | T.cell G (f (List.ofFn x)) = c} = An c n := by
      ext x
      show T.cell G (f (List.ofFn x)) = c ↔ _
      rw [hf, cell_regular hG hT1 hT2 hns hc, hT4 c hc]
      exact Iff.rfl
    rw [hset, List.getD_eq_getElem?_getD, List.getElem?_append_left (by simpa using hc)]
    simp only [List.getElem?_replicate, hc, if_true, Option.getD_some]
  refine ⟨hval.mono fun n h => by rw [h]; rfl, ?_⟩
  have hface : ∀ c, (∀ k : Fin e, Tendsto (fun n => (placeInterval q (rs n ω) ns (k, place c k)).1) atTop (𝓝 (a c k))) ∧
      ∀ k : Fin e, Tendsto (fun n => (placeInterval q (rs n ω) ns (k, place c k)).2) atTop (𝓝 (b c k)) := by
    intro c
    constructor
    · intro k
      exact (tendsto_const_nhds.sub ((hr k).div_const 2)).add (((hr k).div_const _).const_mul _)
    · intro k
      exact (tendsto_const_nhds.sub ((hr k).div_const 2)).add (((hr k).div_const _).const_mul _)
  have hsum := tendsto_finsetSum (Finset.range ns.prod) fun c hc => (hω c (Finset.mem_range.1 hc) (An c) (fun m => by
    filter_upwards [moving_box Q (hface c).1 (hface c).2 m] with n h x hx
    rw [show (x ∈ An c n) = ∀ k : Fin e, (placeInterval q (rs n ω) ns (k, place c k)).1 < Q x k ∧
      Q x k ≤ (placeInterval q (rs n ω) ns (k, place c k)).2 from rfl, h x hx]
    exact (hbox c (Finset.mem_range.1 hc) (Q x)).symm)).const_mul (1 / (ns.prod : ℝ))
  unfold conditionalMean
  refine hsum.congr' ?_
  filter_upwards [hval] with n h
  rw [h]
  rfl

/-! ## Extents of the sampled data -/

namespace Spec

/-- The data of a map have, up to a null set, the range from `lo` to `hi` in every coordinate: all data lie there, and
data arbitrarily near to the ends have a positive probability. -/
structure DataRange (μ : Measure (Fin d → ℝ)) (Q : (Fin d → ℝ) → Fin e → ℝ) (lo hi : Fin e → ℝ) : Prop where
  inside : ∀ᵐ x ∂μ, ∀ k, lo k ≤ Q x k ∧ Q x k ≤ hi k
  low : ∀ k, ∀ a > lo k, μ {x | Q x k < a} ≠ 0
  high : ∀ k, ∀ b < hi k, μ {x | b < Q x k} ≠ 0

end Spec

theorem ofFn_mem_drawnRows {parts n r k : Nat} (hr : r < parts) (hk : k < numLocal n parts r)
    (X : ℕ → ℕ → Fin d → ℝ) : List.ofFn (X r k) ∈ drawnRows parts n X := by
  unfold drawnRows
  exact List.mem_flatten.2 ⟨_, List.mem_map.2 ⟨r, List.mem_range.2 hr, rfl⟩,
    List.mem_map.2 ⟨k, List.mem_range.2 hk, rfl⟩⟩

/-- From some number on, some sample lies in an event of positive probability. -/
theorem eventually_hit {μ : Measure (Fin d → ℝ)} {X : ℕ → ℕ → Ω → Fin d → ℝ} (hX : RandomSamples P μ X) {parts : Nat}
    (hparts : 0 < parts) {A : Set (Fin d → ℝ)} (hA : MeasurableSet A) (hpos : μ A ≠ 0) :
    ∀ᵐ ω ∂P, ∀ᶠ n in atTop, ∃ x ∈ A, List.ofFn x ∈ drawnRows parts n fun r k => X r k ω := by
  have hμ : IsProbabilityMeasure μ := by
    rw [← (hX.law 0 0).map_eq]
    exact Measure.isProbabilityMeasure_map (hX.law 0 0).aemeasurable
  have hne : 0 < μ.real A := ENNReal.toReal_pos hpos (measure_ne_top _ _)
  filter_upwards [frequency hparts hX.law hX.indep hA.nullMeasurableSet] with ω hω
  filter_upwards [(tendsto_order.1 hω).1 0 hne] with n hn
  by_contra hno
  push Not at hno
  refine absurd hn (not_lt.2 (le_of_eq ?_))
  rw [Finset.sum_eq_zero, zero_div]
  intro r hr
  refine Finset.sum_eq_zero fun k hk => ?_
  have : X r k ω ∉ A := fun h => hno _ h
    (ofFn_mem_drawnRows (Finset.mem_range.1 hr) (Finset.mem_range.1 hk) fun r k => X r k ω)
  simp [ind, Set.indicator, this]

/-- The extents of the sampled data tend to the extents of their range. -/
theorem extents_limit {f : List ℝ → List ℝ} {Q : (Fin d → ℝ) → Fin e → ℝ} (hQ : Measurable Q)
    (hf : ∀ x, f (List.ofFn x) = List.ofFn (Q x)) {μ : Measure (Fin d → ℝ)} {X : ℕ → ℕ → Ω → Fin d → ℝ}
    (hX : RandomSamples P μ X) {parts : Nat} (hparts : 0 < parts) {lo hi : Fin e → ℝ} (hrange : DataRange μ Q lo hi) :
    ∀ᵐ ω ∂P, ∀ w : ℕ → List ℝ, (∀ n, 0 < n → (w n).length = e ∧
        IsExtent ((drawnRows parts n fun r k => X r k ω).map f) (w n)) →
      ∀ k : Fin e, Tendsto (fun n => (w n).getD k 0) atTop (𝓝 (hi k - lo k)) := by
  have hk : ∀ k, Measurable fun x => Q x k := fun k => (measurable_pi_apply k).comp hQ
  have h1 := ae_all_iff.2 fun k : Fin e => ae_all_iff.2 fun m : ℕ => eventually_hit hX hparts
    (A := {x | Q x k < lo k + 1 / ((m : ℝ) + 1)}) (measurableSet_lt (hk k) measurable_const)
    (hrange.low k _ (by have : (0 : ℝ) < 1 / ((m : ℝ) + 1) := by positivity
                        linarith))
  have h2 := ae_all_iff.2 fun k : Fin e => ae_all_iff.2 fun m : ℕ => eventually_hit hX hparts
    (A := {x | hi k - 1 / ((m : ℝ) + 1) < Q x k}) (measurableSet_lt measurable_const (hk k))
    (hrange.high k _ (by have : (0 : ℝ) < 1 / ((m : ℝ) + 1) := by positivity
                         linarith))
  filter_upwards [h1, h2, ae_draws hX.law hrange.inside] with ω h1 h2 h3 w hw k
  have hz := tendsto_one_div_add_atTop_nhds_zero_nat (𝕜 := ℝ)
  rw [Metric.tendsto_nhds]
  intro ε hε
  obtain ⟨m, hm⟩ := ((tendsto_order.1 hz).2 (ε / 2) (by linarith)).exists
  filter_upwards [h1 k m, h2 k m, eventually_gt_atTop 0] with n ⟨x, hx, hxm⟩ ⟨y, hy, hym⟩ hn
  obtain ⟨hl, hext⟩ := hw n hn
  have hkl : (k : ℕ) < (w n).length := by rw [hl]; exact k.2
  obtain ⟨M, L, hM, hL, he⟩ := hext k _ (List.getElem?_eq_getElem hkl)
  rw [List.getD_eq_getElem?_getD, List.getElem?_eq_getElem hkl, Option.getD_some, he]
  have hin : ∀ z ∈ {y | ∃ row ∈ (drawnRows parts n fun r k => X r k ω).map f, row[(k : ℕ)]? = some y},
      lo k ≤ z ∧ z ≤ hi k := by
    rintro z ⟨row, hrow, hz⟩
    obtain ⟨r0, hr0, rfl⟩ := List.mem_map.1 hrow
    obtain ⟨r, i, rfl⟩ := mem_drawnRows hr0
    rw [hf, List.getElem?_ofFn] at hz
    simp only [k.2, dite_true, Option.some.injEq] at hz
    rw [← hz]
    exact h3 r i k
  have hmem : ∀ x : Fin d → ℝ, List.ofFn x ∈ (drawnRows parts n fun r k => X r k ω) →
      Q x k ∈ {y | ∃ row ∈ (drawnRows parts n fun r k => X r k ω).map f, row[(k : ℕ)]? = some y} := fun x hx =>
    ⟨_, List.mem_map_of_mem hx, by rw [hf, List.getElem?_ofFn]; simp⟩
  have hx : Q x k < lo k + 1 / ((m : ℝ) + 1) := hx
  have hy : hi k - 1 / ((m : ℝ) + 1) < Q y k := hy
  have a1 := hM.2 (hmem y hym)
  have a2 := hL.2 (hmem x hxm)
  have a3 := hin _ hM.1
  have a4 := hin _ hL.1
  rw [Real.dist_eq, abs_lt]
  constructor <;> linarith [a3.2, a4.1]

/-- **C137.** The whole inverse problem with `regular_partition_uniform_distribution_rectangle_scaled`: random samples
(drawn by any number `parts` of processes), the model, a rectangle whose sides are the extents of the sampled data
times a factor, cut into boxes of equal probability, and `calculateP.prob`, on any number of processes. If every single
value of a coordinate of the data has probability zero, the data have the range from `lo` to `hi`, and every box of the
rectangle with the sides `(hi - lo) * scale` has a positive probability, then with probability one the computation
succeeds for all large numbers of samples, and the computed mean of every integrable function, and so the probability of
every event, tends to that of the exact solution for that rectangle: the measure which gives the inverse image of every
box under the model the same probability, and is proportional to the law of the samples there. -/
theorem C137_scaled {G : Geometry ℝ} (hG : Sound G) {model : Nat → List (List ℝ) → ModelOutput ℝ}
    {f e' : List ℝ → List ℝ} {j : List ℝ → List (List ℝ)} (hm : RowWise model false false f e' j)
    {Q : (Fin d → ℝ) → Fin e → ℝ} (hQ : Measurable Q) (hf : ∀ x, f (List.ofFn x) = List.ofFn (Q x))
    {μ : Measure (Fin d → ℝ)} {X : ℕ → ℕ → Ω → Fin d → ℝ} (hX : RandomSamples P μ X) {parts : Nat}
    (hparts : 0 < parts) {s : ℕ → Ω → Nat → SampleSet ℝ}
    (hs : ∀ n ω, HoldSamples (s n ω) (drawnRows parts n fun r k => X r k ω)) (hdim : 0 < e) {q : List ℝ}
    (hq : q.length = e) {lo hi : Fin e → ℝ} (hrange : DataRange μ Q lo hi)
    (hatom : ∀ k y, μ {x | Q x k = y} = 0) {scale : ℝ} (hsc : 0 < scale) {cells : CellArg} {ns : List Nat}
    (hns : ns.length = e) (hcells : UsedCells cells ns) (hn : ∀ n ∈ ns, 0 < n) :
    ∃ t, IsRegularPartition t q (List.ofFn fun k => (hi k - lo k) * scale) ns ∧
      ((∀ c < ns.prod, μ {x | InRectangle t (List.ofFn (Q x)) c} ≠ 0) → ∀ size > 0,
      ∀ g : (Fin d → ℝ) → ℝ, Integrable g μ → ∀ᵐ ω ∂P,
        (∀ᶠ n in atTop, (solutionMean g (inverseProblem G size model e (s n ω size)
          fun ds => regularScaled G size ds (some q) (.scalar scale) cells)).isSome) ∧
        Tendsto (fun n => (solutionMean g (inverseProblem G size model e (s n ω size)
          fun ds => regularScaled G size ds (some q) (.scalar scale) cells)).getD 0) atTop
          (𝓝 (conditionalMean ns.prod (fun _ => 1 / ns.prod)
            (fun c => {x | InRectangle t (List.ofFn (Q x)) c}) μ g))) := by
  have hμ : IsProbabilityMeasure μ := by
    rw [← (hX.law 0 0).map_eq]
    exact Measure.isProbabilityMeasure_map (hX.law 0 0).aemeasurable
  have hlohi : ∀ k, lo k < hi k := by
    intro k
    by_contra hle
    have hle := not_lt.1 hle
    refine one_ne_zero (α := ENNReal) ?_
    rw [← measure_univ (μ := μ), ← hatom k (lo k)]
    refine measure_congr ?_
    filter_upwards [hrange.inside] with x hx
    refine propext ⟨fun _ => ?_, fun _ => trivial⟩
    exact le_antisymm ((hx k).2.trans hle) (hx k).1
  let v : ℕ → Ω → List (List ℝ) := fun n ω => (drawnRows parts n fun r k => X r k ω).map f
  have hvrow : ∀ n ω, ∀ row ∈ v n ω, row.length = e := by
    intro n ω row hrow
    obtain ⟨x, hx, rfl⟩ := List.mem_map.1 hrow
    obtain ⟨r, k, rfl⟩ := mem_drawnRows hx
    rw [hf]; simp
  have hvne : ∀ n ω, 0 < n → v n ω ≠ [] := by
    intro n ω hn h
    have := congrArg List.length h
    simp only [v, List.length_map, length_drawnRows hparts, List.length_nil] at this
    omega
  let w : ℕ → Ω → List ℝ := fun n ω => (extent (v n ω)).toOption.getD []
  have hw : ∀ n ω, 0 < n → extent (v n ω) = .ok (w n ω) ∧ (w n ω).length = e ∧ IsExtent (v n ω) (w n ω) := by
    intro n ω hn
    obtain ⟨w', h1, h2, h3⟩ := extent_isExtent (hvne n ω hn) (hvrow n ω)
    have : w n ω = w' := by simp [w, h1, Except.toOption]
    rw [this]
    exact ⟨h1, h2, h3⟩
  refine moving_rectangle hG hm hQ hf hX hparts hs hdim hq (by simp) (by
      intro r hr
      obtain ⟨k, rfl⟩ := List.mem_ofFn.1 hr
      exact mul_pos (sub_pos.2 (hlohi k)) hsc) hns hcells hn hatom (rs := fun n ω => (w n ω).map (· * scale))
    (fun n ω hn0 => by simpa using (hw n ω hn0).2.1) ?_
    (measure := fun _ _ size ds => regularScaled G size ds (some q) (.scalar scale) cells) ?_
  · filter_upwards [extents_limit hQ hf hX hparts hrange] with ω hω k
    have h := (hω (fun n => w n ω) (fun n hn => (hw n ω hn).2) k).mul_const scale
    have hR : (List.ofFn fun k => (hi k - lo k) * scale).getD k 0 = (hi k - lo k) * scale := by
      rw [List.getD_eq_getElem?_getD, List.getElem?_ofFn]; simp
    rw [hR]
    refine h.congr fun n => ?_
    rw [List.getD_eq_getElem?_getD, List.getD_eq_getElem?_getD, List.getElem?_map]
    cases (w n ω)[(k : ℕ)]? <;> simp
  · intro n ω hn0 size hsize D inp out hD
    simp only [regularScaled, checkInputs_ranDisc hD q, ok_bind, orErr_some, scaleBy, pure_bind_ok]
    rw [show (drawnRows parts n fun r k => X r k ω).map f = v n ω from rfl, (hw n ω hn0).1, ok_bind]

/-- **C137.** The whole script: samples drawn by `random_sample_set` from any distributions, a measurable model, the
rectangle scaled to the sampled data, and `calculateP.prob`. -/
theorem C137_script {G : Geometry ℝ} (hG : Sound G) {st : Ω → Stats ℝ} {size : Nat} (hsize : 0 < size)
    {rv : RvArg ℝ} {obj : InputObj ℝ} {D : Option (List (ℝ × ℝ))} (hs : Space obj d D) (hfresh : NoArrays obj)
    {specs : List (RvSpec ℝ)} (hd : Distributions d D rv.long specs) (hav : ∀ ω, Available (st ω) specs)
    {ν : Fin d → Measure ℝ} {S : ℕ → Fin d → ℕ → Ω → ℝ} (hS : RandomNumbers P ν S) (hst : Returns st specs S)
    {model : Nat → List (List ℝ) → ModelOutput ℝ} {f e' : List ℝ → List ℝ} {j : List ℝ → List (List ℝ)}
    (hm : RowWise model false false f e' j) {Q : (Fin d → ℝ) → Fin e → ℝ} (hQ : Measurable Q)
    (hf : ∀ x, f (List.ofFn x) = List.ofFn (Q x)) (hdim : 0 < e) {q : List ℝ} (hq : q.length = e)
    {lo hi : Fin e → ℝ} (hrange : DataRange (Measure.pi ν) Q lo hi)
    (hatom : ∀ k y, Measure.pi ν {x | Q x k = y} = 0) {scale : ℝ} (hsc : 0 < scale) {cells : CellArg} {ns : List Nat}
    (hns : ns.length = e) (hcells : UsedCells cells ns) (hn : ∀ n ∈ ns, 0 < n) :
    ∃ t, IsRegularPartition t q (List.ofFn fun k => (hi k - lo k) * scale) ns ∧
      ((∀ c < ns.prod, Measure.pi ν {x | InRectangle t (List.ofFn (Q x)) c} ≠ 0) →
      ∀ g : (Fin d → ℝ) → ℝ, Integrable g (Measure.pi ν) → ∀ᵐ ω ∂P,
        (∀ᶠ n in atTop, (solutionMean g (randomProblem G (st ω) size rv obj n model e
          fun ds => regularScaled G size ds (some q) (.scalar scale) cells)).isSome) ∧
        Tendsto (fun n => (solutionMean g (randomProblem G (st ω) size rv obj n model e
          fun ds => regularScaled G size ds (some q) (.scalar scale) cells)).getD 0) atTop
          (𝓝 (conditionalMean ns.prod (fun _ => 1 / ns.prod)
            (fun c => {x | InRectangle t (List.ofFn (Q x)) c}) (Measure.pi ν) g))) := by
  obtain ⟨s, hhold, heq⟩ := randomProblem_eq (e := e) hsize hs hfresh hd hav hst G model
  obtain ⟨t, h1, h2⟩ := C137_scaled hG hm hQ hf (RandomNumbers.points hS) hsize hhold hdim hq hrange hatom hsc hns
    hcells hn
  refine ⟨t, h1, fun hpos => ?_⟩
  simp only [heq]
  exact h2 hpos size hsize

/-! ## Uniform samples -/

theorem volume_domainBox {D : List (ℝ × ℝ)} (hD : ProperBox d D) :
    volume (domainBox d D) ≠ 0 ∧ volume (domainBox d D) ≠ ⊤ := by
  constructor
  · rw [domainBox_eq hD.1, volume_pi_pi]
    refine Finset.prod_ne_zero_iff.2 fun i _ => ?_
    have hi : (i : ℕ) < D.length := by rw [hD.1]; exact i.2
    rw [List.getD_eq_getElem?_getD, List.getElem?_eq_getElem hi]
    simpa using hD.2 _ (List.getElem_mem hi)
  · rw [domainBox_eq hD.1, volume_pi_pi]
    exact ENNReal.prod_ne_top fun i _ => by simp

/-- An open set that meets a box has a part of positive volume in it. -/
theorem open_box_pos {D : List (ℝ × ℝ)} (hD : ProperBox d D) {U : Set (Fin d → ℝ)} (hU : IsOpen U)
    (hne : (U ∩ domainBox d D).Nonempty) : volume (U ∩ domainBox d D) ≠ 0 := by
  have hlt : ∀ i : Fin d, (D.getD i (0, 0)).1 < (D.getD i (0, 0)).2 := by
    intro i
    have hi : (i : ℕ) < D.length := by rw [hD.1]; exact i.2
    rw [List.getD_eq_getElem?_getD, List.getElem?_eq_getElem hi]
    exact hD.2 _ (List.getElem_mem _)
  let O : Set (Fin d → ℝ) := Set.univ.pi fun j : Fin d => Set.Ioo (D.getD j (0, 0)).1 (D.getD j (0, 0)).2
  have hO : IsOpen O := isOpen_set_pi Set.finite_univ fun i _ => isOpen_Ioo
  have hsub : O ⊆ domainBox d D := by
    rw [domainBox_eq hD.1]
    exact Set.pi_mono fun i _ => Set.Ioo_subset_Ico_self
  have hcl : domainBox d D ⊆ closure O := by
    rw [closure_pi_set, domainBox_eq hD.1]
    refine Set.pi_mono fun i _ => ?_
    rw [closure_Ioo (hlt i).ne]
    exact Set.Ico_subset_Icc_self
  obtain ⟨x, hx1, hx2⟩ := hne
  obtain ⟨z, hz⟩ := mem_closure_iff.1 (hcl hx2) U hU hx1
  have hpos := (hU.inter hO).measure_pos volume ⟨z, hz⟩
  exact (hpos.trans_le (measure_mono (Set.inter_subset_inter_right _ hsub))).ne'

/-- Uniform samples of a box and a continuous model: the range of the data is from the infimum to the supremum on the
box. -/
theorem dataRange_box {D : List (ℝ × ℝ)} (hD : ProperBox d D) {Q : (Fin d → ℝ) → Fin e → ℝ} (hQ : Continuous Q)
    {lo hi : Fin e → ℝ} (hlo : ∀ k, IsGLB ((fun x => Q x k) '' domainBox d D) (lo k))
    (hhi : ∀ k, IsLUB ((fun x => Q x k) '' domainBox d D) (hi k)) :
    DataRange ((volume (domainBox d D))⁻¹ • volume.restrict (domainBox d D)) Q lo hi := by
  obtain ⟨hne, htop⟩ := volume_domainBox hD
  have hk : ∀ k, Continuous fun x => Q x k := fun k => (continuous_apply k).comp hQ
  have hmeas : MeasurableSet (domainBox d D) := by
    rw [domainBox_eq hD.1]
    exact MeasurableSet.univ_pi fun i => measurableSet_Ico
  refine ⟨?_, fun k a ha => ?_, fun k b hb => ?_⟩
  · refine Measure.ae_smul_measure ?_ _
    refine (ae_restrict_iff' hmeas).2 (Eventually.of_forall fun x hx k => ⟨?_, ?_⟩)
    · exact (hlo k).1 ⟨x, hx, rfl⟩
    · exact (hhi k).1 ⟨x, hx, rfl⟩
  · obtain ⟨_, ⟨x, hx, rfl⟩, h⟩ := (isGLB_lt_iff (hlo k)).1 ha
    have hU : IsOpen {x | Q x k < a} := isOpen_lt (hk k) continuous_const
    rw [Measure.smul_apply, Measure.restrict_apply hU.measurableSet, smul_eq_mul]
    exact mul_ne_zero (ENNReal.inv_ne_zero.2 htop) (open_box_pos hD hU ⟨x, h, hx⟩)
  · obtain ⟨_, ⟨x, hx, rfl⟩, h⟩ := (lt_isLUB_iff (hhi k)).1 hb
    have hU : IsOpen {x | b < Q x k} := isOpen_lt continuous_const (hk k)
    rw [Measure.smul_apply, Measure.restrict_apply hU.measurableSet, smul_eq_mul]
    exact mul_ne_zero (ENNReal.inv_ne_zero.2 htop) (open_box_pos hD hU ⟨x, h, hx⟩)

/-- **C137.** The script with `random_sample_set('random', …)` (or `'r'`, `'uniform'`) for a set with a domain and a
continuous model whose level sets have no volume. Let `lo` and `hi` be the infimum and the supremum of the data on the
domain. If the preimage of every box of the rectangle with centre `q` and sides `(hi - lo) * scale` has a positive
volume in the domain, the solution tends with probability one to the exact solution for this rectangle: with `N` boxes,
each preimage has the probability `1 / N`, in proportion to the volume in the domain. -/
theorem C137_uniform {G : Geometry ℝ} (hG : Sound G) {st : Ω → Stats ℝ} {size : Nat} (hsize : 0 < size)
    {name : String} (hname : name ∈ ["r", "random", "uniform"])
    {obj : InputObj ℝ} {D : List (ℝ × ℝ)} (hD : ProperBox d D) (hs : Space obj d (some D)) (hfresh : NoArrays obj)
    (hav : ∀ ω, Available (st ω) (D.map fun ab => ⟨"uniform", [("loc", ab.1), ("scale", ab.2 - ab.1)]⟩))
    {S : ℕ → Fin d → ℕ → Ω → ℝ} (hS : RandomNumbers P (fun i : Fin d => uniformLaw (D.getD i (0, 0))) S)
    (hst : Returns st (D.map fun ab => ⟨"uniform", [("loc", ab.1), ("scale", ab.2 - ab.1)]⟩) S)
    {model : Nat → List (List ℝ) → ModelOutput ℝ} {f e' : List ℝ → List ℝ} {j : List ℝ → List (List ℝ)}
    (hm : RowWise model false false f e' j) {Q : (Fin d → ℝ) → Fin e → ℝ} (hQ : Continuous Q)
    (hf : ∀ x, f (List.ofFn x) = List.ofFn (Q x)) (hdim : 0 < e) {q : List ℝ} (hq : q.length = e)
    {lo hi : Fin e → ℝ} (hlo : ∀ k, IsGLB ((fun x => Q x k) '' domainBox d D) (lo k))
    (hhi : ∀ k, IsLUB ((fun x => Q x k) '' domainBox d D) (hi k))
    (hlevel : ∀ k y, volume {x | Q x k = y} = 0) {scale : ℝ} (hsc : 0 < scale) {cells : CellArg} {ns : List Nat}
    (hns : ns.length = e) (hcells : UsedCells cells ns) (hn : ∀ n ∈ ns, 0 < n) :
    ∃ t, IsRegularPartition t q (List.ofFn fun k => (hi k - lo k) * scale) ns ∧
      ((∀ c < ns.prod, volume ({x | InRectangle t (List.ofFn (Q x)) c} ∩ domainBox d D) ≠ 0) →
      ∀ g : (Fin d → ℝ) → ℝ, IntegrableOn g (domainBox d D) → ∀ᵐ ω ∂P,
        (∀ᶠ n in atTop, (solutionMean g (randomProblem G (st ω) size (.str name) obj n model e
          fun ds => regularScaled G size ds (some q) (.scalar scale) cells)).isSome) ∧
        Tendsto (fun n => (solutionMean g (randomProblem G (st ω) size (.str name) obj n model e
          fun ds => regularScaled G size ds (some q) (.scalar scale) cells)).getD 0) atTop
          (𝓝 (∑ c ∈ Finset.range ns.prod, 1 / (ns.prod : ℝ) *
            ((∫ x in {x | InRectangle t (List.ofFn (Q x)) c} ∩ domainBox d D, g x) /
              volume.real ({x | InRectangle t (List.ofFn (Q x)) c} ∩ domainBox d D))))) := by
  obtain ⟨hne, htop⟩ := volume_domainBox hD
  have hlong : (RvArg.str name : RvArg ℝ).long = .str "uniform" := by
    simp only [List.mem_cons, List.not_mem_nil, or_false] at hname
    rcases hname with rfl | rfl | rfl <;> rfl
  have hE : ∀ (t : SampleSet ℝ) c, MeasurableSet {x : Fin d → ℝ | InRectangle t (List.ofFn (Q x)) c} :=
    fun t c => hQ.measurable (measurable_inRectangle t c)
  obtain ⟨t, h1, h2⟩ := C137_script (rv := .str name) hG hsize hs hfresh
    (by rw [hlong]; exact .fitted "uniform" D) hav hS hst hm hQ.measurable hf hdim hq (lo := lo) (hi := hi)
    (by rw [pi_uniformLaw hD]; exact dataRange_box hD hQ hlo hhi) (by
      intro k y
      rw [pi_uniformLaw hD, Measure.smul_apply, smul_eq_mul]
      exact mul_eq_zero_of_right _ (le_antisymm ((Measure.restrict_apply_le _ _).trans (hlevel k y).le) bot_le))
    hsc hns hcells hn
  refine ⟨t, h1, fun hpos g hg => ?_⟩
  have := h2 (by
    intro c hc
    rw [pi_uniformLaw hD, Measure.smul_apply, Measure.restrict_apply (hE t c), smul_eq_mul]
    exact mul_ne_zero (ENNReal.inv_ne_zero.2 htop) (hpos c hc)) g (by
    rw [pi_uniformLaw hD]
    exact hg.smul_measure (ENNReal.inv_ne_top.2 hne))
  rw [pi_uniformLaw hD, conditionalMean_box _ _ (fun c _ => hE t c) hne htop] at this
  exact this

/-- Level sets of linear models that are not zero have no volume. -/
theorem level_linear {φ : (Fin d → ℝ) →ₗ[ℝ] ℝ} (hφ : φ ≠ 0) (y : ℝ) : volume {x | φ x = y} = 0 := by
  by_cases hx : ∃ x, φ x = y
  · obtain ⟨x, hx⟩ := hx
    have h := Measure.addHaar_affineSubspace volume (AffineSubspace.mk' x (LinearMap.ker φ)) (by
      intro h
      refine hφ (LinearMap.ker_eq_top.1 ?_)
      rw [← AffineSubspace.direction_mk' x (LinearMap.ker φ), h, AffineSubspace.direction_top])
    convert h using 2
    ext z
    rw [SetLike.mem_coe, AffineSubspace.mem_mk', LinearMap.mem_ker, vsub_eq_sub, map_sub, hx, sub_eq_zero]
    rfl
  · convert measure_empty (μ := (volume : Measure (Fin d → ℝ)))
    ext z
    exact ⟨fun h => hx ⟨z, h⟩, fun h => h.elim⟩

end

/-! ## Example -/

namespace Ex

/-- The sum of two parameters. -/
def sumMap : (Fin 2 → ℝ) →ₗ[ℝ] ℝ where
  toFun x := x 0 + x 1
  map_add' x y := by simp only [Pi.add_apply]; ring
  map_smul' a x := by simp only [Pi.smul_apply, smul_eq_mul, RingHom.id_apply]; ring

/-- **C137.** Uniform samples of the unit square on three processes, the sum of the parameters as model, and half the
extent of the sampled data around 1: the limit is the solution for the interval from 1/2 to 3/2. -/
example : ∃ (Ω : Type) (_ : MeasurableSpace Ω) (P : Measure Ω) (st : Ω → Stats ℝ) (t : SampleSet ℝ),
    IsProbabilityMeasure P ∧ IsRegularPartition t [1] [1] [1] ∧
    ∀ g : (Fin 2 → ℝ) → ℝ, IntegrableOn g (domainBox 2 [(0, 1), (0, 1)]) → ∀ᵐ ω ∂P, Tendsto (fun n =>
      (solutionMean g (randomProblem euclid (st ω) 3 (.str "random") (.domain [(0, 1), (0, 1)]) n planeModel 1
        fun ds => regularScaled euclid 3 ds (some [1]) (.scalar (1 / 2)) (.scalar 1))).getD 0) atTop
      (𝓝 (∑ c ∈ Finset.range [1].prod, 1 / (([1].prod : ℕ) : ℝ) *
        ((∫ x in {x | InRectangle t (List.ofFn fun _ : Fin 1 => x 0 + x 1) c} ∩ domainBox 2 [(0, 1), (0, 1)], g x) /
          volume.real ({x | InRectangle t (List.ofFn fun _ : Fin 1 => x 0 + x 1) c} ∩
            domainBox 2 [(0, 1), (0, 1)])))) := by
  have hD : ProperBox 2 [((0 : ℝ), (1 : ℝ)), (0, 1)] := ⟨rfl, by simp⟩
  obtain ⟨Ω, i, P, S, hP, hS⟩ := uniformStats hD
  have hbox : ∀ x : Fin 2 → ℝ, x ∈ domainBox 2 [((0 : ℝ), (1 : ℝ)), (0, 1)] ↔
      (0 ≤ x 0 ∧ x 0 < 1) ∧ (0 ≤ x 1 ∧ x 1 < 1) := by
    intro x
    rw [domainBox_eq hD.1, Set.mem_univ_pi, Fin.forall_fin_two]
    exact Iff.rfl
  obtain ⟨t, h1, h3⟩ := C137_uniform euclid_sound (size := 3) (by norm_num) (name := "random") (by simp) hD
    (.domain [(0, 1), (0, 1)]) trivial (giveStats_available S _) hS (giveStats_returns S _) planeRowWise
    (Q := fun x (_ : Fin 1) => x 0 + x 1) (by fun_prop) (fun x => by simp [planeMap]) Nat.one_pos (q := [1])
    (lo := fun _ => 0) (hi := fun _ => 2) rfl (by
      intro k
      refine ⟨?_, fun b hb => hb ⟨0, (hbox 0).2 (by simp), by simp⟩⟩
      rintro _ ⟨x, hx, rfl⟩
      have := (hbox x).1 hx
      show (0 : ℝ) ≤ x 0 + x 1
      linarith [this.1.1, this.2.1]) (by
      intro k
      refine ⟨?_, fun b hb => ?_⟩
      · rintro _ ⟨x, hx, rfl⟩
        have := (hbox x).1 hx
        show x 0 + x 1 ≤ (2 : ℝ)
        linarith [this.1.2, this.2.2]
      · refine le_of_forall_lt fun c hc => ?_
        have hmax : max 0 (c / 2) < 1 := max_lt (by norm_num) (by linarith)
        obtain ⟨z, hz1, hz2⟩ := exists_between hmax
        have hz0 : 0 ≤ z := (le_max_left _ _).trans hz1.le
        have hzc : c / 2 < z := (le_max_right _ _).trans_lt hz1
        have h : z + z ≤ b := hb ⟨fun _ => z, (hbox _).2 ⟨⟨hz0, hz2⟩, ⟨hz0, hz2⟩⟩, rfl⟩
        linarith) (by
      intro k y
      exact level_linear (φ := sumMap) (fun h => by
        have : sumMap 1 = 0 := by rw [h]; rfl
        have : (1 : ℝ) + 1 = 0 := this
        norm_num at this) y) (scale := 1 / 2) (by norm_num) (cells := .scalar 1) (ns := [1]) rfl rfl (by simp)
  have hrs : (List.ofFn fun _ : Fin 1 => ((2 : ℝ) - 0) * (1 / 2)) = [1] := by simp
  rw [hrs] at h1
  refine ⟨Ω, i, P, giveStats S, t, hP, h1, fun g hg => ?_⟩
  have h4 := h3 (by
    intro c hc
    have hc0 : c = 0 := by simpa using hc
    subst hc0
    have hU : IsOpen {x : Fin 2 → ℝ | 1 / 2 < x 0 + x 1 ∧ x 0 + x 1 < 3 / 2} :=
      (isOpen_lt (f := fun _ : Fin 2 → ℝ => (1 / 2 : ℝ)) (g := fun x => x 0 + x 1) (by fun_prop) (by fun_prop)).inter
        (isOpen_lt (f := fun x : Fin 2 → ℝ => x 0 + x 1) (g := fun _ => (3 / 2 : ℝ)) (by fun_prop) (by fun_prop))
    have hsub : {x : Fin 2 → ℝ | 1 / 2 < x 0 + x 1 ∧ x 0 + x 1 < 3 / 2} ⊆
        {x | InRectangle t (List.ofFn fun _ : Fin 1 => x 0 + x 1) 0} := by
      intro x hx
      have hx : 1 / 2 < x 0 + x 1 ∧ x 0 + x 1 < 3 / 2 := hx
      obtain ⟨i, ⟨hi, hin⟩, -⟩ := (h1.tiles (List.ofFn fun _ : Fin 1 => x 0 + x 1) (by simp)).1 (by
        simp only [InRect, List.ofFn_succ, List.ofFn_zero, List.zip_cons_cons, List.zip_nil_left, List.forall₂_cons,
          List.forall₂_nil_left_iff, and_true]
        constructor <;> linarith [hx.1, hx.2])
      have : i = 0 := by simpa using hi
      exact this ▸ hin
    intro h0
    refine open_box_pos hD hU ⟨fun _ => 1 / 2, by norm_num, (hbox _).2 (by norm_num)⟩ (measure_mono_null ?_ h0)
    exact Set.inter_subset_inter_left _ hsub) g hg
  exact h4.mono fun ω h => h.2

end Ex

end BET
