import Verif.Lemmas.MovingFunction
import Verif.Props.CellLimit

/-!
# C139: solutions converge when the input samples and the random points grow together
-/

set_option linter.unusedSectionVars false
set_option linter.unusedSimpArgs false
set_option autoImplicit false

namespace BET

open Spec MeasureTheory ProbabilityTheory Filter Topology

variable {Ω : Type} [MeasurableSpace Ω] {P : Measure Ω} {d e : Nat}

/-! ## Specification -/

namespace Spec

/-- The mean of `g` under the probabilities that a call gives the input samples `z`. -/
noncomputable def weighed (z : List (Fin d → ℝ)) (g : (Fin d → ℝ) → ℝ) (r : Except Err (Disc ℝ)) : ℝ :=
  ∑ i ∈ Finset.range z.length, (inputProbability r i).getD 0 * g (z.getD i 0)

end Spec

/-! ## The sample of the cell -/

/-- The sample of the cell of `x`. -/
noncomputable def pointOf (G : Geometry ℝ) (s : SampleSet ℝ) (z : List (Fin d → ℝ)) (x : Fin d → ℝ) : Fin d → ℝ :=
  z.getD (s.cell G (List.ofFn x)) 0

theorem pointOf_tendsto {G : Geometry ℝ} (hG : Sound G) {μ : Measure (Fin d → ℝ)} {s : ℕ → SampleSet ℝ}
    {z : ℕ → List (Fin d → ℝ)} (hs : ∀ n, Ready (s n) (z n).length) (h : CellsShrink G μ s z) :
    ∀ᵐ x ∂μ, Tendsto (fun n => pointOf G (s n) (z n) x) atTop (𝓝 x) := by
  filter_upwards [h.near] with x hx
  rw [Metric.tendsto_atTop']
  intro ε hε
  obtain ⟨N, hN⟩ := eventually_atTop.1 (hx ε hε)
  exact ⟨N, fun n hn => hN n hn.le _ (SampleSet.cell_lt hG (hs n) _) (SampleSet.cell_isCell hG (hs n) _)⟩

/-- A sum over the cells of the points in them is a sum over the points. -/
theorem sum_by_cell {ι : Type} {G : Geometry ℝ} (hG : Sound G) {s : SampleSet ℝ} {z : List (Fin d → ℝ)}
    (hs : Ready s z.length) (S : Finset ι) (y : ι → Fin d → ℝ) (a : ℝ) (w : (Fin d → ℝ) → ℝ) :
    ∑ i ∈ Finset.range z.length, (∑ k ∈ S, ind {x | s.cell G (List.ofFn x) = i} (y k)) / a * w (z.getD i 0) =
      (∑ k ∈ S, w (pointOf G s z (y k))) / a := by
  have h : ∀ i, (∑ k ∈ S, ind {x | s.cell G (List.ofFn x) = i} (y k)) / a * w (z.getD i 0) =
      ∑ k ∈ S, ind {x | s.cell G (List.ofFn x) = i} (y k) * w (z.getD i 0) / a := by
    intro i
    rw [div_mul_eq_mul_div, Finset.sum_mul, Finset.sum_div]
  rw [Finset.sum_congr rfl fun i _ => h i, Finset.sum_comm, Finset.sum_div]
  refine Finset.sum_congr rfl fun k _ => ?_
  rw [← Finset.sum_div]
  congr 1
  rw [Finset.sum_eq_single (s.cell G (List.ofFn (y k)))]
  · simp [ind, Set.indicator, pointOf]
  · intro i _ hi
    simp [ind, Set.indicator, Ne.symm hi]
  · intro hi
    exact absurd (Finset.mem_range.2 (SampleSet.cell_lt hG hs _)) hi

/-- Functions of the cell are measurable. -/
theorem cell_meas {G : Geometry ℝ} (hG : Sound G) {μ : Measure (Fin d → ℝ)} {s : SampleSet ℝ} {N : Nat}
    (hs : Ready s N) (hc : ClearCells G s μ) (w : ℕ → ℝ) :
    AEStronglyMeasurable (fun x : Fin d → ℝ => w (s.cell G (List.ofFn x))) μ := by
  have h : (fun x : Fin d → ℝ => w (s.cell G (List.ofFn x))) = ∑ i ∈ Finset.range N,
      {x : Fin d → ℝ | s.cell G (List.ofFn x) = i}.indicator fun _ => w i := by
    funext x
    rw [Finset.sum_apply, Finset.sum_eq_single (s.cell G (List.ofFn x))]
    · simp [Set.indicator]
    · intro i _ hi
      simp [Set.indicator, Ne.symm hi]
    · intro hi
      exact absurd (Finset.mem_range.2 (SampleSet.cell_lt hG hs _)) hi
  rw [h]
  exact Finset.aestronglyMeasurable_sum _ fun i _ => aestronglyMeasurable_const.indicator₀
    ((hc.meas i).congr (cell_ae hG hs hc i).symm)

theorem pointOf_meas {G : Geometry ℝ} (hG : Sound G) {μ : Measure (Fin d → ℝ)} {s : SampleSet ℝ}
    {z : List (Fin d → ℝ)} (hs : Ready s z.length) (hc : ClearCells G s μ) (w : (Fin d → ℝ) → ℝ) :
    AEStronglyMeasurable (fun x => w (pointOf G s z x)) μ :=
  cell_meas hG hs hc fun i => w (z.getD i 0)

/-! ## The limit -/

section
variable [IsProbabilityMeasure P]

theorem joint_limit {G : Geometry ℝ} (hG : Sound G) {t : SampleSet ℝ} {m : Nat} (ht : Ready t m)
    {μ : Measure (Fin d → ℝ)} {Q : (Fin d → ℝ) → Fin e → ℝ} (hQ : ThinContours G t m μ Q)
    {z : ℕ → List (Fin d → ℝ)} {s : ℕ → SampleSet ℝ} (hs : ∀ n, Ready (s n) (z n).length) (hshrink : CellsShrink G μ s z)
    (hc : ∀ n, ClearCells G (s n) μ) {p : List ℝ}
    (hp0 : ∀ x ∈ p, 0 ≤ x) (hpos : ∀ c < m, 0 < p.getD c 0 → μ (Q ⁻¹' cellSet e G t c) ≠ 0) {parts : Nat}
    (hparts : 0 < parts) {Z : ℕ → ℕ → Ω → Fin d → ℝ} (hlaw : ∀ r k, HasLaw (Z r k) μ P)
    (hind : ∀ r, Pairwise fun j k => IndepFun (Z r j) (Z r k) P) {u : ℕ → (Fin d → ℝ) → ℝ} {g B : (Fin d → ℝ) → ℝ}
    (hu : ∀ n, AEStronglyMeasurable (u n) μ) (hB : Integrable B μ) (hdom : ∀ n, ∀ᵐ x ∂μ, |u n x| ≤ B x)
    (hlim : ∀ᵐ x ∂μ, Tendsto (fun n => u n x) atTop (𝓝 (g x))) {M : ℕ → ℕ} (hM : Tendsto M atTop atTop) :
    ∀ᵐ ω ∂P, Tendsto (fun n => ∑ c ∈ Finset.range m, p.getD c 0 *
      ((∑ rk ∈ drawSet parts (M n), u n (Z rk.1 rk.2 ω) *
          if t.cell G (List.ofFn (Q (pointOf G (s n) (z n) (Z rk.1 rk.2 ω)))) = c then 1 else 0) /
        ∑ rk ∈ drawSet parts (M n),
          if t.cell G (List.ofFn (Q (pointOf G (s n) (z n) (Z rk.1 rk.2 ω)))) = c then (1 : ℝ) else 0)) atTop
      (𝓝 (conditionalMean m (fun c => p.getD c 0) (fun c => Q ⁻¹' cellSet e G t c) μ g)) := by
  have hP : IsProbabilityMeasure μ := by
    rw [← (hlaw 0 0).map_eq]
    exact Measure.isProbabilityMeasure_map (hlaw 0 0).aemeasurable
  have hp : ∀ c, 0 ≤ p.getD c 0 := by
    intro c
    rw [List.getD_eq_getElem?_getD]
    by_cases hl : c < p.length
    · rw [List.getElem?_eq_getElem hl]; exact hp0 _ (List.getElem_mem hl)
    · rw [List.getElem?_eq_none (not_lt.1 hl)]; rfl
  have hmeas : ∀ c n, AEStronglyMeasurable (fun x =>
      if t.cell G (List.ofFn (Q (pointOf G (s n) (z n) x))) = c then (1 : ℝ) else 0) μ := fun c n =>
    pointOf_meas hG (hs n) (hc n) fun x => if t.cell G (List.ofFn (Q x)) = c then (1 : ℝ) else 0
  have hlab : ∀ c, ∀ᵐ x ∂μ, Tendsto (fun n =>
      if t.cell G (List.ofFn (Q (pointOf G (s n) (z n) x))) = c then (1 : ℝ) else 0) atTop
      (𝓝 (if t.cell G (List.ofFn (Q x)) = c then (1 : ℝ) else 0)) := by
    intro c
    filter_upwards [contour_continuous hG ht hQ c, pointOf_tendsto hG hs hshrink] with x h1 h2
    exact Tendsto.comp (g := fun x => if t.cell G (List.ofFn (Q x)) = c then (1 : ℝ) else 0) h1 h2
  have hden : ∀ᵐ ω ∂P, ∀ c, Tendsto (fun n => (∑ rk ∈ drawSet parts (M n),
      if t.cell G (List.ofFn (Q (pointOf G (s n) (z n) (Z rk.1 rk.2 ω)))) = c then (1 : ℝ) else 0) / M n) atTop
      (𝓝 (μ.real (Q ⁻¹' cellSet e G t c))) := by
    refine ae_all_iff.2 fun c => ?_
    have h := moving_function hparts hlaw hind (hmeas c) (integrable_const (1 : ℝ))
      (fun n => Eventually.of_forall fun x => by split <;> simp) (hlab c) hM
    have h2 := contour_integral hG ht hQ c fun _ => 1
    simp only [one_mul] at h2
    rw [h2] at h
    simpa using h
  have hnum : ∀ᵐ ω ∂P, ∀ c, Tendsto (fun n => (∑ rk ∈ drawSet parts (M n), u n (Z rk.1 rk.2 ω) *
      if t.cell G (List.ofFn (Q (pointOf G (s n) (z n) (Z rk.1 rk.2 ω)))) = c then 1 else 0) / M n) atTop
      (𝓝 (∫ x in Q ⁻¹' cellSet e G t c, g x ∂μ)) := by
    refine ae_all_iff.2 fun c => ?_
    rw [← contour_integral hG ht hQ c g]
    refine moving_function hparts hlaw hind (fun n => (hu n).mul (hmeas c n)) hB (fun n => ?_) ?_ hM
    · filter_upwards [hdom n] with x hx
      simp only [Pi.mul_apply]
      split
      · rw [mul_one]; exact hx
      · rw [mul_zero, abs_zero]; exact (abs_nonneg _).trans hx
    · filter_upwards [hlim, hlab c] with x h1 h2 using h1.mul h2
  filter_upwards [hden, hnum] with ω h1 h2
  unfold conditionalMean
  refine tendsto_finsetSum _ fun c hcm => ?_
  have hcm := Finset.mem_range.1 hcm
  by_cases hpc : 0 < p.getD c 0
  swap
  · have h0 : p.getD c 0 = 0 := le_antisymm (not_lt.1 hpc) (hp c)
    simp only [h0, zero_mul]
    exact tendsto_const_nhds
  refine tendsto_const_nhds.mul ?_
  refine ((h2 c).div (h1 c) (ENNReal.toReal_ne_zero.2 ⟨hpos c hcm hpc, measure_ne_top _ _⟩)).congr' ?_
  filter_upwards [hM.eventually (eventually_gt_atTop 0)] with n hn
  exact div_div_div_cancel_right₀ (Nat.cast_ne_zero.2 hn.ne') _ _

/-! ## Emulated samples -/

/-- **C139.** `prob_on_emulated_samples` when both the input samples `z n` and the random emulated samples (`M n` of them)
grow, at any rates: if the cells of the input samples shrink, the computed mean of every integrable function, and so the
probability of every event, tends with probability one to that of the exact solution for the model `Q`, which gives the
inverse image of every output cell its probability and is proportional to the law of the emulated samples there. The
model is evaluated at the input samples only. -/
theorem C139_emulated {G : Geometry ℝ} (hG : Sound G) {t : SampleSet ℝ} {m : Nat} {μ : Measure (Fin d → ℝ)}
    {Q : (Fin d → ℝ) → Fin e → ℝ} (hQ : ThinContours G t m μ Q) {z : ℕ → List (Fin d → ℝ)} {s out : ℕ → SampleSet ℝ}
    (hshrink : CellsShrink G μ s z) (hc : ∀ n, ClearCells G (s n) μ) {p : List ℝ}
    (hp0 : ∀ x ∈ p, 0 ≤ x) (hpos : ∀ c < m, 0 < p.getD c 0 → μ (Q ⁻¹' cellSet e G t c) ≠ 0)
    {X : ℕ → ℕ → Ω → Fin d → ℝ} (hX : RandomSamples P μ X) {parts : Nat} (hparts : 0 < parts) {M : ℕ → ℕ}
    (hM : Tendsto M atTop atTop) {D : ℕ → Ω → Disc ℝ} {em : ℕ → Ω → SampleSet ℝ}
    (hD : ∀ n ω, FreshEm (D n ω) (z n).length m (M n) (s n) (out n) t (em n ω) ((z n).map fun x => List.ofFn (Q x))
      (drawnRows parts (M n) fun r k => X r k ω) p) {size : Nat} (hsize : 0 < size) :
    (∀ n ω (g : (Fin d → ℝ) → ℝ), (((probOnEmulated G size (D n ω) true).toOption.bind
      (·.emInput)).bind (meanOf g)).isSome) ∧
    ∀ g : (Fin d → ℝ) → ℝ, Integrable g μ → ∀ᵐ ω ∂P, Tendsto (fun n =>
      (((probOnEmulated G size (D n ω) true).toOption.bind (·.emInput)).bind (meanOf g)).getD 0) atTop
      (𝓝 (conditionalMean m (fun c => p.getD c 0) (fun c => Q ⁻¹' cellSet e G t c) μ g)) := by
  obtain ⟨ω₀⟩ := nonempty_of_isProbabilityMeasure P
  have ht := (hD 0 ω₀).hopsReady
  have hs : ∀ n, Ready (s n) (z n).length := fun n => (hD n ω₀).hready
  have hp : ∀ c, 0 ≤ p.getD c 0 := by
    intro c
    rw [List.getD_eq_getElem?_getD]
    by_cases hl : c < p.length
    · rw [List.getElem?_eq_getElem hl]; exact hp0 _ (List.getElem_mem hl)
    · rw [List.getElem?_eq_none (not_lt.1 hl)]; rfl
  set c : ℕ → List ℝ → Nat := fun n x =>
    (((z n).map fun x => List.ofFn (Q x)).map (t.cell G)).getD ((s n).cell G x) 0 with hcdef
  have hcx : ∀ n x, c n (List.ofFn x) = t.cell G (List.ofFn (Q (pointOf G (s n) (z n) x))) := by
    intro n x
    have hl := SampleSet.cell_lt hG (hs n) (List.ofFn x)
    simp only [hcdef, pointOf, List.getD_eq_getElem?_getD, List.getElem?_map, List.getElem?_eq_getElem hl, Option.map_some,
      Option.getD_some]
  have hmean : ∀ n ω (g : (Fin d → ℝ) → ℝ), ((probOnEmulated G size (D n ω) true).toOption.bind
      (·.emInput)).bind (meanOf g) = some (∑ i ∈ Finset.range m, p.getD i 0 *
      ((∑ rk ∈ drawSet parts (M n), g (X rk.1 rk.2 ω) *
          if t.cell G (List.ofFn (Q (pointOf G (s n) (z n) (X rk.1 rk.2 ω)))) = i then 1 else 0) /
        ∑ rk ∈ drawSet parts (M n),
          if t.cell G (List.ofFn (Q (pointOf G (s n) (z n) (X rk.1 rk.2 ω)))) = i then (1 : ℝ) else 0)) := by
    intro n ω g
    obtain ⟨d', em', h1, h2, h3, h4⟩ := C04_emulated_fresh hG (hD n ω) size hsize
    rw [h1]
    simp only [Except.toOption, Option.bind_some, h2]
    refine (meanOf_shares (X := fun r k => X r k ω) (p := fun i => p.getD i 0) (c := c n) h3 ?_ g).trans ?_
    · rw [h4]
      congr 1
      refine List.map_congr_left fun x _ => ?_
      show (if 0 < p.getD (c n x) 0 then _ else _) = _
      by_cases hpos : 0 < p.getD (c n x) 0
      · rw [if_pos hpos]
      · rw [if_neg hpos, le_antisymm (not_lt.1 hpos) (hp _), zero_div]
    · congr 1
      have key := draw_shares (size := parts) (n := M n) (z := fun r k => X r k ω) (L := fun x => c n (List.ofFn x))
        (m := m) (fun x => by rw [hcx]; exact SampleSet.cell_lt hG ht _) (fun i => p.getD i 0) g
      refine key.trans (Finset.sum_congr rfl fun i _ => ?_)
      have hi : ∀ x, ind {x | c n (List.ofFn x) = i} x =
          if t.cell G (List.ofFn (Q (pointOf G (s n) (z n) x))) = i then (1 : ℝ) else 0 := by
        intro x
        simp only [ind, Set.indicator, Set.mem_ofPred_eq, hcx, Pi.one_apply]
      simp only [hi]
  refine ⟨fun n ω g => by rw [hmean]; rfl, fun g hg => ?_⟩
  simp only [hmean, Option.getD_some]
  exact joint_limit hG ht hQ hs hshrink hc hp0 hpos hparts hX.law hX.indep (u := fun _ => g)
    (fun _ => hg.aestronglyMeasurable) hg.abs (fun _ => Eventually.of_forall fun x => le_rfl)
    (Eventually.of_forall fun x => tendsto_const_nhds) hM

/-! ## Random volumes -/

/-- The mean under volumes that count points, label by label. -/
theorem counted_mean {G : Geometry ℝ} (hG : Sound G) {t s : SampleSet ℝ} {m : Nat} (ht : Ready t m)
    {Q : (Fin d → ℝ) → Fin e → ℝ} {z : List (Fin d → ℝ)} (hs : Ready s z.length) {p : List ℝ} (hp0 : ∀ x ∈ p, 0 ≤ x)
    {ι : Type} (S : Finset ι) (y : ι → Fin d → ℝ) {a : ℝ} (ha : 0 < a) (g : (Fin d → ℝ) → ℝ) :
    ∑ i ∈ Finset.range z.length, dividedBy z.length p
        (fun i => t.cell G (((z.map fun x => List.ofFn (Q x)).getD i [])))
        (fun j => (∑ k ∈ S, ind {x | s.cell G (List.ofFn x) = j} (y k)) / a) i * g (z.getD i 0) =
      ∑ c ∈ Finset.range m, p.getD c 0 *
        ((∑ k ∈ S, g (pointOf G s z (y k)) * if t.cell G (List.ofFn (Q (pointOf G s z (y k)))) = c then 1 else 0) /
          ∑ k ∈ S, if t.cell G (List.ofFn (Q (pointOf G s z (y k)))) = c then (1 : ℝ) else 0) := by
  have hp : ∀ c, 0 ≤ p.getD c 0 := by
    intro c
    rw [List.getD_eq_getElem?_getD]
    by_cases hl : c < p.length
    · rw [List.getElem?_eq_getElem hl]; exact hp0 _ (List.getElem_mem hl)
    · rw [List.getElem?_eq_none (not_lt.1 hl)]; rfl
  have key := cell_shares (N := z.length) (m := m) (L := fun i => t.cell G (((z.map fun x => List.ofFn (Q x)).getD i [])))
    (fun i _ => SampleSet.cell_lt hG ht _) (fun c => p.getD c 0) hp
    (fun j => (∑ k ∈ S, ind {x | s.cell G (List.ofFn x) = j} (y k)) / a) (fun i => g (z.getD i 0))
    (fun i _ => div_nonneg (Finset.sum_nonneg fun k _ => (ind_mem _ _).1) ha.le)
  refine key.trans (Finset.sum_congr rfl fun c _ => ?_)
  have hz : ∀ i ∈ Finset.range z.length, t.cell G (((z.map fun x => List.ofFn (Q x)).getD i [])) =
      t.cell G (List.ofFn (Q (z.getD i 0))) := by
    intro i hi
    have hi := Finset.mem_range.1 hi
    simp only [List.getD_eq_getElem?_getD, List.getElem?_map, List.getElem?_eq_getElem hi, Option.map_some,
      Option.getD_some]
  have h1 := sum_by_cell hG hs S y a fun x => g x * if t.cell G (List.ofFn (Q x)) = c then 1 else 0
  have h2 := sum_by_cell hG hs S y a fun x => if t.cell G (List.ofFn (Q x)) = c then 1 else 0
  have h3 := div_div_div_cancel_right₀ ha.ne'
    (∑ k ∈ S, g (pointOf G s z (y k)) * if t.cell G (List.ofFn (Q (pointOf G s z (y k)))) = c then 1 else 0)
    (∑ k ∈ S, if t.cell G (List.ofFn (Q (pointOf G s z (y k)))) = c then (1 : ℝ) else 0)
  rw [← h3, ← h1, ← h2]
  refine congrArg₂ _ rfl (congrArg₂ _ (Finset.sum_congr rfl fun i hi => ?_) (Finset.sum_congr rfl fun i hi => ?_)) <;>
    rw [hz i hi]

/-- The limit of these means. -/
theorem counted_limit {G : Geometry ℝ} (hG : Sound G) {t : SampleSet ℝ} {m : Nat} (ht : Ready t m)
    {μ : Measure (Fin d → ℝ)} {Q : (Fin d → ℝ) → Fin e → ℝ} (hQ : ThinContours G t m μ Q)
    {z : ℕ → List (Fin d → ℝ)} {s : ℕ → SampleSet ℝ} (hs : ∀ n, Ready (s n) (z n).length) (hshrink : CellsShrink G μ s z)
    (hc : ∀ n, ClearCells G (s n) μ) {p : List ℝ}
    (hp0 : ∀ x ∈ p, 0 ≤ x) (hpos : ∀ c < m, 0 < p.getD c 0 → μ (Q ⁻¹' cellSet e G t c) ≠ 0) {parts : Nat}
    (hparts : 0 < parts) {Z : ℕ → ℕ → Ω → Fin d → ℝ} (hlaw : ∀ r k, HasLaw (Z r k) μ P)
    (hind : ∀ r, Pairwise fun j k => IndepFun (Z r j) (Z r k) P) {g : (Fin d → ℝ) → ℝ} {K : ℝ} (hK : ∀ x, |g x| ≤ K)
    (hg : ∀ᵐ x ∂μ, ContinuousAt g x) {M : ℕ → ℕ} (hM : Tendsto M atTop atTop) :
    ∀ᵐ ω ∂P, Tendsto (fun n => ∑ i ∈ Finset.range (z n).length, dividedBy (z n).length p
        (fun i => t.cell G ((((z n).map fun x => List.ofFn (Q x)).getD i [])))
        (fun j => (∑ rk ∈ drawSet parts (M n), ind {x | (s n).cell G (List.ofFn x) = j} (Z rk.1 rk.2 ω)) / M n) i *
          g ((z n).getD i 0)) atTop
      (𝓝 (conditionalMean m (fun c => p.getD c 0) (fun c => Q ⁻¹' cellSet e G t c) μ g)) := by
  have hP : IsProbabilityMeasure μ := by
    rw [← (hlaw 0 0).map_eq]
    exact Measure.isProbabilityMeasure_map (hlaw 0 0).aemeasurable
  have h := joint_limit hG ht hQ hs hshrink hc hp0 hpos hparts hlaw hind
    (u := fun n x => g (pointOf G (s n) (z n) x)) (g := g) (B := fun _ => K) (fun n => pointOf_meas hG (hs n) (hc n) g)
    (integrable_const K) (fun n => Eventually.of_forall fun x => hK _)
    (by filter_upwards [hg, pointOf_tendsto hG hs hshrink] with x h1 h2 using h1.tendsto.comp h2) hM
  filter_upwards [h] with ω hω
  refine hω.congr' ?_
  filter_upwards [hM.eventually (eventually_gt_atTop 0)] with n hn
  exact (counted_mean hG ht (hs n) hp0 (drawSet parts (M n)) (fun rk => Z rk.1 rk.2 ω)
    (a := (M n : ℝ)) (by exact_mod_cast hn) g).symm

/-- **C139.** `estimate_volume` with `M n` random points and then `prob`, for input samples `z n` whose cells shrink: with
probability one the mean of every bounded function continuous almost everywhere tends to that of the exact solution with
the uniform measure in the domain, however the numbers of samples and of points grow. -/
theorem C139_estimated {G : Geometry ℝ} (hG : Sound G) {t : SampleSet ℝ} {m : Nat} {dom : List (ℝ × ℝ)}
    (hdom : ProperBox d dom) {Q : (Fin d → ℝ) → Fin e → ℝ}
    (hQ : ThinContours G t m (volume.restrict (domainBox d dom)) Q) {z : ℕ → List (Fin d → ℝ)}
    {s out : ℕ → SampleSet ℝ} (hbox : ∀ n, (s n).domain = some dom)
    (hshrink : CellsShrink G (volume.restrict (domainBox d dom)) s z)
    (hc : ∀ n, ClearCells G (s n) (volume.restrict (domainBox d dom))) {p : List ℝ} (hp0 : ∀ x ∈ p, 0 ≤ x)
    (hpos : ∀ c < m, 0 < p.getD c 0 → volume (Q ⁻¹' cellSet e G t c ∩ domainBox d dom) ≠ 0) {D : ℕ → Disc ℝ}
    (hD : ∀ n, Unmeasured (D n) (z n).length m (s n) (out n) t ((z n).map fun x => List.ofFn (Q x)) p) {size : Nat}
    (hsize : 0 < size) {U : ℕ → ℕ → Ω → Fin d → ℝ} (hU : UniformRows P U) {M : ℕ → ℕ} (hM : Tendsto M atTop atTop) :
    (∀ n ω, 0 < M n → ∀ i < (z n).length,
      (inputProbability ((D n).solveDrawn G size (M n) fun r k => List.ofFn (U r k ω)) i).isSome) ∧
    ∀ (g : (Fin d → ℝ) → ℝ) (K : ℝ), (∀ x, |g x| ≤ K) → (∀ᵐ x ∂volume.restrict (domainBox d dom), ContinuousAt g x) →
      ∀ᵐ ω ∂P, Tendsto (fun n => weighed (z n) g ((D n).solveDrawn G size (M n) fun r k => List.ofFn (U r k ω))) atTop
        (𝓝 (conditionalMean m (fun c => p.getD c 0) (fun c => Q ⁻¹' cellSet e G t c)
          ((volume (domainBox d dom))⁻¹ • volume.restrict (domainBox d dom)) g)) := by
  have hDl := hdom.1
  refine ⟨fun n ω hn i hi => by rw [solveDrawn_value (hD n) (hbox n) hDl hsize hn _ hi]; rfl, fun g K hK hg => ?_⟩
  have hboxm : MeasurableSet (domainBox d dom) := by
    rw [domainBox_eq hDl]; exact MeasurableSet.univ_pi fun j => measurableSet_Ico
  have hfin : volume (domainBox d dom) ≠ ⊤ := by
    rw [domainBox_eq hDl, volume_pi_pi]
    exact ENNReal.prod_ne_top fun j _ => by rw [Real.volume_Ico]; exact ENNReal.ofReal_ne_top
  have hQ' : ThinContours G t m ((volume (domainBox d dom))⁻¹ • volume.restrict (domainBox d dom)) Q :=
    ⟨Measure.ae_smul_measure hQ.continuous _, Measure.ae_smul_measure hQ.one _, Measure.ae_smul_measure hQ.thin _⟩
  have hshrink' : CellsShrink G ((volume (domainBox d dom))⁻¹ • volume.restrict (domainBox d dom)) s z :=
    ⟨fun n => Measure.ae_smul_measure (hshrink.covered n) _, Measure.ae_smul_measure hshrink.near _⟩
  have h := counted_limit (P := P) hG (hD 0).outputProbReady hQ' (fun n => (hD n).inputReady) hshrink'
    (fun n => clear_scale (hc n) _) hp0 (fun c hcm hpc => by
      rw [Measure.smul_apply, Measure.restrict_apply' hboxm, smul_eq_mul]
      exact mul_ne_zero (ENNReal.inv_ne_zero.2 hfin) (hpos c hcm hpc)) hsize
    (Z := fun r k ω => boxMap dom (U r k ω)) (fun r k => hasLaw_boxMap (hU.law r k) hdom)
    (fun r j k hjk => (hU.indep r hjk).comp (measurable_boxMap dom) (measurable_boxMap dom)) hK
    (Measure.ae_smul_measure hg _) hM
  filter_upwards [h] with ω hω
  refine hω.congr' ?_
  filter_upwards [hM.eventually (eventually_gt_atTop 0)] with n hn
  unfold weighed
  refine Finset.sum_congr rfl fun i hi => ?_
  rw [solveDrawn_value (hD n) (hbox n) hDl hsize hn _ (Finset.mem_range.1 hi), Option.getD_some]
  congr 3
  funext j
  rw [sum_drawSet fun r k => ind {x | (s n).cell G (List.ofFn x) = j} (boxMap dom (U r k ω))]

/-- **C139.** The same for `prob_with_emulated_volumes` with `M n` random emulated points of any law. -/
theorem C139_volumes {G : Geometry ℝ} (hG : Sound G) {t : SampleSet ℝ} {m : Nat} {μ : Measure (Fin d → ℝ)}
    {Q : (Fin d → ℝ) → Fin e → ℝ} (hQ : ThinContours G t m μ Q) {z : ℕ → List (Fin d → ℝ)} {s out : ℕ → SampleSet ℝ}
    (hshrink : CellsShrink G μ s z) (hc : ∀ n, ClearCells G (s n) μ) {p : List ℝ} (hp0 : ∀ x ∈ p, 0 ≤ x)
    (hpos : ∀ c < m, 0 < p.getD c 0 → μ (Q ⁻¹' cellSet e G t c) ≠ 0) {D : ℕ → Disc ℝ}
    (hD : ∀ n, Unmeasured (D n) (z n).length m (s n) (out n) t ((z n).map fun x => List.ofFn (Q x)) p) {size : Nat}
    (hsize : 0 < size) {X : ℕ → Ω → Fin d → ℝ} {em : ℕ → Ω → SampleSet ℝ} (hX : RandomPoints P μ X em) {M : ℕ → ℕ}
    (hM : Tendsto M atTop atTop) :
    (∀ n ω, 0 < M n → ∀ i < (z n).length,
      (inputProbability (probWithEmulatedVolumes G size { D n with emInput := some (em (M n) ω) }) i).isSome) ∧
    ∀ (g : (Fin d → ℝ) → ℝ) (K : ℝ), (∀ x, |g x| ≤ K) → (∀ᵐ x ∂μ, ContinuousAt g x) →
      ∀ᵐ ω ∂P, Tendsto (fun n =>
        weighed (z n) g (probWithEmulatedVolumes G size { D n with emInput := some (em (M n) ω) })) atTop
        (𝓝 (conditionalMean m (fun c => p.getD c 0) (fun c => Q ⁻¹' cellSet e G t c) μ g)) := by
  have hval : ∀ n ω, 0 < M n → ∀ i < (z n).length,
      inputProbability (probWithEmulatedVolumes G size { D n with emInput := some (em (M n) ω) }) i =
      some (dividedBy (z n).length p (fun i => t.cell G (((z n).map fun x => List.ofFn (Q x)).getD i [])) (fun j =>
        (∑ k ∈ Finset.range (M n), ind {x | (s n).cell G (List.ofFn x) = j} (X k ω)) / M n) i) := by
    intro n ω hn i hi
    have f := hD n
    have f' : Unmeasured { D n with emInput := some (em (M n) ω) } (z n).length m (s n) (out n) t
        ((z n).map fun x => List.ofFn (Q x)) p :=
      ⟨f.input, f.inputReady, f.output, f.outputConsistent, f.outputValues, f.outputLocal, f.outputProb,
        f.outputProbReady, f.probabilities, f.pointer⟩
    rw [probEmulated_value f' rfl hsize hn (hX.consistent (M n) ω) (hX.values (M n) ω) (hX.unsplit (M n) ω) hi]
    simp only [hits_points, List.length_map, List.length_range]
  refine ⟨fun n ω hn i hi => by rw [hval n ω hn i hi]; rfl, fun g K hK hg => ?_⟩
  have h := counted_limit (P := P) hG (hD 0).outputProbReady hQ (fun n => (hD n).inputReady) hshrink hc hp0 hpos one_pos
    (Z := fun _ k ω => X k ω) (fun _ k => hX.law k) (fun _ => hX.indep) hK hg hM
  filter_upwards [h] with ω hω
  refine hω.congr' ?_
  filter_upwards [hM.eventually (eventually_gt_atTop 0)] with n hn
  unfold weighed
  refine Finset.sum_congr rfl fun i hi => ?_
  rw [hval n ω hn i (Finset.mem_range.1 hi), Option.getD_some]
  congr 3
  funext j
  rw [sum_drawSet fun r k => ind {x | (s n).cell G (List.ofFn x) = j} (X k ω), Finset.sum_range_one]
  have : numLocal (M n) 1 0 = M n := by simp [numLocal, Nat.mod_one]
  rw [this]

end

/-! ### A concrete case -/

namespace Ex

theorem ofFn_one (x : Fin 1 → ℝ) : List.ofFn x = [x 0] := by simp

theorem euclid_line (p : Nat) (x c : Fin 1 → ℝ) : euclid.dist p (List.ofFn x) (List.ofFn c) = |x 0 - c 0| := by
  rw [ofFn_one, ofFn_one]
  simp [euclid, Real.sqrt_sq_eq_abs]

theorem euclid_normLike (p : Nat) : NormLike 1 euclid p := by
  refine ⟨1, 1, one_pos, one_pos, fun x c => ?_⟩
  have : dist x c = |x 0 - c 0| := by
    refine le_antisymm ((dist_pi_le_iff (abs_nonneg _)).2 fun j => ?_) ?_
    · rw [Subsingleton.elim j 0, Real.dist_eq]
    · rw [← Real.dist_eq]
      exact dist_le_pi_dist x c 0
  rw [euclid_line, this]
  simp

/-- The samples `k / (n + 1)`. -/
noncomputable def stepPoints (n : Nat) : List (Fin 1 → ℝ) := (steps n).map fun x _ => x

theorem stepPoints_rows (n : Nat) : (stepPoints n).map List.ofFn = (steps n).map fun x => [x] := by
  simp only [stepPoints, List.map_map]
  refine List.map_congr_left fun x _ => ?_
  simp

theorem steps_shrink : CellsShrink euclid (volume.restrict (domainBox 1 [(0, 1)])) stepSet stepPoints := by
  refine C138_voronoi (euclid_normLike 2) (fun n h => ?_) ?_ (fun _ => rfl) (fun _ => rfl) fun n => ?_
  · have := congrArg List.length h
    simp [stepPoints, steps] at this
  · have hBm : MeasurableSet (domainBox 1 [((0 : ℝ), (1 : ℝ))]) := by
      rw [domainBox_eq (show [((0 : ℝ), (1 : ℝ))].length = 1 from rfl)]; exact MeasurableSet.univ_pi fun j => measurableSet_Ico
    filter_upwards [ae_restrict_mem hBm] with x hx ε hε
    have hx0 : x 0 ∈ Set.Icc (0 : ℝ) 1 := by
      have := hx 0 (0, 1) rfl
      exact ⟨this.1, this.2.le⟩
    filter_upwards [steps_fill (x 0) hx0 ε hε] with n h
    obtain ⟨c, hc, hxc⟩ := h
    refine ⟨fun _ => c, List.mem_map.2 ⟨c, hc, rfl⟩, ?_⟩
    rw [dist_pi_lt_iff hε]
    intro j
    rw [Subsingleton.elim j 0, Real.dist_eq]
    exact hxc
  · show (stepSet n).glob.values = _
    rw [stepPoints_rows]
    rfl

theorem steps_clear (n : Nat) : ClearCells euclid (stepSet n) (volume.restrict (domainBox 1 [((0 : ℝ), (1 : ℝ))])) := by
  refine C130_clear_euclidean (v := (steps n).map fun x => [x]) rfl rfl ?_ ?_ ?_ _
  · intro c hc
    obtain ⟨y, -, rfl⟩ := List.mem_map.1 hc
    simp
  · exact (steps_nodup n).map fun x y h => by simpa using h
  · intro x c
    rw [euclid_line]
    simp [Real.sqrt_sq_eq_abs]

theorem stepDisc_points (n : Nat) : Unmeasured (stepDisc n) (stepPoints n).length 2 (stepSet n) (stepOut n) halves
    ((stepPoints n).map fun x => List.ofFn fun _ : Fin 1 => x 0 ^ 2) [1 / 5, 4 / 5] := by
  have h := stepDisc_unmeasured n
  have h1 : (stepPoints n).length = (steps n).length := by simp [stepPoints]
  have h2 : ((stepPoints n).map fun x => List.ofFn fun _ : Fin 1 => x 0 ^ 2) =
      (steps n).map fun x => List.ofFn fun _ : Fin 1 => x ^ 2 := by
    simp [stepPoints, List.map_map]
  rw [h1, h2]
  exact h

/-- The hypotheses of C139_estimated hold for the model `x ↦ x^2` on `[0, 1]`, the samples `k / (n + 1)` and `n` random
points. -/
example {P : Measure Ω} [IsProbabilityMeasure P] {U : ℕ → ℕ → Ω → Fin 1 → ℝ} (hU : UniformRows P U)
    {g : (Fin 1 → ℝ) → ℝ} {K : ℝ} (hK : ∀ x, |g x| ≤ K) (hg : Continuous g) :
    ∀ᵐ ω ∂P, Tendsto (fun n => weighed (stepPoints n) g
      ((stepDisc n).solveDrawn euclid 3 n fun r k => List.ofFn (U r k ω))) atTop
      (𝓝 (conditionalMean 2 (fun c => [1 / 5, 4 / 5].getD c 0) (fun c => (fun x _ => x 0 ^ 2) ⁻¹' cellSet 1 euclid halves c)
        ((volume (domainBox 1 [(0, 1)]))⁻¹ • volume.restrict (domainBox 1 [(0, 1)])) g)) :=
  (C139_estimated euclid_sound (dom := [(0, 1)]) ⟨rfl, by norm_num⟩ squares_thin (fun _ => rfl) steps_shrink steps_clear
    (by norm_num) (fun c hc _ => squares_pos c hc) stepDisc_points (size := 3) (by norm_num) hU tendsto_id).2 g K hK
    (Eventually.of_forall fun x => hg.continuousAt)

/-- The unit interval has the measure one. -/
theorem unit_law : IsProbabilityMeasure (volume.restrict (domainBox 1 [((0 : ℝ), (1 : ℝ))])) := by
  refine ⟨?_⟩
  rw [Measure.restrict_apply_univ, domainBox_eq (show [((0 : ℝ), (1 : ℝ))].length = 1 from rfl), volume_pi_pi]
  simp

/-- The hypotheses of C139_emulated hold for the same model and samples, with `n * n` random emulated samples on
four processes. -/
example {P : Measure Ω} [IsProbabilityMeasure P] {X : ℕ → ℕ → Ω → Fin 1 → ℝ}
    (hX : RandomSamples P (volume.restrict (domainBox 1 [(0, 1)])) X) {g : (Fin 1 → ℝ) → ℝ}
    (hg : Integrable g (volume.restrict (domainBox 1 [(0, 1)]))) :
    ∀ᵐ ω ∂P, Tendsto (fun n => (((probOnEmulated euclid 3 { stepDisc n with
      emInput := some (rowSet 1 (drawnRows 4 (n * n) fun r k => X r k ω)) } true).toOption.bind
      (·.emInput)).bind (meanOf g)).getD 0) atTop
      (𝓝 (conditionalMean 2 (fun c => [1 / 5, 4 / 5].getD c 0) (fun c => (fun x _ => x 0 ^ 2) ⁻¹' cellSet 1 euclid halves c)
        (volume.restrict (domainBox 1 [(0, 1)])) g)) := by
  have hBm : MeasurableSet (domainBox 1 [((0 : ℝ), (1 : ℝ))]) := by
    rw [domainBox_eq (show [((0 : ℝ), (1 : ℝ))].length = 1 from rfl)]; exact MeasurableSet.univ_pi fun j => measurableSet_Ico
  refine (C139_emulated euclid_sound squares_thin steps_shrink steps_clear (p := [1 / 5, 4 / 5]) (by norm_num)
    (fun c hc _ => by rw [Measure.restrict_apply' hBm]; exact squares_pos c hc) hX (parts := 4) (by norm_num)
    (M := fun n => n * n) (tendsto_id.atTop_mul_atTop₀ tendsto_id)
    (D := fun n ω => { stepDisc n with emInput := some (rowSet 1 (drawnRows 4 (n * n) fun r k => X r k ω)) })
    (out := stepOut) (em := fun n ω => rowSet 1 (drawnRows 4 (n * n) fun r k => X r k ω)) (fun n ω => ?_)
    (size := 3) (by norm_num)).2 g hg
  have h := stepDisc_points n
  exact ⟨h.input, h.inputReady, h.output, h.outputConsistent, h.outputValues, h.outputLocal, h.outputProb,
    h.outputProbReady, h.probabilities, rfl, rowSet_consistent 4 (n * n) (by norm_num) _, rfl, rfl, rfl, rfl⟩

/-- Such samples exist. -/
example : ∃ (Ω : Type) (_ : MeasurableSpace Ω) (P : Measure Ω) (X : ℕ → ℕ → Ω → Fin 1 → ℝ), IsProbabilityMeasure P ∧
    RandomSamples P (volume.restrict (domainBox 1 [(0, 1)])) X := by
  have := unit_law
  obtain ⟨Ω, i, P, X, Y, h1, h2, h3⟩ := randomSamples (volume.restrict (domainBox 1 [((0 : ℝ), (1 : ℝ))]))
    (volume.restrict (domainBox 1 [((0 : ℝ), (1 : ℝ))]))
  exact ⟨Ω, i, P, X, h1, h2⟩

end Ex

end BET
