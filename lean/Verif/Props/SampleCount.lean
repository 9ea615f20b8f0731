import Verif.Lemmas.SampleCount
import Verif.Props.SolutionLimit
import Verif.Props.ProbLimit

/-!
# C155: how many samples are enough

Bounds on the error of computed solutions for a given number of samples.
-/

set_option linter.unusedSectionVars false
set_option linter.unusedSimpArgs false
set_option autoImplicit false

namespace BET

open Spec MeasureTheory ProbabilityTheory Filter Topology

variable {Ω : Type} [MeasurableSpace Ω] {P : Measure Ω} {d e : Nat}

namespace Spec

/-- Samples `X r k` (sample `k` that process `r` draws) with the law `μ`, all independent. -/
structure IndependentSamples (P : Measure Ω) (μ : Measure (Fin d → ℝ)) (X : ℕ → ℕ → Ω → Fin d → ℝ) : Prop where
  law : ∀ r k, HasLaw (X r k) μ P
  indep : iIndepFun (fun rk : ℕ × ℕ => X rk.1 rk.2) P

end Spec

/-- The number of samples that makes the bounds of this file as small as one wants. -/
theorem C155_enough {m n : Nat} {ε κ α : ℝ} (hm : 0 < m) (hε : 0 < ε) (hκ : 0 < κ) (hα : 0 < α)
    (hn : 2 * Real.log (4 * m / α) / (ε * κ) ^ 2 ≤ n) : 4 * m * Real.exp (-(n * (ε * κ) ^ 2 / 2)) ≤ α := by
  have hm' : (0 : ℝ) < m := by exact_mod_cast hm
  have h2 : 0 < (ε * κ) ^ 2 := by positivity
  rw [div_le_iff₀ h2] at hn
  have h3 : Real.log (4 * m / α) ≤ n * (ε * κ) ^ 2 / 2 := by linarith
  have h4 : 4 * m / α ≤ Real.exp (n * (ε * κ) ^ 2 / 2) := by
    rw [← Real.log_le_iff_le_exp (by positivity)]
    exact h3
  rw [Real.exp_neg, ← div_eq_mul_inv, div_le_iff₀ (Real.exp_pos _)]
  rw [div_le_iff₀ hα] at h4
  linarith

section
variable [IsProbabilityMeasure P]

theorem sigma_indep {X : ℕ → ℕ → Ω → Fin d → ℝ} (h : iIndepFun (fun rk : ℕ × ℕ => X rk.1 rk.2) P) :
    iIndepFun (fun rk : (_ : ℕ) × ℕ => X rk.1 rk.2) P := by
  have hinj : Function.Injective (fun rk : (_ : ℕ) × ℕ => (rk.1, rk.2)) := by
    rintro ⟨a, b⟩ ⟨c, e⟩ h
    obtain ⟨rfl, rfl⟩ := Prod.mk.inj h
    rfl
  exact h.precomp hinj

/-- Shares of labels, when the probabilities of the labels are themselves random. -/
theorem shares_far {μ : Measure (Fin d → ℝ)} {X : ℕ → ℕ → Ω → Fin d → ℝ} (hX : IndependentSamples P μ X)
    {g : (Fin d → ℝ) → ℝ} (hg : Measurable g) (hg01 : ∀ x, g x ∈ Set.Icc (0 : ℝ) 1) {m : Nat} {L : (Fin d → ℝ) → ℕ}
    (hL : ∀ c, NullMeasurableSet {x | L x = c} μ) (hm : ∀ x, L x < m) {parts n : Nat} (hparts : 0 < parts)
    (hn : 0 < n) {p : Ω → ℕ → ℝ} {q : ℕ → ℝ} (hp : ∀ ω, ∀ c < m, 0 ≤ p ω c)
    (hp1 : ∀ ω, ∑ c ∈ Finset.range m, p ω c ≤ 1) (h0 : ∀ᵐ ω ∂P, ∀ c < m, q c = 0 → p ω c = 0) {κ ε η : ℝ}
    (hκ : 0 < κ) (hε : 0 < ε) {S : Finset ℕ} (hS : ∀ c < m, q c ≠ 0 → c ∈ S)
    (hgood : ∀ c ∈ S, κ ≤ μ.real {x | L x = c}) :
    P.real {ω | ε + m * η ≤ |∑ rk ∈ drawSet parts n, p ω (L (X rk.1 rk.2 ω)) /
        (∑ rj ∈ drawSet parts n, ind {x | L x = L (X rk.1 rk.2 ω)} (X rj.1 rj.2 ω)) * g (X rk.1 rk.2 ω) -
      ∑ c ∈ Finset.range m, q c * ((∫ x in {x | L x = c}, g x ∂μ) / μ.real {x | L x = c})|} ≤
      4 * S.card * Real.exp (-(n * (ε * κ) ^ 2 / 2)) + P.real {ω | ∃ c < m, η < |p ω c - q c|} := by
  have hμ : IsProbabilityMeasure μ := by
    rw [← (hX.law 0 0).map_eq]
    exact Measure.isProbabilityMeasure_map (hX.law 0 0).aemeasurable
  have h := conditional_far (P := P) (Z := fun (rk : (_ : ℕ) × ℕ) => X rk.1 rk.2) (fun rk => hX.law rk.1 rk.2)
    (sigma_indep hX.indep) hg hg01 (A := fun c => {x | L x = c}) hL (s := drawSet parts n)
    (by rw [card_drawSet hparts]; exact hn) hκ hε hgood
  rw [card_drawSet hparts] at h
  refine le_trans ?_ ((measureReal_union_le _ _).trans (add_le_add_left h _))
  unfold Measure.real
  refine ENNReal.toReal_mono (measure_ne_top _ _) (measure_mono_ae ?_)
  filter_upwards [h0] with ω hω hfar
  have hfar : ε + m * η ≤ |_| := hfar
  rw [draw_shares (z := fun r k => X r k ω) hm (p ω) g] at hfar
  by_contra hno
  obtain ⟨n1, n2⟩ := not_or.1 hno
  refine absurd hfar (not_le.2 (weighted_close hε (hp ω) (hp1 ω) (fun c hc => ?_) hω (fun c _ => ?_) fun c hc hq => ?_))
  · by_contra hlt
    exact n2 ⟨c, hc, not_le.1 hlt⟩
  · have j0 : 0 ≤ ∫ x in {x | L x = c}, g x ∂μ := integral_nonneg fun x => (hg01 x).1
    have j1 : ∫ x in {x | L x = c}, g x ∂μ ≤ μ.real {x | L x = c} := by
      have hint : Integrable g μ := Integrable.of_mem_Icc 0 1 hg.aemeasurable (Eventually.of_forall hg01)
      calc ∫ x in {x | L x = c}, g x ∂μ ≤ ∫ _ in {x | L x = c}, (1 : ℝ) ∂μ :=
            integral_mono hint.integrableOn (integrable_const _) fun x => (hg01 x).2
        _ = μ.real {x | L x = c} := by simp
    rw [abs_of_nonneg (div_nonneg j0 ENNReal.toReal_nonneg)]
    exact div_le_one_of_le₀ j1 measureReal_nonneg
  · by_contra hge
    exact n1 ⟨c, hS c hc hq, not_lt.1 hge⟩

theorem sum_getD_range {p : List ℝ} {m : Nat} (h : p.length = m) :
    ∑ c ∈ Finset.range m, p.getD c 0 = p.sum := by
  subst h
  induction p with
  | nil => simp
  | cons a p ih =>
    rw [List.length_cons, Finset.sum_range_succ', List.sum_cons, ← ih]
    simp [add_comm]

theorem getD_nonneg' {p : List ℝ} (h : ∀ x ∈ p, 0 ≤ x) (c : Nat) : 0 ≤ p.getD c 0 := by
  rw [List.getD_eq_getElem?_getD]
  cases hc : p[c]? with
  | none => simp
  | some b => exact h b (List.mem_of_getElem? hc)

/-- The whole inverse problem. -/
theorem inverse_far {G : Geometry ℝ} (hG : Sound G) {model : Nat → List (List ℝ) → ModelOutput ℝ}
    {f e' : List ℝ → List ℝ} {j : List ℝ → List (List ℝ)} (hm : RowWise model false false f e' j)
    {Q : (Fin d → ℝ) → Fin e → ℝ} (hQ : Measurable Q) (hf : ∀ x, f (List.ofFn x) = List.ofFn (Q x))
    {μ : Measure (Fin d → ℝ)} {X : ℕ → ℕ → Ω → Fin d → ℝ} (hX : IndependentSamples P μ X) {parts : Nat}
    (hparts : 0 < parts) {n : Nat} (hn : 0 < n) {s : Ω → Nat → SampleSet ℝ}
    (hs : ∀ ω, HoldSamples (s ω) (drawnRows parts n fun r k => X r k ω)) {t : SampleSet ℝ} {m : Nat}
    (ht : Ready t m) (hc : ClearCells G t (μ.map Q)) {p : Ω → List ℝ} {T : Ω → SampleSet ℝ}
    {measure : Ω → Nat → DataSet ℝ → Except Err (SampleSet ℝ × DataSet ℝ)}
    (hT : ∀ ω, Ready (T ω) m ∧ (T ω).cell G = t.cell G ∧
      (T ω).glob.probabilities = some (p ω) ∧ (∀ x ∈ p ω, 0 ≤ x) ∧ (p ω).sum ≤ 1 ∧
      ∀ size > 0, ∀ D inp out, RanDisc size D (drawnRows parts n fun r k => X r k ω) f e inp out →
        measure ω size (.disc D) = (DataSet.disc D).attach G size (T ω)) {size : Nat} (hsize : 0 < size)
    {q : ℕ → ℝ} (h0 : ∀ᵐ ω ∂P, ∀ c < m, q c = 0 → (p ω).getD c 0 = 0) {κ ε η : ℝ} (hκ : 0 < κ) (hε : 0 < ε)
    {S : Finset ℕ} (hS : ∀ c < m, q c ≠ 0 → c ∈ S) (hgood : ∀ c ∈ S, κ ≤ μ.real (Q ⁻¹' cellSet e G t c)) {g : (Fin d → ℝ) → ℝ} (hg : Measurable g)
    (hg01 : ∀ x, g x ∈ Set.Icc (0 : ℝ) 1) :
    P.real {ω | ε + m * η ≤ |(solutionMean g (inverseProblem G size model e (s ω size) (measure ω size))).getD 0 -
      conditionalMean m q (fun c => Q ⁻¹' cellSet e G t c) μ g|} ≤
      4 * S.card * Real.exp (-(n * (ε * κ) ^ 2 / 2)) + P.real {ω | ∃ c < m, η < |(p ω).getD c 0 - q c|} := by
  set c : List ℝ → Nat := fun x => t.cell G (f x) with hcdef
  have hmean : ∀ ω, solutionMean g (inverseProblem G size model e (s ω size) (measure ω size)) =
      some (∑ rk ∈ drawSet parts n, (p ω).getD (c (List.ofFn (X rk.1 rk.2 ω))) 0 /
      (∑ rj ∈ drawSet parts n, ind {x | c (List.ofFn x) = c (List.ofFn (X rk.1 rk.2 ω))} (X rj.1 rj.2 ω)) *
        g (X rk.1 rk.2 ω)) := by
    intro ω
    obtain ⟨h1, h2, h3, h4, -, h5⟩ := hT ω
    have h := inverse_mean hG hm hf hparts hn (hs ω) h1 h3 h4 hsize (measure := measure ω size) (h5 size hsize) g
    rw [h2] at h
    exact h
  have hEL : ∀ i, Q ⁻¹' cellSet e G t i =ᵐ[μ] {x : Fin d → ℝ | c (List.ofFn x) = i} := by
    intro i
    have := ae_of_ae_map hQ.aemeasurable (cell_ae hG ht hc i)
    filter_upwards [this] with x hx
    have hx : (Q x ∈ {y : Fin e → ℝ | t.cell G (List.ofFn y) = i}) = (Q x ∈ cellSet e G t i) := hx
    show (Q x ∈ cellSet e G t i) = (t.cell G (f (List.ofFn x)) = i)
    rw [← hx, hf]
    rfl
  have hL : ∀ i, NullMeasurableSet {x : Fin d → ℝ | c (List.ofFn x) = i} μ := fun i =>
    NullMeasurableSet.congr ((hc.meas i).preimage ⟨hQ, Measure.AbsolutelyContinuous.rfl⟩) (hEL i)
  have h := shares_far hX hg hg01 (L := fun x => c (List.ofFn x)) hL (m := m) (fun x => SampleSet.cell_lt hG ht _)
    hparts hn (p := fun ω c => (p ω).getD c 0) (q := q) (fun ω c _ => getD_nonneg' (hT ω).2.2.2.1 c)
    (fun ω => by
      obtain ⟨h1, -, h3, -, h5, -⟩ := hT ω
      rw [sum_getD_range (h1.consistent.1.probabilities _ h3)]
      exact h5) h0 hκ hε (η := η) hS (fun c hc => by rw [← measureReal_congr (hEL c)]; exact hgood c hc)
  refine le_trans (le_of_eq ?_) h
  unfold conditionalMean
  simp only [setIntegral_congr_set (hEL _), measureReal_congr (hEL _), hmean, Option.getD_some]

/-- **C155.** The whole inverse problem with a regular partition of a rectangle in the data space: `n` independent
samples drawn by any number of processes, the model, the partition with equal probabilities of its boxes, and
`calculateP.prob`, on any number of processes. If the inverse image of every box has at least the measure `κ` under
the law of the samples, the computed mean of a function with values between 0 and 1 (so the computed probability of
an event) is wrong by `ε` or more with a probability of at most `4 m exp(-n (ε κ)² / 2)`, where `m` is the number of
boxes. -/
theorem C155_rectangle {G : Geometry ℝ} (hG : Sound G) {model : Nat → List (List ℝ) → ModelOutput ℝ}
    {f e' : List ℝ → List ℝ} {j : List ℝ → List (List ℝ)} (hm : RowWise model false false f e' j)
    {Q : (Fin d → ℝ) → Fin e → ℝ} (hQ : Measurable Q) (hf : ∀ x, f (List.ofFn x) = List.ofFn (Q x))
    {μ : Measure (Fin d → ℝ)} {X : ℕ → ℕ → Ω → Fin d → ℝ} (hX : IndependentSamples P μ X) {parts : Nat}
    (hparts : 0 < parts) {n : Nat} (hn0 : 0 < n) {s : Ω → Nat → SampleSet ℝ}
    (hs : ∀ ω, HoldSamples (s ω) (drawnRows parts n fun r k => X r k ω)) (hdim : 0 < e) {q rs : List ℝ}
    (hq : q.length = e) (hrs : rs.length = e) (hpos : ∀ r ∈ rs, 0 < r) {cells : CellArg} {ns : List Nat}
    (hns : ns.length = e) (hcells : UsedCells cells ns) (hn : ∀ n ∈ ns, 0 < n) :
    ∃ t, IsRegularPartition t q rs ns ∧ ∀ size > 0, ∀ κ > 0, ∀ ε > 0,
      (∀ c < ns.prod, κ ≤ μ.real {x | InRectangle t (List.ofFn (Q x)) c}) →
      ∀ g : (Fin d → ℝ) → ℝ, Measurable g → (∀ x, g x ∈ Set.Icc (0 : ℝ) 1) →
      P.real {ω | ε ≤ |(solutionMean g (inverseProblem G size model e (s ω size)
          fun ds => regularSize G size ds (some q) (.array rs) cells)).getD 0 -
        conditionalMean ns.prod (fun _ => 1 / ns.prod) (fun c => {x | InRectangle t (List.ofFn (Q x)) c}) μ g|} ≤
      4 * ns.prod * Real.exp (-(n * (ε * κ) ^ 2 / 2)) := by
  obtain ⟨t, hrt, hreg, heq⟩ := regularSize_eq G hdim hrs hq hpos hns hcells hn
  obtain ⟨w, hw⟩ := Option.isSome_iff_exists.mp hrt.values
  obtain ⟨⟨r, hR⟩, ⟨l, hL⟩⟩ := (hrt.rect hreg.kind).imp Option.isSome_iff_exists.mp
    Option.isSome_iff_exists.mp
  have hc : ClearCells (d := e) G t (μ.map Q) := C130_clear_rectangles hreg.kind hw hR hL _
  refine ⟨t, hreg, fun size hsize κ hκ ε hε hgood g hg hg01 => ?_⟩
  have hprod : 0 < ns.prod := List.prod_pos hn
  set pr := List.replicate ns.prod (1 / (ns.prod : ℝ)) ++ [0] with hpr
  have hlast : pr.getD ns.prod 0 = 0 := by
    rw [hpr, List.getD_eq_getElem?_getD, List.getElem?_append_right (by simp)]
    simp
  have hfirst : ∀ c < ns.prod, pr.getD c 0 = 1 / (ns.prod : ℝ) := by
    intro c hc
    rw [hpr, List.getD_eq_getElem?_getD, List.getElem?_append_left (by simpa using hc)]
    simp only [List.getElem?_replicate, hc, if_true, Option.getD_some]
  have h := inverse_far hG hm hQ hf hX hparts hn0 hs hrt hc (p := fun _ => pr) (T := fun _ => t)
    (measure := fun _ size ds => regularSize G size ds (some q) (.array rs) cells)
    (fun ω => ⟨hrt, rfl, hreg.probabilities, by
      intro x hx
      rw [hpr, List.mem_append] at hx
      rcases hx with hx | hx
      · rw [List.eq_of_mem_replicate hx]; positivity
      · simp at hx; rw [hx], by
      have : (ns.prod : ℝ) ≠ 0 := by exact_mod_cast hprod.ne'
      rw [hpr, List.sum_append, List.sum_replicate, nsmul_eq_mul, mul_one_div_cancel this]
      simp, by
      intro size hsize D inp out hr
      have hin : (DataSet.disc D).checkInputs size (some q) =
          .ok (⟨(drawnRows parts n fun r k => X r k ω).length, e, some ((drawnRows parts n fun r k => X r k ω).map f)⟩, q) := by
        have hcn : D.checkNums size = .ok (drawnRows parts n fun r k => X r k ω).length := by
          unfold Disc.checkNums
          simp [hr.houtput, hr.hinput, SampleSet.checkNum_consistent hr.houtputC,
            SampleSet.checkNum_consistent hr.hinputC, pure, Except.pure, ok_bind]
        simp only [DataSet.checkInputs, DataSet.orInfer, pure_bind_ok, DataSet.inputs, hcn, ok_bind,
          hr.houtput, orErr_some, hr.houtDim, hr.houtputVals]
        rfl
      exact heq size (.disc D) (some q) _ (.array rs) hin rfl rfl⟩) hsize (q := fun c => pr.getD c 0)
    (Eventually.of_forall fun ω c _ hq => hq) hκ hε (η := 0) (S := Finset.range ns.prod) (fun c hc hq => by
      by_contra hge
      rw [Finset.mem_range] at hge
      obtain rfl : c = ns.prod := by omega
      exact hq hlast) (fun c hc => by
      have hc := Finset.mem_range.1 hc
      rw [cellSet_regular hrt hreg hns hc]
      exact hgood c hc) hg hg01
  have hnone : {ω : Ω | ∃ c < ns.prod + 1, (0 : ℝ) < |pr.getD c 0 - pr.getD c 0|} = ∅ := by
    ext ω; simp
  rw [hnone, measureReal_empty, add_zero, Finset.card_range] at h
  simp only [mul_zero, add_zero] at h
  have hlim : conditionalMean (ns.prod + 1) (fun c => pr.getD c 0) (fun c => Q ⁻¹' cellSet e G t c) μ g =
      conditionalMean ns.prod (fun _ => 1 / (ns.prod : ℝ)) (fun c => {x | InRectangle t (List.ofFn (Q x)) c}) μ g := by
    unfold conditionalMean
    rw [Finset.sum_range_succ]
    dsimp only
    rw [hlast, zero_mul, add_zero]
    refine Finset.sum_congr rfl fun c hc => ?_
    have hc := Finset.mem_range.1 hc
    rw [cellSet_regular hrt hreg hns hc, hfirst c hc]
    rfl
  rw [← hlim]
  exact h

/-- **C155.** The whole inverse problem with `user_partition_user_distribution`: `n` independent samples with the law
`μ`, and `M` independent data with the law `ν` that give the probabilities of the Voronoi cells of the data space. If
the inverse image of every cell with a probability has at least the measure `κ`, the computed mean of a function with
values between 0 and 1 is wrong by `ε + m η` or more with a probability of at most
`4 m exp(-n (ε κ)² / 2) + 2 m exp(-2 M η²)`, where `m` is the number of cells. -/
theorem C155_user {G : Geometry ℝ} (hG : Sound G) {model : Nat → List (List ℝ) → ModelOutput ℝ}
    {f e' : List ℝ → List ℝ} {j : List ℝ → List (List ℝ)} (hm : RowWise model false false f e' j)
    {Q : (Fin d → ℝ) → Fin e → ℝ} (hQ : Measurable Q) (hf : ∀ x, f (List.ofFn x) = List.ofFn (Q x))
    {μ : Measure (Fin d → ℝ)} {X : ℕ → ℕ → Ω → Fin d → ℝ} (hX : IndependentSamples P μ X) {parts : Nat}
    (hparts : 0 < parts) {n : Nat} (hn0 : 0 < n) {s : Ω → Nat → SampleSet ℝ}
    (hs : ∀ ω, HoldSamples (s ω) (drawnRows parts n fun r k => X r k ω))
    {ν : Measure (Fin e → ℝ)} {Y : ℕ → ℕ → Ω → Fin e → ℝ} (hY : IndependentSamples P ν Y) {parts' : Nat}
    (hparts' : 0 < parts') {M : Nat} (hM0 : 0 < M)
    {samples : List (List ℝ)} (hsa : ∀ row ∈ samples, row.length = e) (hsne : samples ≠ [])
    (hc : ClearCells G (treeSet e samples none) (μ.map Q)) (hc' : ClearCells G (treeSet e samples none) ν)
    {partition distribution : Ω → Nat → DataSet ℝ}
    (hpar : ∀ ω, ∀ size > 0, (partition ω size).inputs size = .ok ⟨samples.length, e, some samples⟩)
    (hdist : ∀ ω, ∀ size > 0, (distribution ω size).inputs size =
      .ok ⟨M, e, some (drawnRows parts' M fun r k => Y r k ω)⟩) {size : Nat} (hsize : 0 < size) {κ ε η : ℝ}
    (hκ : 0 < κ) (hε : 0 < ε) (hη : 0 ≤ η)
    (hgood : ∀ c < samples.length, ν.real (cellSet e G (treeSet e samples none) c) ≠ 0 →
      κ ≤ μ.real (Q ⁻¹' cellSet e G (treeSet e samples none) c)) {g : (Fin d → ℝ) → ℝ} (hg : Measurable g)
    (hg01 : ∀ x, g x ∈ Set.Icc (0 : ℝ) 1) :
    P.real {ω | ε + samples.length * η ≤ |(solutionMean g (inverseProblem G size model e (s ω size)
        fun ds => userPartition G size ds (partition ω size) (distribution ω size))).getD 0 -
      conditionalMean samples.length (fun c => ν.real (cellSet e G (treeSet e samples none) c))
        (fun c => Q ⁻¹' cellSet e G (treeSet e samples none) c) μ g|} ≤
      4 * samples.length * Real.exp (-(n * (ε * κ) ^ 2 / 2)) + 2 * samples.length * Real.exp (-2 * M * η ^ 2) := by
  classical
  have hspos : 0 < samples.length := List.length_pos_of_ne_nil hsne
  have hMR : (0 : ℝ) < M := by exact_mod_cast hM0
  set p : Ω → List ℝ := fun ω => (List.range samples.length).map fun i =>
    (hits ((drawnRows parts' M fun r k => Y r k ω).map (G.nn 2 samples)) i : ℝ) / (M : ℝ) with hp
  set t := treeSet e samples (none : Option (List ℝ)) with ht
  have hrt : Ready t samples.length := by
    have h := ready_treeSet hsa hspos (p := samples.map fun _ => (0 : ℝ)) (by simp)
    refine ⟨⟨?_, fun h => (by cases h.values), h.consistent.2.2⟩, hspos, rfl, Or.inr rfl, nofun, nofun⟩
    have h1 := h.consistent.1
    exact ⟨h1.values, h1.volumes, nofun, h1.densities, h1.jacobians, h1.errorEstimates, h1.right, h1.left, h1.width, h1.kdtreeValues,
      h1.radii, h1.normalizedRadii, h1.region, h1.errorId⟩
  have hν : IsProbabilityMeasure ν := by
    rw [← (hY.law 0 0).map_eq]
    exact Measure.isProbabilityMeasure_map (hY.law 0 0).aemeasurable
  have hae := fun c => cell_ae hG hrt hc' c
  have hpv : ∀ ω, ∀ c < samples.length, (p ω).getD c 0 =
      (∑ rk ∈ drawSet parts' M, ind {y : Fin e → ℝ | t.cell G (List.ofFn y) = c} (Y rk.1 rk.2 ω)) / (M : ℝ) := by
    intro ω c hc
    rw [hp]
    simp only [List.getD_eq_getElem?_getD, List.getElem?_map, List.getElem?_range hc, Option.map_some, Option.getD_some]
    rw [hits_drawnRows]
    rfl
  have hsum : ∀ ω, (p ω).sum ≤ 1 := by
    intro ω
    have hlen : (p ω).length = samples.length := by simp [hp]
    rw [← sum_getD_range hlen, Finset.sum_congr rfl fun c hc => hpv ω c (Finset.mem_range.1 hc), ← Finset.sum_div,
      div_le_one hMR, Finset.sum_comm]
    calc ∑ rk ∈ drawSet parts' M, ∑ c ∈ Finset.range samples.length,
            ind {y : Fin e → ℝ | t.cell G (List.ofFn y) = c} (Y rk.1 rk.2 ω)
        ≤ ∑ rk ∈ drawSet parts' M, (1 : ℝ) := by
          refine Finset.sum_le_sum fun rk _ => ?_
          rw [Finset.sum_eq_single (t.cell G (List.ofFn (Y rk.1 rk.2 ω)))]
          · exact (ind_mem _ _).2
          · intro c _ hne
            simp [ind, Set.indicator, hne.symm]
          · intro h
            exact absurd (Finset.mem_range.2 (SampleSet.cell_lt hG hrt _)) h
      _ = M := by rw [Finset.sum_const, card_drawSet hparts', nsmul_eq_mul, mul_one]
  have h := inverse_far hG hm hQ hf hX hparts hn0 hs hrt hc (p := p)
    (T := fun ω => treeSet e samples (some (p ω)))
    (measure := fun ω size ds => userPartition G size ds (partition ω size) (distribution ω size))
    (fun ω => ⟨ready_treeSet hsa hspos (by simp [hp]), rfl, rfl, by
      intro x hx
      obtain ⟨i, -, rfl⟩ := List.mem_map.1 hx
      positivity, hsum ω, by
      intro size hsize D inp out hr
      have hsR : (size : ℝ) ≠ 0 := by exact_mod_cast hsize.ne'
      have hden : ((M * size : Nat) : ℝ) ≠ 0 := by
        push_cast; exact mul_ne_zero hMR.ne' hsR
      simp only [userPartition, DataSet.dimOf, hr.houtput, orErr_some, ok_bind, pure_bind_ok,
        hpar ω size hsize, hdist ω size hsize, hr.houtDim, raiseIf, ne_eq, not_true_eq_false, or_self,
        if_false, binnedSet_ok hsa hspos hden]
      congr 1
      rw [hp]
      congr 2
      refine List.map_congr_left fun i _ => ?_
      rw [List.map_flatten, List.map_replicate, hits_replicate]
      push_cast
      field_simp⟩) hsize (q := fun c => ν.real (cellSet e G t c)) (by
    have hnull : ∀ᵐ ω ∂P, ∀ c, ν.real (cellSet e G t c) = 0 → ∀ r k,
        ind {y : Fin e → ℝ | t.cell G (List.ofFn y) = c} (Y r k ω) = 0 := by
      refine ae_all_iff.2 fun c => ?_
      by_cases hz : ν.real (cellSet e G t c) = 0
      · rw [← measureReal_congr (hae c)] at hz
        have hz' : ν {y : Fin e → ℝ | t.cell G (List.ofFn y) = c} = 0 := by
          rw [Measure.real, ENNReal.toReal_eq_zero_iff] at hz
          exact hz.resolve_right (measure_ne_top _ _)
        filter_upwards [ae_draws hY.law (measure_eq_zero_iff_ae_notMem.1 hz')] with ω hω _ r k
        exact Set.indicator_of_notMem (s := {y : Fin e → ℝ | t.cell G (List.ofFn y) = c}) (hω r k) _
      · exact Eventually.of_forall fun ω h => absurd h hz
    filter_upwards [hnull] with ω hω c hc hq
    rw [hpv ω c hc, Finset.sum_eq_zero fun rk _ => hω c hq rk.1 rk.2, zero_div]) hκ hε (η := η)
    (S := (Finset.range samples.length).filter fun c => ν.real (cellSet e G t c) ≠ 0)
    (fun c hc hq => Finset.mem_filter.2 ⟨Finset.mem_range.2 hc, hq⟩)
    (fun c hc => hgood c (Finset.mem_range.1 (Finset.mem_filter.1 hc).1) (Finset.mem_filter.1 hc).2) hg hg01
  refine h.trans (add_le_add ?_ ?_)
  · have : (((Finset.range samples.length).filter fun c => ν.real (cellSet e G t c) ≠ 0).card : ℝ) ≤ samples.length := by
      have := Finset.card_filter_le (Finset.range samples.length) fun c => ν.real (cellSet e G t c) ≠ 0
      rw [Finset.card_range] at this
      exact_mod_cast this
    gcongr
  · have hsub : {ω | ∃ c < samples.length, η < |(p ω).getD c 0 - ν.real (cellSet e G t c)|} ⊆
        ⋃ c ∈ Finset.range samples.length, {ω | η ≤ |(∑ rk ∈ drawSet parts' M,
          ind {y : Fin e → ℝ | t.cell G (List.ofFn y) = c} (Y rk.1 rk.2 ω)) / (M : ℝ) -
          ν.real {y : Fin e → ℝ | t.cell G (List.ofFn y) = c}|} := by
      rintro ω ⟨c, hc, hlt⟩
      rw [Set.mem_iUnion₂]
      refine ⟨c, Finset.mem_range.2 hc, ?_⟩
      rw [hpv ω c hc, ← measureReal_congr (hae c)] at hlt
      exact hlt.le
    have hone : ∀ c ∈ Finset.range samples.length, P.real {ω | η ≤ |(∑ rk ∈ drawSet parts' M,
          ind {y : Fin e → ℝ | t.cell G (List.ofFn y) = c} (Y rk.1 rk.2 ω)) / (M : ℝ) -
          ν.real {y : Fin e → ℝ | t.cell G (List.ofFn y) = c}|} ≤ 2 * Real.exp (-2 * M * η ^ 2) := by
      intro c _
      have := frequency_far (P := P) (Z := fun (rk : (_ : ℕ) × ℕ) => Y rk.1 rk.2) (fun rk => hY.law rk.1 rk.2)
        (sigma_indep hY.indep) ((hc'.meas c).congr (hae c).symm) (s := drawSet parts' M)
        (by rw [card_drawSet hparts']; exact hM0) hη
      rwa [card_drawSet hparts'] at this
    refine (measureReal_mono hsub (measure_ne_top _ _)).trans ((measureReal_biUnion_finset_le _ _).trans
      ((Finset.sum_le_sum hone).trans (le_of_eq ?_)))
    rw [Finset.sum_const, Finset.card_range, nsmul_eq_mul]
    ring

/-- **C155.** `prob_on_emulated_samples` with `n` independent emulated samples: if every event with a probability,
made of the input cells whose outputs lie in one cell of the output measure, has at least the measure `κ`, the
computed mean of a function with values between 0 and 1 is wrong by `ε` or more with a probability of at most
`4 m exp(-n (ε κ)² / 2)`. -/
theorem C155_emulated {G : Geometry ℝ} (hG : Sound G) {N m : Nat} {inp out ops : SampleSet ℝ} {y : List (List ℝ)}
    {probs : List ℝ} (hp : IsProbVector probs) {μ : Measure (Fin d → ℝ)} {X : ℕ → ℕ → Ω → Fin d → ℝ}
    (hX : IndependentSamples P μ X) (hc : ClearCells G inp μ) {parts : Nat} (hparts : 0 < parts) {n : Nat} (hn : 0 < n)
    {D : Ω → Disc ℝ} {em : Ω → SampleSet ℝ}
    (hD : ∀ ω, FreshEm (D ω) N m n inp out ops (em ω) y (drawnRows parts n fun r k => X r k ω) probs) :
    ∃ io, List.Forall₂ (IsCell G ops) y io ∧ ∀ size > 0, ∀ κ > 0, ∀ ε > 0,
      (∀ c < m, probs.getD c 0 ≠ 0 → κ ≤ μ.real {x | ∃ i, x ∈ cellSet d G inp i ∧ io[i]? = some c}) →
      ∀ g : (Fin d → ℝ) → ℝ, Measurable g → (∀ x, g x ∈ Set.Icc (0 : ℝ) 1) →
      P.real {ω | ε ≤ |(((probOnEmulated G size (D ω) true).toOption.bind (·.emInput)).bind (meanOf g)).getD 0 -
        conditionalMean m (fun c => probs.getD c 0)
          (fun c => {x | ∃ i, x ∈ cellSet d G inp i ∧ io[i]? = some c}) μ g|} ≤
      4 * m * Real.exp (-(n * (ε * κ) ^ 2 / 2)) := by
  classical
  have f := hD (Classical.choice (nonempty_of_isProbabilityMeasure P))
  have hy : y.length = N := f.houtputC.1.values y f.houtVals
  set io := y.map (ops.cell G) with hio
  set c : List ℝ → Nat := fun x => io.getD (inp.cell G x) 0 with hcdef
  have hlt : ∀ x, inp.cell G x < io.length := fun x => by
    rw [hio, List.length_map, hy]; exact SampleSet.cell_lt hG f.hready x
  have hget : ∀ x, io[inp.cell G x]? = some (c x) := fun x => by
    rw [hcdef]
    simp only [List.getD_eq_getElem?_getD, List.getElem?_eq_getElem (hlt x), Option.getD_some]
  have hcm : ∀ x, c x < m := fun x => by
    have := List.mem_of_getElem? (hget x)
    rw [hio] at this
    obtain ⟨z, -, hz⟩ := List.mem_map.1 this
    rw [← hz]
    exact SampleSet.cell_lt hG f.hopsReady z
  refine ⟨io, ?_, fun size hsize κ hκ ε hε hgood g hg hg01 => ?_⟩
  · rw [hio, List.forall₂_map_right_iff, List.forall₂_same]
    exact fun x _ => SampleSet.cell_isCell hG f.hopsReady x
  have hmean : ∀ ω, ((probOnEmulated G size (D ω) true).toOption.bind
      (·.emInput)).bind (meanOf g) = some (∑ rk ∈ drawSet parts n, probs.getD (c (List.ofFn (X rk.1 rk.2 ω))) 0 /
      (∑ rj ∈ drawSet parts n, ind {x | c (List.ofFn x) = c (List.ofFn (X rk.1 rk.2 ω))} (X rj.1 rj.2 ω)) *
        g (X rk.1 rk.2 ω)) := by
    intro ω
    obtain ⟨d', em', h1, h2, h3, h4⟩ := C04_emulated_fresh hG (hD ω) size hsize
    rw [h1]
    simp only [Except.toOption, Option.bind_some, h2]
    refine meanOf_shares (X := fun r k => X r k ω) (p := fun i => probs.getD i 0) (c := c) h3 ?_ g
    rw [h4]
    congr 1
    refine List.map_congr_left fun x _ => ?_
    show (if 0 < probs.getD (c x) 0 then _ else _) = _
    by_cases hpos : 0 < probs.getD (c x) 0
    · rw [if_pos hpos]
    · rw [if_neg hpos, le_antisymm (not_lt.1 hpos) (getD_nonneg' hp.1 (c x)), zero_div]
  have hEL : ∀ i, {x : Fin d → ℝ | ∃ j, x ∈ cellSet d G inp j ∧ io[j]? = some i} =ᵐ[μ]
      {x : Fin d → ℝ | c (List.ofFn x) = i} := by
    intro i
    filter_upwards [hc.one] with x hx
    refine propext ⟨?_, ?_⟩
    · rintro ⟨j, hj, hj'⟩
      have hj : IsCell G inp (List.ofFn x) j := hj
      have := hx _ _ hj (SampleSet.cell_isCell hG f.hready (List.ofFn x))
      rw [this, hget] at hj'
      exact Option.some.inj hj'
    · intro h
      have h : c (List.ofFn x) = i := h
      exact ⟨_, SampleSet.cell_isCell hG f.hready (List.ofFn x), by rw [hget, h]⟩
  have hL : ∀ i, NullMeasurableSet {x : Fin d → ℝ | c (List.ofFn x) = i} μ := by
    intro i
    refine NullMeasurableSet.congr ?_ (hEL i)
    have : {x : Fin d → ℝ | ∃ j, x ∈ cellSet d G inp j ∧ io[j]? = some i} =
        ⋃ j ∈ {j | io[j]? = some i}, cellSet d G inp j := by
      ext x; simp [and_comm]
    rw [this]
    exact NullMeasurableSet.biUnion (Set.to_countable _) fun j _ => hc.meas j
  have h := shares_far hX hg hg01 (L := fun x => c (List.ofFn x)) hL (m := m) (fun x => hcm _)
    hparts hn (p := fun _ c => probs.getD c 0) (q := fun c => probs.getD c 0) (fun ω c _ => getD_nonneg' hp.1 c)
    (fun ω => by
      rw [sum_getD_range (f.hopsReady.consistent.1.probabilities _ f.hprobs)]
      exact hp.2.le) (Eventually.of_forall fun ω c _ h => h) hκ hε (η := 0)
    (S := (Finset.range m).filter fun c => probs.getD c 0 ≠ 0)
    (fun c hc hq => Finset.mem_filter.2 ⟨Finset.mem_range.2 hc, hq⟩)
    (fun c hc => by
      rw [← measureReal_congr (hEL c)]
      exact hgood c (Finset.mem_range.1 (Finset.mem_filter.1 hc).1) (Finset.mem_filter.1 hc).2)
  have hnone : {ω : Ω | ∃ c < m, (0 : ℝ) < |probs.getD c 0 - probs.getD c 0|} = ∅ := by
    ext ω; simp
  rw [hnone, measureReal_empty, add_zero] at h
  simp only [mul_zero, add_zero] at h
  refine (le_of_eq ?_).trans (h.trans ?_)
  · unfold conditionalMean
    simp only [setIntegral_congr_set (hEL _), measureReal_congr (hEL _), hmean, Option.getD_some]
  · have : (((Finset.range m).filter fun c => probs.getD c 0 ≠ 0).card : ℝ) ≤ m := by
      have := Finset.card_filter_le (Finset.range m) fun c => probs.getD c 0 ≠ 0
      rw [Finset.card_range] at this
      exact_mod_cast this
    gcongr

/-! ## Volumes from random points -/

theorem dividedBy_eq {N : Nat} {p : List ℝ} {c : Nat → Nat} {v : Nat → ℝ} {i : Nat} (hv : ∀ j < N, 0 ≤ v j)
    (hp : 0 < p.getD (c i) 0) :
    dividedBy N p c v i = p.getD (c i) 0 * (v i / ∑ j ∈ Finset.range N with c j = c i, v j) := by
  unfold dividedBy
  have h0 : 0 ≤ ∑ j ∈ Finset.range N with c j = c i, v j :=
    Finset.sum_nonneg fun j hj => hv j (Finset.mem_range.1 (Finset.mem_filter.1 hj).1)
  rcases h0.eq_or_lt with h | h
  · rw [if_neg (fun hh => absurd hh.2 (not_lt.2 h.symm.le)), ← h, div_zero, mul_zero]
  · rw [if_pos ⟨hp, h⟩, mul_div_assoc]

theorem dividedBy_close {N : Nat} {p : List ℝ} {c : Nat → Nat} {v q : Nat → ℝ} {i : Nat} (hi : i < N)
    (hv : ∀ j < N, 0 ≤ v j) (hq : ∀ j < N, 0 ≤ q j) (hp : 0 < p.getD (c i) 0) {κ δ : ℝ} (hκ : 0 < κ)
    (hqκ : κ ≤ ∑ j ∈ Finset.range N with c j = c i, q j) (h1 : |v i - q i| < δ)
    (h2 : |∑ j ∈ Finset.range N with c j = c i, v j - ∑ j ∈ Finset.range N with c j = c i, q j| < δ) :
    |dividedBy N p c v i - dividedBy N p c q i| < 2 * δ / κ * p.getD (c i) 0 := by
  have hmem : i ∈ (Finset.range N).filter fun j => c j = c i := by simp [hi]
  have le : ∀ w : Nat → ℝ, (∀ j < N, 0 ≤ w j) → w i ≤ ∑ j ∈ Finset.range N with c j = c i, w j := fun w hw =>
    Finset.single_le_sum (fun j hj => hw j (Finset.mem_range.1 (Finset.mem_filter.1 hj).1)) hmem
  have h := ratio_close (hv i hi) (le v hv) (hq i hi) (le q hq) hκ hqκ h1 h2
  rw [dividedBy_eq hv hp, dividedBy_eq hq hp, ← mul_sub, abs_mul, abs_of_pos hp, mul_comm]
  exact mul_lt_mul_of_pos_right h hp

/-- Cells measured by independent points. -/
theorem volumes_far {ι : Type} {μ : Measure (Fin d → ℝ)} {Z : ι → Ω → Fin d → ℝ} (hlaw : ∀ k, HasLaw (Z k) μ P)
    (hind : iIndepFun Z P) {N : Nat} {L : (Fin d → ℝ) → ℕ} (hL : ∀ j, NullMeasurableSet {x | L x = j} μ)
    (hN : ∀ x, L x < N) {s : Finset ι} (hs : 0 < s.card) {p : List ℝ} {c : Nat → Nat} {κ ε : ℝ} (hκ : 0 < κ)
    (hε : 0 < ε)
    (hgood : ∀ i < N, 0 < p.getD (c i) 0 → κ ≤ ∑ j ∈ Finset.range N with c j = c i, μ.real {x | L x = j}) :
    P.real {ω | ∃ i < N, 0 < p.getD (c i) 0 ∧ ε * p.getD (c i) 0 ≤
      |dividedBy N p c (fun j => (∑ k ∈ s, ind {x | L x = j} (Z k ω)) / s.card) i -
        dividedBy N p c (fun j => μ.real {x | L x = j}) i|} ≤ 4 * N * Real.exp (-(s.card * (ε * κ) ^ 2 / 2)) := by
  obtain ⟨k₀, -⟩ := Finset.card_pos.1 hs
  have hμ : IsProbabilityMeasure μ := by
    rw [← (hlaw k₀).map_eq]
    exact Measure.isProbabilityMeasure_map (hlaw k₀).aemeasurable
  set δ := ε * κ / 2 with hδ
  have hδ0 : 0 < δ := by positivity
  have hexp : -2 * (s.card : ℝ) * δ ^ 2 = -(s.card * (ε * κ) ^ 2 / 2) := by rw [hδ]; ring
  have hev : ∀ a, {x : Fin d → ℝ | c (L x) = a} =
      ⋃ j ∈ (Finset.range N).filter (fun j => c j = a), {x | L x = j} := by
    intro a
    ext x
    simp [hN x]
  have hLa : ∀ a, NullMeasurableSet {x : Fin d → ℝ | c (L x) = a} μ := fun a => by
    rw [hev]
    exact NullMeasurableSet.biUnion (Set.to_countable _) fun j _ => hL j
  have hsumμ : ∀ a, μ.real {x : Fin d → ℝ | c (L x) = a} =
      ∑ j ∈ Finset.range N with c j = a, μ.real {x | L x = j} := by
    intro a
    rw [hev, Measure.real, measure_biUnion_finset₀ (fun i _ j _ hij => by
      refine Disjoint.aedisjoint (Set.disjoint_left.2 fun x hx hx' => hij ?_)
      exact Eq.trans (Eq.symm hx) hx') fun j _ => hL j, ENNReal.toReal_sum fun j _ => measure_ne_top _ _]
    rfl
  have hsumf : ∀ ω a, (∑ k ∈ s, ind {x | c (L x) = a} (Z k ω)) / s.card =
      ∑ j ∈ Finset.range N with c j = a, (∑ k ∈ s, ind {x | L x = j} (Z k ω)) / (s.card : ℝ) := by
    intro ω a
    rw [← Finset.sum_div, Finset.sum_comm]
    congr 1
    refine Finset.sum_congr rfl fun k _ => ?_
    rw [Finset.sum_filter, Finset.sum_eq_single (L (Z k ω))]
    · by_cases h : c (L (Z k ω)) = a <;> simp [ind, Set.indicator, h]
    · intro j _ hj
      simp [ind, Set.indicator, Ne.symm hj]
    · intro h
      exact absurd (Finset.mem_range.2 (hN _)) h
  let B₁ : ℕ → Set Ω := fun i => {ω | δ ≤ |(∑ k ∈ s, ind {x | L x = i} (Z k ω)) / s.card - μ.real {x | L x = i}|}
  let B₂ : ℕ → Set Ω := fun i => {ω | δ ≤ |(∑ k ∈ s, ind {x | c (L x) = c i} (Z k ω)) / s.card -
    μ.real {x | c (L x) = c i}|}
  have hB : ∀ i, P.real (B₁ i ∪ B₂ i) ≤ 4 * Real.exp (-(s.card * (ε * κ) ^ 2 / 2)) := by
    intro i
    have h1 : P.real (B₁ i) ≤ _ := frequency_far hlaw hind (hL i) hs hδ0.le
    have h2 : P.real (B₂ i) ≤ _ := frequency_far hlaw hind (hLa (c i)) hs hδ0.le
    rw [hexp] at h1 h2
    exact (measureReal_union_le _ _).trans (by linarith)
  have hsub : {ω | ∃ i < N, 0 < p.getD (c i) 0 ∧ ε * p.getD (c i) 0 ≤
      |dividedBy N p c (fun j => (∑ k ∈ s, ind {x | L x = j} (Z k ω)) / s.card) i -
        dividedBy N p c (fun j => μ.real {x | L x = j}) i|} ⊆ ⋃ i ∈ Finset.range N, (B₁ i ∪ B₂ i) := by
    rintro ω ⟨i, hi, hpi, h⟩
    rw [Set.mem_iUnion₂]
    refine ⟨i, Finset.mem_range.2 hi, ?_⟩
    by_contra hno
    obtain ⟨n1, n2⟩ := not_or.1 hno
    have n2 : |(∑ k ∈ s, ind {x | c (L x) = c i} (Z k ω)) / s.card - μ.real {x | c (L x) = c i}| < δ := not_le.1 n2
    rw [hsumμ, hsumf] at n2
    have h3 := dividedBy_close (v := fun j => (∑ k ∈ s, ind {x | L x = j} (Z k ω)) / s.card) hi
      (fun j _ => div_nonneg (Finset.sum_nonneg fun k _ => (ind_mem _ _).1) (Nat.cast_nonneg _))
      (fun j _ => measureReal_nonneg) hpi hκ (hgood i hi hpi) (not_le.1 n1) n2
    have : 2 * δ / κ = ε := by rw [hδ]; field_simp
    rw [this] at h3
    exact absurd h (not_le.2 h3)
  refine (measureReal_mono hsub (measure_ne_top _ _)).trans ((measureReal_biUnion_finset_le _ _).trans
    ((Finset.sum_le_sum fun c _ => hB c).trans (le_of_eq ?_)))
  rw [Finset.sum_const, Finset.card_range, nsmul_eq_mul]
  ring

/-- **C155.** `prob_with_emulated_volumes` with `n` independent emulated points of any law `μ`: if the cells of the
samples of every contour event with a probability have together at least the measure `κ`, some input sample gets a
probability that is wrong by at least the fraction `ε` of the probability of its contour event with a probability of
at most `4 N exp(-n (ε κ)² / 2)`, where `N` is the number of input samples. -/
theorem C155_volumes_emulated {G : Geometry ℝ} (hG : Sound G) {D : Disc ℝ} {N M : Nat} {inp out ops : SampleSet ℝ}
    {y : List (List ℝ)} {p : List ℝ} (f : Unmeasured D N M inp out ops y p) {μ : Measure (Fin d → ℝ)}
    (hc : ClearCells G inp μ) :
    ∃ c : ℕ → ℕ, ContourOf G ops y c ∧ ∀ size, 0 < size → ∀ (X : ℕ → Ω → Fin d → ℝ) (em : ℕ → Ω → SampleSet ℝ),
      RandomPoints P μ X em → iIndepFun X P → ∀ n, 0 < n → ∀ κ > 0, ∀ ε > 0,
      (∀ i < N, 0 < p.getD (c i) 0 → κ ≤ ∑ j ∈ Finset.range N with c j = c i, μ.real (cellSet d G inp j)) →
      P.real {ω | ∃ i < N, 0 < p.getD (c i) 0 ∧ ε * p.getD (c i) 0 ≤
        |(inputProbability (probWithEmulatedVolumes G size { D with emInput := some (em n ω) }) i).getD 0 -
          dividedBy N p c (fun j => μ.real (cellSet d G inp j)) i|} ≤
      4 * N * Real.exp (-(n * (ε * κ) ^ 2 / 2)) := by
  refine ⟨_, contour_cells hG f.outputProbReady y, fun size hsize X em hX hind n hn κ hκ ε hε hgood => ?_⟩
  have hae := fun j => cell_ae hG f.inputReady hc j
  have h := volumes_far (P := P) (μ := μ) (Z := X) hX.law hind (L := fun x => inp.cell G (List.ofFn x)) (N := N)
    (fun j => (hc.meas j).congr (hae j).symm) (fun x => SampleSet.cell_lt hG f.inputReady _) (s := Finset.range n)
    (by simpa using hn) (p := p) (c := fun i => ops.cell G (y.getD i [])) hκ hε (by
      simp only [measureReal_congr (hae _)]
      exact hgood)
  rw [Finset.card_range] at h
  refine le_trans (le_of_eq ?_) h
  congr 1
  ext ω
  simp only [Set.mem_ofPred_eq, measureReal_congr (hae _)]
  refine exists_congr fun i => and_congr_right fun hi => ?_
  have f' : Unmeasured { D with emInput := some (em n ω) } N M inp out ops y p :=
    ⟨f.input, f.inputReady, f.output, f.outputConsistent, f.outputValues, f.outputLocal, f.outputProb,
      f.outputProbReady, f.probabilities, f.pointer⟩
  rw [probEmulated_value f' rfl hsize hn (hX.consistent n ω) (hX.values n ω) (hX.unsplit n ω) hi]
  simp only [hits_points, List.length_map, List.length_range, Option.getD_some]

/-- **C155.** `estimate_volume` with `n` independent uniform points in the domain and then `prob`: the same, where the
cells of the samples of every contour event with a probability have together at least the share `κ` of the volume of
the domain. -/
theorem C155_volumes {G : Geometry ℝ} (hG : Sound G) {D : Disc ℝ} {N M : Nat} {inp out ops : SampleSet ℝ}
    {y : List (List ℝ)} {p : List ℝ} (f : Unmeasured D N M inp out ops y p) {dom : List (ℝ × ℝ)}
    (hdom : inp.domain = some dom) (hD : ProperBox d dom)
    (hc : ClearCells G inp (volume.restrict (domainBox d dom))) :
    ∃ c : ℕ → ℕ, ContourOf G ops y c ∧ ∀ size, 0 < size → ∀ U : ℕ → ℕ → Ω → Fin d → ℝ, IndependentRows P U →
      ∀ n, 0 < n → ∀ κ > 0, ∀ ε > 0,
      (∀ i < N, 0 < p.getD (c i) 0 → κ ≤ ∑ j ∈ Finset.range N with c j = c i, relativeVolume d G inp dom j) →
      P.real {ω | ∃ i < N, 0 < p.getD (c i) 0 ∧ ε * p.getD (c i) 0 ≤
        |(inputProbability (D.solveDrawn G size n fun r k => List.ofFn (U r k ω)) i).getD 0 -
          dividedBy N p c (fun j => relativeVolume d G inp dom j) i|} ≤
      4 * N * Real.exp (-(n * (ε * κ) ^ 2 / 2)) := by
  refine ⟨_, contour_cells hG f.outputProbReady y, fun size hsize U hU n hn κ hκ ε hε hgood => ?_⟩
  have hDl := hD.1
  have hbox : MeasurableSet (domainBox d dom) := by
    rw [domainBox_eq hDl]; exact MeasurableSet.univ_pi fun j => measurableSet_Ico
  have hcl := clear_scale hc (volume (domainBox d dom))⁻¹
  have hae := fun j => cell_ae hG f.inputReady hcl j
  have hreal : ∀ j, ((volume (domainBox d dom))⁻¹ • volume.restrict (domainBox d dom)).real
      {x | inp.cell G (List.ofFn x) = j} = relativeVolume d G inp dom j := fun j => by
    rw [measureReal_congr (hae j), law_real hbox]
    rfl
  have h := volumes_far (P := P) (Z := fun (rk : (_ : ℕ) × ℕ) ω => boxMap dom (U rk.1 rk.2 ω))
    (μ := (volume (domainBox d dom))⁻¹ • volume.restrict (domainBox d dom))
    (fun rk => hasLaw_boxMap (hU.law rk.1 rk.2) hD)
    ((sigma_indep hU.indep).comp (fun _ => boxMap dom) fun _ => measurable_boxMap dom)
    (L := fun x => inp.cell G (List.ofFn x)) (N := N)
    (fun j => (hcl.meas j).congr (hae j).symm) (fun x => SampleSet.cell_lt hG f.inputReady _) (s := drawSet size n)
    (by rw [card_drawSet hsize]; exact hn) (p := p) (c := fun i => ops.cell G (y.getD i [])) hκ hε (by
      simp only [hreal]
      exact hgood)
  rw [card_drawSet hsize] at h
  refine le_trans (le_of_eq ?_) h
  congr 1
  ext ω
  simp only [Set.mem_ofPred_eq, hreal]
  refine exists_congr fun i => and_congr_right fun hi => ?_
  rw [solveDrawn_value f hdom hDl hsize hn _ hi]
  simp only [drawSet, Finset.sum_sigma, Option.getD_some]

end

end BET

namespace BET.Ex

open BET.Spec MeasureTheory ProbabilityTheory Filter Topology

/-- Independent samples with any two laws exist. -/
theorem independentSamples {d e : Nat} (μ : Measure (Fin d → ℝ)) (ν : Measure (Fin e → ℝ)) [IsProbabilityMeasure μ]
    [IsProbabilityMeasure ν] :
    ∃ (Ω : Type) (_ : MeasurableSpace Ω) (P : Measure Ω) (X : ℕ → ℕ → Ω → Fin d → ℝ) (Y : ℕ → ℕ → Ω → Fin e → ℝ),
      IsProbabilityMeasure P ∧ IndependentSamples P μ X ∧ IndependentSamples P ν Y := by
  let P : Measure (ℕ × ℕ → (Fin d → ℝ) × (Fin e → ℝ)) := Measure.infinitePi fun _ => μ.prod ν
  have hlaw : ∀ rk : ℕ × ℕ, HasLaw (fun ω : ℕ × ℕ → (Fin d → ℝ) × (Fin e → ℝ) => ω rk) (μ.prod ν) P := fun rk =>
    ⟨(measurable_pi_apply rk).aemeasurable, Measure.infinitePi_map_eval _ rk⟩
  have hind : iIndepFun (fun (rk : ℕ × ℕ) (ω : ℕ × ℕ → (Fin d → ℝ) × (Fin e → ℝ)) => ω rk) P :=
    iIndepFun_infinitePi (P := fun _ => μ.prod ν) (X := fun _ x => x) fun _ => measurable_id
  refine ⟨_, inferInstance, P, fun r k ω => (ω (r, k)).1, fun r k ω => (ω (r, k)).2, inferInstance,
    ⟨fun r k => ?_, hind.comp (fun _ => Prod.fst) fun _ => measurable_fst⟩,
    ⟨fun r k => ?_, hind.comp (fun _ => Prod.snd) fun _ => measurable_snd⟩⟩
  · exact HasLaw.comp (μ := μ.prod ν) ⟨measurable_fst.aemeasurable, by
      rw [← Measure.fst, Measure.fst_prod]⟩ (hlaw (r, k))
  · exact HasLaw.comp (μ := μ.prod ν) ⟨measurable_snd.aemeasurable, by
      rw [← Measure.snd, Measure.snd_prod]⟩ (hlaw (r, k))

/-- The uniform law on the unit interval. -/
noncomputable def unitLaw : Measure (Fin 1 → ℝ) := volume.restrict (Set.univ.pi fun _ => Set.Ico (0 : ℝ) 1)

theorem unitLaw_interval {a b : ℝ} (ha : 0 ≤ a) (hab : a ≤ b) (hb : b ≤ 1) {A : Set (Fin 1 → ℝ)}
    (hA : ∀ x : Fin 1 → ℝ, a ≤ x 0 → x 0 < b → x ∈ A) : b - a ≤ unitLaw.real A := by
  have hfin : volume (Set.univ.pi fun _ : Fin 1 => Set.Ico (0 : ℝ) 1) ≠ ⊤ := by
    rw [volume_pi_pi]; simp
  have : IsFiniteMeasure unitLaw := ⟨by
    rw [unitLaw, Measure.restrict_apply MeasurableSet.univ, Set.univ_inter]
    exact hfin.lt_top⟩
  have hsub : (Set.univ.pi fun _ : Fin 1 => Set.Ico a b) ⊆ A := fun x hx =>
    hA x (hx 0 trivial).1 (hx 0 trivial).2
  refine le_trans (le_of_eq ?_) (measureReal_mono hsub)
  rw [Measure.real, unitLaw, Measure.restrict_apply (MeasurableSet.univ_pi fun _ => measurableSet_Ico),
    Set.inter_eq_left.2 (Set.pi_mono fun _ _ => Set.Ico_subset_Ico ha hb), volume_pi_pi]
  simp [hab]

/-- Two Voronoi cells of the unit interval have the measure one half. -/
theorem unitHalves {c : Nat} (hc : c < 2) :
    1 / 2 ≤ unitLaw.real (cellSet 1 euclid (treeSet 1 [[1 / 4], [3 / 4]] none) c) := by
  have hd : ∀ (x : Fin 1 → ℝ) (a : ℝ), euclid.dist 2 (List.ofFn x) [a] = |x 0 - a| := by
    intro x a
    have := euclid_dist 2 x fun _ => a
    simpa [Real.sqrt_sq_eq_abs] using this
  have hmem : ∀ (x : Fin 1 → ℝ) (c : Nat), IsNearest (euclid.dist 2) [[1 / 4], [3 / 4]] (List.ofFn x) c →
      x ∈ cellSet 1 euclid (treeSet 1 [[1 / 4], [3 / 4]] none) c := by
    intro x c h
    show ∀ v, some [[(1 / 4 : ℝ)], [3 / 4]] = some v → _
    rintro v ⟨⟩
    exact h
  obtain rfl | rfl : c = 0 ∨ c = 1 := by omega
  · have := unitLaw_interval (a := 0) (b := 1 / 2) le_rfl (by norm_num) (by norm_num)
      (A := cellSet 1 euclid (treeSet 1 [[1 / 4], [3 / 4]] none) 0) fun x h1 h2 => hmem x 0 ⟨[1 / 4], rfl, by
        simp only [List.mem_cons, List.not_mem_nil, or_false, forall_eq_or_imp, forall_eq, le_refl, true_and, hd]
        rw [abs_of_nonpos (show x 0 - 3 / 4 ≤ 0 by linarith), abs_le]
        constructor <;> linarith⟩
    linarith
  · have := unitLaw_interval (a := 1 / 2) (b := 1) (by norm_num) (by norm_num) le_rfl
      (A := cellSet 1 euclid (treeSet 1 [[1 / 4], [3 / 4]] none) 1) fun x h1 h2 => hmem x 1 ⟨[3 / 4], rfl, by
        simp only [List.mem_cons, List.not_mem_nil, or_false, forall_eq_or_imp, forall_eq, le_refl, and_true, hd]
        rw [abs_of_nonneg (show 0 ≤ x 0 - 1 / 4 by linarith), abs_le]
        constructor <;> linarith⟩
    linarith

noncomputable def sameModel : Nat → List (List ℝ) → ModelOutput ℝ := fun _ rows => .array (rows.map id)

theorem sameRowWise : RowWise sameModel false false id id (fun _ => []) :=
  fun _ _ => ⟨none, none, rfl, nofun, nofun⟩

/-- The hypotheses of `C155_user`: the identity on the unit interval as model, 500 samples, 100 data, and two cells with
the measure one half. -/
example {Ω : Type} [MeasurableSpace Ω] {P : Measure Ω} [IsProbabilityMeasure P] {X Y : ℕ → ℕ → Ω → Fin 1 → ℝ}
    (hX : IndependentSamples P unitLaw X) (hY : IndependentSamples P unitLaw Y) (size : Nat) (hsize : 0 < size) {ε η : ℝ}
    (hε : 0 < ε) (hη : 0 ≤ η) {A : Set (Fin 1 → ℝ)} (hA : MeasurableSet A) :=
  C155_user euclid_sound sameRowWise (Q := id) measurable_id (fun x => rfl) hX (parts := 3) (by norm_num) (n := 500)
    (by norm_num) (s := fun ω _ => rowSet 1 (drawnRows 3 500 fun r k => X r k ω)) (fun ω => rowSet_hold 3 500 (by norm_num) _)
    hY (parts' := 1) Nat.one_pos (M := 100) (by norm_num) (samples := [[1 / 4], [3 / 4]]) (by simp) (by simp)
    (by rw [Measure.map_id]
        exact C130_clear_euclidean rfl rfl (by simp) (by norm_num) (fun x c => euclid_dist _ x c) _)
    (C130_clear_euclidean rfl rfl (by simp) (by norm_num) (fun x c => euclid_dist _ x c) _)
    (partition := fun _ _ => .array 1 [[1 / 4], [3 / 4]])
    (distribution := fun ω _ => .array 1 (drawnRows 1 100 fun r k => Y r k ω)) (fun _ _ _ => rfl)
    (fun ω _ _ => by
      have := length_drawnRows Nat.one_pos 100 fun r k => Y r k ω
      simp only [DataSet.inputs, this]
      rfl)
    hsize (κ := 1 / 2) (by norm_num) hε hη (fun c hc _ => unitHalves hc) (g := A.indicator 1) (measurable_one.indicator hA)
    (fun x => ⟨Set.indicator_nonneg (fun _ _ => zero_le_one) x, Set.indicator_le_self' (fun _ _ => zero_le_one) x⟩)

/-- The hypotheses of `C155_rectangle` with its last one: the same model, and the interval from 1/4 to 3/4. -/
example {Ω : Type} [MeasurableSpace Ω] {P : Measure Ω} [IsProbabilityMeasure P] {X : ℕ → ℕ → Ω → Fin 1 → ℝ}
    (hX : IndependentSamples P unitLaw X) : ∃ t, ∀ ε > 0, ∀ A : Set (Fin 1 → ℝ), MeasurableSet A →
      P.real {ω | ε ≤ |(solutionMean (A.indicator 1) (inverseProblem euclid 2 sameModel 1
          (rowSet 1 (drawnRows 3 500 fun r k => X r k ω))
          fun ds => regularSize euclid 2 ds (some [1 / 2]) (.array [1 / 2]) (.scalar 1))).getD 0 -
        conditionalMean 1 (fun _ => 1 / (1 : ℕ)) (fun c => {x | InRectangle t (List.ofFn x) c}) unitLaw (A.indicator 1)|} ≤
      4 * (1 : ℕ) * Real.exp (-((500 : ℕ) * (ε * (1 / 4)) ^ 2 / 2)) := by
  obtain ⟨t, ht, h⟩ := C155_rectangle euclid_sound sameRowWise (Q := id) measurable_id (fun x => rfl) hX (parts := 3)
    (by norm_num) (n := 500) (by norm_num) (s := fun ω _ => rowSet 1 (drawnRows 3 500 fun r k => X r k ω))
    (fun ω => rowSet_hold 3 500 (by norm_num) _) Nat.one_pos (q := [1 / 2]) (rs := [1 / 2]) (cells := .scalar 1) (ns := [1])
    rfl rfl (by norm_num) rfl rfl (by simp)
  refine ⟨t, fun ε hε A hA => h 2 (by norm_num) (1 / 4) (by norm_num) ε hε ?_ (A.indicator 1)
    (measurable_one.indicator hA) fun x =>
      ⟨Set.indicator_nonneg (fun _ _ => zero_le_one) x, Set.indicator_le_self' (fun _ _ => zero_le_one) x⟩⟩
  intro c hc
  obtain rfl : c = 0 := by simpa using hc
  have := unitLaw_interval (a := 3 / 8) (b := 5 / 8) (by norm_num) (by norm_num) (by norm_num)
    (A := {x | InRectangle t (List.ofFn (id x)) 0}) fun x h1 h2 => by
      obtain ⟨i, ⟨hi, hin⟩, -⟩ := (ht.tiles (List.ofFn x) (by simp)).1 (by
        simp [InRect, List.ofFn_succ]
        constructor <;> linarith)
      obtain rfl : i = 0 := by simpa using hi
      exact hin
  linarith

/-- The last hypothesis of the theorems of this file holds for some `κ` where the events have a measure. -/
theorem exists_least {m : Nat} (p : Nat → Prop) {v : Nat → ℝ} (h : ∀ c < m, p c → 0 < v c) :
    ∃ κ > 0, ∀ c < m, p c → κ ≤ v c := by
  induction m with
  | zero => exact ⟨1, one_pos, nofun⟩
  | succ m ih =>
    obtain ⟨κ, hκ, hm⟩ := ih fun c hc => h c (by omega)
    by_cases hp : p m
    · refine ⟨min κ (v m), lt_min hκ (h m (by omega) hp), fun c hc hpc => ?_⟩
      rcases Nat.lt_succ_iff_lt_or_eq.1 hc with hc | rfl
      · exact (min_le_left _ _).trans (hm c hc hpc)
      · exact min_le_right _ _
    · refine ⟨κ, hκ, fun c hc hpc => ?_⟩
      rcases Nat.lt_succ_iff_lt_or_eq.1 hc with hc | rfl
      · exact hm c hc hpc
      · exact absurd hpc hp

/-- The hypotheses of `C155_emulated`: the three cells of `planeSet`, and 400 random emulated samples. -/
example {Ω : Type} [MeasurableSpace Ω] {P : Measure Ω} [IsProbabilityMeasure P]
    {X : ℕ → ℕ → Ω → Fin 2 → ℝ} (hX : IndependentSamples P (volume.restrict (Set.univ.pi fun _ => Set.Ico (0 : ℝ) 1)) X) :=
  C155_emulated euclid_sound (N := 3) (m := 2) (inp := planeSet)
    (out := { dim := 1, glob := { values := some [[0], [1], [2]] } })
    (ops := { dim := 1, glob := { values := some [[0], [2]], probabilities := some [1 / 4, 3 / 4] } })
    (y := [[0], [1], [2]]) (probs := [1 / 4, 3 / 4]) (by norm_num [IsProbVector]) hX
    (C130_clear_euclidean rfl rfl (by simp) (by simp) (fun x c => euclid_dist _ x c) _) (parts := 2) (by norm_num)
    (n := 400) (by norm_num)
    (em := fun ω => rowSet 2 (drawnRows 2 400 fun r k => X r k ω))
    (D := fun ω => {
      input := some planeSet
      output := some { dim := 1, glob := { values := some [[0], [1], [2]] } }
      outputProb := some { dim := 1, glob := { values := some [[0], [2]], probabilities := some [1 / 4, 3 / 4] } }
      emInput := some (rowSet 2 (drawnRows 2 400 fun r k => X r k ω)) })
    (fun ω => ⟨rfl, ⟨SampleSet.consistent_of_checkNum (size := 1) rfl rfl, by norm_num, rfl, Or.inl rfl, nofun, nofun⟩,
      rfl, SampleSet.consistent_of_checkNum (size := 1) rfl rfl, rfl, rfl, rfl,
      ⟨SampleSet.consistent_of_checkNum (size := 1) rfl rfl, by norm_num, rfl, Or.inl rfl, nofun, nofun⟩, rfl, rfl,
      rowSet_consistent 2 400 (by norm_num) _, rfl, rfl, rfl, rfl⟩)

/-- The unit interval with the samples 1/4 and 3/4, whose outputs lie in two cells. -/
noncomputable def intervalSet : SampleSet ℝ :=
  { dim := 1, glob := { values := some [[1 / 4], [3 / 4]] }, domain := some [(0, 1)] }

noncomputable def intervalDisc : Disc ℝ :=
  { input := some intervalSet
    output := some { dim := 1, glob := { values := some [[0], [1]] } }
    outputProb := some { dim := 1, glob := { values := some [[0], [1]], probabilities := some [1 / 4, 3 / 4] } } }

theorem intervalDisc_unmeasured : Unmeasured intervalDisc 2 2 intervalSet
    { dim := 1, glob := { values := some [[0], [1]] } }
    { dim := 1, glob := { values := some [[0], [1]], probabilities := some [1 / 4, 3 / 4] } } [[0], [1]] [1 / 4, 3 / 4] :=
  ⟨rfl, ⟨SampleSet.consistent_of_checkNum (size := 1) rfl rfl, by norm_num, rfl, Or.inl rfl, nofun, nofun⟩, rfl,
    SampleSet.consistent_of_checkNum (size := 1) rfl rfl, rfl, rfl, rfl,
    ⟨SampleSet.consistent_of_checkNum (size := 1) rfl rfl, by norm_num, rfl, Or.inl rfl, nofun, nofun⟩, rfl, rfl⟩

/-- The hypotheses of `C155_volumes_emulated` with its last one. -/
example {Ω : Type} [MeasurableSpace Ω] {P : Measure Ω} [IsProbabilityMeasure P] (X : ℕ → Ω → Fin 1 → ℝ)
    (em : ℕ → Ω → SampleSet ℝ) (hX : RandomPoints P unitLaw X em) (hind : iIndepFun X P) :
    ∃ c : ℕ → ℕ, ∀ ε > 0, P.real {ω | ∃ i < 2, 0 < [(1 : ℝ) / 4, 3 / 4].getD (c i) 0 ∧
        ε * [(1 : ℝ) / 4, 3 / 4].getD (c i) 0 ≤
          |(inputProbability (probWithEmulatedVolumes euclid 4 { intervalDisc with emInput := some (em 900 ω) }) i).getD 0 -
            dividedBy 2 [1 / 4, 3 / 4] c (fun j => unitLaw.real (cellSet 1 euclid intervalSet j)) i|} ≤
      4 * (2 : ℕ) * Real.exp (-((900 : ℕ) * (ε * (1 / 2)) ^ 2 / 2)) := by
  obtain ⟨c, -, h⟩ := C155_volumes_emulated (d := 1) (P := P) euclid_sound intervalDisc_unmeasured (μ := unitLaw)
    (C130_clear_euclidean rfl rfl (by simp) (by norm_num) (fun x c => euclid_dist _ x c) _)
  refine ⟨c, fun ε hε => h 4 (by norm_num) X em hX hind 900 (by norm_num) (1 / 2) (by norm_num) ε hε ?_⟩
  intro i hi _
  refine le_trans (show 1 / 2 ≤ unitLaw.real (cellSet 1 euclid intervalSet i) from unitHalves hi) ?_
  exact Finset.single_le_sum (f := fun j => unitLaw.real (cellSet 1 euclid intervalSet j)) (fun _ _ => measureReal_nonneg)
    (Finset.mem_filter.2 ⟨Finset.mem_range.2 hi, rfl⟩)

/-- The hypotheses of `C155_volumes`. -/
example {Ω : Type} [MeasurableSpace Ω] {P : Measure Ω} [IsProbabilityMeasure P] :=
  C155_volumes (d := 1) (P := P) euclid_sound intervalDisc_unmeasured (dom := [(0, 1)]) rfl ⟨rfl, by simp⟩
    (C130_clear_euclidean rfl rfl (by simp) (by norm_num) (fun x c => euclid_dist _ x c) _)

/-- `C155_enough`: with two cells of the measure 1/2, 5600 samples give an error below 1/10 in at least nine cases
out of ten. -/
example : 4 * (2 : ℕ) * Real.exp (-((5600 : ℕ) * ((1 / 10 : ℝ) * (1 / 2)) ^ 2 / 2)) ≤ 1 / 10 := by
  have h1 : Real.log 80 ≤ Real.log (2 ^ 7) := Real.log_le_log (by norm_num) (by norm_num)
  rw [Real.log_pow] at h1
  have h2 := Real.log_le_sub_one_of_pos (x := 2) (by norm_num)
  push_cast at h1
  refine C155_enough (by norm_num) (by norm_num) (by norm_num) (by norm_num) ?_
  norm_num
  linarith

end BET.Ex
