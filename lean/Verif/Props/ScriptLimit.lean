import Verif.Model.Script
import Verif.Props.DrawnLaw

/-!
# C136: a script that draws its samples converges to the solution of the inverse problem
-/

set_option linter.unusedSectionVars false
set_option linter.unusedSimpArgs false
set_option autoImplicit false

namespace BET

open Spec MeasureTheory ProbabilityTheory Filter Topology

variable {Ω : Type} [MeasurableSpace Ω] {P : Measure Ω} {d e : Nat} [IsProbabilityMeasure P]

/-! ## The set that is drawn -/

theorem arraySplit_drawn {parts : Nat} (hp : 0 < parts) (n : Nat) (X : ℕ → ℕ → Fin d → ℝ) :
    arraySplit parts (drawnRows parts n X) = (List.range parts).map fun r => (List.range (numLocal n parts r)).map
      fun k => List.ofFn (X r k) := by
  rw [List.eq_iff_flatten_eq, flatten_arraySplit _ _ hp, arraySplit_lengths, length_drawnRows hp]
  refine ⟨rfl, ?_⟩
  rw [List.map_map]
  refine List.map_congr_left fun r _ => ?_
  simp [splitLen, numLocal]

theorem randomSampleSet_holds {st : Stats ℝ} {size : Nat} (hsize : 0 < size) {rv : RvArg ℝ} {obj : InputObj ℝ}
    {D : Option (List (ℝ × ℝ))} (hs : Space obj d D) (hfresh : NoArrays obj) {specs : List (RvSpec ℝ)}
    (hd : Distributions d D rv specs) {X : ℕ → ℕ → Fin d → ℝ} (hX : ∀ r (i : Fin d) (sp : RvSpec ℝ) n,
      specs[(i : ℕ)]? = some sp → st.rvs r i sp n = .ok ((List.range n).map fun k => X r k i)) {n : Nat}
    {t : SampleSet ℝ} (h : randomSampleSet st size rv obj n true = .ok t) :
    Consistent t n ∧ t.glob.values = some (drawnRows size n X) ∧ Distributed size t := by
  obtain ⟨hv, hl⟩ := randomSampleSet_values hsize hs hd hX h
  have hdim : t.dim = d := by
    obtain ⟨specs', chunks, dom, h1, h2, h3, h4, -⟩ := C76_draws hsize hs h
    exact h4
  have hform : t.glob = { values := t.glob.values } ∧ t.loc = { values := t.loc.values } := by
    obtain ⟨s, h1, rfl, rfl⟩ := space_ok hs .wrongInput
    obtain ⟨hg0, hl0⟩ := noArrays_set hfresh h1
    simp only [randomSampleSet, h1, ok_bind, bind_eq_ok, pure_eq_ok] at h
    obtain ⟨specs, h2, chunks, h3, dom, h4, s2, h5, -, -, -, -, rfl⟩ := h
    obtain ⟨rfl, -⟩ := setValuesLocal_eq_ok h5
    simp only [SampleSet.globalizeIf, SampleSet.localToGlobal, Arrays.map₂, SampleSet.gatherArr, if_true, hg0]
    rw [hl0]
    exact ⟨rfl, rfl⟩
  rw [hv] at hform
  rw [hl] at hform
  refine ⟨⟨?_, ?_, ?_⟩, hv, Or.inr ?_⟩
  · rw [hform.1]
    exact ⟨by rintro _ ⟨⟩; exact length_drawnRows hsize n X, nofun, nofun, nofun, nofun, nofun, nofun, nofun, nofun,
      nofun, nofun, nofun, nofun, nofun⟩
  · rw [hform.1]
    exact fun h => by cases h.values
  · rw [hv, hdim]
    rintro w hw row hrow
    obtain rfl := Option.some.inj hw
    obtain ⟨r, k, rfl⟩ := mem_drawnRows hrow
    simp
  · rw [hform.1, hform.2]
    simp only [Arrays.map₂, SampleSet.splitArr, arraySplit_drawn hsize]

/-- What the script returns is the inverse problem for sets that hold the samples. -/
theorem randomProblem_eq {st : Ω → Stats ℝ} {size : Nat} (hsize : 0 < size) {rv : RvArg ℝ} {obj : InputObj ℝ}
    {D : Option (List (ℝ × ℝ))} (hs : Space obj d D) (hfresh : NoArrays obj) {specs : List (RvSpec ℝ)}
    (hd : Distributions d D rv.long specs) (hav : ∀ ω, Available (st ω) specs) {S : ℕ → Fin d → ℕ → Ω → ℝ}
    (hst : Returns st specs S) (G : Geometry ℝ) (model : Nat → List (List ℝ) → ModelOutput ℝ) :
    ∃ s : ℕ → Ω → Nat → SampleSet ℝ,
      (∀ n ω, HoldSamples (s n ω) (drawnRows size n fun r k i => S r i k ω)) ∧
      ∀ n ω measure, randomProblem G (st ω) size rv obj n model e measure =
        inverseProblem G size model e (s n ω size) measure := by
  have hrun := fun n ω => C76_defined_partial hsize hs hfresh hd (hav ω) n true
  choose t ht _ using hrun
  refine ⟨fun n ω size' => if size' = size then t n ω else Ex.rowSet d (drawnRows size n fun r k i => S r i k ω),
    fun n ω size' hsize' => ?_, fun n ω measure => ?_⟩
  · rw [length_drawnRows hsize]
    dsimp only
    split_ifs with hc
    · subst hc
      exact randomSampleSet_holds hsize hs hfresh hd (X := fun r k i => S r i k ω)
        (fun r i sp n h => hst ω r i sp n h) (ht n ω)
    · exact ⟨Ex.rowSet_consistent _ _ hsize _, rfl, Or.inl rfl⟩
  · simp only [if_true, randomProblem, ht n ω, ok_bind]

/-! ## The limit -/

/-- **C136.** The whole script: samples drawn by `random_sample_set` from any distributions, equal volumes, a measurable
model of the parameters, a uniform distribution on a rectangle of data that is partitioned into equal cells, and
`calculateP.prob`. The script succeeds for every positive number of samples, and with probability one the solution tends
to the exact solution: the measure that gives the preimage of every cell its probability and is proportional, on the
preimage, to the product of the distributions. -/
theorem C136_rectangle {G : Geometry ℝ} (hG : Sound G) {st : Ω → Stats ℝ} {size : Nat} (hsize : 0 < size)
    {rv : RvArg ℝ} {obj : InputObj ℝ} {D : Option (List (ℝ × ℝ))} (hs : Space obj d D) (hfresh : NoArrays obj)
    {specs : List (RvSpec ℝ)} (hd : Distributions d D rv.long specs) (hav : ∀ ω, Available (st ω) specs)
    {ν : Fin d → Measure ℝ} {S : ℕ → Fin d → ℕ → Ω → ℝ} (hS : RandomNumbers P ν S) (hst : Returns st specs S)
    {model : Nat → List (List ℝ) → ModelOutput ℝ} {f e' : List ℝ → List ℝ} {j : List ℝ → List (List ℝ)}
    (hm : RowWise model false false f e' j) {Q : (Fin d → ℝ) → Fin e → ℝ} (hQ : Measurable Q)
    (hf : ∀ x, f (List.ofFn x) = List.ofFn (Q x)) (hdim : 0 < e) {q rs : List ℝ} (hq : q.length = e)
    (hrs : rs.length = e) (hpos : ∀ r ∈ rs, 0 < r) {cells : CellArg} {ns : List Nat} (hns : ns.length = e)
    (hcells : UsedCells cells ns) (hn : ∀ n ∈ ns, 0 < n) :
    ∃ t, IsRegularPartition t q rs ns ∧
      (∀ n ω (g : (Fin d → ℝ) → ℝ), 0 < n → (solutionMean g (randomProblem G (st ω) size rv obj n model e
        fun ds => regularSize G size ds (some q) (.array rs) cells)).isSome) ∧
      ∀ g : (Fin d → ℝ) → ℝ, Integrable g (Measure.pi ν) → ∀ᵐ ω ∂P, Tendsto (fun n =>
        (solutionMean g (randomProblem G (st ω) size rv obj n model e
          fun ds => regularSize G size ds (some q) (.array rs) cells)).getD 0) atTop
        (𝓝 (conditionalMean ns.prod (fun _ => 1 / ns.prod)
          (fun c => {x | InRectangle t (List.ofFn (Q x)) c}) (Measure.pi ν) g)) := by
  obtain ⟨s, hhold, heq⟩ := randomProblem_eq (e := e) hsize hs hfresh hd hav hst G model
  obtain ⟨t, h1, h2⟩ := C131_rectangle hG hm hQ hf (RandomNumbers.points hS) hsize hhold hdim hq hrs hpos hns hcells hn
  refine ⟨t, h1, ?_⟩
  simp only [heq]
  exact h2 size hsize

/-- **C136.** The same with any data distribution that is given by samples: `user_partition_user_distribution` with a
partition and with samples of a distribution `η`, more and more of them. Every cell of the partition gets, in the
limit, its probability under `η`. -/
theorem C136_user {G : Geometry ℝ} (hG : Sound G) {st : Ω → Stats ℝ} {size : Nat} (hsize : 0 < size)
    {rv : RvArg ℝ} {obj : InputObj ℝ} {D : Option (List (ℝ × ℝ))} (hs : Space obj d D) (hfresh : NoArrays obj)
    {specs : List (RvSpec ℝ)} (hd : Distributions d D rv.long specs) (hav : ∀ ω, Available (st ω) specs)
    {ν : Fin d → Measure ℝ} {S : ℕ → Fin d → ℕ → Ω → ℝ} (hS : RandomNumbers P ν S) (hst : Returns st specs S)
    {model : Nat → List (List ℝ) → ModelOutput ℝ} {f e' : List ℝ → List ℝ} {j : List ℝ → List (List ℝ)}
    (hm : RowWise model false false f e' j) {Q : (Fin d → ℝ) → Fin e → ℝ} (hQ : Measurable Q)
    (hf : ∀ x, f (List.ofFn x) = List.ofFn (Q x))
    {η : Measure (Fin e → ℝ)} {Y : ℕ → ℕ → Ω → Fin e → ℝ} (hY : RandomSamples P η Y) {parts' : Nat}
    (hparts' : 0 < parts') {M : ℕ → ℕ} (hM : Tendsto M atTop atTop) (hM0 : ∀ n, 0 < M n)
    {samples : List (List ℝ)} (hsa : ∀ row ∈ samples, row.length = e) (hsne : samples ≠ [])
    (hc : ClearCells G (treeSet e samples none) ((Measure.pi ν).map Q)) (hc' : ClearCells G (treeSet e samples none) η)
    {partition distribution : ℕ → Ω → Nat → DataSet ℝ}
    (hpar : ∀ n ω, ∀ size > 0, (partition n ω size).inputs size = .ok ⟨samples.length, e, some samples⟩)
    (hdist : ∀ n ω, ∀ size > 0, (distribution n ω size).inputs size =
      .ok ⟨M n, e, some (drawnRows parts' (M n) fun r k => Y r k ω)⟩) :
    (∀ n ω (g : (Fin d → ℝ) → ℝ), 0 < n → (solutionMean g (randomProblem G (st ω) size rv obj n model e
      fun ds => userPartition G size ds (partition n ω size) (distribution n ω size))).isSome) ∧
    ∀ g : (Fin d → ℝ) → ℝ, Integrable g (Measure.pi ν) → ∀ᵐ ω ∂P, Tendsto (fun n =>
      (solutionMean g (randomProblem G (st ω) size rv obj n model e
        fun ds => userPartition G size ds (partition n ω size) (distribution n ω size))).getD 0) atTop
      (𝓝 (conditionalMean samples.length (fun c => η.real (cellSet e G (treeSet e samples none) c))
        (fun c => Q ⁻¹' cellSet e G (treeSet e samples none) c) (Measure.pi ν) g)) := by
  obtain ⟨s, hhold, heq⟩ := randomProblem_eq (e := e) hsize hs hfresh hd hav hst G model
  simp only [heq]
  exact C131_user hG hm hQ hf (RandomNumbers.points hS) hsize hhold hY hparts' hM hM0 hsa hsne hc hc' hpar hdist hsize

/-! ## Uniform samples -/

theorem conditionalMean_box (m : ℕ) (q : ℕ → ℝ) {E : ℕ → Set (Fin d → ℝ)} {B : Set (Fin d → ℝ)}
    (hE : ∀ c < m, MeasurableSet (E c)) (h0 : volume B ≠ 0) (h1 : volume B ≠ ⊤) (g : (Fin d → ℝ) → ℝ) :
    conditionalMean m q E ((volume B)⁻¹ • volume.restrict B) g =
      ∑ c ∈ Finset.range m, q c * ((∫ x in E c ∩ B, g x) / volume.real (E c ∩ B)) := by
  unfold conditionalMean
  refine Finset.sum_congr rfl fun c hc => ?_
  have hEc := hE c (Finset.mem_range.1 hc)
  have hv : (volume B).toReal⁻¹ ≠ 0 := inv_ne_zero (ENNReal.toReal_ne_zero.2 ⟨h0, h1⟩)
  rw [Measure.restrict_smul, integral_smul_measure, Measure.restrict_restrict hEc, measureReal_ennreal_smul_apply,
    measureReal_restrict_apply hEc, ENNReal.toReal_inv, smul_eq_mul, mul_div_mul_left _ _ hv]

theorem measurable_inRectangle (t : SampleSet ℝ) (c : ℕ) :
    MeasurableSet {y : Fin e → ℝ | InRectangle t (List.ofFn y) c} := by
  by_cases h : ∃ l r a b, t.glob.left = some l ∧ t.glob.right = some r ∧ l[c]? = some a ∧ r[c]? = some b
  · obtain ⟨l, r, a, b, h1, h2, h3, h4⟩ := h
    convert measurable_inBox (d := e) a b using 1
    ext y
    constructor
    · rintro ⟨l', r', a', b', g1, g2, g3, g4, g5⟩
      rw [h1] at g1; obtain rfl := Option.some.inj g1
      rw [h2] at g2; obtain rfl := Option.some.inj g2
      rw [h3] at g3; obtain rfl := Option.some.inj g3
      rw [h4] at g4; obtain rfl := Option.some.inj g4
      exact g5
    · exact fun g => ⟨l, r, a, b, h1, h2, h3, h4, g⟩
  · convert MeasurableSet.empty
    ext y
    exact ⟨fun ⟨l, r, a, b, g1, g2, g3, g4, _⟩ => h ⟨l, r, a, b, g1, g2, g3, g4⟩, fun g => g.elim⟩

/-- **C136.** The script with `random_sample_set('random', …)` (or `'r'`, `'uniform'`) for a set with a domain: the
solution tends with probability one to the exact solution. With `N` cells in the rectangle of data, the limit gives
each preimage the probability `1 / N`, in proportion to the volume in the domain. -/
theorem C136_uniform {G : Geometry ℝ} (hG : Sound G) {st : Ω → Stats ℝ} {size : Nat} (hsize : 0 < size)
    {name : String} (hname : name ∈ ["r", "random", "uniform"])
    {obj : InputObj ℝ} {D : List (ℝ × ℝ)} (hD : ProperBox d D) (hs : Space obj d (some D)) (hfresh : NoArrays obj)
    (hav : ∀ ω, Available (st ω) (D.map fun ab => ⟨"uniform", [("loc", ab.1), ("scale", ab.2 - ab.1)]⟩))
    {S : ℕ → Fin d → ℕ → Ω → ℝ} (hS : RandomNumbers P (fun i : Fin d => uniformLaw (D.getD i (0, 0))) S)
    (hst : Returns st (D.map fun ab => ⟨"uniform", [("loc", ab.1), ("scale", ab.2 - ab.1)]⟩) S)
    {model : Nat → List (List ℝ) → ModelOutput ℝ} {f e' : List ℝ → List ℝ} {j : List ℝ → List (List ℝ)}
    (hm : RowWise model false false f e' j) {Q : (Fin d → ℝ) → Fin e → ℝ} (hQ : Measurable Q)
    (hf : ∀ x, f (List.ofFn x) = List.ofFn (Q x)) (hdim : 0 < e) {q rs : List ℝ} (hq : q.length = e)
    (hrs : rs.length = e) (hpos : ∀ r ∈ rs, 0 < r) {cells : CellArg} {ns : List Nat} (hns : ns.length = e)
    (hcells : UsedCells cells ns) (hn : ∀ n ∈ ns, 0 < n) :
    ∃ t, IsRegularPartition t q rs ns ∧
      (∀ n ω (g : (Fin d → ℝ) → ℝ), 0 < n → (solutionMean g (randomProblem G (st ω) size (.str name) obj n model e
        fun ds => regularSize G size ds (some q) (.array rs) cells)).isSome) ∧
      ∀ g : (Fin d → ℝ) → ℝ, IntegrableOn g (domainBox d D) → ∀ᵐ ω ∂P, Tendsto (fun n =>
        (solutionMean g (randomProblem G (st ω) size (.str name) obj n model e
          fun ds => regularSize G size ds (some q) (.array rs) cells)).getD 0) atTop
        (𝓝 (∑ c ∈ Finset.range ns.prod, 1 / (ns.prod : ℝ) *
          ((∫ x in {x | InRectangle t (List.ofFn (Q x)) c} ∩ domainBox d D, g x) /
            volume.real ({x | InRectangle t (List.ofFn (Q x)) c} ∩ domainBox d D)))) := by
  have hlong : (RvArg.str name : RvArg ℝ).long = .str "uniform" := by
    simp only [List.mem_cons, List.not_mem_nil, or_false] at hname
    rcases hname with rfl | rfl | rfl <;> rfl
  obtain ⟨t, h1, h2, h3⟩ := C136_rectangle (rv := .str name) hG hsize hs hfresh
    (by rw [hlong]; exact .fitted "uniform" D) hav hS hst hm hQ hf hdim hq hrs hpos hns hcells hn
  refine ⟨t, h1, h2, fun g hg => ?_⟩
  have htop : volume (domainBox d D) ≠ ⊤ := by
    rw [domainBox_eq hD.1, volume_pi_pi]
    exact ENNReal.prod_ne_top fun i _ => by simp
  have hne : volume (domainBox d D) ≠ 0 := by
    rw [domainBox_eq hD.1, volume_pi_pi]
    refine Finset.prod_ne_zero_iff.2 fun i _ => ?_
    have hi : (i : ℕ) < D.length := by rw [hD.1]; exact i.2
    rw [List.getD_eq_getElem?_getD, List.getElem?_eq_getElem hi]
    simpa using hD.2 _ (List.getElem_mem hi)
  have hE : ∀ c < ns.prod, MeasurableSet {x : Fin d → ℝ | InRectangle t (List.ofFn (Q x)) c} := fun c _ => hQ (measurable_inRectangle t c)
  have := h3 g (by
    rw [pi_uniformLaw hD]
    exact hg.smul_measure (ENNReal.inv_ne_top.2 hne))
  rw [pi_uniformLaw hD, conditionalMean_box _ _ hE hne htop] at this
  exact this

/-! ## Examples -/

namespace Ex

/-- There are statistics that draw uniform numbers in a box. -/
theorem uniformStats {D : List (ℝ × ℝ)} (hD : ProperBox d D) :
    ∃ (Ω : Type) (_ : MeasurableSpace Ω) (P : Measure Ω) (S : ℕ → Fin d → ℕ → Ω → ℝ), IsProbabilityMeasure P ∧
      RandomNumbers P (fun i : Fin d => uniformLaw (D.getD i (0, 0))) S := by
  have hpr : ∀ i : Fin d, IsProbabilityMeasure (uniformLaw (D.getD i (0, 0))) := by
    intro i
    constructor
    have hi : (i : ℕ) < D.length := by rw [hD.1]; exact i.2
    rw [uniformLaw, Measure.smul_apply, Measure.restrict_apply_univ, Real.volume_Ico, smul_eq_mul,
      List.getD_eq_getElem?_getD, List.getElem?_eq_getElem hi]
    exact ENNReal.inv_mul_cancel (by simpa using hD.2 _ (List.getElem_mem hi)) ENNReal.ofReal_ne_top
  obtain ⟨Ω, i, P, Z, hP, hZ, -⟩ := randomNumbers fun (_ : ℕ) (i : Fin d) => uniformLaw (D.getD i (0, 0))
  exact ⟨Ω, i, P, fun r => Z r 0, hP, hZ 0⟩

/-- **C136.** Uniform samples of the unit square on three processes, the sum of the parameters as model, and the
interval from 1/2 to 3/2 of data in four parts. -/
example : ∃ (Ω : Type) (_ : MeasurableSpace Ω) (P : Measure Ω) (st : Ω → Stats ℝ) (t : SampleSet ℝ),
    IsProbabilityMeasure P ∧ IsRegularPartition t [1] [1] [4] ∧
    ∀ g : (Fin 2 → ℝ) → ℝ, IntegrableOn g (domainBox 2 [(0, 1), (0, 1)]) → ∀ᵐ ω ∂P, Tendsto (fun n =>
      (solutionMean g (randomProblem euclid (st ω) 3 (.str "random") (.domain [(0, 1), (0, 1)]) n planeModel 1
        fun ds => regularSize euclid 3 ds (some [1]) (.array [1]) (.scalar 4))).getD 0) atTop
      (𝓝 (∑ c ∈ Finset.range [4].prod, 1 / (([4].prod : ℕ) : ℝ) *
        ((∫ x in {x | InRectangle t (List.ofFn fun _ : Fin 1 => x 0 + x 1) c} ∩ domainBox 2 [(0, 1), (0, 1)], g x) /
          volume.real ({x | InRectangle t (List.ofFn fun _ : Fin 1 => x 0 + x 1) c} ∩
            domainBox 2 [(0, 1), (0, 1)])))) := by
  have hD : ProperBox 2 [((0 : ℝ), (1 : ℝ)), (0, 1)] := ⟨rfl, by simp⟩
  obtain ⟨Ω, i, P, S, hP, hS⟩ := uniformStats hD
  obtain ⟨t, h1, -, h3⟩ := C136_uniform euclid_sound (size := 3) (by norm_num) (name := "random") (by simp) hD
    (.domain [(0, 1), (0, 1)]) trivial (giveStats_available S _) hS (giveStats_returns S _) planeRowWise
    (Q := fun x (_ : Fin 1) => x 0 + x 1) (by fun_prop) (fun x => by simp [planeMap]) Nat.one_pos (q := [1]) (rs := [1])
    (cells := .scalar 4) (ns := [4]) rfl rfl (by norm_num) rfl rfl (by simp)
  exact ⟨Ω, i, P, giveStats S, t, hP, h1, h3⟩

/-- **C136.** The same samples and model with two data cells and `n + 1` random data. -/
example {Ω : Type} [MeasurableSpace Ω] {P : Measure Ω} [IsProbabilityMeasure P] {S : ℕ → Fin 2 → ℕ → Ω → ℝ}
    (hS : RandomNumbers P (fun i : Fin 2 => uniformLaw ([((0 : ℝ), (1 : ℝ)), (0, 1)].getD i (0, 0))) S)
    {η : Measure (Fin 1 → ℝ)} {Y : ℕ → ℕ → Ω → Fin 1 → ℝ} (hY : RandomSamples P η Y)
    (hc : ClearCells euclid (treeSet 1 [[1 / 2], [3 / 2]] none)
      ((Measure.pi fun i : Fin 2 => uniformLaw ([((0 : ℝ), (1 : ℝ)), (0, 1)].getD i (0, 0))).map
        fun x (_ : Fin 1) => x 0 + x 1))
    (hc' : ClearCells euclid (treeSet 1 [[1 / 2], [3 / 2]] none) η) :=
  C136_user euclid_sound (size := 3) (by norm_num) (rv := .str "r") (.domain [((0 : ℝ), (1 : ℝ)), (0, 1)]) trivial
    (.fitted "uniform" _) (giveStats_available S _) hS (giveStats_returns S _) planeRowWise
    (Q := fun x (_ : Fin 1) => x 0 + x 1) (by fun_prop) (fun x => by simp [planeMap])
    hY (parts' := 1) Nat.one_pos (M := fun n => n + 1) (tendsto_add_atTop_nat 1) (fun n => Nat.succ_pos n)
    (samples := [[1 / 2], [3 / 2]]) (by simp) (by simp) hc hc'
    (partition := fun _ _ _ => .array 1 [[1 / 2], [3 / 2]])
    (distribution := fun n ω _ => .array 1 (drawnRows 1 (n + 1) fun r k => Y r k ω)) (fun _ _ _ _ => rfl)
    (fun n ω _ _ => by
      have := length_drawnRows Nat.one_pos (n + 1) fun r k => Y r k ω
      simp only [DataSet.inputs, this]
      rfl)

end Ex

end BET
