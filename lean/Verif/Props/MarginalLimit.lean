import Verif.Props.SolutionLimit
import Verif.Props.PlotP

/-!
# C143: marginals of computed solutions converge
-/

set_option linter.unusedSectionVars false
set_option linter.unusedSimpArgs false
set_option autoImplicit false

namespace BET

open Spec MeasureTheory ProbabilityTheory Filter Topology

variable {Ω : Type} [MeasurableSpace Ω] {P : Measure Ω} {d e : Nat}

/-! ## Specification -/

namespace Spec

/-- Entry `k` of marginal `i` of a call of `calculate_1D_marginal_probs`. -/
def marginalEntry (r : Except Err (Marginals ℝ (List ℝ))) (i k : Nat) : Option ℝ :=
  r.toOption.bind fun q => q.margs[i]?.bind fun l => l[k]?

/-- Entry `(k, l)` of the table of the pair `(i, j)` of a call of `calculate_2D_marginal_probs`. -/
def jointEntry (r : Except Err (Marginals ℝ ((Nat × Nat) × List (List ℝ)))) (i j k l : Nat) : Option ℝ :=
  r.toOption.bind fun q => (q.margs.find? fun t => t.1 = (i, j)).bind fun t => t.2[k]?.bind fun row => row[l]?

/-- The points whose coordinate `i` lies in bin `k`: the sides of the domain are cut into `nb[i]` equal parts. -/
def bin (dom : List (ℝ × ℝ)) (nb : List Nat) (i : Fin d) (k : Nat) : Set (Fin d → ℝ) :=
  {x | ∀ ab n, dom[(i : ℕ)]? = some ab → nb[(i : ℕ)]? = some n → InCell ab.1 ab.2 n k (x i)}

/-- The numbers of bins that the argument `nbins` means. -/
def UsedBins (d : Nat) (nbins : NBins) (nb : List Nat) : Prop :=
  nb.length = d ∧ (∀ n ∈ nb, 0 < n) ∧ (nbins = .arr nb ∨ ∃ n, 0 < n ∧ nbins = .int n ∧ nb = List.replicate d n)

/-- The marginals of the calls `one n ω` (all single coordinates) and `two n ω` (all pairs of coordinates), made with
`n` random samples, exist and almost surely tend to the values of `lim` at the bins and the products of two bins. -/
def MarginalsTend (P : Measure Ω) (d : Nat) (dom : List (ℝ × ℝ)) (nb : List Nat)
    (one : ℕ → Ω → Except Err (Marginals ℝ (List ℝ)))
    (two : ℕ → Ω → Except Err (Marginals ℝ ((Nat × Nat) × List (List ℝ)))) (lim : Set (Fin d → ℝ) → ℝ) : Prop :=
  (∀ n ω, 0 < n → (∀ (i : Fin d) N k, nb[(i : ℕ)]? = some N → k < N → (marginalEntry (one n ω) i k).isSome) ∧
    ∀ (i j : Fin d) M N k l, (i : ℕ) < j → nb[(i : ℕ)]? = some M → nb[(j : ℕ)]? = some N → k < M → l < N →
      (jointEntry (two n ω) i j k l).isSome) ∧
  ∀ᵐ ω ∂P,
    (∀ (i : Fin d) N k, nb[(i : ℕ)]? = some N → k < N →
      Tendsto (fun n => (marginalEntry (one n ω) i k).getD 0) atTop (𝓝 (lim (bin dom nb i k)))) ∧
    ∀ (i j : Fin d) M N k l, (i : ℕ) < j → nb[(i : ℕ)]? = some M → nb[(j : ℕ)]? = some N → k < M → l < N →
      Tendsto (fun n => (jointEntry (two n ω) i j k l).getD 0) atTop (𝓝 (lim (bin dom nb i k ∩ bin dom nb j l)))

end Spec

/-! ## Marginals are probabilities of bins -/

theorem measurableSet_bin (dom : List (ℝ × ℝ)) (nb : List Nat) (i : Fin d) (k : Nat) :
    MeasurableSet (bin dom nb i k) := by
  unfold bin
  cases h1 : dom[(i : ℕ)]? with
  | none => convert MeasurableSet.univ; simp
  | some ab =>
    cases h2 : nb[(i : ℕ)]? with
    | none => convert MeasurableSet.univ; simp
    | some n =>
      have hset : {x : Fin d → ℝ | ∀ ab' n', some ab = some ab' → some n = some n' → InCell ab'.1 ab'.2 n' k (x i)} =
          {x | InCell ab.1 ab.2 n k (x i)} := by
        ext x
        constructor
        · intro h; exact h ab n rfl rfl
        · intro h ab' n' e1 e2
          obtain rfl := Option.some.inj e1
          obtain rfl := Option.some.inj e2
          exact h
      rw [hset]
      unfold InCell
      have hx : Measurable fun x : Fin d → ℝ => x i := measurable_pi_apply i
      refine (measurableSet_le measurable_const hx).inter
        ((measurableSet_lt hx measurable_const).union ?_)
      by_cases hk : k + 1 = n
      · simp only [hk, true_and]
        exact measurableSet_eq_fun hx measurable_const
      · simp only [hk, false_and]
        exact MeasurableSet.empty

theorem inBin_iff {dom : List (ℝ × ℝ)} {nb : List Nat} (h1 : dom.length = d) (h2 : nb.length = d) (i : Fin d) (k : Nat)
    (row : List ℝ) : InBin dom nb i k row ↔ (fun j : Fin d => row.getD j 0) ∈ bin dom nb i k := by
  have hi1 : (i : ℕ) < dom.length := by rw [h1]; exact i.2
  have hi2 : (i : ℕ) < nb.length := by rw [h2]; exact i.2
  show _ ↔ ∀ ab n, dom[(i : ℕ)]? = some ab → nb[(i : ℕ)]? = some n → InCell ab.1 ab.2 n k (row.getD i 0)
  rw [List.getElem?_eq_getElem hi1, List.getElem?_eq_getElem hi2]
  unfold InBin
  rw [List.getD_eq_getElem?_getD, List.getElem?_eq_getElem hi1, List.getD_eq_getElem?_getD (l := nb),
    List.getElem?_eq_getElem hi2]
  constructor
  · intro h ab' n' e1 e2
    obtain rfl := Option.some.inj e1
    obtain rfl := Option.some.inj e2
    exact h
  · intro h; exact h _ _ rfl rfl

theorem massOf_mean {A : List ℝ → Prop} [DecidablePred A] {B : Set (Fin d → ℝ)}
    (h : ∀ row, A row ↔ (fun j : Fin d => row.getD j 0) ∈ B) {s : SampleSet ℝ} {v : List (List ℝ)} {W : List ℝ}
    (hv : s.glob.values = some v) (hW : s.glob.probabilities = some W) :
    some (massOf A v W) = meanOf (B.indicator 1) s := by
  unfold meanOf massOf
  rw [hv, hW]
  simp only [Option.bind_some, Option.map_some]
  congr 3
  funext row w
  by_cases ha : A row
  · rw [if_pos ha, Set.indicator_of_mem ((h row).1 ha)]; simp
  · rw [if_neg ha, Set.indicator_of_notMem (fun hb => ha ((h row).2 hb)), mul_zero]

/-- The marginals of a set of samples with probabilities are the computed probabilities of the bins. -/
theorem marginal_mean {o : PostObj ℝ} {s : SampleSet ℝ} {v : List (List ℝ)} {W : List ℝ} {dom : List (ℝ × ℝ)}
    {nb : List Nat} {nbins : NBins} (h : Histo o s v W dom nb nbins) (hd : s.dim = d) (hv : s.glob.values = some v)
    (hW : s.glob.probabilities = some W) {size : Nat} (hsize : 0 < size) :
    (∀ (i : Fin d) n k, nb[(i : ℕ)]? = some n → k < n →
      marginalEntry (calculate1D size nbins o) i k = meanOf ((bin dom nb i k).indicator 1) s) ∧
    ∀ (i j : Fin d) m n k l, (i : ℕ) < j → nb[(i : ℕ)]? = some m → nb[(j : ℕ)]? = some n → k < m → l < n →
      jointEntry (calculate2D size nbins o) i j k l =
        meanOf ((bin dom nb i k ∩ bin dom nb j l).indicator 1) s := by
  have h1 : dom.length = d := h.dims.trans hd
  have h2 : nb.length = d := h.numBins.trans hd
  refine ⟨fun i n k hn hk => ?_, fun i j m n k l hij hm hn hk hl => ?_⟩
  · obtain ⟨r, hr, -, -, -, -, hall⟩ := C61_marginal h hsize
    obtain ⟨m, e1, -, e2⟩ := hall i n (by rw [hd]; exact i.2) hn
    rw [marginalEntry, hr]
    simp only [Except.toOption, Option.bind_some, e1, e2 k hk]
    exact massOf_mean (inBin_iff h1 h2 i k) hv hW
  · obtain ⟨r, hr, -, -, -, hnd, hmem, hall⟩ := C61_joint h (by rw [hd]; have := j.2; omega) hsize
    obtain ⟨t, ht, hti⟩ := List.mem_map.1 ((hmem i j).2 ⟨hij, by rw [hd]; exact j.2⟩)
    obtain ⟨t', ht'⟩ : ∃ t', (r.margs.find? fun t => t.1 = ((i : ℕ), (j : ℕ))) = some t' :=
      Option.isSome_iff_exists.1 (List.find?_isSome.2 ⟨t, ht, by simpa using hti⟩)
    have hkey : t'.1 = ((i : ℕ), (j : ℕ)) := by simpa using List.find?_some ht'
    have hin := List.mem_of_find?_eq_some ht'
    obtain ⟨key, tab⟩ := t'
    obtain rfl : key = _ := hkey
    obtain ⟨-, hrow⟩ := hall i j tab hin m n hm hn
    obtain ⟨row, e1, -, e2⟩ := hrow k hk
    rw [jointEntry, hr]
    simp only [Except.toOption, Option.bind_some, ht', e1, e2 l hl]
    refine massOf_mean (B := bin dom nb i k ∩ bin dom nb j l) (fun row => ?_) hv hW
    rw [inBin_iff h1 h2 i k, inBin_iff h1 h2 j l]
    rfl

theorem histo_of {o : PostObj ℝ} {s : SampleSet ℝ} {v : List (List ℝ)} {W : List ℝ} {dom : List (ℝ × ℝ)}
    {nb : List Nat} {nbins : NBins} (ho : MargOf o s) (hs : Samples s v W) (hrow : ∀ r ∈ v, r.length = d)
    (hdim : s.dim = d) (hdom : s.domain = some dom) (hD : ProperBox d dom) (hnb : UsedBins d nbins nb) (hd : 0 < d) :
    Histo o s v W dom nb nbins := by
  refine ⟨ho, hs, fun r hr => (hrow r hr).trans hdim.symm, hdom, hD.1.trans hdim.symm, hD.2, ?_,
    hnb.1.trans hdim.symm, hnb.2.1⟩
  rcases hnb.2.2 with h | ⟨n, hn, h1, h2⟩
  · exact Or.inr h
  · refine Or.inl ?_
    have : nb.headD 1 = n := by
      rw [h2]
      obtain ⟨d', rfl⟩ : ∃ d', d = d' + 1 := ⟨d - 1, by omega⟩
      rfl
    rw [this, hdim]
    exact ⟨h1, h2⟩

/-- The solution of an inverse problem and its marginals. -/
theorem inverse_marginal {G : Geometry ℝ} (hG : Sound G) {model : Nat → List (List ℝ) → ModelOutput ℝ}
    {f e' : List ℝ → List ℝ} {j : List ℝ → List (List ℝ)} (hm : RowWise model false false f e' j)
    {Q : (Fin d → ℝ) → Fin e → ℝ} (hf : ∀ x, f (List.ofFn x) = List.ofFn (Q x))
    {X : ℕ → ℕ → Fin d → ℝ} {parts : Nat} (hparts : 0 < parts) {s : Nat → SampleSet ℝ} {n : Nat} (hn : 0 < n)
    (hs : HoldSamples s (drawnRows parts n X)) {t : SampleSet ℝ} {m : Nat} (ht : Ready t m) {p : List ℝ}
    (hp : t.glob.probabilities = some p) (hp0 : ∀ x ∈ p, 0 ≤ x) {size : Nat} (hsize : 0 < size)
    {measure : DataSet ℝ → Except Err (SampleSet ℝ × DataSet ℝ)}
    (hmeas : ∀ D inp out, RanDisc size D (drawnRows parts n X) f e inp out →
      measure (.disc D) = (DataSet.disc D).attach G size t)
    {dom : List (ℝ × ℝ)} (hdim : (s size).dim = d) (hdom : (s size).domain = some dom) (hD : ProperBox d dom)
    {nb : List Nat} {nbins : NBins} (hnb : UsedBins d nbins nb) (hd : 0 < d) :
    (∀ (i : Fin d) N k, nb[(i : ℕ)]? = some N → k < N →
      marginalEntry ((inverseProblem G size model e (s size) measure).bind fun q => calculate1D size nbins (.disc q.2))
        i k = solutionMean ((bin dom nb i k).indicator 1) (inverseProblem G size model e (s size) measure)) ∧
    ∀ (i j : Fin d) M N k l, (i : ℕ) < j → nb[(i : ℕ)]? = some M → nb[(j : ℕ)]? = some N → k < M → l < N →
      jointEntry ((inverseProblem G size model e (s size) measure).bind fun q => calculate2D size nbins (.disc q.2))
        i j k l = solutionMean ((bin dom nb i k ∩ bin dom nb j l).indicator 1)
          (inverseProblem G size model e (s size) measure) := by
  set v := drawnRows parts n X with hv
  have hvl : v.length = n := length_drawnRows hparts n _
  have hne : v ≠ [] := by
    intro h; rw [h] at hvl; simp at hvl; omega
  have hrow : ∀ row ∈ v, (f row).length = e := by
    intro row hr
    obtain ⟨r, k, rfl⟩ := mem_drawnRows hr
    rw [hf]; simp
  obtain ⟨a1, a2, a3⟩ := hs size hsize
  obtain ⟨D, inp, out, hD', hr, c1, c2, c3⟩ := sampleAndRun_full hsize hm a1 a2 hne a3 hrow
  obtain ⟨ps, d', inp', W, b1, -, -, -, -, b5, b6, b7, -, b9, b10, b11, b12, C, b13, b14, b15⟩ :=
    inverse_of_attach_full hG hsize hne hD' hr ht hp hp0 (measure := measure) (hmeas D inp out hr)
  have hh : Histo (.disc d') inp' v W dom nb nbins := by
    refine histo_of (d := d) (Or.inr ⟨b11.trans c3, b5⟩) (Or.inl ⟨_, C, b12, b13, b14, flatten_arraySplit _ _ hsize, b15⟩)
      (fun r hr => ?_) (b9.trans (c1.trans hdim)) (b10.trans (c2.trans hdom)) hD hnb hd
    obtain ⟨r, k, rfl⟩ := mem_drawnRows hr
    simp
  obtain ⟨e1, e2⟩ := marginal_mean hh (b9.trans (c1.trans hdim)) b6 b7 hsize
  rw [b1]
  simp only [Except.bind, solutionMean, Except.toOption, Option.bind_some, b5]
  exact ⟨e1, e2⟩

/-! ## Limits -/

/-- If the means under the solutions converge, so do the marginals. -/
theorem marginals_tend [IsProbabilityMeasure P] {μ : Measure (Fin d → ℝ)} [IsFiniteMeasure μ] {dom : List (ℝ × ℝ)}
    {nb : List Nat}
    {one : ℕ → Ω → Except Err (Marginals ℝ (List ℝ))}
    {two : ℕ → Ω → Except Err (Marginals ℝ ((Nat × Nat) × List (List ℝ)))}
    {S : ℕ → Ω → ((Fin d → ℝ) → ℝ) → Option ℝ} (hS : ∀ n ω g, 0 < n → (S n ω g).isSome) {m : Nat} {q : ℕ → ℝ}
    {E : ℕ → Set (Fin d → ℝ)}
    (hlim : ∀ g : (Fin d → ℝ) → ℝ, Integrable g μ → ∀ᵐ ω ∂P, Tendsto (fun n => (S n ω g).getD 0) atTop
      (𝓝 (conditionalMean m q E μ g)))
    (h : ∀ n ω, 0 < n → (∀ (i : Fin d) N k, nb[(i : ℕ)]? = some N → k < N →
        marginalEntry (one n ω) i k = S n ω ((bin dom nb i k).indicator 1)) ∧
      ∀ (i j : Fin d) M N k l, (i : ℕ) < j → nb[(i : ℕ)]? = some M → nb[(j : ℕ)]? = some N → k < M → l < N →
        jointEntry (two n ω) i j k l = S n ω ((bin dom nb i k ∩ bin dom nb j l).indicator 1)) :
    MarginalsTend P d dom nb one two
      fun A => ∑ c ∈ Finset.range m, q c * (μ.real (A ∩ E c) / μ.real (E c)) := by
  have hint : ∀ A : Set (Fin d → ℝ), MeasurableSet A → Integrable (A.indicator (1 : (Fin d → ℝ) → ℝ)) μ := fun A hA =>
    (integrable_const (1 : ℝ)).indicator hA
  refine ⟨fun n ω hn => ⟨fun i N k h1 h2 => ?_, fun i j M N k l h1 h2 h3 h4 h5 => ?_⟩, ?_⟩
  · rw [(h n ω hn).1 i N k h1 h2]; exact hS n ω _ hn
  · rw [(h n ω hn).2 i j M N k l h1 h2 h3 h4 h5]; exact hS n ω _ hn
  · have h1 := ae_all_iff.2 fun ik : Fin d × ℕ =>
      hlim _ (hint _ (measurableSet_bin dom nb ik.1 ik.2))
    have h2 := ae_all_iff.2 fun t : (Fin d × ℕ) × (Fin d × ℕ) =>
      hlim _ (hint _ ((measurableSet_bin dom nb t.1.1 t.1.2).inter (measurableSet_bin dom nb t.2.1 t.2.2)))
    filter_upwards [h1, h2] with ω h1 h2
    refine ⟨fun i N k e1 e2 => ?_, fun i j M N k l e1 e2 e3 e4 e5 => ?_⟩
    · have key := h1 (i, k)
      rw [C131_events _ _ _ _ (measurableSet_bin dom nb i k)] at key
      refine key.congr' ?_
      filter_upwards [eventually_gt_atTop 0] with n hn
      rw [(h n ω hn).1 i N k e1 e2]
    · have key := h2 ((i, k), (j, l))
      rw [C131_events _ _ _ _ ((measurableSet_bin dom nb i k).inter (measurableSet_bin dom nb j l))] at key
      refine key.congr' ?_
      filter_upwards [eventually_gt_atTop 0] with n hn
      rw [(h n ω hn).2 i j M N k l e1 e2 e3 e4 e5]

section

variable [IsProbabilityMeasure P]

/-- **C143.** Marginals of the solution of an inverse problem whose data are uniform on a rectangle. -/
theorem C143_rectangle {G : Geometry ℝ} (hG : Sound G) {model : Nat → List (List ℝ) → ModelOutput ℝ}
    {f e' : List ℝ → List ℝ} {j : List ℝ → List (List ℝ)} (hm : RowWise model false false f e' j)
    {Q : (Fin d → ℝ) → Fin e → ℝ} (hQ : Measurable Q) (hf : ∀ x, f (List.ofFn x) = List.ofFn (Q x))
    {μ : Measure (Fin d → ℝ)} {X : ℕ → ℕ → Ω → Fin d → ℝ} (hX : RandomSamples P μ X) {parts : Nat}
    (hparts : 0 < parts) {s : ℕ → Ω → Nat → SampleSet ℝ}
    (hs : ∀ n ω, HoldSamples (s n ω) (drawnRows parts n fun r k => X r k ω)) (hdim : 0 < e) {q rs : List ℝ}
    (hq : q.length = e) (hrs : rs.length = e) (hpos : ∀ r ∈ rs, 0 < r) {cells : CellArg} {ns : List Nat}
    (hns : ns.length = e) (hcells : UsedCells cells ns) (hn : ∀ n ∈ ns, 0 < n)
    (hd : 0 < d) {dom : List (ℝ × ℝ)} (hD : ProperBox d dom)
    (hsd : ∀ n ω size, (s n ω size).dim = d ∧ (s n ω size).domain = some dom)
    {nb : List Nat} {nbins : NBins} (hnb : UsedBins d nbins nb) :
    ∃ t, IsRegularPartition t q rs ns ∧ ∀ size > 0, MarginalsTend P d dom nb
      (fun n ω => (inverseProblem G size model e (s n ω size)
        fun ds => regularSize G size ds (some q) (.array rs) cells).bind fun r => calculate1D size nbins (.disc r.2))
      (fun n ω => (inverseProblem G size model e (s n ω size)
        fun ds => regularSize G size ds (some q) (.array rs) cells).bind fun r => calculate2D size nbins (.disc r.2))
      fun A => ∑ c ∈ Finset.range ns.prod, 1 / (ns.prod : ℝ) *
        (μ.real (A ∩ {x | InRectangle t (List.ofFn (Q x)) c}) / μ.real {x | InRectangle t (List.ofFn (Q x)) c}) := by
  obtain ⟨t, ht, hall⟩ := C131_rectangle hG hm hQ hf hX hparts hs hdim hq hrs hpos hns hcells hn
  refine ⟨t, ht, fun size hsize => ?_⟩
  obtain ⟨h1, h2⟩ := hall size hsize
  have hfin : IsProbabilityMeasure μ := (hX.law 0 0).isProbabilityMeasure_iff.1 inferInstance
  refine marginals_tend (fun n ω g hn => h1 n ω g hn) h2 fun n ω hn0 => ?_
  obtain ⟨t', hrt, hreg, heq⟩ := regularSize_eq G hdim hrs hq hpos hns hcells hn
  refine inverse_marginal hG hm hf hparts hn0 (hs n ω) hrt hreg.probabilities ?_ hsize ?_ (hsd n ω size).1
    (hsd n ω size).2 hD hnb hd
  · intro x hx
    rw [List.mem_append] at hx
    rcases hx with hx | hx
    · rw [List.eq_of_mem_replicate hx]; positivity
    · simp at hx; rw [hx]
  · intro D inp out hr
    have hin : (DataSet.disc D).checkInputs size (some q) =
        .ok (⟨(drawnRows parts n fun r k => X r k ω).length, e, some ((drawnRows parts n fun r k => X r k ω).map f)⟩, q) := by
      have hcn : D.checkNums size = .ok (drawnRows parts n fun r k => X r k ω).length := by
        unfold Disc.checkNums
        simp [hr.houtput, hr.hinput, SampleSet.checkNum_consistent hr.houtputC,
          SampleSet.checkNum_consistent hr.hinputC, pure, Except.pure, ok_bind]
      simp only [DataSet.checkInputs, DataSet.orInfer, pure_bind_ok, DataSet.inputs, hcn, ok_bind,
        hr.houtput, orErr_some, hr.houtDim, hr.houtputVals]
      rfl
    exact heq size (.disc D) (some q) _ (.array rs) hin rfl rfl

/-- **C143.** Marginals of the solution of an inverse problem whose data are random data in cells of the user. -/
theorem C143_user {G : Geometry ℝ} (hG : Sound G) {model : Nat → List (List ℝ) → ModelOutput ℝ}
    {f e' : List ℝ → List ℝ} {j : List ℝ → List (List ℝ)} (hm : RowWise model false false f e' j)
    {Q : (Fin d → ℝ) → Fin e → ℝ} (hQ : Measurable Q) (hf : ∀ x, f (List.ofFn x) = List.ofFn (Q x))
    {μ : Measure (Fin d → ℝ)} {X : ℕ → ℕ → Ω → Fin d → ℝ} (hX : RandomSamples P μ X) {parts : Nat}
    (hparts : 0 < parts) {s : ℕ → Ω → Nat → SampleSet ℝ}
    (hs : ∀ n ω, HoldSamples (s n ω) (drawnRows parts n fun r k => X r k ω))
    {ν : Measure (Fin e → ℝ)} {Y : ℕ → ℕ → Ω → Fin e → ℝ} (hY : RandomSamples P ν Y) {parts' : Nat}
    (hparts' : 0 < parts') {M : ℕ → ℕ} (hM : Tendsto M atTop atTop) (hM0 : ∀ n, 0 < M n)
    {samples : List (List ℝ)} (hsa : ∀ row ∈ samples, row.length = e) (hsne : samples ≠ [])
    (hc : ClearCells G (treeSet e samples none) (μ.map Q)) (hc' : ClearCells G (treeSet e samples none) ν)
    {partition distribution : ℕ → Ω → Nat → DataSet ℝ}
    (hpar : ∀ n ω, ∀ size > 0, (partition n ω size).inputs size = .ok ⟨samples.length, e, some samples⟩)
    (hdist : ∀ n ω, ∀ size > 0, (distribution n ω size).inputs size =
      .ok ⟨M n, e, some (drawnRows parts' (M n) fun r k => Y r k ω)⟩)
    (hd : 0 < d) {dom : List (ℝ × ℝ)} (hD : ProperBox d dom)
    (hsd : ∀ n ω size, (s n ω size).dim = d ∧ (s n ω size).domain = some dom)
    {nb : List Nat} {nbins : NBins} (hnb : UsedBins d nbins nb) {size : Nat} (hsize : 0 < size) :
    MarginalsTend P d dom nb
      (fun n ω => (inverseProblem G size model e (s n ω size)
        fun ds => userPartition G size ds (partition n ω size) (distribution n ω size)).bind
          fun r => calculate1D size nbins (.disc r.2))
      (fun n ω => (inverseProblem G size model e (s n ω size)
        fun ds => userPartition G size ds (partition n ω size) (distribution n ω size)).bind
          fun r => calculate2D size nbins (.disc r.2))
      fun A => ∑ c ∈ Finset.range samples.length, ν.real (cellSet e G (treeSet e samples none) c) *
        (μ.real (A ∩ Q ⁻¹' cellSet e G (treeSet e samples none) c) /
          μ.real (Q ⁻¹' cellSet e G (treeSet e samples none) c)) := by
  obtain ⟨h1, h2⟩ := C131_user hG hm hQ hf hX hparts hs hY hparts' hM hM0 hsa hsne hc hc' hpar hdist hsize
  have hfin : IsProbabilityMeasure μ := (hX.law 0 0).isProbabilityMeasure_iff.1 inferInstance
  have hspos : 0 < samples.length := List.length_pos_of_ne_nil hsne
  refine marginals_tend (fun n ω g hn => h1 n ω g hn) h2 fun n ω hn0 => ?_
  set p : List ℝ := (List.range samples.length).map fun i =>
    (hits ((drawnRows parts' (M n) fun r k => Y r k ω).map (G.nn 2 samples)) i : ℝ) / (M n : ℝ) with hp
  refine inverse_marginal (t := treeSet e samples (some p)) hG hm hf hparts hn0 (hs n ω)
    (ready_treeSet hsa hspos (by simp [hp])) rfl ?_ hsize ?_ (hsd n ω size).1 (hsd n ω size).2 hD hnb hd
  · intro x hx
    obtain ⟨i, -, rfl⟩ := List.mem_map.1 hx
    positivity
  · intro D inp out hr
    have hMR : (M n : ℝ) ≠ 0 := by exact_mod_cast (hM0 n).ne'
    have hsR : (size : ℝ) ≠ 0 := by exact_mod_cast hsize.ne'
    have hden : ((M n * size : Nat) : ℝ) ≠ 0 := by
      push_cast; exact mul_ne_zero hMR hsR
    simp only [userPartition, DataSet.dimOf, hr.houtput, orErr_some, ok_bind, pure_bind_ok,
      hpar n ω size hsize, hdist n ω size hsize, hr.houtDim, raiseIf, ne_eq, not_true_eq_false, or_self,
      if_false, binnedSet_ok hsa hspos hden]
    congr 1
    rw [hp]
    congr 2
    refine List.map_congr_left fun i _ => ?_
    rw [List.map_flatten, List.map_replicate, hits_replicate]
    push_cast
    field_simp

/-- **C143.** Marginals of the probabilities that random emulated samples receive. -/
theorem C143_emulated {G : Geometry ℝ} (hG : Sound G) {N m : Nat} {inp out ops : SampleSet ℝ} {y : List (List ℝ)}
    {probs : List ℝ} (hp : ∀ p ∈ probs, 0 ≤ p) {μ : Measure (Fin d → ℝ)} {X : ℕ → ℕ → Ω → Fin d → ℝ}
    (hX : RandomSamples P μ X) (hc : ClearCells G inp μ) {parts : Nat} (hparts : 0 < parts)
    {D : ℕ → Ω → Disc ℝ} {em : ℕ → Ω → SampleSet ℝ}
    (hDisc : ∀ n ω, FreshEm (D n ω) N m n inp out ops (em n ω) y (drawnRows parts n fun r k => X r k ω) probs)
    (hd : 0 < d) {dom : List (ℝ × ℝ)} (hD : ProperBox d dom)
    (hsd : ∀ n ω, (em n ω).dim = d ∧ (em n ω).domain = some dom)
    {nb : List Nat} {nbins : NBins} (hnb : UsedBins d nbins nb) {size : Nat} (hsize : 0 < size) :
    ∃ io, List.Forall₂ (IsCell G ops) y io ∧ MarginalsTend P d dom nb
      (fun n ω => (probOnEmulated G size (D n ω) true).bind fun r => calculate1D size nbins (.disc r))
      (fun n ω => (probOnEmulated G size (D n ω) true).bind fun r => calculate2D size nbins (.disc r))
      fun A => ∑ c ∈ Finset.range m, probs.getD c 0 *
        (μ.real (A ∩ {x | ∃ i, x ∈ cellSet d G inp i ∧ io[i]? = some c}) /
          μ.real {x | ∃ i, x ∈ cellSet d G inp i ∧ io[i]? = some c}) := by
  obtain ⟨io, hio, h1, h2⟩ := C131_emulated hG hp hX hc hparts hDisc hsize
  have hfin : IsProbabilityMeasure μ := (hX.law 0 0).isProbabilityMeasure_iff.1 inferInstance
  refine ⟨io, hio, marginals_tend (fun n ω g _ => h1 n ω g) h2 fun n ω hn0 => ?_⟩
  obtain ⟨d', em', a1, a2, a3, a4, a5, a6, a7, W, a8, a9, a10⟩ := emulated_fresh_full hG (hDisc n ω) size hsize
  have hh : Histo (.disc d') em' (drawnRows parts n fun r k => X r k ω) W.flatten dom nb nbins := by
    refine histo_of (d := d) (Or.inl a2) (Or.inl ⟨_, W, a7, a8, a9, flatten_arraySplit _ _ hsize, rfl⟩)
      (fun r hr => ?_) (a5.trans (hsd n ω).1) (a6.trans (hsd n ω).2) hD hnb hd
    obtain ⟨r, k, rfl⟩ := mem_drawnRows hr
    simp
  obtain ⟨e1, e2⟩ := marginal_mean hh (a5.trans (hsd n ω).1) a3 a10 hsize
  rw [a1]
  simp only [Except.bind, Except.toOption, Option.bind_some, a2]
  exact ⟨e1, e2⟩

end

end BET

namespace BET.Ex

open BET.Spec MeasureTheory ProbabilityTheory Filter Topology

/-- A set with samples and the unit square as domain. -/
def unitSquareSet (v : List (List ℝ)) : SampleSet ℝ :=
  { dim := 2, domain := some [(0, 1), (0, 1)], glob := { values := some v } }

theorem unitSquareSet_consistent (parts n : Nat) (hp : 0 < parts) (X : ℕ → ℕ → Fin 2 → ℝ) :
    Consistent (unitSquareSet (drawnRows parts n X)) n := by
  refine ⟨⟨by rintro _ ⟨⟩; exact length_drawnRows hp n X, nofun, nofun, nofun, nofun, nofun, nofun, nofun, nofun, nofun,
    nofun, nofun, nofun, nofun⟩, fun h => (by cases h.values), ?_⟩
  intro z hz row hrow
  obtain rfl := Option.some.inj hz
  obtain ⟨r, k, rfl⟩ := mem_drawnRows hrow
  exact List.length_ofFn

theorem unitSquareSet_hold (parts n : Nat) (hp : 0 < parts) (X : ℕ → ℕ → Fin 2 → ℝ) :
    HoldSamples (fun _ => unitSquareSet (drawnRows parts n X)) (drawnRows parts n X) :=
  fun _ _ => ⟨by rw [length_drawnRows hp n X]; exact unitSquareSet_consistent parts n hp X, rfl, Or.inl rfl⟩

theorem unitSquare : ProperBox 2 [((0 : ℝ), (1 : ℝ)), (0, 1)] := ⟨rfl, by norm_num⟩

/-- The hypotheses of `C143_rectangle` hold: random samples in the unit square, the sum as model, five bins. -/
example {Ω : Type} [MeasurableSpace Ω] {P : Measure Ω} [IsProbabilityMeasure P] {μ : Measure (Fin 2 → ℝ)}
    {X : ℕ → ℕ → Ω → Fin 2 → ℝ} (hX : RandomSamples P μ X) :=
  C143_rectangle euclid_sound planeRowWise (Q := fun x (_ : Fin 1) => x 0 + x 1) (by fun_prop)
    (fun x => by simp [planeMap]) hX (parts := 3) (by norm_num)
    (s := fun n ω _ => unitSquareSet (drawnRows 3 n fun r k => X r k ω)) (fun n ω => unitSquareSet_hold 3 n (by norm_num) _)
    Nat.one_pos (q := [1]) (rs := [1]) (cells := .scalar 4) (ns := [4]) rfl rfl (by norm_num) rfl rfl (by simp)
    (by norm_num) unitSquare (fun _ _ _ => ⟨rfl, rfl⟩) (nbins := .int 5) (nb := [5, 5])
    ⟨rfl, by simp, Or.inr ⟨5, by norm_num, rfl, rfl⟩⟩

/-- The hypotheses of `C143_user` hold: two data cells, and `n + 1` random data; three and four bins. -/
example {Ω : Type} [MeasurableSpace Ω] {P : Measure Ω} [IsProbabilityMeasure P] {μ : Measure (Fin 2 → ℝ)}
    {X : ℕ → ℕ → Ω → Fin 2 → ℝ} (hX : RandomSamples P μ X) {ν : Measure (Fin 1 → ℝ)} {Y : ℕ → ℕ → Ω → Fin 1 → ℝ}
    (hY : RandomSamples P ν Y)
    (hc : ClearCells euclid (treeSet 1 [[1 / 2], [3 / 2]] none) (μ.map fun x (_ : Fin 1) => x 0 + x 1))
    (hc' : ClearCells euclid (treeSet 1 [[1 / 2], [3 / 2]] none) ν) :=
  C143_user euclid_sound planeRowWise (Q := fun x (_ : Fin 1) => x 0 + x 1) (by fun_prop)
    (fun x => by simp [planeMap]) hX (parts := 3) (by norm_num)
    (s := fun n ω _ => unitSquareSet (drawnRows 3 n fun r k => X r k ω)) (fun n ω => unitSquareSet_hold 3 n (by norm_num) _)
    hY (parts' := 1) Nat.one_pos (M := fun n => n + 1) (tendsto_add_atTop_nat 1) (fun n => Nat.succ_pos n)
    (samples := [[1 / 2], [3 / 2]]) (by simp) (by simp) hc hc'
    (partition := fun _ _ _ => .array 1 [[1 / 2], [3 / 2]])
    (distribution := fun n ω _ => .array 1 (drawnRows 1 (n + 1) fun r k => Y r k ω)) (fun _ _ _ _ => rfl)
    (fun n ω _ _ => by
      have := length_drawnRows Nat.one_pos (n + 1) fun r k => Y r k ω
      simp only [DataSet.inputs, this]
      rfl)
    (by norm_num) unitSquare (fun _ _ _ => ⟨rfl, rfl⟩) (nbins := .arr [3, 4]) (nb := [3, 4])
    ⟨rfl, by simp, Or.inl rfl⟩ (size := 2) (by norm_num)

/-- The hypotheses of `C143_emulated` hold. -/
example {Ω : Type} [MeasurableSpace Ω] {P : Measure Ω} [IsProbabilityMeasure P]
    {X : ℕ → ℕ → Ω → Fin 2 → ℝ} (hX : RandomSamples P (volume.restrict (Set.univ.pi fun _ => Set.Ico (0 : ℝ) 1)) X) :=
  C143_emulated euclid_sound (N := 3) (m := 2) (inp := planeSet)
    (out := { dim := 1, glob := { values := some [[0], [1], [2]] } })
    (ops := { dim := 1, glob := { values := some [[0], [2]], probabilities := some [1 / 4, 3 / 4] } })
    (y := [[0], [1], [2]]) (probs := [1 / 4, 3 / 4]) (by norm_num) hX
    (C130_clear_euclidean rfl rfl (by simp) (by simp) (fun x c => euclid_dist _ x c) _) (parts := 2) (by norm_num)
    (em := fun n ω => unitSquareSet (drawnRows 2 n fun r k => X r k ω))
    (D := fun n ω => {
      input := some planeSet
      output := some { dim := 1, glob := { values := some [[0], [1], [2]] } }
      outputProb := some { dim := 1, glob := { values := some [[0], [2]], probabilities := some [1 / 4, 3 / 4] } }
      emInput := some (unitSquareSet (drawnRows 2 n fun r k => X r k ω)) })
    (fun n ω => ⟨rfl, ⟨SampleSet.consistent_of_checkNum (size := 1) rfl rfl, by norm_num, rfl, Or.inl rfl, nofun, nofun⟩,
      rfl, SampleSet.consistent_of_checkNum (size := 1) rfl rfl, rfl, rfl, rfl,
      ⟨SampleSet.consistent_of_checkNum (size := 1) rfl rfl, by norm_num, rfl, Or.inl rfl, nofun, nofun⟩, rfl, rfl,
      unitSquareSet_consistent 2 n (by norm_num) _, rfl, rfl, rfl, rfl⟩)
    (by norm_num) unitSquare (fun _ _ => ⟨rfl, rfl⟩) (nbins := .int 3) (nb := [3, 3])
    ⟨rfl, by simp, Or.inr ⟨3, by norm_num, rfl, rfl⟩⟩ (size := 4) (by norm_num)

end BET.Ex
