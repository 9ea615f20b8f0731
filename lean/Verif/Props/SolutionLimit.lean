import Verif.Props.Convergence
import Verif.Props.Workflow
import Verif.Props.ProbEmulated

/-!
# C131: computed solutions of the inverse problem converge
-/

set_option linter.unusedSectionVars false
set_option linter.unusedSimpArgs false
set_option autoImplicit false

namespace BET

open Spec MeasureTheory ProbabilityTheory Filter Topology

variable {Ω : Type} [MeasurableSpace Ω] {P : Measure Ω} {d e : Nat}

/-! ## Specification -/

namespace Spec

/-- Samples `X r k` (sample `k` that process `r` draws) with the law `μ`, pairwise independent within each process. -/
structure RandomSamples (P : Measure Ω) (μ : Measure (Fin d → ℝ)) (X : ℕ → ℕ → Ω → Fin d → ℝ) : Prop where
  law : ∀ r k, HasLaw (X r k) μ P
  indep : ∀ r, Pairwise fun j k => IndepFun (X r j) (X r k) P

/-- The first `n` samples that `parts` processes draw, in the order of the processes. -/
def drawnRows (parts n : Nat) (X : ℕ → ℕ → Fin d → ℝ) : List (List ℝ) :=
  ((List.range parts).map fun r => (List.range (numLocal n parts r)).map fun k => List.ofFn (X r k)).flatten

/-- The mean of `g` under the probabilities of a sample set: the probability of every sample times the value of `g`
there. For the indicator of an event it is the total probability of the samples in the event. -/
noncomputable def meanOf (g : (Fin d → ℝ) → ℝ) (s : SampleSet ℝ) : Option ℝ :=
  s.glob.values.bind fun v => s.glob.probabilities.map fun p =>
    (List.zipWith (fun x w => w * g fun j => x.getD j 0) v p).sum

/-- The measure that gives the events `E c` the probabilities `q c` and is proportional to `μ` on each: the mean of
`g`. For the indicator of an event `A` it is the sum of all `q c * μ (A ∩ E c) / μ (E c)` (C131_events). -/
noncomputable def conditionalMean (m : Nat) (q : ℕ → ℝ) (E : ℕ → Set (Fin d → ℝ)) (μ : Measure (Fin d → ℝ))
    (g : (Fin d → ℝ) → ℝ) : ℝ :=
  ∑ c ∈ Finset.range m, q c * ((∫ x in E c, g x ∂μ) / μ.real (E c))

end Spec

/-- **C131.** The limits of the properties below, for an event. -/
theorem C131_events (m : Nat) (q : ℕ → ℝ) (E : ℕ → Set (Fin d → ℝ)) (μ : Measure (Fin d → ℝ)) {A : Set (Fin d → ℝ)}
    (hA : MeasurableSet A) :
    conditionalMean m q E μ (A.indicator 1) = ∑ c ∈ Finset.range m, q c * (μ.real (A ∩ E c) / μ.real (E c)) := by
  unfold conditionalMean
  refine Finset.sum_congr rfl fun c _ => ?_
  rw [integral_indicator_one hA, measureReal_restrict_apply hA]

/-- **C131.** The limit is consistent with the data: if the events do not overlap and each has a positive measure,
event `E c` has the probability `q c`, and the total probability is the sum of all `q c`. -/
theorem C131_consistent (m : Nat) (q : ℕ → ℝ) {E : ℕ → Set (Fin d → ℝ)} {μ : Measure (Fin d → ℝ)}
    [IsProbabilityMeasure μ] (hpos : ∀ c < m, μ (E c) ≠ 0) :
    conditionalMean m q E μ (Set.univ.indicator 1) = ∑ c ∈ Finset.range m, q c ∧
    ∀ c < m, MeasurableSet (E c) → (∀ c' < m, c' ≠ c → μ (E c ∩ E c') = 0) →
      conditionalMean m q E μ ((E c).indicator 1) = q c := by
  have hne : ∀ c < m, μ.real (E c) ≠ 0 := fun c hc =>
    ENNReal.toReal_ne_zero.2 ⟨hpos c hc, measure_ne_top _ _⟩
  refine ⟨?_, fun c hc hm hdis => ?_⟩
  · rw [C131_events _ _ _ _ MeasurableSet.univ]
    refine Finset.sum_congr rfl fun c hc => ?_
    rw [Set.univ_inter, div_self (hne c (Finset.mem_range.1 hc)), mul_one]
  · rw [C131_events _ _ _ _ hm, Finset.sum_eq_single c]
    · rw [Set.inter_self, div_self (hne c hc), mul_one]
    · intro c' hc' hcc
      rw [Measure.real, hdis c' (Finset.mem_range.1 hc') hcc]
      simp
    · intro h; exact absurd (Finset.mem_range.2 hc) h

/-! ## Weights of rows -/

theorem getD_ofFn (x : Fin d → ℝ) : (fun j : Fin d => (List.ofFn x).getD j 0) = x := by
  funext j
  rw [List.getD_eq_getElem?_getD]
  simp

theorem sum_drawnRows (parts n : Nat) (X : ℕ → ℕ → Fin d → ℝ) (F : List ℝ → ℝ) :
    ((drawnRows parts n X).map F).sum = ∑ rk ∈ drawSet parts n, F (List.ofFn (X rk.1 rk.2)) := by
  rw [drawSet, Finset.sum_sigma]
  unfold drawnRows
  have hone : ∀ r k, ((List.range k).map fun j => F (List.ofFn (X r j))).sum =
      ∑ j ∈ Finset.range k, F (List.ofFn (X r j)) := by
    intro r k
    induction k with
    | zero => simp
    | succ k ih => rw [List.range_succ, List.map_append, List.sum_append, Finset.sum_range_succ, ← ih]; simp
  have key : ∀ m, (((((List.range m).map fun r => (List.range (numLocal n parts r)).map fun k =>
      List.ofFn (X r k)).flatten).map F).sum : ℝ) =
      ∑ r ∈ Finset.range m, ∑ k ∈ Finset.range (numLocal n parts r), F (List.ofFn (X r k)) := by
    intro m
    induction m with
    | zero => simp
    | succ m ih =>
      rw [List.range_succ, List.map_append, List.flatten_append, List.map_append, List.sum_append, ih,
        Finset.sum_range_succ]
      congr 1
      rw [List.map_cons, List.map_nil, List.flatten_cons, List.flatten_nil, List.append_nil, List.map_map, ← hone]
      rfl
  exact key parts

theorem length_drawnRows {parts : Nat} (hp : 0 < parts) (n : Nat) (X : ℕ → ℕ → Fin d → ℝ) :
    (drawnRows parts n X).length = n := length_drawn hp n _

theorem hits_drawnRows (parts n : Nat) (X : ℕ → ℕ → Fin d → ℝ) (c : List ℝ → Nat) (i : Nat) :
    (hits ((drawnRows parts n X).map c) i : ℝ) =
      ∑ rk ∈ drawSet parts n, ind {x | c (List.ofFn x) = i} (X rk.1 rk.2) := by
  rw [drawSet, Finset.sum_sigma]
  exact hits_drawn parts n X c i

theorem mem_drawnRows {parts n : Nat} {X : ℕ → ℕ → Fin d → ℝ} {row : List ℝ} (h : row ∈ drawnRows parts n X) :
    ∃ r k, row = List.ofFn (X r k) := by
  unfold drawnRows at h
  obtain ⟨l, hl, hrow⟩ := List.mem_flatten.1 h
  obtain ⟨r, -, rfl⟩ := List.mem_map.1 hl
  obtain ⟨k, -, rfl⟩ := List.mem_map.1 hrow
  exact ⟨r, k, rfl⟩

/-- The mean when the weights are shares. -/
theorem meanOf_shares {s : SampleSet ℝ} {parts n : Nat} {X : ℕ → ℕ → Fin d → ℝ} {p : ℕ → ℝ} {c : List ℝ → Nat}
    (hv : s.glob.values = some (drawnRows parts n X))
    (hp : s.glob.probabilities = some ((drawnRows parts n X).map fun x =>
      p (c x) / (hits ((drawnRows parts n X).map c) (c x) : ℝ))) (g : (Fin d → ℝ) → ℝ) :
    meanOf g s = some (∑ rk ∈ drawSet parts n, p (c (List.ofFn (X rk.1 rk.2))) /
      (∑ rj ∈ drawSet parts n, ind {x | c (List.ofFn x) = c (List.ofFn (X rk.1 rk.2))} (X rj.1 rj.2)) *
        g (X rk.1 rk.2)) := by
  unfold meanOf
  rw [hv, hp, Option.bind_some, Option.map_some]
  congr 1
  have : List.zipWith (fun x w => w * g fun j => x.getD j 0) (drawnRows parts n X)
      ((drawnRows parts n X).map fun x => p (c x) / (hits ((drawnRows parts n X).map c) (c x) : ℝ)) =
      (drawnRows parts n X).map fun x =>
        p (c x) / (hits ((drawnRows parts n X).map c) (c x) : ℝ) * g fun j => x.getD j 0 := by
    rw [List.zipWith_map_right, List.zipWith_self]
  rw [this, sum_drawnRows]
  refine Finset.sum_congr rfl fun rk _ => ?_
  rw [hits_drawnRows, getD_ofFn]

section
variable [IsProbabilityMeasure P]

/-! ## Emulated samples -/

/-- **C131.** `prob_on_emulated_samples` on a new discretization with fixed input cells and more and more random
emulated samples (drawn by any number `parts` of processes) on any number of processes: the computed mean of every
integrable function, and so the probability of every event, tends with probability one to that of the measure which
gives the event `E c`, made of the input cells whose outputs lie in cell `c` of the output measure, the probability of
cell `c`, and is proportional to the law of the emulated samples there. -/
theorem C131_emulated {G : Geometry ℝ} (hG : Sound G) {N m : Nat} {inp out ops : SampleSet ℝ} {y : List (List ℝ)}
    {probs : List ℝ} (hp : ∀ p ∈ probs, 0 ≤ p) {μ : Measure (Fin d → ℝ)} {X : ℕ → ℕ → Ω → Fin d → ℝ}
    (hX : RandomSamples P μ X) (hc : ClearCells G inp μ) {parts : Nat} (hparts : 0 < parts)
    {D : ℕ → Ω → Disc ℝ} {em : ℕ → Ω → SampleSet ℝ}
    (hD : ∀ n ω, FreshEm (D n ω) N m n inp out ops (em n ω) y (drawnRows parts n fun r k => X r k ω) probs)
    {size : Nat} (hsize : 0 < size) :
    ∃ io, List.Forall₂ (IsCell G ops) y io ∧
      (∀ n ω (g : (Fin d → ℝ) → ℝ), (((probOnEmulated G size (D n ω) true).toOption.bind
        (·.emInput)).bind (meanOf g)).isSome) ∧
      ∀ g : (Fin d → ℝ) → ℝ, Integrable g μ → ∀ᵐ ω ∂P, Tendsto (fun n =>
        (((probOnEmulated G size (D n ω) true).toOption.bind (·.emInput)).bind (meanOf g)).getD 0) atTop
        (𝓝 (conditionalMean m (fun c => probs.getD c 0)
          (fun c => {x | ∃ i, x ∈ cellSet d G inp i ∧ io[i]? = some c}) μ g)) := by
  have f := hD 0 (Classical.choice (nonempty_of_isProbabilityMeasure P))
  have hy : y.length = N := f.houtputC.1.values y f.houtVals
  set io := y.map (ops.cell G) with hio
  set c : List ℝ → Nat := fun x => io.getD (inp.cell G x) 0 with hcdef
  have hlt : ∀ x, inp.cell G x < io.length := fun x => by
    rw [hio, List.length_map, hy]; exact SampleSet.cell_lt hG f.hready x
  have hget : ∀ x, io[inp.cell G x]? = some (c x) := fun x => by
    rw [hcdef]
    simp only [List.getD_eq_getElem?_getD, List.getElem?_eq_getElem (hlt x), Option.getD_some]
  have hcm : ∀ x, c x < m := fun x => by
    have := List.mem_of_getElem? (hget x)
    rw [hio] at this
    obtain ⟨z, -, hz⟩ := List.mem_map.1 this
    rw [← hz]
    exact SampleSet.cell_lt hG f.hopsReady z
  have hmean : ∀ n ω (g : (Fin d → ℝ) → ℝ), ((probOnEmulated G size (D n ω) true).toOption.bind
      (·.emInput)).bind (meanOf g) = some (∑ rk ∈ drawSet parts n, probs.getD (c (List.ofFn (X rk.1 rk.2 ω))) 0 /
      (∑ rj ∈ drawSet parts n, ind {x | c (List.ofFn x) = c (List.ofFn (X rk.1 rk.2 ω))} (X rj.1 rj.2 ω)) *
        g (X rk.1 rk.2 ω)) := by
    intro n ω g
    obtain ⟨d', em', h1, h2, h3, h4⟩ := C04_emulated_fresh hG (hD n ω) size hsize
    rw [h1]
    simp only [Except.toOption, Option.bind_some, h2]
    refine meanOf_shares (X := fun r k => X r k ω) (p := fun i => probs.getD i 0) (c := c) h3 ?_ g
    rw [h4]
    congr 1
    refine List.map_congr_left fun x _ => ?_
    show (if 0 < probs.getD (c x) 0 then _ else _) = _
    by_cases hpos : 0 < probs.getD (c x) 0
    · rw [if_pos hpos]
    · rw [if_neg hpos]
      have h0 : probs.getD (c x) 0 = 0 := by
        refine le_antisymm (not_lt.1 hpos) ?_
        by_cases hl : c x < probs.length
        · rw [List.getD_eq_getElem?_getD, List.getElem?_eq_getElem hl]
          exact hp _ (List.getElem_mem hl)
        · rw [List.getD_eq_getElem?_getD, List.getElem?_eq_none (not_lt.1 hl)]; rfl
      rw [h0, zero_div]
  refine ⟨io, ?_, fun n ω g => by rw [hmean]; rfl, fun g hg => ?_⟩
  · rw [hio, List.forall₂_map_right_iff, List.forall₂_same]
    exact fun x _ => SampleSet.cell_isCell hG f.hopsReady x
  have hEL : ∀ i, {x : Fin d → ℝ | ∃ j, x ∈ cellSet d G inp j ∧ io[j]? = some i} =ᵐ[μ]
      {x : Fin d → ℝ | c (List.ofFn x) = i} := by
    intro i
    filter_upwards [hc.one] with x hx
    refine propext ⟨?_, ?_⟩
    · rintro ⟨j, hj, hj'⟩
      have hj : IsCell G inp (List.ofFn x) j := hj
      have := hx _ _ hj (SampleSet.cell_isCell hG f.hready (List.ofFn x))
      rw [this, hget] at hj'
      exact Option.some.inj hj'
    · intro h
      have h : c (List.ofFn x) = i := h
      exact ⟨_, SampleSet.cell_isCell hG f.hready (List.ofFn x), by rw [hget, h]⟩
  have hL : ∀ i, NullMeasurableSet {x : Fin d → ℝ | c (List.ofFn x) = i} μ := by
    intro i
    refine NullMeasurableSet.congr ?_ (hEL i)
    have : {x : Fin d → ℝ | ∃ j, x ∈ cellSet d G inp j ∧ io[j]? = some i} =
        ⋃ j ∈ {j | io[j]? = some i}, cellSet d G inp j := by
      ext x; simp [and_comm]
    rw [this]
    exact NullMeasurableSet.biUnion (Set.to_countable _) fun j _ => hc.meas j
  have hlim := shares_mean hparts hX.law hX.indep hg (L := fun x => c (List.ofFn x)) hL fun x => hcm _
  filter_upwards [hlim] with ω hω
  have h := hω (fun _ i => probs.getD i 0) (fun i => probs.getD i 0) fun i _ => tendsto_const_nhds
  simp only [hmean, Option.getD_some]
  unfold conditionalMean
  simp only [setIntegral_congr_set (hEL _), measureReal_congr (hEL _)]
  exact h

/-! ## The whole inverse problem -/

namespace Spec

/-- The mean of `g` under the solution that a computation returns. -/
noncomputable def solutionMean (g : (Fin d → ℝ) → ℝ) (r : Except Err (SampleSet ℝ × Disc ℝ)) : Option ℝ :=
  (r.toOption.bind fun q => q.2.input).bind (meanOf g)

end Spec

theorem inverse_mean {G : Geometry ℝ} (hG : Sound G) {model : Nat → List (List ℝ) → ModelOutput ℝ}
    {f e' : List ℝ → List ℝ} {j : List ℝ → List (List ℝ)} (hm : RowWise model false false f e' j)
    {Q : (Fin d → ℝ) → Fin e → ℝ} (hf : ∀ x, f (List.ofFn x) = List.ofFn (Q x))
    {X : ℕ → ℕ → Fin d → ℝ} {parts : Nat} (hparts : 0 < parts) {s : Nat → SampleSet ℝ} {n : Nat} (hn : 0 < n)
    (hs : HoldSamples s (drawnRows parts n X)) {t : SampleSet ℝ} {m : Nat} (ht : Ready t m) {p : List ℝ}
    (hp : t.glob.probabilities = some p) (hp0 : ∀ x ∈ p, 0 ≤ x) {size : Nat} (hsize : 0 < size)
    {measure : DataSet ℝ → Except Err (SampleSet ℝ × DataSet ℝ)}
    (hmeas : ∀ D inp out, RanDisc size D (drawnRows parts n X) f e inp out →
      measure (.disc D) = (DataSet.disc D).attach G size t) (g : (Fin d → ℝ) → ℝ) :
    solutionMean g (inverseProblem G size model e (s size) measure) =
      some (∑ rk ∈ drawSet parts n, p.getD (t.cell G (f (List.ofFn (X rk.1 rk.2)))) 0 /
      (∑ rj ∈ drawSet parts n, ind {x | t.cell G (f (List.ofFn x)) = t.cell G (f (List.ofFn (X rk.1 rk.2)))}
        (X rj.1 rj.2)) * g (X rk.1 rk.2)) := by
  set c : List ℝ → Nat := fun x => t.cell G (f x) with hcdef
  set v := drawnRows parts n X with hv
  have hvl : v.length = n := length_drawnRows hparts n _
  have hne : v ≠ [] := by
    intro h; rw [h] at hvl; simp at hvl; omega
  have hrow : ∀ row ∈ v, (f row).length = e := by
    intro row hr
    obtain ⟨r, k, rfl⟩ := mem_drawnRows hr
    rw [hf]; simp
  obtain ⟨a1, a2, a3⟩ := hs size hsize
  obtain ⟨D, inp, out, hD, hr⟩ := sampleAndRun_ok hsize hm a1 a2 hne a3 hrow
  obtain ⟨ps, d', inp', W, b1, -, -, -, -, b5, b6, b7, b8⟩ :=
    inverse_of_attach hG hsize hne hD hr ht hp hp0 (measure := measure) (hmeas D inp out hr)
  have hW : W = v.map fun x => p.getD (c x) 0 / (hits (v.map c) (c x) : ℝ) := by
    apply List.ext_getElem?
    intro k
    by_cases hk : k < v.length
    · rw [b8.share k (c v[k]) (by rw [List.getElem?_map, List.getElem?_eq_getElem hk]; rfl),
        List.getElem?_map, List.getElem?_eq_getElem hk]
      rfl
    · rw [List.getElem?_eq_none (by rw [b8.length]; omega), List.getElem?_eq_none (by simp; omega)]
  unfold solutionMean
  rw [b1]
  simp only [Except.toOption, Option.bind_some, b5]
  exact meanOf_shares (X := X) (p := fun i => p.getD i 0) (c := c) b6 (by rw [b7, hW]) g

theorem inverse_limit {G : Geometry ℝ} (hG : Sound G) {model : Nat → List (List ℝ) → ModelOutput ℝ}
    {f e' : List ℝ → List ℝ} {j : List ℝ → List (List ℝ)} (hm : RowWise model false false f e' j)
    {Q : (Fin d → ℝ) → Fin e → ℝ} (hQ : Measurable Q) (hf : ∀ x, f (List.ofFn x) = List.ofFn (Q x))
    {μ : Measure (Fin d → ℝ)} {X : ℕ → ℕ → Ω → Fin d → ℝ} (hX : RandomSamples P μ X) {parts : Nat}
    (hparts : 0 < parts) {s : ℕ → Ω → Nat → SampleSet ℝ}
    (hs : ∀ n ω, HoldSamples (s n ω) (drawnRows parts n fun r k => X r k ω)) {t : SampleSet ℝ} {m : Nat}
    (ht : Ready t m) (hc : ClearCells G t (μ.map Q)) {p : ℕ → Ω → List ℝ} {T : ℕ → Ω → SampleSet ℝ}
    {measure : ℕ → Ω → Nat → DataSet ℝ → Except Err (SampleSet ℝ × DataSet ℝ)}
    (hT : ∀ n ω, 0 < n → Ready (T n ω) m ∧ (T n ω).cell G = t.cell G ∧
      (T n ω).glob.probabilities = some (p n ω) ∧ (∀ x ∈ p n ω, 0 ≤ x) ∧
      ∀ size > 0, ∀ D inp out, RanDisc size D (drawnRows parts n fun r k => X r k ω) f e inp out →
        measure n ω size (.disc D) = (DataSet.disc D).attach G size (T n ω)) {size : Nat} (hsize : 0 < size) :
    (∀ n ω (g : (Fin d → ℝ) → ℝ), 0 < n →
      (solutionMean g (inverseProblem G size model e (s n ω size) (measure n ω size))).isSome) ∧
    ∀ g : (Fin d → ℝ) → ℝ, Integrable g μ → ∀ᵐ ω ∂P, ∀ q : ℕ → ℝ,
      (∀ c < m, Tendsto (fun n => (p n ω).getD c 0) atTop (𝓝 (q c))) →
      Tendsto (fun n => (solutionMean g (inverseProblem G size model e (s n ω size) (measure n ω size))).getD 0)
        atTop (𝓝 (conditionalMean m q (fun c => Q ⁻¹' cellSet e G t c) μ g)) := by
  set c : List ℝ → Nat := fun x => t.cell G (f x) with hcdef
  have hmean : ∀ n ω (g : (Fin d → ℝ) → ℝ), 0 < n →
      solutionMean g (inverseProblem G size model e (s n ω size) (measure n ω size)) =
      some (∑ rk ∈ drawSet parts n, (p n ω).getD (c (List.ofFn (X rk.1 rk.2 ω))) 0 /
      (∑ rj ∈ drawSet parts n, ind {x | c (List.ofFn x) = c (List.ofFn (X rk.1 rk.2 ω))} (X rj.1 rj.2 ω)) *
        g (X rk.1 rk.2 ω)) := by
    intro n ω g hn
    obtain ⟨h1, h2, h3, h4, h5⟩ := hT n ω hn
    have h := inverse_mean hG hm hf hparts hn (hs n ω) h1 h3 h4 hsize (measure := measure n ω size) (h5 size hsize) g
    rw [h2] at h
    exact h
  refine ⟨fun n ω g hn => by rw [hmean n ω g hn]; rfl, fun g hg => ?_⟩
  have hQae : AEMeasurable Q μ := hQ.aemeasurable
  have hEL : ∀ i, Q ⁻¹' cellSet e G t i =ᵐ[μ] {x : Fin d → ℝ | c (List.ofFn x) = i} := by
    intro i
    have := ae_of_ae_map hQae (cell_ae hG ht hc i)
    filter_upwards [this] with x hx
    have hx : (Q x ∈ {y : Fin e → ℝ | t.cell G (List.ofFn y) = i}) = (Q x ∈ cellSet e G t i) := hx
    show (Q x ∈ cellSet e G t i) = (t.cell G (f (List.ofFn x)) = i)
    rw [← hx, hf]
    rfl
  have hL : ∀ i, NullMeasurableSet {x : Fin d → ℝ | c (List.ofFn x) = i} μ := fun i =>
    NullMeasurableSet.congr ((hc.meas i).preimage ⟨hQ, Measure.AbsolutelyContinuous.rfl⟩) (hEL i)
  have hlim := shares_mean hparts hX.law hX.indep hg (L := fun x => c (List.ofFn x)) hL (m := m) fun x =>
    SampleSet.cell_lt hG ht _
  filter_upwards [hlim] with ω hω q hq
  have h := hω (fun n i => (p n ω).getD i 0) q hq
  unfold conditionalMean
  simp only [setIntegral_congr_set (hEL _), measureReal_congr (hEL _)]
  refine h.congr' ?_
  filter_upwards [eventually_gt_atTop 0] with n hn
  rw [hmean n ω g hn]
  rfl

/-- The cells of a regular partition are its boxes. -/
theorem cellSet_regular {G : Geometry ℝ} {t : SampleSet ℝ} {q rs : List ℝ} {ns : List Nat}
    (hr : Ready t (ns.prod + 1)) (hreg : IsRegularPartition t q rs ns) (hns : ns.length = e) {c : Nat}
    (hc : c < ns.prod) : cellSet e G t c = {y | InRectangle t (List.ofFn y) c} := by
  obtain ⟨w, hw⟩ := Option.isSome_iff_exists.mp hr.values
  obtain ⟨⟨r, hR⟩, ⟨l, hL⟩⟩ := (hr.rect hreg.kind).imp Option.isSome_iff_exists.mp
    Option.isSome_iff_exists.mp
  have hwl := hr.consistent.1.values w hw
  have hInR : ∀ (x : List ℝ) j, InRectangle t x j ↔
      ∃ a b, l[j]? = some a ∧ r[j]? = some b ∧ InBox a b x := by
    intro x j
    unfold InRectangle
    constructor
    · rintro ⟨l', r', a, b, h1, h2, h3, h4, h5⟩
      rw [hL] at h1; rw [hR] at h2
      cases h1; cases h2
      exact ⟨a, b, h3, h4, h5⟩
    · rintro ⟨a, b, h3, h4, h5⟩
      exact ⟨l, r, a, b, hL, hR, h3, h4, h5⟩
  ext y
  have hcell : y ∈ cellSet e G t c ↔ IsFirst ns.prod (fun j => InRectangle t (List.ofFn y) j) c := by
    show IsCell G t (List.ofFn y) c ↔ _
    unfold IsCell
    rw [hreg.kind]
    simp only [hw, hR, hL, Option.some.injEq]
    constructor
    · intro h
      have := h w r l rfl rfl rfl
      rw [hwl, Nat.add_sub_cancel] at this
      simpa only [hInR] using this
    · rintro h _ _ _ rfl rfl rfl
      rw [hwl, Nat.add_sub_cancel]
      simpa only [hInR] using h
  rw [hcell]
  show _ ↔ InRectangle t (List.ofFn y) c
  obtain ⟨t1, t2⟩ := hreg.tiles (List.ofFn y) (by simp [hns])
  constructor
  · rintro (⟨-, h, -⟩ | ⟨h, -⟩)
    · exact h
    · omega
  · intro h
    refine Or.inl ⟨hc, h, fun j hj hj' => ?_⟩
    by_cases hin : InRect q rs (List.ofFn y)
    · obtain ⟨i, -, hi⟩ := t1 hin
      have e1 := hi j ⟨by omega, hj'⟩
      have e2 := hi c ⟨hc, h⟩
      omega
    · exact t2 hin c hc h

/-- **C131.** The whole inverse problem with a regular partition of a rectangle in the data space: random samples
(drawn by any number `parts` of processes), the model, the partition with equal probabilities of its boxes, and
`calculateP.prob`, on any number of processes. With more and more samples the computed mean of every integrable
function, and so the probability of every event, tends with probability one to that of the measure which gives the
inverse image of every box under the model the same probability, and is proportional to the law of the samples
there. -/
theorem C131_rectangle {G : Geometry ℝ} (hG : Sound G) {model : Nat → List (List ℝ) → ModelOutput ℝ}
    {f e' : List ℝ → List ℝ} {j : List ℝ → List (List ℝ)} (hm : RowWise model false false f e' j)
    {Q : (Fin d → ℝ) → Fin e → ℝ} (hQ : Measurable Q) (hf : ∀ x, f (List.ofFn x) = List.ofFn (Q x))
    {μ : Measure (Fin d → ℝ)} {X : ℕ → ℕ → Ω → Fin d → ℝ} (hX : RandomSamples P μ X) {parts : Nat}
    (hparts : 0 < parts) {s : ℕ → Ω → Nat → SampleSet ℝ}
    (hs : ∀ n ω, HoldSamples (s n ω) (drawnRows parts n fun r k => X r k ω)) (hdim : 0 < e) {q rs : List ℝ}
    (hq : q.length = e) (hrs : rs.length = e) (hpos : ∀ r ∈ rs, 0 < r) {cells : CellArg} {ns : List Nat}
    (hns : ns.length = e) (hcells : UsedCells cells ns) (hn : ∀ n ∈ ns, 0 < n) :
    ∃ t, IsRegularPartition t q rs ns ∧ ∀ size > 0,
      (∀ n ω (g : (Fin d → ℝ) → ℝ), 0 < n → (solutionMean g (inverseProblem G size model e (s n ω size)
        fun ds => regularSize G size ds (some q) (.array rs) cells)).isSome) ∧
      ∀ g : (Fin d → ℝ) → ℝ, Integrable g μ → ∀ᵐ ω ∂P, Tendsto (fun n =>
        (solutionMean g (inverseProblem G size model e (s n ω size)
          fun ds => regularSize G size ds (some q) (.array rs) cells)).getD 0) atTop
        (𝓝 (conditionalMean ns.prod (fun _ => 1 / ns.prod)
          (fun c => {x | InRectangle t (List.ofFn (Q x)) c}) μ g)) := by
  obtain ⟨t, hrt, hreg, heq⟩ := regularSize_eq G hdim hrs hq hpos hns hcells hn
  obtain ⟨w, hw⟩ := Option.isSome_iff_exists.mp hrt.values
  obtain ⟨⟨r, hR⟩, ⟨l, hL⟩⟩ := (hrt.rect hreg.kind).imp Option.isSome_iff_exists.mp
    Option.isSome_iff_exists.mp
  have hc : ClearCells (d := e) G t (μ.map Q) := C130_clear_rectangles hreg.kind hw hR hL _
  refine ⟨t, hreg, fun size hsize => ?_⟩
  obtain ⟨h1, h2⟩ := inverse_limit hG hm hQ hf hX hparts hs hrt hc
    (p := fun _ _ => List.replicate ns.prod (1 / (ns.prod : ℝ)) ++ [0]) (T := fun _ _ => t)
    (measure := fun _ _ size ds => regularSize G size ds (some q) (.array rs) cells)
    (fun n ω hn => ⟨hrt, rfl, hreg.probabilities, by
      intro x hx
      rw [List.mem_append] at hx
      rcases hx with hx | hx
      · rw [List.eq_of_mem_replicate hx]; positivity
      · simp at hx; rw [hx], by
      intro size hsize D inp out hr
      have hin : (DataSet.disc D).checkInputs size (some q) =
          .ok (⟨(drawnRows parts n fun r k => X r k ω).length, e, some ((drawnRows parts n fun r k => X r k ω).map f)⟩, q) := by
        have hcn : D.checkNums size = .ok (drawnRows parts n fun r k => X r k ω).length := by
          unfold Disc.checkNums
          simp [hr.houtput, hr.hinput, SampleSet.checkNum_consistent hr.houtputC,
            SampleSet.checkNum_consistent hr.hinputC, pure, Except.pure, ok_bind]
        simp only [DataSet.checkInputs, DataSet.orInfer, pure_bind_ok, DataSet.inputs, hcn, ok_bind,
          hr.houtput, orErr_some, hr.houtDim, hr.houtputVals]
        rfl
      exact heq size (.disc D) (some q) _ (.array rs) hin rfl rfl⟩) hsize
  refine ⟨h1, fun g hg => ?_⟩
  filter_upwards [h2 g hg] with ω hω
  have h := hω _ fun c _ => tendsto_const_nhds
  have hlim : conditionalMean (ns.prod + 1)
      (fun c => (List.replicate ns.prod (1 / (ns.prod : ℝ)) ++ [0]).getD c 0)
      (fun c => Q ⁻¹' cellSet e G t c) μ g =
      conditionalMean ns.prod (fun _ => 1 / (ns.prod : ℝ)) (fun c => {x | InRectangle t (List.ofFn (Q x)) c}) μ g := by
    unfold conditionalMean
    rw [Finset.sum_range_succ]
    have hlast : (List.replicate ns.prod (1 / (ns.prod : ℝ)) ++ [0]).getD ns.prod 0 = 0 := by
      rw [List.getD_eq_getElem?_getD, List.getElem?_append_right (by simp)]
      simp
    dsimp only
    rw [hlast, zero_mul, add_zero]
    refine Finset.sum_congr rfl fun c hc => ?_
    have hc := Finset.mem_range.1 hc
    rw [cellSet_regular hrt hreg hns hc, List.getD_eq_getElem?_getD, List.getElem?_append_left (by simpa using hc)]
    simp only [List.getElem?_replicate, hc, if_true, Option.getD_some]
    rfl
  rw [← hlim]
  exact h

/-- **C131.** The whole inverse problem with `user_partition_user_distribution`: the data space is cut into the
Voronoi cells of given samples, their probabilities are the shares of `M n` random data with the law `ν`, and `n`
random input samples with the law `μ` are used. If the numbers of data grow without bound, then with more and more
input samples the computed mean of every integrable function, and so the probability of every event, tends with
probability one to that of the measure which gives the inverse image of every cell under the model the probability
`ν` of the cell, and is proportional to `μ` there. -/
theorem C131_user {G : Geometry ℝ} (hG : Sound G) {model : Nat → List (List ℝ) → ModelOutput ℝ}
    {f e' : List ℝ → List ℝ} {j : List ℝ → List (List ℝ)} (hm : RowWise model false false f e' j)
    {Q : (Fin d → ℝ) → Fin e → ℝ} (hQ : Measurable Q) (hf : ∀ x, f (List.ofFn x) = List.ofFn (Q x))
    {μ : Measure (Fin d → ℝ)} {X : ℕ → ℕ → Ω → Fin d → ℝ} (hX : RandomSamples P μ X) {parts : Nat}
    (hparts : 0 < parts) {s : ℕ → Ω → Nat → SampleSet ℝ}
    (hs : ∀ n ω, HoldSamples (s n ω) (drawnRows parts n fun r k => X r k ω))
    {ν : Measure (Fin e → ℝ)} {Y : ℕ → ℕ → Ω → Fin e → ℝ} (hY : RandomSamples P ν Y) {parts' : Nat}
    (hparts' : 0 < parts') {M : ℕ → ℕ} (hM : Tendsto M atTop atTop) (hM0 : ∀ n, 0 < M n)
    {samples : List (List ℝ)} (hsa : ∀ row ∈ samples, row.length = e) (hsne : samples ≠ [])
    (hc : ClearCells G (treeSet e samples none) (μ.map Q)) (hc' : ClearCells G (treeSet e samples none) ν)
    {partition distribution : ℕ → Ω → Nat → DataSet ℝ}
    (hpar : ∀ n ω, ∀ size > 0, (partition n ω size).inputs size = .ok ⟨samples.length, e, some samples⟩)
    (hdist : ∀ n ω, ∀ size > 0, (distribution n ω size).inputs size =
      .ok ⟨M n, e, some (drawnRows parts' (M n) fun r k => Y r k ω)⟩) {size : Nat} (hsize : 0 < size) :
    (∀ n ω (g : (Fin d → ℝ) → ℝ), 0 < n → (solutionMean g (inverseProblem G size model e (s n ω size)
      fun ds => userPartition G size ds (partition n ω size) (distribution n ω size))).isSome) ∧
    ∀ g : (Fin d → ℝ) → ℝ, Integrable g μ → ∀ᵐ ω ∂P, Tendsto (fun n =>
      (solutionMean g (inverseProblem G size model e (s n ω size)
        fun ds => userPartition G size ds (partition n ω size) (distribution n ω size))).getD 0) atTop
      (𝓝 (conditionalMean samples.length (fun c => ν.real (cellSet e G (treeSet e samples none) c))
        (fun c => Q ⁻¹' cellSet e G (treeSet e samples none) c) μ g)) := by
  have hspos : 0 < samples.length := List.length_pos_of_ne_nil hsne
  set p : ℕ → Ω → List ℝ := fun n ω => (List.range samples.length).map fun i =>
    (hits ((drawnRows parts' (M n) fun r k => Y r k ω).map (G.nn 2 samples)) i : ℝ) / (M n : ℝ) with hp
  set t := treeSet e samples (none : Option (List ℝ)) with ht
  have hrt : Ready t samples.length := by
    have h := ready_treeSet hsa hspos (p := samples.map fun _ => (0 : ℝ)) (by simp)
    refine ⟨⟨?_, fun h => (by cases h.values), h.consistent.2.2⟩, hspos, rfl, Or.inr rfl, nofun, nofun⟩
    have h1 := h.consistent.1
    exact ⟨h1.values, h1.volumes, nofun, h1.densities, h1.jacobians, h1.errorEstimates, h1.right, h1.left, h1.width, h1.kdtreeValues,
      h1.radii, h1.normalizedRadii, h1.region, h1.errorId⟩
  obtain ⟨h1, h2⟩ := inverse_limit hG hm hQ hf hX hparts hs hrt hc (p := p)
    (T := fun n ω => treeSet e samples (some (p n ω)))
    (measure := fun n ω size ds => userPartition G size ds (partition n ω size) (distribution n ω size))
    (fun n ω _ => ⟨ready_treeSet hsa hspos (by simp [hp]), rfl, rfl, by
      intro x hx
      obtain ⟨i, -, rfl⟩ := List.mem_map.1 hx
      positivity, by
      intro size hsize D inp out hr
      have hMR : (M n : ℝ) ≠ 0 := by exact_mod_cast (hM0 n).ne'
      have hsR : (size : ℝ) ≠ 0 := by exact_mod_cast hsize.ne'
      have hden : ((M n * size : Nat) : ℝ) ≠ 0 := by
        push_cast; exact mul_ne_zero hMR hsR
      simp only [userPartition, DataSet.dimOf, hr.houtput, orErr_some, ok_bind, pure_bind_ok,
        hpar n ω size hsize, hdist n ω size hsize, hr.houtDim, raiseIf, ne_eq, not_true_eq_false, or_self,
        if_false, binnedSet_ok hsa hspos hden]
      congr 1
      rw [hp]
      congr 2
      refine List.map_congr_left fun i _ => ?_
      rw [List.map_flatten, List.map_replicate, hits_replicate]
      push_cast
      field_simp⟩) hsize
  refine ⟨h1, fun g hg => ?_⟩
  have hae := fun c => cell_ae hG hrt hc' c
  have hfr := ae_all_iff.2 fun c => frequency hparts' hY.law hY.indep ((hc'.meas c).congr (hae c).symm)
  filter_upwards [h2 g hg, hfr] with ω hω hfr
  refine hω _ fun c hc => ?_
  have h := (hfr c).comp hM
  rw [measureReal_congr (hae c)] at h
  refine h.congr fun n => ?_
  rw [hp]
  simp only [List.getD_eq_getElem?_getD, List.getElem?_map, List.getElem?_range hc, Option.map_some, Option.getD_some]
  rw [hits_drawnRows, drawSet, Finset.sum_sigma]
  rfl

end

end BET

namespace BET.Ex

open BET.Spec MeasureTheory ProbabilityTheory Filter Topology

/-- Random samples with any two laws exist. -/
theorem randomSamples {d e : Nat} (μ : Measure (Fin d → ℝ)) (ν : Measure (Fin e → ℝ)) [IsProbabilityMeasure μ]
    [IsProbabilityMeasure ν] :
    ∃ (Ω : Type) (_ : MeasurableSpace Ω) (P : Measure Ω) (X : ℕ → ℕ → Ω → Fin d → ℝ) (Y : ℕ → ℕ → Ω → Fin e → ℝ),
      IsProbabilityMeasure P ∧ RandomSamples P μ X ∧ RandomSamples P ν Y := by
  let P : Measure (ℕ × ℕ → (Fin d → ℝ) × (Fin e → ℝ)) := Measure.infinitePi fun _ => μ.prod ν
  have hlaw : ∀ rk : ℕ × ℕ, HasLaw (fun ω : ℕ × ℕ → (Fin d → ℝ) × (Fin e → ℝ) => ω rk) (μ.prod ν) P := fun rk =>
    ⟨(measurable_pi_apply rk).aemeasurable, Measure.infinitePi_map_eval _ rk⟩
  have hind : iIndepFun (fun (rk : ℕ × ℕ) (ω : ℕ × ℕ → (Fin d → ℝ) × (Fin e → ℝ)) => ω rk) P :=
    iIndepFun_infinitePi (P := fun _ => μ.prod ν) (X := fun _ x => x) fun _ => measurable_id
  have hpair : ∀ r, Pairwise fun j k => IndepFun (fun ω : ℕ × ℕ → (Fin d → ℝ) × (Fin e → ℝ) => ω (r, j))
      (fun ω => ω (r, k)) P := fun r j k hjk => hind.indepFun fun h => hjk (Prod.mk.inj h).2
  refine ⟨_, inferInstance, P, fun r k ω => (ω (r, k)).1, fun r k ω => (ω (r, k)).2, inferInstance,
    ⟨fun r k => ?_, fun r j k hjk => (hpair r hjk).comp measurable_fst measurable_fst⟩,
    ⟨fun r k => ?_, fun r j k hjk => (hpair r hjk).comp measurable_snd measurable_snd⟩⟩
  · exact HasLaw.comp (μ := μ.prod ν) ⟨measurable_fst.aemeasurable, by
      rw [← Measure.fst, Measure.fst_prod]⟩ (hlaw (r, k))
  · exact HasLaw.comp (μ := μ.prod ν) ⟨measurable_snd.aemeasurable, by
      rw [← Measure.snd, Measure.snd_prod]⟩ (hlaw (r, k))

/-- A set with the samples. -/
def rowSet (d : Nat) (v : List (List ℝ)) : SampleSet ℝ := { dim := d, glob := { values := some v } }

theorem rowSet_consistent {d : Nat} (parts n : Nat) (hp : 0 < parts) (X : ℕ → ℕ → Fin d → ℝ) :
    Consistent (rowSet d (drawnRows parts n X)) n := by
  refine ⟨⟨by rintro _ ⟨⟩; exact length_drawnRows hp n X, nofun, nofun, nofun, nofun, nofun, nofun, nofun, nofun, nofun,
    nofun, nofun, nofun, nofun⟩, fun h => (by cases h.values), ?_⟩
  intro z hz row hrow
  obtain rfl := Option.some.inj hz
  obtain ⟨r, k, rfl⟩ := mem_drawnRows hrow
  exact List.length_ofFn

theorem rowSet_hold {d : Nat} (parts n : Nat) (hp : 0 < parts) (X : ℕ → ℕ → Fin d → ℝ) :
    HoldSamples (fun _ => rowSet d (drawnRows parts n X)) (drawnRows parts n X) :=
  fun _ _ => ⟨by rw [length_drawnRows hp n X]; exact rowSet_consistent parts n hp X, rfl, Or.inl rfl⟩

/-- The map `(x, y) ↦ x + y`. -/
noncomputable def planeMap (r : List ℝ) : List ℝ := [r.getD 0 0 + r.getD 1 0]

noncomputable def planeModel : Nat → List (List ℝ) → ModelOutput ℝ := fun _ rows => .array (rows.map planeMap)

theorem planeRowWise : RowWise planeModel false false planeMap id (fun _ => []) :=
  fun _ _ => ⟨none, none, rfl, nofun, nofun⟩

/-- The hypotheses of `C131_rectangle` hold: random samples in the plane drawn by three processes, the sum as model,
and the interval from 1/2 to 3/2 in four parts. -/
example {Ω : Type} [MeasurableSpace Ω] {P : Measure Ω} [IsProbabilityMeasure P] {μ : Measure (Fin 2 → ℝ)}
    {X : ℕ → ℕ → Ω → Fin 2 → ℝ} (hX : RandomSamples P μ X) :=
  C131_rectangle euclid_sound planeRowWise (Q := fun x (_ : Fin 1) => x 0 + x 1) (by fun_prop)
    (fun x => by simp [planeMap]) hX (parts := 3) (by norm_num)
    (s := fun n ω _ => rowSet 2 (drawnRows 3 n fun r k => X r k ω)) (fun n ω => rowSet_hold 3 n (by norm_num) _)
    Nat.one_pos (q := [1]) (rs := [1]) (cells := .scalar 4) (ns := [4]) rfl rfl (by norm_num) rfl rfl (by simp)

/-- The hypotheses of `C131_user` hold: the same samples, two data cells, and `n + 1` random data. -/
example {Ω : Type} [MeasurableSpace Ω] {P : Measure Ω} [IsProbabilityMeasure P] {μ : Measure (Fin 2 → ℝ)}
    {X : ℕ → ℕ → Ω → Fin 2 → ℝ} (hX : RandomSamples P μ X) {ν : Measure (Fin 1 → ℝ)} {Y : ℕ → ℕ → Ω → Fin 1 → ℝ}
    (hY : RandomSamples P ν Y)
    (hc : ClearCells euclid (treeSet 1 [[1 / 2], [3 / 2]] none) (μ.map fun x (_ : Fin 1) => x 0 + x 1))
    (hc' : ClearCells euclid (treeSet 1 [[1 / 2], [3 / 2]] none) ν) :=
  C131_user euclid_sound planeRowWise (Q := fun x (_ : Fin 1) => x 0 + x 1) (by fun_prop)
    (fun x => by simp [planeMap]) hX (parts := 3) (by norm_num)
    (s := fun n ω _ => rowSet 2 (drawnRows 3 n fun r k => X r k ω)) (fun n ω => rowSet_hold 3 n (by norm_num) _)
    hY (parts' := 1) Nat.one_pos (M := fun n => n + 1) (tendsto_add_atTop_nat 1) (fun n => Nat.succ_pos n)
    (samples := [[1 / 2], [3 / 2]]) (by simp) (by simp) hc hc'
    (partition := fun _ _ _ => .array 1 [[1 / 2], [3 / 2]])
    (distribution := fun n ω _ => .array 1 (drawnRows 1 (n + 1) fun r k => Y r k ω)) (fun _ _ _ _ => rfl)
    (fun n ω _ _ => by
      have := length_drawnRows Nat.one_pos (n + 1) fun r k => Y r k ω
      simp only [DataSet.inputs, this]
      rfl)
    (size := 2) (by norm_num)

/-- Its cells are clear where the laws are those of uniform draws. -/
example (B : Set (Fin 1 → ℝ)) : ClearCells euclid (treeSet 1 [[1 / 2], [3 / 2]] none) (volume.restrict B) :=
  C130_clear_euclidean rfl rfl (by simp) (by norm_num) (fun x c => euclid_dist _ x c) _

/-- The hypotheses of `C131_emulated` hold: the three cells of `planeSet`, whose outputs lie in two cells, and random
emulated samples. -/
example {Ω : Type} [MeasurableSpace Ω] {P : Measure Ω} [IsProbabilityMeasure P]
    {X : ℕ → ℕ → Ω → Fin 2 → ℝ} (hX : RandomSamples P (volume.restrict (Set.univ.pi fun _ => Set.Ico (0 : ℝ) 1)) X) :=
  C131_emulated euclid_sound (N := 3) (m := 2) (inp := planeSet)
    (out := { dim := 1, glob := { values := some [[0], [1], [2]] } })
    (ops := { dim := 1, glob := { values := some [[0], [2]], probabilities := some [1 / 4, 3 / 4] } })
    (y := [[0], [1], [2]]) (probs := [1 / 4, 3 / 4]) (by norm_num) hX
    (C130_clear_euclidean rfl rfl (by simp) (by simp) (fun x c => euclid_dist _ x c) _) (parts := 2) (by norm_num)
    (em := fun n ω => rowSet 2 (drawnRows 2 n fun r k => X r k ω))
    (D := fun n ω => {
      input := some planeSet
      output := some { dim := 1, glob := { values := some [[0], [1], [2]] } }
      outputProb := some { dim := 1, glob := { values := some [[0], [2]], probabilities := some [1 / 4, 3 / 4] } }
      emInput := some (rowSet 2 (drawnRows 2 n fun r k => X r k ω)) })
    (fun n ω => ⟨rfl, ⟨SampleSet.consistent_of_checkNum (size := 1) rfl rfl, by norm_num, rfl, Or.inl rfl, nofun, nofun⟩,
      rfl, SampleSet.consistent_of_checkNum (size := 1) rfl rfl, rfl, rfl, rfl,
      ⟨SampleSet.consistent_of_checkNum (size := 1) rfl rfl, by norm_num, rfl, Or.inl rfl, nofun, nofun⟩, rfl, rfl,
      rowSet_consistent 2 n (by norm_num) _, rfl, rfl, rfl, rfl⟩) (size := 4) (by norm_num)

end BET.Ex
