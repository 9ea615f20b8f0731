import Verif.Props.JointLimit
import Verif.Props.SurrogateUpdate

/-!
# C140: surrogates converge to the model
-/

set_option linter.unusedSectionVars false
set_option linter.unusedSimpArgs false
set_option autoImplicit false

namespace BET

open Spec MeasureTheory ProbabilityTheory Filter Topology

variable {Ω : Type} [MeasurableSpace Ω] {P : Measure Ω} {d e : Nat}

/-! ## Specification -/

namespace Spec

/-- The output of the surrogate at its point `i`. -/
def surrogateRow (r : Except Err (Surrogate ℝ)) (i : Nat) : Option (List ℝ) :=
  r.toOption.bind fun S => S.surr.output.bind fun o => o.loc.values.bind fun w => w.flatten[i]?

/-- A discretization of a model `Q`: Voronoi cells around samples `z`, in the norm `p`, and the outputs of the model
there. -/
structure Discretizes (D : Disc ℝ) (p : Nat) (z : List (Fin d → ℝ)) (inp out : SampleSet ℝ) (Q : (Fin d → ℝ) → Fin e → ℝ) :
    Prop where
  input : D.input = some inp
  ready : Ready inp z.length
  kind : inp.kind = .voronoi
  norm : inp.pNorm = p
  dim : inp.dim = d
  samples : SamplesAt inp z
  output : D.output = some out
  outputConsistent : Consistent out z.length
  outputDim : out.dim = e
  outputs : out.glob.values = some (z.map fun x => List.ofFn (Q x))

/-- A set with the rows `u`, not distributed yet. -/
structure NewPoints (new : SampleSet ℝ) (d : Nat) (u : List (List ℝ)) : Prop where
  consistent : Consistent new u.length
  dim : new.dim = d
  values : new.glob.values = some u
  unsplit : new.loc = {}

/-- Jacobians of `e` rows with `d` entries, one for each sample, all bounded by `B`. -/
structure BoundedJacobians (d e : Nat) (inp : SampleSet ℝ) (B : ℝ) : Prop where
  shape : ∃ jac, inp.glob.jacobians = some jac ∧ ∀ J ∈ jac, J.length = e ∧ ∀ row ∈ J, row.length = d ∧ ∀ a ∈ row, |a| ≤ B

/-- Near `x` there are samples from some `n` on. -/
def FillAt (z : ℕ → List (Fin d → ℝ)) (x : Fin d → ℝ) : Prop := ∀ ε > 0, ∀ᶠ n in atTop, ∃ c ∈ z n, dist x c < ε

end Spec

/-! ## Values -/

theorem newPoints_current {new : SampleSet ℝ} {u : List (List ℝ)} (h : NewPoints new d u) : LocalCurrent new u :=
  Or.inl (by rw [h.unsplit])

theorem surrogate_zero {G : Geometry ℝ} (hG : Sound G) {D : Disc ℝ} {p : Nat} {z : List (Fin d → ℝ)}
    {inp out : SampleSet ℝ} {Q : (Fin d → ℝ) → Fin e → ℝ} (hD : Discretizes D p z inp out Q) {new : SampleSet ℝ}
    {u : List (List ℝ)} (hn : NewPoints new d u) {size : Nat} (hsize : 0 < size) {i : Nat} {x : Fin d → ℝ}
    (hx : u[i]? = some (List.ofFn x)) :
    ∃ c ∈ z, (∀ c' ∈ z, G.dist p (List.ofFn x) (List.ofFn c) ≤ G.dist p (List.ofFn x) (List.ofFn c')) ∧
      surrogateRow (generateForInputSet G size D new 0) i = some (List.ofFn (Q c)) := by
  obtain ⟨S, hS⟩ := C47_defined hG hsize hD.input hD.ready hD.output hD.outputConsistent hD.outputs hn.consistent
    (hn.dim.trans hD.dim.symm) hn.values hn.unsplit
  obtain ⟨em, o, xs, w, ptr, -, h2, -, h4, -, h5, -, h6, h7, -⟩ :=
    C47_nearest hG hsize hS hD.input hD.ready hD.kind hD.samples hD.output hD.outputs hn.values (newPoints_current hn)
  rw [← h4] at hx
  obtain ⟨j, hj, c, hc, hmin⟩ := forall₂_getElem? (forall₂_flatten h6) hx
  obtain ⟨q, hq, hq'⟩ := forall₂_getElem? (forall₂_flatten h7) hj
  rw [List.getElem?_map, Option.map_eq_some_iff] at hc
  obtain ⟨a, ha, rfl⟩ := hc
  have hq' : (z.map fun x => List.ofFn (Q x))[j]? = some q := hq'
  rw [List.getElem?_map, ha] at hq'
  refine ⟨a, List.mem_of_getElem? ha, fun c' hc' => ?_, ?_⟩
  · rw [← hD.norm]
    exact hmin _ (List.mem_map.2 ⟨c', hc', rfl⟩)
  · unfold surrogateRow
    rw [hS]
    simp only [Except.toOption, Option.bind_some, h2, h5, hq]
    rw [← hq']
    rfl

/-- **C140.** The error of an order 0 surrogate: if the model has the Lipschitz constant `L` in the norm of the cells, the
error at a point is at most `L` times its distance from any sample, and so from the nearest. -/
theorem C140_error {G : Geometry ℝ} (hG : Sound G) {D : Disc ℝ} {p : Nat} {z : List (Fin d → ℝ)}
    {inp out : SampleSet ℝ} {Q : (Fin d → ℝ) → Fin e → ℝ} (hD : Discretizes D p z inp out Q) {L : ℝ} (hL : 0 ≤ L)
    (hQ : ∀ x c j, |Q x j - Q c j| ≤ L * G.dist p (List.ofFn x) (List.ofFn c)) {new : SampleSet ℝ}
    {u : List (List ℝ)} (hn : NewPoints new d u) {size : Nat} (hsize : 0 < size) {i : Nat} {x : Fin d → ℝ}
    (hx : u[i]? = some (List.ofFn x)) :
    ∃ row, surrogateRow (generateForInputSet G size D new 0) i = some row ∧ row.length = e ∧
      ∀ (j : Fin e), ∀ c ∈ z, |Q x j - row.getD j 0| ≤ L * G.dist p (List.ofFn x) (List.ofFn c) := by
  obtain ⟨c, hc, hmin, hrow⟩ := surrogate_zero hG hD hn hsize hx
  refine ⟨_, hrow, List.length_ofFn, fun j c' hc' => ?_⟩
  have : (List.ofFn (Q c)).getD j 0 = Q c j := congrFun (getD_ofFn (Q c)) j
  rw [this]
  exact (hQ x c j).trans (mul_le_mul_of_nonneg_left (hmin c' hc') hL)

theorem nearest_tendsto {G : Geometry ℝ} {p : Nat} (hN : NormLike d G p) {z : ℕ → List (Fin d → ℝ)} {x : Fin d → ℝ}
    (hfill : FillAt z x) {c : ℕ → Fin d → ℝ}
    (hmin : ∀ n, ∀ c' ∈ z n, G.dist p (List.ofFn x) (List.ofFn (c n)) ≤ G.dist p (List.ofFn x) (List.ofFn c')) :
    Tendsto c atTop (𝓝 x) := by
  obtain ⟨a, b, ha, hb, hab⟩ := hN
  rw [Metric.tendsto_atTop]
  intro ε hε
  obtain ⟨N, hN⟩ := eventually_atTop.1 (hfill (ε * a / b) (by positivity))
  refine ⟨N, fun n hn => ?_⟩
  obtain ⟨c', hc', hxc⟩ := hN n hn
  have h1 := hmin n c' hc'
  have h2 := (hab x (c n)).1
  have h3 := (hab x c').2
  rw [dist_comm]
  have h4 : b * dist x c' < ε * a := by
    have := mul_lt_mul_of_pos_left hxc hb
    rwa [mul_div_cancel₀ _ hb.ne'] at this
  nlinarith

/-- **C140.** Order 0 surrogates converge at every point where the model is continuous and near which there are
samples. -/
theorem C140_constant {G : Geometry ℝ} (hG : Sound G) {p : Nat} (hN : NormLike d G p) {D : ℕ → Disc ℝ}
    {z : ℕ → List (Fin d → ℝ)} {inp out : ℕ → SampleSet ℝ} {Q : (Fin d → ℝ) → Fin e → ℝ}
    (hD : ∀ n, Discretizes (D n) p (z n) (inp n) (out n) Q) {new : SampleSet ℝ} {u : List (List ℝ)}
    (hn : NewPoints new d u) {size : Nat} (hsize : 0 < size) {i : Nat} {x : Fin d → ℝ} (hx : u[i]? = some (List.ofFn x))
    (hfill : FillAt z x) (hQ : ContinuousAt Q x) :
    (∀ n, ∃ row, surrogateRow (generateForInputSet G size (D n) new 0) i = some row ∧ row.length = e) ∧
    ∀ j : Fin e, Tendsto (fun n => ((surrogateRow (generateForInputSet G size (D n) new 0) i).getD []).getD j 0) atTop
      (𝓝 (Q x j)) := by
  choose c hc hmin hrow using fun n => surrogate_zero hG (hD n) hn hsize hx
  refine ⟨fun n => ⟨_, hrow n, List.length_ofFn⟩, fun j => ?_⟩
  have h : ∀ n, ((surrogateRow (generateForInputSet G size (D n) new 0) i).getD []).getD j 0 = Q (c n) j := fun n => by
    rw [hrow n]
    exact congrFun (getD_ofFn (Q (c n))) j
  simp only [h]
  exact ((continuous_apply j).continuousAt.comp hQ).tendsto.comp (nearest_tendsto hN hfill hmin)

theorem surrogate_one {G : Geometry ℝ} (hG : Sound G) {D : Disc ℝ} {p : Nat} {z : List (Fin d → ℝ)}
    {inp out : SampleSet ℝ} {Q : (Fin d → ℝ) → Fin e → ℝ} (hD : Discretizes D p z inp out Q) {B : ℝ}
    (hJ : BoundedJacobians d e inp B) {new : SampleSet ℝ}
    {u : List (List ℝ)} (hn : NewPoints new d u) {size : Nat} (hsize : 0 < size) {i : Nat} {x : Fin d → ℝ}
    (hx : u[i]? = some (List.ofFn x)) :
    ∃ c ∈ z, (∀ c' ∈ z, G.dist p (List.ofFn x) (List.ofFn c) ≤ G.dist p (List.ofFn x) (List.ofFn c')) ∧
      ∃ J : List (List ℝ), J.length = e ∧ (∀ row ∈ J, row.length = d ∧ ∀ a ∈ row, |a| ≤ B) ∧
      surrogateRow (generateForInputSet G size D new 1) i = some (List.zipWith (fun a row => a + dot row
        (List.zipWith (· - ·) (List.ofFn c) (List.ofFn x))) (List.ofFn (Q c)) J) := by
  obtain ⟨jac, hjac, hsh⟩ := hJ.shape
  obtain ⟨S, hS⟩ := C48_defined hG hsize hD.input hD.ready hD.output hD.outputConsistent hD.samples hjac
    (fun J hJ' => ((hsh J hJ').1).trans hD.outputDim.symm) hD.outputs hn.consistent
    (hn.dim.trans hD.dim.symm) hn.values hn.unsplit
  obtain ⟨o, w, j, c, q, J, h1, h2, ⟨c₀, hc₀, hmin⟩, hc, hq, hJ', hw⟩ :=
    C48_values hG hsize hS hD.input hD.ready hD.kind hD.samples hjac hD.output hD.outputs hn.values
      (newPoints_current hn) hx
  rw [hc] at hc₀
  obtain rfl := Option.some.inj hc₀
  rw [List.getElem?_map, Option.map_eq_some_iff] at hc
  obtain ⟨a, ha, rfl⟩ := hc
  rw [List.getElem?_map, ha, Option.map_some, Option.some.injEq] at hq
  subst hq
  refine ⟨a, List.mem_of_getElem? ha, fun c' hc' => ?_, J, (hsh J (List.mem_of_getElem? hJ')).1,
    (hsh J (List.mem_of_getElem? hJ')).2, ?_⟩
  · rw [← hD.norm]
    exact hmin _ (List.mem_map.2 ⟨c', hc', rfl⟩)
  · unfold surrogateRow
    rw [hS]
    simp only [Except.toOption, Option.bind_some, h1, h2, hw]

theorem dot_bound {row v : List ℝ} {B δ : ℝ} (hB : 0 ≤ B) (hδ : 0 ≤ δ) (hrow : ∀ a ∈ row, |a| ≤ B) (hv : ∀ a ∈ v, |a| ≤ δ) :
    |dot row v| ≤ row.length * (B * δ) := by
  unfold dot
  induction row generalizing v with
  | nil => simp
  | cons r row ih =>
    cases v with
    | nil => simp; positivity
    | cons y v =>
      have h1 := ih (v := v) (fun a ha => hrow a (List.mem_cons_of_mem _ ha)) fun a ha => hv a (List.mem_cons_of_mem _ ha)
      have h2 : |r * y| ≤ B * δ := by
        rw [abs_mul]
        exact mul_le_mul (hrow r List.mem_cons_self) (hv y List.mem_cons_self) (abs_nonneg _) hB
      simp only [List.zipWith_cons_cons, List.sum_cons, List.length_cons, Nat.cast_add, Nat.cast_one]
      refine (abs_add_le _ _).trans ?_
      linarith

/-- **C140.** Order 1 surrogates converge at the same points, whatever the Jacobians are, if they stay bounded. (The
order 1 term in the code has the wrong sign, C48, and does not make the error smaller than that of order 0, but it does
vanish in the limit.) -/
theorem C140_linear {G : Geometry ℝ} (hG : Sound G) {p : Nat} (hN : NormLike d G p) {D : ℕ → Disc ℝ}
    {z : ℕ → List (Fin d → ℝ)} {inp out : ℕ → SampleSet ℝ} {Q : (Fin d → ℝ) → Fin e → ℝ}
    (hD : ∀ n, Discretizes (D n) p (z n) (inp n) (out n) Q) {B : ℝ} (hB : 0 ≤ B)
    (hJ : ∀ n, BoundedJacobians d e (inp n) B) {new : SampleSet ℝ} {u : List (List ℝ)}
    (hn : NewPoints new d u) {size : Nat} (hsize : 0 < size) {i : Nat} {x : Fin d → ℝ} (hx : u[i]? = some (List.ofFn x))
    (hfill : FillAt z x) (hQ : ContinuousAt Q x) :
    (∀ n, ∃ row, surrogateRow (generateForInputSet G size (D n) new 1) i = some row ∧ row.length = e) ∧
    ∀ j : Fin e, Tendsto (fun n => ((surrogateRow (generateForInputSet G size (D n) new 1) i).getD []).getD j 0) atTop
      (𝓝 (Q x j)) := by
  choose c hc hmin J hJl hJb hrow using fun n => surrogate_one hG (hD n) (hJ n) hn hsize hx
  refine ⟨fun n => ⟨_, hrow n, by simp [hJl n]⟩, fun j => ?_⟩
  have hj : ∀ n, (j : ℕ) < (J n).length := fun n => by rw [hJl n]; exact j.2
  have h : ∀ n, ((surrogateRow (generateForInputSet G size (D n) new 1) i).getD []).getD j 0 = Q (c n) j +
      dot ((J n)[(j : ℕ)]'(hj n)) (List.zipWith (· - ·) (List.ofFn (c n)) (List.ofFn x)) := fun n => by
    rw [hrow n, Option.getD_some, List.getD_eq_getElem?_getD, List.getElem?_zipWith, List.getElem?_eq_getElem (hj n)]
    simp
  simp only [h]
  have hlim := nearest_tendsto hN hfill hmin
  have h1 : Tendsto (fun n => Q (c n) j) atTop (𝓝 (Q x j)) :=
    ((continuous_apply j).continuousAt.comp hQ).tendsto.comp hlim
  have h2 : Tendsto (fun n => dot ((J n)[(j : ℕ)]'(hj n)) (List.zipWith (· - ·) (List.ofFn (c n)) (List.ofFn x))) atTop
      (𝓝 0) := by
    have h3 : Tendsto (fun n => (d : ℝ) * (B * dist (c n) x)) atTop (𝓝 0) := by
      have := (tendsto_iff_dist_tendsto_zero.1 hlim).const_mul ((d : ℝ) * B)
      rw [mul_zero] at this
      exact this.congr fun n => by ring
    refine squeeze_zero_norm (fun n => ?_) h3
    rw [Real.norm_eq_abs]
    have hm := hJb n _ (List.getElem_mem (hj n))
    refine (dot_bound hB dist_nonneg hm.2 (δ := dist (c n) x) fun a ha => ?_).trans ?_
    · obtain ⟨k, hk, rfl⟩ := List.mem_iff_getElem.1 ha
      simp only [List.getElem_zipWith, List.getElem_ofFn]
      rw [← Real.dist_eq]
      exact dist_le_pi_dist _ _ _
    · rw [hm.1]
  simpa using h1.add h2

/-! ## Probabilities of regions -/

namespace Spec

/-- The probability of the region number `k` that `generate_for_input_set` and `calculate_prob_for_sample_set_region`
yield. -/
noncomputable def regionProbability (G : Geometry ℝ) (size : Nat) (D : Disc ℝ) (new rs : SampleSet ℝ) (regions : List Int) (k : Nat) :
    Option ℝ :=
  (generateForInputSet G size D new 0 >>= fun S =>
    calculateProbForRegions G size S rs regions true).toOption.bind fun r => r.probs[k]?

/-- The points in the cells with the mark `region`. -/
def regionSet (d : Nat) (G : Geometry ℝ) (rs : SampleSet ℝ) (reg : List Int) (region : Int) : Set (Fin d → ℝ) :=
  {x | ∃ i, x ∈ cellSet d G rs i ∧ reg[i]? = some region}

end Spec

/-- The total over the cells of a region is a total over the samples in these cells. -/
theorem regionTotal_mass {u : List (List ℝ)} {cell : List ℝ → Nat} {ms : Nat} (hlt : ∀ x, cell x < ms) {reg : List Int}
    (hreg : reg.length = ms) (w : List ℝ → ℝ) (region : Int) :
    regionTotal ((List.range ms).map (mass (u.map cell) (u.map w))) reg region =
      (u.map fun x => w x * if reg.getD (cell x) 0 = region then 1 else 0).sum := by
  have h1 : ∀ pn : List ℝ, pn.length = ms → regionTotal pn reg region =
      ∑ i ∈ Finset.range ms, pn.getD i 0 * if reg.getD i 0 = region then 1 else 0 := by
    clear hlt
    subst hreg
    induction reg with
    | nil => intro pn _; simp [regionTotal]
    | cons r reg ih =>
      intro pn hpn
      cases pn with
      | nil => simp at hpn
      | cons a pn =>
        have := ih pn (by simpa using hpn)
        unfold regionTotal at this ⊢
        rw [List.length_cons, Finset.sum_range_succ']
        simp only [List.getD_cons_succ, List.getD_cons_zero]
        rw [← this]
        by_cases hr : r = region <;> simp [hr, add_comm]
  rw [h1 _ (by simp)]
  have h2 : ∀ i ∈ Finset.range ms, ((List.range ms).map (mass (u.map cell) (u.map w))).getD i 0 *
      (if reg.getD i 0 = region then (1 : ℝ) else 0) =
      (u.map fun x => (if cell x = i then w x else 0) * if reg.getD i 0 = region then 1 else 0).sum := by
    intro i hi
    have hi := Finset.mem_range.1 hi
    rw [List.getD_eq_getElem?_getD, List.getElem?_map, List.getElem?_range hi, Option.map_some, Option.getD_some,
      List.sum_map_mul_right]
    congr 1
    clear h1
    induction u with
    | nil => simp
    | cons x u ih => simp only [List.map_cons, mass_cons, List.sum_cons, ih]
  rw [Finset.sum_congr rfl h2]
  clear h1 h2
  induction u with
  | nil => simp
  | cons x u ih =>
    simp only [List.map_cons, List.sum_cons, Finset.sum_add_distrib, ih]
    congr 1
    rw [Finset.sum_eq_single (cell x)]
    · simp
    · intro i _ hi
      simp [Ne.symm hi]
    · intro h
      exact absurd (Finset.mem_range.2 (hlt x)) h

/-- Equal volumes give equal shares. -/
theorem surrogateProb_equal {mo : Nat} {p : List ℝ} (hp : ∀ c, 0 ≤ p.getD c 0) {u : List (List ℝ)} {c : List ℝ → Nat}
    (hc : ∀ x, c x < mo) {k : Nat} (hk : 0 < k) (hu : u.length = k) {new : SampleSet ℝ} (hv : new.glob.volumes = none) :
    surrogateProb mo p (u.map c) (surrogateVolumes new k) =
      u.map fun x => p.getD (c x) 0 / (hits (u.map c) (c x) : ℝ) := by
  have hk' : (0 : ℝ) < 1 / (k : ℝ) * 1 := by positivity
  have hvols : surrogateVolumes new k = u.map fun _ => 1 / (k : ℝ) * 1 := by
    rw [surrogateVolumes, hv, Option.getD_none, ← hu]
    simp
  have hmass : ∀ j, mass (u.map c) (surrogateVolumes new k) j = (hits (u.map c) j : ℝ) * (1 / (k : ℝ) * 1) := by
    intro j
    rw [surrogateVolumes, hv, Option.getD_none]
    exact mass_replicate _ k (by simpa using hu) _ j
  unfold surrogateProb
  simp only [hmass]
  rw [hvols, List.zipWith_map, List.zipWith_self]
  refine List.map_congr_left fun x hx => ?_
  have hpos : 0 < (hits (u.map c) (c x) : ℝ) := by
    have : 0 < hits (u.map c) (c x) := List.count_pos_iff.2 (List.mem_map.2 ⟨x, hx, rfl⟩)
    exact_mod_cast this
  by_cases h0 : 0 < p.getD (c x) 0
  · rw [if_pos ⟨hc x, h0, by positivity⟩, mul_div_mul_right _ _ hk'.ne']
  · rw [if_neg fun h => h0 h.2.1, le_antisymm (not_lt.1 h0) (hp _), zero_div]

section
variable [IsProbabilityMeasure P]

/-- **C140.** Solving with an order 0 surrogate: input samples `z n` whose cells shrink, and `M n` random points for the
surrogate, growing at any rates. The computed probability of every region tends with probability one to its probability
under the exact solution of the inverse problem for the model. -/
theorem C140_regions {G : Geometry ℝ} (hG : Sound G) {t : SampleSet ℝ} {m : Nat} {μ : Measure (Fin d → ℝ)}
    {Q : (Fin d → ℝ) → Fin e → ℝ} (hQ : ThinContours G t m μ Q) {z : ℕ → List (Fin d → ℝ)} {s out : ℕ → SampleSet ℝ}
    (hshrink : CellsShrink G μ s z) (hc : ∀ n, ClearCells G (s n) μ) {p : List ℝ}
    (hp0 : ∀ x ∈ p, 0 ≤ x) (hpos : ∀ c < m, 0 < p.getD c 0 → μ (Q ⁻¹' cellSet e G t c) ≠ 0)
    {X : ℕ → ℕ → Ω → Fin d → ℝ} (hX : RandomSamples P μ X) {parts : Nat} (hparts : 0 < parts) {M : ℕ → ℕ}
    (hM0 : ∀ n, 0 < M n) (hM : Tendsto M atTop atTop) {D : ℕ → Disc ℝ}
    (hD : ∀ n, Unmeasured (D n) (z n).length m (s n) (out n) t ((z n).map fun x => List.ofFn (Q x)) p)
    (hdim : ∀ n, (s n).dim = d) (herr : ∀ n, (out n).glob.errorEstimates.isSome) {new : ℕ → Ω → SampleSet ℝ}
    (hnew : ∀ n ω, NewPoints (new n ω) d (drawnRows parts (M n) fun r k => X r k ω))
    (hvol : ∀ n ω, (new n ω).glob.volumes = none) {rs : SampleSet ℝ} {ms : Nat} (hrs : Ready rs ms) (hrd : rs.dim = d)
    (hrc : ClearCells G rs μ) {reg : List Int} (hreg : rs.glob.region = some reg) {regions : List Int}
    (hmem : ∀ r ∈ regions, r ∈ reg) {size : Nat} (hsize : 0 < size) {k : Nat} {region : Int}
    (hk : regions[k]? = some region) :
    (∀ n ω, (regionProbability G size (D n) (new n ω) rs regions k).isSome) ∧
    ∀ᵐ ω ∂P, Tendsto (fun n => (regionProbability G size (D n) (new n ω) rs regions k).getD 0) atTop
      (𝓝 (conditionalMean m (fun c => p.getD c 0) (fun c => Q ⁻¹' cellSet e G t c) μ
        ((regionSet d G rs reg region).indicator 1))) := by
  have ht := (hD 0).outputProbReady
  have hs : ∀ n, Ready (s n) (z n).length := fun n => (hD n).inputReady
  have hp : ∀ c, 0 ≤ p.getD c 0 := by
    intro c
    rw [List.getD_eq_getElem?_getD]
    by_cases hl : c < p.length
    · rw [List.getElem?_eq_getElem hl]; exact hp0 _ (List.getElem_mem hl)
    · rw [List.getElem?_eq_none (not_lt.1 hl)]; rfl
  have hregl : reg.length = ms := hrs.consistent.1.region reg hreg
  set c : ℕ → List ℝ → Nat := fun n x => t.cell G (surrogateValue G (s n) (out n) 0 x) with hcdef
  have hcx : ∀ n x, c n (List.ofFn x) = t.cell G (List.ofFn (Q (pointOf G (s n) (z n) x))) := by
    intro n x
    have hl := SampleSet.cell_lt hG (hs n) (List.ofFn x)
    simp only [hcdef, surrogateValue, if_true, (hD n).outputValues, Option.getD_some, pointOf, List.getD_eq_getElem?_getD,
      List.getElem?_map, List.getElem?_eq_getElem hl, Option.map_some]
  set A : (Fin d → ℝ) → ℝ := fun x => if reg.getD (rs.cell G (List.ofFn x)) 0 = region then 1 else 0 with hA
  have hval : ∀ n ω, regionProbability G size (D n) (new n ω) rs regions k = some (∑ i ∈ Finset.range m, p.getD i 0 *
      ((∑ rk ∈ drawSet parts (M n), A (X rk.1 rk.2 ω) *
          if t.cell G (List.ofFn (Q (pointOf G (s n) (z n) (X rk.1 rk.2 ω)))) = i then 1 else 0) /
        ∑ rk ∈ drawSet parts (M n),
          if t.cell G (List.ofFn (Q (pointOf G (s n) (z n) (X rk.1 rk.2 ω)))) = i then (1 : ℝ) else 0)) := by
    intro n ω
    have hul : (drawnRows parts (M n) fun r k => X r k ω).length = M n := length_drawnRows hparts _ _
    have hne : regions ≠ [] := by rintro rfl; simp at hk
    have hnc : Consistent (new n ω) (M n) := by
      have := (hnew n ω).consistent
      rwa [hul] at this
    obtain ⟨prs, ests, W, ids, q, err, -, hW, -, -, -, -, -, hrun⟩ := surrogate_run hG (hD n).input (hs n) (hD n).output
      (hD n).outputConsistent (order := 0) ⟨by rw [(hD n).outputValues]; rfl, Or.inl rfl⟩ (herr n) (hD n).outputProb ht
      (by rw [(hD n).probabilities]; rfl) hnc ((hnew n ω).dim.trans (hdim n).symm)
      (hnew n ω).values (hnew n ω).unsplit (Or.inl (hM0 n)) hrs ((hnew n ω).dim.trans hrd.symm) hreg hne hmem
    obtain ⟨S, r, -, -, -, -, -, h1, h2, h3, -⟩ := hrun size hsize
    obtain ⟨hW, hprs⟩ := hW p (hD n).probabilities
    rw [surrogateProb_equal hp (fun x => SampleSet.cell_lt hG ht _) (hM0 n) hul (hvol n ω)] at hW
    unfold regionProbability
    rw [h1, ok_bind, h2]
    simp only [Except.toOption, Option.bind_some, h3, hprs, List.getElem?_map, hk, Option.map_some, Option.some.injEq]
    rw [hW, regionTotal_mass (fun x => SampleSet.cell_lt hG hrs x) hregl, sum_drawnRows]
    have key := draw_shares (size := parts) (n := M n) (z := fun r k => X r k ω) (L := fun x => c n (List.ofFn x))
      (m := m) (fun x => SampleSet.cell_lt hG ht _) (fun i => p.getD i 0) A
    have hi : ∀ i x, ind {x | c n (List.ofFn x) = i} x =
        if t.cell G (List.ofFn (Q (pointOf G (s n) (z n) x))) = i then (1 : ℝ) else 0 := by
      intro i x
      simp only [ind, Set.indicator, Set.mem_ofPred_eq, hcx, Pi.one_apply]
    refine (Eq.trans (Finset.sum_congr rfl fun rk _ => ?_) key).trans ?_
    · rw [hits_drawnRows]
    · simp only [hi]
  refine ⟨fun n ω => by rw [hval]; rfl, ?_⟩
  simp only [hval, Option.getD_some]
  have hP : IsProbabilityMeasure μ := by
    rw [← (hX.law 0 0).map_eq]
    exact Measure.isProbabilityMeasure_map (hX.law 0 0).aemeasurable
  refine joint_limit hG ht hQ hs hshrink hc hp0 hpos hparts hX.law hX.indep (u := fun _ => A) (B := fun _ => 1)
    (fun _ => cell_meas hG hrs hrc fun i => if reg.getD i 0 = region then 1 else 0) (integrable_const _)
    (fun _ => Eventually.of_forall fun x => by simp only [hA]; split <;> simp) ?_ hM
  filter_upwards [hrc.one] with x hx
  have hAx : A x = (regionSet d G rs reg region).indicator 1 x := by
    have hl : rs.cell G (List.ofFn x) < reg.length := by rw [hregl]; exact SampleSet.cell_lt hG hrs _
    by_cases hr : reg.getD (rs.cell G (List.ofFn x)) 0 = region
    · have : x ∈ regionSet d G rs reg region := by
        refine ⟨_, SampleSet.cell_isCell hG hrs (List.ofFn x), ?_⟩
        rw [List.getD_eq_getElem?_getD, List.getElem?_eq_getElem hl] at hr
        rw [List.getElem?_eq_getElem hl]
        exact congrArg some hr
      rw [Set.indicator_of_mem this]
      simp only [hA, if_pos hr, Pi.one_apply]
    · have : x ∉ regionSet d G rs reg region := by
        rintro ⟨i, hi, hi'⟩
        have hi : IsCell G rs (List.ofFn x) i := hi
        rw [hx _ _ hi (SampleSet.cell_isCell hG hrs (List.ofFn x))] at hi'
        exact hr (by rw [List.getD_eq_getElem?_getD, hi']; rfl)
      rw [Set.indicator_of_notMem this]
      simp only [hA, if_neg hr]
  rw [← hAx]
  exact tendsto_const_nhds

end

namespace Ex

/-- The samples `k / (n + 1)` with the derivatives of `x ↦ x ^ 2`. -/
noncomputable def tangentSet (n : Nat) : SampleSet ℝ :=
  { dim := 1, domain := some [(0, 1)],
    glob := { values := some ((steps n).map fun x => [x]), jacobians := some ((steps n).map fun x => [[2 * x]]) } }

/-- The outputs with error estimates. -/
noncomputable def estimatedOut (n : Nat) : SampleSet ℝ :=
  { dim := 1,
    glob := { values := some ((steps n).map fun x => [x ^ 2]), errorEstimates := some ((steps n).map fun _ => [0]) } }

noncomputable def tangentDisc (n : Nat) : Disc ℝ := { input := some (tangentSet n), output := some (estimatedOut n) }

theorem tangent_ready (n : Nat) : Ready (tangentSet n) (steps n).length := by
  refine ⟨⟨⟨fun v hv => ?_, nofun, nofun, nofun, fun v hv => ?_, nofun, nofun, nofun, nofun, nofun, nofun, nofun, nofun, nofun⟩,
    fun h => (nomatch h.values), fun v hv row hrow => ?_⟩, by simp [steps], rfl, Or.inl rfl, nofun, nofun⟩
  · obtain rfl := Option.some.inj hv
    simp
  · obtain rfl := Option.some.inj hv
    simp
  · obtain rfl := Option.some.inj hv
    obtain ⟨x, -, rfl⟩ := List.mem_map.1 hrow
    rfl

theorem estimated_consistent (n : Nat) : Consistent (estimatedOut n) (steps n).length := by
  refine ⟨⟨fun v hv => ?_, nofun, nofun, nofun, nofun, fun v hv => ?_, nofun, nofun, nofun, nofun, nofun, nofun, nofun, nofun⟩,
    fun h => (nomatch h.values), fun v hv row hrow => ?_⟩
  · obtain rfl := Option.some.inj hv
    simp
  · obtain rfl := Option.some.inj hv
    simp
  · obtain rfl := Option.some.inj hv
    obtain ⟨x, -, rfl⟩ := List.mem_map.1 hrow
    rfl

theorem squares_rows (n : Nat) : ((stepPoints n).map fun x => List.ofFn fun _ : Fin 1 => x 0 ^ 2) =
    (steps n).map fun x => [x ^ 2] := by
  simp [stepPoints, List.map_map]

theorem tangent_discretizes (n : Nat) : Discretizes (tangentDisc n) 2 (stepPoints n) (tangentSet n) (estimatedOut n)
    fun (x : Fin 1 → ℝ) (_ : Fin 1) => x 0 ^ 2 := by
  have h1 : (stepPoints n).length = (steps n).length := by simp [stepPoints]
  refine ⟨rfl, ?_, rfl, rfl, rfl, ?_, rfl, ?_, rfl, ?_⟩
  · rw [h1]; exact tangent_ready n
  · show _ = some _
    rw [stepPoints_rows]; rfl
  · rw [h1]; exact estimated_consistent n
  · rw [squares_rows]; rfl

theorem tangent_bounded (n : Nat) : BoundedJacobians 1 1 (tangentSet n) 2 := by
  refine ⟨⟨_, rfl, fun J hJ => ?_⟩⟩
  obtain ⟨x, hx, rfl⟩ := List.mem_map.1 hJ
  obtain ⟨h0, h1⟩ := steps_in n x hx
  refine ⟨rfl, fun row hrow => ?_⟩
  obtain rfl : row = [2 * x] := by simpa using hrow
  refine ⟨rfl, fun a ha => ?_⟩
  obtain rfl : a = 2 * x := by simpa using ha
  rw [abs_of_nonneg (by linarith)]
  linarith

/-- Three points in the interval. -/
noncomputable def threePoints : SampleSet ℝ := { dim := 1, glob := { values := some [[1 / 7], [1 / 2], [1]] } }

theorem three_points : NewPoints threePoints 1 [[1 / 7], [1 / 2], [1]] :=
  ⟨SampleSet.consistent_of_checkNum (size := 1) rfl rfl, rfl, rfl, rfl⟩

theorem step_fillAt {x : ℝ} (hx : x ∈ Set.Icc (0 : ℝ) 1) : FillAt stepPoints fun _ => x := by
  intro ε hε
  filter_upwards [steps_fill x hx ε hε] with n h
  obtain ⟨c, hc, hxc⟩ := h
  refine ⟨fun _ => c, List.mem_map.2 ⟨c, hc, rfl⟩, ?_⟩
  rw [dist_pi_lt_iff hε]
  intro j
  rw [Real.dist_eq]
  exact hxc

/-- The hypotheses of `C140_constant` hold: order 0 surrogates of `x ↦ x ^ 2` on two processes. -/
example : Tendsto (fun n => ((surrogateRow (generateForInputSet euclid 2 (tangentDisc n) threePoints 0) 0).getD []).getD 0 0)
    atTop (𝓝 ((1 / 7) ^ 2)) :=
  (C140_constant euclid_sound (euclid_normLike 2) tangent_discretizes three_points (size := 2) (by norm_num) (i := 0)
    (x := fun _ => 1 / 7) rfl (step_fillAt (by norm_num))
    (continuous_pi fun _ => (continuous_apply 0).pow 2).continuousAt).2 0

/-- The hypotheses of `C140_linear` hold: order 1 surrogates with the true derivatives. -/
example : Tendsto (fun n => ((surrogateRow (generateForInputSet euclid 2 (tangentDisc n) threePoints 1) 1).getD []).getD 0 0)
    atTop (𝓝 ((1 / 2) ^ 2)) :=
  (C140_linear euclid_sound (euclid_normLike 2) tangent_discretizes (B := 2) (by norm_num) tangent_bounded three_points
    (size := 2) (by norm_num) (i := 1) (x := fun _ => 1 / 2) rfl (step_fillAt (by norm_num))
    (continuous_pi fun _ => (continuous_apply 0).pow 2).continuousAt).2 0

/-- Two samples, and the model `x ↦ (3 x, 5)`. -/
noncomputable def pairDisc : Disc ℝ :=
  { input := some { dim := 1, glob := { values := some [[0], [1]] } }
    output := some { dim := 2, glob := { values := some [[0, 5], [3, 5]] } } }

/-- The hypotheses of `C140_error` hold for this model, with the constant 3. -/
example : ∃ row, surrogateRow (generateForInputSet euclid 2 pairDisc threePoints 0) 0 = some row ∧ row.length = 2 ∧
    ∀ (j : Fin 2), ∀ c ∈ [(fun _ => 0 : Fin 1 → ℝ), fun _ => 1],
      |(![3 * (1 / 7), 5] : Fin 2 → ℝ) j - row.getD j 0| ≤ 3 * euclid.dist 2 (List.ofFn fun _ : Fin 1 => 1 / 7) (List.ofFn c) := by
  refine C140_error euclid_sound (Q := fun x => ![3 * x 0, 5]) (x := fun _ => 1 / 7)
    (inp := { dim := 1, glob := { values := some [[0], [1]] } })
    (out := { dim := 2, glob := { values := some [[0, 5], [3, 5]] } })
    ⟨rfl, ⟨SampleSet.consistent_of_checkNum (size := 1) rfl rfl, by norm_num, rfl, Or.inl rfl, nofun, nofun⟩, rfl, rfl, rfl,
      by simp [SamplesAt], rfl, SampleSet.consistent_of_checkNum (size := 1) rfl rfl, rfl, by simp⟩ (by norm_num)
    (fun x c j => ?_) three_points (by norm_num) (by simp)
  rw [euclid_line]
  fin_cases j
  · simp [← mul_sub, abs_mul]
  · simp

/-- The two ends of the interval, with two marks. -/
noncomputable def endSet : SampleSet ℝ :=
  { dim := 1, glob := { values := some [[0], [1]], region := some [1, 2] } }

theorem ready_endSet : Ready endSet 2 :=
  ⟨SampleSet.consistent_of_checkNum (size := 1) rfl rfl, by norm_num, rfl, Or.inl rfl, nofun, nofun⟩

theorem end_clear : ClearCells euclid endSet (volume.restrict (domainBox 1 [((0 : ℝ), (1 : ℝ))])) := by
  refine C130_clear_euclidean (v := [[0], [1]]) rfl rfl (by simp) (by simp) ?_ _
  intro x c
  rw [euclid_line]
  simp [Real.sqrt_sq_eq_abs]

noncomputable def estimatedDisc (n : Nat) : Disc ℝ :=
  { input := some (stepSet n), output := some (estimatedOut n), outputProb := some halves }

theorem estimatedDisc_unmeasured (n : Nat) : Unmeasured (estimatedDisc n) (stepPoints n).length 2 (stepSet n)
    (estimatedOut n) halves ((stepPoints n).map fun x => List.ofFn fun _ : Fin 1 => x 0 ^ 2) [1 / 5, 4 / 5] := by
  have h := stepDisc_points n
  have h1 : (stepPoints n).length = (steps n).length := by simp [stepPoints]
  exact ⟨rfl, h.inputReady, rfl, by rw [h1]; exact estimated_consistent n, by rw [squares_rows]; rfl, rfl, rfl,
    h.outputProbReady, rfl, rfl⟩

/-- The hypotheses of `C140_regions` hold: the model `x ↦ x ^ 2` on the unit interval, the samples `k / (n + 1)`, and
`n + 1` random points drawn by four processes. -/
example {P : Measure Ω} [IsProbabilityMeasure P] {X : ℕ → ℕ → Ω → Fin 1 → ℝ}
    (hX : RandomSamples P (volume.restrict (domainBox 1 [(0, 1)])) X) :
    ∀ᵐ ω ∂P, Tendsto (fun n => (regionProbability euclid 3 (estimatedDisc n)
      (rowSet 1 (drawnRows 4 (n + 1) fun r k => X r k ω)) endSet [2, 1] 0).getD 0) atTop
      (𝓝 (conditionalMean 2 (fun c => [1 / 5, 4 / 5].getD c 0) (fun c => (fun x _ => x 0 ^ 2) ⁻¹' cellSet 1 euclid halves c)
        (volume.restrict (domainBox 1 [(0, 1)])) ((regionSet 1 euclid endSet [1, 2] 2).indicator 1))) := by
  have hBm : MeasurableSet (domainBox 1 [((0 : ℝ), (1 : ℝ))]) := by
    rw [domainBox_eq (show [((0 : ℝ), (1 : ℝ))].length = 1 from rfl)]; exact MeasurableSet.univ_pi fun j => measurableSet_Ico
  refine (C140_regions euclid_sound squares_thin steps_shrink steps_clear (p := [1 / 5, 4 / 5]) (by norm_num)
    (fun c hc _ => by rw [Measure.restrict_apply' hBm]; exact squares_pos c hc) hX (parts := 4) (by norm_num)
    (M := fun n => n + 1) (fun n => Nat.succ_pos n) (tendsto_add_atTop_nat 1) estimatedDisc_unmeasured (fun _ => rfl)
    (fun _ => rfl) (new := fun n ω => rowSet 1 (drawnRows 4 (n + 1) fun r k => X r k ω)) (fun n ω => ⟨?_, rfl, rfl, rfl⟩)
    (fun _ _ => rfl)
    ready_endSet rfl end_clear
    (reg := [1, 2]) rfl (by simp) (by norm_num) rfl).2
  rw [length_drawnRows (by norm_num)]
  exact rowSet_consistent 4 (n + 1) (by norm_num) _

end Ex

end BET
