import Verif.Lemmas.Filling
import Verif.Props.ProbLimit
import Verif.Props.ScaledLimit
import Verif.Props.Voronoi1D
import Mathlib.MeasureTheory.Measure.Support

/-!
# C138: solutions with the volumes of the cells converge when the cells shrink
-/

set_option linter.unusedSectionVars false
set_option linter.unusedSimpArgs false
set_option autoImplicit false

namespace BET

open Spec MeasureTheory ProbabilityTheory Filter Topology

variable {Ω : Type} [MeasurableSpace Ω] {P : Measure Ω} {d e : Nat}

/-! ## Specification -/

namespace Spec

/-- The distance of the norm `p` and the usual distance bound each other, as the distances of all norms do. -/
def NormLike (d : Nat) (G : Geometry ℝ) (p : Nat) : Prop :=
  ∃ a b : ℝ, 0 < a ∧ 0 < b ∧ ∀ x c : Fin d → ℝ, a * dist x c ≤ G.dist p (List.ofFn x) (List.ofFn c) ∧
    G.dist p (List.ofFn x) (List.ofFn c) ≤ b * dist x c

/-- The samples `z n` fill the space: near almost every point there are samples from some `n` on. -/
def Fill (μ : Measure (Fin d → ℝ)) (z : ℕ → List (Fin d → ℝ)) : Prop :=
  ∀ᵐ x ∂μ, ∀ ε > 0, ∀ᶠ n in atTop, ∃ c ∈ z n, dist x c < ε

/-- Almost every point is a point where the model is continuous, and its output lies inside one of the `m` cells of the
output measure. -/
structure ThinContours (G : Geometry ℝ) (t : SampleSet ℝ) (m : Nat) (μ : Measure (Fin d → ℝ))
    (Q : (Fin d → ℝ) → Fin e → ℝ) : Prop where
  continuous : ∀ᵐ x ∂μ, ContinuousAt Q x
  one : ∀ᵐ x ∂μ, ∀ i j, IsCell G t (List.ofFn (Q x)) i → IsCell G t (List.ofFn (Q x)) j → i = j
  thin : ∀ᵐ x ∂μ, ∀ c < m, Q x ∉ frontier (cellSet e G t c)

/-- Input samples at `z`. -/
def SamplesAt (s : SampleSet ℝ) (z : List (Fin d → ℝ)) : Prop := s.glob.values = some (z.map List.ofFn)

/-- The cells of the samples `z n` shrink: almost every point lies in a cell, and from some `n` on the sample of each cell
it lies in is near to it. -/
structure CellsShrink (G : Geometry ℝ) (μ : Measure (Fin d → ℝ)) (s : ℕ → SampleSet ℝ) (z : ℕ → List (Fin d → ℝ)) :
    Prop where
  covered : ∀ n, ∀ᵐ x ∂μ, ∃ i < (z n).length, x ∈ cellSet d G (s n) i
  near : ∀ᵐ x ∂μ, ∀ ε > 0, ∀ᶠ n in atTop, ∀ i < (z n).length, x ∈ cellSet d G (s n) i → dist ((z n).getD i 0) x < ε

/-- The mean of `g` under the probabilities of the input samples after a call. -/
noncomputable def inputMean (g : (Fin d → ℝ) → ℝ) (r : Except Err (Disc ℝ)) : Option ℝ :=
  (r.toOption.bind (·.input)).bind (meanOf g)

end Spec

/-! ## The limit -/

theorem locally_constant {G : Geometry ℝ} (hG : Sound G) {t : SampleSet ℝ} {m : Nat} (ht : Ready t m)
    {μ : Measure (Fin d → ℝ)} {Q : (Fin d → ℝ) → Fin e → ℝ} (h : ThinContours G t m μ Q) :
    ∀ᵐ x ∂μ, ∀ᶠ x' in 𝓝 x, t.cell G (List.ofFn (Q x')) = t.cell G (List.ofFn (Q x)) := by
  filter_upwards [h.continuous, h.one, h.thin] with x h1 h2 h3
  have hy : ∀ c < m, c ≠ t.cell G (List.ofFn (Q x)) → ∀ᶠ y in 𝓝 (Q x), y ∉ cellSet e G t c := by
    intro c hc hne
    have hnot : Q x ∉ cellSet e G t c := fun hin => hne (h2 _ _ hin (SampleSet.cell_isCell hG ht _))
    have hcl : Q x ∉ closure (cellSet e G t c) := by
      rw [closure_eq_self_union_frontier]
      rintro (hx | hx)
      · exact hnot hx
      · exact h3 c hc hx
    filter_upwards [isClosed_closure.isOpen_compl.mem_nhds hcl] with y hy hy'
    exact hy (subset_closure hy')
  have hall : ∀ᶠ y in 𝓝 (Q x), ∀ c ∈ Finset.range m, c ≠ t.cell G (List.ofFn (Q x)) → y ∉ cellSet e G t c :=
    (Finset.eventually_all _).2 fun c hc => by
      by_cases hne : c = t.cell G (List.ofFn (Q x))
      · exact Eventually.of_forall fun y h => absurd hne h
      · filter_upwards [hy c (Finset.mem_range.1 hc) hne] with y hy _ using hy
  filter_upwards [h1.eventually hall] with x' hx'
  by_contra hne
  exact hx' _ (Finset.mem_range.2 (SampleSet.cell_lt hG ht _)) hne (SampleSet.cell_isCell hG ht (List.ofFn (Q x')))

theorem nearest_exists {G : Geometry ℝ} {s : SampleSet ℝ} {p : Nat} {z : List (Fin d → ℝ)} (hk : s.kind = .voronoi) (hpn : s.pNorm = p)
    (hs : SamplesAt s z)
    (hz : z ≠ []) (x : Fin d → ℝ) : ∃ i < z.length, x ∈ cellSet d G s i := by
  obtain ⟨i, hi, hmin⟩ := (Finset.range z.length).exists_min_image
    (fun i => G.dist p (List.ofFn x) (List.ofFn (z.getD i 0)))
    ⟨0, Finset.mem_range.2 (List.length_pos_iff.2 hz)⟩
  have hi := Finset.mem_range.1 hi
  refine ⟨i, hi, ?_⟩
  show IsCell G s (List.ofFn x) i
  unfold IsCell
  rw [hk]
  simp only [show s.glob.values = _ from hs, hpn, Option.some.injEq, forall_eq']
  refine ⟨List.ofFn z[i], by rw [List.getElem?_map, List.getElem?_eq_getElem hi]; rfl, ?_⟩
  intro c' hc'
  obtain ⟨c, hc, rfl⟩ := List.mem_map.1 hc'
  obtain ⟨j, hj, rfl⟩ := List.mem_iff_getElem.1 hc
  have := hmin j (Finset.mem_range.2 hj)
  rwa [List.getD_eq_getElem?_getD, List.getElem?_eq_getElem hi, List.getD_eq_getElem?_getD,
    List.getElem?_eq_getElem hj] at this

/-- The sample of a cell is not much further away than any other sample. -/
theorem nearest_dist {G : Geometry ℝ} {s : SampleSet ℝ} {p : Nat} {z : List (Fin d → ℝ)} (hk : s.kind = .voronoi) (hpn : s.pNorm = p)
    (hs : SamplesAt s z)
    {x : Fin d → ℝ} {i : Nat} (hi : x ∈ cellSet d G s i) {c : Fin d → ℝ} (hc : c ∈ z) :
    i < z.length ∧ G.dist p (List.ofFn x) (List.ofFn (z.getD i 0)) ≤ G.dist p (List.ofFn x) (List.ofFn c) := by
  have hi : IsCell G s (List.ofFn x) i := hi
  unfold IsCell at hi
  rw [hk] at hi
  simp only [show s.glob.values = _ from hs, hpn, Option.some.injEq, forall_eq'] at hi
  obtain ⟨c', h1, h2⟩ := hi
  rw [List.getElem?_map, Option.map_eq_some_iff] at h1
  obtain ⟨a, ha, rfl⟩ := h1
  obtain ⟨hl, rfl⟩ := List.getElem?_eq_some_iff.1 ha
  refine ⟨hl, ?_⟩
  rw [List.getD_eq_getElem?_getD, List.getElem?_eq_getElem hl]
  exact h2 _ (List.mem_map.2 ⟨c, hc, rfl⟩)

/-- **C138.** The Voronoi cells of samples that fill the space shrink. -/
theorem C138_voronoi {G : Geometry ℝ} {p : Nat} (hn : NormLike d G p) {μ : Measure (Fin d → ℝ)}
    {z : ℕ → List (Fin d → ℝ)} (hz : ∀ n, z n ≠ []) (hfill : Fill μ z) {s : ℕ → SampleSet ℝ}
    (hk : ∀ n, (s n).kind = .voronoi) (hp : ∀ n, (s n).pNorm = p) (hs : ∀ n, SamplesAt (s n) (z n)) :
    CellsShrink G μ s z := by
  refine ⟨fun n => Eventually.of_forall fun x => nearest_exists (hk n) (hp n) (hs n) (hz n) x, ?_⟩
  obtain ⟨a, b, ha, hb, hab⟩ := hn
  filter_upwards [hfill] with x hx ε hε
  filter_upwards [hx (ε * a / b) (by positivity)] with n hn i _ hi
  obtain ⟨c, hc, hxc⟩ := hn
  have h1 := (nearest_dist (hk n) (hp n) (hs n) hi hc).2
  have h2 := (hab x ((z n).getD i 0)).1
  have h3 := (hab x c).2
  rw [dist_comm]
  have h4 : b * dist x c < ε * a := by
    have := mul_lt_mul_of_pos_left hxc hb
    rwa [mul_div_cancel₀ _ hb.ne'] at this
  nlinarith

/-- The indicator of a contour event is continuous almost everywhere. -/
theorem contour_continuous {G : Geometry ℝ} (hG : Sound G) {t : SampleSet ℝ} {m : Nat} (ht : Ready t m)
    {μ : Measure (Fin d → ℝ)} {Q : (Fin d → ℝ) → Fin e → ℝ} (hQ : ThinContours G t m μ Q) (c : ℕ) :
    ∀ᵐ x ∂μ, ContinuousAt (fun x => if t.cell G (List.ofFn (Q x)) = c then (1 : ℝ) else 0) x := by
  filter_upwards [locally_constant hG ht hQ] with x hx
  refine (continuousAt_const (y := if t.cell G (List.ofFn (Q x)) = c then (1 : ℝ) else 0)).congr ?_
  filter_upwards [hx] with x' hx'
  rw [hx']

/-- Up to a null set the contour event is the inverse image of the cell. -/
theorem contour_ae {G : Geometry ℝ} (hG : Sound G) {t : SampleSet ℝ} {m : Nat} (ht : Ready t m)
    {μ : Measure (Fin d → ℝ)} {Q : (Fin d → ℝ) → Fin e → ℝ} (hQ : ThinContours G t m μ Q) (c : ℕ) :
    {x | t.cell G (List.ofFn (Q x)) = c} =ᵐ[μ] Q ⁻¹' cellSet e G t c := by
  filter_upwards [hQ.one] with x hx
  refine propext ⟨?_, fun h => ?_⟩
  · intro h
    have h : t.cell G (List.ofFn (Q x)) = c := h
    rw [← h]
    exact SampleSet.cell_isCell hG ht _
  · exact hx _ _ (SampleSet.cell_isCell hG ht _) h

theorem contour_meas {G : Geometry ℝ} (hG : Sound G) {t : SampleSet ℝ} {m : Nat} (ht : Ready t m)
    {μ : Measure (Fin d → ℝ)} {Q : (Fin d → ℝ) → Fin e → ℝ} (hQ : ThinContours G t m μ Q) (c : ℕ) :
    NullMeasurableSet {x | t.cell G (List.ofFn (Q x)) = c} μ := by
  refine NullMeasurableSet.congr (s := interior {x | t.cell G (List.ofFn (Q x)) = c})
    isOpen_interior.measurableSet.nullMeasurableSet ?_
  filter_upwards [locally_constant hG ht hQ] with x hx
  refine propext ⟨fun h => (interior_subset (s := {x | t.cell G (List.ofFn (Q x)) = c}) h :
    x ∈ {x | t.cell G (List.ofFn (Q x)) = c}), fun h => ?_⟩
  have h : t.cell G (List.ofFn (Q x)) = c := h
  refine mem_interior_iff_mem_nhds.2 ?_
  filter_upwards [hx] with x' hx'
  exact hx'.trans h

theorem contour_integral {G : Geometry ℝ} (hG : Sound G) {t : SampleSet ℝ} {m : Nat} (ht : Ready t m)
    {μ : Measure (Fin d → ℝ)} {Q : (Fin d → ℝ) → Fin e → ℝ} (hQ : ThinContours G t m μ Q) (c : ℕ)
    (f : (Fin d → ℝ) → ℝ) :
    ∫ x, f x * (if t.cell G (List.ofFn (Q x)) = c then 1 else 0) ∂μ = ∫ x in Q ⁻¹' cellSet e G t c, f x ∂μ := by
  rw [← setIntegral_congr_set (contour_ae hG ht hQ c), ← integral_indicator₀ (contour_meas hG ht hQ c)]
  congr 1
  funext x
  simp only [Set.indicator, Set.mem_ofPred_eq]
  split <;> simp

theorem cells_limit {G : Geometry ℝ} (hG : Sound G) {t : SampleSet ℝ} {m : Nat} (ht : Ready t m)
    {μ : Measure (Fin d → ℝ)} [IsFiniteMeasure μ] {Q : (Fin d → ℝ) → Fin e → ℝ} (hQ : ThinContours G t m μ Q)
    {z : ℕ → List (Fin d → ℝ)} {s : ℕ → SampleSet ℝ} (hshrink : CellsShrink G μ s z)
    (hc : ∀ n, ClearCells G (s n) μ) {p : List ℝ}
    (hp0 : ∀ x ∈ p, 0 ≤ x) (hpos : ∀ c < m, 0 < p.getD c 0 → μ (Q ⁻¹' cellSet e G t c) ≠ 0)
    {g : (Fin d → ℝ) → ℝ} {K : ℝ} (hK : ∀ x, |g x| ≤ K) (hg : ∀ᵐ x ∂μ, ContinuousAt g x) :
    Tendsto (fun n => ∑ i ∈ Finset.range (z n).length,
      dividedBy (z n).length p (fun i => t.cell G (List.ofFn (Q ((z n).getD i 0))))
        (fun i => μ.real (cellSet d G (s n) i)) i * g ((z n).getD i 0)) atTop
      (𝓝 (conditionalMean m (fun c => p.getD c 0) (fun c => Q ⁻¹' cellSet e G t c) μ g)) := by
  set L : (Fin d → ℝ) → ℕ := fun x => t.cell G (List.ofFn (Q x)) with hL
  have hp : ∀ c, 0 ≤ p.getD c 0 := by
    intro c
    rw [List.getD_eq_getElem?_getD]
    by_cases hl : c < p.length
    · rw [List.getElem?_eq_getElem hl]; exact hp0 _ (List.getElem_mem hl)
    · rw [List.getElem?_eq_none (not_lt.1 hl)]; rfl
  have hsum : ∀ n, ∑ i ∈ Finset.range (z n).length,
      dividedBy (z n).length p (fun i => L ((z n).getD i 0)) (fun i => μ.real (cellSet d G (s n) i)) i *
        g ((z n).getD i 0) = ∑ c ∈ Finset.range m, p.getD c 0 *
      ((∑ i ∈ Finset.range (z n).length, μ.real (cellSet d G (s n) i) *
          (g ((z n).getD i 0) * if L ((z n).getD i 0) = c then 1 else 0)) /
        ∑ i ∈ Finset.range (z n).length, μ.real (cellSet d G (s n) i) *
          if L ((z n).getD i 0) = c then 1 else 0) := fun n =>
    cell_shares (L := fun i => L ((z n).getD i 0)) (fun i _ => SampleSet.cell_lt hG ht _) (fun c => p.getD c 0) hp
      (fun i => μ.real (cellSet d G (s n) i)) (fun i => g ((z n).getD i 0)) fun i _ => measureReal_nonneg
  refine Tendsto.congr (fun n => (hsum n).symm) ?_
  unfold conditionalMean
  have hone : ∀ n, ∀ᵐ x ∂μ, ∃ i < (z n).length, x ∈ cellSet d G (s n) i ∧
      ∀ j < (z n).length, x ∈ cellSet d G (s n) j → j = i := by
    intro n
    filter_upwards [(hc n).one, hshrink.covered n] with x hx hx'
    obtain ⟨i, hi, hxi⟩ := hx'
    exact ⟨i, hi, hxi, fun j _ hj => hx j i hj hxi⟩
  have hnear := hshrink.near
  have hcont : ∀ c, ∀ᵐ x ∂μ, ContinuousAt (fun x => if L x = c then (1 : ℝ) else 0) x := contour_continuous hG ht hQ
  have hint : ∀ (c : ℕ) (f : (Fin d → ℝ) → ℝ), ∫ x, f x * (if L x = c then 1 else 0) ∂μ =
      ∫ x in Q ⁻¹' cellSet e G t c, f x ∂μ := contour_integral hG ht hQ
  refine tendsto_finsetSum _ fun c hcm => ?_
  have hcm := Finset.mem_range.1 hcm
  by_cases hpc : 0 < p.getD c 0
  swap
  · have h0 : p.getD c 0 = 0 := le_antisymm (not_lt.1 hpc) (hp c)
    simp only [h0, zero_mul]
    exact tendsto_const_nhds
  refine tendsto_const_nhds.mul (Tendsto.div ?_ ?_ ?_)
  · rw [← hint c g]
    refine shrinking_sum (fun n i => (hc n).meas i) hone hnear (h := fun x => g x * if L x = c then 1 else 0) (K := K)
      (fun x => ?_) ?_
    · have hK0 : 0 ≤ K := (abs_nonneg _).trans (hK x)
      split
      · rw [mul_one]; exact hK x
      · rw [mul_zero, abs_zero]; exact hK0
    · filter_upwards [hg, hcont c] with x h1 h2 using h1.mul h2
  · have h1 := shrinking_sum (fun n i => (hc n).meas i) hone hnear (h := fun x => if L x = c then (1 : ℝ) else 0) (K := 1)
      (fun x => by split <;> simp) (hcont c)
    have h2 := hint c fun _ => 1
    simp only [one_mul] at h2
    rw [h2] at h1
    simpa using h1
  · exact ENNReal.toReal_ne_zero.2 ⟨hpos c hcm hpc, measure_ne_top _ _⟩

/-! ## The calls -/

theorem prob_keeps {G : Geometry ℝ} {size : Nat} {D D' : Disc ℝ} {g : Bool} {inp : SampleSet ℝ}
    (h : prob G size D g = .ok D') (hinp : D.input = some inp) :
    ∃ inp', D'.input = some inp' ∧ inp'.glob.values = inp.glob.values := by
  unfold prob at h
  rw [bind_eq_ok] at h
  obtain ⟨_, _, h⟩ := h
  rw [bind_eq_ok] at h
  obtain ⟨ops₀, hops₀, h⟩ := h
  rw [bind_eq_ok] at h
  obtain ⟨n, hn, h⟩ := h
  rw [bind_eq_ok] at h
  obtain ⟨d₁, hd₁, h⟩ := h
  rw [bind_eq_ok] at h
  obtain ⟨inp₀, hi, h⟩ := h
  rw [orErr_eq_ok] at hi
  rw [bind_eq_ok] at h
  obtain ⟨inp₁, hl, h⟩ := h
  rw [bind_eq_ok] at h
  obtain ⟨ptr, hptr, h⟩ := h
  rw [bind_eq_ok] at h
  obtain ⟨ops, hops, h⟩ := h
  rw [bind_eq_ok] at h
  obtain ⟨Pr, hP, h⟩ := h
  rw [pure_eq_ok] at h
  have hd : d₁.input = D.input := by
    unfold Disc.ensureIoPtr at hd₁
    split at hd₁
    · exact (setIoPtr_frame hd₁).1
    · obtain rfl := Except.ok.inj hd₁; rfl
  rw [hd, hinp] at hi
  obtain rfl := Option.some.inj hi
  have hg : inp₁.glob = inp.glob := by
    unfold SampleSet.localized at hl
    split at hl
    · simp only [SampleSet.globalToLocal, bind_eq_ok, pure_eq_ok] at hl
      obtain ⟨_, _, hl⟩ := hl
      rw [← hl]
    · obtain rfl := Except.ok.inj hl; rfl
  rw [← h]
  refine ⟨_, rfl, ?_⟩
  cases g <;> simp [hg]

/-- The mean under the shares of `prob`. -/
theorem meanOf_divided {s : SampleSet ℝ} {z : List (Fin d → ℝ)} {W : List ℝ} (hv : s.glob.values = some (z.map List.ofFn))
    (hW : s.glob.probabilities = some W) {w : ℕ → ℝ} (hw : ∀ i < z.length, W[i]? = some (w i)) (g : (Fin d → ℝ) → ℝ) :
    meanOf g s = some (∑ i ∈ Finset.range z.length, w i * g (z.getD i 0)) := by
  unfold meanOf
  rw [hv, hW, Option.bind_some, Option.map_some]
  congr 1
  have hlist : List.zipWith (fun x w => w * g fun j => x.getD j 0) (z.map List.ofFn) W =
      (List.range z.length).map fun i => w i * g (z.getD i 0) := by
    apply List.ext_getElem?
    intro i
    by_cases hi : i < z.length
    · rw [List.getElem?_zipWith, List.getElem?_map, List.getElem?_eq_getElem hi, hw i hi, List.getElem?_map,
        List.getElem?_range hi]
      simp only [Option.map_some, getD_ofFn, List.getD_eq_getElem?_getD, List.getElem?_eq_getElem hi, Option.getD_some]
      congr 2
      exact congrArg g (getD_ofFn z[i])
    · rw [List.getElem?_eq_none (by simp; omega), List.getElem?_eq_none (by simp; omega)]
  rw [hlist]
  exact Multiset.sum_coe _

theorem mean_of_shares {G : Geometry ℝ} {t : SampleSet ℝ} {Q : (Fin d → ℝ) → Fin e → ℝ} {z : List (Fin d → ℝ)}
    {p vols : List ℝ} {v : ℕ → ℝ} (hvl : vols.length = z.length) (hv : ∀ i < z.length, vols[i]? = some (v i))
    {size : Nat} {D D' : Disc ℝ} {inp inp' : SampleSet ℝ} (hinp : D.input = some inp) (hs : SamplesAt inp z)
    (h : prob G size D true = .ok D') (hinp' : D'.input = some inp')
    (hW : inp'.glob.probabilities = some (List.zipWith (fun c v =>
        if 0 < p.getD c 0 ∧ 0 < mass ((z.map fun x => List.ofFn (Q x)).map (t.cell G)) vols c then
          p.getD c 0 * v / mass ((z.map fun x => List.ofFn (Q x)).map (t.cell G)) vols c else 0)
        ((z.map fun x => List.ofFn (Q x)).map (t.cell G)) vols)) (g : (Fin d → ℝ) → ℝ) :
    inputMean g (prob G size D true) = some (∑ i ∈ Finset.range z.length,
      dividedBy z.length p (fun i => t.cell G (List.ofFn (Q (z.getD i 0)))) v i * g (z.getD i 0)) := by
  obtain ⟨inp'', h1, h2⟩ := prob_keeps h hinp
  rw [hinp'] at h1
  obtain rfl := Option.some.inj h1
  unfold inputMean
  rw [h]
  simp only [Except.toOption, Option.bind_some, hinp']
  refine meanOf_divided (h2.trans hs) hW (fun i hi => ?_) g
  refine zip_entry (by simp) hvl hv (fun j hj => ?_) hi
  rw [List.getElem?_map, List.getElem?_map, List.getElem?_eq_getElem hj]
  simp [List.getD_eq_getElem?_getD, List.getElem?_eq_getElem hj]

/-- **C138.** Discretizations with more and more input samples `z n`, of any kind, whose volumes are the measures `μ` of
their cells, with their outputs under a model `Q` and a fixed output measure: if the cells shrink, the mean that
`prob` computes tends to that of the exact solution, which gives the inverse image of every output cell its
probability and is proportional to `μ` there. -/
theorem C138_cells {G : Geometry ℝ} (hG : Sound G) {t : SampleSet ℝ} {m : Nat} {μ : Measure (Fin d → ℝ)}
    [IsFiniteMeasure μ] {Q : (Fin d → ℝ) → Fin e → ℝ} (hQ : ThinContours G t m μ Q) {z : ℕ → List (Fin d → ℝ)}
    {s out : ℕ → SampleSet ℝ} (hs : ∀ n, SamplesAt (s n) (z n)) (hshrink : CellsShrink G μ s z)
    (hc : ∀ n, ClearCells G (s n) μ) {p : List ℝ} (hp0 : ∀ x ∈ p, 0 ≤ x)
    (hpos : ∀ c < m, 0 < p.getD c 0 → μ (Q ⁻¹' cellSet e G t c) ≠ 0) {D : ℕ → Disc ℝ}
    (hD : ∀ n, FreshDisc (D n) (z n).length m (s n) (out n) t ((z n).map fun x => List.ofFn (Q x))
      ((List.range (z n).length).map fun i => μ.real (cellSet d G (s n) i)) p) {size : Nat} (hsize : 0 < size)
    {g : (Fin d → ℝ) → ℝ} {K : ℝ} (hK : ∀ x, |g x| ≤ K) (hg : ∀ᵐ x ∂μ, ContinuousAt g x) :
    (∀ n, (inputMean g (prob G size (D n) true)).isSome) ∧
    Tendsto (fun n => (inputMean g (prob G size (D n) true)).getD 0) atTop
      (𝓝 (conditionalMean m (fun c => p.getD c 0) (fun c => Q ⁻¹' cellSet e G t c) μ g)) := by
  have hmean : ∀ n, inputMean g (prob G size (D n) true) = some (∑ i ∈ Finset.range (z n).length,
      dividedBy (z n).length p (fun i => t.cell G (List.ofFn (Q ((z n).getD i 0))))
        (fun i => μ.real (cellSet d G (s n) i)) i * g ((z n).getD i 0)) := by
    intro n
    obtain ⟨D', inp', h1, h2, h3⟩ := C03_prob_fresh (G := G) (hD n) size hsize
    refine mean_of_shares (by simp) (fun i hi => ?_) (hD n).hinput (hs n) h1 h2 h3 g
    rw [List.getElem?_map, List.getElem?_range hi]; rfl
  refine ⟨fun n => by rw [hmean]; rfl, ?_⟩
  simp only [hmean, Option.getD_some]
  exact cells_limit hG (hD 0).hready hQ hshrink hc hp0 hpos hK hg

theorem indicator_continuousAt {A : Set (Fin d → ℝ)} {x : Fin d → ℝ} (hx : x ∉ frontier A) :
    ContinuousAt (A.indicator (1 : (Fin d → ℝ) → ℝ)) x := by
  classical
  by_cases hxA : x ∈ A
  · have : A ∈ 𝓝 x := by
      rw [← mem_interior_iff_mem_nhds]
      by_contra h
      exact hx ⟨subset_closure hxA, h⟩
    refine (continuousAt_const (y := (1 : ℝ))).congr ?_
    filter_upwards [this] with y hy
    simp [Set.indicator, hy]
  · have hcl : x ∉ closure A := by
      rw [closure_eq_self_union_frontier]
      rintro (h | h)
      · exact hxA h
      · exact hx h
    refine (continuousAt_const (y := (0 : ℝ))).congr ?_
    filter_upwards [isClosed_closure.isOpen_compl.mem_nhds hcl] with y hy
    have : y ∉ A := fun h => hy (subset_closure h)
    simp [Set.indicator, this]

/-- **C138.** So the probability of every event whose boundary has no measure tends to its exact probability. -/
theorem C138_events {G : Geometry ℝ} (hG : Sound G) {t : SampleSet ℝ} {m : Nat} {μ : Measure (Fin d → ℝ)}
    [IsFiniteMeasure μ] {Q : (Fin d → ℝ) → Fin e → ℝ} (hQ : ThinContours G t m μ Q) {z : ℕ → List (Fin d → ℝ)}
    {s out : ℕ → SampleSet ℝ} (hs : ∀ n, SamplesAt (s n) (z n)) (hshrink : CellsShrink G μ s z)
    (hc : ∀ n, ClearCells G (s n) μ) {p : List ℝ} (hp0 : ∀ x ∈ p, 0 ≤ x)
    (hpos : ∀ c < m, 0 < p.getD c 0 → μ (Q ⁻¹' cellSet e G t c) ≠ 0) {D : ℕ → Disc ℝ}
    (hD : ∀ n, FreshDisc (D n) (z n).length m (s n) (out n) t ((z n).map fun x => List.ofFn (Q x))
      ((List.range (z n).length).map fun i => μ.real (cellSet d G (s n) i)) p) {size : Nat} (hsize : 0 < size)
    {A : Set (Fin d → ℝ)} (hA : MeasurableSet A) (hbd : μ (frontier A) = 0) :
    Tendsto (fun n => (inputMean (A.indicator 1) (prob G size (D n) true)).getD 0) atTop
      (𝓝 (∑ c ∈ Finset.range m, p.getD c 0 *
        (μ.real (A ∩ Q ⁻¹' cellSet e G t c) / μ.real (Q ⁻¹' cellSet e G t c)))) := by
  rw [← C131_events m (fun c => p.getD c 0) (fun c => Q ⁻¹' cellSet e G t c) μ hA]
  refine (C138_cells hG hQ hs hshrink hc hp0 hpos hD hsize (g := A.indicator 1) (K := 1) (fun x => ?_) ?_).2
  · classical
    simp only [Set.indicator]
    split <;> simp
  · filter_upwards [measure_eq_zero_iff_ae_notMem.1 hbd] with x hx using indicator_continuousAt hx

/-! ## Random samples -/

namespace Spec

/-- The points that `parts` processes draw, in the order of the processes. -/
def drawnPoints (parts n : Nat) (X : ℕ → ℕ → Fin d → ℝ) : List (Fin d → ℝ) :=
  ((List.range parts).map fun r => (List.range (numLocal n parts r)).map fun k => X r k).flatten

end Spec

theorem drawnPoints_rows (parts n : Nat) (X : ℕ → ℕ → Fin d → ℝ) :
    (drawnPoints parts n X).map List.ofFn = drawnRows parts n X := by
  unfold drawnPoints drawnRows
  rw [List.map_flatten, List.map_map]
  congr 1
  refine List.map_congr_left fun r _ => ?_
  exact List.map_map

/-- **C138.** Random samples, of whatever law, fill every measure that is absolutely continuous with respect to this law:
almost surely the condition of C138_voronoi holds. -/
theorem C138_random [IsProbabilityMeasure P] {ν : Measure (Fin d → ℝ)} {X : ℕ → ℕ → Ω → Fin d → ℝ}
    (hX : RandomSamples P ν X) {parts : Nat} (hparts : 0 < parts) {μ : Measure (Fin d → ℝ)}
    (hac : μ ≪ ν) :
    ∀ᵐ ω ∂P, Fill μ fun n => drawnPoints parts n fun r k => X r k ω := by
  have hμ : ∀ᵐ x ∂μ, ∀ ε > 0, ν (Metric.ball x ε) ≠ 0 := by
    filter_upwards [hac.ae_le Measure.support_mem_ae] with x hx ε hε
    exact ((Measure.mem_support_iff_forall x).1 hx _ (Metric.ball_mem_nhds x hε)).ne'
  set B := TopologicalSpace.countableBasis (Fin d → ℝ) with hB
  have hb := TopologicalSpace.isBasis_countableBasis (Fin d → ℝ)
  have hall : ∀ᵐ ω ∂P, ∀ U ∈ B, ν U ≠ 0 →
      ∀ᶠ n in atTop, ∃ x ∈ U, List.ofFn x ∈ drawnRows parts n fun r k => X r k ω := by
    refine (ae_ball_iff (TopologicalSpace.countable_countableBasis _)).2 fun U hU => ?_
    by_cases h0 : ν U = 0
    · exact Eventually.of_forall fun ω h => absurd h0 h
    · filter_upwards [eventually_hit hX hparts (hb.isOpen hU).measurableSet h0] with ω hω _ using hω
  filter_upwards [hall] with ω hω
  filter_upwards [hμ] with x hx ε hε
  obtain ⟨U, hU, hxU, hUb⟩ := hb.exists_subset_of_mem_open (Metric.mem_ball_self hε) Metric.isOpen_ball
  obtain ⟨δ, hδ, hδU⟩ := Metric.isOpen_iff.1 (hb.isOpen hU) x hxU
  have h0 : ν U ≠ 0 := fun h => hx δ hδ (measure_mono_null hδU h)
  filter_upwards [hω U hU h0] with n hn
  obtain ⟨c, hc, hcm⟩ := hn
  rw [← drawnPoints_rows, List.mem_map] at hcm
  obtain ⟨c', hc', he⟩ := hcm
  rw [List.ofFn_injective he] at hc'
  exact ⟨c, hc', by rw [dist_comm]; exact hUb hc⟩

/-! ## Output cells with thin boundaries -/

theorem notMem_frontier {S : Set (Fin e → ℝ)} {y : Fin e → ℝ} (h : ∀ᶠ y' in 𝓝 y, (y' ∈ S ↔ y ∈ S)) : y ∉ frontier S := by
  rintro ⟨h1, h2⟩
  by_cases hy : y ∈ S
  · refine h2 (mem_interior_iff_mem_nhds.2 ?_)
    filter_upwards [h] with y' h' using h'.2 hy
  · obtain ⟨y', h3, h4⟩ := (mem_closure_iff_frequently.1 h1).and_eventually h |>.exists
    exact hy (h4.1 h3)

/-- **C138.** For a Voronoi output set (with a continuous distance) it is enough that the model is continuous almost
everywhere and almost no output has the same distance from two samples of the output set. -/
theorem C138_contours_voronoi {G : Geometry ℝ} {t : SampleSet ℝ} (hk : t.kind = .voronoi) {w : List (List ℝ)}
    (hw : t.glob.values = some w) (hd : ∀ c ∈ w, Continuous fun y : Fin e → ℝ => G.dist t.pNorm (List.ofFn y) c)
    {μ : Measure (Fin d → ℝ)} {Q : (Fin d → ℝ) → Fin e → ℝ} (hQ : ∀ᵐ x ∂μ, ContinuousAt Q x)
    (htie : ∀ (i j : Nat) a b, i ≠ j → w[i]? = some a → w[j]? = some b →
      μ {x | G.dist t.pNorm (List.ofFn (Q x)) a = G.dist t.pNorm (List.ofFn (Q x)) b} = 0) (m : Nat) :
    ThinContours G t m μ Q := by
  have hcell : ∀ x i, IsCell G t x i ↔ IsNearest (G.dist t.pNorm) w x i := by
    intro x i
    unfold IsCell
    rw [hk]
    simp only [hw, Option.some.injEq, forall_eq']
  have hall : ∀ᵐ x ∂μ, ∀ (i j : Nat) a b, i ≠ j → w[i]? = some a → w[j]? = some b →
      ¬ G.dist t.pNorm (List.ofFn (Q x)) a = G.dist t.pNorm (List.ofFn (Q x)) b := by
    refine ae_all_iff.2 fun i => ae_all_iff.2 fun j => ?_
    by_cases hij : i ≠ j
    swap
    · exact Eventually.of_forall fun x a b h => absurd h hij
    cases hi : w[i]? with
    | none => exact Eventually.of_forall fun x a b _ h => absurd h (by simp)
    | some a =>
      cases hj : w[j]? with
      | none => exact Eventually.of_forall fun x a b _ _ h => absurd h (by simp)
      | some b =>
        filter_upwards [measure_eq_zero_iff_ae_notMem.1 (htie i j a b hij hi hj)] with x hx a' b' _ ha' hb'
        obtain rfl := Option.some.inj ha'
        obtain rfl := Option.some.inj hb'
        exact hx
  refine ⟨hQ, ?_, ?_⟩
  · filter_upwards [hall] with x hx i j hi hj
    by_contra hij
    obtain ⟨a, ha, ha'⟩ := (hcell _ _).1 hi
    obtain ⟨b, hb, hb'⟩ := (hcell _ _).1 hj
    exact hx i j a b hij ha hb (le_antisymm (ha' b (List.mem_of_getElem? hb)) (hb' a (List.mem_of_getElem? ha)))
  · filter_upwards [hall] with x hx c _
    refine notMem_frontier ?_
    have hlt : ∀ i ∈ Finset.range w.length, ∀ j ∈ Finset.range w.length,
        ∀ᶠ y in 𝓝 (Q x), (G.dist t.pNorm (List.ofFn y) (w.getD i []) ≤ G.dist t.pNorm (List.ofFn y) (w.getD j []) ↔
          G.dist t.pNorm (List.ofFn (Q x)) (w.getD i []) ≤ G.dist t.pNorm (List.ofFn (Q x)) (w.getD j [])) := by
      intro i hi j hj
      have hi := Finset.mem_range.1 hi
      have hj := Finset.mem_range.1 hj
      by_cases hij : i = j
      · subst hij
        exact Eventually.of_forall fun y => by simp
      have e1 : w.getD i [] = w[i] := by rw [List.getD_eq_getElem?_getD, List.getElem?_eq_getElem hi]; rfl
      have e2 : w.getD j [] = w[j] := by rw [List.getD_eq_getElem?_getD, List.getElem?_eq_getElem hj]; rfl
      rw [e1, e2]
      have c1 := (hd _ (List.getElem_mem hi)).continuousAt (x := Q x)
      have c2 := (hd _ (List.getElem_mem hj)).continuousAt (x := Q x)
      rcases lt_or_gt_of_ne (hx i j _ _ hij (List.getElem?_eq_getElem hi) (List.getElem?_eq_getElem hj)) with h | h
      · filter_upwards [c1.eventually_lt c2 h] with y hy using ⟨fun _ => h.le, fun _ => hy.le⟩
      · filter_upwards [c2.eventually_lt c1 h] with y hy using
          ⟨fun h' => absurd hy (not_lt.2 h'), fun h' => absurd h (not_lt.2 h')⟩
    have hev := (Finset.eventually_all (Finset.range w.length)).2 fun i hi =>
      (Finset.eventually_all (Finset.range w.length)).2 (hlt i hi)
    have hform : ∀ y, IsCell G t (List.ofFn y) c ↔ c < w.length ∧ ∀ j ∈ Finset.range w.length,
        G.dist t.pNorm (List.ofFn (y : Fin e → ℝ)) (w.getD c []) ≤ G.dist t.pNorm (List.ofFn y) (w.getD j []) := by
      intro y
      rw [hcell]
      constructor
      · rintro ⟨a, ha, ha'⟩
        obtain ⟨hl, rfl⟩ := List.getElem?_eq_some_iff.1 ha
        refine ⟨hl, fun j hj => ?_⟩
        have hj := Finset.mem_range.1 hj
        rw [List.getD_eq_getElem?_getD, List.getElem?_eq_getElem hl, List.getD_eq_getElem?_getD,
          List.getElem?_eq_getElem hj]
        exact ha' _ (List.getElem_mem hj)
      · rintro ⟨hl, h⟩
        refine ⟨w[c], List.getElem?_eq_getElem hl, fun b hb => ?_⟩
        obtain ⟨j, hj, rfl⟩ := List.mem_iff_getElem.1 hb
        have := h j (Finset.mem_range.2 hj)
        rwa [List.getD_eq_getElem?_getD, List.getElem?_eq_getElem hl, List.getD_eq_getElem?_getD,
          List.getElem?_eq_getElem hj] at this
    filter_upwards [hev] with y hy
    show IsCell G t (List.ofFn y) c ↔ IsCell G t (List.ofFn (Q x)) c
    rw [hform, hform]
    refine and_congr_right fun hl => forall_congr' fun j => forall_congr' fun hj => ?_
    exact hy c (Finset.mem_range.2 hl) j hj

/-- **C138.** For an output set of rectangles (as the regular partitions are) it is enough that the model is continuous
almost everywhere and almost no output has a coordinate in common with a face of a rectangle. -/
theorem C138_contours_rectangles {G : Geometry ℝ} {t : SampleSet ℝ} (hk : t.kind = .rectangle) {v r l : List (List ℝ)}
    (hv : t.glob.values = some v) (hr : t.glob.right = some r) (hl : t.glob.left = some l)
    {μ : Measure (Fin d → ℝ)} {Q : (Fin d → ℝ) → Fin e → ℝ} (hQ : ∀ᵐ x ∂μ, ContinuousAt Q x)
    (hface : ∀ row ∈ l ++ r, ∀ (k : Fin e) f, row[(k : ℕ)]? = some f → μ {x | Q x k = f} = 0) (m : Nat) :
    ThinContours G t m μ Q := by
  have hcell : ∀ x i, IsCell G t x i ↔ IsFirst (v.length - 1)
      (fun j => ∃ a b, l[j]? = some a ∧ r[j]? = some b ∧ InBox a b x) i := by
    intro x i
    unfold IsCell
    rw [hk]
    simp only [hv, hr, hl, Option.some.injEq]
    exact ⟨fun h => h v r l rfl rfl rfl, by rintro h _ _ _ rfl rfl rfl; exact h⟩
  refine ⟨hQ, Eventually.of_forall fun x i j h1 h2 => isFirst_unique ((hcell _ _).1 h1) ((hcell _ _).1 h2), ?_⟩
  have hall : ∀ᵐ x ∂μ, ∀ row ∈ l ++ r, ∀ (k : Fin e) f, row[(k : ℕ)]? = some f → Q x k ≠ f := by
    refine (ae_ball_iff (S := {row | row ∈ l ++ r}) ((l ++ r).finite_toSet.countable)).2 fun row hrow =>
      ae_all_iff.2 fun k => ?_
    cases hf : row[(k : ℕ)]? with
    | none => exact Eventually.of_forall fun x f h => absurd h (by simp)
    | some f =>
      filter_upwards [measure_eq_zero_iff_ae_notMem.1 (hface row hrow k f hf)] with x hx f' hf'
      obtain rfl := Option.some.inj hf'
      exact hx
  filter_upwards [hall] with x hx c _
  refine notMem_frontier ?_
  have hside : ∀ row ∈ l ++ r, ∀ᶠ y in 𝓝 (Q x), ∀ (k : Fin e) f, row[(k : ℕ)]? = some f →
      ((y k ≤ f ↔ Q x k ≤ f) ∧ (f < y k ↔ f < Q x k)) := by
    intro row hrow
    refine eventually_all.2 fun k => ?_
    cases hf : row[(k : ℕ)]? with
    | none => exact Eventually.of_forall fun y f h => absurd h (by simp)
    | some f =>
      have hck : ContinuousAt (fun y : Fin e → ℝ => y k) (Q x) := (continuous_apply k).continuousAt
      rcases lt_or_gt_of_ne (hx row hrow k f hf) with h | h
      · filter_upwards [hck.eventually_lt continuousAt_const h] with y hy f' hf'
        obtain rfl := Option.some.inj hf'
        exact ⟨⟨fun _ => h.le, fun _ => hy.le⟩, ⟨fun h' => absurd hy (not_lt.2 h'.le), fun h' => absurd h (not_lt.2 h'.le)⟩⟩
      · filter_upwards [continuousAt_const.eventually_lt hck h] with y hy f' hf'
        obtain rfl := Option.some.inj hf'
        exact ⟨⟨fun h' => absurd hy (not_lt.2 h'), fun h' => absurd h (not_lt.2 h')⟩, ⟨fun _ => h, fun _ => hy⟩⟩
  have hev : ∀ᶠ y in 𝓝 (Q x), ∀ row ∈ l ++ r, ∀ (k : Fin e) f, row[(k : ℕ)]? = some f →
      ((y k ≤ f ↔ Q x k ≤ f) ∧ (f < y k ↔ f < Q x k)) :=
    ((l ++ r).finite_toSet.eventually_all).2 hside
  filter_upwards [hev] with y hy
  show IsCell G t (List.ofFn y) c ↔ IsCell G t (List.ofFn (Q x)) c
  rw [hcell, hcell]
  have hin : ∀ j : ℕ, (∃ a b, l[j]? = some a ∧ r[j]? = some b ∧ InBox a b (List.ofFn y)) ↔
      ∃ a b, l[j]? = some a ∧ r[j]? = some b ∧ InBox a b (List.ofFn (Q x)) := by
    intro j
    refine exists_congr fun a => exists_congr fun b => and_congr_right fun ha => and_congr_right fun hb => ?_
    have hma : a ∈ l ++ r := List.mem_append_left _ (List.mem_of_getElem? ha)
    have hmb : b ∈ l ++ r := List.mem_append_right _ (List.mem_of_getElem? hb)
    have hget : ∀ (u : Fin e → ℝ) (i : ℕ) (c : ℝ), (List.ofFn u)[i]? = some c ↔ ∃ h : i < e, u ⟨i, h⟩ = c := by
      intro u i c
      rw [List.getElem?_ofFn]
      by_cases h : i < e <;> simp [h]
    unfold InBox
    simp only [hget]
    refine and_congr (forall_congr' fun i => ?_) (forall_congr' fun i => ?_)
    · constructor
      · rintro h c f ⟨hi, rfl⟩ hf
        exact ((hy b hmb ⟨i, hi⟩ f hf).1).1 (h _ f ⟨hi, rfl⟩ hf)
      · rintro h c f ⟨hi, rfl⟩ hf
        exact ((hy b hmb ⟨i, hi⟩ f hf).1).2 (h _ f ⟨hi, rfl⟩ hf)
    · constructor
      · rintro h c f ⟨hi, rfl⟩ hf
        exact ((hy a hma ⟨i, hi⟩ f hf).2).1 (h _ f ⟨hi, rfl⟩ hf)
      · rintro h c f ⟨hi, rfl⟩ hf
        exact ((hy a hma ⟨i, hi⟩ f hf).2).2 (h _ f ⟨hi, rfl⟩ hf)
  unfold IsFirst
  simp only [hin]

/-! ## One parameter and `exact_volume_1D` -/

theorem exactVolume1D_frame {argsort : List ℝ → List Nat} {size : Nat} {s t : SampleSet ℝ} {N : Nat} (hc : Consistent s N)
    (h : s.exactVolume1D argsort size = .ok t) {vols : List ℝ} (hv : t.glob.volumes = some vols) (hvl : vols.length = N) {v : List (List ℝ)} (hval : s.glob.values = some v) :
    t.kind = s.kind ∧ t.pNorm = s.pNorm ∧ t.glob.values = s.glob.values ∧ Consistent t N ∧
      t.loc.values = some (arraySplit size v) ∧ t.loc.volumes = some (arraySplit size vols) := by
  unfold SampleSet.exactVolume1D at h
  rw [bind_eq_ok] at h
  obtain ⟨_, _, h⟩ := h
  rw [bind_eq_ok] at h
  obtain ⟨_, _, h⟩ := h
  rw [bind_eq_ok] at h
  obtain ⟨v', _, h⟩ := h
  rw [bind_eq_ok] at h
  obtain ⟨dom, _, h⟩ := h
  rw [bind_eq_ok] at h
  obtain ⟨_, _, h⟩ := h
  dsimp only at h
  generalize hw : List.map (fun x : ℝ => x / _) _ = w at h
  have hg : t.glob.volumes = some w := by
    have := h
    simp only [SampleSet.globalToLocal, bind_eq_ok, pure_eq_ok] at this
    obtain ⟨_, _, this⟩ := this
    rw [← this]
  rw [hg] at hv
  obtain rfl := Option.some.inj hv
  have hc' := consistent_setVolumes hc hvl
  rw [SampleSet.globalToLocal_ok hc'] at h
  obtain rfl := Except.ok.inj h
  exact ⟨rfl, rfl, rfl, hc', by simp [SampleSet.splitSet, Arrays.map₂, hval], rfl⟩

/-- The points of `[a, b)` as points with one coordinate, and their cells. -/
theorem line_volume {G : Geometry ℝ} {s : SampleSet ℝ} (hk : s.kind = .voronoi)
    (hdist : ∀ x c : ℝ, G.dist s.pNorm [x] [c] = |x - c|) {xs : List ℝ} (hv : s.glob.values = some (xs.map fun x => [x]))
    {a b : ℝ} (hab : a < b) {i : Nat} {y : ℝ} (hy : xs[i]? = some y) {l r : ℝ} (hlr : l ≤ r)
    (he : nearestCell xs a b y = Set.Icc l r) :
    ((volume (domainBox 1 [(a, b)]))⁻¹ • volume.restrict (domainBox 1 [(a, b)])).real (cellSet 1 G s i) =
      (r - l) / (b - a) := by
  have hmp := volume_preserving_funUnique (Fin 1) ℝ
  have hbox : domainBox 1 [(a, b)] = (MeasurableEquiv.funUnique (Fin 1) ℝ) ⁻¹' Set.Ico a b := by
    ext x
    simp [domainBox, MeasurableEquiv.funUnique]
  have hcell : cellSet 1 G s i ∩ domainBox 1 [(a, b)] =
      (MeasurableEquiv.funUnique (Fin 1) ℝ) ⁻¹' (Set.Icc l r ∩ Set.Ico a b) := by
    rw [hbox, Set.preimage_inter, ← he]
    ext x
    have hx : List.ofFn x = [x 0] := by simp
    simp only [Set.mem_inter_iff, Set.mem_preimage]
    refine and_congr_left fun hx' => ?_
    show IsCell G s (List.ofFn x) i ↔ x 0 ∈ nearestCell xs a b y
    have hx' : a ≤ x 0 ∧ x 0 < b := hx'
    unfold IsCell
    rw [hk]
    simp only [hv, Option.some.injEq, forall_eq', hx]
    unfold IsNearest
    rw [List.getElem?_map, hy]
    simp only [Option.map_some, Option.some.injEq, exists_eq_left', List.mem_map, forall_exists_index, and_imp,
      forall_apply_eq_imp_iff₂, hdist, nearestCell, Set.mem_ofPred_eq]
    constructor
    · exact fun h => ⟨hx'.1, hx'.2.le, h⟩
    · exact fun h => h.2.2
  have hsub : Set.Icc l r ⊆ Set.Icc a b := by
    rw [← he]
    intro x hx
    exact ⟨hx.1, hx.2.1⟩
  have hae : (Set.Icc l r ∩ Set.Ico a b : Set ℝ) =ᵐ[volume] Set.Icc l r := by
    have h1 : (Set.Ico a b : Set ℝ) =ᵐ[volume] Set.Icc a b := Ico_ae_eq_Icc
    have h2 := (ae_eq_refl (Set.Icc l r)).inter h1
    rwa [Set.inter_eq_left.2 hsub] at h2
  have m1 : volume (cellSet 1 G s i ∩ domainBox 1 [(a, b)]) = volume (Set.Icc l r) := by
    rw [hcell]
    exact (hmp.measure_preimage (measurableSet_Icc.inter measurableSet_Ico).nullMeasurableSet).trans (measure_congr hae)
  have m2 : volume (domainBox 1 [(a, b)]) = volume (Set.Ico a b) := by
    rw [hbox]
    exact hmp.measure_preimage measurableSet_Ico.nullMeasurableSet
  rw [law_real (by rw [hbox]; exact (MeasurableEquiv.funUnique (Fin 1) ℝ).measurable measurableSet_Ico), Measure.real,
    Measure.real, m1, m2, Real.volume_Icc, Real.volume_Ico, ENNReal.toReal_ofReal (by linarith),
    ENNReal.toReal_ofReal (by linarith)]

/-- **C138.** One parameter: distinct samples in `[a, b]` that fill the interval, `exact_volume_1D`, and `prob`. The means
tend to those of the exact solution with the uniform measure on the interval. -/
theorem C138_line {G : Geometry ℝ} (hG : Sound G) {pn : Nat} (hdist : ∀ x c : ℝ, G.dist pn [x] [c] = |x - c|)
    {argsort : List ℝ → List Nat} (hA : IsArgsort argsort) {a b : ℝ} {xs : ℕ → List ℝ} (hn : ∀ n, 2 ≤ (xs n).length)
    (hnd : ∀ n, (xs n).Nodup) (hin : ∀ n, ∀ x ∈ xs n, a ≤ x ∧ x ≤ b)
    (hfill : ∀ x ∈ Set.Icc a b, ∀ ε > 0, ∀ᶠ n in atTop, ∃ c ∈ xs n, |x - c| < ε) {s out : ℕ → SampleSet ℝ}
    (hs : ∀ n, (s n).kind = .voronoi ∧ (s n).pNorm = pn ∧ (s n).dim = 1 ∧ (s n).domain = some [(a, b)] ∧
      (s n).glob.values = some ((xs n).map fun x => [x])) {t : SampleSet ℝ} {m : Nat} {Q : (Fin 1 → ℝ) → Fin e → ℝ}
    (hQ : ThinContours G t m (volume.restrict (domainBox 1 [(a, b)])) Q) {p : List ℝ} (hp0 : ∀ x ∈ p, 0 ≤ x)
    (hpos : ∀ c < m, 0 < p.getD c 0 → volume (Q ⁻¹' cellSet e G t c ∩ domainBox 1 [(a, b)]) ≠ 0) {D : ℕ → Disc ℝ}
    (hD : ∀ n, Unmeasured (D n) (xs n).length m (s n) (out n) t ((xs n).map fun x => List.ofFn (Q fun _ => x)) p)
    {size : Nat} (hsize : 0 < size) {g : (Fin 1 → ℝ) → ℝ} {K : ℝ} (hK : ∀ x, |g x| ≤ K)
    (hg : ∀ᵐ x ∂volume.restrict (domainBox 1 [(a, b)]), ContinuousAt g x) :
    (∀ n, (inputMean g ((s n).exactVolume1D argsort size >>= fun s' =>
      prob G size { D n with input := some s' } true)).isSome) ∧
    Tendsto (fun n => (inputMean g ((s n).exactVolume1D argsort size >>= fun s' =>
      prob G size { D n with input := some s' } true)).getD 0) atTop
      (𝓝 (conditionalMean m (fun c => p.getD c 0) (fun c => Q ⁻¹' cellSet e G t c)
        ((volume (domainBox 1 [(a, b)]))⁻¹ • volume.restrict (domainBox 1 [(a, b)])) g)) := by
  set B := domainBox 1 [(a, b)] with hB
  set μ := (volume B)⁻¹ • volume.restrict B with hμ
  set z : ℕ → List (Fin 1 → ℝ) := fun n => (xs n).map fun x _ => x with hz
  have hzl : ∀ n, (z n).length = (xs n).length := fun n => by simp [hz]
  have hzv : ∀ n, (z n).map List.ofFn = (xs n).map fun x => [x] := fun n => by
    simp only [hz, List.map_map]
    refine List.map_congr_left fun x _ => ?_
    simp
  have hab : a < b := by
    have h1 := hin 0 _ (List.getElem_mem (show 0 < (xs 0).length by have := hn 0; omega))
    have h2 := hin 0 _ (List.getElem_mem (show 1 < (xs 0).length by have := hn 0; omega))
    have h3 : (xs 0)[0]'(by have := hn 0; omega) ≠ (xs 0)[1]'(by have := hn 0; omega) := fun h =>
      absurd ((hnd 0).getElem_inj_iff.1 h) (by norm_num)
    rcases lt_or_gt_of_ne h3 with h | h <;> linarith
  have hDp : ProperBox 1 [(a, b)] := ⟨rfl, by simpa using hab⟩
  have hBv : volume B ≠ 0 ∧ volume B ≠ ⊤ := by
    have : volume B = ENNReal.ofReal (b - a) := by
      rw [hB, domainBox_eq hDp.1, volume_pi_pi]
      simp
    rw [this]
    exact ⟨by simpa using hab, ENNReal.ofReal_ne_top⟩
  have hfin : IsFiniteMeasure μ := by
    refine ⟨?_⟩
    rw [hμ, Measure.smul_apply, Measure.restrict_apply_univ, smul_eq_mul, ENNReal.inv_mul_cancel hBv.1 hBv.2]
    exact ENNReal.one_lt_top
  have hsplit : ∀ n, ∃ s' vols, (s n).exactVolume1D argsort size = .ok s' ∧ s'.kind = .voronoi ∧ s'.pNorm = pn ∧
      SamplesAt s' (z n) ∧ Consistent s' (xs n).length ∧ s'.loc.values.isSome ∧
      s'.loc.volumes = some (arraySplit size vols) ∧ vols.length = (z n).length ∧
      ∀ i < (z n).length, vols[i]? = some (μ.real (cellSet 1 G s' i)) := by
    intro n
    obtain ⟨h1, h2, h3, h4, h5⟩ := hs n
    have hc := (hD n).inputReady.consistent
    obtain ⟨s', vols, e1, e2, e3, e4, e5, -⟩ := C21_exact_length_partial hA hc h3 h4 h5 (hn n) (hnd n) (hin n)
      (size := size)
    obtain ⟨f1, f2, f3, f4, f5, f6⟩ := exactVolume1D_frame hc e1 e2 e5 h5
    refine ⟨s', vols, e1, f1.trans h1, f2.trans h2, ?_, f4, by rw [f5]; rfl, f6, by rw [e5, hzl], fun i hi => ?_⟩
    · show s'.glob.values = _
      rw [f3, h5, hzv]
    · rw [hzl] at hi
      obtain ⟨l, r, g1, g2, g3⟩ := e4 i _ (List.getElem?_eq_getElem hi)
      rw [g3, line_volume (f1.trans h1) (by rw [f2, h2]; exact hdist) (f3.trans h5) hab (List.getElem?_eq_getElem hi) g1
        g2]
  choose s' vols k1 k2 k3 k4 k5 k6 k7 k8 k9 using hsplit
  have hmean : ∀ n, inputMean g ((s n).exactVolume1D argsort size >>= fun s' =>
      prob G size { D n with input := some s' } true) = some (∑ i ∈ Finset.range (z n).length,
      dividedBy (z n).length p (fun i => t.cell G (List.ofFn (Q ((z n).getD i 0))))
        (fun i => μ.real (cellSet 1 G (s' n) i)) i * g ((z n).getD i 0)) := by
    intro n
    rw [k1 n, ok_bind]
    have hyz : (xs n).map (fun x => List.ofFn (Q fun _ => x)) = (z n).map fun x => List.ofFn (Q x) := by
      simp only [hz, List.map_map]
      rfl
    obtain ⟨D', inp', h1, h2, h3⟩ := prob_measured (G := G) (D := { D n with input := some (s' n) }) rfl (k5 n) (k6 n)
      hsize ((k8 n).trans (hzl n)) (k7 n) (hD n).output (hD n).outputConsistent (hD n).outputValues (hD n).outputLocal
      (hD n).outputProb (hD n).outputProbReady (hD n).probabilities (hD n).pointer
    rw [hyz] at h3
    exact mean_of_shares (k8 n) (k9 n) rfl (k4 n) h1 h2 h3 g
  refine ⟨fun n => by rw [hmean]; rfl, ?_⟩
  simp only [hmean, Option.getD_some]
  have hone : ∀ x : Fin 1 → ℝ, List.ofFn x = [x 0] := fun x => by simp
  have hnorm : NormLike 1 G pn := by
    refine ⟨1, 1, one_pos, one_pos, fun x c => ?_⟩
    have : dist x c = |x 0 - c 0| := by
      refine le_antisymm ((dist_pi_le_iff (abs_nonneg _)).2 fun j => ?_) ?_
      · rw [Subsingleton.elim j 0, Real.dist_eq]
      · rw [← Real.dist_eq]
        exact dist_le_pi_dist x c 0
    rw [hone, hone, hdist, this]
    simp
  have hμac : ∀ {q : (Fin 1 → ℝ) → Prop}, (∀ᵐ x ∂volume.restrict B, q x) → ∀ᵐ x ∂μ, q x := fun h =>
    Measure.ae_smul_measure h _
  refine cells_limit hG (hD 0).outputProbReady ⟨hμac hQ.continuous, hμac hQ.one, hμac hQ.thin⟩
    (C138_voronoi hnorm (fun n h => ?_) ?_ k2 k3 k4) (fun n => ?_) hp0 (fun c hc hpc => ?_) hK (hμac hg)
  · have := hzl n
    rw [h] at this
    have := hn n
    simp at *
    omega
  · refine hμac ?_
    have hBm : MeasurableSet B := by
      rw [hB, domainBox_eq hDp.1]; exact MeasurableSet.univ_pi fun j => measurableSet_Ico
    filter_upwards [ae_restrict_mem hBm] with x hx ε hε
    have hx0 : x 0 ∈ Set.Icc a b := by
      have := hx 0 (a, b) rfl
      exact ⟨this.1, this.2.le⟩
    filter_upwards [hfill (x 0) hx0 ε hε] with n h
    obtain ⟨c, hc, hxc⟩ := h
    refine ⟨fun _ => c, List.mem_map.2 ⟨c, hc, rfl⟩, ?_⟩
    rw [dist_pi_lt_iff hε]
    intro j
    rw [Subsingleton.elim j 0, Real.dist_eq]
    exact hxc
  · refine clear_scale (C130_clear_euclidean (k2 n) (k4 n) ?_ ?_ ?_ B) _
    · intro c hc
      obtain ⟨y, -, rfl⟩ := List.mem_map.1 hc
      simp
    · rw [hzv]
      exact (hnd n).map fun x y h => by simpa using h
    · intro x c
      rw [k3 n, hone, hone, hdist]
      simp [Real.sqrt_sq_eq_abs]
  · rw [hμ, Measure.smul_apply, smul_eq_mul]
    refine mul_ne_zero (ENNReal.inv_ne_zero.2 hBv.2) ?_
    have hBm : MeasurableSet B := by
      rw [hB, domainBox_eq hDp.1]; exact MeasurableSet.univ_pi fun j => measurableSet_Ico
    rw [Measure.restrict_apply' hBm]
    exact hpos c hc hpc

/-! ### A concrete case -/

namespace Ex

/-- The points `0, 1/(n+1), 2/(n+1), …, 1`. -/
noncomputable def steps (n : Nat) : List ℝ := (List.range (n + 2)).map fun k : ℕ => (k : ℝ) / ((n : ℝ) + 1)

theorem steps_nodup (n : Nat) : (steps n).Nodup := by
  refine List.nodup_range.map fun i j h => ?_
  have h : (i : ℝ) / ((n : ℝ) + 1) = (j : ℝ) / ((n : ℝ) + 1) := h
  have hn : ((n : ℝ) + 1) ≠ 0 := by positivity
  rw [div_left_inj' hn] at h
  exact_mod_cast h

theorem steps_in (n : Nat) : ∀ x ∈ steps n, (0 : ℝ) ≤ x ∧ x ≤ 1 := by
  intro x hx
  obtain ⟨k, hk, rfl⟩ := List.mem_map.1 hx
  have hk := List.mem_range.1 hk
  have hk : (k : ℝ) ≤ (n : ℝ) + 1 := by exact_mod_cast (show k ≤ n + 1 by omega)
  exact ⟨by positivity, (div_le_one (by positivity)).2 hk⟩

theorem steps_fill : ∀ x ∈ Set.Icc (0 : ℝ) 1, ∀ ε > 0, ∀ᶠ n in atTop, ∃ c ∈ steps n, |x - c| < ε := by
  intro x hx ε hε
  have hz := tendsto_one_div_add_atTop_nhds_zero_nat (𝕜 := ℝ)
  filter_upwards [(tendsto_order.1 hz).2 ε hε] with n hn
  have hn0 : (0 : ℝ) < (n : ℝ) + 1 := by positivity
  set k := ⌊x * ((n : ℝ) + 1)⌋₊ with hk
  have h1 : (k : ℝ) ≤ x * ((n : ℝ) + 1) := Nat.floor_le (mul_nonneg hx.1 hn0.le)
  have h2 : x * ((n : ℝ) + 1) < k + 1 := Nat.lt_floor_add_one _
  have h3 : k < n + 2 := by
    have : (k : ℝ) ≤ (n : ℝ) + 1 := h1.trans (by nlinarith [hx.2])
    have : k ≤ n + 1 := by exact_mod_cast this
    omega
  refine ⟨(k : ℝ) / ((n : ℝ) + 1), List.mem_map.2 ⟨k, List.mem_range.2 h3, rfl⟩, lt_of_le_of_lt ?_ hn⟩
  have h4 : x - (k : ℝ) / ((n : ℝ) + 1) = (x * ((n : ℝ) + 1) - k) / ((n : ℝ) + 1) := by field_simp
  rw [h4, abs_of_nonneg (div_nonneg (by linarith) hn0.le)]
  exact div_le_div_of_nonneg_right (by linarith) hn0.le

/-- An output measure with two cells. -/
noncomputable def halves : SampleSet ℝ :=
  { dim := 1, glob := { values := some [[1 / 4], [3 / 4]], probabilities := some [1 / 5, 4 / 5] } }

theorem ready_halves : Ready halves 2 :=
  ⟨SampleSet.consistent_of_checkNum (size := 1) rfl rfl, by norm_num, rfl, Or.inl rfl, (nomatch ·), (nomatch ·)⟩

theorem consistent_column (xs : List ℝ) (f : ℝ → ℝ) (D : Option (List (ℝ × ℝ))) :
    Consistent ({ dim := 1, domain := D, glob := { values := some (xs.map fun x => [f x]) } } : SampleSet ℝ) xs.length := by
  refine ⟨⟨fun v hv => ?_, nofun, nofun, nofun, nofun, nofun, nofun, nofun, nofun, nofun, nofun, nofun, nofun, nofun⟩,
    fun h => (nomatch h.values), fun v hv row hrow => ?_⟩
  · obtain rfl := Option.some.inj hv
    simp
  · obtain rfl := Option.some.inj hv
    obtain ⟨x, -, rfl⟩ := List.mem_map.1 hrow
    rfl

noncomputable def stepSet (n : Nat) : SampleSet ℝ :=
  { dim := 1, domain := some [(0, 1)], glob := { values := some ((steps n).map fun x => [x]) } }

noncomputable def stepOut (n : Nat) : SampleSet ℝ :=
  { dim := 1, glob := { values := some ((steps n).map fun x => [x ^ 2]) } }

noncomputable def stepDisc (n : Nat) : Disc ℝ :=
  { input := some (stepSet n), output := some (stepOut n), outputProb := some halves }

theorem squares_thin : ThinContours euclid halves 2 (volume.restrict (domainBox 1 [(0, 1)]))
    fun (x : Fin 1 → ℝ) (_ : Fin 1) => x 0 ^ 2 := by
  have hd : ∀ p (x c : ℝ), euclid.dist p [x] [c] = |x - c| := fun p x c => by simp [euclid, Real.sqrt_sq_eq_abs]
  have hone : ∀ x : Fin 1 → ℝ, List.ofFn x = [x 0] := fun x => by simp
  refine C138_contours_voronoi rfl rfl ?_ ?_ ?_ 2
  · intro c hc
    simp only [hone]
    have : c = [1 / 4] ∨ c = [3 / 4] := by simpa using hc
    rcases this with rfl | rfl <;> simp only [hd] <;> fun_prop
  · exact Eventually.of_forall fun x => (continuous_pi fun _ => (continuous_apply 0).pow 2).continuousAt
  · intro i j a b hij ha hb
    have hsub : {x : Fin 1 → ℝ | euclid.dist halves.pNorm (List.ofFn fun _ : Fin 1 => x 0 ^ 2) a =
        euclid.dist halves.pNorm (List.ofFn fun _ : Fin 1 => x 0 ^ 2) b} ⊆ {x | x 0 = √(1 / 2)} ∪ {x | x 0 = -√(1 / 2)} := by
      intro x hx
      have hx : euclid.dist halves.pNorm (List.ofFn fun _ : Fin 1 => x 0 ^ 2) a =
        euclid.dist halves.pNorm (List.ofFn fun _ : Fin 1 => x 0 ^ 2) b := hx
      have hsq : x 0 ^ 2 = 1 / 2 := by
        rw [hone] at hx
        match i, j with
        | 0, 0 => exact absurd rfl hij
        | 0, 1 =>
          obtain rfl := Option.some.inj ha
          obtain rfl := Option.some.inj hb
          rw [hd, hd, abs_eq_abs] at hx
          rcases hx with hx | hx <;> linarith
        | 1, 0 =>
          obtain rfl := Option.some.inj ha
          obtain rfl := Option.some.inj hb
          rw [hd, hd, abs_eq_abs] at hx
          rcases hx with hx | hx <;> linarith
        | 1, 1 => exact absurd rfl hij
        | i + 2, _ => exact absurd ha (by simp)
        | 0, j + 2 => exact absurd hb (by simp)
        | 1, j + 2 => exact absurd hb (by simp)
      have h2 : (√(1 / 2) : ℝ) ^ 2 = 1 / 2 := Real.sq_sqrt (by norm_num)
      rw [← h2] at hsq
      exact (sq_eq_sq_iff_eq_or_eq_neg.1 hsq)
    refine measure_mono_null hsub (measure_union_null ?_ ?_) <;>
      exact nonpos_iff_eq_zero.1 ((Measure.restrict_apply_le _ _).trans (Measure.pi_hyperplane _ _ _).le)

theorem squares_pos : ∀ c < 2, volume ((fun (x : Fin 1 → ℝ) (_ : Fin 1) => x 0 ^ 2) ⁻¹' cellSet 1 euclid halves c ∩
    domainBox 1 [(0, 1)]) ≠ 0 := by
  have hd : ∀ p (x c : ℝ), euclid.dist p [x] [c] = |x - c| := fun p x c => by simp [euclid, Real.sqrt_sq_eq_abs]
  have hone : ∀ x : Fin 1 → ℝ, List.ofFn x = [x 0] := fun x => by simp
  have hcell : ∀ (x : Fin 1 → ℝ), (x ∈ cellSet 1 euclid halves 0 ↔ x 0 ≤ 1 / 2) ∧
      (x ∈ cellSet 1 euclid halves 1 ↔ 1 / 2 ≤ x 0) := by
    intro x
    have h : ∀ i, x ∈ cellSet 1 euclid halves i ↔ IsNearest (euclid.dist 2) [[1 / 4], [3 / 4]] [x 0] i := by
      intro i
      show IsCell euclid halves (List.ofFn x) i ↔ _
      rw [hone]
      unfold IsCell
      simp [halves]
    rw [h, h]
    simp only [IsNearest, List.getElem?_cons_zero, List.getElem?_cons_succ, Option.some.injEq, exists_eq_left',
      List.mem_cons, List.not_mem_nil, or_false, forall_eq_or_imp, forall_eq, hd, le_refl, true_and, and_true]
    constructor <;> rw [← sq_le_sq] <;> constructor <;> intro h <;> nlinarith
  have hbox : ∀ {u v : ℝ}, u < v → volume (Set.univ.pi fun _ : Fin 1 => Set.Ioo u v) ≠ 0 := by
    intro u v h
    rw [volume_pi_pi]
    simpa using h
  intro c hc
  have key : ∀ {u v : ℝ} {c : Nat}, u < v → 0 ≤ u → v ≤ 1 → (∀ x : Fin 1 → ℝ, u < x 0 → x 0 < v →
      (fun _ => x 0 ^ 2) ∈ cellSet 1 euclid halves c) →
      volume ((fun (x : Fin 1 → ℝ) (_ : Fin 1) => x 0 ^ 2) ⁻¹' cellSet 1 euclid halves c ∩ domainBox 1 [(0, 1)]) ≠ 0 := by
    intro u v c huv hu hv h h0
    refine hbox huv (measure_mono_null (fun x hx => ?_) h0)
    have hx := hx 0 (Set.mem_univ _)
    refine ⟨h x hx.1 hx.2, fun j ab hab => ?_⟩
    rw [Subsingleton.elim j 0] at hab ⊢
    obtain rfl := Option.some.inj hab
    exact ⟨hu.trans hx.1.le, hx.2.trans_le hv⟩
  match c, hc with
  | 0, _ => exact key (u := 0) (v := 1 / 2) (by norm_num) le_rfl (by norm_num) fun x h1 h2 =>
      ((hcell _).1).2 (by nlinarith)
  | 1, _ => exact key (u := 3 / 4) (v := 1) (by norm_num) (by norm_num) le_rfl fun x h1 h2 =>
      ((hcell _).2).2 (by nlinarith)

theorem stepDisc_unmeasured (n : Nat) : Unmeasured (stepDisc n) (steps n).length 2 (stepSet n) (stepOut n) halves
    ((steps n).map fun x => List.ofFn fun _ : Fin 1 => x ^ 2) [1 / 5, 4 / 5] := by
  have hl : (steps n).length = n + 2 := by simp [steps]
  have hy : (steps n).map (fun x => List.ofFn fun _ : Fin 1 => x ^ 2) = (steps n).map fun x => [x ^ 2] := by
    refine List.map_congr_left fun x _ => ?_
    simp
  exact { input := rfl
          inputReady := ⟨consistent_column (steps n) (fun x => x) _, by omega, rfl, Or.inl rfl, nofun, nofun⟩
          output := rfl
          outputConsistent := consistent_column (steps n) (fun x => x ^ 2) _
          outputValues := by rw [hy]; rfl
          outputLocal := rfl
          outputProb := rfl
          outputProbReady := ready_halves
          probabilities := rfl
          pointer := rfl }

/-- The hypotheses of C138_line hold for the model `x ↦ x^2` on `[0, 1]`, the samples `k / (n + 1)`, and an output
measure with two cells, and so do those of C138_voronoi and C138_contours_voronoi. -/
example {argsort : List ℝ → List Nat} (hA : IsArgsort argsort) {g : (Fin 1 → ℝ) → ℝ} {K : ℝ} (hK : ∀ x, |g x| ≤ K)
    (hg : Continuous g) :
    Tendsto (fun n => (inputMean g ((stepSet n).exactVolume1D argsort 3 >>= fun s' =>
      prob euclid 3 { stepDisc n with input := some s' } true)).getD 0) atTop
      (𝓝 (conditionalMean 2 (fun c => [1 / 5, 4 / 5].getD c 0) (fun c => (fun x _ => x 0 ^ 2) ⁻¹' cellSet 1 euclid halves c)
        ((volume (domainBox 1 [(0, 1)]))⁻¹ • volume.restrict (domainBox 1 [(0, 1)])) g)) := by
  have hd : ∀ p (x c : ℝ), euclid.dist p [x] [c] = |x - c| := fun p x c => by simp [euclid, Real.sqrt_sq_eq_abs]
  exact (C138_line euclid_sound (pn := 2) (hd 2) hA (a := 0) (b := 1) (xs := steps) (fun n => by simp [steps]) steps_nodup
    steps_in steps_fill (s := stepSet) (out := stepOut) (fun n => ⟨rfl, rfl, rfl, rfl, rfl⟩) (t := halves) (m := 2)
    (Q := fun x _ => x 0 ^ 2) squares_thin (by norm_num) (fun c hc _ => squares_pos c hc) (D := stepDisc)
    stepDisc_unmeasured (by norm_num) hK (Eventually.of_forall fun x => hg.continuousAt)).2

/-- Uniform samples fill the interval. -/
example {Ω : Type} [MeasurableSpace Ω] {P : Measure Ω} [IsProbabilityMeasure P] {X : ℕ → ℕ → Ω → Fin 1 → ℝ}
    (hX : RandomSamples P (volume.restrict (Set.univ.pi fun _ => Set.Ico (0 : ℝ) 1)) X) :
    ∀ᵐ ω ∂P, Fill (volume.restrict (Set.univ.pi fun _ => Set.Ico (0 : ℝ) 1)) fun n =>
      drawnPoints 2 n fun r k => X r k ω :=
  C138_random hX (by norm_num) Measure.AbsolutelyContinuous.rfl

end Ex

end BET
