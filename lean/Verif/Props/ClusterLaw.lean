import Verif.Props.Clusters
import Verif.Props.LpLaws
import Verif.Lemmas.FirstHits

/-!
# C163: the law of the clusters of `sample_lp_ball`
-/

set_option autoImplicit false
set_option linter.unusedSectionVars false
set_option linter.unusedSimpArgs false

open MeasureTheory ProbabilityTheory Filter Topology

namespace BET

variable {d : ℕ} {Ω : Type} [MeasurableSpace Ω] {P : Measure Ω}

/-! ### Specification -/

namespace Spec

/-- The points of the domain, boundary included. -/
def closedDomain (d : ℕ) (D : List (ℝ × ℝ)) : Set (Fin d → ℝ) :=
  {x | ∀ (j : Fin d) ab, D[(j : ℕ)]? = some ab → ab.1 ≤ x j ∧ x j ≤ ab.2}

/-- `X i t k` is sample `k` of attempt `t` around centre `i`. All samples are independent, and those around centre `i`
have the law `μ i`. -/
structure BallDraws (P : Measure Ω) (μ : ℕ → Measure (Fin d → ℝ)) (X : ℕ → ℕ → ℕ → Ω → Fin d → ℝ) : Prop where
  indep : iIndepFun (fun q : ℕ × ℕ × ℕ => X q.1 q.2.1 q.2.2) P
  meas : ∀ i t k, Measurable (X i t k)
  law : ∀ i t k, P.map (X i t k) = μ i

/-- What is drawn: the first attempt has `num` samples, every later one ten times as many as the one before. -/
def attempts (num : ℕ) (X : ℕ → ℕ → ℕ → Fin d → ℝ) (i t : ℕ) : List (List ℝ) :=
  (List.range (num * 10 ^ t)).map fun k => List.ofFn (X i t k)

/-- The set has the `n` centres `z i`. -/
structure HasCenters (s : SampleSet ℝ) (n : ℕ) (z : ℕ → Fin d → ℝ) : Prop where
  centers : Centers s ((List.range n).map fun i => List.ofFn (z i))
  dim : s.dim = d
  valid : Consistent s n

/-- The centres, followed by `num` points for every centre. -/
def withClusters {n num : ℕ} (z : ℕ → Fin d → ℝ) (y : Fin n → Fin num → Fin d → ℝ) : List (List ℝ) :=
  ((List.range n).map fun i => List.ofFn (z i)) ++
    (List.ofFn fun i => List.ofFn fun k => List.ofFn (y i k)).flatten

end Spec

open Spec

/-! ### Attempts and batches -/

theorem measurable_closedDomain (d : ℕ) (D : List (ℝ × ℝ)) : MeasurableSet (closedDomain d D) := by
  have : closedDomain d D = ⋂ (j : Fin d) (ab : ℝ × ℝ) (_ : D[(j : ℕ)]? = some ab), {x | ab.1 ≤ x j ∧ x j ≤ ab.2} := by
    ext x
    simp [closedDomain]
  rw [this]
  refine MeasurableSet.iInter fun j => ?_
  rcases hj : D[(j : ℕ)]? with _ | ab
  · simp
  · have : (⋂ (ab' : ℝ × ℝ) (_ : some ab = some ab'), {x : Fin d → ℝ | ab'.1 ≤ x j ∧ x j ≤ ab'.2}) =
        (fun x => x j) ⁻¹' Set.Icc ab.1 ab.2 := by
      ext x
      simp
    rw [this]
    exact measurable_pi_apply j measurableSet_Icc

theorem inClosedBox_ofFn (D : List (ℝ × ℝ)) (x : Fin d → ℝ) :
    InClosedBox D (List.ofFn x) ↔ x ∈ closedDomain d D := by
  constructor
  · intro h j ab hab
    exact h j ab (x j) hab (by simp)
  · intro h i ab y hab hy
    obtain ⟨hi, rfl⟩ := List.getElem?_eq_some_iff.1 hy
    have hi' : i < d := by simpa using hi
    have := h ⟨i, hi'⟩ ab hab
    simpa using this

theorem filter_ofFn (D : List (ℝ × ℝ)) (l : List (Fin d → ℝ)) :
    (l.map List.ofFn).filter (withinBounds D) = (hitsOf (closedDomain d D) l).map List.ofFn := by
  classical
  rw [List.filter_map, hitsOf]
  congr 1
  refine List.filter_congr fun x _ => ?_
  rw [Bool.eq_iff_iff, Function.comp_apply, withinBounds_iff, inClosedBox_ofFn]
  simp

theorem attempts_eq (num : ℕ) (X : ℕ → ℕ → ℕ → Fin d → ℝ) (i t : ℕ) :
    attempts num X i t = (batch num (X i) t).map List.ofFn := by
  simp [attempts, batch, Function.comp_def]

theorem nInside_attempts (D : List (ℝ × ℝ)) (num : ℕ) (X : ℕ → ℕ → ℕ → Fin d → ℝ) (i t : ℕ) :
    num ≤ nInside D (attempts num X i t) ↔ Enough (closedDomain d D) num (X i) t := by
  rw [← nInside_eq, attempts_eq, filter_ofFn, List.length_map]
  rfl

theorem attempts_dim (num : ℕ) (X : ℕ → ℕ → ℕ → Fin d → ℝ) (i t : ℕ) : ∀ r ∈ attempts num X i t, r.length = d := by
  intro r hr
  obtain ⟨k, -, rfl⟩ := List.mem_map.1 hr
  simp

theorem firstHits_eq {D : List (ℝ × ℝ)} {num : ℕ} {X : ℕ → ℕ → ℕ → Fin d → ℝ} {i : ℕ} {v : List (List ℝ)}
    (h : FirstHits D num (attempts num X i) v) :
    v = List.ofFn fun k : Fin num => List.ofFn (pickHit (closedDomain d D) num k (X i)) := by
  obtain ⟨t, h1, h2, h3, -, -, rest, h4⟩ := h
  have hE := (nInside_attempts D num X i t).1 h2
  have hu : ∀ u < t, ¬ Enough (closedDomain d D) num (X i) u := fun u hu hE' => by
    have := (nInside_attempts D num X i u).2 hE'
    have := h1 u hu
    omega
  rw [attempts_eq, filter_ofFn] at h4
  refine List.ext_getElem (by simp [h3]) fun k hk hk' => ?_
  have hkn : k < num := by omega
  rw [List.getElem_ofFn, pickHit_eq hE hu]
  have hlen : k < (hitsOf (closedDomain d D) (batch num (X i) t)).length := lt_of_lt_of_le hkn hE
  have h5 : ((hitsOf (closedDomain d D) (batch num (X i) t)).map List.ofFn)[k]? = some v[k] := by
    rw [h4, List.getElem?_append_left hk, List.getElem?_eq_getElem hk]
  rw [List.getElem?_map, List.getElem?_eq_getElem hlen, Option.map_some] at h5
  rw [← Option.some.inj h5]
  simp [List.getD, List.getElem?_eq_getElem hlen]

/-- The set that is returned when every centre has an attempt with enough samples. -/
theorem clusters_value {size num n : ℕ} (hn : num ≠ 0) {s : SampleSet ℝ} {z : ℕ → Fin d → ℝ} (h : HasCenters s n z)
    {D : List (ℝ × ℝ)} (hD : s.domain = some D) {X : ℕ → ℕ → ℕ → Fin d → ℝ}
    (hE : ∀ i < n, ∃ t, Enough (closedDomain d D) num (X i) t) :
    ∃ fuel, sampleLpBall size fuel s num (attempts num X) = .ok (some { dim := d, domain := some D, glob := {
      values := some (withClusters z fun (i : Fin n) (k : Fin num) => pickHit (closedDomain d D) num k (X i)) } }) := by
  have hlen : ((List.range n).map fun i => List.ofFn (z i)).length = n := by simp
  have hc : Consistent s ((List.range n).map fun i => List.ofFn (z i)).length := by rw [hlen]; exact h.valid
  obtain ⟨fuel, c, hr⟩ := (C85_ends (size := size) hn h.centers hc (attempts num X)
    (fun i t => by rw [h.dim]; exact attempts_dim num X i t)).2.2 (by
      intro D' hD' i hi
      rw [hD] at hD'
      cases hD'
      rw [hlen] at hi
      obtain ⟨t, ht⟩ := hE i hi
      exact ⟨t, (nInside_attempts D num X i t).2 ht⟩)
  refine ⟨fuel, ?_⟩
  obtain ⟨cl, rfl, hcl, hv⟩ := C85_clusters h.centers hc hr
  rw [hr, h.dim, hD, withClusters]
  have e : cl = List.ofFn fun i : Fin n => List.ofFn fun k : Fin num =>
      List.ofFn (pickHit (closedDomain d D) num k (X i)) := by
    refine List.ext_getElem (by simp [hcl]) fun i hi hi' => ?_
    have := hv i cl[i] (List.getElem?_eq_getElem hi)
    rw [hD] at this
    rw [List.getElem_ofFn]
    exact firstHits_eq this
  rw [e]

/-! ### The theorems -/

variable [IsProbabilityMeasure P] {μ : ℕ → Measure (Fin d → ℝ)} [∀ i, IsProbabilityMeasure (μ i)]
  {X : ℕ → ℕ → ℕ → Ω → Fin d → ℝ}

theorem BallDraws.one (hX : BallDraws P μ X) (i : ℕ) : iIndepFun (fun p : ℕ × ℕ => X i p.1 p.2) P :=
  hX.indep.precomp (g := fun p : ℕ × ℕ => (i, p)) fun _ _ hab => (Prod.mk.inj hab).2

/-- **C163.** With a domain that meets every ball in a set of positive probability, the sampling ends with probability
one. All the points of all the clusters are independent, and those around centre `i` have the law of the samples
around centre `i` conditioned on the domain: trying again with more samples does not bias them. -/
theorem C163_law (hX : BallDraws P μ X) {size num n : ℕ} (hn : num ≠ 0) {s : SampleSet ℝ} {z : ℕ → Fin d → ℝ}
    (h : HasCenters s n z) {D : List (ℝ × ℝ)} (hD : s.domain = some D) (hpos : ∀ i < n, μ i (closedDomain d D) ≠ 0) :
    ∃ Y : Fin n → Fin num → Ω → Fin d → ℝ,
      (∀ᵐ ω ∂P, ∃ fuel, sampleLpBall size fuel s num (attempts num fun i t k => X i t k ω) =
        .ok (some { dim := d, domain := some D, glob := { values := some (withClusters z fun i k => Y i k ω) } })) ∧
      iIndepFun (fun q : Fin n × Fin num => Y q.1 q.2) P ∧
      ∀ i k, Measurable (Y i k) ∧ P.map (Y i k) = (μ i)[|closedDomain d D] := by
  have hA := measurable_closedDomain d D
  have hmx : ∀ i, Measurable fun ω t k => X i t k ω := fun i =>
    measurable_pi_lambda _ fun t => measurable_pi_lambda _ fun k => hX.meas i t k
  have hY : ∀ (i : Fin n) (k : Fin num), Measurable fun ω => pickHit (closedDomain d D) num k fun t j => X i t j ω :=
    fun i k => (measurable_pickHit hA num k).comp (hmx i)
  have hone : ∀ i : Fin n, _ := fun i : Fin n =>
    pickHit_law (hX.meas i) (BallDraws.one hX i) (hX.law i) hA (hpos i i.2) num
  refine ⟨fun i k ω => pickHit (closedDomain d D) num k fun t j => X i t j ω, ?_, ?_,
    fun i k => ⟨hY i k, (hone i).2 k⟩⟩
  · have hends : ∀ᵐ ω ∂P, ∀ i : Fin n, ∃ t, Enough (closedDomain d D) num (fun t k => X i t k ω) t :=
      ae_all_iff.2 fun i : Fin n => ends_ae (hX.meas i) (BallDraws.one hX i) (hX.law i) hA (hpos i i.2)
    filter_upwards [hends] with ω hω
    exact clusters_value hn h hD fun i hi => hω ⟨i, hi⟩
  · refine iIndepFun_uncurry' hY ?_ fun i => (hone i).1
    have hcurry : iIndepFun (fun (i : ℕ) ω (p : ℕ × ℕ) => X i p.1 p.2 ω) P :=
      grouped (X := fun i (p : ℕ × ℕ) => X i p.1 p.2) (fun i p => hX.meas i p.1 p.2) hX.indep
    have h2 := hcurry.precomp (g := fun i : Fin n => (i : ℕ)) fun a b hab => Fin.ext hab
    exact h2.comp (fun _ (y : ℕ × ℕ → Fin d → ℝ) (k : Fin num) => pickHit (closedDomain d D) num k fun t j => y (t, j))
      fun _ => measurable_pi_lambda _ fun k => (measurable_pickHit hA num k).comp
        (measurable_pi_lambda _ fun t => measurable_pi_lambda _ fun j => measurable_pi_apply (t, j))

/-- **C163.** Without a domain the clusters are the samples of the first attempt. -/
theorem C163_free (X : ℕ → ℕ → ℕ → Fin d → ℝ) {size num n : ℕ} (hn : num ≠ 0) {s : SampleSet ℝ} {z : ℕ → Fin d → ℝ}
    (h : HasCenters s n z) (hD : s.domain = none) :
    ∃ fuel, sampleLpBall size fuel s num (attempts num X) = .ok (some { dim := d, glob := {
      values := some (withClusters z fun (i : Fin n) (k : Fin num) => X i 0 k) } }) := by
  have hlen : ((List.range n).map fun i => List.ofFn (z i)).length = n := by simp
  have hc : Consistent s ((List.range n).map fun i => List.ofFn (z i)).length := by rw [hlen]; exact h.valid
  obtain ⟨fuel, c, hr⟩ := (C85_ends (size := size) hn h.centers hc (attempts num X)
    (fun i t => by rw [h.dim]; exact attempts_dim num X i t)).2.2 (by
      intro D' hD'
      rw [hD] at hD'
      cases hD')
  refine ⟨fuel, ?_⟩
  obtain ⟨cl, rfl, hcl, hv⟩ := C85_clusters h.centers hc hr
  rw [hr, h.dim, hD, withClusters]
  have e : cl = List.ofFn fun i : Fin n => List.ofFn fun k : Fin num => List.ofFn (X i 0 k) := by
    refine List.ext_getElem (by simp [hcl]) fun i hi hi' => ?_
    have := hv i cl[i] (List.getElem?_eq_getElem hi)
    rw [hD] at this
    rw [List.getElem_ofFn]
    refine Eq.trans this (List.ext_getElem (by simp [attempts]) fun k hk hk' => by simp [attempts])
  rw [e]

/-- **C163.** It is very improbable that many attempts are needed: attempt `t` (counted from 0) fails around centre `i`
at most with probability `num (1 - q)^(10^t)`, where `q` is the probability of the domain under the law of the samples
around the centre. -/
theorem C163_attempts (hX : BallDraws P μ X) {size num n : ℕ} (hn : num ≠ 0) {s : SampleSet ℝ} {z : ℕ → Fin d → ℝ}
    (h : HasCenters s n z) {D : List (ℝ × ℝ)} (hD : s.domain = some D) (t : ℕ) :
    P.real {ω | ∀ c, sampleLpBall size (t + 1) s num (attempts num fun i t k => X i t k ω) ≠ .ok (some c)} ≤
      ∑ i ∈ Finset.range n, num * (1 - (μ i).real (closedDomain d D)) ^ 10 ^ t := by
  have hA := measurable_closedDomain d D
  have hlen : ((List.range n).map fun i => List.ofFn (z i)).length = n := by simp
  have hc : Consistent s ((List.range n).map fun i => List.ofFn (z i)).length := by rw [hlen]; exact h.valid
  have hsub : {ω | ∀ c, sampleLpBall size (t + 1) s num (attempts num fun i t k => X i t k ω) ≠ .ok (some c)} ⊆
      ⋃ i ∈ Finset.range n, {ω | ¬ Enough (closedDomain d D) num (fun t k => X i t k ω) t} := by
    intro ω hω
    by_contra hno
    simp only [Set.mem_iUnion, not_exists, Set.mem_ofPred_eq, not_not, Finset.mem_range] at hno
    rw [Set.mem_ofPred_eq, sampleLpBall_eq h.centers hc] at hω
    rcases clusterLoop_ends (D := s.domain) (fuel := t + 1) hn (draw := attempts num fun i t k => X i t k ω)
      (is := List.range ((List.range n).map fun i => List.ofFn (z i)).length)
      (c := { dim := s.dim, domain := s.domain, glob := { values := some ((List.range n).map fun i => List.ofFn (z i)) } })
      rfl h.centers.cols (fun i t => by rw [h.dim]; exact attempts_dim num _ i t) with ⟨h1, i, hi, h2⟩ | ⟨⟨c', h1⟩, -⟩
    · rw [hlen, List.mem_range] at hi
      simp only [clusterOf, if_neg hn, hD] at h2
      have h3 := (drawLoop_ends (D := D) (num := num) (draw := attempts num (fun i t k => X i t k ω) i) (t + 1) 0).2
        ⟨t, by omega, by omega, (nInside_attempts D num _ i t).2 (hno i hi)⟩
      obtain ⟨v, hv⟩ := h3
      rw [hv] at h2
      cases Except.ok.inj h2
    · exact hω c' h1
  refine (measureReal_mono hsub (measure_ne_top _ _)).trans ((measureReal_biUnion_finset_le _ _).trans ?_)
  exact Finset.sum_le_sum fun i _ => batch_fails (hX.meas i) (BallDraws.one hX i) (hX.law i) hA t

/-- **C163.** If the samples around some centre have probability zero to lie in the domain, the sampling never
ends. -/
theorem C163_never (hX : BallDraws P μ X) {size num n : ℕ} (hn : num ≠ 0) {s : SampleSet ℝ} {z : ℕ → Fin d → ℝ}
    (h : HasCenters s n z) {D : List (ℝ × ℝ)} (hD : s.domain = some D) {i : ℕ} (hi : i < n)
    (hzero : μ i (closedDomain d D) = 0) :
    ∀ᵐ ω ∂P, ∀ fuel, sampleLpBall size fuel s num (attempts num fun i t k => X i t k ω) = .ok none := by
  have hA := measurable_closedDomain d D
  have h1 : ∀ᵐ ω ∂P, ∀ t k, X i t k ω ∉ closedDomain d D := by
    rw [ae_all_iff]
    intro t
    rw [ae_all_iff]
    intro k
    rw [← hX.law i t k, Measure.map_apply (hX.meas i t k) hA] at hzero
    exact measure_eq_zero_iff_ae_notMem.1 hzero
  have hlen : ((List.range n).map fun i => List.ofFn (z i)).length = n := by simp
  have hc : Consistent s ((List.range n).map fun i => List.ofFn (z i)).length := by rw [hlen]; exact h.valid
  filter_upwards [h1] with ω hω fuel
  refine C85_negation_outside hn h.centers hc hD (i := i) (by rw [hlen]; exact hi)
    (fun i t => by rw [h.dim]; exact attempts_dim num _ i t) ?_ fuel
  intro t x hx hin
  obtain ⟨k, -, rfl⟩ := List.mem_map.1 hx
  exact hω t k ((inClosedBox_ofFn D _).1 hin)

/-! ### Balls -/

namespace Spec

/-- The numbers drawn for sample `k` of attempt `t` around centre `i`: as in `LpDraws`. -/
structure ClusterNumbers (P : Measure Ω) (p : ℝ) (N : ℕ → ℕ → ℕ → Ω → (Fin d → ℝ × ℝ) × ℝ) : Prop where
  indep : iIndepFun (fun q : ℕ × ℕ × ℕ => N q.1 q.2.1 q.2.2) P
  meas : ∀ i t k, Measurable (N i t k)
  law : ∀ i t k, P.map (N i t k) =
    (Measure.pi fun _ : Fin d => (gammaMeasure (1 / p) 1).prod (gaussianReal 0 1)).prod (betaMeasure d 1)

/-- What `Lp_generalized_uniform` makes of the numbers: `num` samples in the first attempt, and every time ten times as
many. -/
noncomputable def ballAttempts (p : ℝ) (radius : Fin d → ℝ) (z : ℕ → Fin d → ℝ) (num : ℕ)
    (N : ℕ → ℕ → ℕ → (Fin d → ℝ × ℝ) × ℝ) (i t : ℕ) : Except Err (List (List ℝ)) :=
  (List.range (num * 10 ^ t)).mapM fun k => lpUniform p (List.ofFn fun j => ((N i t k).1 j).1)
    (List.ofFn fun j => ((N i t k).1 j).2) (N i t k).2 (List.ofFn radius) (List.ofFn (z i))

/-- The same for infinite `p`. -/
noncomputable def boxAttempts (radius : Fin d → ℝ) (z : ℕ → Fin d → ℝ) (num : ℕ) (U : ℕ → ℕ → ℕ → Fin d → ℝ) (i t : ℕ) :
    List (List ℝ) :=
  (List.range (num * 10 ^ t)).map fun k => lpUniformInf (List.ofFn (U i t k)) (List.ofFn radius) (List.ofFn (z i))

/-- The domain has positive widths. -/
def Thick (d : ℕ) (D : List (ℝ × ℝ)) : Prop := ∀ (j : Fin d) ab, D[(j : ℕ)]? = some ab → ab.1 < ab.2

end Spec

/-- Counting with three indices. -/
def tripleEquiv : ℕ ≃ ℕ × ℕ × ℕ := Nat.pairEquiv.symm.trans (Equiv.prodCongr (Equiv.refl ℕ) Nat.pairEquiv.symm)

theorem add_place {w : List ℝ} {x c : Fin d → ℝ} (h : List.zipWith (· + ·) w (List.ofFn fun _ : Fin d => (0 : ℝ)) = List.ofFn x) :
    List.zipWith (· + ·) w (List.ofFn c) = List.ofFn (x + c) := by
  have hlen := congrArg List.length h
  rw [List.length_zipWith, List.length_ofFn, List.length_ofFn] at hlen
  refine List.ext_getElem (by rw [List.length_zipWith, List.length_ofFn, List.length_ofFn]; exact hlen) fun k hk hk' => ?_
  have hkd : k < d := by simpa using hk'
  have hkw : k < w.length := by omega
  have h1 := congrArg (fun l => l[k]?) h
  simp only [List.getElem?_zipWith, List.getElem?_eq_getElem hkw] at h1
  rw [List.getElem?_eq_getElem (by simpa using hkd), List.getElem?_eq_getElem (by simpa using hkd)] at h1
  simp only [Option.some.injEq, List.getElem_ofFn, add_zero] at h1
  simp [h1]

theorem lpUniform_shift {p r : ℝ} {g e : List ℝ} {s x c : Fin d → ℝ}
    (h : lpUniform p g e r (List.ofFn s) (List.ofFn fun _ : Fin d => (0 : ℝ)) = .ok (List.ofFn x)) :
    lpUniform p g e r (List.ofFn s) (List.ofFn c) = .ok (List.ofFn (x + c)) := by
  unfold lpUniform at h ⊢
  rcases hu : onSphere p (lpNormal p g e) with er | u
  · rw [hu] at h
    cases h
  · rw [hu] at h
    have h1 : place u r (List.ofFn s) (List.ofFn fun _ : Fin d => (0 : ℝ)) = List.ofFn x := Except.ok.inj h
    exact congrArg Except.ok (add_place h1)

/-- A translated ball. -/
theorem translate_cond (S : Set (Fin d → ℝ)) (hS : MeasurableSet S) (c : Fin d → ℝ) :
    (volume[|S]).map (fun x => x + c) = volume[|(fun x => x - c) ⁻¹' S] := by
  have hm : Measurable fun x : Fin d → ℝ => x + c := by fun_prop
  have hm' : Measurable fun x : Fin d → ℝ => x - c := by fun_prop
  have hv : ∀ T : Set (Fin d → ℝ), volume ((fun x => x - c) ⁻¹' T) = volume T := by
    intro T
    simp [sub_eq_add_neg]
  ext T hT
  rw [Measure.map_apply hm hT, cond_apply hS, cond_apply (hm' hS), hv]
  congr 1
  rw [← hv]
  congr 1
  ext x
  simp

theorem pBall_shift (p : ℝ) (s c : Fin d → ℝ) : (fun x => x - c) ⁻¹' pBall p s (fun _ => 0) = pBall p s c := by
  ext x
  simp [pBall]

theorem pBox_shift (s c : Fin d → ℝ) : (fun x => x - c) ⁻¹' pBox s (fun _ => 0) = pBox s c := by
  ext x
  simp [pBox]

/-- The samples around the centres are those of balls. -/
theorem numbers_draws {p : ℝ} (hp : 0 < p) (hd : 0 < d) {N : ℕ → ℕ → ℕ → Ω → (Fin d → ℝ × ℝ) × ℝ}
    (hN : ClusterNumbers P p N) {radius : Fin d → ℝ} (hr : ∀ j, 0 < radius j) (z : ℕ → Fin d → ℝ) :
    ∃ X : ℕ → ℕ → ℕ → Ω → Fin d → ℝ, BallDraws P (fun i => volume[|pBall p radius (z i)]) X ∧
      ∀ᵐ ω ∂P, ∀ num i t, ballAttempts p radius z num (fun i t k => N i t k ω) i t =
        .ok (attempts num (fun i t k => X i t k ω) i t) := by
  let e := tripleEquiv
  have hL : LpDraws P p 1 (betaMeasure d 1) fun n => N (e n).1 (e n).2.1 (e n).2.2 :=
    ⟨hN.indep.precomp (g := e) e.injective, fun n => hN.meas _ _ _, fun n => by rw [hN.law, one_div_one]⟩
  obtain ⟨X, h1, h2, h3⟩ := C148_uniform hp hd hL (s := radius) (c := fun _ => 0) hr
  refine ⟨fun i t k ω => X (e.symm (i, t, k)) ω + z i, ⟨?_, fun i t k => ?_, fun i t k => ?_⟩, ?_⟩
  · have h4 := h2.precomp (g := e.symm) e.symm.injective
    exact h4.comp (fun q : ℕ × ℕ × ℕ => fun x : Fin d → ℝ => x + z q.1) fun q => by fun_prop
  · exact (h3 _).1.add_const _
  · have hm : Measurable fun x : Fin d → ℝ => x + z i := by fun_prop
    have h4 : P.map (fun ω => X (e.symm (i, t, k)) ω + z i) = (P.map (X (e.symm (i, t, k)))).map fun x => x + z i :=
      (Measure.map_map hm (h3 _).1).symm
    rw [h4, (h3 _).2, translate_cond _ (measurable_pBall _ _), pBall_shift]
  · filter_upwards [ae_all_iff.2 h1] with ω hω num i t
    refine mapM_ok _ _ _ fun k _ => ?_
    have h5 := hω (e.symm (i, t, k))
    simp only [e.apply_symm_apply] at h5
    exact lpUniform_shift h5

theorem numbers_boxes {U : ℕ → ℕ → ℕ → Ω → Fin d → ℝ} (hi : iIndepFun (fun q : ℕ × ℕ × ℕ => U q.1 q.2.1 q.2.2) P)
    (hm : ∀ i t k, Measurable (U i t k))
    (hU : ∀ i t k, P.map (U i t k) = volume.restrict (Set.univ.pi fun _ => Set.Ico 0 1)) {radius : Fin d → ℝ}
    (hr : ∀ j, 0 < radius j) (z : ℕ → Fin d → ℝ) :
    ∃ X : ℕ → ℕ → ℕ → Ω → Fin d → ℝ, BallDraws P (fun i => volume[|pBox radius (z i)]) X ∧
      ∀ ω num i t, boxAttempts radius z num (fun i t k => U i t k ω) i t = attempts num (fun i t k => X i t k ω) i t := by
  let e := tripleEquiv
  obtain ⟨X, h1, h2, h3⟩ := C148_inf (U := fun n => U (e n).1 (e n).2.1 (e n).2.2) (hi.precomp (g := e) e.injective)
    (fun n => hm _ _ _) (fun n => hU _ _ _) (s := radius) (c := fun _ => 0) hr
  have hbox : MeasurableSet (pBox radius fun _ => 0) := by
    have : pBox radius (fun _ => 0) = ⋂ j, {x : Fin d → ℝ | |x j - 0| ≤ radius j} := by ext; simp [pBox]
    rw [this]
    exact MeasurableSet.iInter fun j => measurableSet_le (by fun_prop) measurable_const
  refine ⟨fun i t k ω => X (e.symm (i, t, k)) ω + z i, ⟨?_, fun i t k => ?_, fun i t k => ?_⟩, ?_⟩
  · have h4 := h2.precomp (g := e.symm) e.symm.injective
    exact h4.comp (fun q : ℕ × ℕ × ℕ => fun x : Fin d → ℝ => x + z q.1) fun q => by fun_prop
  · exact (h3 _).1.add_const _
  · have hm : Measurable fun x : Fin d → ℝ => x + z i := by fun_prop
    have h4 : P.map (fun ω => X (e.symm (i, t, k)) ω + z i) = (P.map (X (e.symm (i, t, k)))).map fun x => x + z i :=
      (Measure.map_map hm (h3 _).1).symm
    rw [h4, (h3 _).2, translate_cond _ hbox, pBox_shift]
  · intro ω num i t
    refine List.map_congr_left fun k _ => ?_
    have h5 := h1 (e.symm (i, t, k)) ω
    simp only [e.apply_symm_apply] at h5
    exact add_place h5

/-! ### Centres in the domain -/

/-- An open set around a point of the domain meets the domain in a set of positive volume. -/
theorem meets_domain {D : List (ℝ × ℝ)} (hT : Thick d D) {c : Fin d → ℝ} (hc : c ∈ closedDomain d D)
    {S : Set (Fin d → ℝ)} (hS : IsOpen S) (hcS : c ∈ S) : volume (S ∩ closedDomain d D) ≠ 0 := by
  let V : Set (Fin d → ℝ) := Set.univ.pi fun j : Fin d => {y | ∀ ab, D[(j : ℕ)]? = some ab → y ∈ Set.Ioo ab.1 ab.2}
  have hV : IsOpen V := by
    refine isOpen_set_pi Set.finite_univ fun j _ => ?_
    rcases hj : D[(j : ℕ)]? with _ | ab
    · simp
    · have : {y : ℝ | ∀ ab', some ab = some ab' → y ∈ Set.Ioo ab'.1 ab'.2} = Set.Ioo ab.1 ab.2 := by
        ext y
        simp
      rw [this]
      exact isOpen_Ioo
  have hcl : c ∈ closure V := by
    rw [closure_pi_set]
    intro j _
    show c j ∈ closure {y | ∀ ab, D[(j : ℕ)]? = some ab → y ∈ Set.Ioo ab.1 ab.2}
    rcases hj : D[(j : ℕ)]? with _ | ab
    · simp
    · have h1 := hT j ab hj
      have h2 := hc j ab hj
      have : closure {y : ℝ | ∀ ab', some ab = some ab' → y ∈ Set.Ioo ab'.1 ab'.2} = Set.Icc ab.1 ab.2 := by
        rw [← closure_Ioo h1.ne]
        congr 1
        ext y
        simp
      rw [this]
      exact h2
  obtain ⟨x, hxS, hxV⟩ := mem_closure_iff.1 hcl S hS hcS
  have hpos : 0 < volume (S ∩ V) := (hS.inter hV).measure_pos _ ⟨x, hxS, hxV⟩
  refine (lt_of_lt_of_le hpos (measure_mono ?_)).ne'
  rintro y ⟨h1, h2⟩
  refine ⟨h1, fun j ab hab => ?_⟩
  have := h2 j (Set.mem_univ j) ab hab
  exact ⟨this.1.le, this.2.le⟩

theorem open_pBall {p : ℝ} (hp : 0 < p) (s c : Fin d → ℝ) : IsOpen (pBall p s c) := by
  refine isOpen_lt (continuous_finsetSum _ fun i _ => ?_) continuous_const
  exact Continuous.rpow_const (by fun_prop) fun x => Or.inr hp.le

theorem bounded_pBall {p : ℝ} (hp : 0 < p) {s : Fin d → ℝ} (hs : ∀ i, 0 < s i) (c : Fin d → ℝ) : volume (pBall p s c) ≠ ⊤ := by
  have hsub : pBall p s c ⊆ Set.univ.pi fun i => Set.Icc (c i - s i) (c i + s i) := by
    intro x hx i _
    have h1 : |(x i - c i) / s i| ^ p < 1 := lt_of_le_of_lt
      (Finset.single_le_sum (f := fun i => |(x i - c i) / s i| ^ p) (fun j _ => Real.rpow_nonneg (abs_nonneg _) p) (Finset.mem_univ i)) hx
    have h2 : |(x i - c i) / s i| < 1 := by
      by_contra h
      exact absurd (Real.one_le_rpow (not_lt.1 h) hp.le) (not_le.2 h1)
    rw [abs_div, abs_of_pos (hs i), div_lt_one (hs i), abs_lt] at h2
    exact ⟨by linarith [h2.1], by linarith [h2.2]⟩
  refine ((measure_mono hsub).trans_lt ?_).ne
  rw [volume_pi_pi]
  exact ENNReal.prod_lt_top fun i _ => by rw [Real.volume_Icc]; exact ENNReal.ofReal_lt_top

theorem center_pBall {p : ℝ} (hp : 0 < p) (s c : Fin d → ℝ) : c ∈ pBall p s c := by
  simp [pBall, Real.zero_rpow hp.ne']

/-- **C163.** `sample_lp_ball` with finite `p`, with centres in a domain of positive widths: with probability one the
samples are drawn and the sampling ends; the points of the clusters are independent, and those around centre `i` are
uniformly distributed on the part of the ball around it that lies in the domain. -/
theorem C163_ball {p : ℝ} (hp : 0 < p) (hd : 0 < d) {N : ℕ → ℕ → ℕ → Ω → (Fin d → ℝ × ℝ) × ℝ}
    (hN : ClusterNumbers P p N) {radius : Fin d → ℝ} (hr : ∀ j, 0 < radius j) {size num n : ℕ} (hn : num ≠ 0)
    {s : SampleSet ℝ} {z : ℕ → Fin d → ℝ} (h : HasCenters s n z) {D : List (ℝ × ℝ)} (hD : s.domain = some D)
    (hT : Thick d D) (hin : ∀ i < n, z i ∈ closedDomain d D) :
    ∃ Y : Fin n → Fin num → Ω → Fin d → ℝ,
      (∀ᵐ ω ∂P, ∃ draw, (∀ i t, ballAttempts p radius z num (fun i t k => N i t k ω) i t = .ok (draw i t)) ∧
        ∃ fuel, sampleLpBall size fuel s num draw =
          .ok (some { dim := d, domain := some D, glob := { values := some (withClusters z fun i k => Y i k ω) } })) ∧
      iIndepFun (fun q : Fin n × Fin num => Y q.1 q.2) P ∧
      ∀ i k, Measurable (Y i k) ∧ P.map (Y i k) = volume[|pBall p radius (z i) ∩ closedDomain d D] := by
  obtain ⟨X, hX, hdraw⟩ := numbers_draws hp hd hN hr z
  have hprob : ∀ i, IsProbabilityMeasure (volume[|pBall p radius (z i)]) := fun i =>
    cond_isProbabilityMeasure_of_finite ((open_pBall hp radius (z i)).measure_pos _ ⟨z i, center_pBall hp _ _⟩).ne'
      (bounded_pBall hp hr _)
  have hmul : ∀ i < n, (volume[|pBall p radius (z i)]) (closedDomain d D) ≠ 0 := by
    intro i hi
    rw [cond_apply (measurable_pBall _ _)]
    exact mul_ne_zero (ENNReal.inv_ne_zero.2 (bounded_pBall hp hr _))
      (meets_domain hT (hin i hi) (open_pBall hp _ _) (center_pBall hp _ _))
  obtain ⟨Y, h1, h2, h3⟩ := C163_law hX (size := size) hn h hD hmul
  refine ⟨Y, ?_, h2, fun i k => ⟨(h3 i k).1, ?_⟩⟩
  · filter_upwards [h1, hdraw] with ω ha hb
    exact ⟨_, fun i t => hb num i t, ha⟩
  · rw [(h3 i k).2, cond_cond_eq_cond_inter' (measurable_pBall _ _) (measurable_closedDomain d D) (bounded_pBall hp hr _)]

theorem measurable_theBox (s c : Fin d → ℝ) : MeasurableSet (pBox s c) := by
  have : pBox s c = ⋂ j, {x : Fin d → ℝ | |x j - c j| ≤ s j} := by ext; simp [pBox]
  rw [this]
  exact MeasurableSet.iInter fun j => measurableSet_le (by fun_prop) measurable_const

theorem bounded_pBox (s c : Fin d → ℝ) : volume (pBox s c) ≠ ⊤ := by
  have hsub : pBox s c ⊆ Set.univ.pi fun i => Set.Icc (c i - s i) (c i + s i) := by
    intro x hx i _
    have := abs_le.1 (hx i)
    exact ⟨by linarith [this.1], by linarith [this.2]⟩
  refine ((measure_mono hsub).trans_lt ?_).ne
  rw [volume_pi_pi]
  exact ENNReal.prod_lt_top fun i _ => by rw [Real.volume_Icc]; exact ENNReal.ofReal_lt_top

/-- **C163.** The same for infinite `p` (`sample_linf_ball`): uniform on the part of the box in the domain. -/
theorem C163_box {U : ℕ → ℕ → ℕ → Ω → Fin d → ℝ} (hi : iIndepFun (fun q : ℕ × ℕ × ℕ => U q.1 q.2.1 q.2.2) P)
    (hm : ∀ i t k, Measurable (U i t k))
    (hU : ∀ i t k, P.map (U i t k) = volume.restrict (Set.univ.pi fun _ => Set.Ico 0 1)) {radius : Fin d → ℝ}
    (hr : ∀ j, 0 < radius j) {size num n : ℕ} (hn : num ≠ 0)
    {s : SampleSet ℝ} {z : ℕ → Fin d → ℝ} (h : HasCenters s n z) {D : List (ℝ × ℝ)} (hD : s.domain = some D)
    (hT : Thick d D) (hin : ∀ i < n, z i ∈ closedDomain d D) :
    ∃ Y : Fin n → Fin num → Ω → Fin d → ℝ,
      (∀ᵐ ω ∂P, ∃ fuel, sampleLpBall size fuel s num (boxAttempts radius z num fun i t k => U i t k ω) =
          .ok (some { dim := d, domain := some D, glob := { values := some (withClusters z fun i k => Y i k ω) } })) ∧
      iIndepFun (fun q : Fin n × Fin num => Y q.1 q.2) P ∧
      ∀ i k, Measurable (Y i k) ∧ P.map (Y i k) = volume[|pBox radius (z i) ∩ closedDomain d D] := by
  obtain ⟨X, hX, hdraw⟩ := numbers_boxes hi hm hU hr z
  have hopen : ∀ i, IsOpen {x : Fin d → ℝ | ∀ j, |x j - z i j| < radius j} := fun i => by
    have : {x : Fin d → ℝ | ∀ j, |x j - z i j| < radius j} = ⋂ j, {x : Fin d → ℝ | |x j - z i j| < radius j} := by
      ext; simp
    rw [this]
    exact isOpen_iInter_of_finite fun j => isOpen_lt (by fun_prop) continuous_const
  have hmem : ∀ i, z i ∈ {x : Fin d → ℝ | ∀ j, |x j - z i j| < radius j} := fun i j => by simpa using hr j
  have hsub : ∀ i, {x : Fin d → ℝ | ∀ j, |x j - z i j| < radius j} ⊆ pBox radius (z i) := fun i x hx j => (hx j).le
  have hprob : ∀ i, IsProbabilityMeasure (volume[|pBox radius (z i)]) := fun i =>
    cond_isProbabilityMeasure_of_finite
      (lt_of_lt_of_le ((hopen i).measure_pos _ ⟨z i, hmem i⟩) (measure_mono (hsub i))).ne' (bounded_pBox _ _)
  have hmul : ∀ i < n, (volume[|pBox radius (z i)]) (closedDomain d D) ≠ 0 := by
    intro i hi
    rw [cond_apply (measurable_theBox _ _)]
    refine mul_ne_zero (ENNReal.inv_ne_zero.2 (bounded_pBox _ _)) ?_
    have h1 := meets_domain hT (hin i hi) (hopen i) (hmem i)
    exact (lt_of_lt_of_le (pos_iff_ne_zero.2 h1) (measure_mono (Set.inter_subset_inter_left _ (hsub i)))).ne'
  obtain ⟨Y, h1, h2, h3⟩ := C163_law hX (size := size) hn h hD hmul
  refine ⟨Y, ?_, h2, fun i k => ⟨(h3 i k).1, ?_⟩⟩
  · filter_upwards [h1] with ω ha
    have e : (boxAttempts radius z num fun i t k => U i t k ω) = attempts num fun i t k => X i t k ω := by
      funext i t
      exact hdraw ω num i t
    rw [e]
    exact ha
  · rw [(h3 i k).2, cond_cond_eq_cond_inter' (measurable_theBox _ _) (measurable_closedDomain d D) (bounded_pBox _ _)]

/-! ### The hypotheses are met -/

namespace Ex

/-- Two centres in the unit square, one of them a corner. -/
noncomputable def cornerCenters : SampleSet ℝ :=
  { dim := 2, domain := some [(0, 1), (0, 1)], glob := { values := some [[0, 0], [1 / 2, 1]] } }

theorem cornerCenters_has : HasCenters cornerCenters 2 fun i => if i = 0 then ![0, 0] else ![1 / 2, 1] := by
  refine ⟨⟨?_, ?_, ?_⟩, rfl, SampleSet.consistent_of_checkNum (size := 1) rfl rfl⟩
  · simp [cornerCenters, List.range_succ]
  · intro c hc
    simp only [List.mem_map, List.mem_range] at hc
    obtain ⟨i, -, rfl⟩ := hc
    simp [cornerCenters]
  · rintro D hD
    cases hD
    rfl

/-- There are numbers of the kind assumed. -/
theorem clusterNumbers (d : ℕ) (hd : 0 < d) {p : ℝ} (hp : 0 < p) :
    ∃ (Ω : Type) (_ : MeasurableSpace Ω) (P : Measure Ω) (N : ℕ → ℕ → ℕ → Ω → (Fin d → ℝ × ℝ) × ℝ),
      IsProbabilityMeasure P ∧ ClusterNumbers P p N := by
  have hg := isProbabilityMeasure_gammaMeasure (one_div_pos.2 hp) one_pos
  have hb := isProbabilityMeasureBeta (α := (d : ℝ)) (β := 1) (Nat.cast_pos.2 hd) one_pos
  let μ : Measure ((Fin d → ℝ × ℝ) × ℝ) :=
    (Measure.pi fun _ : Fin d => (gammaMeasure (1 / p) 1).prod (gaussianReal 0 1)).prod (betaMeasure d 1)
  let P : Measure (ℕ × ℕ × ℕ → (Fin d → ℝ × ℝ) × ℝ) := Measure.infinitePi fun _ => μ
  exact ⟨_, inferInstance, P, fun i t k ω => ω (i, t, k), inferInstance,
    ⟨iIndepFun_infinitePi (P := fun _ : ℕ × ℕ × ℕ => μ) (X := fun _ x => x) fun _ => measurable_id,
      fun i t k => measurable_pi_apply _, fun i t k => Measure.infinitePi_map_eval _ (i, t, k)⟩⟩

/-- Five points around each of two centres on the boundary of the square: a quarter and a half of a disc. -/
example : ∃ (Ω : Type) (_ : MeasurableSpace Ω) (P : Measure Ω) (N : ℕ → ℕ → ℕ → Ω → (Fin 2 → ℝ × ℝ) × ℝ)
    (Y : Fin 2 → Fin 5 → Ω → Fin 2 → ℝ), IsProbabilityMeasure P ∧ ClusterNumbers P 2 N ∧
    (∀ᵐ ω ∂P, ∃ draw, (∀ i t, ballAttempts 2 (fun _ => 1 / 4) (fun i => if i = 0 then ![0, 0] else ![1 / 2, 1]) 5
        (fun i t k => N i t k ω) i t = .ok (draw i t)) ∧
      ∃ fuel c, sampleLpBall 1 fuel cornerCenters 5 draw = .ok (some c)) ∧
    ∀ i k, P.map (Y i k) =
      volume[|pBall 2 (fun _ => 1 / 4) (if (i : ℕ) = 0 then ![0, 0] else ![1 / 2, 1]) ∩ closedDomain 2 [(0, 1), (0, 1)]] := by
  obtain ⟨Ω, _, P, N, hP, hN⟩ := clusterNumbers 2 (by norm_num) (p := 2) (by norm_num)
  obtain ⟨Y, h1, -, h3⟩ := C163_ball (by norm_num) (by norm_num) hN (radius := fun _ => 1 / 4) (fun _ => by norm_num)
    (size := 1) (num := 5) (by norm_num) cornerCenters_has (D := [(0, 1), (0, 1)]) rfl
    (by intro j ab hab; fin_cases j <;> simp at hab <;> subst hab <;> norm_num)
    (by
      intro i hi j ab hab
      interval_cases i <;> fin_cases j <;> simp at hab <;> subst hab <;> norm_num)
  refine ⟨Ω, _, P, N, Y, hP, hN, ?_, fun i k => (h3 i k).2⟩
  filter_upwards [h1] with ω hω
  obtain ⟨draw, ha, fuel, hb⟩ := hω
  exact ⟨draw, ha, fuel, _, hb⟩

end Ex

end BET
