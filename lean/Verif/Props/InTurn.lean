import Verif.Props.Nearest
import Verif.Props.ProbLimit
import Verif.Props.ModelValues
import Verif.Props.Gain
import Mathlib.Analysis.SpecialFunctions.Log.Basic
import Mathlib.Topology.MetricSpace.Bounded
import Mathlib.Topology.MetricSpace.Sequences

/-!
# C180: inverting for one QoI after the other
-/

set_option autoImplicit false
set_option linter.unusedSectionVars false
set_option linter.unusedSimpArgs false

namespace BET

namespace Spec

/-- A call of `prob` for a set of samples: the discretization, the number of cells of its output probabilities, its parts
and the given probabilities. -/
structure Round where
  disc : Disc ℝ
  m : Nat
  inp : SampleSet ℝ
  out : SampleSet ℝ
  ops : SampleSet ℝ
  y : List (List ℝ)
  p : List ℝ

/-- The cells of the outputs. -/
noncomputable def Round.cells (G : Geometry ℝ) (r : Round) : List Nat := r.y.map (r.ops.cell G)

/-- Inversions one after the other: the probabilities of the `n` samples found by round `t` are the volumes of round
`t + 1`. -/
structure InTurn (G : Geometry ℝ) (size n : Nat) (R : ℕ → Round) (V : ℕ → List ℝ) : Prop where
  fresh : ∀ t, FreshDisc (R t).disc n (R t).m (R t).inp (R t).out (R t).ops (R t).y (V t) (R t).p
  nonneg : ∀ t, ∀ x ∈ (R t).p, 0 ≤ x
  next : ∀ t, solution G size (R t).disc = some (V (t + 1))

/-- Probabilities of the samples that explain the data of all rounds; samples without volume get none. -/
structure Joint (G : Geometry ℝ) (R : ℕ → Round) (vols Q : List ℝ) : Prop where
  dominated : List.Forall₂ DominatedPair Q vols
  pushed : ∀ t, ∀ k < (R t).m, mass ((R t).cells G) Q k = (R t).p.getD k 0

/-- Every problem comes up again within `T` rounds. -/
def Recurring (G : Geometry ℝ) (R : ℕ → Round) (T : Nat) : Prop :=
  ∀ r t, ∃ s ≤ T, (R (t + s)).cells G = (R r).cells G ∧ (R (t + s)).m = (R r).m ∧ (R (t + s)).p = (R r).p

end Spec

open Spec Filter Topology

/-! ## Sequences of distributions -/

/-- A lower bound of a term of the Kullback-Leibler divergence. -/
theorem klTerm_ge_sqrt {a b : ℝ} (h : DominatedPair a b) : (√a - √b) ^ 2 ≤ klTerm a b - a + b := by
  obtain ⟨ha, hb, hab⟩ := h
  have e1 := Real.sq_sqrt ha
  have e2 := Real.sq_sqrt hb
  rcases ha.eq_or_lt with rfl | ha
  · simp [klTerm, e2]
  · have hb' : 0 < b := lt_of_le_of_ne hb fun e => ha.ne' (hab e.symm)
    have hsa := Real.sqrt_pos.2 ha
    have hsb := Real.sqrt_pos.2 hb'
    have h1 := Real.log_le_sub_one_of_pos (div_pos hsb hsa)
    have h2 : Real.log (a / b) = -2 * Real.log (√b / √a) := by
      rw [Real.log_div ha.ne' hb'.ne', Real.log_div hsb.ne' hsa.ne', Real.log_sqrt ha.le, Real.log_sqrt hb]
      ring
    have h3 : a * (√b / √a) = √a * √b := by
      nth_rewrite 1 [← e1]
      field_simp
    rw [klTerm, h2]
    nlinarith

variable {n : ℕ}

/-- The Kullback-Leibler divergence of families. -/
noncomputable def klSum (a b : Fin n → ℝ) : ℝ := ∑ i, klTerm (a i) (b i)

theorem klSum_ge {a b : Fin n → ℝ} (h : ∀ i, DominatedPair (a i) (b i)) (hs : ∑ i, a i = ∑ i, b i) (i : Fin n) :
    (√(a i) - √(b i)) ^ 2 ≤ klSum a b := by
  have h1 : klSum a b = ∑ i, (klTerm (a i) (b i) - a i + b i) := by
    rw [Finset.sum_add_distrib, Finset.sum_sub_distrib, hs, klSum]
    ring
  rw [h1]
  refine (klTerm_ge_sqrt (h i)).trans (Finset.single_le_sum (f := fun i => klTerm (a i) (b i) - a i + b i)
    (fun j _ => (sq_nonneg _).trans (klTerm_ge_sqrt (h j))) (Finset.mem_univ i))

theorem abs_sub_le_sqrt {a b S : ℝ} (ha : 0 ≤ a) (hb : 0 ≤ b) (haS : a ≤ S) (hbS : b ≤ S) :
    |a - b| ≤ 2 * √S * |√a - √b| := by
  have e : a - b = (√a + √b) * (√a - √b) := by
    have e1 := Real.sq_sqrt ha
    have e2 := Real.sq_sqrt hb
    nlinarith
  rw [e, abs_mul, abs_of_nonneg (add_nonneg (Real.sqrt_nonneg _) (Real.sqrt_nonneg _))]
  have := Real.sqrt_le_sqrt haS
  have := Real.sqrt_le_sqrt hbS
  exact mul_le_mul_of_nonneg_right (by linarith) (abs_nonneg _)

/-- If divergences tend to zero, so do the differences. -/
theorem tendsto_of_klSum {ι : Type} {l : Filter ι} {a b : ι → Fin n → ℝ} {S : ℝ}
    (h : ∀ j i, DominatedPair (a j i) (b j i)) (ha : ∀ j, ∑ i, a j i = S) (hb : ∀ j, ∑ i, b j i = S)
    (hk : Tendsto (fun j => klSum (a j) (b j)) l (𝓝 0)) (i : Fin n) :
    Tendsto (fun j => a j i - b j i) l (𝓝 0) := by
  rw [tendsto_zero_iff_abs_tendsto_zero]
  have h1 : Tendsto (fun j => 2 * √S * √(klSum (a j) (b j))) l (𝓝 0) := by
    have := (Real.continuous_sqrt.tendsto 0).comp hk
    simpa using this.const_mul (2 * √S)
  refine squeeze_zero (fun j => abs_nonneg _) (fun j => ?_) h1
  have hle : ∀ c : Fin n → ℝ, (∀ i, 0 ≤ c i) → ∑ i, c i = S → c i ≤ S := fun c hc hs =>
    hs ▸ Finset.single_le_sum (fun i _ => hc i) (Finset.mem_univ i)
  refine (abs_sub_le_sqrt (h j i).1 (h j i).2.1 (hle _ (fun i => (h j i).1) (ha j))
    (hle _ (fun i => (h j i).2.1) (hb j))).trans ?_
  refine mul_le_mul_of_nonneg_left ?_ (by positivity)
  refine Real.abs_le_sqrt (klSum_ge (h j) ((ha j).trans (hb j).symm) i)

theorem tendsto_klTerm {ι : Type} {l : Filter ι} {a b : ℝ} (h : a ≠ 0 → b ≠ 0) {f : ι → ℝ} (hf : Tendsto f l (𝓝 b)) :
    Tendsto (fun j => klTerm a (f j)) l (𝓝 (klTerm a b)) := by
  by_cases ha : a = 0
  · simp only [klTerm, ha, zero_mul]
    exact tendsto_const_nhds
  · have hb := h ha
    exact ((tendsto_const_nhds.div hf hb).log (div_ne_zero ha hb)).const_mul a

/-- Distributions `v t`, of which each is the nearest to the one before of some distributions that include the set `J`.
If limits of subsequences lie in `J`, the sequence converges to the point of `J` that is nearest to the first. -/
theorem projections_converge {v : ℕ → Fin n → ℝ} {J : Set (Fin n → ℝ)} {S : ℝ}
    (hstep : ∀ t, ∀ q ∈ J, klSum q (v t) = klSum q (v (t + 1)) + klSum (v (t + 1)) (v t))
    (hdom : ∀ t i, DominatedPair (v (t + 1) i) (v t i)) (hJ : ∀ t, ∀ q ∈ J, ∀ i, DominatedPair (q i) (v t i))
    (hv : ∀ t, ∑ i, v t i = S) (hq : ∀ q ∈ J, ∑ i, q i = S)
    (hclosed : ∀ P (φ : ℕ → ℕ), StrictMono φ → (∀ s i, Tendsto (fun j => v (φ j + s) i) atTop (𝓝 (P i))) → P ∈ J)
    (hne : J.Nonempty) :
    ∃ P ∈ J, (∀ i, Tendsto (fun t => v t i) atTop (𝓝 (P i))) ∧
      (∀ q ∈ J, (∀ i, DominatedPair (q i) (P i)) ∧ klSum q (v 0) = klSum q P + klSum P (v 0)) := by
  obtain ⟨q₀, hq₀⟩ := hne
  have hnn : ∀ t, 0 ≤ klSum (v (t + 1)) (v t) := fun t => by
    by_cases hn : Nonempty (Fin n)
    · exact (sq_nonneg _).trans (klSum_ge (hdom t) ((hv _).trans (hv _).symm) hn.some)
    · rw [not_nonempty_iff] at hn
      simp [klSum]
  have hnnq : ∀ t, ∀ q ∈ J, 0 ≤ klSum q (v t) := fun t q h => by
    by_cases hn : Nonempty (Fin n)
    · exact (sq_nonneg _).trans (klSum_ge (hJ t q h) ((hq q h).trans (hv _).symm) hn.some)
    · rw [not_nonempty_iff] at hn
      simp [klSum]
  have hanti : ∀ q ∈ J, Antitone fun t => klSum q (v t) := fun q h =>
    antitone_nat_of_succ_le fun t => by have := hstep t q h; have := hnn t; linarith
  have hlim : ∀ q ∈ J, ∃ L, Tendsto (fun t => klSum q (v t)) atTop (𝓝 L) := fun q h =>
    ⟨_, tendsto_atTop_ciInf (hanti q h) ⟨0, by rintro _ ⟨t, rfl⟩; exact hnnq t q h⟩⟩
  have hsteps : Tendsto (fun t => klSum (v (t + 1)) (v t)) atTop (𝓝 0) := by
    obtain ⟨L, hL⟩ := hlim q₀ hq₀
    have h1 := hL.sub (hL.comp (tendsto_add_atTop_nat 1))
    rw [sub_self] at h1
    refine h1.congr fun t => ?_
    have := hstep t q₀ hq₀
    simp only [Function.comp]
    linarith
  have hdiff : ∀ i, Tendsto (fun t => v (t + 1) i - v t i) atTop (𝓝 0) :=
    fun i => tendsto_of_klSum (a := fun t => v (t + 1)) (b := v) hdom (fun t => hv _) hv hsteps i
  have hb : ∀ t, v t ∈ Set.Icc (0 : Fin n → ℝ) (fun _ => S) := fun t =>
    ⟨fun i => (hdom t i).2.1, fun i => hv t ▸ Finset.single_le_sum (fun i _ => (hdom t i).2.1) (Finset.mem_univ i)⟩
  obtain ⟨P, -, φ, hφ, hP⟩ := isCompact_Icc.tendsto_subseq hb
  have hPi : ∀ i, Tendsto (fun j => v (φ j) i) atTop (𝓝 (P i)) := fun i => (tendsto_pi_nhds.1 hP) i
  have hPs : ∀ s i, Tendsto (fun j => v (φ j + s) i) atTop (𝓝 (P i)) := by
    intro s i
    induction s with
    | zero => exact hPi i
    | succ s ih =>
      have h1 : Tendsto (fun j => φ j + s) atTop atTop :=
        tendsto_atTop_mono (fun j => Nat.le_add_right _ _) hφ.tendsto_atTop
      have h2 := ih.add ((hdiff i).comp h1)
      rw [add_zero] at h2
      refine h2.congr fun j => ?_
      simp only [Function.comp, ← add_assoc]
      ring
  have hPJ := hclosed P φ hφ hPs
  have hsub : Tendsto (fun j => klSum P (v (φ j))) atTop (𝓝 0) := by
    have h1 : Tendsto (fun j => klSum P (v (φ j))) atTop (𝓝 (klSum P P)) :=
      tendsto_finsetSum _ fun i _ => tendsto_klTerm (fun h => h) (hPi i)
    have h2 : klSum P P = 0 := Finset.sum_eq_zero fun i _ => by
      by_cases h : P i = 0
      · simp [klTerm, h]
      · simp [klTerm, div_self h]
    rwa [h2] at h1
  have hzero : Tendsto (fun t => klSum P (v t)) atTop (𝓝 0) := by
    obtain ⟨L, hL⟩ := hlim P hPJ
    have := tendsto_nhds_unique (hL.comp hφ.tendsto_atTop) hsub
    rwa [this] at hL
  have hconv : ∀ i, Tendsto (fun t => v t i) atTop (𝓝 (P i)) := fun i => by
    have h1 := tendsto_of_klSum (a := fun _ => P) (b := v) (fun t => hJ t P hPJ) (fun _ => hq P hPJ) hv hzero i
    simpa using (tendsto_const_nhds (x := P i)).sub h1
  refine ⟨P, hPJ, hconv, fun q h => ?_⟩
  have hqP : ∀ i, DominatedPair (q i) (P i) := by
    intro i
    refine ⟨(hJ 0 q h i).1, (hJ 0 P hPJ i).1, fun h0 => ?_⟩
    by_contra hqi
    have hqi' : 0 < q i := lt_of_le_of_ne (hJ 0 q h i).1 (Ne.symm hqi)
    -- the divergence would not stay bounded
    have h1 : ∀ t, q i * Real.log (q i / v t i) ≤ klSum q (v 0) + S := by
      intro t
      have h2 : klTerm (q i) (v t i) - q i + v t i ≤ klSum q (v t) := by
        have h3 : klSum q (v t) = ∑ i, (klTerm (q i) (v t i) - q i + v t i) := by
          rw [Finset.sum_add_distrib, Finset.sum_sub_distrib, hq q h, hv t, klSum]
          ring
        rw [h3]
        exact Finset.single_le_sum (f := fun i => klTerm (q i) (v t i) - q i + v t i)
          (fun j _ => (sq_nonneg _).trans (klTerm_ge_sqrt (hJ t q h j))) (Finset.mem_univ i)
      have h4 := hanti q h (Nat.zero_le t)
      have h5 : q i ≤ S := hq q h ▸ Finset.single_le_sum (fun i _ => (hJ 0 q h i).1) (Finset.mem_univ i)
      have h6 := (hJ t q h i).2.1
      simp only at h4
      rw [klTerm] at h2
      linarith
    have h7 : Tendsto (fun t => q i * Real.log (q i / v t i)) atTop atTop := by
      refine Tendsto.const_mul_atTop hqi' (Real.tendsto_log_atTop.comp ?_)
      have h8 : Tendsto (fun t => v t i) atTop (𝓝[>] 0) := by
        refine tendsto_nhdsWithin_iff.2 ⟨h0 ▸ hconv i, Eventually.of_forall fun t => ?_⟩
        exact lt_of_le_of_ne (hJ t q h i).2.1 fun e => hqi ((hJ t q h i).2.2 e.symm)
      have h9 := h8.inv_tendsto_nhdsGT_zero
      simpa [div_eq_mul_inv] using h9.const_mul_atTop hqi'
    obtain ⟨t, ht⟩ := (h7.eventually_gt_atTop (klSum q (v 0) + S)).exists
    exact absurd (h1 t) (not_le.2 ht)
  refine ⟨hqP, ?_⟩
  have hconst : ∀ t, klSum q (v 0) - klSum q (v t) = klSum P (v 0) - klSum P (v t) := by
    intro t
    induction t with
    | zero => ring
    | succ t ih =>
      have := hstep t q h
      have := hstep t P hPJ
      linarith
  have h1 : Tendsto (fun t => klSum q (v t)) atTop (𝓝 (klSum q P)) :=
    tendsto_finsetSum _ fun i _ => tendsto_klTerm (fun h3 h4 => h3 ((hqP i).2.2 h4)) (hconv i)
  have h2 := (h1.const_sub (klSum q (v 0)))
  have h3 := (hzero.const_sub (klSum P (v 0)))
  have h4 := tendsto_nhds_unique h2 (h3.congr fun t => (hconst t).symm)
  linarith

/-! ## Inversions in turn -/

/-- A list as a family. -/
def asFun (n : ℕ) (l : List ℝ) (i : Fin n) : ℝ := l.getD i 0

theorem asFun_ofFn (f : Fin n → ℝ) : asFun n (List.ofFn f) = f := by
  funext i
  simp [asFun]

theorem ofFn_asFun {l : List ℝ} (h : l.length = n) : List.ofFn (asFun n l) = l := by
  subst h
  apply List.ext_getElem
  · simp
  · intro i h1 h2
    simp [asFun, List.getD, List.getElem?_eq_getElem h2]

theorem divergence_asFun {a b : List ℝ} (ha : a.length = n) (hb : b.length = n) :
    divergence klTerm a b = klSum (asFun n a) (asFun n b) := by
  rw [divergence_getD ha hb, klSum]
  simp only [asFun]
  rw [Fin.sum_univ_eq_sum_range (fun i => klTerm (a.getD i 0) (b.getD i 0)) n, sum_range_finset]

theorem sum_asFun {a : List ℝ} (ha : a.length = n) : a.sum = ∑ i, asFun n a i := by
  conv_lhs => rw [← ofFn_asFun ha]
  rw [List.sum_ofFn]

theorem dominated_asFun {a b : List ℝ} (h : List.Forall₂ DominatedPair a b) (hb : b.length = n) (i : Fin n) :
    DominatedPair (asFun n a i) (asFun n b i) := by
  have hi : (i : ℕ) < b.length := hb ▸ i.2
  have ha : (i : ℕ) < a.length := h.length_eq ▸ hi
  have := (List.forall₂_iff_get.mp h).2 i ha hi
  simpa [asFun, List.getD, List.getElem?_eq_getElem hi, List.getElem?_eq_getElem ha] using this

theorem dominated_of_asFun {a b : List ℝ} (ha : a.length = n) (hb : b.length = n)
    (h : ∀ i, DominatedPair (asFun n a i) (asFun n b i)) : List.Forall₂ DominatedPair a b := by
  refine List.forall₂_iff_get.mpr ⟨ha.trans hb.symm, fun i h1 h2 => ?_⟩
  have := h ⟨i, ha ▸ h1⟩
  simpa [asFun, List.getD, List.getElem?_eq_getElem h1, List.getElem?_eq_getElem h2] using this

theorem mass_asFun {c : List Nat} {w : List ℝ} (hc : c.length = n) (hw : w.length = n) (k : Nat) :
    mass c w k = ∑ i : Fin n, if c.getD i 0 = k then asFun n w i else 0 := by
  rw [mass_eq_sum c w (hc.trans hw.symm), Finset.sum_filter, hc]
  simp only [asFun]
  rw [Fin.sum_univ_eq_sum_range (fun i => if c.getD i 0 = k then w.getD i 0 else 0) n]

theorem solved_dominates {c : List Nat} {v : List ℝ} (hl : c.length = v.length) {m : Nat} (hc : ∀ k ∈ c, k < m)
    {p Q : List ℝ} (hQ : Explains c m v p Q) :
    List.Forall₂ DominatedPair Q (solvedList c v p) ∧ List.Forall₂ DominatedPair (solvedList c v p) v := by
  have hPn : ∀ i < v.length, 0 ≤ (solvedList c v p).getD i 0 := by
    intro i hi
    rw [solvedList_at hl p hi]
    split
    · next h5 => exact div_nonneg (mul_nonneg h5.1.le (Explains.at hQ hi).2.1) h5.2.le
    · exact le_rfl
  have hPl := solvedList_length hl p
  constructor
  · refine dominated_of_asFun (n := v.length) (Explains.length hQ) hPl fun i => ?_
    refine ⟨(Explains.at hQ i.2).1, hPn i i.2, fun h0 => ?_⟩
    by_contra h1
    obtain ⟨h2, h3, h4⟩ := explains_pos hl hc hQ i.2 (lt_of_le_of_ne (Explains.at hQ i.2).1 (Ne.symm h1))
    simp only [asFun] at h0
    rw [solvedList_at hl p i.2, if_pos ⟨h3, h4⟩] at h0
    exact (div_pos (mul_pos h3 h2) h4).ne' h0
  · refine dominated_of_asFun (n := v.length) hPl rfl fun i => ?_
    refine ⟨hPn i i.2, (Explains.at hQ i.2).2.1, fun h0 => ?_⟩
    simp only [asFun] at h0 ⊢
    rw [solvedList_at hl p i.2, h0]
    simp

section turns
variable {G : Geometry ℝ} {size : Nat} {R : ℕ → Round} {V : ℕ → List ℝ}

/-- What one round does. -/
theorem InTurn.round (hG : Sound G) (hsize : 0 < size) (h : InTurn G size n R V) (t : ℕ) :
    V (t + 1) = solvedList ((R t).cells G) (V t) (R t).p ∧ ((R t).cells G).length = (V t).length ∧
      ∀ k ∈ (R t).cells G, k < (R t).m := by
  obtain ⟨e, hl, hc⟩ := fresh_solved hG hsize (h.fresh t)
  exact ⟨Option.some.inj ((h.next t).symm.trans e), hl, hc⟩

theorem InTurn.length (h : InTurn G size n R V) (t : ℕ) : (V t).length = n := (FreshDisc.lengths (h.fresh t)).2.1

/-- Probabilities that explain all data explain those of a round, given what is left after the rounds before. -/
theorem InTurn.explains (hG : Sound G) (hsize : 0 < size) (h : InTurn G size n R V) {Q : List ℝ}
    (hQ : Joint G R (V 0) Q) (t : ℕ) : Explains ((R t).cells G) (R t).m (V t) (R t).p Q := by
  induction t with
  | zero => exact ⟨hQ.dominated, hQ.pushed 0⟩
  | succ t ih =>
    obtain ⟨e, hl, hc⟩ := InTurn.round hG hsize h t
    exact ⟨e ▸ (solved_dominates hl hc ih).1, hQ.pushed _⟩

/-- **C180.** Inversions in turn: each round reduces the Kullback-Leibler divergence from all probabilities that explain
the data of all rounds, by the divergence of the new probabilities from the old ones. -/
theorem C180_step (hG : Sound G) (hsize : 0 < size) (h : InTurn G size n R V) {Q : List ℝ} (hQ : Joint G R (V 0) Q)
    (t : ℕ) :
    divergence klTerm Q (V t) = divergence klTerm Q (V (t + 1)) + divergence klTerm (V (t + 1)) (V t) := by
  obtain ⟨P, e, hP⟩ := C170_kl hG hsize (h.fresh t) (h.nonneg t)
  obtain rfl := Option.some.inj ((h.next t).symm.trans e)
  exact (hP Q (InTurn.explains hG hsize h hQ t)).1

theorem InTurn.sum (hG : Sound G) (hsize : 0 < size) (h : InTurn G size n R V) {Q : List ℝ}
    (hQ : Joint G R (V 0) Q) (t : ℕ) : (V (t + 1)).sum = Q.sum := by
  obtain ⟨e, hl, hc⟩ := InTurn.round hG hsize h t
  have hE := InTurn.explains hG hsize h hQ t
  have hb := explains_balance hl hc (h.nonneg t) hE fun _ => 1
  simp only [one_mul] at hb
  have hVl := InTurn.length h t
  rw [sum_asFun (InTurn.length h (t + 1)), sum_asFun ((Explains.length hE).trans hVl)]
  simp only [asFun]
  rw [Fin.sum_univ_eq_sum_range (fun i => (V (t + 1)).getD i 0) n, Fin.sum_univ_eq_sum_range (fun i => Q.getD i 0) n,
    ← sum_range_finset, ← sum_range_finset, e, ← hVl, hb]

/-- **C180.** So, if the volumes add up to the total of the probabilities, the divergence never grows, and stays the same
only if the round changes nothing. -/
theorem C180_closer (hG : Sound G) (hsize : 0 < size) (h : InTurn G size n R V) {Q : List ℝ} (hQ : Joint G R (V 0) Q)
    (hs : (V 0).sum = Q.sum) (t : ℕ) :
    divergence klTerm Q (V (t + 1)) ≤ divergence klTerm Q (V t) ∧
      (divergence klTerm Q (V (t + 1)) = divergence klTerm Q (V t) ↔ V (t + 1) = V t) := by
  have hsum : ∀ t, (V t).sum = Q.sum := fun t => by
    cases t with
    | zero => exact hs
    | succ t => exact InTurn.sum hG hsize h hQ t
  obtain ⟨e, hl, hc⟩ := InTurn.round hG hsize h t
  have hE := InTurn.explains hG hsize h hQ t
  have hd := (solved_dominates hl hc hE).2
  rw [← e] at hd
  have hl1 := InTurn.length h (t + 1)
  have hl0 := InTurn.length h t
  have hge := klSum_ge (dominated_asFun hd hl0) (by rw [← sum_asFun hl1, ← sum_asFun hl0, hsum, hsum])
  have hstep := C180_step hG hsize h hQ t
  have hk := divergence_asFun hl1 hl0
  have h0 : 0 ≤ divergence klTerm (V (t + 1)) (V t) := by
    rw [hk]
    by_cases hn : Nonempty (Fin n)
    · exact (sq_nonneg _).trans (hge hn.some)
    · rw [not_nonempty_iff] at hn
      simp [klSum]
  refine ⟨by linarith, fun he => ?_, fun he => by rw [he]⟩
  have hz : klSum (asFun n (V (t + 1))) (asFun n (V t)) = 0 := by rw [← hk]; linarith
  rw [← ofFn_asFun hl1, ← ofFn_asFun hl0]
  congr 1
  funext i
  have h1 := hge i
  rw [hz] at h1
  have h2 := pow_eq_zero_iff (two_ne_zero) |>.1 (le_antisymm h1 (sq_nonneg _))
  exact (Real.sqrt_inj (dominated_asFun hd hl0 i).1 (dominated_asFun hd hl0 i).2.1).1 (sub_eq_zero.1 h2)

/-- **C180.** If every problem comes up again and again and some probabilities explain the data of all of them, the
probabilities converge. The limit explains all data; of all probabilities that do it is nearest to the volumes in the
Kullback-Leibler divergence, and the only nearest. -/
theorem C180_converges (hG : Sound G) (hsize : 0 < size) (h : InTurn G size n R V) {T : Nat} (hT : Recurring G R T)
    {Q₀ : List ℝ} (hQ₀ : Joint G R (V 0) Q₀) (hs : (V 0).sum = Q₀.sum) :
    ∃ P, Joint G R (V 0) P ∧ (∀ i, Tendsto (fun t => (V t).getD i 0) atTop (𝓝 (P.getD i 0))) ∧
      ∀ Q, Joint G R (V 0) Q →
        divergence klTerm Q (V 0) = divergence klTerm Q P + divergence klTerm P (V 0) ∧
        divergence klTerm P (V 0) ≤ divergence klTerm Q (V 0) ∧
        (divergence klTerm Q (V 0) = divergence klTerm P (V 0) → Q = P) := by
  have hlen := InTurn.length h
  have hQl : ∀ Q, Joint G R (V 0) Q → Q.length = n := fun Q hQ => hQ.dominated.length_eq.trans (hlen 0)
  have hsum : ∀ t, (V t).sum = (V 0).sum := fun t => by
    cases t with
    | zero => rfl
    | succ t => exact (InTurn.sum hG hsize h hQ₀ t).trans hs.symm
  have hQsum : ∀ Q, Joint G R (V 0) Q → Q.sum = (V 0).sum := fun Q hQ =>
    (InTurn.sum hG hsize h hQ 0).symm.trans (hsum 1)
  have hrd := InTurn.round hG hsize h
  have hdomV : ∀ t, List.Forall₂ DominatedPair (V (t + 1)) (V t) := fun t => by
    obtain ⟨e, hl, hc⟩ := hrd t
    have := (solved_dominates hl hc (InTurn.explains hG hsize h hQ₀ t)).2
    rwa [← e] at this
  have hpush : ∀ t, ∀ k < (R t).m, mass ((R t).cells G) (V (t + 1)) k = (R t).p.getD k 0 := by
    intro t k hk
    obtain ⟨e, hl, hc⟩ := hrd t
    rw [e, solvedList, mass_solved_all (h.nonneg t)]
    split
    · rfl
    · next h0 => rw [Explains.zero (InTurn.explains hG hsize h hQ₀ t) hk h0]
  have hcl : ∀ t, ((R t).cells G).length = n := fun t => (hrd t).2.1.trans (hlen t)
  have hclosed : ∀ (P : Fin n → ℝ) (φ : ℕ → ℕ), StrictMono φ →
      (∀ s i, Tendsto (fun j => asFun n (V (φ j + s)) i) atTop (𝓝 (P i))) → Joint G R (V 0) (List.ofFn P) := by
    intro P φ hφ hP
    have hP0 : ∀ i, Tendsto (fun j => asFun n (V (φ j)) i) atTop (𝓝 (P i)) := hP 0
    refine ⟨dominated_of_asFun (n := n) (by simp) (hlen 0) fun i => ?_, fun r k hk => ?_⟩
    · rw [asFun_ofFn]
      have hz : asFun n (V 0) i = 0 → ∀ t, asFun n (V t) i = 0 := fun h0 t => by
        induction t with
        | zero => exact h0
        | succ t ih => exact (dominated_asFun (hdomV t) (hlen t) i).2.2 ih
      refine ⟨ge_of_tendsto' (hP0 i) fun j => (dominated_asFun (hdomV _) (hlen _) i).2.1,
        (dominated_asFun (hdomV 0) (hlen 0) i).2.1, fun h0 => ?_⟩
      exact tendsto_nhds_unique (hP0 i) (by simp only [hz h0]; exact tendsto_const_nhds)
    · have hm : ∀ s, Tendsto (fun j => mass ((R r).cells G) (V (φ j + (s + 1))) k) atTop
          (𝓝 (mass ((R r).cells G) (List.ofFn P) k)) := by
        intro s
        rw [mass_asFun (hcl r) (by simp), asFun_ofFn]
        refine Tendsto.congr (fun j => (mass_asFun (hcl r) (hlen _) k).symm) ?_
        refine tendsto_finsetSum _ fun i _ => ?_
        split
        · exact hP (s + 1) i
        · exact tendsto_const_nhds
      by_contra hne
      have hev : ∀ᶠ j in atTop, ∀ s ∈ Finset.range (T + 1),
          mass ((R r).cells G) (V (φ j + (s + 1))) k ≠ (R r).p.getD k 0 :=
        (Filter.eventually_all_finset _).2 fun s _ => (hm s).eventually_ne hne
      obtain ⟨j, hj⟩ := hev.exists
      obtain ⟨s, hsT, e1, e2, e3⟩ := hT r (φ j)
      refine hj s (Finset.mem_range.2 (by omega)) ?_
      have := hpush (φ j + s) k (e2 ▸ hk)
      rw [e1, e3] at this
      exact this
  obtain ⟨P, hPJ, hconv, hproj⟩ := projections_converge (n := n) (v := fun t => asFun n (V t))
    (J := {q | Joint G R (V 0) (List.ofFn q)}) (S := (V 0).sum)
    (fun t q hq => by
      have := C180_step hG hsize h hq t
      rw [divergence_asFun (by simp) (hlen _), divergence_asFun (by simp) (hlen _), divergence_asFun (hlen _) (hlen _),
        asFun_ofFn] at this
      exact this)
    (fun t => dominated_asFun (hdomV t) (hlen t))
    (fun t q hq i => by
      have := dominated_asFun (InTurn.explains hG hsize h hq t).dominated (hlen t) i
      rwa [asFun_ofFn] at this)
    (fun t => by rw [← sum_asFun (hlen t)]; exact hsum t)
    (fun q hq => by rw [← hQsum _ hq, List.sum_ofFn])
    hclosed
    ⟨asFun n Q₀, by
      show Joint G R (V 0) _
      rw [ofFn_asFun (hQl _ hQ₀)]; exact hQ₀⟩
  refine ⟨List.ofFn P, hPJ, fun i => ?_, fun Q hQ => ?_⟩
  · by_cases hi : i < n
    · have := hconv ⟨i, hi⟩
      simpa [asFun, List.getD_eq_getElem?_getD, hi] using this
    · have e1 : ∀ t, (V t).getD i 0 = 0 := fun t =>
        by rw [List.getD_eq_getElem?_getD, List.getElem?_eq_none (by rw [hlen]; omega)]; rfl
      have e2 : (List.ofFn P).getD i 0 = 0 := by
        rw [List.getD_eq_getElem?_getD, List.getElem?_eq_none (by simp; omega)]; rfl
      simp only [e1, e2]
      exact tendsto_const_nhds
  · have hl := hQl Q hQ
    have hmem : asFun n Q ∈ {q | Joint G R (V 0) (List.ofFn q)} := by
      show Joint G R (V 0) _
      rw [ofFn_asFun hl]; exact hQ
    obtain ⟨hd, he⟩ := hproj _ hmem
    have hPl : (List.ofFn P).length = n := by simp
    have hge := klSum_ge hd (by
      rw [← sum_asFun hl, hQsum Q hQ, ← hQsum _ hPJ, List.sum_ofFn])
    have h0 : 0 ≤ klSum (asFun n Q) P := by
      by_cases hn : Nonempty (Fin n)
      · exact (sq_nonneg _).trans (hge hn.some)
      · rw [not_nonempty_iff] at hn
        simp [klSum]
    rw [divergence_asFun hl (hlen 0), divergence_asFun hl hPl, divergence_asFun hPl (hlen 0), asFun_ofFn]
    refine ⟨he, by linarith, fun h1 => ?_⟩
    have hz : klSum (asFun n Q) P = 0 := by linarith
    rw [← ofFn_asFun hl]
    congr 1
    funext i
    have h2 := hge i
    rw [hz] at h2
    have h3 := pow_eq_zero_iff (two_ne_zero) |>.1 (le_antisymm h2 (sq_nonneg _))
    exact (Real.sqrt_inj (hd i).1 (hd i).2.1).1 (sub_eq_zero.1 h3)

/-- **C180.** If the probabilities converge at all, and in every round the cells of positive probability are reached, the
limit explains the data of all rounds. So if two problems that come up again and again have the same cells but different
probabilities, the probabilities never settle. -/
theorem C180_limit (hG : Sound G) (hsize : 0 < size) (h : InTurn G size n R V) {T : Nat} (hT : Recurring G R T)
    (hreach : ∀ t, ∀ k < (R t).m, 0 < (R t).p.getD k 0 → 0 < mass ((R t).cells G) (V t) k) {L : List ℝ} (hL : L.length = n)
    (hconv : ∀ i, Tendsto (fun t => (V t).getD i 0) atTop (𝓝 (L.getD i 0))) :
    (∀ t, ∀ k < (R t).m, mass ((R t).cells G) L k = (R t).p.getD k 0) ∧
      ∀ r r', (R r).cells G = (R r').cells G → ∀ k < (R r).m, k < (R r').m → (R r).p.getD k 0 = (R r').p.getD k 0 := by
  have hlen := InTurn.length h
  have hpush : ∀ t, ∀ k < (R t).m, mass ((R t).cells G) (V (t + 1)) k = (R t).p.getD k 0 := by
    intro t k hk
    obtain ⟨e, hl, hc⟩ := InTurn.round hG hsize h t
    rw [e, solvedList, mass_solved_all (h.nonneg t)]
    split
    · rfl
    · next h0 =>
      refine le_antisymm (getD_nonneg_of (h.nonneg t) k) (not_lt.1 fun h1 => h0 (hreach t k hk h1))
  have hcl : ∀ t, ((R t).cells G).length = n := fun t => (InTurn.round hG hsize h t).2.1.trans (hlen t)
  have hall : ∀ t, ∀ k < (R t).m, mass ((R t).cells G) L k = (R t).p.getD k 0 := by
    intro r k hk
    have hm : Tendsto (fun j => mass ((R r).cells G) (V j) k) atTop (𝓝 (mass ((R r).cells G) L k)) := by
      rw [mass_asFun (hcl r) hL]
      refine Tendsto.congr (fun j => (mass_asFun (hcl r) (hlen _) k).symm) ?_
      refine tendsto_finsetSum _ fun i _ => ?_
      split
      · exact hconv i
      · exact tendsto_const_nhds
    by_contra hne
    obtain ⟨N, hN⟩ := eventually_atTop.1 (hm.eventually_ne hne)
    obtain ⟨s, -, e1, e2, e3⟩ := hT r N
    refine hN (N + s + 1) (by omega) ?_
    have := hpush (N + s) k (e2 ▸ hk)
    rwa [e1, e3] at this
  refine ⟨hall, fun r r' e k h1 h2 => ?_⟩
  rw [← hall r k h1, ← hall r' k h2, e]

end turns

end BET

namespace BET.Ex

open Spec Filter Topology

/-- Four samples and two QoIs, of which each takes the values zero and one. In even rounds the first QoI is inverted, in odd
rounds the second. -/
noncomputable def tableOps (t : ℕ) : SampleSet ℝ :=
  { dim := 1
    glob := { values := some [[0], [1]], probabilities := some (if t % 2 = 0 then [1/4, 3/4] else [1/3, 2/3]) } }

noncomputable def tableOut (t : ℕ) : List (List ℝ) := if t % 2 = 0 then [[0], [0], [1], [1]] else [[0], [1], [0], [1]]

noncomputable def tableRound (v : List ℝ) (t : ℕ) : Round where
  disc :=
    { input := some { dim := 1, glob := { values := some [[0], [0], [0], [0]], volumes := some v } }
      output := some { dim := 1, glob := { values := some (tableOut t) } }
      outputProb := some (tableOps t) }
  m := 2
  inp := { dim := 1, glob := { values := some [[0], [0], [0], [0]], volumes := some v } }
  out := { dim := 1, glob := { values := some (tableOut t) } }
  ops := tableOps t
  y := tableOut t
  p := if t % 2 = 0 then [1/4, 3/4] else [1/3, 2/3]

theorem tableRound_fresh {v : List ℝ} (hv : v.length = 4) (t : ℕ) :
    FreshDisc (tableRound v t).disc 4 (tableRound v t).m (tableRound v t).inp (tableRound v t).out (tableRound v t).ops
      (tableRound v t).y v (tableRound v t).p := by
  match v, hv with
  | [a, b, c, d], _ =>
    unfold tableRound tableOps tableOut
    split
    · exact ⟨rfl, SampleSet.consistent_of_checkNum (size := 1) rfl rfl, rfl, rfl, rfl, rfl,
        SampleSet.consistent_of_checkNum (size := 1) rfl rfl, rfl, rfl, rfl,
        ⟨SampleSet.consistent_of_checkNum (size := 1) rfl rfl, Nat.two_pos, rfl, Or.inl rfl, nofun, nofun⟩, rfl, rfl⟩
    · exact ⟨rfl, SampleSet.consistent_of_checkNum (size := 1) rfl rfl, rfl, rfl, rfl, rfl,
        SampleSet.consistent_of_checkNum (size := 1) rfl rfl, rfl, rfl, rfl,
        ⟨SampleSet.consistent_of_checkNum (size := 1) rfl rfl, Nat.two_pos, rfl, Or.inl rfl, nofun, nofun⟩, rfl, rfl⟩

theorem tableRound_cells (v : List ℝ) (t : ℕ) :
    (tableRound v t).cells euclid = if t % 2 = 0 then [0, 0, 1, 1] else [0, 1, 0, 1] := by
  have h0 : (tableOps t).cell euclid [0] = 0 := realTwoCell_zero
  have h1 : (tableOps t).cell euclid [1] = 1 := realTwoCell_one
  unfold Round.cells tableRound tableOut
  split <;> simp [h0, h1]

/-- The probabilities after each round. -/
noncomputable def tableProb : ℕ → List ℝ
  | 0 => [1/8, 3/8, 3/8, 1/8]
  | t + 1 => solvedList (if t % 2 = 0 then [0, 0, 1, 1] else [0, 1, 0, 1]) (tableProb t)
      (if t % 2 = 0 then [1/4, 3/4] else [1/3, 2/3])

theorem tableProb_length (t : ℕ) : (tableProb t).length = 4 := by
  induction t with
  | zero => rfl
  | succ t ih =>
    rw [tableProb, solvedList_length (by split <;> simp [ih]), ih]

theorem table_inTurn : InTurn euclid 2 4 (fun t => tableRound (tableProb t) t) tableProb where
  fresh t := tableRound_fresh (tableProb_length t) t
  nonneg t := by
    unfold tableRound
    dsimp only
    split <;> norm_num
  next t := by
    have h := (fresh_solved euclid_sound (size := 2) (by decide) (tableRound_fresh (tableProb_length t) t)).1
    have e := tableRound_cells (tableProb t) t
    unfold Round.cells at e
    rw [e] at h
    exact h

theorem table_recurring : Recurring euclid (fun t => tableRound (tableProb t) t) 1 := by
  intro r t
  refine ⟨(t + r) % 2, by omega, ?_, rfl, ?_⟩
  · simp only [tableRound_cells]
    rw [show (t + (t + r) % 2) % 2 = r % 2 by omega]
  · simp only [tableRound]
    rw [show (t + (t + r) % 2) % 2 = r % 2 by omega]

/-- Independent QoIs explain both. -/
theorem table_joint : Joint euclid (fun t => tableRound (tableProb t) t) (tableProb 0) [1/12, 1/6, 1/4, 1/2] where
  dominated := by
    refine .cons ?_ (.cons ?_ (.cons ?_ (.cons ?_ .nil))) <;> norm_num [DominatedPair]
  pushed t k hk := by
    have hk' : k < 2 := hk
    show mass ((tableRound (tableProb t) t).cells euclid) _ k =
      (if t % 2 = 0 then [1/4, 3/4] else [1/3, 2/3] : List ℝ).getD k 0
    rw [tableRound_cells]
    split <;> interval_cases k <;> norm_num [mass]

/-- `C180_converges`, with volumes that are not independent. -/
example : ∃ P, Joint euclid (fun t => tableRound (tableProb t) t) [1/8, 3/8, 3/8, 1/8] P ∧
    ∀ i, Tendsto (fun t => (tableProb t).getD i 0) atTop (𝓝 (P.getD i 0)) := by
  obtain ⟨P, h1, h2, -⟩ := C180_converges euclid_sound (by decide) table_inTurn table_recurring table_joint (by
    norm_num [tableProb])
  exact ⟨P, h1, h2⟩

example (t : ℕ) : divergence klTerm [1/12, 1/6, 1/4, 1/2] (tableProb (t + 1)) ≤
    divergence klTerm [1/12, 1/6, 1/4, 1/2] (tableProb t) :=
  (C180_closer euclid_sound (by decide) table_inTurn table_joint (by norm_num [tableProb]) t).1

/-- `C180_limit`: every round is reached. -/
example (t k : ℕ) (hk : k < 2) (h : 0 < (tableRound (tableProb t) t).p.getD k 0) :
    0 < mass ((tableRound (tableProb t) t).cells euclid) (tableProb t) k := by
  by_contra h0
  exact h.ne' (Explains.zero (InTurn.explains euclid_sound (by decide) table_inTurn table_joint t) hk h0)

/-- Contradictory data: the first QoI, with other probabilities in even and in odd rounds. -/
noncomputable def disputedProb (t : ℕ) : List ℝ := if t % 2 = 0 then [1/8, 3/8, 3/8, 1/8] else [1/16, 3/16, 9/16, 3/16]

noncomputable def disputedOps (t : ℕ) : SampleSet ℝ :=
  { dim := 1
    glob := { values := some [[0], [1]], probabilities := some (if t % 2 = 0 then [1/4, 3/4] else [1/2, 1/2]) } }

noncomputable def disputedRound (t : ℕ) : Round where
  disc :=
    { input := some { dim := 1, glob := { values := some [[0], [0], [0], [0]], volumes := some (disputedProb t) } }
      output := some { dim := 1, glob := { values := some [[0], [0], [1], [1]] } }
      outputProb := some (disputedOps t) }
  m := 2
  inp := { dim := 1, glob := { values := some [[0], [0], [0], [0]], volumes := some (disputedProb t) } }
  out := { dim := 1, glob := { values := some [[0], [0], [1], [1]] } }
  ops := disputedOps t
  y := [[0], [0], [1], [1]]
  p := if t % 2 = 0 then [1/4, 3/4] else [1/2, 1/2]

theorem disputed_fresh (t : ℕ) : FreshDisc (disputedRound t).disc 4 (disputedRound t).m (disputedRound t).inp
    (disputedRound t).out (disputedRound t).ops (disputedRound t).y (disputedProb t) (disputedRound t).p := by
  unfold disputedRound disputedProb disputedOps
  split
  · exact ⟨rfl, SampleSet.consistent_of_checkNum (size := 1) rfl rfl, rfl, rfl, rfl, rfl,
      SampleSet.consistent_of_checkNum (size := 1) rfl rfl, rfl, rfl, rfl,
      ⟨SampleSet.consistent_of_checkNum (size := 1) rfl rfl, Nat.two_pos, rfl, Or.inl rfl, nofun, nofun⟩, rfl, rfl⟩
  · exact ⟨rfl, SampleSet.consistent_of_checkNum (size := 1) rfl rfl, rfl, rfl, rfl, rfl,
      SampleSet.consistent_of_checkNum (size := 1) rfl rfl, rfl, rfl, rfl,
      ⟨SampleSet.consistent_of_checkNum (size := 1) rfl rfl, Nat.two_pos, rfl, Or.inl rfl, nofun, nofun⟩, rfl, rfl⟩

theorem disputed_cells (t : ℕ) : (disputedRound t).cells euclid = [0, 0, 1, 1] := by
  have h0 : (disputedRound t).ops.cell euclid [0] = 0 := realTwoCell_zero
  have h1 : (disputedRound t).ops.cell euclid [1] = 1 := realTwoCell_one
  show [[0], [0], [1], [1]].map _ = _
  simp [h0, h1]

theorem disputed_inTurn : InTurn euclid 2 4 disputedRound disputedProb where
  fresh := disputed_fresh
  nonneg t := by
    unfold disputedRound
    dsimp only
    split <;> norm_num
  next t := by
    have h := (fresh_solved euclid_sound (size := 2) (by decide) (disputed_fresh t)).1
    have e := disputed_cells t
    unfold Round.cells at e
    rw [e] at h
    rw [h]
    congr 1
    show solvedList _ (disputedProb t) (if t % 2 = 0 then [1/4, 3/4] else [1/2, 1/2]) = disputedProb (t + 1)
    unfold disputedProb
    rcases Nat.mod_two_eq_zero_or_one t with h1 | h1
    · rw [if_pos h1, if_pos h1, if_neg (by omega)]
      norm_num [solvedList, mass]
    · rw [if_neg (by omega), if_neg (by omega), if_pos (by omega)]
      norm_num [solvedList, mass]

theorem disputed_recurring : Recurring euclid disputedRound 1 := by
  intro r t
  refine ⟨(t + r) % 2, by omega, ?_, rfl, ?_⟩
  · rw [disputed_cells, disputed_cells]
  · simp only [disputedRound]
    rw [show (t + (t + r) % 2) % 2 = r % 2 by omega]

end BET.Ex

namespace BET

open Spec

/-- **C180, negated.** One round for each QoI is not enough: after the second the data of the first are not explained any
more, although probabilities that explain both exist. -/
theorem C180_negation_once : ∃ (R : ℕ → Round) (V : ℕ → List ℝ), InTurn Ex.euclid 2 4 R V ∧ Recurring Ex.euclid R 1 ∧
    (∃ Q, Joint Ex.euclid R (V 0) Q ∧ (V 0).sum = Q.sum) ∧
    ∃ k < (R 0).m, mass ((R 0).cells Ex.euclid) (V 2) k ≠ (R 0).p.getD k 0 := by
  refine ⟨_, _, Ex.table_inTurn, Ex.table_recurring, ⟨_, Ex.table_joint, by norm_num [Ex.tableProb]⟩, 0, ?_, ?_⟩
  · simp [Ex.tableRound]
  · show mass ((Ex.tableRound (Ex.tableProb 0) 0).cells Ex.euclid) _ 0 ≠ ([1/4, 3/4] : List ℝ).getD 0 0
    rw [Ex.tableRound_cells]
    norm_num [Ex.tableProb, solvedList, mass]

/-- **C180, negated.** If no probabilities explain all the data, the probabilities need not converge. -/
theorem C180_negation_contradictory : ∃ (R : ℕ → Round) (V : ℕ → List ℝ), InTurn Ex.euclid 2 4 R V ∧
    Recurring Ex.euclid R 1 ∧ (∀ x ∈ V 0, 0 < x) ∧ (∀ t, (V t).sum = 1) ∧
    ¬ ∃ L : ℝ, Filter.Tendsto (fun t => (V t).getD 0 0) Filter.atTop (nhds L) := by
  refine ⟨_, _, Ex.disputed_inTurn, Ex.disputed_recurring, ?_, fun t => ?_, ?_⟩
  · norm_num [Ex.disputedProb]
  · unfold Ex.disputedProb
    split <;> norm_num
  · rintro ⟨L, hL⟩
    have h1 := hL.comp (Filter.tendsto_atTop_mono (fun j : ℕ => (by omega : j ≤ 2 * j)) Filter.tendsto_id)
    have h2 := hL.comp (Filter.tendsto_atTop_mono (fun j : ℕ => (by omega : j ≤ 2 * j + 1)) Filter.tendsto_id)
    have e1 : ((fun t => (Ex.disputedProb t).getD 0 0) ∘ fun j => 2 * j) = fun _ => 1/8 := by
      funext j
      simp [Ex.disputedProb]
    have e2 : ((fun t => (Ex.disputedProb t).getD 0 0) ∘ fun j => 2 * j + 1) = fun _ => 1/16 := by
      funext j
      simp [Ex.disputedProb, Nat.add_mod]
    rw [e1] at h1
    rw [e2] at h2
    have := (tendsto_nhds_unique h1 tendsto_const_nhds).symm.trans (tendsto_nhds_unique h2 tendsto_const_nhds)
    norm_num at this

end BET
