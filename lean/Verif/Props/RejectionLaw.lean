import Verif.Model.DrawsR
import Verif.Props.InvertDefined
import Verif.Lemmas.Chance
import Mathlib.Probability.Independence.InfinitePi

/-!
# C132. Rejection sampling accepts every sample with its chance
-/

set_option linter.unusedSectionVars false
set_option linter.unusedSimpArgs false
set_option autoImplicit false

namespace BET

open BET.Spec MeasureTheory ProbabilityTheory Filter Topology

namespace Spec

variable {Ω : Type} [MeasurableSpace Ω]

/-- Independent random numbers, uniform between 0 and 1. -/
structure UniformNumbers (P : Measure Ω) (V : ℕ → ℕ → Ω → ℝ) : Prop where
  law : ∀ i k, HasLaw (V i k) (volume.restrict (Set.Ico (0 : ℝ) 1)) P
  indep : iIndepFun (fun p : ℕ × ℕ => V p.1 p.2) P

/-- The largest weight among the samples with the label of sample `t`. -/
noncomputable def peak (reg : List Int) (w : List ℝ) (t : Nat) : ℝ :=
  sSup {y | ∃ s : Nat, reg[s]? = reg[t]? ∧ w[s]? = some y}

/-- The chance of sample `t`: its weight relative to the largest weight in its cluster. -/
noncomputable def chance (reg : List Int) (w : List ℝ) (t : Nat) : ℝ := w.getD t 0 / peak reg w t

/-- The sum of a function over the accepted samples. -/
noncomputable def accepted (g : List ℝ → ℝ) (r : Except Err (Accepted ℝ)) : ℝ :=
  (r.toOption.map fun a => (a.values.map g).sum).getD 0

/-- The mean of a function under the sample set that is returned: its values with its probabilities. -/
noncomputable def newMean (g : List ℝ → ℝ) (r : Except Err (Accepted ℝ)) : ℝ :=
  (r.toOption.map fun a => (List.zipWith (· * ·) a.probabilities (a.values.map g)).sum).getD 0

/-- The mean of a function of the samples with given weights. -/
noncomputable def weightedMeanOf (g : List ℝ → ℝ) (x : List (List ℝ)) (w : List ℝ) : ℝ :=
  (∑ t ∈ Finset.range x.length, w.getD t 0 * g (x.getD t [])) / ∑ t ∈ Finset.range x.length, w.getD t 0

/-- The inversion gives weights that are not negative, and every cluster has a positive one. -/
structure Weighted (k : Kdes ℝ) (st : Inversion ℝ) : Prop where
  num : 0 < k.num
  nonneg : ∀ w ∈ st.weights, 0 ≤ w
  pos : ∀ j < k.num, ∃ (t : Nat) (w : ℝ), k.regP[t]? = some (j : Int) ∧ st.weights[t]? = some w ∧ 0 < w

end Spec

/-! ### What is accepted, for given numbers -/

/-- How many samples before `t` have its label. -/
def rankIn (reg : List Int) (t : Nat) : Nat := ((List.range t).filter fun s => decide (reg[s]? = reg[t]?)).length

/-- The number with which sample `t` is compared. -/
def numberOf {α : Type} (reg : List Int) (V : Nat → Nat → α) (t : Nat) : α :=
  V (reg.getD t 0).toNat (rankIn reg t)

theorem whereEq_get {reg : List Int} {j t s : Nat} (h : (whereEq reg j)[t]? = some s) :
    reg[s]? = some (j : Int) ∧ rankIn reg s = t := by
  have hm := List.mem_of_getElem? h
  unfold whereEq at hm
  rw [List.mem_filter, List.mem_range] at hm
  obtain ⟨hs, hl⟩ := hm
  have hl := of_decide_eq_true hl
  refine ⟨hl, ?_⟩
  have hsplit : List.range reg.length = List.range s ++ s :: (List.range (reg.length - (s + 1))).map (s + 1 + ·) := by
    have h1 := List.range_add (n := s + 1) (m := reg.length - (s + 1))
    rw [show s + 1 + (reg.length - (s + 1)) = reg.length by omega, List.range_succ, List.append_assoc] at h1
    exact h1
  have hw : whereEq reg j = (List.range s).filter (fun u => decide (reg[u]? = some (j : Int))) ++
      s :: ((List.range (reg.length - (s + 1))).map (s + 1 + ·)).filter fun u => decide (reg[u]? = some (j : Int)) := by
    conv_lhs => unfold whereEq
    rw [hsplit, List.filter_append, List.filter_cons_of_pos (by simp [hl])]
  have hnd : (whereEq reg j).Nodup := List.Nodup.filter _ List.nodup_range
  have ht := (List.getElem?_eq_some_iff.1 h)
  obtain ⟨htl, hte⟩ := ht
  have hr : rankIn reg s = ((List.range s).filter (fun u => decide (reg[u]? = some (j : Int)))).length := by
    unfold rankIn; rw [hl]
  have hrl : (whereEq reg j)[rankIn reg s]? = some s := by
    rw [hr, hw, List.getElem?_append_right le_rfl, Nat.sub_self, List.getElem?_cons_zero]
  obtain ⟨hrl', hre⟩ := List.getElem?_eq_some_iff.1 hrl
  exact (List.Nodup.getElem_inj_iff hnd).1 (hre.trans hte.symm)

/-- The samples of the clusters that pass the test, cluster by cluster. -/
noncomputable def passed (num : Nat) (reg : List Int) (c : Nat → ℝ) (z : Nat → ℝ) : List Nat :=
  (List.range num).flatMap fun j => (whereEq reg j).filter fun t => decide (z t ≤ c t)

theorem peak_eq {reg : List Int} {w : List ℝ} {rr : List ℝ} {j t : Nat}
    (hlen : (whereEq reg j).length = rr.length)
    (hget : ∀ i s : Nat, (whereEq reg j)[i]? = some s → w[s]? = rr[i]?) {M : ℝ} (hM : IsGreatest {y | y ∈ rr} M)
    (ht : reg[t]? = some (j : Int)) : peak reg w t = M := by
  unfold peak
  rw [ht]
  refine IsGreatest.csSup_eq ?_
  have : {y | ∃ s : Nat, reg[s]? = some (j : Int) ∧ w[s]? = some y} = {y | y ∈ rr} := by
    ext y
    constructor
    · rintro ⟨s, hs, hy⟩
      have hm : s ∈ whereEq reg j := by
        unfold whereEq
        rw [List.mem_filter, List.mem_range]
        exact ⟨(List.getElem?_eq_some_iff.1 hs).1, decide_eq_true hs⟩
      obtain ⟨i, hi⟩ := List.mem_iff_getElem?.1 hm
      rw [hget i s hi] at hy
      exact List.mem_of_getElem? hy
    · intro hy
      obtain ⟨i, hi⟩ := List.mem_iff_getElem?.1 hy
      have hil : i < (whereEq reg j).length := hlen ▸ (List.getElem?_eq_some_iff.1 hi).1
      have hs := List.getElem?_eq_getElem hil
      exact ⟨_, (whereEq_get hs).1, (hget i _ hs).trans hi⟩
  rw [this]
  exact hM

theorem rejection_values {F : KdeFit ℝ} {ps os : RSet ℝ} {k : Kdes ℝ} {st : Inversion ℝ}
    (hinv : invert F ps os = .ok (k, st)) (hw : Weighted k st) {x : List (List ℝ)} (hx : x.length = ps.values.length)
    (dim : Nat) {V : Nat → Nat → ℝ} (hV : ∀ i t, V i t ≤ 1) :
    ∃ a, invertRejectionDrawn F dim x ps os V = .ok a ∧ a.values ≠ [] ∧
      a.probabilities = a.values.map (fun _ => 1 / (a.values.length : ℝ)) ∧
      a.values = (passed k.num k.regP (chance k.regP st.weights) (numberOf k.regP V)).map fun t => x.getD t [] := by
  obtain ⟨hnum, hnn, hpos⟩ := hw
  have hinv' := hinv
  simp only [invert, bind_eq_ok, pure_eq_ok, Prod.mk.injEq] at hinv'
  obtain ⟨k', hk, st', hst, rfl, rfl⟩ := hinv'
  obtain ⟨-, hptr, hwl, hc, -⟩ := invert_loop hst
  have hcl : ∀ j < k'.num, ∃ vals, acceptCluster x st' (rejectionNumbers st' V) j = .ok vals ∧ vals ≠ [] ∧
      vals = ((whereEq k'.regP j).filter fun t => decide (numberOf k'.regP V t ≤ chance k'.regP st'.weights t)).map
        fun t => x.getD t [] := by
    intro j hj
    obtain ⟨vals', r', hv1, hv2, h3, h4⟩ := hc j hj
    obtain ⟨t0, w0, ht0, hw0, hw0p⟩ := hpos j hj
    have hm0 : t0 ∈ whereEq k'.regP j := by
      unfold whereEq
      rw [List.mem_filter, List.mem_range]
      exact ⟨(List.getElem?_eq_some_iff.1 ht0).1, decide_eq_true ht0⟩
    obtain ⟨rr, rfl⟩ : ∃ rr, r' = some rr := by
      unfold clusterRatio at hv2
      rw [if_pos (List.length_pos_of_mem hm0)] at hv2
      simp only [bind_eq_ok, pure_eq_ok] at hv2
      obtain ⟨_, _, _, _, _, _, _, _, rr, _, rfl⟩ := hv2
      exact ⟨rr, rfl⟩
    obtain ⟨hlen, hget⟩ := h4 rr rfl
    obtain ⟨i0, hi0⟩ := List.mem_iff_getElem?.1 hm0
    have hrr0 : rr[i0]? = some w0 := (hget i0 t0 hi0).symm.trans hw0
    obtain ⟨M, hM⟩ : ∃ M, npMax rr = .ok M := by
      cases rr with
      | nil => simp at hrr0
      | cons a l => exact ⟨_, rfl⟩
    have hgr := npMax_isGreatest hM
    have hMpos : 0 < M := lt_of_lt_of_le hw0p (hgr.2 (List.mem_of_getElem? hrr0))
    have hus : rejectionNumbers st' V j = (List.range rr.length).map (V j) := by
      unfold rejectionNumbers; rw [h3]
    have hul : rr.length = (rejectionNumbers st' V j).length := by rw [hus]; simp
    have hule : ∀ u ∈ rejectionNumbers st' V j, u ≤ 1 := by
      rw [hus]
      intro u hu
      obtain ⟨i, -, rfl⟩ := List.mem_map.1 hu
      exact hV _ _
    have hpj : st'.ptr[j]? = some (whereEq k'.regP j) := by
      rw [hptr, List.getElem?_map, List.getElem?_range hj]; rfl
    obtain ⟨sel, hsel⟩ := takeIdx_total (x := whereEq k'.regP j)
      (idx := (List.range rr.length).filter
        fun t => decide ((rejectionNumbers st' V j).getD t 0 ≤ rr.getD t 0 / M))
      fun t ht => by
        rw [hlen]
        exact List.mem_range.1 (List.mem_filter.1 ht).1
    have hlt : ∀ s ∈ whereEq k'.regP j, s < x.length := by
      intro s hs
      obtain ⟨i, hi⟩ := List.mem_iff_getElem?.1 hs
      have hil : i < rr.length := hlen ▸ (List.getElem?_eq_some_iff.1 hi).1
      have := hget i s hi
      rw [List.getElem?_eq_getElem hil] at this
      rw [hx, ← hwl]
      exact (List.getElem?_eq_some_iff.1 this).1
    have hsm : ∀ i ∈ sel, i < x.length := by
      intro i hi
      obtain ⟨hl', hg'⟩ := takeIdx_eq_ok hsel
      obtain ⟨t, ht⟩ := List.mem_iff_getElem?.1 hi
      have htl := (List.getElem?_eq_some_iff.1 ht).1
      obtain ⟨y, hy, hty⟩ := hg' t _ (List.getElem?_eq_getElem (hl' ▸ htl))
      cases ht.symm.trans hty
      exact hlt _ (List.mem_of_getElem? hy)
    obtain ⟨vals, hv⟩ := takeIdx_total hsm
    refine ⟨vals, ?_, ?_, ?_⟩
    · have h1 : acceptIdx rr (rejectionNumbers st' V j) = .ok ((List.range rr.length).filter
          fun t => decide ((rejectionNumbers st' V j).getD t 0 ≤ rr.getD t 0 / M)) := by
        simp only [acceptIdx, hM, ok_bind, raiseIf, hMpos.ne', ← hul, ne_eq, not_true_eq_false,
          decide_false, Bool.false_eq_true, if_false, not_false_eq_true, decide_true, Bool.true_and]
        rfl
      simp only [acceptCluster, (getIdx_eq_ok _ _ _).2 h3, ok_bind, orErr_some, h1,
        (getIdx_eq_ok _ _ _).2 hpj, hsel, hv]
    · rw [(accept_rows x _ rr _ M hlen hul sel vals hsel hv).1]
      exact keptRows_ne_nil hlen hul hgr.1 hMpos hule
    · rw [(accept_rows x _ rr _ M hlen hul sel vals hsel hv).1]
      have hzip : (whereEq k'.regP j).zip (rr.zip (rejectionNumbers st' V j)) =
          (whereEq k'.regP j).map fun s => (s, st'.weights.getD s 0, numberOf k'.regP V s) := by
        refine List.ext_getElem? fun i => ?_
        rw [List.getElem?_map]
        cases hi : (whereEq k'.regP j)[i]? with
        | none =>
          rw [Option.map_none, List.getElem?_eq_none_iff, List.length_zip]
          exact le_trans (min_le_left _ _) (List.getElem?_eq_none_iff.1 hi)
        | some s =>
          have hil : i < rr.length := hlen ▸ (List.getElem?_eq_some_iff.1 hi).1
          rw [Option.map_some, List.getElem?_zip_eq_some]
          refine ⟨hi, List.getElem?_zip_eq_some.2 ⟨?_, ?_⟩⟩
          · have := hget i s hi
            rw [List.getElem?_eq_getElem hil] at this ⊢
            rw [List.getD_eq_getElem?_getD, this]; rfl
          · obtain ⟨h5, h6⟩ := whereEq_get hi
            rw [hus, List.getElem?_map, List.getElem?_range hil, Option.map_some]
            show some (V j i) = some (V (k'.regP.getD s 0).toNat (rankIn k'.regP s))
            rw [h6, List.getD_eq_getElem?_getD, h5]
            rfl
      unfold keptRows
      rw [hzip, List.filter_map, List.map_map]
      congr 1
      refine List.filter_congr fun s hs => ?_
      obtain ⟨i, hi⟩ := List.mem_iff_getElem?.1 hs
      simp only [Function.comp, chance, peak_eq hlen hget hgr (whereEq_get hi).1]
  obtain ⟨news, hnews⟩ := mapM_total (l := List.range k'.num) (f := acceptCluster x st' (rejectionNumbers st' V))
    fun j hj => by
      obtain ⟨v, hv, -⟩ := hcl j (List.mem_range.1 hj); exact ⟨v, hv⟩
  have hf := (mapM_eq_ok _ _ _).1 hnews
  have hn0 : 0 < news.length := by rw [← hf.length_eq]; simpa using hnum
  have hnewsE : news = (List.range k'.num).map fun j =>
      ((whereEq k'.regP j).filter fun t => decide (numberOf k'.regP V t ≤ chance k'.regP st'.weights t)).map
        fun t => x.getD t [] := by
    refine List.ext_getElem (by rw [← hf.length_eq]; simp) fun j h1 h2 => ?_
    have hj : j < k'.num := by simpa using h2
    have hg := List.Forall₂.get hf (by simpa using hj) h1
    simp only [List.get_eq_getElem, List.getElem_range] at hg
    obtain ⟨v, hv, -, hve⟩ := hcl j hj
    rw [Except.ok.inj (hg.symm.trans hv), hve]
    simp
  have hflat : news.flatten ≠ [] := by
    obtain ⟨v, hv, hvne, -⟩ := hcl 0 hnum
    have hg := List.Forall₂.get hf (by simpa using hnum) hn0
    simp only [List.get_eq_getElem, List.getElem_range] at hg
    have : news[0] = v := Except.ok.inj (hg.symm.trans hv)
    intro h0
    rw [List.flatten_eq_nil_iff] at h0
    exact hvne (this ▸ h0 _ (List.getElem_mem hn0))
  obtain ⟨dom, hdom⟩ := mapM_total (l := List.range dim) (f := columnRange news.flatten)
    fun i _ => by
      cases hfl : news.flatten with
      | nil => exact absurd hfl hflat
      | cons a l => exact ⟨_, rfl⟩
  refine ⟨⟨news.flatten, news.flatten.map fun _ => (1 : ℝ) / (news.flatten.length : ℝ), dom⟩, ?_, hflat, rfl, ?_⟩
  · have hemp : news.isEmpty = false := by
      cases news with
      | nil => simp at hn0
      | cons _ _ => rfl
    simp only [invertRejectionDrawn, invertRejection, hinv, ok_bind, hnews, hdom, hemp, raiseIf, Bool.false_eq_true,
      if_false]
    rfl
  · show news.flatten = _
    rw [hnewsE]
    unfold passed
    rw [List.map_flatMap, List.flatMap_def]

/-! ### Chances -/

/-- The samples that belong to one of the clusters. -/
noncomputable def clustered (num : Nat) (reg : List Int) : Finset Nat := by
  classical exact (Finset.range reg.length).filter fun t => ∃ j < num, reg[t]? = some ((j : Nat) : Int)

theorem mem_clustered {num : Nat} {reg : List Int} {t : Nat} :
    t ∈ clustered num reg ↔ ∃ j < num, reg[t]? = some ((j : Nat) : Int) := by
  unfold clustered
  rw [Finset.mem_filter, Finset.mem_range]
  exact ⟨fun h => h.2, fun ⟨j, hj, h⟩ => ⟨(List.getElem?_eq_some_iff.1 h).1, j, hj, h⟩⟩

theorem mem_passed {num : Nat} {reg : List Int} {c z : Nat → ℝ} {t : Nat} :
    t ∈ passed num reg c z ↔ t ∈ clustered num reg ∧ z t ≤ c t := by
  unfold passed
  rw [List.mem_flatMap, mem_clustered]
  constructor
  · rintro ⟨j, hj, h⟩
    rw [List.mem_filter, mem_whereEq, decide_eq_true_eq] at h
    exact ⟨⟨j, List.mem_range.1 hj, h.1⟩, h.2⟩
  · rintro ⟨⟨j, hj, h⟩, hz⟩
    exact ⟨j, List.mem_range.2 hj, List.mem_filter.2 ⟨(mem_whereEq _ _ _).2 h, decide_eq_true hz⟩⟩

theorem passed_nodup (num : Nat) (reg : List Int) (c z : Nat → ℝ) : (passed num reg c z).Nodup := by
  unfold passed
  rw [List.nodup_flatMap]
  refine ⟨fun j _ => (List.Nodup.filter _ List.nodup_range).filter _, ?_⟩
  refine List.nodup_range.imp ?_
  intro i j hij t hi hj
  have h1 := (mem_whereEq _ _ _).1 (List.mem_filter.1 hi).1
  have h2 := (mem_whereEq _ _ _).1 (List.mem_filter.1 hj).1
  rw [h1] at h2
  exact hij (by exact_mod_cast Option.some.inj h2)

theorem sum_passed (num : Nat) (reg : List Int) (c z : Nat → ℝ) (g : Nat → ℝ) :
    ((passed num reg c z).map g).sum = ∑ t ∈ clustered num reg, ind (Set.Iic (c t)) (z t) * g t := by
  classical
  rw [← List.sum_toFinset g (passed_nodup num reg c z)]
  have : (passed num reg c z).toFinset = (clustered num reg).filter fun t => z t ≤ c t := by
    ext t
    rw [List.mem_toFinset, mem_passed, Finset.mem_filter]
  rw [this, Finset.sum_filter]
  refine Finset.sum_congr rfl fun t _ => ?_
  unfold ind Set.indicator
  by_cases h : z t ≤ c t <;> simp [h]

theorem rank_inj {num : Nat} {reg : List Int} {s t : Nat} (hs : s ∈ clustered num reg) (ht : t ∈ clustered num reg)
    (h1 : (reg.getD s 0).toNat = (reg.getD t 0).toNat) (h2 : rankIn reg s = rankIn reg t) : s = t := by
  obtain ⟨i, -, hi⟩ := mem_clustered.1 hs
  obtain ⟨j, -, hj⟩ := mem_clustered.1 ht
  have hij : i = j := by
    rw [List.getD_eq_getElem?_getD, List.getD_eq_getElem?_getD, hi, hj] at h1
    simpa using h1
  subst hij
  obtain ⟨a, ha⟩ := List.mem_iff_getElem?.1 ((mem_whereEq _ _ _).2 hi)
  obtain ⟨b, hb⟩ := List.mem_iff_getElem?.1 ((mem_whereEq _ _ _).2 hj)
  have hab : a = b := by rw [← (whereEq_get ha).2, ← (whereEq_get hb).2, h2]
  subst hab
  exact Option.some.inj (ha.symm.trans hb)

/-- What the inversion says of chances: they lie between 0 and 1, and are 0 outside the clusters. -/
theorem chance_props {F : KdeFit ℝ} {ps os : RSet ℝ} {k : Kdes ℝ} {st : Inversion ℝ}
    (hinv : invert F ps os = .ok (k, st)) (hw : Weighted k st) :
    st.weights.length = ps.values.length ∧ (clustered k.num k.regP).Nonempty ∧
    (∀ t ∈ clustered k.num k.regP, t < ps.values.length ∧ 0 < peak k.regP st.weights t ∧
      chance k.regP st.weights t ∈ Set.Icc (0 : ℝ) 1) ∧
    ∀ t, t < ps.values.length → t ∉ clustered k.num k.regP → chance k.regP st.weights t = 0 := by
  obtain ⟨hnum, hnn, hpos⟩ := hw
  simp only [invert, bind_eq_ok, pure_eq_ok, Prod.mk.injEq] at hinv
  obtain ⟨k', hk, st', hst, rfl, rfl⟩ := hinv
  obtain ⟨-, -, hwl, hc, h0⟩ := invert_loop hst
  refine ⟨hwl, ?_, ?_, ?_⟩
  · obtain ⟨t, w, ht, -, -⟩ := hpos 0 hnum
    exact ⟨t, mem_clustered.2 ⟨0, hnum, ht⟩⟩
  · intro t ht
    obtain ⟨j, hj, htj⟩ := mem_clustered.1 ht
    obtain ⟨vals', r', hv1, hv2, h3, h4⟩ := hc j hj
    obtain ⟨t0, w0, ht0, hw0, hw0p⟩ := hpos j hj
    have hm0 : t0 ∈ whereEq k'.regP j := (mem_whereEq _ _ _).2 ht0
    obtain ⟨rr, rfl⟩ : ∃ rr, r' = some rr := by
      unfold clusterRatio at hv2
      rw [if_pos (List.length_pos_of_mem hm0)] at hv2
      simp only [bind_eq_ok, pure_eq_ok] at hv2
      obtain ⟨_, _, _, _, _, _, _, _, rr, _, rfl⟩ := hv2
      exact ⟨rr, rfl⟩
    obtain ⟨hlen, hget⟩ := h4 rr rfl
    obtain ⟨i0, hi0⟩ := List.mem_iff_getElem?.1 hm0
    have hrr0 : rr[i0]? = some w0 := (hget i0 t0 hi0).symm.trans hw0
    obtain ⟨M, hM⟩ : ∃ M, npMax rr = .ok M := by
      cases rr with
      | nil => simp at hrr0
      | cons a l => exact ⟨_, rfl⟩
    have hgr := npMax_isGreatest hM
    have hMpos : 0 < M := lt_of_lt_of_le hw0p (hgr.2 (List.mem_of_getElem? hrr0))
    obtain ⟨i, hi⟩ := List.mem_iff_getElem?.1 ((mem_whereEq _ _ _).2 htj)
    have hil : i < rr.length := hlen ▸ (List.getElem?_eq_some_iff.1 hi).1
    have hwt := hget i t hi
    rw [List.getElem?_eq_getElem hil] at hwt
    have hpk := peak_eq hlen hget hgr htj
    refine ⟨hwl ▸ (List.getElem?_eq_some_iff.1 hwt).1, hpk ▸ hMpos, ?_⟩
    unfold chance
    rw [hpk, List.getD_eq_getElem?_getD, hwt, Option.getD_some]
    exact ⟨div_nonneg (hnn _ (List.mem_of_getElem? hwt)) hMpos.le,
      (div_le_one hMpos).2 (hgr.2 (List.getElem_mem hil))⟩
  · intro t ht hnot
    have := h0 t ht fun j hj hm => hnot (mem_clustered.2 ⟨j, hj, (mem_whereEq _ _ _).1 hm⟩)
    unfold chance
    rw [List.getD_eq_getElem?_getD, this]
    simp

theorem uniform_Iic {c : ℝ} (hc : c ∈ Set.Icc (0 : ℝ) 1) :
    (volume.restrict (Set.Ico (0 : ℝ) 1)).real (Set.Iic c) = c := by
  have h : (Set.Iic c : Set ℝ) =ᵐ[volume.restrict (Set.Ico (0 : ℝ) 1)] Set.Iio c :=
    ae_restrict_of_ae Iio_ae_eq_Iic.symm
  rw [measureReal_congr h, measureReal_restrict_apply measurableSet_Iio]
  have : Set.Iio c ∩ Set.Ico (0 : ℝ) 1 = Set.Ico 0 c := by
    ext y
    simp only [Set.mem_inter_iff, Set.mem_Iio, Set.mem_Ico]
    exact ⟨fun h => ⟨h.2.1, h.1⟩, fun h => ⟨h.2, h.1, h.2.trans_le hc.2⟩⟩
  rw [this, Real.volume_real_Ico_of_le hc.1, sub_zero]

section

variable {Ω : Type} [MeasurableSpace Ω] {P : Measure Ω}

theorem UniformNumbers.le_one {V : ℕ → ℕ → Ω → ℝ} (h : UniformNumbers P V) : ∀ᵐ ω ∂P, ∀ i k, V i k ω ≤ 1 := by
  refine ae_all_iff.2 fun i => ae_all_iff.2 fun k => ?_
  have hm : ∀ᵐ y ∂(volume.restrict (Set.Ico (0 : ℝ) 1)), y ≤ 1 := by
    filter_upwards [ae_restrict_mem measurableSet_Ico] with y hy
    exact hy.2.le
  rw [← (h.law i k).map_eq] at hm
  exact ae_of_ae_map (h.law i k).aemeasurable hm

/-- The numbers of the samples in clusters are independent. -/
theorem numbers_indep {V : ℕ → ℕ → Ω → ℝ} (h : UniformNumbers P V) (num : Nat) (reg : List Int) :
    iIndepFun (fun (t : clustered num reg) ω => numberOf reg (fun i k => V i k ω) t) P :=
  h.indep.precomp (g := fun t : clustered num reg => ((reg.getD (t : ℕ) 0).toNat, rankIn reg t))
    fun s t hst => Subtype.ext (rank_inj s.2 t.2 (Prod.mk.inj hst).1 (Prod.mk.inj hst).2)

theorem numbers_law {V : ℕ → ℕ → Ω → ℝ} (h : UniformNumbers P V) (reg : List Int) (t : Nat) :
    HasLaw (fun ω => numberOf reg (fun i k => V i k ω) t) (volume.restrict (Set.Ico (0 : ℝ) 1)) P :=
  h.law _ _

variable [IsProbabilityMeasure P]

theorem real_mono_ae {A B : Set Ω} (h : ∀ᵐ ω ∂P, ω ∈ A → ω ∈ B) : P.real A ≤ P.real B := by
  unfold Measure.real
  exact ENNReal.toReal_mono (measure_ne_top _ _) (measure_mono_ae h)

/-- Hoeffding's bound for a sum of independent events with coefficients. -/
theorem weighted_far {ι : Type} {μ : Measure ℝ} {Z : ι → Ω → ℝ} (hlaw : ∀ t, HasLaw (Z t) μ P) (hind : iIndepFun Z P)
    {c : ι → ℝ} {a : ι → ℝ} (ha : ∀ t, |a t| ≤ 1) {s : Finset ι} (hs : 0 < s.card) {δ : ℝ} (hδ : 0 ≤ δ) :
    P.real {ω | δ ≤ ∑ t ∈ s, a t * (ind (Set.Iic (c t)) (Z t ω) - μ.real (Set.Iic (c t)))} ≤
      Real.exp (-2 * δ ^ 2 / s.card) := by
  have hcard : (0 : ℝ) < s.card := by exact_mod_cast hs
  have hmeas : ∀ t, AEMeasurable (fun ω => a t * ind (Set.Iic (c t)) (Z t ω)) P := fun t =>
    ((measurable_ind measurableSet_Iic).comp_aemeasurable (hlaw t).aemeasurable).const_mul _
  have hsub : ∀ t, HasSubgaussianMGF (fun ω => a t * (ind (Set.Iic (c t)) (Z t ω) - μ.real (Set.Iic (c t))))
      ((1 / 2) ^ 2) P := fun t => by
    have hint : ∫ ω, a t * ind (Set.Iic (c t)) (Z t ω) ∂P = a t * μ.real (Set.Iic (c t)) := by
      rw [integral_const_mul, integral_ind (hlaw t) measurableSet_Iic]
    have hab := abs_le.1 (ha t)
    have key : ∃ lo hi : ℝ, hi - lo = 1 ∧ ∀ ω, a t * ind (Set.Iic (c t)) (Z t ω) ∈ Set.Icc lo hi := by
      rcases le_total 0 (a t) with h | h
      · refine ⟨0, 1, by norm_num, fun ω => ?_⟩
        have := ind_mem (Set.Iic (c t)) (Z t ω)
        exact ⟨mul_nonneg h this.1, by nlinarith [this.1, this.2, hab.2]⟩
      · refine ⟨-1, 0, by norm_num, fun ω => ?_⟩
        have := ind_mem (Set.Iic (c t)) (Z t ω)
        exact ⟨by nlinarith [this.1, this.2, hab.1], mul_nonpos_of_nonpos_of_nonneg h this.1⟩
    obtain ⟨lo, hi, hlh, hmem⟩ := key
    have := hasSubgaussianMGF_of_mem_Icc (hmeas t) (Eventually.of_forall hmem)
    rw [hint, hlh, nnnorm_one] at this
    simpa only [mul_sub] using this
  have hi1 : iIndepFun (fun t ω => a t * (ind (Set.Iic (c t)) (Z t ω) - μ.real (Set.Iic (c t)))) P :=
    hind.comp (fun t y => a t * (ind (Set.Iic (c t)) y - μ.real (Set.Iic (c t))))
      fun t => ((measurable_ind measurableSet_Iic).sub_const _).const_mul _
  have hu := HasSubgaussianMGF.measure_sum_ge_le_of_iIndepFun hi1 (s := s) (fun t _ => hsub t) hδ
  refine hu.trans (le_of_eq ?_)
  congr 1
  rw [Finset.sum_const]
  push_cast
  simp only [nsmul_eq_mul]
  field_simp

variable {F : KdeFit ℝ} {ps os : RSet ℝ} {k : Kdes ℝ} {st : Inversion ℝ} {x : List (List ℝ)} {V : ℕ → ℕ → Ω → ℝ}

/-- The sum over the accepted samples, almost surely. -/
theorem accepted_ae (hV : UniformNumbers P V) (hinv : invert F ps os = .ok (k, st)) (hw : Weighted k st)
    (hx : x.length = ps.values.length) (dim : Nat) : ∀ᵐ ω ∂P, ∀ g : List ℝ → ℝ,
    accepted g (invertRejectionDrawn F dim x ps os fun i t => V i t ω) = ∑ t ∈ clustered k.num k.regP,
      ind (Set.Iic (chance k.regP st.weights t)) (numberOf k.regP (fun i t => V i t ω) t) * g (x.getD t []) := by
  filter_upwards [UniformNumbers.le_one hV] with ω hω g
  obtain ⟨a, ha, -, -, hval⟩ := rejection_values hinv hw hx dim (V := fun i t => V i t ω) hω
  rw [ha]
  show (a.values.map g).sum = _
  rw [hval, List.map_map]
  exact sum_passed _ _ _ _ fun t => g (x.getD t [])

/-- Sums with the chances may be taken over all samples. -/
theorem sum_chance (hinv : invert F ps os = .ok (k, st)) (hw : Weighted k st) (g : Nat → ℝ) :
    ∑ t ∈ clustered k.num k.regP, chance k.regP st.weights t * g t =
      ∑ t ∈ Finset.range ps.values.length, chance k.regP st.weights t * g t := by
  obtain ⟨-, -, h1, h2⟩ := chance_props hinv hw
  refine Finset.sum_subset (fun t ht => Finset.mem_range.2 (h1 t ht).1) fun t ht hnot => ?_
  rw [h2 t (Finset.mem_range.1 ht) hnot, zero_mul]

theorem clustered_card (hinv : invert F ps os = .ok (k, st)) (hw : Weighted k st) :
    0 < (clustered k.num k.regP).card ∧ (clustered k.num k.regP).card ≤ ps.values.length := by
  obtain ⟨-, hne, h1, -⟩ := chance_props hinv hw
  refine ⟨Finset.card_pos.2 hne, ?_⟩
  have := Finset.card_le_card (s := clustered k.num k.regP) (t := Finset.range ps.values.length)
    fun t ht => Finset.mem_range.2 (h1 t ht).1
  rwa [Finset.card_range] at this

/-- **C132.** Rejection sampling succeeds almost surely, and accepts at least one sample. -/
theorem C132_succeeds (hV : UniformNumbers P V) (hinv : invert F ps os = .ok (k, st)) (hw : Weighted k st)
    (hx : x.length = ps.values.length) (dim : Nat) : ∀ᵐ ω ∂P, ∃ a,
    invertRejectionDrawn F dim x ps os (fun i t => V i t ω) = .ok a ∧ a.values ≠ [] := by
  filter_upwards [UniformNumbers.le_one hV] with ω hω
  obtain ⟨a, ha, hne, -, -⟩ := rejection_values hinv hw hx dim (V := fun i t => V i t ω) hω
  exact ⟨a, ha, hne⟩

/-- **C132.** Every sample is accepted with its chance, independently of all others: the probability that exactly the
samples `S` are accepted is the product of their chances and of the others' chances to be rejected. -/
theorem C132_law (hV : UniformNumbers P V) (hinv : invert F ps os = .ok (k, st)) (hw : Weighted k st)
    (hx : x.length = ps.values.length) (hnd : x.Nodup) (dim : Nat) (S : Finset ℕ) :
    P.real {ω | ∃ a, invertRejectionDrawn F dim x ps os (fun i t => V i t ω) = .ok a ∧
      ∀ t < x.length, x.getD t [] ∈ a.values ↔ t ∈ S} =
    ∏ t ∈ Finset.range x.length,
      if t ∈ S then chance k.regP st.weights t else 1 - chance k.regP st.weights t := by
  obtain ⟨-, -, h1, h2⟩ := chance_props hinv hw
  set T := clustered k.num k.regP with hT
  set c := chance k.regP st.weights with hc
  let Z : Nat → Ω → ℝ := fun t ω => numberOf k.regP (fun i t => V i t ω) t
  have hTn : ∀ t ∈ T, t < x.length := fun t ht => hx ▸ (h1 t ht).1
  have hev : ∀ᵐ ω ∂P, ω ∈ {ω | ∃ a, invertRejectionDrawn F dim x ps os (fun i t => V i t ω) = .ok a ∧
      ∀ t < x.length, x.getD t [] ∈ a.values ↔ t ∈ S} ↔
      ∀ t < x.length, (t ∈ T ∧ Z t ω ≤ c t) ↔ t ∈ S := by
    filter_upwards [UniformNumbers.le_one hV] with ω hω
    obtain ⟨a, ha, -, -, hval⟩ := rejection_values hinv hw hx dim (V := fun i t => V i t ω) hω
    have hmem : ∀ t < x.length, x.getD t [] ∈ a.values ↔ (t ∈ T ∧ Z t ω ≤ c t) := by
      intro t ht
      rw [hval, List.mem_map]
      constructor
      · rintro ⟨s, hs, hst⟩
        have hs' := mem_passed.1 hs
        have hsn := hTn s hs'.1
        rw [List.getD_eq_getElem?_getD, List.getD_eq_getElem?_getD, List.getElem?_eq_getElem hsn,
          List.getElem?_eq_getElem ht] at hst
        rw [← (List.Nodup.getElem_inj_iff hnd).1 hst]
        exact hs'
      · intro h
        exact ⟨t, mem_passed.2 h, rfl⟩
    constructor
    · rintro ⟨a', ha', h⟩ t ht
      obtain rfl := Except.ok.inj (ha'.symm.trans ha)
      rw [← hmem t ht]
      exact h t ht
    · intro h
      exact ⟨a, ha, fun t ht => (hmem t ht).trans (h t ht)⟩
  by_cases hS : ∃ t ∈ S, t < x.length ∧ t ∉ T
  · obtain ⟨t, htS, htn, htT⟩ := hS
    rw [Finset.prod_eq_zero (Finset.mem_range.2 htn) (by rw [if_pos htS, h2 t (hx ▸ htn) htT])]
    have : P {ω | ∃ a, invertRejectionDrawn F dim x ps os (fun i t => V i t ω) = .ok a ∧
      ∀ t < x.length, x.getD t [] ∈ a.values ↔ t ∈ S} = 0 := by
      rw [measure_eq_zero_iff_ae_notMem]
      filter_upwards [hev] with ω hω h
      exact htT (((hω.1 h) t htn).2 htS).1
    rw [Measure.real, this]; rfl
  · push Not at hS
    let B : T → Set ℝ := fun t => if (t : ℕ) ∈ S then Set.Iic (c t) else Set.Ioi (c t)
    have hB : ∀ t, MeasurableSet (B t) := fun t => by
      show MeasurableSet (if (t : ℕ) ∈ S then Set.Iic (c t) else Set.Ioi (c t))
      split
      · exact measurableSet_Iic
      · exact measurableSet_Ioi
    have hPB : ∀ t : T, P.real ((Z t) ⁻¹' B t) = if (t : ℕ) ∈ S then c t else 1 - c t := by
      intro t
      have hlaw := numbers_law hV k.regP t
      have hmap : P.real ((Z t) ⁻¹' B t) = (volume.restrict (Set.Ico (0 : ℝ) 1)).real (B t) := by
        unfold Measure.real
        rw [← hlaw.map_eq, Measure.map_apply_of_aemeasurable hlaw.aemeasurable (hB t)]
      have hpr : IsProbabilityMeasure (volume.restrict (Set.Ico (0 : ℝ) 1)) := by
        rw [← hlaw.map_eq]; exact Measure.isProbabilityMeasure_map hlaw.aemeasurable
      rw [hmap]
      show (volume.restrict (Set.Ico (0 : ℝ) 1)).real (if (t : ℕ) ∈ S then Set.Iic (c t) else Set.Ioi (c t)) = _
      split
      · exact uniform_Iic (h1 t t.2).2.2
      · rw [← Set.compl_Iic, probReal_compl_eq_one_sub measurableSet_Iic, uniform_Iic (h1 t t.2).2.2]
    have hset : {ω | ∃ a, invertRejectionDrawn F dim x ps os (fun i t => V i t ω) = .ok a ∧
        ∀ t < x.length, x.getD t [] ∈ a.values ↔ t ∈ S} =ᵐ[P] ⋂ t ∈ (Finset.univ : Finset T), (Z t) ⁻¹' B t := by
      filter_upwards [hev] with ω hω
      refine propext (hω.trans ?_)
      show _ ↔ ω ∈ ⋂ t ∈ (Finset.univ : Finset T), (Z t) ⁻¹' B t
      simp only [Set.mem_iInter, Finset.mem_univ, true_imp_iff, Set.mem_preimage]
      constructor
      · intro h t
        have ht := h t (hTn t t.2)
        show Z t ω ∈ (if (t : ℕ) ∈ S then Set.Iic (c t) else Set.Ioi (c t))
        split
        · rename_i hts
          exact (ht.2 hts).2
        · rename_i hts
          exact lt_of_not_ge fun hle => hts (ht.1 ⟨t.2, hle⟩)
      · intro h t ht
        by_cases htT : t ∈ T
        · have := h ⟨t, htT⟩
          change Z t ω ∈ (if t ∈ S then Set.Iic (c t) else Set.Ioi (c t)) at this
          by_cases hts : t ∈ S
          · rw [if_pos hts] at this
            exact ⟨fun _ => hts, fun _ => ⟨htT, this⟩⟩
          · rw [if_neg hts] at this
            exact ⟨fun h' => absurd h'.2 (not_le.2 this), fun h' => absurd h' hts⟩
        · exact ⟨fun h' => absurd h'.1 htT, fun h' => absurd (hS t h' ht) htT⟩
    rw [measureReal_congr hset]
    have hprod := (numbers_indep hV k.num k.regP).measure_inter_preimage_eq_mul Finset.univ
      (sets := B) fun t _ => hB t
    have hreal : P.real (⋂ t ∈ (Finset.univ : Finset T), (Z t) ⁻¹' B t) = ∏ t : T, P.real ((Z t) ⁻¹' B t) := by
      unfold Measure.real
      rw [show P (⋂ t ∈ (Finset.univ : Finset T), (Z t) ⁻¹' B t) = ∏ t : T, P ((Z t) ⁻¹' B t) from hprod,
        ENNReal.toReal_prod]
    rw [hreal, Finset.prod_congr rfl fun t _ => hPB t,
      Finset.prod_coe_sort T fun t => if t ∈ S then c t else 1 - c t]
    refine Finset.prod_subset (fun t ht => Finset.mem_range.2 (hTn t ht)) fun t ht hnot => ?_
    have htn := Finset.mem_range.1 ht
    rw [if_neg fun h => hnot (hS t h htn), h2 t (hx ▸ htn) hnot, sub_zero]

/-- **C132.** The expected sum of any function over the accepted samples: every sample counts with its chance. With the
indicator of a set this is the expected number of accepted samples in the set. -/
theorem C132_mean (hV : UniformNumbers P V) (hinv : invert F ps os = .ok (k, st)) (hw : Weighted k st)
    (hx : x.length = ps.values.length) (dim : Nat) (g : List ℝ → ℝ) :
    ∫ ω, accepted g (invertRejectionDrawn F dim x ps os fun i t => V i t ω) ∂P =
      ∑ t ∈ Finset.range x.length, chance k.regP st.weights t * g (x.getD t []) := by
  obtain ⟨-, -, h1, -⟩ := chance_props hinv hw
  rw [integral_congr_ae ((accepted_ae hV hinv hw hx dim).mono fun ω h => h g), hx, ← sum_chance hinv hw,
    integral_finsetSum]
  · refine Finset.sum_congr rfl fun t ht => ?_
    rw [integral_mul_const, integral_ind (numbers_law hV k.regP t) measurableSet_Iic, uniform_Iic (h1 t ht).2.2]
  · intro t _
    refine Integrable.mul_const ?_ _
    exact Integrable.of_mem_Icc 0 1
      ((measurable_ind measurableSet_Iic).comp_aemeasurable (numbers_law hV k.regP t).aemeasurable)
      (Eventually.of_forall fun ω => ind_mem _ _)

theorem accepted_far (hV : UniformNumbers P V) (hinv : invert F ps os = .ok (k, st)) (hw : Weighted k st)
    (hx : x.length = ps.values.length) (dim : Nat) {g : List ℝ → ℝ} (hg : ∀ y, |g y| ≤ 1) {δ : ℝ} (hδ : 0 ≤ δ) :
    P.real {ω | δ ≤ accepted g (invertRejectionDrawn F dim x ps os fun i t => V i t ω) -
      ∑ t ∈ Finset.range x.length, chance k.regP st.weights t * g (x.getD t [])} ≤
      Real.exp (-2 * δ ^ 2 / x.length) := by
  obtain ⟨-, -, h1, -⟩ := chance_props hinv hw
  obtain ⟨hc1, hc2⟩ := clustered_card hinv hw
  have hfar := weighted_far (P := P) (c := fun t : clustered k.num k.regP => chance k.regP st.weights t)
    (a := fun t => g (x.getD t [])) (fun t : clustered k.num k.regP => numbers_law hV k.regP t)
    (numbers_indep hV k.num k.regP) (fun t => hg _) (s := Finset.univ)
    (by rw [Finset.card_univ, Fintype.card_coe]; exact hc1) hδ
  rw [Finset.card_univ, Fintype.card_coe] at hfar
  have hle : P.real {ω | δ ≤ accepted g (invertRejectionDrawn F dim x ps os fun i t => V i t ω) -
      ∑ t ∈ Finset.range x.length, chance k.regP st.weights t * g (x.getD t [])} ≤
      P.real {ω | δ ≤ ∑ t : clustered k.num k.regP, g (x.getD t []) *
        (ind (Set.Iic (chance k.regP st.weights t)) (numberOf k.regP (fun i t => V i t ω) t) -
          (volume.restrict (Set.Ico (0 : ℝ) 1)).real (Set.Iic (chance k.regP st.weights t)))} := by
    refine real_mono_ae ?_
    filter_upwards [accepted_ae hV hinv hw hx dim] with ω hω h
    change δ ≤ _ at h
    show δ ≤ _
    refine h.trans (le_of_eq ?_)
    rw [hω g, hx, ← sum_chance hinv hw, ← Finset.sum_sub_distrib,
      Finset.sum_coe_sort (clustered k.num k.regP) fun t => g (x.getD t []) *
        (ind (Set.Iic (chance k.regP st.weights t)) (numberOf k.regP (fun i t => V i t ω) t) -
          (volume.restrict (Set.Ico (0 : ℝ) 1)).real (Set.Iic (chance k.regP st.weights t)))]
    refine Finset.sum_congr rfl fun t ht => ?_
    rw [uniform_Iic (h1 t ht).2.2]
    ring
  refine hle.trans (hfar.trans (Real.exp_le_exp.2 ?_))
  have hc1' : (0 : ℝ) < (clustered k.num k.regP).card := by exact_mod_cast hc1
  have hc2' : ((clustered k.num k.regP).card : ℝ) ≤ x.length := by rw [hx]; exact_mod_cast hc2
  rw [neg_mul, neg_div, neg_div, neg_le_neg_iff]
  exact div_le_div_of_nonneg_left (by positivity) hc1' hc2'

/-- **C132.** The sum of a function with values between -1 and 1 over the accepted samples is far from its mean with
small probability only. -/
theorem C132_bound (hV : UniformNumbers P V) (hinv : invert F ps os = .ok (k, st)) (hw : Weighted k st)
    (hx : x.length = ps.values.length) (dim : Nat) {g : List ℝ → ℝ} (hg : ∀ y, |g y| ≤ 1) {δ : ℝ} (hδ : 0 ≤ δ) :
    P.real {ω | δ ≤ |accepted g (invertRejectionDrawn F dim x ps os fun i t => V i t ω) -
      ∑ t ∈ Finset.range x.length, chance k.regP st.weights t * g (x.getD t [])|} ≤
      2 * Real.exp (-2 * δ ^ 2 / x.length) := by
  have hu := accepted_far hV hinv hw hx dim hg hδ
  have hl := accepted_far hV hinv hw hx dim (g := fun y => -g y) (fun y => by rw [abs_neg]; exact hg y) hδ
  have hneg : ∀ r : Except Err (Accepted ℝ), accepted (fun y => -g y) r = -accepted g r := by
    intro r
    unfold accepted
    cases r with
    | error e => simp [Except.toOption]
    | ok a =>
      show (a.values.map fun y => -g y).sum = -(a.values.map g).sum
      induction a.values with
      | nil => simp
      | cons y l ih => simp only [List.map_cons, List.sum_cons, ih]; ring
  have hsub : {ω | δ ≤ |accepted g (invertRejectionDrawn F dim x ps os fun i t => V i t ω) -
      ∑ t ∈ Finset.range x.length, chance k.regP st.weights t * g (x.getD t [])|} ⊆
      {ω | δ ≤ accepted g (invertRejectionDrawn F dim x ps os fun i t => V i t ω) -
        ∑ t ∈ Finset.range x.length, chance k.regP st.weights t * g (x.getD t [])} ∪
      {ω | δ ≤ accepted (fun y => -g y) (invertRejectionDrawn F dim x ps os fun i t => V i t ω) -
        ∑ t ∈ Finset.range x.length, chance k.regP st.weights t * -g (x.getD t [])} := by
    intro ω h
    change δ ≤ |_| at h
    rw [le_abs] at h
    rcases h with h | h
    · exact .inl h
    · right
      show δ ≤ _
      rw [hneg]
      simp only [mul_neg, Finset.sum_neg_distrib]
      linarith
  refine (measureReal_mono hsub).trans ((measureReal_union_le _ _).trans ?_)
  linarith

theorem newMean_eq {a : Accepted ℝ} (hp : a.probabilities = a.values.map fun _ => 1 / (a.values.length : ℝ))
    (g : List ℝ → ℝ) : newMean g (.ok a) = accepted g (.ok a) / accepted (fun _ => 1) (.ok a) := by
  show (List.zipWith (· * ·) a.probabilities (a.values.map g)).sum =
    (a.values.map g).sum / (a.values.map fun _ => (1 : ℝ)).sum
  rw [hp]
  have : ∀ (c : ℝ) (l : List (List ℝ)),
      (List.zipWith (· * ·) (l.map fun _ => c) (l.map g)).sum = c * (l.map g).sum := by
    intro c l
    induction l with
    | nil => simp
    | cons y l ih => simp only [List.map_cons, List.zipWith_cons_cons, List.sum_cons, ih]; ring
  rw [this]
  simp only [List.map_const', List.sum_replicate, nsmul_eq_mul, mul_one]
  rw [div_mul_eq_mul_div, one_mul]

theorem accepted_affine (g : List ℝ → ℝ) (q : ℝ) (a : Accepted ℝ) :
    accepted (fun y => g y - q) (.ok a) = accepted g (.ok a) - q * accepted (fun _ => 1) (.ok a) := by
  show (a.values.map fun y => g y - q).sum = (a.values.map g).sum - q * (a.values.map fun _ => (1 : ℝ)).sum
  induction a.values with
  | nil => simp
  | cons y l ih => simp only [List.map_cons, List.sum_cons, ih]; ring

/-- One side of `C132_shares`. -/
theorem newMean_far (hV : UniformNumbers P V) (hinv : invert F ps os = .ok (k, st)) (hw : Weighted k st)
    (hx : x.length = ps.values.length) (dim : Nat) {M : ℝ} (hM : ∀ t < x.length, peak k.regP st.weights t = M)
    {g : List ℝ → ℝ} (hg : ∀ y, g y ∈ Set.Icc (0 : ℝ) 1) {ε : ℝ} (hε : 0 < ε) :
    P.real {ω | weightedMeanOf g x st.weights + ε ≤ newMean g (invertRejectionDrawn F dim x ps os fun i t => V i t ω)} ≤
      Real.exp (-2 * (ε * ((∑ t ∈ Finset.range x.length, st.weights.getD t 0) / M)) ^ 2 / x.length) := by
  obtain ⟨hwl, ⟨t0, ht0⟩, h1, -⟩ := chance_props hinv hw
  have hMpos : 0 < M := by
    have := (h1 t0 ht0).2.1
    rwa [hM t0 (hx ▸ (h1 t0 ht0).1)] at this
  have hnn : ∀ t, 0 ≤ st.weights.getD t 0 := by
    intro t
    rw [List.getD_eq_getElem?_getD]
    cases h : st.weights[t]? with
    | none => exact le_rfl
    | some y => exact hw.nonneg y (List.mem_of_getElem? h)
  set W := ∑ t ∈ Finset.range x.length, st.weights.getD t 0 with hW
  have hWpos : 0 < W := by
    obtain ⟨t, w, ht, hwt, hwp⟩ := hw.pos 0 hw.num
    refine Finset.sum_pos' (fun t _ => hnn t) ⟨t, Finset.mem_range.2 ?_, ?_⟩
    · rw [hx, ← hwl]; exact (List.getElem?_eq_some_iff.1 hwt).1
    · rw [List.getD_eq_getElem?_getD, hwt]; exact hwp
  set q := weightedMeanOf g x st.weights with hq
  have hqW : ∑ t ∈ Finset.range x.length, st.weights.getD t 0 * g (x.getD t []) = q * W := by
    rw [hq]
    unfold weightedMeanOf
    rw [← hW, div_mul_cancel₀ _ hWpos.ne']
  have hq0 : 0 ≤ q := div_nonneg (Finset.sum_nonneg fun t _ => mul_nonneg (hnn t) (hg _).1) hWpos.le
  have hone : ∀ᵐ ω ∂P, ∃ a, invertRejectionDrawn F dim x ps os (fun i t => V i t ω) = .ok a ∧
      newMean g (.ok a) = accepted g (.ok a) / accepted (fun _ => 1) (.ok a) ∧
      0 < accepted (fun _ => 1) (.ok a) ∧ accepted g (.ok a) ≤ accepted (fun _ => 1) (.ok a) := by
    filter_upwards [UniformNumbers.le_one hV] with ω hω
    obtain ⟨a, ha, hne, hp, -⟩ := rejection_values hinv hw hx dim (V := fun i t => V i t ω) hω
    refine ⟨a, ha, newMean_eq hp g, ?_, ?_⟩
    · show 0 < (a.values.map fun _ => (1 : ℝ)).sum
      simp only [List.map_const', List.sum_replicate, nsmul_eq_mul, mul_one]
      exact_mod_cast List.length_pos_iff.2 hne
    · show (a.values.map g).sum ≤ (a.values.map fun _ => (1 : ℝ)).sum
      exact List.sum_le_sum fun y _ => (hg y).2
  by_cases hbig : q + ε ≤ 1
  · have hfar := accepted_far hV hinv hw hx dim (g := fun y => g y - (q + ε))
      (fun y => abs_le.2 ⟨by linarith [(hg y).1], by linarith [(hg y).2]⟩)
      (δ := ε * (W / M)) (by positivity)
    refine le_trans ?_ hfar
    refine real_mono_ae ?_
    filter_upwards [hone] with ω ⟨a, ha, hnew, hpos, _⟩ h
    change q + ε ≤ newMean g _ at h
    show ε * (W / M) ≤ _
    rw [ha] at h ⊢
    rw [hnew, le_div_iff₀ hpos] at h
    rw [accepted_affine]
    have hmean : ∑ t ∈ Finset.range x.length, chance k.regP st.weights t * (g (x.getD t []) - (q + ε)) =
        -(ε * (W / M)) := by
      have : ∀ t ∈ Finset.range x.length, chance k.regP st.weights t * (g (x.getD t []) - (q + ε)) =
          (st.weights.getD t 0 * g (x.getD t []) - (q + ε) * st.weights.getD t 0) / M := by
        intro t ht
        unfold chance
        rw [hM t (Finset.mem_range.1 ht)]
        ring
      rw [Finset.sum_congr rfl this, ← Finset.sum_div, Finset.sum_sub_distrib, ← Finset.mul_sum, hqW, ← hW]
      ring
    rw [hmean]
    linarith
  · refine le_trans (le_of_eq ?_) (Real.exp_pos _).le
    have : P {ω | q + ε ≤ newMean g (invertRejectionDrawn F dim x ps os fun i t => V i t ω)} = 0 := by
      rw [measure_eq_zero_iff_ae_notMem]
      filter_upwards [hone] with ω ⟨a, ha, hnew, hpos, hle⟩ h
      change q + ε ≤ newMean g _ at h
      rw [ha, hnew] at h
      exact hbig (h.trans ((div_le_one hpos).2 hle))
    simp [Measure.real, this]

/-- **C132.** With one cluster the sample set that is returned has the updated weights as its law, up to chance: the
mean of any function with values between 0 and 1 (the probability of any set) differs from the mean with the weights
by `ε` or more with a probability that is exponentially small in the square of the expected number of accepted samples
over the number of samples. -/
theorem C132_shares (hV : UniformNumbers P V) (hinv : invert F ps os = .ok (k, st)) (hw : Weighted k st)
    (hx : x.length = ps.values.length) (dim : Nat) {M : ℝ} (hM : ∀ t < x.length, peak k.regP st.weights t = M)
    {g : List ℝ → ℝ} (hg : ∀ y, g y ∈ Set.Icc (0 : ℝ) 1) {ε : ℝ} (hε : 0 < ε) :
    P.real {ω | ε ≤ |newMean g (invertRejectionDrawn F dim x ps os fun i t => V i t ω) -
      weightedMeanOf g x st.weights|} ≤
      2 * Real.exp (-2 * (ε * ((∑ t ∈ Finset.range x.length, st.weights.getD t 0) / M)) ^ 2 / x.length) := by
  have hu := newMean_far hV hinv hw hx dim hM hg hε
  have hl := newMean_far hV hinv hw hx dim hM (g := fun y => 1 - g y)
    (fun y => ⟨by linarith [(hg y).2], by linarith [(hg y).1]⟩) hε
  obtain ⟨hwl, -, -, -⟩ := chance_props hinv hw
  have hnn : ∀ t, 0 ≤ st.weights.getD t 0 := by
    intro t
    rw [List.getD_eq_getElem?_getD]
    cases h : st.weights[t]? with
    | none => exact le_rfl
    | some y => exact hw.nonneg y (List.mem_of_getElem? h)
  have hWpos : 0 < ∑ t ∈ Finset.range x.length, st.weights.getD t 0 := by
    obtain ⟨t, w, ht, hwt, hwp⟩ := hw.pos 0 hw.num
    refine Finset.sum_pos' (fun t _ => hnn t) ⟨t, Finset.mem_range.2 ?_, ?_⟩
    · rw [hx, ← hwl]; exact (List.getElem?_eq_some_iff.1 hwt).1
    · rw [List.getD_eq_getElem?_getD, hwt]; exact hwp
  have hq : weightedMeanOf (fun y => 1 - g y) x st.weights = 1 - weightedMeanOf g x st.weights := by
    unfold weightedMeanOf
    simp only [mul_sub, mul_one, Finset.sum_sub_distrib]
    rw [sub_div, div_self hWpos.ne']
  have hsub : ∀ᵐ ω ∂P, ε ≤ |newMean g (invertRejectionDrawn F dim x ps os fun i t => V i t ω) -
      weightedMeanOf g x st.weights| →
      ω ∈ {ω | weightedMeanOf g x st.weights + ε ≤
          newMean g (invertRejectionDrawn F dim x ps os fun i t => V i t ω)} ∪
        {ω | weightedMeanOf (fun y => 1 - g y) x st.weights + ε ≤
          newMean (fun y => 1 - g y) (invertRejectionDrawn F dim x ps os fun i t => V i t ω)} := by
    filter_upwards [UniformNumbers.le_one hV] with ω hω h
    obtain ⟨a, ha, hne, hp, -⟩ := rejection_values hinv hw hx dim (V := fun i t => V i t ω) hω
    rw [le_abs] at h
    rcases h with h | h
    · left
      show weightedMeanOf g x st.weights + ε ≤ newMean g _
      linarith
    · right
      show weightedMeanOf (fun y => 1 - g y) x st.weights + ε ≤ newMean (fun y => 1 - g y) _
      rw [ha] at h ⊢
      have hpos : 0 < accepted (fun _ => 1) (.ok a) := by
        show 0 < (a.values.map fun _ => (1 : ℝ)).sum
        simp only [List.map_const', List.sum_replicate, nsmul_eq_mul, mul_one]
        exact_mod_cast List.length_pos_iff.2 hne
      have hneg : accepted (fun y => 1 - g y) (.ok a) = accepted (fun _ => 1) (.ok a) - accepted g (.ok a) := by
        show (a.values.map fun y => 1 - g y).sum = (a.values.map fun _ => (1 : ℝ)).sum - (a.values.map g).sum
        induction a.values with
        | nil => simp
        | cons y l ih => simp only [List.map_cons, List.sum_cons, ih]; ring
      rw [newMean_eq hp, hneg, sub_div, div_self hpos.ne', ← newMean_eq hp, hq]
      linarith
  have hle : P.real {ω | ε ≤ |newMean g (invertRejectionDrawn F dim x ps os fun i t => V i t ω) -
      weightedMeanOf g x st.weights|} ≤
      P.real ({ω | weightedMeanOf g x st.weights + ε ≤
          newMean g (invertRejectionDrawn F dim x ps os fun i t => V i t ω)} ∪
        {ω | weightedMeanOf (fun y => 1 - g y) x st.weights + ε ≤
          newMean (fun y => 1 - g y) (invertRejectionDrawn F dim x ps os fun i t => V i t ω)}) := by
    exact real_mono_ae hsub
  refine hle.trans ((measureReal_union_le _ _).trans ?_)
  linarith

end

/-! ### Non-vacuity, and several clusters -/

namespace Ex

open BET.Spec MeasureTheory ProbabilityTheory

/-- Independent uniform numbers exist. -/
theorem uniformNumbers : ∃ (Ω : Type) (_ : MeasurableSpace Ω) (P : Measure Ω) (V : ℕ → ℕ → Ω → ℝ),
    IsProbabilityMeasure P ∧ UniformNumbers P V := by
  let μ : Measure ℝ := volume.restrict (Set.Ico (0 : ℝ) 1)
  have hμ : IsProbabilityMeasure μ := by
    refine ⟨?_⟩
    rw [Measure.restrict_apply MeasurableSet.univ, Set.univ_inter]
    simp
  let P : Measure (ℕ × ℕ → ℝ) := Measure.infinitePi fun _ => μ
  have hlaw : ∀ rk : ℕ × ℕ, HasLaw (fun ω : ℕ × ℕ → ℝ => ω rk) μ P := fun rk =>
    ⟨(measurable_pi_apply rk).aemeasurable, Measure.infinitePi_map_eval _ rk⟩
  have hind : iIndepFun (fun (rk : ℕ × ℕ) (ω : ℕ × ℕ → ℝ) => ω rk) P :=
    iIndepFun_infinitePi (P := fun _ => μ) (X := fun _ x => x) fun _ => measurable_id
  exact ⟨_, inferInstance, P, fun r k ω => ω (r, k), inferInstance, ⟨fun r k => hlaw (r, k), hind⟩⟩

/-- A density that is 1 for two points, and grows for three. -/
noncomputable def growFit : KdeFit ℝ := fun pts _ y => 1 + ((pts.length : ℝ) - 2) * y.getD 0 0

def growPred : RSet ℝ := { values := [[0], [1], [2], [3]], region := some [0, 0, 1, 1] }
def growObs : RSet ℝ := { values := [[0], [1], [2], [3], [4]], region := some [0, 0, 1, 1, 1] }

noncomputable def growKdes : Kdes ℝ where
  num := 2
  regP := [0, 0, 1, 1]
  regO := [0, 0, 1, 1, 1]
  predict := [some (growFit [[0], [1]] none), some (growFit [[2], [3]] none)]
  observed := [some (growFit [[0], [1]] none), some (growFit [[2], [3], [4]] none)]

noncomputable def growInv : Inversion ℝ where
  r := [some [1, 1], some [3, 4]]
  ptr := [[0, 1], [2, 3]]
  weights := [1, 1, 3, 4]

theorem grow_invert : invert growFit growPred growObs = .ok (growKdes, growInv) := by
  have hk : generateKdes growFit growPred growObs = .ok growKdes := by with_unfolding_all rfl
  rw [invert, hk, ok_bind]
  have h0 : npDivide ([[0], [1]].map (growFit [[0], [1]] none)) ([[0], [1]].map (growFit [[0], [1]] none)) =
      .ok [1, 1] := by
    simp [npDivide, growFit, raiseIf, pure, Except.pure, Bind.bind, Except.bind]
  have h1 : npDivide ([[2], [3]].map (growFit [[2], [3], [4]] none)) ([[2], [3]].map (growFit [[2], [3]] none)) =
      .ok [3, 4] := by
    simp [npDivide, growFit, raiseIf, pure, Except.pure, Bind.bind, Except.bind]
    norm_num
  have hs0 : invertStep growKdes growPred ⟨[], [], [0, 0, 0, 0]⟩ 0 = .ok ⟨[some [1, 1]], [[0, 1]], [1, 1, 0, 0]⟩ := by
    have hr : clusterRatio growKdes [0, 1] [[0], [1]] 0 = .ok (some [1, 1]) := by
      show (npDivide _ _ >>= fun r => pure (some r)) = _
      rw [h0]; rfl
    show (clusterRatio _ [0, 1] [[0], [1]] 0 >>= fun r => assignWeights [0, 0, 0, 0] [0, 1] r >>= fun w => _) = _
    rw [hr]
    rfl
  have hs1 : invertStep growKdes growPred ⟨[some [1, 1]], [[0, 1]], [1, 1, 0, 0]⟩ 1 = .ok growInv := by
    have hr : clusterRatio growKdes [2, 3] [[2], [3]] 1 = .ok (some [3, 4]) := by
      show (npDivide _ _ >>= fun r => pure (some r)) = _
      rw [h1]; rfl
    show (clusterRatio _ [2, 3] [[2], [3]] 1 >>= fun r => assignWeights [1, 1, 0, 0] [2, 3] r >>= fun w => _) = _
    rw [hr]
    rfl
  show (invertStep growKdes growPred ⟨[], [], [0, 0, 0, 0]⟩ 0 >>= fun st =>
    invertStep growKdes growPred st 1 >>= fun st => pure st) >>= _ = _
  rw [hs0, ok_bind, hs1]
  rfl

theorem grow_weighted : Weighted growKdes growInv where
  num := by decide
  nonneg w hw := by
    simp only [growInv, List.mem_cons, List.not_mem_nil, or_false] at hw
    rcases hw with rfl | rfl | rfl | rfl <;> norm_num
  pos j hj := by
    have : j = 0 ∨ j = 1 := by simp only [growKdes] at hj; omega
    rcases this with rfl | rfl
    · exact ⟨0, 1, rfl, rfl, by norm_num⟩
    · exact ⟨2, 3, rfl, rfl, by norm_num⟩

theorem grow_peak : peak [0, 0, 1, 1] [1, 1, 3, 4] 0 = 1 ∧ peak [0, 0, 1, 1] [1, 1, 3, 4] 1 = 1 ∧
    peak [0, 0, 1, 1] [1, 1, 3, 4] 2 = 4 ∧ peak [0, 0, 1, 1] [1, 1, 3, 4] 3 = 4 := by
  have ha : ∀ t, ([0, 0, 1, 1] : List Int)[t]? = some ((0 : Nat) : Int) → peak [0, 0, 1, 1] [1, 1, 3, 4] t = 1 :=
    fun t ht => peak_eq (rr := [1, 1]) (j := 0) rfl (fun i s h => by
      change ([0, 1] : List Nat)[i]? = some s at h
      rcases i with _ | _ | i
      · obtain rfl := Option.some.inj h; rfl
      · obtain rfl := Option.some.inj h; rfl
      · simp at h) ⟨by simp, fun y hy => by
        simp only [Set.mem_ofPred_eq, List.mem_cons, List.not_mem_nil, or_false, or_self] at hy
        exact hy.le⟩ ht
  have hb : ∀ t, ([0, 0, 1, 1] : List Int)[t]? = some ((1 : Nat) : Int) → peak [0, 0, 1, 1] [1, 1, 3, 4] t = 4 :=
    fun t ht => peak_eq (rr := [3, 4]) (j := 1) rfl (fun i s h => by
      change ([2, 3] : List Nat)[i]? = some s at h
      rcases i with _ | _ | i
      · obtain rfl := Option.some.inj h; rfl
      · obtain rfl := Option.some.inj h; rfl
      · simp at h) ⟨by simp, fun y hy => by
        simp only [Set.mem_ofPred_eq, List.mem_cons, List.not_mem_nil, or_false] at hy
        rcases hy with rfl | rfl <;> norm_num⟩ ht
  exact ⟨ha 0 rfl, ha 1 rfl, hb 2 rfl, hb 3 rfl⟩

/-- The chance that exactly the samples 0, 1 and 3 are accepted. -/
example {Ω : Type} [MeasurableSpace Ω] {P : Measure Ω} [IsProbabilityMeasure P] {V : ℕ → ℕ → Ω → ℝ}
    (hV : UniformNumbers P V) : P.real {ω | ∃ a, invertRejectionDrawn growFit 1 growPred.values growPred growObs
      (fun i t => V i t ω) = .ok a ∧ ∀ t < growPred.values.length,
        growPred.values.getD t [] ∈ a.values ↔ t ∈ ({0, 1, 3} : Finset ℕ)} = 1 / 4 := by
  rw [C132_law hV grow_invert grow_weighted rfl (by simp [growPred]) 1]
  obtain ⟨h0, h1, h2, h3⟩ := grow_peak
  simp [growPred, growKdes, growInv, Finset.prod_range_succ, chance, h0, h1, h2, h3]
  norm_num

/-- **C132, negation.** With several clusters the shares of the clusters among the accepted samples are not the
weights of the clusters: each cluster is compared with its own largest ratio. Here 2/5 of the observed samples are in
the first cluster, but of the 15/4 samples that are accepted on average 2 are in the first cluster, which is 8/15. -/
theorem C132_negation_clusters {Ω : Type} [MeasurableSpace Ω] {P : Measure Ω} [IsProbabilityMeasure P]
    {V : ℕ → ℕ → Ω → ℝ} (hV : UniformNumbers P V) :
    ∫ ω, accepted (fun y => if y.getD 0 0 < 2 then 1 else 0) (invertRejectionDrawn growFit 1 growPred.values growPred
      growObs fun i t => V i t ω) ∂P = 2 ∧
    ∫ ω, accepted (fun _ => 1) (invertRejectionDrawn growFit 1 growPred.values growPred growObs
      fun i t => V i t ω) ∂P = 15 / 4 ∧
    clusterWeights growKdes.num growKdes.regO growObs.values.length = .ok [(2 : ℝ) / 5, 3 / 5] := by
  obtain ⟨h0, h1, h2, h3⟩ := grow_peak
  rw [C132_mean hV grow_invert grow_weighted rfl, C132_mean hV grow_invert grow_weighted rfl]
  refine ⟨?_, ?_, ?_⟩
  · simp [growPred, growKdes, growInv, Finset.sum_range_succ, chance, h0, h1, h2, h3]
    norm_num
  · simp [growPred, growKdes, growInv, Finset.sum_range_succ, chance, h0, h1, h2, h3]
    norm_num
  · with_unfolding_all rfl

noncomputable def onePred : RSet ℝ := { values := [[0], [1]] }
noncomputable def oneObs : RSet ℝ := { values := [[0], [1], [2]] }

noncomputable def oneKdes : Kdes ℝ where
  num := 1
  regP := [0, 0]
  regO := [0, 0, 0]
  predict := [some (growFit [[0], [1]] none)]
  observed := [some (growFit [[0], [1], [2]] none)]

noncomputable def oneInv : Inversion ℝ where
  r := [some [1, 2]]
  ptr := [[0, 1]]
  weights := [1, 2]

theorem one_invert : invert growFit onePred oneObs = .ok (oneKdes, oneInv) := by
  have hk : generateKdes growFit onePred oneObs = .ok oneKdes := by with_unfolding_all rfl
  rw [invert, hk, ok_bind]
  have h0 : npDivide ([[0], [1]].map (growFit [[0], [1], [2]] none)) ([[0], [1]].map (growFit [[0], [1]] none)) =
      .ok [1, 2] := by
    simp [npDivide, growFit, raiseIf, pure, Except.pure, Bind.bind, Except.bind]
    norm_num
  have hs0 : invertStep oneKdes onePred ⟨[], [], [0, 0]⟩ 0 = .ok oneInv := by
    have hr : clusterRatio oneKdes [0, 1] [[0], [1]] 0 = .ok (some [1, 2]) := by
      show (npDivide _ _ >>= fun r => pure (some r)) = _
      rw [h0]; rfl
    show (clusterRatio _ [0, 1] [[0], [1]] 0 >>= fun r => assignWeights [0, 0] [0, 1] r >>= fun w => _) = _
    rw [hr]
    rfl
  show (invertStep oneKdes onePred ⟨[], [], [0, 0]⟩ 0 >>= fun st => pure st) >>= _ = _
  rw [hs0]
  rfl

theorem one_weighted : Weighted oneKdes oneInv where
  num := by decide
  nonneg w hw := by
    simp only [oneInv, List.mem_cons, List.not_mem_nil, or_false] at hw
    rcases hw with rfl | rfl <;> norm_num
  pos j hj := by
    have : j = 0 := by simp only [oneKdes] at hj; omega
    subst this
    exact ⟨0, 1, rfl, rfl, by norm_num⟩

theorem one_peak : ∀ t < onePred.values.length, peak oneKdes.regP oneInv.weights t = 2 := by
  intro t ht
  refine peak_eq (rr := [1, 2]) (j := 0) rfl (fun i s h => ?_) ⟨by simp, fun y hy => ?_⟩ ?_
  · change ([0, 1] : List Nat)[i]? = some s at h
    rcases i with _ | _ | i
    · obtain rfl := Option.some.inj h; rfl
    · obtain rfl := Option.some.inj h; rfl
    · simp at h
  · simp only [Set.mem_ofPred_eq, List.mem_cons, List.not_mem_nil, or_false] at hy
    rcases hy with rfl | rfl <;> norm_num
  · have : t = 0 ∨ t = 1 := by simp only [onePred, List.length_cons, List.length_nil] at ht; omega
    rcases this with rfl | rfl <;> rfl

/-- One cluster: the share of the first sample is 1/3, up to chance. -/
example {Ω : Type} [MeasurableSpace Ω] {P : Measure Ω} [IsProbabilityMeasure P] {V : ℕ → ℕ → Ω → ℝ}
    (hV : UniformNumbers P V) {ε : ℝ} (hε : 0 < ε) :
    P.real {ω | ε ≤ |newMean (fun y => if y.getD 0 0 < 1 then 1 else 0)
      (invertRejectionDrawn growFit 1 onePred.values onePred oneObs fun i t => V i t ω) - 1 / 3|} ≤
      2 * Real.exp (-2 * (ε * (3 / 2)) ^ 2 / 2) := by
  have h := C132_shares hV one_invert one_weighted (x := onePred.values) rfl 1 one_peak
    (g := fun y => if y.getD 0 0 < 1 then 1 else 0) (fun y => by split <;> norm_num) hε
  have hm : weightedMeanOf (fun y => if y.getD 0 0 < 1 then 1 else 0) onePred.values oneInv.weights = 1 / 3 := by
    simp [weightedMeanOf, onePred, oneInv, Finset.sum_range_succ]
    norm_num
  have hs : ∑ t ∈ Finset.range onePred.values.length, oneInv.weights.getD t 0 = 3 := by
    simp [onePred, oneInv, Finset.sum_range_succ]
    norm_num
  rw [hm, hs] at h
  exact h

end Ex

end BET
