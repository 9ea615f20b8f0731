import Verif.Props.WeightedMoments
import Mathlib.Tactic.FinCases

/-!
# When the inversion succeeds (C74)
-/

set_option autoImplicit false
set_option linter.unusedSectionVars false
set_option linter.unusedSimpArgs false

namespace BET

open Spec

section
variable {K : Type} [Field K] [LinearOrder K]

theorem takeIdx_total {α : Type} {idx : List Nat} {x : List α} (h : ∀ k ∈ idx, k < x.length) :
    ∃ r, takeIdx idx x = .ok r :=
  mapM_total fun k hk => ⟨x[k]'(h k hk), (getIdx_eq_ok _ _ _).2 (List.getElem?_eq_getElem _)⟩

theorem scatterAt_total {x r : List K} {ptr : List Nat} (hl : ptr.length = r.length)
    (h : ∀ k ∈ ptr, k < x.length) : ∃ y, scatterAt x ptr r = .ok y := by
  induction ptr generalizing x r with
  | nil =>
    cases r with
    | nil => exact ⟨x, rfl⟩
    | cons _ _ => simp at hl
  | cons k ks ih =>
    cases r with
    | nil => simp at hl
    | cons v vs =>
      rw [scatterAt, if_pos (h k (by simp))]
      exact ih (by simpa using hl) fun k' hk' => by
        rw [List.length_set]; exact h k' (by simp [hk'])

theorem whereEq_lt {reg : List Int} {j k : Nat} (h : k ∈ whereEq reg j) : k < reg.length :=
  (List.getElem?_eq_some_iff.1 ((mem_whereEq _ _ _).1 h)).1

namespace Spec

/-- The labels the inversion works with: the regions of the sets if both have them, one cluster
otherwise. -/
def labelOf (ps os s : RSet K) : List Int :=
  match ps.region, os.region, s.region with
  | some _, some _, some r => r
  | _, _, _ => s.values.map fun _ => 0

/-- Every cluster up to the largest predicted label has two predicted and two observed samples. -/
structure Populated (ps os : RSet K) : Prop where
  nonempty : ps.values ≠ []
  nonneg : ∀ a ∈ labelOf ps os ps, 0 ≤ a
  pred_len : (labelOf ps os ps).length = ps.values.length
  obs_len : (labelOf ps os os).length = os.values.length
  pred : ∀ (s j : Nat) (a : Int), (labelOf ps os ps)[s]? = some a → (j : Int) ≤ a →
    2 ≤ (labelOf ps os ps).count (j : Int)
  obs : ∀ (s j : Nat) (a : Int), (labelOf ps os ps)[s]? = some a → (j : Int) ≤ a →
    2 ≤ (labelOf ps os os).count (j : Int)

end Spec

theorem labels_pred (ps os : RSet K) :
    labels (ps.region.isNone || os.region.isNone) ps = labelOf ps os ps := by
  unfold labels labelOf
  cases ps.region <;> cases os.region <;> rfl

theorem labels_obs (ps os : RSet K) :
    labels (ps.region.isNone || os.region.isNone) os = labelOf ps os os := by
  unfold labels labelOf
  cases ps.region <;> cases os.region <;> rfl

/-- **C74, without cluster maps.** If every cluster has at least two predicted and two observed
samples and no fitted density vanishes, the inversion succeeds, and no cluster is without
ratios. -/
theorem C74_invert_defined_partial {F : KdeFit K} (hF : ∀ pts w x, F pts w x ≠ 0) {ps os : RSet K}
    (hm : ps.maps = none) (hmo : os.maps = none) (hp : Populated ps os)
    (hw : ∀ w, ps.weightsInit = some w → w.length = ps.values.length) :
    ∃ k st, invert F ps os = .ok (k, st) ∧ k.regP = labelOf ps os ps ∧ 0 < k.num ∧
      st.ptr = (List.range k.num).map (whereEq k.regP) ∧ ∀ j < k.num, ∃ rr, st.r[j]? = some (some rr) ∧ rr ≠ [] := by
  obtain ⟨hne, hnn, hpl, hol, hpc, hoc⟩ := hp
  have hregne : labelOf ps os ps ≠ [] := by
    intro h0
    rw [h0] at hpl
    exact hne (List.eq_nil_of_length_eq_zero hpl.symm)
  obtain ⟨M, hM⟩ : ∃ M, npMax (labelOf ps os ps) = .ok M := by
    cases hl : labelOf ps os ps with
    | nil => exact absurd hl hregne
    | cons a l => exact ⟨_, rfl⟩
  have hMm : M ∈ labelOf ps os ps := by
    revert hM
    cases labelOf ps os ps with
    | nil => intro h; cases h
    | cons a l =>
      intro h
      cases h
      clear hregne hpl hpc hoc hnn
      induction l generalizing a with
      | nil => simp
      | cons b l ih =>
        rw [List.foldl_cons]
        have := ih (max a b)
        rcases List.mem_cons.1 this with h | h
        · rw [h]
          rcases max_choice a b with h' | h' <;> rw [h'] <;> simp
        · simp [h]
  obtain ⟨s₀, hs₀⟩ := List.mem_iff_getElem?.1 hMm
  have hnum : numClusters ps (labelOf ps os ps) = .ok (M + 1).toNat := by
    simp only [numClusters, hm, hM]; rfl
  have hlt : ∀ j < (M + 1).toNat, (j : Int) ≤ M := fun j hj => by omega
  have hcP : ∀ j < (M + 1).toNat, 1 < (whereEq (labelOf ps os ps) j).length := fun j hj => by
    rw [length_whereEq]; exact hpc s₀ j M hs₀ (hlt j hj)
  have hcO : ∀ j < (M + 1).toNat, 1 < (whereEq (labelOf ps os os) j).length := fun j hj => by
    rw [length_whereEq]; exact hoc s₀ j M hs₀ (hlt j hj)
  have hpk : ∀ j < (M + 1).toNat, ∃ w, predictKde F ps (labelOf ps os ps) j =
      .ok (some (F (clusterSamples ps.values (labelOf ps os ps) j) w)) := by
    intro j hj
    obtain ⟨w, hw'⟩ : ∃ w, clusterWeightsInit ps (whereEq (labelOf ps os ps) j) = .ok w := by
      unfold clusterWeightsInit
      cases hwi : ps.weightsInit with
      | none => exact ⟨none, rfl⟩
      | some w =>
        obtain ⟨r, hr⟩ := takeIdx_total (idx := whereEq (labelOf ps os ps) j) (x := w)
          fun k hk => by rw [hw w hwi, ← hpl]; exact whereEq_lt hk
        exact ⟨some r, by simp only [hr]; rfl⟩
    refine ⟨w, ?_⟩
    simp only [predictKde, hm, if_pos (hcP j hj), takeIdx_whereEq _ _ _ hpl, hw', ok_bind]
    rfl
  have hok : ∀ j < (M + 1).toNat, observedKde F os (labelOf ps os os) j =
      .ok (some (F (clusterSamples os.values (labelOf ps os os) j) none)) := by
    intro j hj
    simp only [observedKde, hmo, if_pos (hcO j hj), takeIdx_whereEq _ _ _ hol, ok_bind]
    rfl
  obtain ⟨pr, hpr⟩ := mapM_total (l := List.range (M + 1).toNat)
    (f := predictKde F ps (labelOf ps os ps)) fun j hj => by
      obtain ⟨w, h⟩ := hpk j (List.mem_range.1 hj); exact ⟨_, h⟩
  obtain ⟨ob, hob⟩ := mapM_total (l := List.range (M + 1).toNat)
    (f := observedKde F os (labelOf ps os os)) fun j hj => ⟨_, hok j (List.mem_range.1 hj)⟩
  let k : Kdes K := ⟨(M + 1).toNat, labelOf ps os ps, labelOf ps os os, pr, ob⟩
  have hk : generateKdes F ps os = .ok k := by
    simp only [generateKdes, labels_pred, labels_obs, hnum, hpr, hob, ok_bind]
    rfl
  have hkp : ∀ j < (M + 1).toNat, ∃ w, k.predict[j]? =
      some (some (F (clusterSamples ps.values (labelOf ps os ps) j) w)) := by
    intro j hj
    have hf := (mapM_eq_ok _ _ _).1 hpr
    have hjp : j < pr.length := by rw [← hf.length_eq]; simpa using hj
    have hg := List.Forall₂.get hf (by simpa using hj) hjp
    simp only [List.get_eq_getElem, List.getElem_range] at hg
    obtain ⟨w, h⟩ := hpk j hj
    refine ⟨w, ?_⟩
    show pr[j]? = _
    rw [List.getElem?_eq_getElem hjp, Except.ok.inj (h.symm.trans hg)]
  have hko : ∀ j < (M + 1).toNat, k.observed[j]? =
      some (some (F (clusterSamples os.values (labelOf ps os os) j) none)) := by
    intro j hj
    have hf := (mapM_eq_ok _ _ _).1 hob
    have hjp : j < ob.length := by rw [← hf.length_eq]; simpa using hj
    have hg := List.Forall₂.get hf (by simpa using hj) hjp
    simp only [List.get_eq_getElem, List.getElem_range] at hg
    show ob[j]? = _
    rw [List.getElem?_eq_getElem hjp, Except.ok.inj ((hok j hj).symm.trans hg)]
  have hratio : ∀ j < (M + 1).toNat, ∃ rr,
      clusterRatio k (whereEq k.regP j) (clusterSamples ps.values k.regP j) j = .ok (some rr) ∧
        rr.length = (whereEq k.regP j).length := by
    intro j hj
    obtain ⟨w, h1⟩ := hkp j hj
    have h2 := hko j hj
    have hd : npDivide ((clusterSamples ps.values k.regP j).map
          (F (clusterSamples os.values (labelOf ps os os) j) none))
        ((clusterSamples ps.values k.regP j).map
          (F (clusterSamples ps.values (labelOf ps os ps) j) w)) =
        .ok (List.zipWith (· / ·) ((clusterSamples ps.values k.regP j).map
          (F (clusterSamples os.values (labelOf ps os os) j) none))
        ((clusterSamples ps.values k.regP j).map
          (F (clusterSamples ps.values (labelOf ps os ps) j) w))) := by
      unfold npDivide
      have : (((clusterSamples ps.values k.regP j).map
          (F (clusterSamples ps.values (labelOf ps os ps) j) w)).any
          fun y => decide (y = 0)) = false := by
        rw [List.any_eq_false]
        intro y hy
        obtain ⟨x, -, rfl⟩ := List.mem_map.1 hy
        simpa using hF _ _ _
      simp only [this, raiseIf]
      rfl
    refine ⟨_, ?_, (List.length_zipWith (f := (· / ·)) (l₁ := (clusterSamples ps.values k.regP j).map
          (F (clusterSamples os.values (labelOf ps os os) j) none))
        (l₂ := (clusterSamples ps.values k.regP j).map
          (F (clusterSamples ps.values (labelOf ps os ps) j) w))).trans ?_⟩
    · unfold clusterRatio
      rw [if_pos (Nat.lt_trans Nat.zero_lt_one (hcP j hj))]
      simp only [(getIdx_eq_ok _ _ _).2 h1, (getIdx_eq_ok _ _ _).2 h2, ok_bind, orErr_some, hd]
      rfl
    · rw [List.length_map, List.length_map, min_self]
      exact length_clusterSamples _ _ _ hpl
  have hloop : ∀ m ≤ (M + 1).toNat, ∃ st,
      (List.range m).foldlM (invertStep k ps) ⟨[], [], List.replicate ps.values.length 0⟩ =
        .ok st ∧ st.weights.length = ps.values.length ∧ st.r.length = m ∧
        ∀ j < m, ∃ rr, st.r[j]? = some (some rr) ∧ rr ≠ [] := by
    intro m
    induction m with
    | zero =>
      intro _
      exact ⟨_, rfl, by simp, rfl, fun j hj => absurd hj (Nat.not_lt_zero j)⟩
    | succ m ih =>
      intro hmle
      obtain ⟨st, h1, h2, h3, h4⟩ := ih (by omega)
      obtain ⟨rr, hr, hrl⟩ := hratio m (by omega)
      obtain ⟨w, hw'⟩ := scatterAt_total (x := st.weights) (r := rr) (ptr := whereEq k.regP m)
        hrl.symm fun i hi => by rw [h2, ← hpl]; exact whereEq_lt hi
      have hstep : invertStep k ps st m =
          .ok ⟨st.r ++ [some rr], st.ptr ++ [whereEq k.regP m], w⟩ := by
        simp only [invertStep, clusterPoints, hm, takeIdx_whereEq _ _ _
          (show k.regP.length = ps.values.length from hpl), ok_bind, hr, assignWeights, hw']
        rfl
      refine ⟨⟨st.r ++ [some rr], st.ptr ++ [whereEq k.regP m], w⟩, ?_, ?_, ?_, ?_⟩
      · rw [List.range_succ, List.foldlM_append, h1, ok_bind, List.foldlM_cons, hstep, ok_bind]
        rfl
      · exact (scatterAt_eq_ok (whereEq_nodup _ _) hw').1.trans h2
      · simp [h3]
      · intro j hj
        show ∃ rr', (st.r ++ [some rr])[j]? = some (some rr') ∧ _
        by_cases hjm : j = m
        · subst hjm
          refine ⟨rr, ?_, ?_⟩
          · rw [List.getElem?_append_right (by omega), h3]; simp
          · have := hcP j (by omega)
            rintro rfl
            rw [List.length_nil] at hrl
            exact absurd (show (whereEq k.regP j).length = 0 from hrl.symm)
              (by show (whereEq (labelOf ps os ps) j).length ≠ 0; omega)
        · obtain ⟨rr', h5, h6⟩ := h4 j (by omega)
          exact ⟨rr', by rw [List.getElem?_append_left (by omega)]; exact h5, h6⟩
  obtain ⟨st, h1, -, -, h4⟩ := hloop _ le_rfl
  refine ⟨k, st, ?_, rfl, ?_, (invert_loop h1).2.1, h4⟩
  · simp only [invert, hk, ok_bind]
    rw [show k.num = (M + 1).toNat from rfl, h1]
    rfl
  · show 0 < (M + 1).toNat
    have := hnn M hMm
    omega

end

section
variable {K : Type} [Field K] [LinearOrder K] [IsStrictOrderedRing K]

/-- **C74, rejection sampling.** Under the same conditions, with positive densities, one input
sample per predicted sample and one random number in `[0, 1]` per ratio, rejection sampling
succeeds. -/
theorem C74_rejection_defined_partial {F : KdeFit K} (hF : ∀ pts w x, 0 < F pts w x)
    {ps os : RSet K} (hm : ps.maps = none) (hmo : os.maps = none) (hp : Populated ps os)
    (hw : ∀ w, ps.weightsInit = some w → w.length = ps.values.length) {d : Nat}
    {x : List (List K)} (hx : x.length = ps.values.length) {us : Nat → List K}
    (hus : ∀ j, (us j).length = (labelOf ps os ps).count (j : Int))
    (hule : ∀ j, ∀ u ∈ us j, u ≤ 1) :
    ∃ a, invertRejection F d x ps os us = .ok a ∧ a.values ≠ [] := by
  obtain ⟨k, st, hinv, hreg, hnum, hptr, hr⟩ := C74_invert_defined_partial
    (fun pts w x => (hF pts w x).ne') hm hmo hp hw
  have hcl : ∀ j < k.num, ∃ vals, acceptCluster x st us j = .ok vals ∧ vals ≠ [] := by
    intro j hj
    obtain ⟨rr, hrj, hne⟩ := hr j hj
    obtain ⟨hpos, hlen, -⟩ := ratio_pos hF hinv hj hrj
    obtain ⟨M, hM⟩ : ∃ M, npMax rr = .ok M := by
      cases rr with
      | nil => exact absurd rfl hne
      | cons a l => exact ⟨_, rfl⟩
    have hgr := npMax_isGreatest hM
    have hMpos : 0 < M := hpos M hgr.1
    have hul : rr.length = (us j).length := by
      rw [hus j, hlen, length_whereEq, hreg]
    have hpj : st.ptr[j]? = some (whereEq k.regP j) := by
      rw [hptr, List.getElem?_map, List.getElem?_range hj]; rfl
    obtain ⟨sel, hsel⟩ := takeIdx_total (x := whereEq k.regP j)
      (idx := (List.range rr.length).filter fun t => decide ((us j).getD t 0 ≤ rr.getD t 0 / M))
      fun t ht => by
        rw [← hlen]
        exact List.mem_range.1 (List.mem_filter.1 ht).1
    have hsm : ∀ i ∈ sel, i < x.length := by
      intro i hi
      obtain ⟨hl', hg'⟩ := takeIdx_eq_ok hsel
      obtain ⟨t, ht⟩ := List.mem_iff_getElem?.1 hi
      have htl := (List.getElem?_eq_some_iff.1 ht).1
      obtain ⟨y, hy, hty⟩ := hg' t _ (List.getElem?_eq_getElem (hl' ▸ htl))
      cases ht.symm.trans hty
      rw [hx, ← hp.pred_len, ← hreg]
      exact whereEq_lt (List.mem_of_getElem? hy)
    obtain ⟨vals, hv⟩ := takeIdx_total hsm
    refine ⟨vals, ?_, ?_⟩
    · have h1 : acceptIdx rr (us j) = .ok ((List.range rr.length).filter
          fun t => decide ((us j).getD t 0 ≤ rr.getD t 0 / M)) := by
        simp only [acceptIdx, hM, ok_bind, raiseIf, hMpos.ne', hul, ne_eq, not_true_eq_false,
          decide_false, Bool.false_eq_true, if_false, not_false_eq_true, decide_true, Bool.true_and]
        rfl
      simp only [acceptCluster, (getIdx_eq_ok _ _ _).2 hrj, ok_bind, orErr_some, h1,
        (getIdx_eq_ok _ _ _).2 hpj, hsel, hv]
    · rw [(accept_rows x _ rr (us j) M hlen.symm hul sel vals hsel hv).1]
      exact keptRows_ne_nil hlen.symm hul hgr.1 hMpos (hule j)
  obtain ⟨news, hnews⟩ := mapM_total (l := List.range k.num) (f := acceptCluster x st us)
    fun j hj => by
      obtain ⟨v, hv, -⟩ := hcl j (List.mem_range.1 hj); exact ⟨v, hv⟩
  have hf := (mapM_eq_ok _ _ _).1 hnews
  have hn0 : 0 < news.length := by rw [← hf.length_eq]; simpa using hnum
  have hflat : news.flatten ≠ [] := by
    obtain ⟨v, hv, hvne⟩ := hcl 0 hnum
    have hg := List.Forall₂.get hf (by simpa using hnum) hn0
    simp only [List.get_eq_getElem, List.getElem_range] at hg
    have : news[0] = v := Except.ok.inj (hg.symm.trans hv)
    intro h0
    rw [List.flatten_eq_nil_iff] at h0
    exact hvne (this ▸ h0 _ (List.getElem_mem hn0))
  obtain ⟨dom, hdom⟩ := mapM_total (l := List.range d) (f := columnRange news.flatten)
    fun i _ => by
      cases hfl : news.flatten with
      | nil => exact absurd hfl hflat
      | cons a l => exact ⟨_, rfl⟩
  refine ⟨⟨news.flatten, news.flatten.map fun _ => (1 : K) / (news.flatten.length : K), dom⟩, ?_,
    hflat⟩
  have hemp : news.isEmpty = false := by
    cases news with
    | nil => simp at hn0
    | cons _ _ => rfl
  simp only [invertRejection, hinv, ok_bind, hnews, hdom, hemp, raiseIf, Bool.false_eq_true,
    if_false]
  rfl

end

/-! ### The code does not satisfy C74 in general -/

namespace Ex

example : Populated predSet obsSet where
  nonempty := by decide
  nonneg := by decide
  pred_len := rfl
  obs_len := rfl
  pred := by
    intro s j a hs hj
    have ha : a ≤ 1 := by
      have : a ∈ [(0 : Int), 1, 0, 1] := List.mem_of_getElem? hs
      fin_cases this <;> decide
    have : j = 0 ∨ j = 1 := by omega
    rcases this with rfl | rfl <;> decide
  obs := by
    intro s j a hs hj
    have ha : a ≤ 1 := by
      have : a ∈ [(0 : Int), 1, 0, 1] := List.mem_of_getElem? hs
      fin_cases this <;> decide
    have : j = 0 ∨ j = 1 := by omega
    rcases this with rfl | rfl <;> decide

/-- One cluster given by cluster maps, four predicted and five observed samples: the inversion
raises. -/
theorem C74_negation_single_map :
    errOf (invert fit { predSet with region := some [0, 0, 0, 0], maps := some [[[0], [1], [2], [3]]] }
      { obsSet with region := some [0, 0, 0, 0, 0], maps := some [[[0], [1], [2], [3], [4]]] }) =
      some .typeError := by decide +kernel

/-- A cluster with one predicted sample: the inversion raises. -/
theorem C74_negation_singleton :
    errOf (invert fit { predSet with region := some [0, 0, 0, 1] } obsSet) = some .typeError := by
  decide +kernel

/-- Labels 0 and 2 are used, 1 is not: the inversion succeeds but rejection sampling raises. -/
theorem C74_negation_gap :
    (invert fit' { predSet with region := some [0, 0, 2, 2] }
      { obsSet with region := some [0, 0, 2, 2, 2] }).toOption.isSome = true ∧
    errOf (invertRejection fit' 1 [[10], [11], [12], [13]]
      { predSet with region := some [0, 0, 2, 2] } { obsSet with region := some [0, 0, 2, 2, 2] }
      (fun _ => [1 / 2, 1 / 2])) = some .attributeError := by
  decide +kernel

end Ex

end BET
