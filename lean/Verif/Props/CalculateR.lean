import Verif.Model.CalculateR
import Verif.Lemmas.Basic
import Verif.Props.Choose
import Verif.Spec.Mass
import Verif.Spec.Examples
import Mathlib.Order.Bounds.Basic
import Mathlib.Tactic.Linarith
import Mathlib.Tactic.Ring
import Mathlib.Tactic.FieldSimp
import Mathlib.Data.List.Nodup

/-!
# Data-consistent inversion: ratios, cluster weights, rejection sampling (C41–C43)
-/

set_option autoImplicit false
set_option linter.unusedSectionVars false
set_option linter.unusedSimpArgs false

namespace BET

open Spec

theorem foldl_max_ge (l : List Int) (a : Int) : a ≤ l.foldl max a ∧ ∀ y ∈ l, y ≤ l.foldl max a := by
  induction l generalizing a with
  | nil => simp
  | cons b l ih =>
    obtain ⟨h1, h2⟩ := ih (max a b)
    rw [List.foldl_cons]
    refine ⟨(le_max_left a b).trans h1, fun y hy => ?_⟩
    rcases List.mem_cons.mp hy with rfl | hy
    · exact (le_max_right a y).trans h1
    · exact h2 y hy

theorem npMax_int {l : List Int} {m : Int} (h : npMax l = .ok m) : ∀ y ∈ l, y ≤ m := by
  cases l with
  | nil => cases h
  | cons a l =>
    cases h
    intro y hy
    rcases List.mem_cons.mp hy with rfl | hy
    · exact (foldl_max_ge l y).1
    · exact (foldl_max_ge l a).2 y hy

section
variable {K : Type} [Field K] [LinearOrder K]

namespace Spec

/-- The samples of cluster `j`, in order. -/
def clusterSamples {α : Type} (values : List α) (labels : List Int) (j : Nat) : List α :=
  ((values.zip labels).filter fun q => decide (q.2 = (j : Int))).map Prod.fst

end Spec

/-! ### Indices -/

theorem mem_whereEq (reg : List Int) (j k : Nat) :
    k ∈ whereEq reg j ↔ reg[k]? = some (j : Int) := by
  unfold whereEq
  simp only [List.mem_filter, List.mem_range, decide_eq_true_eq, and_iff_right_iff_imp]
  intro h
  exact (List.getElem?_eq_some_iff.1 h).1

theorem whereEq_nodup (reg : List Int) (j : Nat) : (whereEq reg j).Nodup :=
  List.nodup_range.filter _

theorem whereEq_disjoint (reg : List Int) {i j k : Nat} (hi : k ∈ whereEq reg i)
    (hj : k ∈ whereEq reg j) : i = j := by
  rw [mem_whereEq] at hi hj
  have := Option.some.inj (hi.symm.trans hj)
  exact_mod_cast this

theorem whereEq_cons (a : Int) (reg : List Int) (j : Nat) :
    whereEq (a :: reg) j =
      (if a = (j : Int) then [0] else []) ++ (whereEq reg j).map Nat.succ := by
  unfold whereEq
  rw [List.length_cons, List.range_succ_eq_map, List.filter_cons, List.filter_map]
  by_cases h : a = (j : Int)
  · simp only [List.getElem?_cons_zero, h, decide_true, if_true, List.singleton_append,
      List.cons.injEq, true_and]
    rfl
  · simp only [List.getElem?_cons_zero, Option.some.injEq, h, decide_false, Bool.false_eq_true,
      if_false, List.nil_append]
    rfl

theorem takeIdx_eq_ok {α : Type} {idx : List Nat} {x r : List α} (h : takeIdx idx x = .ok r) :
    r.length = idx.length ∧ ∀ (t s : Nat), idx[t]? = some s → ∃ y, x[s]? = some y ∧ r[t]? = some y := by
  unfold takeIdx at h
  have hf := (mapM_eq_ok _ _ _).1 h
  refine ⟨hf.length_eq.symm, fun t s ht => ?_⟩
  obtain ⟨hlt, rfl⟩ := List.getElem?_eq_some_iff.1 ht
  have hr : t < r.length := hf.length_eq ▸ hlt
  have := List.Forall₂.get hf hlt hr
  simp only [List.get_eq_getElem] at this
  rw [getIdx_eq_ok] at this
  exact ⟨r[t], this, List.getElem?_eq_getElem hr⟩

theorem takeIdx_succ {α : Type} (a : α) (x : List α) (idx : List Nat) :
    takeIdx (idx.map Nat.succ) (a :: x) = takeIdx idx x := by
  unfold takeIdx
  induction idx with
  | nil => rfl
  | cons i idx ih =>
    rw [List.map_cons, List.mapM_cons, List.mapM_cons, ih]
    rfl

/-- `values[np.where(region == j)]` are the samples of cluster `j`. -/
theorem takeIdx_whereEq {α : Type} (values : List α) (reg : List Int) (j : Nat)
    (h : reg.length = values.length) :
    takeIdx (whereEq reg j) values = .ok (clusterSamples values reg j) := by
  induction reg generalizing values with
  | nil =>
    cases values with
    | nil => rfl
    | cons _ _ => simp at h
  | cons a reg ih =>
    cases values with
    | nil => simp at h
    | cons v values =>
      have := ih values (by simpa using h)
      rw [whereEq_cons]
      by_cases ha : a = (j : Int)
      · rw [if_pos ha, List.singleton_append]
        unfold takeIdx
        rw [List.mapM_cons]
        have h2 := takeIdx_succ v values (whereEq reg j)
        unfold takeIdx at h2 this
        rw [h2, this]
        simp only [clusterSamples, List.zip_cons_cons, List.filter_cons, ha, decide_true, if_true,
          List.map_cons]
        rfl
      · rw [if_neg ha, List.nil_append, takeIdx_succ, this]
        simp [clusterSamples, List.zip_cons_cons, List.filter_cons, ha]

theorem length_clusterSamples {α : Type} (values : List α) (reg : List Int) (j : Nat)
    (h : reg.length = values.length) :
    (clusterSamples values reg j).length = (whereEq reg j).length :=
  (takeIdx_eq_ok (takeIdx_whereEq values reg j h)).1

/-- Assigning to distinct positions. -/
theorem scatterAt_eq_ok {x y r : List K} {ptr : List Nat} (hnd : ptr.Nodup)
    (h : scatterAt x ptr r = .ok y) :
    y.length = x.length ∧ ptr.length = r.length ∧
      (∀ t s : Nat, ptr[t]? = some s → y[s]? = r[t]?) ∧ ∀ s, s ∉ ptr → y[s]? = x[s]? := by
  induction ptr generalizing x r with
  | nil =>
    cases r with
    | nil => cases h; exact ⟨rfl, rfl, fun t s ht => by simp at ht, fun _ _ => rfl⟩
    | cons _ _ => cases h
  | cons k ks ih =>
    cases r with
    | nil => cases h
    | cons v vs =>
      rw [scatterAt] at h
      split at h
      · next hk =>
        obtain ⟨h1, h2, h3, h4⟩ := ih (List.nodup_cons.1 hnd).2 h
        refine ⟨h1.trans (List.length_set ..), by simp [h2], ?_, ?_⟩
        · intro t s ht
          cases t with
          | zero =>
            simp only [List.getElem?_cons_zero, Option.some.injEq] at ht
            subst ht
            rw [h4 k (List.nodup_cons.1 hnd).1, List.getElem?_set_self hk]
            rfl
          | succ t =>
            rw [List.getElem?_cons_succ] at ht ⊢
            exact h3 t s ht
        · intro s hs
          rw [List.mem_cons, not_or] at hs
          rw [h4 s hs.2, List.getElem?_set_ne (Ne.symm hs.1)]
      · cases h

/-! ### The loop of `invert` -/

theorem clusterRatio_eq_ok {k : Kdes K} {ptr : List Nat} {vals : List (List K)} {i : Nat}
    {r : Option (List K)} (h : clusterRatio k ptr vals i = .ok r) :
    (ptr = [] ∧ r = none) ∨ (ptr ≠ [] ∧ ∃ o p, k.observed[i]? = some (some o) ∧
      k.predict[i]? = some (some p) ∧ (∀ x ∈ vals, p x ≠ 0) ∧
      r = some (vals.map fun x => o x / p x)) := by
  unfold clusterRatio at h
  split at h
  · next hp =>
    right
    simp only [bind_eq_ok, getIdx_eq_ok, orErr_eq_ok, pure_eq_ok, npDivide, raiseIf_eq_ok] at h
    obtain ⟨o', ho', o, ho, p', hp', p, hpp, r', ⟨_, hnz, hr'⟩, rfl⟩ := h
    subst ho hpp
    refine ⟨by rintro rfl; simp at hp, o, p, ho', hp', ?_, ?_⟩
    · intro x hx h0
      have : (List.map p vals).any (fun y => decide (y = 0)) = true := by
        rw [List.any_eq_true]
        exact ⟨p x, List.mem_map_of_mem hx, by simpa using h0⟩
      rw [this] at hnz
      exact absurd hnz (by simp)
    · rw [← hr', List.zipWith_map, List.zipWith_self]
  · next hp =>
    left
    cases h
    exact ⟨List.eq_nil_of_length_eq_zero (by omega), rfl⟩

/-- What `invert` leaves after the clusters below `m`. -/
theorem invert_loop {k : Kdes K} {ps : RSet K} {n m : Nat} {st : Inversion K}
    (h : (List.range m).foldlM (invertStep k ps) ⟨[], [], List.replicate n 0⟩ = .ok st) :
    st.r.length = m ∧ st.ptr = (List.range m).map (whereEq k.regP) ∧ st.weights.length = n ∧
    (∀ j < m, ∃ vals r, clusterPoints ps (whereEq k.regP j) j = .ok vals ∧
      clusterRatio k (whereEq k.regP j) vals j = .ok r ∧ st.r[j]? = some r ∧
      ∀ rr, r = some rr → (whereEq k.regP j).length = rr.length ∧
        ∀ t s : Nat, (whereEq k.regP j)[t]? = some s → st.weights[s]? = rr[t]?) ∧
    ∀ s < n, (∀ j < m, s ∉ whereEq k.regP j) → st.weights[s]? = some 0 := by
  induction m generalizing st with
  | zero =>
    cases h
    refine ⟨rfl, rfl, by simp, fun j hj => absurd hj (Nat.not_lt_zero j), fun s hs _ => ?_⟩
    simp [hs]
  | succ m ih =>
    rw [List.range_succ, List.foldlM_append, bind_eq_ok] at h
    obtain ⟨st₁, h₁, h⟩ := h
    rw [List.foldlM_cons, bind_eq_ok] at h
    obtain ⟨st₂, h₂, h⟩ := h
    cases h
    obtain ⟨hr, hptr, hw, hc, h0⟩ := ih h₁
    simp only [invertStep, bind_eq_ok, pure_eq_ok] at h₂
    obtain ⟨vals, hvals, r, hratio, w, hassign, rfl⟩ := h₂
    have hfr : ∀ s, s ∉ whereEq k.regP m → w[s]? = st₁.weights[s]? := by
      intro s hs
      cases r with
      | none => cases hassign; rfl
      | some rr => exact (scatterAt_eq_ok (whereEq_nodup _ _) hassign).2.2.2 s hs
    refine ⟨by simp [hr], by rw [hptr, List.range_succ, List.map_append]; rfl, ?_, ?_, ?_⟩
    · show w.length = n
      rw [← hw]
      cases r with
      | none => cases hassign; rfl
      | some rr => exact (scatterAt_eq_ok (whereEq_nodup _ _) hassign).1
    · intro j hj
      by_cases hjm : j = m
      · subst hjm
        refine ⟨vals, r, hvals, hratio, ?_, ?_⟩
        · show (st₁.r ++ [r])[j]? = some r
          rw [List.getElem?_append_right (by omega), hr]
          simp
        · rintro rr rfl
          obtain ⟨-, hl, hs, -⟩ := scatterAt_eq_ok (whereEq_nodup _ _) hassign
          exact ⟨hl, hs⟩
      · have hj' : j < m := by omega
        obtain ⟨vals', r', h1, h2, h3, h4⟩ := hc j hj'
        refine ⟨vals', r', h1, h2, ?_, ?_⟩
        · show (st₁.r ++ [r])[j]? = some r'
          rw [List.getElem?_append_left (by omega)]
          exact h3
        · intro rr hrr
          obtain ⟨h5, h6⟩ := h4 rr hrr
          refine ⟨h5, fun t s hts => ?_⟩
          show w[s]? = _
          rw [hfr s fun hm => hjm (whereEq_disjoint _ (List.mem_of_getElem? hts) hm)]
          exact h6 t s hts
    · intro s hs hno
      show w[s]? = _
      rw [hfr s (hno m (Nat.lt_succ_self m))]
      exact h0 s hs fun j hj => hno j (Nat.lt_succ_of_lt hj)

/-! ### C43 -/

/-- What the fitted densities are. -/
theorem kdes_eq_ok {F : KdeFit K} {ps os : RSet K} {k : Kdes K}
    (h : generateKdes F ps os = .ok k) :
    numClusters ps k.regP = .ok k.num ∧
      k.regP = labels (ps.region.isNone || os.region.isNone) ps ∧
      k.regO = labels (ps.region.isNone || os.region.isNone) os ∧
      (∀ j p, k.predict[j]? = some p → predictKde F ps k.regP j = .ok p) ∧
      (∀ j o, k.observed[j]? = some o → observedKde F os k.regO j = .ok o) := by
  simp only [generateKdes, bind_eq_ok, pure_eq_ok] at h
  obtain ⟨num, hnum, pr, hpr, ob, hob, rfl⟩ := h
  refine ⟨hnum, rfl, rfl, fun j p hp => ?_, fun j o ho => ?_⟩
  · have hf := (mapM_eq_ok _ _ _).1 hpr
    obtain ⟨hlt, rfl⟩ := List.getElem?_eq_some_iff.1 hp
    have := List.Forall₂.get hf (hf.length_eq ▸ hlt : j < (List.range num).length) hlt
    simpa using this
  · have hf := (mapM_eq_ok _ _ _).1 hob
    obtain ⟨hlt, rfl⟩ := List.getElem?_eq_some_iff.1 ho
    have := List.Forall₂.get hf (hf.length_eq ▸ hlt : j < (List.range num).length) hlt
    simpa using this

/-- The labels that are used: those of the sets, or one cluster if one of them has none. -/
theorem kdes_labels {F : KdeFit K} {ps os : RSet K} {k : Kdes K} (h : generateKdes F ps os = .ok k) :
    (∀ lp lo, ps.region = some lp → os.region = some lo → k.regP = lp ∧ k.regO = lo) ∧
    (ps.region = none ∨ os.region = none → k.regP = List.replicate ps.values.length 0 ∧
      k.regO = List.replicate os.values.length 0) := by
  obtain ⟨-, h1, h2, -, -⟩ := kdes_eq_ok h
  rw [h1, h2]
  refine ⟨fun lp lo hp ho => by simp [labels, hp, ho], ?_⟩
  rintro (h | h) <;> simp [labels, h]

/-- Without cluster maps every label is a cluster number, unless it is negative. -/
theorem kdes_num {F : KdeFit K} {ps os : RSet K} {k : Kdes K} (hm : ps.maps = none)
    (h : generateKdes F ps os = .ok k) {s j : Nat} (hs : k.regP[s]? = some (j : Int)) : j < k.num := by
  obtain ⟨h1, -⟩ := kdes_eq_ok h
  simp only [numClusters, hm] at h1
  cases hM : npMax k.regP with
  | error e => rw [hM] at h1; cases h1
  | ok M =>
    rw [hM] at h1
    have hn : (M + 1).toNat = k.num := by injection h1
    have := npMax_int hM _ (List.mem_of_getElem? hs)
    omega

/-- The initial weights of a cluster. -/
theorem weightsInit_eq {ps : RSet K} {reg : List Int} {j : Nat} {w : Option (List K)}
    (hwl : ∀ w, ps.weightsInit = some w → reg.length = w.length)
    (h : clusterWeightsInit ps (whereEq reg j) = .ok w) :
    w = ps.weightsInit.map fun w => clusterSamples w reg j := by
  unfold clusterWeightsInit at h
  cases hw : ps.weightsInit with
  | none =>
    rw [hw] at h
    cases h
    rfl
  | some v =>
    simp only [hw, takeIdx_whereEq _ _ _ (hwl v hw)] at h
    cases h
    rfl

/-- **C43.** `invert` without cluster maps: after a successful call the weight of every predicted
sample `s` at `x` in cluster `j` is the ratio at `x` of the density fitted to the observed samples
of cluster `j` and the density fitted to the predicted samples of cluster `j` (with their initial
weights, if any); samples with a negative label keep weight 0. The labels are those of the sets, or
there is one cluster if one of the sets has none. -/
theorem C43_weights {F : KdeFit K} {ps os : RSet K} {k : Kdes K} {st : Inversion K}
    (hm : ps.maps = none) (hmo : os.maps = none)
    (hp : ∀ l, ps.region = some l → l.length = ps.values.length)
    (ho : ∀ l, os.region = some l → l.length = os.values.length)
    (hwl : ∀ w, ps.weightsInit = some w → w.length = ps.values.length)
    (h : invert F ps os = .ok (k, st)) :
    st.weights.length = ps.values.length ∧
    (∀ lp lo, ps.region = some lp → os.region = some lo → k.regP = lp ∧ k.regO = lo) ∧
    (ps.region = none ∨ os.region = none → k.regP = List.replicate ps.values.length 0 ∧
      k.regO = List.replicate os.values.length 0) ∧
    (∀ (s j : Nat) (x : List K), ps.values[s]? = some x → k.regP[s]? = some (j : Int) →
      F (clusterSamples ps.values k.regP j) (ps.weightsInit.map fun w => clusterSamples w k.regP j) x ≠ 0 ∧
        st.weights[s]? = some (F (clusterSamples os.values k.regO j) none x /
          F (clusterSamples ps.values k.regP j) (ps.weightsInit.map fun w => clusterSamples w k.regP j) x)) ∧
    ∀ s < ps.values.length, (∀ j : Nat, k.regP[s]? ≠ some (j : Int)) →
      st.weights[s]? = some 0 := by
  simp only [invert, bind_eq_ok, pure_eq_ok, Prod.mk.injEq] at h
  obtain ⟨k, hk, st, hst, rfl, rfl⟩ := h
  obtain ⟨hl1, hl2⟩ := kdes_labels hk
  have hlen : k.regP.length = ps.values.length ∧ k.regO.length = os.values.length := by
    cases hpr : ps.region with
    | none => rw [(hl2 (.inl hpr)).1, (hl2 (.inl hpr)).2]; simp
    | some lp =>
      cases hor : os.region with
      | none => rw [(hl2 (.inr hor)).1, (hl2 (.inr hor)).2]; simp
      | some lo => rw [(hl1 lp lo hpr hor).1, (hl1 lp lo hpr hor).2]; exact ⟨hp lp hpr, ho lo hor⟩
  obtain ⟨-, -, -, hpk, hok⟩ := kdes_eq_ok hk
  obtain ⟨-, -, hw, hc, h0⟩ := invert_loop hst
  refine ⟨hw, hl1, hl2, ?_, ?_⟩
  · intro s j x hx hs
    have hj := kdes_num hm hk hs
    obtain ⟨vals, r, h1, h2, -, h4⟩ := hc j hj
    have hmem : s ∈ whereEq k.regP j := (mem_whereEq _ _ _).2 hs
    obtain ⟨t, ht⟩ := List.mem_iff_getElem?.1 hmem
    simp only [clusterPoints, hm] at h1
    rw [takeIdx_whereEq _ _ _ hlen.1] at h1
    cases h1
    obtain ⟨y, hy, hty⟩ := (takeIdx_eq_ok (takeIdx_whereEq ps.values k.regP j hlen.1)).2 t s ht
    cases hx.symm.trans hy
    rcases clusterRatio_eq_ok h2 with ⟨hnil, -⟩ | ⟨hne, o, p, hoj, hpj, hnz, rfl⟩
    · rw [hnil] at hmem; cases hmem
    · obtain ⟨-, h6⟩ := h4 _ rfl
      have hp' := hpk j _ hpj
      have ho' := hok j _ hoj
      simp only [predictKde, hm] at hp'
      simp only [observedKde, hmo] at ho'
      split at hp'
      · split at ho'
        · simp only [bind_eq_ok, takeIdx_whereEq _ _ _ hlen.1, takeIdx_whereEq _ _ _ hlen.2,
            pure_eq_ok, Except.ok.injEq] at hp' ho'
          obtain ⟨xs, rfl, w, hw', hp'⟩ := hp'
          obtain ⟨ys, rfl, ho'⟩ := ho'
          cases hp'
          cases ho'
          have hwe := weightsInit_eq (fun w hw => hlen.1.trans (hwl w hw).symm) hw'
          rw [← hwe]
          refine ⟨hnz x (List.mem_of_getElem? hty), ?_⟩
          rw [h6 t s ht, List.getElem?_map, hty]
          rfl
        · cases ho'
      · cases hp'
  · intro s hs hno
    exact h0 s hs fun j hj hm' => hno j ((mem_whereEq _ _ _).1 hm')

/-- **C43 with cluster maps.** Given maps (points of the samples of each cluster in other
coordinates, in the order of the samples), the weight of the `t`-th sample of cluster `j` is the
ratio of the two densities of cluster `j` at the `t`-th point of its map. -/
theorem C43_weights_maps {F : KdeFit K} {ps os : RSet K} {k : Kdes K} {st : Inversion K}
    {mp mo : List (List (List K))} (hm : ps.maps = some mp) (hmo : os.maps = some mo)
    (hwl : ∀ w, ps.weightsInit = some w → k.regP.length = w.length)
    (h : invert F ps os = .ok (k, st)) {j t s : Nat} {pts obs : List (List K)} {x : List K}
    (hpts : mp[j]? = some pts) (hobs : mo[j]? = some obs)
    (hs : (whereEq k.regP j)[t]? = some s) (hx : pts[t]? = some x) :
    st.weights[s]? = some (F obs none x / F pts (ps.weightsInit.map fun w => clusterSamples w k.regP j) x) := by
  simp only [invert, bind_eq_ok, pure_eq_ok, Prod.mk.injEq] at h
  obtain ⟨k, hk, st, hst, rfl, rfl⟩ := h
  obtain ⟨hnum, -, -, hpk, hok⟩ := kdes_eq_ok hk
  obtain ⟨-, -, hw, hc, h0⟩ := invert_loop hst
  have hj : j < k.num := by
    simp only [numClusters, hm, pure_eq_ok] at hnum
    rw [← hnum]
    exact (List.getElem?_eq_some_iff.1 hpts).1
  obtain ⟨vals, r, h1, h2, -, h4⟩ := hc j hj
  simp only [clusterPoints, hm, getIdx_eq_ok] at h1
  cases hpts.symm.trans h1
  rcases clusterRatio_eq_ok h2 with ⟨hnil, -⟩ | ⟨hne, o, p, hoj, hpj, hnz, rfl⟩
  · rw [hnil] at hs; simp at hs
  · obtain ⟨-, h6⟩ := h4 _ rfl
    have hp' := hpk j _ hpj
    have ho' := hok j _ hoj
    simp only [predictKde, hm] at hp'
    simp only [observedKde, hmo] at ho'
    split at hp'
    · split at ho'
      · simp only [bind_eq_ok, getIdx_eq_ok, pure_eq_ok] at hp' ho'
        obtain ⟨xs, hxs, w, hw', hp'⟩ := hp'
        obtain ⟨ys, hys, ho'⟩ := ho'
        cases hp'
        cases ho'
        cases hpts.symm.trans hxs
        cases hobs.symm.trans hys
        rw [← weightsInit_eq hwl hw']
        rw [h6 t s hs, List.getElem?_map, hx]
        rfl
      · cases ho'
    · cases hp'

/-- **C43, one cluster map.** With a single cluster map and at least one sample in cluster 0 the
inversion cannot succeed: the code compares the number of maps, not of samples, with one and
leaves the density undefined. -/
theorem C43_single_map_fails {F : KdeFit K} {ps os : RSet K} {q : Kdes K × Inversion K}
    {m : List (List K)} (hm : ps.maps = some [m]) (h : invert F ps os = .ok q) :
    ∀ s : Nat, q.1.regP[s]? ≠ some 0 := by
  obtain ⟨k, st⟩ := q
  simp only [invert, bind_eq_ok, pure_eq_ok, Prod.mk.injEq] at h
  obtain ⟨k, hk, st, hst, rfl, rfl⟩ := h
  obtain ⟨hnum, -, -, hpk, hok⟩ := kdes_eq_ok hk
  obtain ⟨-, -, hw, hc, h0⟩ := invert_loop hst
  intro s hs
  have hj : 0 < k.num := by
    simp only [numClusters, hm, pure_eq_ok] at hnum
    rw [← hnum]
    simp
  obtain ⟨vals, r, -, h2, -, -⟩ := hc 0 hj
  rcases clusterRatio_eq_ok h2 with ⟨hnil, -⟩ | ⟨-, o, p, -, hpj, -⟩
  · have : s ∈ whereEq k.regP 0 := (mem_whereEq _ _ _).2 (by simpa using hs)
    rw [hnil] at this; cases this
  · have hp' := hpk 0 _ hpj
    simp only [predictKde, hm] at hp'
    simp at hp'
    cases hp'

end

/-! ### C42 -/

section
variable {K : Type} [Field K] [LinearOrder K] [IsStrictOrderedRing K]

theorem length_whereEq (reg : List Int) (j : Nat) :
    (whereEq reg j).length = reg.count (j : Int) := by
  induction reg with
  | nil => rfl
  | cons a reg ih =>
    rw [whereEq_cons, List.length_append, List.length_map, ih, List.count_cons]
    by_cases h : a = (j : Int) <;> simp [h]; omega

/-- How many labels are numbers below `num`. -/
theorem sum_whereEq (num : Nat) (reg : List Int) :
    ((List.range num).map fun j => (whereEq reg j).length).sum =
      reg.countP fun a => decide (0 ≤ a ∧ a < (num : Int)) := by
  simp only [length_whereEq]
  induction num with
  | zero =>
    simp only [List.range_zero, List.map_nil, List.sum_nil]
    symm
    rw [List.countP_eq_zero]
    intro a _
    simp only [decide_eq_true_eq]
    omega
  | succ n ih =>
    rw [List.range_succ, List.map_append, List.sum_append, ih]
    simp only [List.map_cons, List.map_nil, List.sum_cons, List.sum_nil, add_zero]
    clear ih
    induction reg with
    | nil => rfl
    | cons a reg ih =>
      rw [List.countP_cons, List.countP_cons, List.count_cons, ← ih]
      by_cases h1 : a = (n : Int)
      · subst h1
        simp
        omega
      · by_cases h2 : 0 ≤ a ∧ a < (n : Int)
        · have h3 : 0 ≤ a ∧ a < ((n + 1 : Nat) : Int) := ⟨h2.1, by push_cast; omega⟩
          simp only [h2, h3, and_self, decide_true, if_true, beq_iff_eq, h1, if_false]
          omega
        · have h3 : ¬ (0 ≤ a ∧ a < ((n + 1 : Nat) : Int)) := by
            push_cast
            omega
          simp only [h2, h3, decide_false, Bool.false_eq_true, if_false, beq_iff_eq, h1]
          omega

/-- **C42.** The cluster weights are the fractions of the observed samples in every cluster. They
are non-negative, their sum is the fraction of observed samples whose label is a cluster number,
and they form a probability vector if and only if all labels are. -/
theorem C42_cluster_weights {num n : Nat} {regO : List Int} {cw : List K} (hn : regO.length = n)
    (hnum : 0 < num) (h : clusterWeights num regO n = .ok cw) :
    cw.length = num ∧
    (∀ j < num, cw[j]? = some ((regO.count (j : Int) : K) / (n : K))) ∧
    (∀ w ∈ cw, 0 ≤ w) ∧
    cw.sum = ((regO.countP fun a => decide (0 ≤ a ∧ a < (num : Int)) : Nat) : K) / (n : K) ∧
    (IsProbVector cw ↔ ∀ a ∈ regO, 0 ≤ a ∧ a < (num : Int)) := by
  have hn0 : n ≠ 0 := by
    rintro rfl
    obtain ⟨m, rfl⟩ : ∃ m, num = m + 1 := ⟨num - 1, by omega⟩
    unfold clusterWeights at h
    rw [List.range_succ_eq_map, List.mapM_cons] at h
    simp only [raiseIf, decide_true, if_true] at h
    cases h
  have hcw : cw = (List.range num).map fun j => (((whereEq regO j).length : K) / (n : K)) := by
    unfold clusterWeights at h
    rw [mapM_ok (g := fun j => (((whereEq regO j).length : K) / (n : K)))] at h
    · cases h; rfl
    · intro j _
      simp only [raiseIf, hn0, decide_false, Bool.false_eq_true, if_false]
      rfl
  have hnK : (0 : K) < (n : K) := Nat.cast_pos.2 (Nat.pos_of_ne_zero hn0)
  have hsum : cw.sum =
      ((regO.countP fun a => decide (0 ≤ a ∧ a < (num : Int)) : Nat) : K) / (n : K) := by
    rw [hcw, ← sum_whereEq]
    induction List.range num with
    | nil => simp
    | cons a l ih =>
      simp only [List.map_cons, List.sum_cons, ih, Nat.cast_add, add_div]
  have hnn : ∀ w ∈ cw, 0 ≤ w := by
    intro w hw
    rw [hcw] at hw
    obtain ⟨j, -, rfl⟩ := List.mem_map.1 hw
    exact div_nonneg (Nat.cast_nonneg _) hnK.le
  refine ⟨by rw [hcw]; simp, fun j hj => ?_, hnn, hsum, ?_⟩
  · rw [hcw, List.getElem?_map, List.getElem?_range hj, ← length_whereEq]
    rfl
  · constructor
    · rintro ⟨-, h1⟩
      rw [hsum, div_eq_one_iff_eq hnK.ne', Nat.cast_inj, ← hn, List.countP_eq_length] at h1
      intro a ha
      simpa using h1 a ha
    · intro hall
      refine ⟨hnn, ?_⟩
      have : (regO.countP fun a => decide (0 ≤ a ∧ a < (num : Int))) = n := by
        rw [← hn, List.countP_eq_length]
        intro a ha
        simpa using hall a ha
      rw [hsum, this, div_self hnK.ne']

/-- **C42** for `invert_to_gmm` without cluster maps: if the labels of the observed samples occur among
the predicted ones and none is negative, there is a weight for every predicted label, the weights are
the fractions of the observed samples and form a probability vector. -/
theorem C42_gmm {F : KdeFit K} {dim : Nat} {x : List (List K)} {ps os : RSet K} {lp lo : List Int}
    {mc : List (Option (List K × List (List K)))} {cw : List K} (hm : ps.maps = none)
    (hp : ps.region = some lp) (ho : os.region = some lo) (hlo : lo.length = os.values.length)
    (hsub : ∀ a ∈ lo, 0 ≤ a ∧ a ∈ lp) (hne : lo ≠ []) (h : invertGmm F dim x ps os = .ok (mc, cw)) :
    (∀ j : Nat, (j : Int) ∈ lp → cw[j]? = some ((lo.count (j : Int) : K) / (lo.length : K))) ∧
    IsProbVector cw := by
  simp only [invertGmm, bind_eq_ok] at h
  obtain ⟨⟨k, st⟩, hinv, cw', hcw, mc', -, h⟩ := h
  cases (pure_eq_ok _ _).mp h
  simp only [invert, bind_eq_ok, pure_eq_ok, Prod.mk.injEq] at hinv
  obtain ⟨k, hk, st, -, rfl, rfl⟩ := hinv
  obtain ⟨rfl, rfl⟩ := (kdes_labels hk).1 lp lo hp ho
  have hlt : ∀ j : Nat, (j : Int) ∈ k.regP → j < k.num := by
    intro j hj
    obtain ⟨s, hs⟩ := List.mem_iff_getElem?.1 hj
    exact kdes_num hm hk hs
  have hall : ∀ a ∈ k.regO, 0 ≤ a ∧ a < (k.num : Int) := by
    intro a ha
    obtain ⟨h0, h1⟩ := hsub a ha
    have := hlt a.toNat (by rwa [Int.toNat_of_nonneg h0])
    omega
  have hnum : 0 < k.num := by
    obtain ⟨a, ha⟩ := List.exists_mem_of_ne_nil _ hne
    have := hall a ha
    omega
  obtain ⟨-, h2, -, -, h5⟩ := C42_cluster_weights hlo hnum hcw
  exact ⟨fun j hj => by rw [hlo]; exact h2 j (hlt j hj), h5.mpr hall⟩

end

/-! ### C41 -/

section
variable {K : Type} [Field K] [LinearOrder K] [IsStrictOrderedRing K]

theorem npMax_isGreatest {l : List K} {m : K} (h : npMax l = .ok m) :
    IsGreatest {y | y ∈ l} m := by
  cases l with
  | nil => cases h
  | cons a l =>
    cases h
    induction l generalizing a with
    | nil =>
      refine ⟨List.mem_singleton_self a, fun y hy => ?_⟩
      have : y ∈ [a] := hy
      rw [List.mem_singleton] at this
      exact this.le
    | cons b l ih =>
      obtain ⟨h1, h2⟩ := ih (max a b)
      rw [List.foldl_cons]
      constructor
      · have : l.foldl max (max a b) ∈ max a b :: l := h1
        rw [List.mem_cons] at this
        show _ ∈ a :: b :: l
        rcases this with h | h
        · rw [h]
          rcases max_choice a b with h' | h' <;> rw [h'] <;> simp
        · simp [h]
      · intro y hy
        have : y ∈ a :: b :: l := hy
        have hm : max a b ≤ l.foldl max (max a b) := h2 (List.mem_cons_self ..)
        rcases List.mem_cons.1 this with rfl | hy'
        · exact (le_max_left _ _).trans hm
        · rcases List.mem_cons.1 hy' with rfl | hy''
          · exact (le_max_right _ _).trans hm
          · exact h2 (List.mem_cons_of_mem _ hy'')

theorem npMin_isLeast {l : List K} {m : K} (h : npMin l = .ok m) :
    IsLeast {y | y ∈ l} m := by
  cases l with
  | nil => cases h
  | cons a l =>
    cases h
    induction l generalizing a with
    | nil =>
      refine ⟨List.mem_singleton_self a, fun y hy => ?_⟩
      have : y ∈ [a] := hy
      rw [List.mem_singleton] at this
      exact this.ge
    | cons b l ih =>
      obtain ⟨h1, h2⟩ := ih (min a b)
      rw [List.foldl_cons]
      constructor
      · have : l.foldl min (min a b) ∈ min a b :: l := h1
        rw [List.mem_cons] at this
        show _ ∈ a :: b :: l
        rcases this with h | h
        · rw [h]
          rcases min_choice a b with h' | h' <;> rw [h'] <;> simp
        · simp [h]
      · intro y hy
        have : y ∈ a :: b :: l := hy
        have hm : l.foldl min (min a b) ≤ min a b := h2 (List.mem_cons_self ..)
        rcases List.mem_cons.1 this with rfl | hy'
        · exact hm.trans (min_le_left _ _)
        · rcases List.mem_cons.1 hy' with rfl | hy''
          · exact hm.trans (min_le_right _ _)
          · exact h2 (List.mem_cons_of_mem _ hy'')

namespace Spec

/-- The rows of `x` at those positions `s` of `ptr` whose ratio passes the test against the random
number: the `t`-th entry `s` of `ptr` is kept if `us t ≤ ratio t / M`. -/
def keptRows (x : List (List K)) (ptr : List Nat) (ratio us : List K) (M : K) : List (List K) :=
  ((ptr.zip (ratio.zip us)).filter fun q => decide (q.2.2 ≤ q.2.1 / M)).map fun q =>
    x.getD q.1 []

end Spec

theorem accept_rows (x : List (List K)) (ptr : List Nat) (r us : List K) (M : K)
    (hl : ptr.length = r.length) (hu : r.length = us.length) (sel : List Nat)
    (vals : List (List K))
    (hsel : takeIdx ((List.range r.length).filter fun k => decide (us.getD k 0 ≤ r.getD k 0 / M))
      ptr = .ok sel) (hv : takeIdx sel x = .ok vals) :
    vals = keptRows x ptr r us M ∧ ∀ row ∈ vals, row ∈ x := by
  have h1 : sel = ((List.range r.length).filter
      fun k => decide (us.getD k 0 ≤ r.getD k 0 / M)).map fun t => ptr.getD t 0 := by
    refine List.ext_getElem? fun t => ?_
    obtain ⟨hlen, hget⟩ := takeIdx_eq_ok hsel
    rw [List.getElem?_map]
    cases hi : ((List.range r.length).filter
      fun k => decide (us.getD k 0 ≤ r.getD k 0 / M))[t]? with
    | none =>
      rw [List.getElem?_eq_none_iff] at hi
      rw [Option.map_none, List.getElem?_eq_none_iff, hlen]
      exact hi
    | some s =>
      obtain ⟨y, hy, hty⟩ := hget t s hi
      rw [hty, Option.map_some, List.getD_eq_getElem?_getD, hy]
      rfl
  obtain ⟨hlen, hget⟩ := takeIdx_eq_ok hv
  have h2 : vals = sel.map fun s => x.getD s [] := by
    refine List.ext_getElem? fun t => ?_
    rw [List.getElem?_map]
    cases hi : sel[t]? with
    | none =>
      rw [List.getElem?_eq_none_iff] at hi
      rw [Option.map_none, List.getElem?_eq_none_iff, hlen]
      exact hi
    | some s =>
      obtain ⟨y, hy, hty⟩ := hget t s hi
      rw [hty, Option.map_some, List.getD_eq_getElem?_getD, hy]
      rfl
  constructor
  · rw [h2, h1]
    clear h1 h2 hsel hv hget hlen
    unfold keptRows
    induction ptr generalizing r us with
    | nil =>
      cases r with
      | nil => rfl
      | cons _ _ => simp at hl
    | cons p ptr ih =>
      cases r with
      | nil => simp at hl
      | cons a r =>
        cases us with
        | nil => simp at hu
        | cons u us =>
          have hrec := ih r us (by simpa using hl) (by simpa using hu)
          rw [List.length_cons, List.range_succ_eq_map, List.filter_cons, List.zip_cons_cons,
            List.zip_cons_cons, List.filter_cons]
          have hz : ((fun k => decide ((u :: us).getD k 0 ≤ (a :: r).getD k 0 / M)) 0) =
              decide (u ≤ a / M) := rfl
          simp only [List.filter_map] at hrec ⊢
          have hcomp : ((fun k => decide ((u :: us).getD k 0 ≤ (a :: r).getD k 0 / M)) ∘ Nat.succ) =
              fun k => decide (us.getD k 0 ≤ r.getD k 0 / M) := by
            funext k; simp
          rw [hcomp, show decide ((u :: us).getD 0 0 ≤ (a :: r).getD 0 0 / M) =
            decide (u ≤ a / M) from rfl]
          have hm : ∀ l : List Nat, List.map (fun s => x.getD s [])
              (List.map (fun t => (p :: ptr).getD t 0) (List.map Nat.succ l)) =
              List.map (fun s => x.getD s []) (List.map (fun t => ptr.getD t 0) l) := fun l => by
            rw [List.map_map (f := Nat.succ)]
            congr 1
          by_cases hacc : u ≤ a / M
          · simp only [hacc, decide_true, if_true, List.map_cons]
            rw [hm, hrec]
            rfl
          · simp only [hacc, decide_false, Bool.false_eq_true, if_false]
            rw [hm, hrec]
  · intro row hrow
    obtain ⟨t, ht⟩ := List.mem_iff_getElem?.1 hrow
    have hlt : t < sel.length := hlen ▸ (List.getElem?_eq_some_iff.1 ht).1
    obtain ⟨y, hy, hty⟩ := hget t _ (List.getElem?_eq_getElem hlt)
    cases ht.symm.trans hty
    exact List.mem_of_getElem? hy

theorem keptRows_ne_nil {x : List (List K)} {ptr : List Nat} {ratio us : List K} {M : K}
    (hl : ptr.length = ratio.length) (hu : ratio.length = us.length) (hM : M ∈ ratio)
    (hMpos : 0 < M) (hule : ∀ u ∈ us, u ≤ 1) : keptRows x ptr ratio us M ≠ [] := by
  intro hnil
  obtain ⟨t, ht⟩ := List.mem_iff_getElem?.1 hM
  have htl : t < ratio.length := (List.getElem?_eq_some_iff.1 ht).1
  have hus : us[t]? = some (us[t]'(hu ▸ htl)) := List.getElem?_eq_getElem _
  have hpt : ptr[t]? = some (ptr[t]'(hl ▸ htl)) := List.getElem?_eq_getElem _
  have hmem : (ptr[t]'(hl ▸ htl), M, us[t]'(hu ▸ htl)) ∈ ptr.zip (ratio.zip us) := by
    refine List.mem_of_getElem? (i := t) ?_
    rw [List.getElem?_zip_eq_some]
    exact ⟨hpt, List.getElem?_zip_eq_some.2 ⟨ht, hus⟩⟩
  have : x.getD (ptr[t]'(hl ▸ htl)) [] ∈ keptRows x ptr ratio us M := by
    refine List.mem_map.2 ⟨_, List.mem_filter.2 ⟨hmem, ?_⟩, rfl⟩
    simp only [decide_eq_true_eq, div_self hMpos.ne']
    exact hule _ (List.getElem_mem _)
  rw [hnil] at this
  cases this

/-- **C41.** When `invert_rejection_sampling` succeeds, its new samples are, cluster by cluster
and in order, the input samples whose ratio divided by the largest ratio `M j` of the cluster is
at least the random number drawn for them, and none if that ratio is 0; all are input samples; their probabilities are equal
and form a probability vector; and the domain is the bounding box of the new samples. If the
random numbers are at most 1 and the densities positive, every cluster keeps a sample. -/
theorem C41_rejection {F : KdeFit K} {dim : Nat} {x : List (List K)} {ps os : RSet K}
    {us : Nat → List K} {a : Accepted K} (h : invertRejection F dim x ps os us = .ok a)
    (hdim : 0 < dim) :
    ∃ k st, invert F ps os = .ok (k, st) ∧ ∃ news : List (List (List K)),
      a.values = news.flatten ∧ news.length = k.num ∧
      (∀ j < k.num, ∃ (ratio : List K) (M : K), st.r[j]? = some (some ratio) ∧
        IsGreatest {y | y ∈ ratio} M ∧ (M = 0 → news[j]? = some []) ∧
        (M ≠ 0 → news[j]? = some (keptRows x (whereEq k.regP j) ratio (us j) M)) ∧
        (0 < M → (∀ u ∈ us j, u ≤ 1) → keptRows x (whereEq k.regP j) ratio (us j) M ≠ [])) ∧
      (∀ row ∈ a.values, row ∈ x) ∧
      (∀ p ∈ a.probabilities, p = 1 / (a.values.length : K)) ∧
      a.probabilities.length = a.values.length ∧ IsProbVector a.probabilities ∧
      a.domain.length = dim ∧
      ∀ i lo hi, a.domain[i]? = some (lo, hi) →
        IsLeast {y | ∃ row ∈ a.values, y = row.getD i 0} lo ∧
        IsGreatest {y | ∃ row ∈ a.values, y = row.getD i 0} hi := by
  simp only [invertRejection, bind_eq_ok, pure_eq_ok, raiseIf_eq_ok] at h
  obtain ⟨⟨k, st⟩, hinv, news, hnews, _, -, domain, hdom, rfl⟩ := h
  refine ⟨k, st, hinv, news, rfl, ?_⟩
  simp only [invert, bind_eq_ok, pure_eq_ok, Prod.mk.injEq] at hinv
  obtain ⟨k, hk, st, hst, rfl, rfl⟩ := hinv
  obtain ⟨-, hptr, -, hc, -⟩ := invert_loop hst
  have hf := (mapM_eq_ok _ _ _).1 hnews
  have hlen : news.length = k.num := by rw [← hf.length_eq, List.length_range]
  have hcl : ∀ j < k.num, ∃ (ratio : List K) (M : K) (vals : List (List K)),
      st.r[j]? = some (some ratio) ∧ IsGreatest {y | y ∈ ratio} M ∧
        (whereEq k.regP j).length = ratio.length ∧ ratio.length = (us j).length ∧
        news[j]? = some vals ∧ (M = 0 → vals = []) ∧
        (M ≠ 0 → vals = keptRows x (whereEq k.regP j) ratio (us j) M) ∧
        ∀ row ∈ vals, row ∈ x := by
    intro j hj
    have hj' : j < (List.range k.num).length := by simpa using hj
    have hj'' : j < news.length := hlen ▸ hj
    have hg := List.Forall₂.get hf hj' hj''
    simp only [List.get_eq_getElem, List.getElem_range] at hg
    simp only [acceptCluster, bind_eq_ok, getIdx_eq_ok, orErr_eq_ok] at hg
    obtain ⟨r, hr, ratio, rfl, idx, hidx, ptr, hp, sel, hsel, hv⟩ := hg
    simp only [acceptIdx, bind_eq_ok, raiseIf_eq_ok, pure_eq_ok] at hidx
    obtain ⟨M, hM, _, hul, rfl⟩ := hidx
    have hptrj : ptr = whereEq k.regP j := by
      rw [hptr, List.getElem?_map, List.getElem?_range hj] at hp
      cases hp; rfl
    subst hptrj
    obtain ⟨vals', r', -, -, h3, h4⟩ := hc j hj
    cases hr.symm.trans h3
    have hl := (h4 ratio rfl).1
    have hu : ratio.length = (us j).length := by simpa using hul
    by_cases hM0 : M = 0
    · have hnil : news[j] = [] := by
        simp only [hM0, ne_eq, not_true_eq_false, decide_false, Bool.false_and,
          List.filter_false] at hsel
        cases hsel
        exact (Except.ok.inj hv).symm
      refine ⟨ratio, M, news[j], hr, npMax_isGreatest hM, hl, hu, List.getElem?_eq_getElem hj'',
        fun _ => hnil, fun h => absurd hM0 h, ?_⟩
      rw [hnil]
      intro row hrow
      cases hrow
    · simp only [hM0, ne_eq, not_false_eq_true, decide_true, Bool.true_and] at hsel
      obtain ⟨hrows, hsub⟩ := accept_rows x _ ratio (us j) M hl hu sel _ hsel hv
      exact ⟨ratio, M, news[j], hr, npMax_isGreatest hM, hl, hu,
        List.getElem?_eq_getElem hj'', fun h => absurd h hM0, fun _ => hrows, hsub⟩
  have hne : news.flatten ≠ [] := by
    -- the domain could not be computed otherwise
    intro hnil
    have hfd := (mapM_eq_ok _ _ _).1 hdom
    have h0 : 0 < (List.range dim).length := by simpa using hdim
    have hg := List.Forall₂.get hfd h0 (hfd.length_eq ▸ h0)
    simp only [columnRange, bind_eq_ok, hnil, List.map_nil, npMax] at hg
    obtain ⟨_, hg, -⟩ := hg
    cases hg
  have hnpos : (0 : K) < (news.flatten.length : K) :=
    Nat.cast_pos.2 (List.length_pos_iff.2 hne)
  refine ⟨hlen, ?_, ?_, ?_, ?_, ⟨?_, ?_⟩, ?_, ?_⟩
  · intro j hj
    obtain ⟨ratio, M, vals, h1, h2, hl, hu, h4, h5, h6, -⟩ := hcl j hj
    refine ⟨ratio, M, h1, h2, fun h0 => h5 h0 ▸ h4, fun h0 => h6 h0 ▸ h4, fun hMpos hule hnil => ?_⟩
    exact keptRows_ne_nil hl hu h2.1 hMpos hule hnil
  · intro row hrow
    obtain ⟨vals, hvals, hr⟩ := List.mem_flatten.1 hrow
    obtain ⟨j, hj⟩ := List.mem_iff_getElem?.1 hvals
    have hjn : j < k.num := hlen ▸ (List.getElem?_eq_some_iff.1 hj).1
    obtain ⟨_, _, vals', -, -, -, -, h4, -, -, h6⟩ := hcl j hjn
    cases hj.symm.trans h4
    exact h6 row hr
  · intro p hp
    obtain ⟨_, _, rfl⟩ := List.mem_map.1 hp
    rfl
  · exact List.length_map ..
  · intro p hp
    obtain ⟨_, _, rfl⟩ := List.mem_map.1 hp
    exact div_nonneg zero_le_one hnpos.le
  · rw [List.map_const', List.sum_replicate, nsmul_eq_mul]
    field_simp
  · have := ((mapM_eq_ok _ _ _).1 hdom).length_eq
    rw [← this, List.length_range]
  · intro i lo hi hi'
    have hfd := (mapM_eq_ok _ _ _).1 hdom
    obtain ⟨hlt, heq⟩ := List.getElem?_eq_some_iff.1 hi'
    have hg := List.Forall₂.get hfd (hfd.length_eq ▸ hlt : i < (List.range dim).length) hlt
    simp only [List.get_eq_getElem, List.getElem_range, heq] at hg
    simp only [columnRange, bind_eq_ok, pure_eq_ok, Prod.mk.injEq] at hg
    obtain ⟨hi2, hmax, lo2, hmin, rfl, rfl⟩ := hg
    have hset : {y | y ∈ news.flatten.map fun row => row.getD i 0} =
        {y | ∃ row ∈ news.flatten, y = row.getD i 0} := by
      ext y
      constructor
      · intro hy
        obtain ⟨row, hrow, rfl⟩ := List.mem_map.1 hy
        exact ⟨row, hrow, rfl⟩
      · rintro ⟨row, hrow, rfl⟩
        exact List.mem_map.2 ⟨row, hrow, rfl⟩
    rw [← hset]
    exact ⟨npMin_isLeast hmin, npMax_isGreatest hmax⟩

end

/-! ### Examples -/

namespace Ex

/-- A stand-in for a density estimate. -/
def fit : KdeFit ℚ := fun pts _ x => (pts.length : ℚ) + x.getD 0 0 ^ 2

/-- Four predicted samples in two clusters, five observed. -/
def predSet : RSet ℚ := { values := [[0], [1], [2], [3]], region := some [0, 1, 0, 1] }

def obsSet : RSet ℚ := { values := [[0], [1], [2], [3], [4]], region := some [0, 1, 0, 1, 1] }

example : (invert fit predSet obsSet).toOption.map (fun q => q.2.weights) =
    some [1, 4 / 3, 1, 12 / 11] := by decide +kernel

example : (clusterWeights 2 [0, 1, 0, 1, 1] 5).toOption = some [(2 / 5 : ℚ), 3 / 5] := by
  decide +kernel

/-- Hypotheses of `C42_gmm`. -/
example : (invertGmm fit 1 [[10], [11], [12], [13]] predSet obsSet).toOption.map (fun q => q.2) =
    some [2 / 5, 3 / 5] := by
  decide +kernel

/-- A label that is no cluster number: the weights do not add up to 1. -/
example : (clusterWeights 2 [0, 1, 0, 1, 2] 5).toOption = some [(2 / 5 : ℚ), 2 / 5] := by
  decide +kernel

example : (invertRejection fit 1 [[10], [11], [12], [13]] predSet obsSet
    (fun _ => [1 / 2, 9 / 10])).toOption.map (fun a => (a.values, a.probabilities, a.domain)) =
    some ([[10], [12], [11]], [1 / 3, 1 / 3, 1 / 3], [(10, 12)]) := by decide +kernel

example : errOf (invert fit { predSet with region := some [0, 0, 0, 0], maps := some [[[0], [1], [2], [3]]] }
    { obsSet with region := some [0, 0, 0, 0, 0] }) = some .typeError := by decide +kernel

end Ex

end BET
