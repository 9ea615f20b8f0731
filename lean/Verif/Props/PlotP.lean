import Verif.Model.PlotP
import Verif.Spec.Arrays
import Verif.Spec.Mass
import Verif.Lemmas.Basic
import Verif.Lemmas.Mask
import Verif.Lemmas.Split
import Verif.Lemmas.Fresh
import Verif.Props.Choose
import Verif.Props.SimpleFun2
import Mathlib.Algebra.BigOperators.Group.List.Lemmas
import Mathlib.Data.Nat.Find
import Mathlib.Tactic.Ring
import Mathlib.Tactic.Linarith
import Mathlib.Tactic.FieldSimp

/-!
# C61: marginals of the input probabilities
-/

set_option linter.unusedSectionVars false
set_option linter.unusedSimpArgs false
set_option autoImplicit false

namespace BET

open Spec

variable {K : Type} [Field K] [LinearOrder K]

/-! ### Specification -/

/-- `x` lies in the `k`-th of `n` equal cells of `[a, b]`; the last cell contains `b`. -/
def Spec.InCell (a b : K) (n k : Nat) (x : K) : Prop :=
  a + (k : K) * ((b - a) / (n : K)) ≤ x ∧
    (x < a + ((k : K) + 1) * ((b - a) / (n : K)) ∨ k + 1 = n ∧ x = b)

instance (a b : K) (n k : Nat) (x : K) : Decidable (Spec.InCell a b n k x) := by
  unfold Spec.InCell; infer_instance

/-- The probability of the samples with property `A`. -/
def Spec.massOf (A : List K → Prop) [DecidablePred A] (vals : List (List K)) (probs : List K) : K :=
  (List.zipWith (fun v p => if A v then p else 0) vals probs).sum

/-- The samples of a set and their probabilities: the local arrays if there are local probabilities,
else the global ones. -/
def Spec.Samples (s : SampleSet K) (vals : List (List K)) (probs : List K) : Prop :=
  (∃ (V : Chunks (List K)) (P : Chunks K), s.loc.values = some V ∧ s.loc.probabilities = some P ∧
    SameShape V P ∧ V.flatten = vals ∧ P.flatten = probs) ∨
  (s.loc.probabilities = none ∧ s.glob.values = some vals ∧ s.glob.probabilities = some probs ∧
    ∃ n, Consistent s n)

/-- The set whose marginals are computed. -/
def Spec.MargOf : PostObj K → SampleSet K → Prop
  | .set s, t => t = s
  | .disc d, t => d.emInput = some t ∨ d.emInput = none ∧ d.input = some t
  | .other, _ => False

/-- The hypotheses of the theorems: a set with samples, a box, and at least one bin per dimension. -/
structure Spec.Histo (o : PostObj K) (s : SampleSet K) (vals : List (List K)) (probs : List K)
    (dom : List (K × K)) (nb : List Nat) (nbins : NBins) : Prop where
  obj : Spec.MargOf o s
  samples : Spec.Samples s vals probs
  rows : ∀ r ∈ vals, r.length = s.dim
  domain : s.domain = some dom
  dims : dom.length = s.dim
  lo_lt_hi : ∀ r ∈ dom, r.1 < r.2
  bins : nbins = .int (nb.headD 1) ∧ nb = List.replicate s.dim (nb.headD 1) ∨ nbins = .arr nb
  numBins : nb.length = s.dim
  pos : ∀ n ∈ nb, 0 < n

/-! ### Lemmas -/

section cells

variable [IsStrictOrderedRing K]

/-- C61: every point of the interval lies in exactly one cell. -/
theorem C61_one_bin {a b : K} (h : a < b) {n : Nat} (hn : 0 < n) {x : K}
    (hx : a ≤ x ∧ x ≤ b) : ∃! k : Nat, k < n ∧ InCell a b n k x := by
  have hn' : (0 : K) < (n : K) := by exact_mod_cast hn
  have hw : 0 < (b - a) / (n : K) := div_pos (sub_pos.mpr h) hn'
  have hnb : a + (n : K) * ((b - a) / (n : K)) = b := by field_simp; ring
  have uniq : ∀ i j : Nat, i < j → j < n → InCell a b n i x → InCell a b n j x → False := by
    intro i j hij hj hi hj'
    rcases hi.2 with h1 | ⟨h1, -⟩
    · have : ((i : K) + 1) ≤ (j : K) := by exact_mod_cast hij
      have := mul_le_mul_of_nonneg_right this hw.le
      linarith [hj'.1]
    · omega
  have key : ∃ k : Nat, k < n ∧ InCell a b n k x := by
    by_cases hb : x = b
    · refine ⟨n - 1, by omega, ?_, Or.inr ⟨by omega, hb⟩⟩
      have : ((n - 1 : Nat) : K) ≤ (n : K) := by exact_mod_cast Nat.sub_le n 1
      have := mul_le_mul_of_nonneg_right this hw.le
      linarith
    · have hlt : x < b := lt_of_le_of_ne hx.2 hb
      have h0 : a + ((0 : Nat) : K) * ((b - a) / (n : K)) ≤ x := by simpa using hx.1
      have h1 := Nat.findGreatest_spec (P := fun (k : Nat) => a + (k : K) * ((b - a) / (n : K)) ≤ x)
        (Nat.zero_le (n - 1)) h0
      have h2 := Nat.findGreatest_le (P := fun (k : Nat) => a + (k : K) * ((b - a) / (n : K)) ≤ x)
        (n - 1)
      set k := Nat.findGreatest (fun (k : Nat) => a + (k : K) * ((b - a) / (n : K)) ≤ x) (n - 1)
        with hk
      refine ⟨k, by omega, h1, Or.inl ?_⟩
      by_cases hkn : k + 1 = n
      · have : (k : K) + 1 = (n : K) := by exact_mod_cast hkn
        rw [this, hnb]
        exact hlt
      · have := Nat.findGreatest_is_greatest (n := n - 1) (k := k + 1)
          (P := fun (k : Nat) => a + (k : K) * ((b - a) / (n : K)) ≤ x) (by rw [← hk]; omega) (by omega)
        push Not at this
        push_cast at this
        exact this
  obtain ⟨k, hk, hc⟩ := key
  refine ⟨k, ⟨hk, hc⟩, ?_⟩
  rintro j ⟨hj, hcj⟩
  rcases Nat.lt_trichotomy j k with h1 | h1 | h1
  · exact (uniq j k h1 hk hcj hc).elim
  · exact h1
  · exact (uniq k j h1 hj hc hcj).elim

theorem linspace_getD {a b : K} {n k : Nat} (hk : k < n + 1) :
    (linspace a b (n + 1)).getD k 0 = a + (k : K) * ((b - a) / (n : K)) := by
  rw [List.getD_eq_getElem?_getD, getElem?_linspace a b hk]
  simp

theorem increasing_linspace {a b : K} (h : a < b) {n : Nat} :
    increasing (linspace a b (n + 1)) = true := by
  unfold increasing
  rw [List.all_eq_true]
  intro k hk
  rw [List.mem_range, length_linspace, Nat.add_sub_cancel] at hk
  have hn' : (0 : K) < (n : K) := by exact_mod_cast (by omega : 0 < n)
  have hw : 0 < (b - a) / (n : K) := div_pos (sub_pos.mpr h) hn'
  rw [decide_eq_true_eq, linspace_getD (by omega), linspace_getD (by omega)]
  push_cast
  linarith

theorem inBin_linspace {a b : K} {n k : Nat} (hk : k < n) (x : K) :
    inBin (linspace a b (n + 1)) k x = decide (InCell a b n k x) := by
  have hn' : (n : K) ≠ 0 := by exact_mod_cast (by omega : n ≠ 0)
  rw [Bool.eq_iff_iff, decide_eq_true_iff]
  unfold inBin InCell
  rw [linspace_getD (by omega), linspace_getD (by omega), length_linspace]
  simp only [Bool.and_eq_true, Bool.or_eq_true, decide_eq_true_eq]
  push_cast
  refine and_congr_right fun _ => or_congr_right ?_
  constructor
  · rintro ⟨h1, h2⟩
    have hkn : k + 1 = n := by omega
    refine ⟨hkn, h2.trans ?_⟩
    have : (k : K) + 1 = (n : K) := by exact_mod_cast hkn
    rw [this]; field_simp; ring
  · rintro ⟨h1, h2⟩
    refine ⟨by omega, h2.trans ?_⟩
    have : (k : K) + 1 = (n : K) := by exact_mod_cast h1
    rw [this]; field_simp; ring

end cells

/-! ### Sums over the processes -/

theorem allreduceVec_map {ι : Type} (n : Nat) (l : List ι) (g : ι → Nat → K) :
    allreduceVec n (l.map fun c => (List.range n).map (g c)) =
      (List.range n).map fun k => (l.map fun c => g c k).sum := by
  unfold allreduceVec allreduceSum
  refine List.map_congr_left fun k hk => ?_
  rw [List.mem_range] at hk
  rw [List.map_map]
  congr 1
  refine List.map_congr_left fun c _ => ?_
  simp [hk]

theorem allreduceMat_map {ι : Type} (m n : Nat) (l : List ι) (g : ι → Nat → Nat → K) :
    allreduceMat m n (l.map fun c => (List.range m).map fun k => (List.range n).map (g c k)) =
      (List.range m).map fun k => (List.range n).map fun j => (l.map fun c => g c k j).sum := by
  unfold allreduceMat
  refine List.map_congr_left fun k hk => ?_
  rw [List.mem_range] at hk
  rw [List.map_map, ← allreduceVec_map]
  congr 1
  refine List.map_congr_left fun c _ => ?_
  simp [hk]

theorem sum_chunks {V : Chunks (List K)} {P : Chunks K} (h : SameShape V P)
    (f : List K → K → K) :
    ((V.zip P).map fun c => (List.zipWith f c.1 c.2).sum).sum =
      (List.zipWith f V.flatten P.flatten).sum := by
  rw [← flatten_zipWith_zipWith f h, List.sum_flatten]
  congr 1
  rw [List.zip, List.map_zipWith, List.map_zipWith]

/-- The set after localisation. -/
theorem localProbs_ok {s : SampleSet K} {vals : List (List K)} {probs : List K}
    (h : Samples s vals probs) {size : Nat} (hs : 0 < size) :
    ∃ t V P, s.localProbs size = .ok t ∧ t.dim = s.dim ∧ t.domain = s.domain ∧ t.glob = s.glob ∧
      t.loc.values = some V ∧ t.loc.probabilities = some P ∧ SameShape V P ∧
      V.flatten = vals ∧ P.flatten = probs := by
  rcases h with ⟨V, P, h1, h2, h3, h4, h5⟩ | ⟨h1, h2, h3, n, hc⟩
  · exact ⟨s, V, P, by simp [SampleSet.localProbs, h2], rfl, rfl, rfl, h1, h2, h3, h4, h5⟩
  · have hlen : vals.length = n ∧ probs.length = n := ⟨hc.1.values _ h2, hc.1.probabilities _ h3⟩
    refine ⟨s.splitSet size n, arraySplit size vals, arraySplit size probs, ?_, rfl, rfl, rfl, ?_, ?_,
      ?_, flatten_arraySplit size vals hs, flatten_arraySplit size probs hs⟩
    · simp only [SampleSet.localProbs, h1, h3]
      exact SampleSet.globalToLocal_ok hc size
    · simp [SampleSet.splitSet, Arrays.map₂, h2, SampleSet.splitArr]
    · simp [SampleSet.splitSet, Arrays.map₂, h3, SampleSet.splitArr]
    · exact arraySplit_sameShape size vals probs (hlen.1.trans hlen.2.symm)

theorem marginalSet_ok {o : PostObj K} {s : SampleSet K} (h : MargOf o s) :
    o.marginalSet = .ok s := by
  cases o with
  | set t => simp only [MargOf] at h; subst h; rfl
  | disc d =>
    rcases h with h | ⟨h1, h2⟩
    · simp [PostObj.marginalSet, h, orErr]
    · simp [PostObj.marginalSet, h1, h2, orErr]
  | other => exact h.elim

/-! ### The computations -/

section main

variable [IsStrictOrderedRing K]

theorem toArr_ok {o : PostObj K} {s : SampleSet K} {vals : List (List K)} {probs : List K}
    {dom : List (K × K)} {nb : List Nat} {nbins : NBins} (h : Histo o s vals probs dom nb nbins) :
    nbins.toArr s.dim = nb := by
  rcases h.bins with ⟨h1, h2⟩ | h1
  · rw [h1, NBins.toArr]
    exact h2.symm
  · rw [h1, NBins.toArr]

/-- The edges of dimension `i`. -/
def edgesAt (dom : List (K × K)) (nb : List Nat) (i : Nat) : List K :=
  linspace (dom.getD i (0, 0)).1 (dom.getD i (0, 0)).2 (nb.getD i 0 + 1)

theorem marginalBins_ok {s : SampleSet K} {dom : List (K × K)} {nb : List Nat}
    (hd : s.domain = some dom) (h1 : dom.length = s.dim) (h2 : nb.length = s.dim) :
    s.marginalBins nb = .ok ((List.range s.dim).map (edgesAt dom nb)) := by
  unfold SampleSet.marginalBins
  refine mapM_ok _ _ _ fun i hi => ?_
  rw [List.mem_range] at hi
  have e1 : dom[i]? = some dom[i] := by rw [List.getElem?_eq_getElem]
  have e2 : nb[i]? = some nb[i] := by rw [List.getElem?_eq_getElem]
  simp only [hd, orErr_some, ok_bind, getIdx, e1, e2, edgesAt, List.getD_eq_getElem?_getD,
    Option.getD_some]
  rfl

theorem col_ok {c : List (List K)} {i m : Nat} (h : ∀ r ∈ c, r.length = m) (hi : i < m) :
    (c.mapM fun row => getIdx row i) = .ok (c.map fun r => r.getD i 0) := by
  refine mapM_ok _ _ _ fun r hr => ?_
  have e : r[i]? = some (r[i]'(by rw [h r hr]; exact hi)) := by rw [List.getElem?_eq_getElem]
  simp only [getIdx, e, List.getD_eq_getElem?_getD, Option.getD_some]

theorem histogram_ok {a b : K} (h : a < b) {n : Nat} {x w : List K} (hl : x.length = w.length) :
    histogram (linspace a b (n + 1)) x w = .ok ((List.range n).map fun k =>
      (List.zipWith (fun v p => if InCell a b n k v then p else 0) x w).sum) := by
  unfold histogram
  rw [increasing_linspace h]
  simp only [hl, Bool.not_true, raiseIf_false, ok_bind, ne_eq, not_true_eq_false, decide_false,
    length_linspace, Nat.add_sub_cancel, Bool.false_eq_true]
  refine congrArg Except.ok (List.map_congr_left fun k hk => ?_)
  rw [List.mem_range] at hk
  simp only [inBin_linspace hk, decide_eq_true_eq]

theorem histogram2_ok {a b a' b' : K} (h : a < b) (h' : a' < b') {n n' : Nat} {x : List (K × K)}
    {w : List K} (hl : x.length = w.length) :
    histogram2 (linspace a b (n + 1)) (linspace a' b' (n' + 1)) x w =
      .ok ((List.range n).map fun k => (List.range n').map fun l =>
        (List.zipWith (fun v p => if InCell a b n k v.1 ∧ InCell a' b' n' l v.2 then p else 0)
          x w).sum) := by
  unfold histogram2
  rw [increasing_linspace h, increasing_linspace h']
  simp only [hl, Bool.not_true, raiseIf_false, ok_bind, ne_eq, not_true_eq_false, decide_false,
    length_linspace, Nat.add_sub_cancel, Bool.false_eq_true]
  refine congrArg Except.ok (List.map_congr_left fun k hk => List.map_congr_left fun l hl => ?_)
  rw [List.mem_range] at hk hl
  simp only [inBin_linspace hk, inBin_linspace hl, Bool.and_eq_true, decide_eq_true_eq]

/-- The coordinate `i` of a sample lies in cell `k` of dimension `i`. -/
def Spec.InBin (dom : List (K × K)) (nb : List Nat) (i k : Nat) (v : List K) : Prop :=
  InCell (dom.getD i (0, 0)).1 (dom.getD i (0, 0)).2 (nb.getD i 0) k (v.getD i 0)

instance (dom : List (K × K)) (nb : List Nat) (i k : Nat) : DecidablePred (Spec.InBin dom nb i k) :=
  fun v => by unfold Spec.InBin; infer_instance

theorem dom_lt {dom : List (K × K)} (h : ∀ r ∈ dom, r.1 < r.2) {i : Nat} (hi : i < dom.length) :
    (dom.getD i (0, 0)).1 < (dom.getD i (0, 0)).2 := by
  rw [List.getD_eq_getElem?_getD, List.getElem?_eq_getElem hi]
  exact h _ (List.getElem_mem hi)

theorem marginal_ok {t : SampleSet K} {V : Chunks (List K)} {P : Chunks K}
    (hv : t.loc.values = some V) (hp : t.loc.probabilities = some P) (hVP : SameShape V P)
    (hr : ∀ r ∈ V.flatten, r.length = t.dim) {dom : List (K × K)} {nb : List Nat}
    (hd : dom.length = t.dim) (hlt : ∀ r ∈ dom, r.1 < r.2) {i : Nat} (hi : i < t.dim) :
    t.marginal ((List.range t.dim).map (edgesAt dom nb)) i =
      .ok ((List.range (nb.getD i 0)).map fun k =>
        massOf (InBin dom nb i k) V.flatten P.flatten) := by
  have hl := dom_lt hlt (hd.symm ▸ hi)
  have hch := mapM_ok (ε := Err) (fun (c : List (List K) × List K) => do
      let col ← c.1.mapM fun row => getIdx row i
      histogram (edgesAt dom nb i) col c.2)
    (fun c => (List.range (nb.getD i 0)).map fun k =>
      (List.zipWith (fun (v : List K) p => if InBin dom nb i k v then p else 0) c.1 c.2).sum)
    (V.zip P) (by
      intro c hc
      obtain ⟨h1, h2⟩ := List.of_mem_zip (a := c.1) (b := c.2) hc
      have hcr : ∀ r ∈ c.1, r.length = t.dim := fun r hrc =>
        hr r (List.mem_flatten.mpr ⟨_, h1, hrc⟩)
      have hlen : c.1.length = c.2.length := (List.forall₂_zip hVP) hc
      rw [col_ok hcr hi]
      simp only [ok_bind, edgesAt]
      rw [histogram_ok hl (by simpa using hlen)]
      simp only [List.zipWith_map_left]
      rfl)
  unfold SampleSet.marginal
  have e : ((List.range t.dim).map (edgesAt dom nb))[i]? = some (edgesAt dom nb i) := by
    simp [hi]
  simp only [hv, hp, orErr_some, ok_bind, getIdx, e] at hch ⊢
  rw [hch]
  simp only [ok_bind, edgesAt, length_linspace, Nat.add_sub_cancel]
  refine congrArg Except.ok ?_
  rw [allreduceVec_map]
  refine List.map_congr_left fun k _ => ?_
  exact sum_chunks hVP _

theorem marginal2_ok {t : SampleSet K} {V : Chunks (List K)} {P : Chunks K}
    (hv : t.loc.values = some V) (hp : t.loc.probabilities = some P) (hVP : SameShape V P)
    (hr : ∀ r ∈ V.flatten, r.length = t.dim) {dom : List (K × K)} {nb : List Nat}
    (hd : dom.length = t.dim) (hlt : ∀ r ∈ dom, r.1 < r.2) {i j : Nat} (hi : i < t.dim)
    (hj : j < t.dim) :
    t.marginal2 ((List.range t.dim).map (edgesAt dom nb)) i j =
      .ok ((List.range (nb.getD i 0)).map fun k => (List.range (nb.getD j 0)).map fun l =>
        massOf (fun v => InBin dom nb i k v ∧ InBin dom nb j l v) V.flatten P.flatten) := by
  have hli := dom_lt hlt (hd.symm ▸ hi)
  have hlj := dom_lt hlt (hd.symm ▸ hj)
  have hch := mapM_ok (ε := Err) (fun (c : List (List K) × List K) => do
      let x ← c.1.mapM fun row => getIdx row i
      let y ← c.1.mapM fun row => getIdx row j
      histogram2 (edgesAt dom nb i) (edgesAt dom nb j) (x.zip y) c.2)
    (fun c => (List.range (nb.getD i 0)).map fun k => (List.range (nb.getD j 0)).map fun l =>
      (List.zipWith (fun (v : List K) p =>
        if InBin dom nb i k v ∧ InBin dom nb j l v then p else 0) c.1 c.2).sum)
    (V.zip P) (by
      intro c hc
      obtain ⟨h1, h2⟩ := List.of_mem_zip (a := c.1) (b := c.2) hc
      have hcr : ∀ r ∈ c.1, r.length = t.dim := fun r hrc =>
        hr r (List.mem_flatten.mpr ⟨_, h1, hrc⟩)
      have hlen : c.1.length = c.2.length := (List.forall₂_zip hVP) hc
      rw [col_ok hcr hi, col_ok hcr hj]
      simp only [ok_bind, edgesAt]
      have hz : (c.1.map fun r => r.getD i 0).zip (c.1.map fun r => r.getD j 0) =
          c.1.map fun r => (r.getD i 0, r.getD j 0) := by
        rw [List.zip_map', ]
      rw [hz, histogram2_ok hli hlj (by simpa using hlen)]
      simp only [List.zipWith_map_left]
      rfl)
  unfold SampleSet.marginal2
  have e : ∀ q, q < t.dim → ((List.range t.dim).map (edgesAt dom nb))[q]? =
      some (edgesAt dom nb q) := by
    intro q hq
    simp [hq]
  simp only [hv, hp, orErr_some, ok_bind, getIdx, e i hi, e j hj] at hch ⊢
  rw [hch]
  simp only [ok_bind, edgesAt, length_linspace, Nat.add_sub_cancel]
  refine congrArg Except.ok ?_
  rw [allreduceMat_map]
  refine List.map_congr_left fun k _ => List.map_congr_left fun l _ => ?_
  exact sum_chunks hVP _

/-- The edges the functions return. -/
def Spec.Edges (dom : List (K × K)) (nb : List Nat) (bins : List (List K)) : Prop :=
  bins.length = dom.length ∧ ∀ (i : Nat) (a b : K), dom[i]? = some (a, b) → ∃ (e : List K) (n : Nat), bins[i]? = some e ∧
    nb[i]? = some n ∧ e.length = n + 1 ∧
    ∀ k : Nat, k ≤ n → e[k]? = some (a + (k : K) * ((b - a) / (n : K)))

theorem edges_ok {dom : List (K × K)} {nb : List Nat} {m : Nat} (h1 : dom.length = m)
    (h2 : nb.length = m) : Edges dom nb ((List.range m).map (edgesAt dom nb)) := by
  refine ⟨by simp [h1], fun i a b hab => ?_⟩
  obtain ⟨hi, hi'⟩ := List.getElem?_eq_some_iff.mp hab
  refine ⟨edgesAt dom nb i, nb[i]'(by omega), by simp [← h1, hi], by
    rw [List.getElem?_eq_getElem], ?_, ?_⟩
  · simp [edgesAt, length_linspace, List.getD_eq_getElem?_getD, (by omega : i < nb.length)]
  · intro k hk
    simp only [edgesAt, List.getD_eq_getElem?_getD, hab, List.getElem?_eq_getElem (by omega : i < nb.length), Option.getD_some]
    rw [getElem?_linspace _ _ (by omega)]
    simp

/-- C61: `calculate_1D_marginal_probs` returns equispaced edges over the domain and, in entry `k` of
marginal `i`, the probability of the samples whose `i`-th coordinate lies in cell `k`.  Nothing on the
right hand side depends on the number of processes, and the global arrays stay as they are. -/
theorem C61_marginal {o : PostObj K} {s : SampleSet K} {vals : List (List K)} {probs : List K}
    {dom : List (K × K)} {nb : List Nat} {nbins : NBins} (h : Histo o s vals probs dom nb nbins)
    {size : Nat} (hs : 0 < size) :
    ∃ r, calculate1D size nbins o = .ok r ∧ r.set.glob = s.glob ∧ r.set.domain = s.domain ∧
      Edges dom nb r.bins ∧ r.margs.length = s.dim ∧
      ∀ i n, i < s.dim → nb[i]? = some n → ∃ m, r.margs[i]? = some m ∧ m.length = n ∧
        ∀ k, k < n → m[k]? = some (massOf (InBin dom nb i k) vals probs) := by
  obtain ⟨t, V, P, h1, h2, h3, h4, h5, h6, h7, h8, h9⟩ := localProbs_ok h.samples hs
  have hb : t.marginalBins nb = .ok ((List.range t.dim).map (edgesAt dom nb)) :=
    marginalBins_ok (h3.trans h.domain) (h.dims.trans h2.symm) (h.numBins.trans h2.symm)
  have hm := mapM_ok (ε := Err) (t.marginal ((List.range t.dim).map (edgesAt dom nb)))
    (fun i => (List.range (nb.getD i 0)).map fun k =>
        massOf (InBin dom nb i k) V.flatten P.flatten) (List.range t.dim) (fun i hi =>
      marginal_ok h5 h6 h7 (by rw [h8, h2]; exact h.rows) (h.dims.trans h2.symm) h.lo_lt_hi
        (List.mem_range.mp hi))
  refine ⟨⟨t, (List.range t.dim).map (edgesAt dom nb), (List.range t.dim).map fun i =>
    (List.range (nb.getD i 0)).map fun k => massOf (InBin dom nb i k) V.flatten P.flatten⟩, ?_, h4, h3,
    edges_ok (h.dims.trans h2.symm) (h.numBins.trans h2.symm), by simp [h2], ?_⟩
  · have hn : nbins.toArr t.dim = nb := by rw [h2]; exact toArr_ok h
    simp only [calculate1D, marginalSet_ok h.obj, ok_bind, h1, hn, hb, hm]
    rfl
  · intro i n hi hn
    rw [h8, h9]
    refine ⟨(List.range n).map fun k => massOf (InBin dom nb i k) vals probs, ?_, by simp, ?_⟩
    · simp [h2, hi, List.getD_eq_getElem?_getD, hn]
    · intro k hk
      simp [hk]

/-- C61: `calculate_2D_marginal_probs` returns, for each pair of dimensions, the probability of the
samples in each cell of the product grid. -/
theorem C61_joint {o : PostObj K} {s : SampleSet K} {vals : List (List K)} {probs : List K}
    {dom : List (K × K)} {nb : List Nat} {nbins : NBins} (h : Histo o s vals probs dom nb nbins)
    (hdim : 2 ≤ s.dim) {size : Nat} (hs : 0 < size) :
    ∃ r, calculate2D size nbins o = .ok r ∧ r.set.glob = s.glob ∧ r.set.domain = s.domain ∧
      Edges dom nb r.bins ∧ (r.margs.map Prod.fst).Nodup ∧
      (∀ i j, (i, j) ∈ r.margs.map Prod.fst ↔ i < j ∧ j < s.dim) ∧
      ∀ i j t, ((i, j), t) ∈ r.margs → ∀ m n, nb[i]? = some m → nb[j]? = some n →
        t.length = m ∧ ∀ k, k < m → ∃ row, t[k]? = some row ∧ row.length = n ∧ ∀ l, l < n →
          row[l]? = some (massOf (fun v => InBin dom nb i k v ∧ InBin dom nb j l v) vals probs) := by
  obtain ⟨t, V, P, h1, h2, h3, h4, h5, h6, h7, h8, h9⟩ := localProbs_ok h.samples hs
  have hb : t.marginalBins nb = .ok ((List.range t.dim).map (edgesAt dom nb)) :=
    marginalBins_ok (h3.trans h.domain) (h.dims.trans h2.symm) (h.numBins.trans h2.symm)
  have hpair : ∀ i j, (i, j) ∈ dimPairs t.dim ↔ i < j ∧ j < s.dim := by
    intro i j
    rw [← h2]
    unfold dimPairs
    simp only [List.mem_flatMap, List.mem_map, List.mem_range, Prod.mk.injEq]
    constructor
    · rintro ⟨i', hi', j', hj', rfl, rfl⟩
      rw [List.mem_iff_getElem?] at hj'
      obtain ⟨q, hq⟩ := hj'
      rw [List.getElem?_drop, List.getElem?_eq_some_iff] at hq
      obtain ⟨hq1, hq2⟩ := hq
      simp only [List.length_range, List.getElem_range] at hq1 hq2
      omega
    · rintro ⟨hij, hj⟩
      refine ⟨i, by omega, j, ?_, rfl, rfl⟩
      rw [List.mem_iff_getElem?]
      refine ⟨j - (i + 1), ?_⟩
      rw [List.getElem?_drop, List.getElem?_eq_some_iff]
      exact ⟨by simp; omega, by simp; omega⟩
  have hnd : (dimPairs t.dim).Nodup := by
    unfold dimPairs
    rw [List.nodup_flatMap]
    refine ⟨fun i _ => ?_, ?_⟩
    · refine List.Nodup.map (fun a b hab => (Prod.mk.inj hab).2) ?_
      exact List.nodup_range.sublist (List.drop_sublist _ _)
    · refine List.nodup_range.imp fun {a b} hab => ?_
      rw [Function.onFun, List.disjoint_left]
      intro q hq hq'
      obtain ⟨x, -, rfl⟩ := List.mem_map.mp hq
      obtain ⟨y, -, hy⟩ := List.mem_map.mp hq'
      exact hab (Prod.mk.inj hy).1.symm
  have hm := mapM_ok (ε := Err) (fun (q : Nat × Nat) => do
      let w ← t.marginal2 ((List.range t.dim).map (edgesAt dom nb)) q.1 q.2
      pure (q, w))
    (fun q => (q, (List.range (nb.getD q.1 0)).map fun k => (List.range (nb.getD q.2 0)).map fun l =>
        massOf (fun v => InBin dom nb q.1 k v ∧ InBin dom nb q.2 l v) V.flatten P.flatten))
    (dimPairs t.dim) (fun q hq => by
      obtain ⟨i, j⟩ := q
      obtain ⟨hq1, hq2⟩ := (hpair i j).mp hq
      rw [marginal2_ok h5 h6 h7 (by rw [h8, h2]; exact h.rows) (h.dims.trans h2.symm) h.lo_lt_hi
        (by simp only; omega) (by simp only; omega)]
      rfl)
  refine ⟨⟨t, (List.range t.dim).map (edgesAt dom nb), (dimPairs t.dim).map fun q =>
    (q, (List.range (nb.getD q.1 0)).map fun k => (List.range (nb.getD q.2 0)).map fun l =>
        massOf (fun v => InBin dom nb q.1 k v ∧ InBin dom nb q.2 l v) V.flatten P.flatten)⟩, ?_, h4, h3,
    edges_ok (h.dims.trans h2.symm) (h.numBins.trans h2.symm), ?_, ?_, ?_⟩
  · have hn : nbins.toArr t.dim = nb := by rw [h2]; exact toArr_ok h
    have hge : ¬ t.dim < 2 := by omega
    simp only [calculate2D, marginalSet_ok h.obj, ok_bind, h1, hn, hb, hm, hge, decide_false,
      raiseIf_false]
    rfl
  · simpa [List.map_map, Function.comp_def] using hnd
  · intro i j
    rw [← hpair i j]
    simp [List.map_map, Function.comp_def]
  · intro i j w hw m n hmi hnj
    rw [List.mem_map] at hw
    obtain ⟨q, hq, hqe⟩ := hw
    obtain ⟨rfl, rfl⟩ := Prod.mk.inj hqe
    rw [h8, h9]
    refine ⟨by simp [List.getD_eq_getElem?_getD, hmi], fun k hk =>
      ⟨(List.range n).map fun l => massOf (fun v => InBin dom nb i k v ∧ InBin dom nb j l v) vals probs,
      ?_, by simp, fun l hl => by simp [hl]⟩⟩
    simp [List.getD_eq_getElem?_getD, hmi, hnj, hk]

/-! ### Conservation of mass -/

theorem sum_ite_unique {n : Nat} {A : Nat → Prop} [DecidablePred A] (h : ∃! k : Nat, k < n ∧ A k)
    (p : K) : ((List.range n).map fun k => if A k then p else 0).sum = p := by
  obtain ⟨k, ⟨hk, hA⟩, hu⟩ := h
  have : ∀ (m : Nat), ((List.range m).map fun k => if A k then p else 0).sum =
      ∑ k ∈ Finset.range m, if A k then p else 0 := by
    intro m
    induction m with
    | zero => simp
    | succ m ih => rw [List.range_succ, List.map_append, List.sum_append, ih, Finset.sum_range_succ]; simp
  rw [this, Finset.sum_eq_single k]
  · simp [hA]
  · intro j hj hjk
    rw [if_neg]
    exact fun hAj => hjk (hu j ⟨Finset.mem_range.mp hj, hAj⟩)
  · intro hk'
    exact (hk' (Finset.mem_range.mpr hk)).elim

theorem massOf_partition {n : Nat} {A : Nat → List K → Prop} [∀ k, DecidablePred (A k)]
    {B : List K → Prop} [DecidablePred B] {vals : List (List K)} (probs : List K)
    (h : ∀ v ∈ vals, ∃! k : Nat, k < n ∧ A k v) :
    ((List.range n).map fun k => massOf (fun v => B v ∧ A k v) vals probs).sum =
      massOf B vals probs := by
  induction vals generalizing probs with
  | nil => simp [massOf]
  | cons v vals ih =>
    cases probs with
    | nil => simp [massOf]
    | cons p probs =>
      have e : ∀ (C : List K → Prop) [DecidablePred C], massOf C (v :: vals) (p :: probs) =
          (if C v then p else 0) + massOf C vals probs := by
        intro C _; simp [massOf]
      simp only [e]
      rw [List.sum_map_add, ih probs fun w hw => h w (List.mem_cons_of_mem _ hw)]
      congr 1
      by_cases hB : B v
      · simp only [hB, true_and, if_true]
        exact sum_ite_unique (h v List.mem_cons_self) p
      · simp [hB]

theorem massOf_true {vals : List (List K)} {probs : List K} (h : vals.length = probs.length) :
    massOf (fun _ => True) vals probs = probs.sum := by
  simp only [massOf, if_true]
  congr 1
  apply List.ext_getElem
  · simp [h]
  · intro i h1 h2
    simp

theorem samples_length {s : SampleSet K} {vals : List (List K)} {probs : List K}
    (h : Samples s vals probs) : vals.length = probs.length := by
  rcases h with ⟨V, P, -, -, h3, rfl, rfl⟩ | ⟨-, h2, h3, n, hc⟩
  · rw [List.length_flatten, List.length_flatten, (sameShape_iff V P).mp h3]
  · rw [hc.1.values _ h2, hc.1.probabilities _ h3]

/-- The `i`-th coordinate of every sample lies in the domain. -/
def Spec.InDomain (dom : List (K × K)) (vals : List (List K)) (i : Nat) : Prop :=
  ∀ v ∈ vals, (dom.getD i (0, 0)).1 ≤ v.getD i 0 ∧ v.getD i 0 ≤ (dom.getD i (0, 0)).2

theorem inBin_unique {o : PostObj K} {s : SampleSet K} {vals : List (List K)} {probs : List K}
    {dom : List (K × K)} {nb : List Nat} {nbins : NBins} (h : Histo o s vals probs dom nb nbins)
    {i n : Nat} (hn : nb[i]? = some n) (hd : InDomain dom vals i) :
    ∀ v ∈ vals, ∃! k : Nat, k < n ∧ InBin dom nb i k v := by
  intro v hv
  have hi : i < dom.length := by
    have := (List.getElem?_eq_some_iff.mp hn).1
    rw [h.dims, ← h.numBins]; exact this
  have e : nb.getD i 0 = n := by rw [List.getD_eq_getElem?_getD, hn]; rfl
  unfold InBin
  rw [e]
  exact C61_one_bin (dom_lt h.lo_lt_hi hi) (h.pos n (List.mem_of_getElem? hn)) (hd v hv)

/-- C61: a one-dimensional marginal sums to the total probability if the samples lie in the domain. -/
theorem C61_total {o : PostObj K} {s : SampleSet K} {vals : List (List K)} {probs : List K}
    {dom : List (K × K)} {nb : List Nat} {nbins : NBins} (h : Histo o s vals probs dom nb nbins)
    {size : Nat} (hs : 0 < size) {r : Marginals K (List K)} (hr : calculate1D size nbins o = .ok r)
    {i : Nat} {m : List K} (hm : r.margs[i]? = some m) (hd : InDomain dom vals i) :
    m.sum = probs.sum := by
  obtain ⟨r', hr', -, -, -, hlen, hall⟩ := C61_marginal h hs
  rw [hr] at hr'
  cases hr'
  have hi : i < s.dim := by
    rw [← hlen]; exact (List.getElem?_eq_some_iff.mp hm).1
  have hn : nb[i]? = some (nb[i]'(by rw [h.numBins]; exact hi)) := by rw [List.getElem?_eq_getElem]
  generalize nb[i]'(by rw [h.numBins]; exact hi) = n at hn
  obtain ⟨m', hm', hl, hk⟩ := hall i n hi hn
  rw [hm] at hm'
  cases hm'
  have hmeq : m = (List.range n).map fun k => massOf (InBin dom nb i k) vals probs := by
    refine List.ext_getElem? fun k => ?_
    by_cases hkn : k < n
    · rw [hk k hkn]; simp [hkn]
    · rw [List.getElem?_eq_none (by omega), List.getElem?_eq_none (by simp; omega)]
  rw [hmeq, ← massOf_true (samples_length h.samples),
    ← massOf_partition (B := fun _ => True) probs (inBin_unique h hn hd)]
  simp only [true_and]

/-- C61: summing a two-dimensional marginal over one axis gives the one-dimensional marginal of the
other axis, if the samples lie in the domain along the axis summed over; the two calls may run on
different numbers of processes. -/
theorem C61_consistent {o : PostObj K} {s : SampleSet K} {vals : List (List K)} {probs : List K}
    {dom : List (K × K)} {nb : List Nat} {nbins : NBins} (h : Histo o s vals probs dom nb nbins)
    {size size' : Nat} (hs : 0 < size) (hs' : 0 < size') {r : Marginals K (List K)}
    {r' : Marginals K ((Nat × Nat) × List (List K))}
    (hr : calculate1D size nbins o = .ok r) (hr' : calculate2D size' nbins o = .ok r')
    {i j : Nat} {t : List (List K)} (ht : ((i, j), t) ∈ r'.margs) {mi mj : List K}
    (hmi : r.margs[i]? = some mi) (hmj : r.margs[j]? = some mj) :
    (InDomain dom vals j → t.map List.sum = mi) ∧
    (InDomain dom vals i → ((List.range mj.length).map fun l => (t.map fun row => row.getD l 0).sum) = mj) := by
  have hdim : 2 ≤ s.dim := by
    obtain ⟨w, V, P, h1, h2, -⟩ := localProbs_ok h.samples hs'
    by_contra hc
    have hc' : w.dim < 2 := by omega
    simp only [calculate2D, marginalSet_ok h.obj, ok_bind, h1, hc', decide_true] at hr'
    cases hr'
  obtain ⟨q, hq, -, -, -, hlen, hall⟩ := C61_marginal h hs
  rw [hr] at hq
  cases hq
  obtain ⟨q, hq, -, -, -, -, hmem, htab⟩ := C61_joint h hdim hs'
  rw [hr'] at hq
  cases hq
  have hi : i < s.dim := by
    rw [← hlen]; exact (List.getElem?_eq_some_iff.mp hmi).1
  have hj : j < s.dim := by
    rw [← hlen]; exact (List.getElem?_eq_some_iff.mp hmj).1
  have hm : nb[i]? = some (nb[i]'(by rw [h.numBins]; exact hi)) := by rw [List.getElem?_eq_getElem]
  have hn : nb[j]? = some (nb[j]'(by rw [h.numBins]; exact hj)) := by rw [List.getElem?_eq_getElem]
  generalize nb[i]'(by rw [h.numBins]; exact hi) = m at hm
  generalize nb[j]'(by rw [h.numBins]; exact hj) = n at hn
  have eqOf : ∀ {α : Type} (x : List α) (N : Nat) (f : Nat → α), x.length = N →
      (∀ k, k < N → x[k]? = some (f k)) → x = (List.range N).map f := by
    intro α x N f hx hf
    refine List.ext_getElem? fun k => ?_
    by_cases hk : k < N
    · rw [hf k hk]; simp [hk]
    · rw [List.getElem?_eq_none (by omega), List.getElem?_eq_none (by simp; omega)]
  obtain ⟨x, hx, hl, hk⟩ := hall i m hi hm
  rw [hmi] at hx
  cases hx
  have e1 := eqOf mi m _ hl hk
  obtain ⟨x, hx, hl', hk'⟩ := hall j n hj hn
  rw [hmj] at hx
  cases hx
  have e2 := eqOf mj n _ hl' hk'
  obtain ⟨ht1, ht2⟩ := htab i j t ht m n hm hn
  have e3 : t = (List.range m).map fun k => (List.range n).map fun l =>
      massOf (fun v => InBin dom nb i k v ∧ InBin dom nb j l v) vals probs := by
    refine eqOf t m _ ht1 fun k hk => ?_
    obtain ⟨row, h1, h2, h3⟩ := ht2 k hk
    rw [h1, eqOf row n _ h2 h3]
  constructor
  · intro hd
    rw [e3, e1, List.map_map]
    refine List.map_congr_left fun k _ => ?_
    exact massOf_partition probs (inBin_unique h hn hd)
  · intro hd
    rw [hl', e3]
    conv_rhs => rw [e2]
    refine List.map_congr_left fun l hl => ?_
    rw [List.mem_range] at hl
    rw [List.map_map, ← massOf_partition (B := InBin dom nb j l) probs (inBin_unique h hm hd)]
    congr 1
    refine List.map_congr_left fun k _ => ?_
    simp only [Function.comp_apply, List.getD_eq_getElem?_getD, List.getElem?_map,
      List.getElem?_range hl, Option.map_some, Option.getD_some, and_comm]

/-- C61: without probabilities, for a wrong object and for a one-dimensional set the functions raise. -/
theorem C61_errors (size : Nat) (nbins : NBins) :
    calculate1D size nbins (.other : PostObj K) = .error .badObject ∧
    calculate2D size nbins (.other : PostObj K) = .error .badObject ∧
    (∀ o s, MargOf (K := K) o s → s.loc.probabilities = none → s.glob.probabilities = none →
      calculate1D size nbins o = .error .missingAttribute ∧
      calculate2D size nbins o = .error .missingAttribute) := by
  refine ⟨rfl, rfl, fun o s hm h1 h2 => ?_⟩
  simp [calculate1D, calculate2D, marginalSet_ok hm, ok_bind, SampleSet.localProbs, h1, h2, raiseIf,
    error_bind]

end main

/-! ### Examples -/

namespace Ex

/-- Three samples in the unit square, one on the upper edge of the domain. -/
def margSet : SampleSet ℚ :=
  { dim := 2, domain := some [(0, 1), (0, 2)],
    glob := { values := some [[1/4, 1], [1/2, 2], [1, 1/2]], probabilities := some [1/2, 1/4, 1/4] } }

theorem margSet_ok : Histo (.set margSet) margSet [[1/4, 1], [1/2, 2], [1, 1/2]] [1/2, 1/4, 1/4]
    [(0, 1), (0, 2)] [2, 2] (.int 2) where
  obj := rfl
  samples := Or.inr ⟨rfl, rfl, rfl, 3, consistent_of _ _ rfl rfl⟩
  rows := by decide
  domain := rfl
  dims := rfl
  lo_lt_hi := by decide +kernel
  bins := Or.inl ⟨rfl, rfl⟩
  numBins := rfl
  pos := by decide

example : ((calculate1D 2 (.int 2) (.set margSet)).toOption.map fun r => r.margs) =
    some [[1/2, 1/2], [1/4, 3/4]] := by decide +kernel

example : ((calculate2D 3 (.int 2) (.set margSet)).toOption.map fun r => r.margs.map Prod.snd) =
    some [[[0, 1/2], [1/4, 1/4]]] := by decide +kernel

example : InDomain [((0 : ℚ), 1), (0, 2)] [[1/4, 1], [1/2, 2], [1, 1/2]] 0 := by
  unfold InDomain; decide +kernel

/-- Values outside the domain are dropped, so the hypothesis of `C61_total` is needed. -/
example : ((calculate1D 1 (.int 2) (.set { margSet with domain := some [(0, 1/2), (0, 2)] })).toOption.map
    fun r => r.margs) = some [[0, 3/4], [1/4, 3/4]] := by decide +kernel

end Ex

end BET
