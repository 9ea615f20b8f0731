import Verif.Props.Discretization
import Verif.Lemmas.Grid
import Mathlib.MeasureTheory.Measure.Lebesgue.Basic

/-!
# C23, C24: rectangle and Cartesian sample sets
-/

set_option linter.unusedSectionVars false
set_option linter.unusedSimpArgs false
set_option autoImplicit false

namespace BET

open Spec

/-! ### The vocabulary -/

section spec
variable {K : Type}

/-- The volume of the box with corners `l` and `r`: the product of its side lengths. -/
def Spec.boxVolume [Field K] (l r : List K) : K :=
  (List.zipWith (fun a b => b - a) l r).prod

/-- The volume of a domain given by its intervals. -/
def Spec.domainVolume [Field K] (dom : List (K × K)) : K := (dom.map fun d => d.2 - d.1).prod

/-- `x` lies strictly above the first and not above the last entry of the grid vector,
in every coordinate. -/
def Spec.InGridBox [LinearOrder K] (xi : List (List K)) (x : List K) : Prop :=
  List.Forall₂ (fun l c => ∃ a b, l.head? = some a ∧ l.getLast? = some b ∧ a < c ∧ c ≤ b) xi x

/-- `a` and `b` are consecutive entries of the grid vector `l`. -/
def Spec.Consecutive (l : List K) (a b : K) : Prop :=
  ∃ k, l[k]? = some a ∧ l[k + 1]? = some b

/-- A grid vector: strictly increasing with at least two entries. -/
def Spec.IsGrid [LinearOrder K] (l : List K) : Prop := 2 ≤ l.length ∧ l.Pairwise (· < ·)

end spec

/-! ### Setup -/

section setup
variable {K : Type} [Field K] [LinearOrder K]

/-- The set that `setup` builds. -/
def SampleSet.rectSet (s : SampleSet K) (maxes mins : List (List K)) : SampleSet K :=
  { s with
    kind := .rectangle
    glob := { s.glob with
      values := some (List.zipWith (List.zipWith fun a b => 1 / 2 * (a + b)) maxes mins ++
        [List.replicate s.dim (0 : K)])
      right := some (maxes ++ [List.replicate s.dim (0 : K)])
      left := some (mins ++ [List.replicate s.dim (0 : K)])
      width := some (List.zipWith (List.zipWith fun a b => a - b) maxes mins ++
        [List.replicate s.dim (0 : K)])
      region := some ((List.range (maxes.length + 1)).map Int.ofNat) } }

theorem setupRect_iff {s t : SampleSet K} {maxes mins : List (List K)} :
    s.setupRect maxes mins = .ok t ↔
      maxes.length = mins.length ∧ (∀ r ∈ maxes, r.length = s.dim) ∧
        (∀ r ∈ mins, r.length = s.dim) ∧ t = s.rectSet maxes mins := by
  unfold SampleSet.setupRect
  simp only [bind_eq_ok, raiseIf_eq_ok, pure_eq_ok]
  constructor
  · rintro ⟨_, h1, _, h2, rfl⟩
    simp only [ne_eq, not_not, List.all_eq_true, beq_iff_eq] at h1 h2
    exact ⟨h1, h2.1, h2.2, rfl⟩
  · rintro ⟨h1, h2, h3, rfl⟩
    exact ⟨(), by simpa using h1, (), by simpa using ⟨h2, h3⟩, rfl⟩

theorem ready_rectSet {s : SampleSet K} {maxes mins : List (List K)} (hs : s.glob = {})
    (ht : s.kdtree = none) (h1 : maxes.length = mins.length)
    (h2 : ∀ r ∈ maxes, r.length = s.dim) (h3 : ∀ r ∈ mins, r.length = s.dim) :
    Ready (s.rectSet maxes mins) (maxes.length + 1) where
  consistent := by
    refine ⟨?_, fun h => (by have := h.values; cases this), ?_⟩
    · constructor <;> simp [SampleSet.rectSet, hs, h1]
    · intro v hv row hrow
      simp only [SampleSet.rectSet, Option.some.injEq] at hv
      subst hv
      rcases List.mem_append.mp hrow with hr | hr
      · rw [List.mem_iff_getElem] at hr
        obtain ⟨i, hi, rfl⟩ := hr
        simp only [List.getElem_zipWith, List.length_zipWith]
        simp only [List.length_zipWith] at hi
        rw [h2 _ (List.getElem_mem _), h3 _ (List.getElem_mem _)]
        simp [SampleSet.rectSet]
      · simp only [List.mem_singleton] at hr
        subst hr
        simp [SampleSet.rectSet]
  pos := by omega
  values := rfl
  tree := Or.inl ht
  rect := fun _ => ⟨rfl, rfl⟩
  ball := fun h => by cases h

end setup

/-! ### C23 -/

section c23
variable {K : Type} [Field K] [LinearOrder K] [IsStrictOrderedRing K]

theorem relVolume_eq (dom : List (K × K)) (m M : List K) (hm : m.length = dom.length)
    (hM : M.length = dom.length) :
    SampleSet.relVolume dom (List.zipWith (fun a b => a - b) M m) =
      boxVolume m M / domainVolume dom := by
  unfold SampleSet.relVolume boxVolume domainVolume
  induction dom generalizing m M with
  | nil => simp at hm hM; subst hm; subst hM; simp
  | cons d dom ih =>
    match m, M, hm, hM with
    | a :: m, b :: M, hm, hM =>
      simp only [List.zipWith_cons_cons, List.prod_cons, List.map_cons]
      rw [ih m M (by simpa using hm) (by simpa using hM)]
      rw [div_mul_div_comm]

/-- **C23.** After `setup`, `exact_volume_lebesgue` gives every rectangle its volume
divided by the volume of the domain and the last entry what is left, so the volumes sum
to 1; nothing else changes. -/
theorem C23_relative_volumes {s t : SampleSet K} {maxes mins : List (List K)} (hs : s.glob = {})
    (hset : s.setupRect maxes mins = .ok t) {dom : List (K × K)} (hdom : s.domain = some dom)
    (hd : dom.length = s.dim) (_hpos : ∀ d ∈ dom, d.1 < d.2) (size : Nat) :
    ∃ u vols, t.exactVolumeLebesgue size = .ok u ∧
      u = { t with glob := { t.glob with volumes := some vols } } ∧
      vols.length = maxes.length + 1 ∧
      (∀ (i : Nat) M m, maxes[i]? = some M → mins[i]? = some m →
        vols[i]? = some (boxVolume m M / domainVolume dom)) ∧
      vols.sum = 1 := by
  obtain ⟨h1, h2, h3, rfl⟩ := setupRect_iff.mp hset
  have hc : Consistent (s.rectSet maxes mins) (maxes.length + 1) := by
    have := ready_rectSet (s := { s with kdtree := none }) (maxes := maxes) (mins := mins) hs rfl h1
      h2 h3
    exact this.consistent
  set w := List.zipWith (List.zipWith fun (a b : K) => a - b) maxes mins with hw
  set vols := w.map (SampleSet.relVolume dom) with hvols
  refine ⟨_, vols ++ [1 - vols.sum], ?_, rfl, ?_, ?_, ?_⟩
  · unfold SampleSet.exactVolumeLebesgue
    rw [SampleSet.checkNum_consistent hc]
    simp [SampleSet.rectSet, hdom, orErr, ← hw, ← hvols, Except.bind, bind, pure, Except.pure]
  · simp [hvols, hw, h1]
  · intro i M m hM hm
    have hi : i < maxes.length := by
      have := (List.getElem?_eq_some_iff.mp hM).1; exact this
    have hwi : w[i]? = some (List.zipWith (fun a b => a - b) M m) := by
      rw [hw, List.getElem?_zipWith, hM, hm]
    have hlen : i < vols.length := by simp [hvols, hw, h1]; omega
    rw [List.getElem?_append_left hlen, hvols, List.getElem?_map, hwi]
    simp only [Option.map_some]
    rw [relVolume_eq]
    · rw [hd]; exact h3 _ (List.mem_of_getElem? hm)
    · rw [hd]; exact h2 _ (List.mem_of_getElem? hM)
  · simp

end c23

/-! ### C23 in terms of Lebesgue measure -/

section measure

open MeasureTheory

/-- The points of the box `(l, r]` of dimension `d`. -/
def Spec.boxSet (d : Nat) (l r : List ℝ) : Set (Fin d → ℝ) := {x | InBox l r (List.ofFn x)}

/-- The points of the domain, up to its lower faces. -/
def Spec.domainSet (d : Nat) (dom : List (ℝ × ℝ)) : Set (Fin d → ℝ) :=
  boxSet d (dom.map Prod.fst) (dom.map Prod.snd)

theorem boxSet_eq_pi {d : Nat} {l r : List ℝ} (hl : l.length = d) (hr : r.length = d) :
    boxSet d l r =
      Set.pi Set.univ fun i : Fin d => Set.Ioc (l[(i : Nat)]'(hl ▸ i.2)) (r[(i : Nat)]'(hr ▸ i.2)) := by
  ext x
  simp only [boxSet, InBox, Set.mem_ofPred_eq, Set.mem_pi, Set.mem_univ, true_implies, Set.mem_Ioc]
  constructor
  · rintro ⟨h1, h2⟩ i
    refine ⟨h2 i (x i) _ ?_ (List.getElem?_eq_getElem _), h1 i (x i) _ ?_ (List.getElem?_eq_getElem _)⟩ <;>
      simp [List.getElem?_ofFn]
  · intro h
    constructor <;> intro i a b ha hb
    · rw [List.getElem?_ofFn] at ha
      split at ha
      · rename_i hi
        have := (h ⟨i, hi⟩).2
        cases ha
        rw [List.getElem?_eq_getElem (by omega)] at hb
        cases hb
        exact this
      · cases ha
    · rw [List.getElem?_ofFn] at ha
      split at ha
      · rename_i hi
        have := (h ⟨i, hi⟩).1
        cases ha
        rw [List.getElem?_eq_getElem (by omega)] at hb
        cases hb
        exact this
      · cases ha

theorem measurableSet_boxSet {d : Nat} {l r : List ℝ} (hl : l.length = d) (hr : r.length = d) :
    MeasurableSet (boxSet d l r) := by
  rw [boxSet_eq_pi hl hr]
  exact MeasurableSet.univ_pi fun i => measurableSet_Ioc

theorem volume_boxSet {d : Nat} {l r : List ℝ} (hl : l.length = d) (hr : r.length = d)
    (hle : List.Forall₂ (· ≤ ·) l r) :
    (volume (boxSet d l r)) = ENNReal.ofReal (boxVolume l r) := by
  rw [boxSet_eq_pi hl hr, Real.volume_pi_Ioc]
  have hle' : ∀ i : Fin d, l[(i : Nat)]'(hl ▸ i.2) ≤ r[(i : Nat)]'(hr ▸ i.2) := by
    intro i
    exact (List.forall₂_iff_get.mp hle).2 i (by omega) (by omega)
  rw [← ENNReal.ofReal_prod_of_nonneg fun i _ => sub_nonneg.mpr (hle' i)]
  congr 1
  unfold boxVolume
  have : List.zipWith (fun a b => b - a) l r =
      List.ofFn fun i : Fin d => r[(i : Nat)]'(hr ▸ i.2) - l[(i : Nat)]'(hl ▸ i.2) := by
    apply List.ext_getElem
    · simp [hl, hr]
    · intros; simp
  rw [this, List.prod_ofFn]

theorem boxVolume_domain (dom : List (ℝ × ℝ)) :
    boxVolume (dom.map Prod.fst) (dom.map Prod.snd) = domainVolume dom := by
  unfold boxVolume domainVolume
  rw [List.zipWith_map, List.zipWith_self]

theorem domainVolume_pos {dom : List (ℝ × ℝ)} (h : ∀ d ∈ dom, d.1 < d.2) :
    0 < domainVolume dom := by
  unfold domainVolume
  induction dom with
  | nil => simp
  | cons d dom ih =>
    simp only [List.map_cons, List.prod_cons]
    exact mul_pos (sub_pos.mpr (h d (by simp))) (ih fun e he => h e (by simp [he]))

theorem boxVolume_nonneg {l r : List ℝ} (hle : List.Forall₂ (· ≤ ·) l r) : 0 ≤ boxVolume l r := by
  unfold boxVolume
  induction hle with
  | nil => simp
  | cons h _ ih => simp only [List.zipWith_cons_cons, List.prod_cons]; exact mul_nonneg (by linarith) ih

theorem volume_domainSet {d : Nat} {dom : List (ℝ × ℝ)} (hd : dom.length = d)
    (h : ∀ e ∈ dom, e.1 < e.2) : volume (domainSet d dom) = ENNReal.ofReal (domainVolume dom) := by
  unfold domainSet
  rw [volume_boxSet (by simpa) (by simpa), boxVolume_domain]
  rw [List.forall₂_map_left_iff, List.forall₂_map_right_iff]
  exact List.forall₂_same.mpr fun e he => (h e he).le

/-- **C23.** The volume of a rectangle is the Lebesgue measure of its points divided by that
of the domain. -/
theorem C23_lebesgue {s t : SampleSet ℝ} {maxes mins : List (List ℝ)} (hs : s.glob = {})
    (hset : s.setupRect maxes mins = .ok t) {dom : List (ℝ × ℝ)} (hdom : s.domain = some dom)
    (hd : dom.length = s.dim) (hpos : ∀ d ∈ dom, d.1 < d.2)
    (hle : List.Forall₂ (List.Forall₂ (· ≤ ·)) mins maxes) (size : Nat) :
    ∃ u vols, t.exactVolumeLebesgue size = .ok u ∧ u.glob.volumes = some vols ∧
      ∀ (i : Nat) M m, maxes[i]? = some M → mins[i]? = some m →
        vols[i]? = some ((volume (boxSet s.dim m M)).toReal /
          (volume (domainSet s.dim dom)).toReal) := by
  obtain ⟨u, vols, h1, h2, h3, h4, h5⟩ := C23_relative_volumes hs hset hdom hd hpos size
  refine ⟨u, vols, h1, by rw [h2], fun i M m hM hm => ?_⟩
  obtain ⟨_, k2, k3, -⟩ := setupRect_iff.mp hset
  have hmM : List.Forall₂ (· ≤ ·) m M := by
    obtain ⟨a, rfl⟩ := List.getElem?_eq_some_iff.mp hM
    obtain ⟨b, rfl⟩ := List.getElem?_eq_some_iff.mp hm
    exact (List.forall₂_iff_get.mp hle).2 i b a
  rw [h4 i M m hM hm, volume_boxSet (k3 _ (List.mem_of_getElem? hm)) (k2 _ (List.mem_of_getElem? hM))
    hmM, volume_domainSet hd hpos, ENNReal.toReal_ofReal (boxVolume_nonneg hmM),
    ENNReal.toReal_ofReal (domainVolume_pos hpos).le]

/-- **C23.** If the rectangles are pairwise disjoint and inside the domain, every volume, that
of the remainder included, is non-negative. -/
theorem C23_nonneg {s t : SampleSet ℝ} {maxes mins : List (List ℝ)} (hs : s.glob = {})
    (hset : s.setupRect maxes mins = .ok t) {dom : List (ℝ × ℝ)} (hdom : s.domain = some dom)
    (hd : dom.length = s.dim) (hpos : ∀ d ∈ dom, d.1 < d.2)
    (hle : List.Forall₂ (List.Forall₂ (· ≤ ·)) mins maxes)
    (hdisj : ∀ i j : Nat, i ≠ j → ∀ m M m' M', mins[i]? = some m → maxes[i]? = some M →
      mins[j]? = some m' → maxes[j]? = some M' → Disjoint (boxSet s.dim m M) (boxSet s.dim m' M'))
    (hin : ∀ (i : Nat) m M, mins[i]? = some m → maxes[i]? = some M →
      boxSet s.dim m M ⊆ domainSet s.dim dom) (size : Nat) :
    ∃ u vols, t.exactVolumeLebesgue size = .ok u ∧ u.glob.volumes = some vols ∧
      ∀ v ∈ vols, 0 ≤ v := by
  obtain ⟨u, vols, h1, h2, h3, h4, h5⟩ := C23_relative_volumes hs hset hdom hd hpos size
  refine ⟨u, vols, h1, by rw [h2], ?_⟩
  obtain ⟨k1, k2, k3, -⟩ := setupRect_iff.mp hset
  have hD := domainVolume_pos hpos
  have hmM : ∀ (i : Nat) (hi : i < maxes.length),
      List.Forall₂ (· ≤ ·) (mins[i]'(k1 ▸ hi)) maxes[i] := fun i hi =>
    (List.forall₂_iff_get.mp hle).2 i (k1 ▸ hi) hi
  have hv : ∀ (i : Nat) (hi : i < maxes.length),
      vols[i]'(by omega) = boxVolume (mins[i]'(k1 ▸ hi)) maxes[i] / domainVolume dom := by
    intro i hi
    have := h4 i _ _ (List.getElem?_eq_getElem hi) (List.getElem?_eq_getElem (k1 ▸ hi))
    rw [List.getElem?_eq_getElem (by omega)] at this
    exact Option.some.inj this
  -- the total volume of the boxes is at most that of the domain
  have hsum : ∑ i : Fin maxes.length, boxVolume (mins[(i : Nat)]'(k1 ▸ i.2)) maxes[(i : Nat)] ≤
      domainVolume dom := by
    have hmeas := measure_iUnion (μ := (volume : Measure (Fin s.dim → ℝ)))
      (f := fun i : Fin maxes.length => boxSet s.dim (mins[(i : Nat)]'(k1 ▸ i.2)) maxes[(i : Nat)])
      (fun i j hij => hdisj i j (fun h => hij (Fin.ext h)) _ _ _ _ (List.getElem?_eq_getElem _)
        (List.getElem?_eq_getElem _) (List.getElem?_eq_getElem _) (List.getElem?_eq_getElem _))
      (fun i => measurableSet_boxSet (k3 _ (List.getElem_mem _)) (k2 _ (List.getElem_mem _)))
    have hsub : (⋃ i : Fin maxes.length, boxSet s.dim (mins[(i : Nat)]'(k1 ▸ i.2)) maxes[(i : Nat)]) ⊆
        domainSet s.dim dom := Set.iUnion_subset fun i =>
      hin i _ _ (List.getElem?_eq_getElem _) (List.getElem?_eq_getElem _)
    have hle2 := measure_mono (μ := (volume : Measure (Fin s.dim → ℝ))) hsub
    rw [hmeas, volume_domainSet hd hpos, tsum_fintype] at hle2
    have e : ∀ i : Fin maxes.length,
        volume (boxSet s.dim (mins[(i : Nat)]'(k1 ▸ i.2)) maxes[(i : Nat)]) =
          ENNReal.ofReal (boxVolume (mins[(i : Nat)]'(k1 ▸ i.2)) maxes[(i : Nat)]) := fun i =>
      volume_boxSet (k3 _ (List.getElem_mem _)) (k2 _ (List.getElem_mem _)) (hmM i i.2)
    simp only [e] at hle2
    rw [← ENNReal.ofReal_sum_of_nonneg fun (i : Fin maxes.length) _ => boxVolume_nonneg (hmM i i.2)] at hle2
    exact (ENNReal.ofReal_le_ofReal_iff hD.le).mp hle2
  have hlast : ∃ init r, vols = init ++ [r] ∧ init.length = maxes.length := by
    have hne : vols ≠ [] := by rintro rfl; simp at h3
    exact ⟨vols.dropLast, vols.getLast hne, (List.dropLast_append_getLast hne).symm, by simp [h3]⟩
  obtain ⟨init, r, hvols, hinit⟩ := hlast
  clear h4 h2
  subst hvols
  have hi : init = List.ofFn fun i : Fin maxes.length =>
      boxVolume (mins[(i : Nat)]'(k1 ▸ i.isLt)) maxes[(i : Nat)] / domainVolume dom := by
    apply List.ext_getElem
    · simp [hinit]
    · intro i hi1 hi2
      have := hv i (by omega)
      rw [List.getElem_append_left hi1] at this
      simpa using this
  intro v hvm
  rcases List.mem_append.mp hvm with hvm | hvm
  · rw [hi, List.mem_ofFn] at hvm
    obtain ⟨i, rfl⟩ := hvm
    exact div_nonneg (boxVolume_nonneg (hmM i i.2)) hD.le
  · simp only [List.mem_singleton] at hvm
    subst hvm
    rw [List.sum_append, List.sum_singleton, hi, List.sum_ofFn, ← Finset.sum_div] at h5
    have : (∑ i : Fin maxes.length, boxVolume (mins[(i : Nat)]'(k1 ▸ i.2)) maxes[(i : Nat)]) /
        domainVolume dom ≤ 1 := (div_le_one hD).mpr hsum
    linarith

end measure

/-! ### C24 -/

section c24
variable {K : Type}

/-- The intervals between consecutive entries. -/
def intervals (l : List K) : List (K × K) := List.zip l.dropLast l.tail

theorem intervals_cons (a b : K) (t : List K) :
    intervals (a :: b :: t) = (a, b) :: intervals (b :: t) := by
  simp [intervals]

theorem map_fst_intervals (l : List K) : (intervals l).map Prod.fst = l.dropLast := by
  unfold intervals
  rw [List.map_fst_zip]
  simp

theorem map_snd_intervals (l : List K) : (intervals l).map Prod.snd = l.tail := by
  unfold intervals
  rw [List.map_snd_zip]
  simp

theorem length_intervals (l : List K) : (intervals l).length = l.length - 1 := by
  simp [intervals]

theorem mem_intervals (l : List K) (a b : K) : (a, b) ∈ intervals l ↔ Consecutive l a b := by
  unfold Consecutive
  induction l with
  | nil => simp [intervals]
  | cons x t ih =>
    cases t with
    | nil => simp [intervals]
    | cons y t =>
      rw [intervals_cons, List.mem_cons, ih]
      constructor
      · rintro (h | ⟨k, h1, h2⟩)
        · cases h; exact ⟨0, rfl, rfl⟩
        · exact ⟨k + 1, h1, h2⟩
      · rintro ⟨k, h1, h2⟩
        cases k with
        | zero => simp at h1 h2; subst h1; subst h2; exact Or.inl rfl
        | succ k => exact Or.inr ⟨k, h1, h2⟩

variable [LinearOrder K]

theorem intervals_exists (l : List K) (a b c : K) (ha : l.head? = some a)
    (hb : l.getLast? = some b) (hac : a < c) (hcb : c ≤ b) :
    ∃ p ∈ intervals l, p.1 < c ∧ c ≤ p.2 := by
  induction l generalizing a with
  | nil => cases ha
  | cons x t ih =>
    cases t with
    | nil =>
      simp at ha hb
      subst ha; subst hb
      exact absurd (lt_of_lt_of_le hac hcb) (lt_irrefl _)
    | cons y t =>
      simp at ha
      subst ha
      rw [intervals_cons]
      rcases le_or_gt c y with h | h
      · exact ⟨(x, y), by simp, hac, h⟩
      · obtain ⟨p, hp, h2⟩ := ih y rfl (by simpa using hb) h
        exact ⟨p, by simp [hp], h2⟩

theorem intervals_range {l : List K} (h : l.Pairwise (· < ·)) {p : K × K} (hp : p ∈ intervals l) :
    ∃ a b, l.head? = some a ∧ l.getLast? = some b ∧ a ≤ p.1 ∧ p.1 < p.2 ∧ p.2 ≤ b := by
  induction l with
  | nil => simp [intervals] at hp
  | cons x t ih =>
    cases t with
    | nil => simp [intervals] at hp
    | cons y t =>
      rw [intervals_cons, List.mem_cons] at hp
      rw [List.pairwise_cons] at h
      have hxy : x < y := h.1 y (by simp)
      rcases hp with rfl | hp
      · have hne : y :: t ≠ [] := by simp
        refine ⟨x, (y :: t).getLast hne, rfl, by simp [List.getLast?_eq_getLast_of_ne_nil], le_refl _, hxy, ?_⟩
        have hm := List.getLast_mem hne
        rcases List.mem_cons.mp hm with he | hm
        · exact he.ge
        · exact ((List.pairwise_cons.mp h.2).1 _ hm).le
      · obtain ⟨a, b, h1, h2, h3, h4, h5⟩ := ih h.2 hp
        simp at h1
        subst h1
        exact ⟨x, b, rfl, by simpa using h2, hxy.le.trans h3, h4, h5⟩

theorem intervals_unique {l : List K} (h : l.Pairwise (· < ·)) {p q : K × K}
    (hp : p ∈ intervals l) (hq : q ∈ intervals l) {c : K} (h1 : p.1 < c) (h2 : c ≤ p.2)
    (h3 : q.1 < c) (h4 : c ≤ q.2) : p = q := by
  induction l with
  | nil => simp [intervals] at hp
  | cons x t ih =>
    cases t with
    | nil => simp [intervals] at hp
    | cons y t =>
      have ht := (List.pairwise_cons.mp h).2
      have key : ∀ r ∈ intervals (y :: t), y ≤ r.1 := by
        intro r hr
        obtain ⟨a, b, e, _, h5, _⟩ := intervals_range ht hr
        simp at e; subst e; exact h5
      rw [intervals_cons, List.mem_cons] at hp hq
      rcases hp with rfl | hp <;> rcases hq with rfl | hq
      · rfl
      · exact absurd ((h2.trans (key q hq)).trans_lt h3) (lt_irrefl _)
      · exact absurd ((h4.trans (key p hp)).trans_lt h1) (lt_irrefl _)
      · exact ih ht hp hq

theorem nodup_intervals {l : List K} (h : l.Pairwise (· < ·)) : (intervals l).Nodup := by
  apply List.Nodup.of_map Prod.fst
  rw [map_fst_intervals]
  exact (h.imp (fun hab => hab.ne)).sublist (List.dropLast_sublist l)

theorem forall₂_exists_row (xi : List (List K)) (x : List K) (h : InGridBox xi x) :
    ∃ row : List (K × K), List.Forall₂ (fun p l => p ∈ intervals l) row xi ∧
      List.Forall₂ (fun p c => p.1 < c ∧ c ≤ p.2) row x := by
  induction h with
  | nil => exact ⟨[], .nil, .nil⟩
  | cons hc _ ih =>
    obtain ⟨a, b, ha, hb, h1, h2⟩ := hc
    obtain ⟨row, hr1, hr2⟩ := ih
    obtain ⟨p, hp, hpc⟩ := intervals_exists _ a b _ ha hb h1 h2
    exact ⟨p :: row, .cons hp hr1, .cons hpc hr2⟩

theorem forall₂_row_unique {xi : List (List K)} (hxi : ∀ l ∈ xi, l.Pairwise (· < ·))
    {row row' : List (K × K)} {x : List K}
    (h1 : List.Forall₂ (fun p l => p ∈ intervals l) row xi)
    (h2 : List.Forall₂ (fun p c => p.1 < c ∧ c ≤ p.2) row x)
    (h3 : List.Forall₂ (fun p l => p ∈ intervals l) row' xi)
    (h4 : List.Forall₂ (fun p c => p.1 < c ∧ c ≤ p.2) row' x) : row = row' := by
  induction h1 generalizing row' x with
  | nil => cases h3; rfl
  | cons hp _ ih =>
    cases h2 with
    | cons hc h2 =>
      cases h3 with
      | cons hq h3 =>
        cases h4 with
        | cons hc' h4 =>
          rw [intervals_unique (hxi _ (by simp)) hp hq hc.1 hc.2 hc'.1 hc'.2,
            ih (fun l hl => hxi l (by simp [hl])) h2 h3 h4]

theorem inGridBox_of_row {xi : List (List K)} (hxi : ∀ l ∈ xi, l.Pairwise (· < ·))
    {row : List (K × K)} {x : List K} (h1 : List.Forall₂ (fun p l => p ∈ intervals l) row xi)
    (h2 : List.Forall₂ (fun p c => p.1 < c ∧ c ≤ p.2) row x) : InGridBox xi x := by
  induction h1 generalizing x with
  | nil => cases h2; exact .nil
  | cons hp _ ih =>
    cases h2 with
    | cons hc h2 =>
      obtain ⟨a, b, e1, e2, h3, _, h4⟩ := intervals_range (hxi _ (by simp)) hp
      exact .cons ⟨a, b, e1, e2, h3.trans_lt hc.1, hc.2.trans h4⟩
        (ih (fun l hl => hxi l (by simp [hl])) h2)

theorem inBox_row (row : List (K × K)) (x : List K) (h : x.length = row.length) :
    InBox (row.map Prod.fst) (row.map Prod.snd) x ↔
      List.Forall₂ (fun p c => p.1 < c ∧ c ≤ p.2) row x := by
  unfold InBox
  rw [List.forall₂_iff_get]
  constructor
  · rintro ⟨h1, h2⟩
    refine ⟨h.symm, fun i hi hx => ⟨?_, ?_⟩⟩
    · exact h2 i _ _ (List.getElem?_eq_getElem hx) (by simp [hi])
    · exact h1 i _ _ (List.getElem?_eq_getElem hx) (by simp [hi])
  · rintro ⟨_, h1⟩
    constructor <;> intro i a b ha hb
    · obtain ⟨hx, rfl⟩ := List.getElem?_eq_some_iff.mp ha
      have := h1 i (by omega) hx
      rw [List.getElem?_map, List.getElem?_eq_getElem (by omega)] at hb
      cases hb
      exact this.2
    · obtain ⟨hx, rfl⟩ := List.getElem?_eq_some_iff.mp ha
      have := h1 i (by omega) hx
      rw [List.getElem?_map, List.getElem?_eq_getElem (by omega)] at hb
      cases hb
      exact this.1

variable [Field K]

/-- The rows of intervals. -/
def cartRows (xi : List (List K)) : List (List (K × K)) := gridRows (xi.map intervals)

theorem mem_cartRows {xi : List (List K)} (hne : xi ≠ []) (row : List (K × K)) :
    row ∈ cartRows xi ↔ List.Forall₂ (fun p l => p ∈ intervals l) row xi := by
  unfold cartRows
  rw [mem_gridRows _ (by simpa using hne), List.forall₂_map_right_iff]

theorem tails_eq (xi : List (List K)) :
    gridRows (xi.map List.tail) = (cartRows xi).map (List.map Prod.snd) := by
  unfold cartRows
  rw [← gridRows_map, List.map_map]
  congr 1
  exact List.map_congr_left fun l _ => (map_snd_intervals l).symm

theorem dropLasts_eq (xi : List (List K)) :
    gridRows (xi.map List.dropLast) = (cartRows xi).map (List.map Prod.fst) := by
  unfold cartRows
  rw [← gridRows_map, List.map_map]
  congr 1
  exact List.map_congr_left fun l _ => (map_fst_intervals l).symm

theorem setupCartesian_iff {s t : SampleSet K} {xi : List (List K)} :
    s.setupCartesian xi = .ok t ↔ xi.length = s.dim ∧
      t = s.rectSet ((cartRows xi).map (List.map Prod.snd)) ((cartRows xi).map (List.map Prod.fst)) := by
  unfold SampleSet.setupCartesian
  simp only [bind_eq_ok, raiseIf_eq_ok, tails_eq, dropLasts_eq, setupRect_iff]
  have hl : xi.length = s.dim → ∀ row ∈ cartRows xi, row.length = s.dim := by
    intro h row hrow
    rw [length_of_mem_gridRows hrow]
    simpa using h
  constructor
  · rintro ⟨_, h1, _, _, _, rfl⟩
    exact ⟨by simpa using h1, rfl⟩
  · rintro ⟨h1, rfl⟩
    refine ⟨(), by simpa using h1, by simp, ?_, ?_, rfl⟩
    · simp only [List.mem_map]
      rintro _ ⟨row, hrow, rfl⟩
      simpa using hl h1 row hrow
    · simp only [List.mem_map]
      rintro _ ⟨row, hrow, rfl⟩
      simpa using hl h1 row hrow

/-- The number of cells of the grid. -/
def Spec.numCells (xi : List (List K)) : Nat := (xi.map fun l => l.length - 1).prod

theorem length_cartRows {xi : List (List K)} (hne : xi ≠ []) :
    (cartRows xi).length = numCells xi := by
  unfold cartRows numCells
  rw [length_gridRows _ (by simpa using hne), List.map_map]
  congr 1
  exact List.map_congr_left fun l _ => length_intervals l

theorem ready_cartesian {s t : SampleSet K} {xi : List (List K)} (hs : s.glob = {})
    (hk : s.kdtree = none) (hdim : 0 < s.dim) (h : s.setupCartesian xi = .ok t) :
    Ready t (numCells xi + 1) ∧ t.kind = .rectangle := by
  obtain ⟨h1, rfl⟩ := setupCartesian_iff.mp h
  have hne : xi ≠ [] := by rintro rfl; simp at h1; omega
  refine ⟨?_, rfl⟩
  have hl : ∀ row ∈ cartRows xi, row.length = s.dim := by
    intro row hrow
    rw [length_of_mem_gridRows hrow]
    simpa using h1
  have := ready_rectSet hs hk (maxes := (cartRows xi).map (List.map Prod.snd))
    (mins := (cartRows xi).map (List.map Prod.fst)) (by simp)
    (by simp only [List.mem_map]; rintro _ ⟨row, hrow, rfl⟩; simpa using hl row hrow)
    (by simp only [List.mem_map]; rintro _ ⟨row, hrow, rfl⟩; simpa using hl row hrow)
  rw [List.length_map, length_cartRows hne] at this
  exact this

theorem inRectangle_cart (s : SampleSet K) (xi : List (List K)) (x : List K) (i : Nat)
    (hi : i < (cartRows xi).length) (hx : x.length = xi.length) :
    InRectangle (s.rectSet ((cartRows xi).map (List.map Prod.snd))
      ((cartRows xi).map (List.map Prod.fst))) x i ↔
      List.Forall₂ (fun p c => p.1 < c ∧ c ≤ p.2) (cartRows xi)[i] x := by
  have hlen : x.length = ((cartRows xi)[i]).length := by
    rw [length_of_mem_gridRows (List.getElem_mem hi)]; simpa using hx
  rw [← inBox_row _ _ hlen]
  unfold InRectangle
  constructor
  · rintro ⟨l, r, a, b, hl, hr, ha, hb, h⟩
    simp only [SampleSet.rectSet, Option.some.injEq] at hl hr
    subst hl; subst hr
    rw [List.getElem?_append_left (by simpa using hi), List.getElem?_map,
      List.getElem?_eq_getElem hi] at ha hb
    cases ha; cases hb
    exact h
  · intro h
    refine ⟨_, _, _, _, rfl, rfl, ?_, ?_, h⟩
    · rw [List.getElem?_append_left (by simpa using hi), List.getElem?_map,
        List.getElem?_eq_getElem hi]; rfl
    · rw [List.getElem?_append_left (by simpa using hi), List.getElem?_map,
        List.getElem?_eq_getElem hi]; rfl

/-- **C24.** `setup` succeeds exactly when there is one grid vector per dimension. -/
theorem C24_setup {s : SampleSet K} {xi : List (List K)} :
    (∃ t, s.setupCartesian xi = .ok t) ↔ xi.length = s.dim :=
  ⟨fun ⟨_, h⟩ => (setupCartesian_iff.mp h).1, fun h => ⟨_, setupCartesian_iff.mpr ⟨h, rfl⟩⟩⟩

/-- **C24.** There is exactly one cell for every choice of one interval of consecutive grid
points per coordinate. -/
theorem C24_cells {s t : SampleSet K} {xi : List (List K)} (hdim : 0 < s.dim)
    (hgrid : ∀ l ∈ xi, IsGrid l) (h : s.setupCartesian xi = .ok t) :
    ∃ left right, t.glob.left = some left ∧ t.glob.right = some right ∧
      (∀ i < numCells xi, ∃ a b, left[i]? = some a ∧ right[i]? = some b ∧
        a.length = s.dim ∧ b.length = s.dim ∧
        ∀ (k : Nat) l x y, xi[k]? = some l → a[k]? = some x → b[k]? = some y → Consecutive l x y) ∧
      ∀ a b : List K, a.length = s.dim → b.length = s.dim →
        (∀ (k : Nat) l x y, xi[k]? = some l → a[k]? = some x → b[k]? = some y → Consecutive l x y) →
        ∃! i, i < numCells xi ∧ left[i]? = some a ∧ right[i]? = some b := by
  obtain ⟨h1, rfl⟩ := setupCartesian_iff.mp h
  have hne : xi ≠ [] := by rintro rfl; simp at h1; omega
  refine ⟨_, _, rfl, rfl, ?_, ?_⟩
  · intro i hi
    rw [← length_cartRows hne] at hi
    have hm := (mem_cartRows hne _).mp (List.getElem_mem hi)
    have hlen := hm.length_eq
    refine ⟨((cartRows xi)[i]).map Prod.fst, ((cartRows xi)[i]).map Prod.snd, ?_, ?_, ?_, ?_, ?_⟩
    · rw [List.getElem?_append_left (by simpa using hi), List.getElem?_map,
        List.getElem?_eq_getElem hi]; rfl
    · rw [List.getElem?_append_left (by simpa using hi), List.getElem?_map,
        List.getElem?_eq_getElem hi]; rfl
    · simp [hlen, h1]
    · simp [hlen, h1]
    · intro k l x y hl hx hy
      obtain ⟨hk, rfl⟩ := List.getElem?_eq_some_iff.mp hl
      have hk' : k < ((cartRows xi)[i]).length := by omega
      have := (List.forall₂_iff_get.mp hm).2 k hk' hk
      rw [List.getElem?_map, List.getElem?_eq_getElem hk'] at hx hy
      cases hx; cases hy
      exact (mem_intervals _ _ _).mp this
  · intro a b ha hb hab
    have hrow : List.Forall₂ (fun p l => p ∈ intervals l) (List.zip a b) xi := by
      rw [List.forall₂_iff_get]
      refine ⟨by simp [ha, hb, h1], fun k hk hk' => ?_⟩
      simp only [List.length_zip] at hk
      have := hab k _ _ _ (List.getElem?_eq_getElem hk') (List.getElem?_eq_getElem (by omega))
        (List.getElem?_eq_getElem (by omega))
      simpa using (mem_intervals _ _ _).mpr this
    have hmem := (mem_cartRows hne _).mpr hrow
    obtain ⟨i, hi, he⟩ := List.mem_iff_getElem.mp hmem
    have hfst : (List.zip a b).map Prod.fst = a := List.map_fst_zip (by omega)
    have hsnd : (List.zip a b).map Prod.snd = b := List.map_snd_zip (by omega)
    refine ⟨i, ⟨by rw [← length_cartRows hne]; exact hi, ?_, ?_⟩, ?_⟩
    · rw [List.getElem?_append_left (by simpa using hi), List.getElem?_map,
        List.getElem?_eq_getElem hi, he]; simp [hfst]
    · rw [List.getElem?_append_left (by simpa using hi), List.getElem?_map,
        List.getElem?_eq_getElem hi, he]; simp [hsnd]
    · rintro j ⟨hj, hja, hjb⟩
      rw [← length_cartRows hne] at hj
      rw [List.getElem?_append_left (by simpa using hj), List.getElem?_map,
        List.getElem?_eq_getElem hj] at hja hjb
      have hja := Option.some.inj hja
      have hjb := Option.some.inj hjb
      have e : (cartRows xi)[j] = List.zip a b := by
        rw [← hja, ← hjb]
        rw [List.zip_eq_zipWith, List.zipWith_map, List.zipWith_self]
        simp
      have hnd : (cartRows xi).Nodup := nodup_gridRows _ (by simpa using hne) (by
        simp only [List.mem_map]
        rintro _ ⟨l, hl, rfl⟩
        exact nodup_intervals (hgrid l hl).2)
      exact (hnd.getElem_inj_iff).mp (e.trans he.symm)

/-- **C24.** A point lies in the half-open grid box exactly when it lies in one of the cells, and
then in only one. -/
theorem C24_tiles {s t : SampleSet K} {xi : List (List K)} (hdim : 0 < s.dim)
    (hgrid : ∀ l ∈ xi, IsGrid l) (h : s.setupCartesian xi = .ok t) (x : List K)
    (hx : x.length = s.dim) :
    (InGridBox xi x → ∃! i, i < numCells xi ∧ InRectangle t x i) ∧
      (¬ InGridBox xi x → ∀ i < numCells xi, ¬ InRectangle t x i) := by
  obtain ⟨h1, rfl⟩ := setupCartesian_iff.mp h
  have hne : xi ≠ [] := by rintro rfl; simp at h1; omega
  have hg : ∀ l ∈ xi, l.Pairwise (· < ·) := fun l hl => (hgrid l hl).2
  rw [← length_cartRows hne]
  constructor
  · intro hb
    obtain ⟨row, hr1, hr2⟩ := forall₂_exists_row xi x hb
    obtain ⟨i, hi, he⟩ := List.mem_iff_getElem.mp ((mem_cartRows hne row).mpr hr1)
    refine ⟨i, ⟨hi, (inRectangle_cart s xi x i hi (by omega)).mpr (he ▸ hr2)⟩, ?_⟩
    rintro j ⟨hj, hjr⟩
    have hjr := (inRectangle_cart s xi x j hj (by omega)).mp hjr
    have e := forall₂_row_unique hg ((mem_cartRows hne _).mp (List.getElem_mem hj)) hjr hr1 hr2
    have hnd : (cartRows xi).Nodup := nodup_gridRows _ (by simpa using hne) (by
      simp only [List.mem_map]
      rintro _ ⟨l, hl, rfl⟩
      exact nodup_intervals (hg l hl))
    exact (hnd.getElem_inj_iff).mp (e.trans he.symm)
  · intro hb i hi hir
    have hir := (inRectangle_cart s xi x i hi (by omega)).mp hir
    exact hb (inGridBox_of_row hg ((mem_cartRows hne _).mp (List.getElem_mem hi)) hir)

/-- **C24.** `query` gives a point of the grid box the one cell that contains it and every other
point the remainder cell. -/
theorem C24_query {G : Geometry K} {size : Nat} {s t : SampleSet K} {xi : List (List K)}
    (hs : s.glob = {}) (hk : s.kdtree = none) (hdim : 0 < s.dim) (hgrid : ∀ l ∈ xi, IsGrid l)
    (h : s.setupCartesian xi = .ok t) (xs : Chunks (List K))
    (hxs : ∀ c ∈ xs, ∀ x ∈ c, x.length = s.dim) :
    ∃ ptr, t.query G size xs = .ok (t, ptr) ∧
      List.Forall₂ (List.Forall₂ fun x i =>
        (InGridBox xi x ∧ i < numCells xi ∧ InRectangle t x i) ∨
        (¬ InGridBox xi x ∧ i = numCells xi)) xs ptr := by
  obtain ⟨hr, hkind⟩ := ready_cartesian hs hk hdim h
  obtain ⟨ptr, hq, hp⟩ := C22_rectangle_first (G := G) (size := size) hr hkind xs
  refine ⟨ptr, hq, ?_⟩
  rw [List.forall₂_iff_get] at hp ⊢
  refine ⟨hp.1, fun a ha hb => ?_⟩
  have := hp.2 a ha hb
  rw [List.forall₂_iff_get] at this ⊢
  refine ⟨this.1, fun j hj hj' => ?_⟩
  have hf := this.2 j hj hj'
  have ht := C24_tiles hdim hgrid h (xs[a][j]) (hxs _ (List.getElem_mem _) _ (List.getElem_mem _))
  simp only [Nat.add_sub_cancel] at hf
  rcases hf with ⟨h1, h2, _⟩ | ⟨h1, h2⟩
  · left
    refine ⟨?_, h1, h2⟩
    by_contra hn
    exact ht.2 hn _ h1 h2
  · right
    refine ⟨fun hin => ?_, h1⟩
    obtain ⟨i, ⟨hi, hir⟩, _⟩ := ht.1 hin
    exact h2 i hi hir

theorem sum_intervals [IsStrictOrderedRing K] (l : List K) (c : K) {a b : K} (ha : l.head? = some a)
    (hb : l.getLast? = some b) :
    ((intervals l).map fun p => (p.2 - p.1) / c).sum = (b - a) / c := by
  induction l generalizing a with
  | nil => cases ha
  | cons x t ih =>
    cases t with
    | nil => simp at ha hb; subst ha; subst hb; simp [intervals]
    | cons y t =>
      simp at ha; subst ha
      rw [intervals_cons, List.map_cons, List.sum_cons, ih rfl (by simpa using hb)]
      rw [← add_div]
      ring

/-- The extent of the grid box. -/
def Spec.gridCorners (xi : List (List K)) : List K × List K :=
  (xi.map fun l => l.headD 0, xi.map fun l => l.getLastD 0)

theorem sum_relVolume_cart [IsStrictOrderedRing K] {xi : List (List K)} (hne : xi ≠ [])
    (hgrid : ∀ l ∈ xi, l ≠ []) (dom : List (K × K)) (hd : dom.length = xi.length) :
    ((cartRows xi).map fun row => boxVolume (row.map Prod.fst) (row.map Prod.snd) /
      domainVolume dom).sum =
      boxVolume (gridCorners xi).1 (gridCorners xi).2 / domainVolume dom := by
  have e1 : ∀ row ∈ cartRows xi, boxVolume (row.map Prod.fst) (row.map Prod.snd) /
      domainVolume dom = (List.zipWith (fun (f : K × K → K) p => f p)
        (dom.map fun d p => (p.2 - p.1) / (d.2 - d.1)) row).prod := by
    intro row hrow
    have hl : row.length = dom.length := by
      rw [length_of_mem_gridRows hrow]; simp [hd]
    unfold boxVolume domainVolume
    clear hrow hd
    induction dom generalizing row with
    | nil => simp at hl; subst hl; simp
    | cons d dom ih =>
      cases row with
      | nil => simp at hl
      | cons p row =>
        simp only [List.map_cons, List.zipWith_cons_cons, List.prod_cons]
        rw [← ih row (by simpa using hl), div_mul_div_comm]
  rw [List.map_congr_left e1]
  have e2 : ((cartRows xi).map fun a => (List.zipWith (fun (f : K × K → K) p => f p)
      (dom.map fun d p => (p.2 - p.1) / (d.2 - d.1)) a).prod) =
      ((cartRows xi).map (List.zipWith (fun (f : K × K → K) p => f p)
      (dom.map fun d p => (p.2 - p.1) / (d.2 - d.1)))).map List.prod := by
    rw [List.map_map]; rfl
  rw [e2]
  unfold cartRows
  rw [← gridRows_zipWith _ (by simpa using hne) _ (by simp [hd]), sum_prod_gridRows _ (by
    cases xi with
    | nil => exact absurd rfl hne
    | cons l xi =>
      cases dom with
      | nil => simp at hd
      | cons d dom => simp)]
  unfold boxVolume domainVolume gridCorners
  clear e1 e2
  induction xi generalizing dom with
  | nil => exact absurd rfl hne
  | cons l xi ih =>
    cases dom with
    | nil => simp at hd
    | cons d dom =>
      simp only [List.map_cons, List.zipWith_cons_cons, List.prod_cons]
      have hl := hgrid l (by simp)
      obtain ⟨a, ha⟩ : ∃ a, l.head? = some a := by
        cases l with
        | nil => exact absurd rfl hl
        | cons a _ => exact ⟨a, rfl⟩
      obtain ⟨b, hb⟩ : ∃ b, l.getLast? = some b := by
        rw [List.getLast?_eq_getLast_of_ne_nil hl]; exact ⟨_, rfl⟩
      rw [sum_intervals l _ ha hb]
      have ea : l.headD 0 = a := by rw [List.headD_eq_head?_getD, ha]; rfl
      have eb : l.getLastD 0 = b := by rw [List.getLastD_eq_getLast?, hb]; rfl
      rw [ea, eb]
      by_cases hxi : xi = []
      · subst hxi
        simp at hd; subst hd
        simp
      · rw [ih hxi (fun l hl => hgrid l (by simp [hl])) dom (by simpa using hd), div_mul_div_comm]

/-- **C24.** The volumes of the cells sum to the volume of the grid box (relative to the domain),
and the remainder cell has the rest. -/
theorem C24_volumes [IsStrictOrderedRing K] {s t : SampleSet K} {xi : List (List K)}
    (hs : s.glob = {}) (hdim : 0 < s.dim) (hgrid : ∀ l ∈ xi, IsGrid l)
    (h : s.setupCartesian xi = .ok t) {dom : List (K × K)} (hdom : s.domain = some dom)
    (hd : dom.length = s.dim) (hpos : ∀ d ∈ dom, d.1 < d.2) (size : Nat) :
    ∃ u vols, t.exactVolumeLebesgue size = .ok u ∧ u.glob.volumes = some vols ∧
      vols.length = numCells xi + 1 ∧
      (vols.take (numCells xi)).sum =
        boxVolume (gridCorners xi).1 (gridCorners xi).2 / domainVolume dom ∧
      vols[numCells xi]? =
        some (1 - boxVolume (gridCorners xi).1 (gridCorners xi).2 / domainVolume dom) := by
  obtain ⟨h1, -⟩ := setupCartesian_iff.mp h
  have hne : xi ≠ [] := by rintro rfl; simp at h1; omega
  have h' : s.setupRect ((cartRows xi).map (List.map Prod.snd))
      ((cartRows xi).map (List.map Prod.fst)) = .ok t := by
    simp only [SampleSet.setupCartesian, bind_eq_ok, tails_eq, dropLasts_eq] at h
    exact h.choose_spec.2
  obtain ⟨u, vols, hu, hu2, hlen, hi, hsum⟩ := C23_relative_volumes hs h' hdom hd hpos size
  rw [List.length_map, length_cartRows hne] at hlen
  have hinit : vols.take (numCells xi) = (cartRows xi).map fun row =>
      boxVolume (row.map Prod.fst) (row.map Prod.snd) / domainVolume dom := by
    apply List.ext_getElem
    · simp [hlen, length_cartRows hne]
    · intro i h2 h3
      have hi' : i < (cartRows xi).length := by simpa using h3
      have := hi i (((cartRows xi)[i]).map Prod.snd) (((cartRows xi)[i]).map Prod.fst)
        (by simp [hi']) (by simp [hi'])
      rw [List.getElem?_eq_getElem (by rw [hlen, ← length_cartRows hne]; omega)] at this
      simpa using Option.some.inj this
  have hs1 : (vols.take (numCells xi)).sum =
      boxVolume (gridCorners xi).1 (gridCorners xi).2 / domainVolume dom := by
    rw [hinit]
    exact sum_relVolume_cart hne (fun l hl => by
      have := (hgrid l hl).1
      rintro rfl
      simp at this) dom (by omega)
  refine ⟨u, vols, hu, by rw [hu2], hlen, hs1, ?_⟩
  have hsplit := List.take_append_drop (numCells xi) vols
  have hdrop : ∃ r, vols.drop (numCells xi) = [r] := by
    apply List.length_eq_one_iff.mp
    simp [hlen]
  obtain ⟨r, hr⟩ := hdrop
  rw [hr] at hsplit
  have hrv : vols[numCells xi]? = some r := by
    have : vols[numCells xi]? = (vols.drop (numCells xi))[0]? := by simp
    rw [this, hr]; rfl
  rw [hrv]
  rw [← hsplit, List.sum_append, List.sum_singleton, hs1] at hsum
  rw [← hsum]
  congr 1
  ring

end c24

end BET

/-! ### Concrete cases -/

namespace BET.Ex

open Spec

/-- Two disjoint rectangles in the unit square. -/
def emptyRect : SampleSet ℚ := { kind := .rectangle, dim := 2, domain := some [(0, 1), (0, 2)] }

/-- C23. -/
example : ((emptyRect.setupRect [[1/2, 1], [1, 1]] [[0, 0], [1/2, 0]]).toOption.bind fun t =>
    (t.exactVolumeLebesgue 1).toOption.bind (·.glob.volumes)) = some [1/4, 1/4, 1/2] := by
  decide +kernel

/-- C24: two intervals times one. -/
example : numCells [[0, 1/2, 1], [(0 : ℚ), 1]] = 2 := by decide +kernel

example : ∀ l ∈ [[0, 1/2, 1], [(0 : ℚ), 1]], IsGrid l := by
  intro l hl
  simp at hl
  rcases hl with rfl | rfl <;> refine ⟨by decide, ?_⟩ <;> norm_num

example : InGridBox [[0, 1/2, 1], [(0 : ℚ), 1]] [1/2, 1] :=
  .cons ⟨0, 1, rfl, rfl, by norm_num, by norm_num⟩ (.cons ⟨0, 1, rfl, rfl, by norm_num, le_refl _⟩ .nil)

example : ((emptyRect.setupCartesian [[0, 1/2, 1], [0, 1]]).toOption.bind fun t =>
    (t.query G 1 [[[1/2, 1], [3/4, 1/2], [1/2, 3/2]]]).toOption.map Prod.snd) = some [[0, 1, 2]] := by
  decide +kernel

/-- C24: the volumes of the cells are 1/4 and 1/4. -/
example : ((emptyRect.setupCartesian [[0, 1/2, 1], [0, 1]]).toOption.bind fun t =>
    (t.exactVolumeLebesgue 1).toOption.bind (·.glob.volumes)) = some [1/4, 1/4, 1/2] := by
  decide +kernel

end BET.Ex
