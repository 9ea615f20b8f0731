import Verif.Model.Sampling
import Verif.Props.Util
import Verif.Props.Voronoi1D

/-!
# Regular grids (C45)
-/

set_option autoImplicit false
set_option linter.unusedSectionVars false
set_option linter.unusedSimpArgs false

namespace BET

open Spec

section c45
variable {K : Type} [Field K] [LinearOrder K] [IsStrictOrderedRing K]

namespace Spec

/-- Edge `k` when the interval `ab` is divided into `n` equal cells. -/
def cellEdge (ab : K × K) (n : Nat) (k : Nat) : K := ab.1 + (k : K) * ((ab.2 - ab.1) / (n : K))

/-- The centre of cell `k`. -/
def cellCentre (ab : K × K) (n : Nat) (k : Nat) : K :=
  (cellEdge ab n k + cellEdge ab n (k + 1)) / 2

/-- All centres in one direction. -/
def centres (ab : K × K) (n : Nat) : List K := (List.range n).map (cellCentre ab n)

end Spec

theorem gridVec_eq (ab : K × K) (n : Nat) : gridVec ab n = centres ab n := by
  unfold gridVec centres linspace
  have hn : ((n : K) + 1) ≠ 0 := by positivity
  simp only [← List.map_take, ← List.map_drop, List.take_range]
  have : min (n + 1) (n + 2) = n + 1 := by omega
  rw [this]
  have hr : (List.range (n + 1)).drop 1 = (List.range n).map Nat.succ := by
    rw [List.range_succ_eq_map]
    rfl
  rw [hr, List.map_map]
  refine List.map_congr_left fun k hk => ?_
  have hn0 : (n : K) ≠ 0 := by
    have := List.mem_range.1 hk
    exact Nat.cast_ne_zero.2 (by omega)
  simp only [Function.comp, cellCentre, cellEdge]
  rw [show n + 2 - 1 = n + 1 by omega]
  push_cast
  field_simp
  ring

theorem length_centres (ab : K × K) (n : Nat) : (centres ab n).length = n := by simp [centres]

theorem pick_zipWith {α β : Type} (f : β → Nat → α) (bs : List β) (ns idx : List Nat)
    (g : β → Nat → List α) (hg : ∀ b n, g b n = (List.range n).map (fun k => f b k))
    (h : InShape ns idx) (hb : bs.length = ns.length) :
    pick (List.zipWith g bs ns) idx = List.zipWith f bs idx := by
  unfold InShape at h
  induction h generalizing bs with
  | nil => cases bs <;> simp [pick]
  | @cons i n is ns hi hs ih =>
    cases bs with
    | nil => simp at hb
    | cons b bs =>
      simp only [List.zipWith_cons_cons, pick]
      rw [ih bs (by simpa using hb), hg, List.getElem?_map, List.getElem?_range hi]
      rfl

theorem map_length_zipWith (D : List (K × K)) (ns : List Nat) (h : D.length = ns.length) :
    (List.zipWith centres D ns).map List.length = ns := by
  induction D generalizing ns with
  | nil => cases ns <;> simp_all
  | cons d D ih =>
    cases ns with
    | nil => simp at h
    | cons n ns => simp [length_centres, ih ns (by simpa using h)]

theorem mem_product {α : Type} (xs : List (List α)) (row : List α) :
    row ∈ product xs ↔ List.Forall₂ (fun x v => x ∈ v) row xs := by
  induction xs generalizing row with
  | nil => simp [product]
  | cons v vs ih =>
    simp only [product, List.mem_flatMap, List.mem_map]
    constructor
    · rintro ⟨x, hx, r, hr, rfl⟩
      exact List.Forall₂.cons hx ((ih r).1 hr)
    · intro hf
      cases hf with
      | cons hx hr => exact ⟨_, hx, _, (ih _).2 hr, rfl⟩

theorem nodup_product {α : Type} (xs : List (List α)) (hn : ∀ v ∈ xs, v.Nodup) :
    (product xs).Nodup := by
  induction xs with
  | nil => simp [product]
  | cons v vs ih =>
    simp only [product]
    rw [List.nodup_flatMap]
    refine ⟨fun x _ => (ih fun w hw => hn w (by simp [hw])).map fun a b e => by simpa using e, ?_⟩
    refine (hn v (by simp)).imp fun {a b} hab => ?_
    intro r hr hr'
    obtain ⟨s, -, rfl⟩ := List.mem_map.1 hr
    obtain ⟨t, -, e⟩ := List.mem_map.1 hr'
    simp at e
    exact hab e.1.symm

theorem assignGrid_full {n : Nat} {rows v : List (List K)} (hn : rows.length = n)
    (h : assignGrid n rows = .ok v) : rows = v := by
  unfold assignGrid at h
  split at h
  · cases h
  · exact Except.ok.inj h

/-- What a successful call has computed. -/
theorem regular_ok {size : Nat} {obj : InputObj K} {nums : GridNums} {s t : SampleSet K}
    (hs : obj.toSet .badObject = .ok s) (hn : (nums.perDim s.dim).length = s.dim)
    (hd : (domainOrUnit s).length = s.dim) (h : regularSampleSet size obj nums = .ok t) :
    t.dim = s.dim ∧ t.domain = some (domainOrUnit s) ∧
      t.glob.values = some (product (List.zipWith centres (domainOrUnit s) (nums.perDim s.dim))) := by
  simp only [regularSampleSet, hs, ok_bind, bind_eq_ok, raiseIf_eq_ok] at h
  obtain ⟨_, _, w, hw, u, hu, ht⟩ := h
  have hz : List.zipWith gridVec ((domainOrUnit s).take s.dim) (nums.perDim s.dim)
      = List.zipWith centres (domainOrUnit s) (nums.perDim s.dim) := by
    rw [List.take_of_length_le (by omega)]
    congr 1
    funext ab n
    exact gridVec_eq ab n
  rw [hz] at hw
  have hl : (List.zipWith centres (domainOrUnit s) (nums.perDim s.dim)).length = s.dim := by
    simp [hn, hd]
  have hst := stack_mesh (List.zipWith centres (domainOrUnit s) (nums.perDim s.dim))
  rw [hl] at hst
  rw [hst] at hw
  obtain rfl : _ = w := assignGrid_full (by
    rw [length_product, map_length_zipWith _ _ (by omega)]) hw
  unfold SampleSet.setValues at hu
  split at hu
  · cases hu
    simp only [SampleSet.globalToLocal, bind_eq_ok, pure_eq_ok] at ht
    obtain ⟨n, -, rfl⟩ := ht
    exact ⟨rfl, rfl, rfl⟩
  · cases hu

/-- **C45.** The samples of `regular_sample_set` are, in row-major order of the multi-index, the
centres of the `n_1 × ... × n_d` equal cells of the domain (the unit cube when none is set): there
are `n_1 ⋯ n_d` of them, the one at position `ravel ns idx` has coordinate `j` at the centre of cell
`idx_j`; they lie in the domain, and none occurs twice when the domain is not degenerate. -/
theorem C45_midpoints {size : Nat} {obj : InputObj K} {nums : GridNums} {s t : SampleSet K}
    (hs : obj.toSet .badObject = .ok s) (hn : (nums.perDim s.dim).length = s.dim)
    (hd : (domainOrUnit s).length = s.dim) (h : regularSampleSet size obj nums = .ok t) :
    ∃ v, t.glob.values = some v ∧ t.domain = some (domainOrUnit s) ∧
      v.length = (nums.perDim s.dim).prod ∧
      (∀ idx, InShape (nums.perDim s.dim) idx → v[ravel (nums.perDim s.dim) idx]? =
        some (List.zipWith (fun abn k => cellCentre abn.1 abn.2 k)
          (List.zip (domainOrUnit s) (nums.perDim s.dim)) idx)) ∧
      ((∀ ab ∈ domainOrUnit s, ab.1 ≤ ab.2) → ∀ row ∈ v,
        List.Forall₂ (fun x ab => ab.1 ≤ x ∧ x ≤ ab.2) row (domainOrUnit s)) ∧
      ((∀ ab ∈ domainOrUnit s, ab.1 < ab.2) → v.Nodup) := by
  obtain ⟨-, hdom, hv⟩ := regular_ok hs hn hd h
  set D := domainOrUnit s with hD
  set ns := nums.perDim s.dim with hns
  have hlen : D.length = ns.length := by omega
  have hml := map_length_zipWith D ns hlen
  refine ⟨_, hv, hdom, ?_, ?_, ?_, ?_⟩
  · rw [length_product, hml]
  · intro idx hidx
    have hlt := ravel_lt hidx
    rw [← product_eq, hml, List.getElem?_map, List.getElem?_range hlt, Option.map_some,
      unravel_ravel hidx]
    congr 1
    have hz : List.zipWith centres D ns = List.zipWith
        (fun (b : (K × K) × Nat) n => (List.range n).map (cellCentre b.1 b.2)) (D.zip ns) ns := by
      clear_value D ns
      clear hidx hlt hml hv hdom hD hns h hs hn hd
      induction D generalizing ns with
      | nil => simp
      | cons d D ih =>
        cases ns with
        | nil => simp
        | cons n ns =>
          simp only [List.zipWith_cons_cons, List.zip_cons_cons]
          rw [ih ns (by simpa using hlen)]
          rfl
    rw [hz]
    exact pick_zipWith (fun (b : (K × K) × Nat) k => cellCentre b.1 b.2 k) _ ns idx _
      (fun b n => rfl) hidx (by simp [hlen])
  · intro hab row hrow
    rw [mem_product] at hrow
    clear_value D ns
    clear hml hv hdom hD hns h hs hn hd
    induction D generalizing ns row with
    | nil => simp at hrow; subst hrow; exact .nil
    | cons d D ih =>
      cases ns with
      | nil => simp at hlen
      | cons n ns =>
        simp only [List.zipWith_cons_cons] at hrow
        cases hrow with
        | cons hx hr =>
          refine List.Forall₂.cons ?_ (ih ns (by simpa using hlen) (fun ab h => hab ab (by simp [h]))
            _ hr)
          obtain ⟨k, hk, rfl⟩ := List.mem_map.1 hx
          have hk := List.mem_range.1 hk
          have hw : d.1 ≤ d.2 := hab d (by simp)
          have hnpos : (0 : K) < n := by
            have : 0 < n := by omega
            exact_mod_cast this
          have hk' : (k : K) + 1 ≤ n := by exact_mod_cast hk
          have hk0 : (0 : K) ≤ k := by positivity
          have hq : 0 ≤ (d.2 - d.1) / (n : K) := div_nonneg (by linarith) hnpos.le
          have hqn : (n : K) * ((d.2 - d.1) / (n : K)) = d.2 - d.1 := by field_simp
          simp only [cellCentre, cellEdge]
          push_cast
          constructor
          · nlinarith
          · nlinarith
  · intro hab
    refine nodup_product _ fun v hvm => ?_
    obtain ⟨i, hi, rfl⟩ := List.getElem_of_mem hvm
    rw [List.getElem_zipWith]
    have hi1 : i < D.length := by simp at hi; omega
    have hlt := hab D[i] (List.getElem_mem hi1)
    generalize D[i] = d at hlt
    refine List.Nodup.map_on (fun x hx y hy e => ?_) List.nodup_range
    have hnpos : (0 : K) < (ns[i]'(by simp at hi; omega) : Nat) := by
      have := List.mem_range.1 hx
      have : 0 < ns[i]'(by simp at hi; omega) := by omega
      exact_mod_cast this
    simp only [cellCentre, cellEdge] at e
    push_cast at e
    have hq : 0 < (d.2 - d.1) / ((ns[i]'(by simp at hi; omega) : Nat) : K) :=
      div_pos (by linarith) hnpos
    have : ((x : K) - y) * ((d.2 - d.1) / ((ns[i]'(by simp at hi; omega) : Nat) : K)) = 0 := by
      linarith
    have hxy := (mul_eq_zero.1 this).resolve_right hq.ne'
    have : (x : K) = y := by linarith
    exact_mod_cast this

/-- **C45.** A number 0 raises `ValueError`. -/
theorem C45_zero {size : Nat} {obj : InputObj K} {nums : GridNums} {s : SampleSet K}
    (hs : obj.toSet .badObject = .ok s) (hn : (nums.perDim s.dim).length = s.dim)
    (hd : (domainOrUnit s).length = s.dim) (h0 : 0 ∈ nums.perDim s.dim) :
    regularSampleSet size obj nums = .error .valueError := by
  have hlen : (domainOrUnit s).length = (nums.perDim s.dim).length := by omega
  have hz : List.zipWith gridVec ((domainOrUnit s).take s.dim) (nums.perDim s.dim)
      = List.zipWith centres (domainOrUnit s) (nums.perDim s.dim) := by
    rw [List.take_of_length_le (by omega)]
    congr 1
    funext ab n
    exact gridVec_eq ab n
  have hl : (List.zipWith centres (domainOrUnit s) (nums.perDim s.dim)).length = s.dim := by
    simp [hn, hd]
  have hst := stack_mesh (List.zipWith centres (domainOrUnit s) (nums.perDim s.dim))
  rw [hl] at hst
  have hml := map_length_zipWith _ _ hlen
  have hV : (product (List.zipWith centres (domainOrUnit s) (nums.perDim s.dim))).length = 0 := by
    rw [length_product, hml, List.prod_eq_zero_iff]
    exact h0
  simp only [regularSampleSet, hs, ok_bind, raiseIf, hz, hst, hn, lt_irrefl, if_false, assignGrid, hV, if_true]
  rfl

/-- The call succeeds for a dimension, a domain or a set without arrays, when there is one positive number
per dimension. -/
theorem C45_defined {size : Nat} {obj : InputObj K} {nums : GridNums} {s : SampleSet K}
    (hs : obj.toSet .badObject = .ok s) (hn : (nums.perDim s.dim).length = s.dim)
    (hd : (domainOrUnit s).length = s.dim) (hpos : ∀ n ∈ nums.perDim s.dim, 0 < n) (hfresh : s.glob = {}) :
    ∃ t, regularSampleSet size obj nums = .ok t ∧ Consistent t (nums.perDim s.dim).prod := by
  have hlen : (domainOrUnit s).length = (nums.perDim s.dim).length := by omega
  have hz : List.zipWith gridVec ((domainOrUnit s).take s.dim) (nums.perDim s.dim)
      = List.zipWith centres (domainOrUnit s) (nums.perDim s.dim) := by
    rw [List.take_of_length_le (by omega)]
    congr 1
    funext ab n
    exact gridVec_eq ab n
  have hl : (List.zipWith centres (domainOrUnit s) (nums.perDim s.dim)).length = s.dim := by
    simp [hn, hd]
  have hst := stack_mesh (List.zipWith centres (domainOrUnit s) (nums.perDim s.dim))
  rw [hl] at hst
  have hml := map_length_zipWith _ _ hlen
  have hcols : ∀ row ∈ product (List.zipWith centres (domainOrUnit s) (nums.perDim s.dim)),
      row.length = s.dim := fun row hrow => by rw [length_of_mem_product hrow, hl]
  set V := product (List.zipWith centres (domainOrUnit s) (nums.perDim s.dim)) with hV
  have hst' := hst
  rw [hml] at hst'
  have hVl : V.length = (nums.perDim s.dim).prod := by rw [hV, length_product, hml]
  have hVp : V.length ≠ 0 := by
    rw [hVl]
    exact fun h => (hpos 0 (List.prod_eq_zero_iff.1 h)).false
  have has : assignGrid (nums.perDim s.dim).prod V = .ok V := by
    unfold assignGrid
    rw [if_neg hVp, if_pos hVl]
  set u : SampleSet K := { s with domain := some (domainOrUnit s), glob := { values := some V } }
    with hu
  have hset : ({ s with domain := some (domainOrUnit s) } : SampleSet K).setValues V = .ok u := by
    unfold SampleSet.setValues
    rw [if_pos]
    · simp [hu, hfresh]
    · simp [SampleSet.colsOk]
      exact hcols
  have hcons : Consistent u (nums.perDim s.dim).prod := by
    refine SampleSet.consistent_of_checkNum (size := 1) ?_ rfl
    simp [SampleSet.checkNum, hu, Arrays.toList, SampleSet.checkNumLoop, hVl, SampleSet.colsOk]
    rw [if_pos hcols]
    rfl
  refine ⟨u.splitSet size (nums.perDim s.dim).prod, ?_, ?_⟩
  · simp only [regularSampleSet, hs, ok_bind, raiseIf, hz, hml, hst', has, hset, hn, lt_irrefl, if_false,
      ne_eq, not_true_eq_false, SampleSet.globalToLocal_ok hcons]
  · exact hcons

/-! ### One dimension -/

theorem nearestCell_centres {a b : K} (hab : a < b) {n k : Nat} (hk : k < n) :
    nearestCell (centres (a, b) n) a b (cellCentre (a, b) n k)
      = Set.Icc (cellEdge (a, b) n k) (cellEdge (a, b) n (k + 1)) := by
  have hnpos : (0 : K) < n := by
    have : 0 < n := by omega
    exact_mod_cast this
  set w := (b - a) / (n : K) with hw
  have hwpos : 0 < w := div_pos (by linarith) hnpos
  have hnw : (n : K) * w = b - a := by rw [hw]; field_simp
  have hc : ∀ j : Nat, cellCentre (a, b) n j = a + (j : K) * w + w / 2 := by
    intro j
    simp only [cellCentre, cellEdge]
    push_cast
    rw [← hw]
    ring
  have he : ∀ j : Nat, cellEdge (a, b) n j = a + (j : K) * w := fun j => rfl
  have hk' : (k : K) + 1 ≤ n := by exact_mod_cast hk
  ext x
  simp only [nearestCell, Set.mem_ofPred_eq, Set.mem_Icc, he, hc]
  push_cast
  constructor
  · rintro ⟨h1, h2, h3⟩
    constructor
    · by_cases h0 : k = 0
      · subst h0; simpa using h1
      · have := h3 (cellCentre (a, b) n (k - 1))
          (List.mem_map.2 ⟨k - 1, List.mem_range.2 (by omega), rfl⟩)
        rw [hc] at this
        have hkk : ((k - 1 : Nat) : K) = (k : K) - 1 := by
          rw [Nat.cast_sub (by omega)]; simp
        rw [hkk] at this
        by_contra hlt
        push Not at hlt
        rw [abs_of_nonpos (by linarith)] at this
        rcases abs_cases (x - (a + ((k : K) - 1) * w + w / 2)) with ⟨e, -⟩ | ⟨e, -⟩ <;>
          rw [e] at this <;> nlinarith
    · by_cases h0 : k + 1 = n
      · have : (k : K) + 1 = n := by exact_mod_cast h0
        rw [this, hnw]; linarith
      · have := h3 (cellCentre (a, b) n (k + 1))
          (List.mem_map.2 ⟨k + 1, List.mem_range.2 (by omega), rfl⟩)
        rw [hc] at this
        push_cast at this
        by_contra hlt
        push Not at hlt
        rw [abs_of_nonneg (by linarith)] at this
        rcases abs_cases (x - (a + ((k : K) + 1) * w + w / 2)) with ⟨e, -⟩ | ⟨e, -⟩ <;>
          rw [e] at this <;> nlinarith
  · rintro ⟨h1, h2⟩
    have hk0 : (0 : K) ≤ k := by positivity
    refine ⟨by nlinarith, by nlinarith, fun z hz => ?_⟩
    obtain ⟨j, hj, rfl⟩ := List.mem_map.1 hz
    rw [hc]
    have hle : |x - (a + (k : K) * w + w / 2)| ≤ w / 2 := by
      rw [abs_le]; constructor <;> linarith
    rcases lt_trichotomy j k with hjk | rfl | hjk
    · have : (j : K) + 1 ≤ k := by exact_mod_cast hjk
      refine hle.trans (le_trans ?_ (le_abs_self _))
      nlinarith
    · exact le_refl _
    · have : (k : K) + 1 ≤ j := by exact_mod_cast hjk
      refine hle.trans (le_trans ?_ (neg_le_abs _))
      nlinarith

/-- The samples of a one-dimensional regular grid of at least two points all have exact volume
`1/n`. -/
theorem C45_volumes {argsort : List K → List Nat} (hA : IsArgsort argsort) {size : Nat}
    {obj : InputObj K} {nums : GridNums} {s : SampleSet K} {a b : K} {n : Nat}
    (hs : obj.toSet .badObject = .ok s) (hdim : s.dim = 1) (hfresh : s.glob = {})
    (hn : nums.perDim 1 = [n]) (hd : domainOrUnit s = [(a, b)]) (hab : a < b) (h2 : 2 ≤ n) :
    ∃ t u, regularSampleSet size obj nums = .ok t ∧ t.exactVolume1D argsort size = .ok u ∧
      u.glob.values = t.glob.values ∧ u.glob.volumes = some (List.replicate n (1 / (n : K))) := by
  have hn' : (nums.perDim s.dim).length = s.dim := by rw [hdim, hn]; rfl
  have hd' : (domainOrUnit s).length = s.dim := by rw [hdim, hd]; rfl
  obtain ⟨t, ht, htc⟩ := C45_defined (size := size) hs hn' hd' (by rw [hdim, hn]; simp; omega) hfresh
  obtain ⟨htdim, htdom, htv⟩ := regular_ok hs hn' hd' ht
  rw [hdim, hn, hd] at htv
  have hprod : product (List.zipWith centres [(a, b)] [n]) = (centres (a, b) n).map fun x => [x] := by
    simp [product]
    induction centres (a, b) n with
    | nil => rfl
    | cons x xs ih => simp [ih]
  rw [hprod] at htv
  have hnpos : (0 : K) < n := by
    have : 0 < n := by omega
    exact_mod_cast this
  obtain ⟨v, hv1, -, -, -, hvin, hvnd⟩ := C45_midpoints hs hn' hd' ht
  rw [htv] at hv1
  cases hv1
  have hlen := length_centres (a, b) n
  have hcons : Consistent t (centres (a, b) n).length := by
    rw [hlen]
    rw [hdim, hn] at htc
    simpa using htc
  have hnd : (centres (a, b) n).Nodup := by
    refine List.Nodup.of_map _ (hvnd ?_)
    rw [hd]
    simpa using hab
  have hin : ∀ x ∈ centres (a, b) n, a ≤ x ∧ x ≤ b := by
    intro x hx
    have := hvin (by rw [hd]; simpa using hab.le) [x] (List.mem_map.2 ⟨x, hx, rfl⟩)
    rw [hd] at this
    cases this with
    | cons h _ => exact h
  obtain ⟨u, vols, hu, huv, huval, hcell, hvl, -, -⟩ := C21_exact_length_partial (size := size) hA
    hcons (by rw [htdim, hdim]) (by rw [htdom, hd]) htv (by omega) hnd hin
  refine ⟨t, u, ht, hu, huval, ?_⟩
  rw [huv]
  congr 1
  refine List.ext_getElem? fun i => ?_
  by_cases hi : i < n
  · obtain ⟨l, r, hlr, hc, hvi⟩ := hcell i (cellCentre (a, b) n i) (by
      simp [centres, List.getElem?_range hi, hi])
    rw [nearestCell_centres hab hi] at hc
    have hE : cellEdge (a, b) n (i + 1) - cellEdge (a, b) n i = (b - a) / (n : K) := by
      simp only [cellEdge]
      push_cast
      ring
    have hwpos : 0 < (b - a) / (n : K) := div_pos (by linarith) hnpos
    have hle : cellEdge (a, b) n i ≤ cellEdge (a, b) n (i + 1) := by linarith
    have h1 : l = cellEdge (a, b) n i := by
      have e1 : l ∈ Set.Icc (cellEdge (a, b) n i) (cellEdge (a, b) n (i + 1)) := by
        rw [hc]; exact ⟨le_refl _, hlr⟩
      have e2 : cellEdge (a, b) n i ∈ Set.Icc l r := by rw [← hc]; exact ⟨le_refl _, hle⟩
      exact le_antisymm e2.1 e1.1
    have h2 : r = cellEdge (a, b) n (i + 1) := by
      have e1 : r ∈ Set.Icc (cellEdge (a, b) n i) (cellEdge (a, b) n (i + 1)) := by
        rw [hc]; exact ⟨hlr, le_refl _⟩
      have e2 : cellEdge (a, b) n (i + 1) ∈ Set.Icc l r := by rw [← hc]; exact ⟨hle, le_refl _⟩
      exact le_antisymm e1.2 e2.2
    rw [hvi, h1, h2, hE, List.getElem?_replicate, if_pos hi]
    congr 1
    have : b - a ≠ 0 := by linarith
    field_simp
  · rw [List.getElem?_eq_none (by omega), List.getElem?_eq_none (by simp; omega)]

end c45

namespace Ex

example : ((regularSampleSet 2 (.domain [((0 : ℚ), 1), (0, 3)]) (.vector [2, 3])).toOption.bind
    fun t => t.glob.values) =
    some [[1/4, 1/2], [1/4, 3/2], [1/4, 5/2], [3/4, 1/2], [3/4, 3/2], [3/4, 5/2]] := by
  decide +kernel

example : ((regularSampleSet 2 (.dim 1 : InputObj ℚ) (.scalar 4)).toOption.bind
    fun t => t.glob.values) = some [[1/8], [3/8], [5/8], [7/8]] := by
  decide +kernel

/-- A grid without points raises `ValueError`. -/
example : errOf (regularSampleSet 2 (.dim 2 : InputObj ℚ) (.vector [3, 0])) = some .valueError := by
  decide +kernel

/-- A surplus number is not noticed when the grid has one point: the point is repeated. -/
example : ((regularSampleSet 2 (.dim 1 : InputObj ℚ) (.vector [1, 3])).toOption.bind
    fun t => t.glob.values) = some [[1/2], [1/2], [1/2]] := by
  decide +kernel

end Ex

end BET
