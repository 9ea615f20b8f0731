import Verif.Props.Workflow

/-!
# The boxes of a regular partition as functions of its rectangle
-/

set_option linter.unusedSectionVars false
set_option linter.unusedSimpArgs false
set_option autoImplicit false

namespace BET

open Spec

variable {K : Type} [Field K] [LinearOrder K] [IsStrictOrderedRing K]

/-- The places of the boxes of a grid with `ns` intervals: for every box the dimensions with the numbers of its
intervals. -/
def boxPlaces (ns : List Nat) : List (List (Nat × Nat)) :=
  gridRows ((List.range ns.length).map fun k => (List.range (ns.getD k 0)).map fun i => (k, i))

/-- An interval of a grid. -/
def placeInterval (q rs : List K) (ns : List Nat) (p : Nat × Nat) : K × K :=
  (q.getD p.1 0 - rs.getD p.1 0 / 2 + p.2 * (rs.getD p.1 0 / (ns.getD p.1 0 : K)),
    q.getD p.1 0 - rs.getD p.1 0 / 2 + (p.2 + 1) * (rs.getD p.1 0 / (ns.getD p.1 0 : K)))

theorem intervals_linspace (a b : K) {n : Nat} :
    intervals (linspace a b (n + 1)) = (List.range n).map fun (i : Nat) =>
      (a + (i : K) * ((b - a) / (n : K)), a + ((i : K) + 1) * ((b - a) / (n : K))) := by
  apply List.ext_getElem?
  intro i
  unfold intervals linspace
  by_cases hi : i < n
  · have h1 : i < n + 1 - 1 := by omega
    simp [List.zip, List.getElem?_zipWith, List.getElem?_dropLast, List.getElem?_tail, hi, Nat.succ_lt_succ hi,
      List.getElem?_range, List.getElem?_map, Nat.lt_succ_of_lt hi, List.dropLast_eq_take, List.getElem?_take]
  · rw [List.getElem?_eq_none (by simp; omega), List.getElem?_eq_none (by simp; omega)]

theorem cartRows_places {dim : Nat} {q rs : List K} {ns : List Nat} (hq : q.length = dim) (hrs : rs.length = dim)
    (hns : ns.length = dim) {xi : List (List K)} (hxl : xi.length = dim)
    (hxi : ∀ k, k < dim → ∃ a b n, (List.zipWith (fun q r => q - 1 / 2 * r) q rs)[k]? = some a ∧
      (List.zipWith (fun q r => q + 1 / 2 * r) q rs)[k]? = some b ∧ ns[k]? = some n ∧
      xi[k]? = some (linspace a b (n + 1))) :
    cartRows xi = (boxPlaces ns).map (List.map (placeInterval q rs ns)) := by
  unfold cartRows boxPlaces
  rw [← gridRows_map, List.map_map]
  congr 1
  apply List.ext_getElem?
  intro k
  by_cases hk : k < dim
  · obtain ⟨a, b, n, ha, hb, hn, hx⟩ := hxi k hk
    have hqk : q[k]? = some q[k] := List.getElem?_eq_getElem (by omega)
    have hrk : rs[k]? = some rs[k] := List.getElem?_eq_getElem (by omega)
    rw [List.getElem?_zipWith, hqk, hrk] at ha hb
    have ha := Option.some.inj ha
    have hb := Option.some.inj hb
    rw [List.getElem?_map, hx, List.getElem?_map, List.getElem?_range (by omega)]
    simp only [Option.map_some, Function.comp, List.map_map, intervals_linspace, List.getD_eq_getElem?_getD, hn,
      Option.getD_some]
    congr 1
    refine List.map_congr_left fun i _ => ?_
    simp only [Function.comp, placeInterval, List.getD_eq_getElem?_getD, hqk, hrk, hn, Option.getD_some]
    have e1 : b - a = rs[k] := by rw [← ha, ← hb]; ring
    have e2 : a = q[k] - rs[k] / 2 := by rw [← ha]; ring
    rw [e1, e2]
  · rw [List.getElem?_eq_none (by simp; omega), List.getElem?_eq_none (by simp; omega)]

/-- The boxes of `regular_partition_uniform_distribution_rectangle_size`: the place of a box in the grid depends on the
numbers of cells alone. -/
theorem regular_boxes {e : Nat} (hdim : 0 < e) {cells : CellArg} {ns : List Nat} (hns : ns.length = e)
    (hcells : UsedCells cells ns) (hn : ∀ n ∈ ns, 0 < n) :
    ∃ place : Nat → Fin e → Nat, ∀ (G : Geometry K) (q rs : List K), q.length = e → rs.length = e →
      (∀ r ∈ rs, 0 < r) →
      ∃ t : SampleSet K, Ready t (ns.prod + 1) ∧ IsRegularPartition t q rs ns ∧
        (∀ (size : Nat) (ds : DataSet K) (q' : Option (List K)) (inp : Inputs K) (a : NumArg K),
          ds.checkInputs size q' = .ok (inp, q) → inp.dim = e → sizeArray e a = .ok rs →
          regularSize G size ds q' a cells = ds.attach G size t) ∧
        ∀ c < ns.prod, ∀ y : Fin e → K, InRectangle t (List.ofFn y) c ↔ ∀ k : Fin e,
          (placeInterval q rs ns (k, place c k)).1 < y k ∧ y k ≤ (placeInterval q rs ns (k, place c k)).2 := by
  refine ⟨fun c k => (((boxPlaces ns).getD c []).getD k (0, 0)).2, fun G q rs hq hrs hpos => ?_⟩
  obtain ⟨t, h1, h2, h3, xi, hxl, hxi, h4⟩ := regularSize_grid G hdim hrs hq hpos hns hcells hn
  refine ⟨t, h1, h2, h3, fun c hc y => ?_⟩
  have hcr := cartRows_places hq hrs hns hxl hxi
  have hne : xi ≠ [] := by rintro rfl; simp at hxl; omega
  have hlen : (cartRows xi).length = ns.prod := by
    rw [length_cartRows hne]
    unfold numCells
    congr 1
    apply List.ext_getElem?
    intro k
    by_cases hk : k < e
    · obtain ⟨a, b, n, -, -, hn, hx⟩ := hxi k hk
      simp [hx, hn, length_linspace]
    · rw [List.getElem?_eq_none (by simp; omega), List.getElem?_eq_none (by omega)]
  have hc1 : c < (cartRows xi).length := by omega
  have hc2 : c < (boxPlaces ns).length := by rw [hcr, List.length_map] at hc1; exact hc1
  rw [h4, inRectangle_cart _ xi _ c hc1 (by simp [hxl])]
  have hmem : (boxPlaces ns)[c] ∈ boxPlaces ns := List.getElem_mem hc2
  have hrow : (cartRows xi)[c] = (boxPlaces ns)[c].map (placeInterval q rs ns) := by
    have : (cartRows xi)[c]? = some ((boxPlaces ns)[c].map (placeInterval q rs ns)) := by
      rw [hcr, List.getElem?_map, List.getElem?_eq_getElem hc2]; rfl
    rw [List.getElem?_eq_getElem hc1] at this
    exact Option.some.inj this
  rw [hrow]
  have hpl := (mem_gridRows _ (by rintro h; have := congrArg List.length h; simp only [List.length_map, List.length_range, List.length_nil] at this; omega) _).1 hmem
  have hl : (boxPlaces ns)[c].length = e := by rw [hpl.length_eq]; simp [hns]
  have hfst : ∀ k (hk : k < e), (boxPlaces ns)[c][k] = (k, (((boxPlaces ns).getD c []).getD k (0, 0)).2) := by
    intro k hk
    have := (List.forall₂_iff_get.1 hpl).2 k (by omega) (by simp; omega)
    simp only [List.get_eq_getElem, List.getElem_map, List.getElem_range, List.mem_map] at this
    obtain ⟨i, -, hi⟩ := this
    rw [List.getD_eq_getElem?_getD, List.getD_eq_getElem?_getD, List.getElem?_eq_getElem hc2, Option.getD_some,
      List.getElem?_eq_getElem (by omega), Option.getD_some, ← hi]
  rw [List.forall₂_iff_get]
  constructor
  · rintro ⟨-, h⟩ k
    have := h k (by simp [hl]) (by simp)
    simp only [List.get_eq_getElem, List.getElem_map, List.getElem_ofFn, hfst k k.2] at this
    exact this
  · intro h
    refine ⟨by simp [hl], fun k hk1 hk2 => ?_⟩
    have hk : k < e := by simpa using hk2
    have := h ⟨k, hk⟩
    simp only [List.get_eq_getElem, List.getElem_map, List.getElem_ofFn, hfst k hk]
    exact this

end BET
