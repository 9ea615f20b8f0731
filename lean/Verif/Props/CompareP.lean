import Verif.Props.Distances
import Verif.Props.RandomSampling

/-!
# C59, C60: histories of distance calls, comparison sets
-/

set_option linter.unusedSectionVars false
set_option linter.unusedSimpArgs false
set_option autoImplicit false

namespace BET

open Spec

variable {K : Type} [Field K] [LinearOrder K]

/-! ### C59 -/

/-- A sequence of calls of `distance` on one object, and what they return. -/
def Spec.runDistances (sqrt : K → K) (c : Compare K) : List (Functional K × Bool) → Except Err (List K)
  | [] => .ok []
  | (fn, b) :: rest => do
    let r ← c.distance sqrt fn b
    let ds ← Spec.runDistances sqrt r.2 rest
    pure (r.1 :: ds)

section hist

variable [IsStrictOrderedRing K]

theorem densN_idem {b : Bool} {P : List K} (h : b = true → P.sum ≠ 0) :
    densN b (densN b P) = densN b P := by
  cases b
  · rfl
  · simp only [densN, if_true]
    rw [sum_normalized (h rfl)]
    simp

theorem facN_densN (b : Bool) (P : List K) : facN b (densN b P) = facN b P := by
  simp [facN, length_densN]

/-- The densities are already stored. -/
def Cached (c : Compare K) (b : Bool) (P Q : List K) : Prop :=
  c.pdfs1 = some (densN b P) ∧ c.pdfs2 = some (densN b Q) ∧ c.vals.isSome

theorem prepare_cached {c : Compare K} {p q : List K} (h1 : c.pdfs1 = some p) (h2 : c.pdfs2 = some q)
    (h3 : c.vals.isSome) (b : Bool) :
    c.prepare b = (normFactor b p q).map fun r =>
      ({ c with pdfs1 := some r.1.1, pdfs2 := some r.1.2 }, r.2) := by
  have h3' : c.vals.isNone = false := by cases hv : c.vals <;> simp_all
  simp only [Compare.prepare, h3', Compare.ensurePdfs, h1, h2, Option.isNone_some, Bool.or_self,
    Bool.false_eq_true, if_false, ok_bind, orErr_some, raiseIf_false]
  cases normFactor b p q <;> rfl

/-- What `distance` does once the densities `p`, `q` and the factor are known. -/
def finish (sqrt : K → K) (r : (List K × List K) × K) : Functional K → Except Err (K × (List K × List K))
  | .hell => do
    let r' ← normFactor false r.1.1 r.1.2
    let d ← applyFn sqrt r'.2 r'.1.1 r'.1.2 .sqhell
    pure (sqrt d, r'.1)
  | f => do
    let d ← applyFn sqrt r.2 r.1.1 r.1.2 f
    pure (d, r.1)

theorem distance_of_prepare {sqrt : K → K} {c : Compare K} {b : Bool}
    {n : Except Err ((List K × List K) × K)} (hv : c.vals.isSome)
    (h : c.prepare b = n.map fun r => ({ c with pdfs1 := some r.1.1, pdfs2 := some r.1.2 }, r.2))
    (fn : Functional K) :
    c.distance sqrt fn b = (n.bind fun r => finish sqrt r fn).map fun e =>
      (e.1, { c with pdfs1 := some e.2.1, pdfs2 := some e.2.2 }) := by
  unfold Compare.distance
  rw [h]
  cases n with
  | error x => rfl
  | ok r =>
    cases fn with
    | hell =>
      simp only [Except.map, Except.bind, ok_bind, finish]
      rw [prepare_cached rfl rfl (by exact hv)]
      cases normFactor false r.1.1 r.1.2 with
      | error x => rfl
      | ok r' =>
        simp only [Except.map, ok_bind, Compare.value, orErr_some]
        cases applyFn sqrt r'.2 r'.1.1 r'.1.2 .sqhell <;> rfl
    | _ =>
      simp only [Except.map, Except.bind, ok_bind, finish, Compare.value, orErr_some]
      generalize applyFn sqrt r.2 r.1.1 r.1.2 _ = z
      cases z <;> rfl

theorem finish_state {sqrt : K → K} {r : (List K × List K) × K} {fn : Functional K}
    {e : K × (List K × List K)} (h : finish sqrt r fn = .ok e) : e.2 = r.1 := by
  cases fn with
  | hell =>
    simp only [finish, bind_eq_ok, pure_eq_ok] at h
    obtain ⟨r', h1, d, -, rfl⟩ := h
    obtain ⟨-, -, rfl⟩ := normFactor_eq_ok.mp h1
    rfl
  | _ =>
    simp only [finish, bind_eq_ok, pure_eq_ok] at h
    obtain ⟨d, -, rfl⟩ := h
    rfl

/-- C59 (part): as long as all calls use the same value of `normalize` and the comparison points stay,
every call in a sequence returns what it would return as the first call. -/
theorem C59_history_partial {sqrt : K → K} {c : Compare K} {P Q : List K} (h : Compares c P Q)
    (b : Bool) (fns : List (Functional K)) :
    runDistances sqrt c (fns.map fun fn => (fn, b)) =
      fns.mapM fun fn => (c.distance sqrt fn b).map Prod.fst := by
  have hv : c.vals.isSome := by
    obtain ⟨-, -, v, h3, -⟩ := h
    simp [h3]
  have hfresh : ∀ fn, c.distance sqrt fn b = ((normFactor b P Q).bind fun r => finish sqrt r fn).map
      fun e => (e.1, { c with pdfs1 := some e.2.1, pdfs2 := some e.2.2 }) :=
    fun fn => distance_of_prepare hv (prepare_fresh h b) fn
  cases hn : normFactor b P Q with
  | error x =>
    cases fns with
    | nil => rfl
    | cons fn fns =>
      simp only [List.map_cons, runDistances, List.mapM_cons, hfresh, hn]
      rfl
  | ok r =>
    obtain ⟨k1, k2, rfl⟩ := normFactor_eq_ok.mp hn
    have hstate : ∀ c' : Compare K, c'.vals.isSome → c'.pdfs1 = some (densN b P) →
        c'.pdfs2 = some (densN b Q) → ∀ fn, c'.distance sqrt fn b =
        (finish sqrt ((densN b P, densN b Q), facN b P) fn).map fun e =>
          (e.1, { c' with pdfs1 := some e.2.1, pdfs2 := some e.2.2 }) := by
      intro c' hv' h1 h2 fn
      have hk : normFactor b (densN b P) (densN b Q) = .ok ((densN b P, densN b Q), facN b P) := by
        refine normFactor_eq_ok.mpr ⟨fun hb => ?_, fun hb => by rw [length_densN]; exact k2 hb, ?_⟩
        · subst hb
          constructor
          · have := sum_normalized (k1 rfl).1
            simp only [densN, if_true, this]; exact one_ne_zero
          · have := sum_normalized (k1 rfl).2
            simp only [densN, if_true, this]; exact one_ne_zero
        · rw [densN_idem fun hb => (k1 hb).1, densN_idem fun hb => (k1 hb).2, facN_densN]
      rw [distance_of_prepare hv' (prepare_cached h1 h2 hv' b) fn, hk]
      rfl
    have hcached : ∀ (fns : List (Functional K)) (c' : Compare K), c'.vals.isSome → c'.pdfs1 = some (densN b P) →
        c'.pdfs2 = some (densN b Q) →
        runDistances sqrt c' (fns.map fun fn => (fn, b)) =
          fns.mapM fun fn => (finish sqrt ((densN b P, densN b Q), facN b P) fn).map Prod.fst := by
      intro fns
      induction fns with
      | nil => intro c' hv' h1 h2; rfl
      | cons fn fns ih =>
        intro c' hv' h1 h2
        simp only [List.map_cons, runDistances, List.mapM_cons]
        rw [hstate c' hv' h1 h2 fn]
        cases hf : finish sqrt ((densN b P, densN b Q), facN b P) fn with
        | error x => rfl
        | ok e =>
          have he := finish_state hf
          simp only [Except.map, ok_bind]
          rw [ih { c' with pdfs1 := some e.2.1, pdfs2 := some e.2.2 } hv' (by rw [he]) (by rw [he])]
          rfl
    have hr : (fun fn => (c.distance sqrt fn b).map Prod.fst) =
        fun fn => (finish sqrt ((densN b P, densN b Q), facN b P) fn).map Prod.fst := by
      funext fn
      rw [hfresh, hn]
      simp only [Except.bind]
      cases finish sqrt ((densN b P, densN b Q), facN b P) fn <;> rfl
    rw [hr]
    cases fns with
    | nil => rfl
    | cons fn fns =>
      simp only [List.map_cons, runDistances, List.mapM_cons]
      rw [hfresh, hn]
      simp only [Except.bind]
      cases hf : finish sqrt ((densN b P, densN b Q), facN b P) fn with
      | error x => rfl
      | ok e =>
        have he := finish_state hf
        simp only [Except.map, ok_bind]
        rw [hcached fns { c with pdfs1 := some e.2.1, pdfs2 := some e.2.2 } hv (by rw [he]) (by rw [he])]
        rfl

/-- C59 (part): while no distance has been computed, `set_compare_set` with an array or a set replaces
the comparison points, and the densities of later distances are those at the new points. -/
theorem C59_current_partial (st : Stats K) (size : Nat) {c c' : Compare K} {factor : K}
    {arg : CompareArg K} (h1 : c.pdfs1 = none) (h2 : c.pdfs2 = none)
    (h : c.setCompareSet st size factor arg = .ok c') :
    c'.pdfs1 = none ∧ c'.pdfs2 = none ∧ c'.dens1 = c.dens1 ∧ c'.dens2 = c.dens2 ∧
      (∀ m rows, arg = .array m rows → c'.vals = some rows) ∧
      (∀ s v, arg = .set s → s.loc.values = none → s.glob.values = some v → c'.vals = some v) ∧
      (∀ s v, arg = .set s → s.loc.values = some v → c'.vals = some v.flatten) := by
  cases arg with
  | other => cases h
  | array m rows =>
    simp only [Compare.setCompareSet, bind_eq_ok, pure_eq_ok] at h
    obtain ⟨_, -, rfl⟩ := h
    refine ⟨h1, h2, rfl, rfl, fun m' rows' e => ?_,
      fun s' v' e => ?_, fun s' v' e => ?_⟩
    · injection e with e1 e2; rw [e2]
    · cases e
    · cases e
  | set s =>
    simp only [Compare.setCompareSet, bind_eq_ok, pure_eq_ok] at h
    obtain ⟨_, -, _, -, rfl⟩ := h
    refine ⟨h1, h2, rfl, rfl, fun m' rows' e => (by cases e), ?_, ?_⟩
    · intro s' v e e1 e2
      injection e with e
      subst e
      simp [SampleSet.localToGlobal, Arrays.map₂, e1, e2, SampleSet.gatherArr]
    · intro s' v e e1
      injection e with e
      subst e
      simp [SampleSet.localToGlobal, Arrays.map₂, e1, SampleSet.gatherArr, getGlobalValues]
  | int n =>
    simp only [Compare.setCompareSet, bind_eq_ok, pure_eq_ok] at h
    obtain ⟨_, -, _, -, _, -, _, -, rfl⟩ := h
    exact ⟨h1, h2, rfl, rfl, fun m' rows' e => (by cases e), fun s' v' e => (by cases e),
      fun s' v' e => (by cases e)⟩

/-- C59 fails: once a distance has been computed, later comparison sets have no effect on the distances
the object returns. -/
theorem C59_negation_stale {sqrt : K → K} (st : Stats K) (size : Nat) {c c' : Compare K} {factor : K}
    {arg : CompareArg K} (h1 : c.pdfs1.isSome) (h2 : c.pdfs2.isSome) (h3 : c.vals.isSome)
    (h : c.setCompareSet st size factor arg = .ok c') (hv : c'.vals.isSome) (fn : Functional K)
    (b : Bool) :
    (c'.distance sqrt fn b).map Prod.fst = (c.distance sqrt fn b).map Prod.fst := by
  have hc : c'.pdfs1 = c.pdfs1 ∧ c'.pdfs2 = c.pdfs2 := by
    cases arg with
    | other => cases h
    | array m rows =>
      simp only [Compare.setCompareSet, bind_eq_ok, pure_eq_ok] at h
      obtain ⟨_, -, rfl⟩ := h
      exact ⟨rfl, rfl⟩
    | set s =>
      simp only [Compare.setCompareSet, bind_eq_ok, pure_eq_ok] at h
      obtain ⟨_, -, _, -, rfl⟩ := h
      exact ⟨rfl, rfl⟩
    | int n =>
      simp only [Compare.setCompareSet, bind_eq_ok, pure_eq_ok] at h
      obtain ⟨_, -, _, -, _, -, _, -, rfl⟩ := h
      exact ⟨rfl, rfl⟩
  obtain ⟨p, hp⟩ := Option.isSome_iff_exists.mp h1
  obtain ⟨q, hq⟩ := Option.isSome_iff_exists.mp h2
  rw [distance_of_prepare hv (prepare_cached (hc.1.trans hp) (hc.2.trans hq) hv b) fn,
    distance_of_prepare h3 (prepare_cached hp hq h3 b) fn]
  cases (normFactor b p q).bind fun r => finish sqrt r fn <;> rfl

end hist

/-! ### C60 -/

section box

/-- `x` is the least, `y` the greatest member of `l`. -/
def Spec.Extremes (l : List K) (x y : K) : Prop :=
  (x ∈ l ∧ ∀ z ∈ l, x ≤ z) ∧ (y ∈ l ∧ ∀ z ∈ l, z ≤ y)

/-- `n` points were drawn, on all processes together, from the uniform distribution on a box. -/
def Spec.UniformOn (st : Stats K) (size : Nat) (box : List (K × K)) (n : Nat) (v : List (List K)) :
    Prop :=
  ∃ chunks, Drawn st (box.map fun ab => ⟨"uniform", [("loc", ab.1), ("scale", ab.2 - ab.1)]⟩) n size
    chunks ∧ v = chunks.flatten ∧ v.length = n

/-- A point lies in a box. -/
def Spec.InIntervals (box : List (K × K)) (r : List K) : Prop :=
  List.Forall₂ (fun x ab => ab.1 ≤ x ∧ x ≤ ab.2) r box

theorem colMin_eq_ok {rows : List (List K)} {i : Nat} {x : K} (h : colMin rows i = .ok x) :
    ∃ col, IsColumn rows i col ∧ x ∈ col ∧ ∀ z ∈ col, x ≤ z := by
  simp only [colMin, bind_eq_ok, orErr_eq_ok] at h
  obtain ⟨col, h1, h2⟩ := h
  refine ⟨col, ?_, (List.min?_eq_some_iff.mp h2).1, (List.min?_eq_some_iff.mp h2).2⟩
  have := (mapM_eq_ok _ _ _).1 h1
  unfold IsColumn
  clear h1 h2
  induction this with
  | nil => rfl
  | cons e _ ih => simp only [List.map_cons, ih, (getIdx_eq_ok _ _ _).mp e]

theorem colMax_eq_ok {rows : List (List K)} {i : Nat} {x : K} (h : colMax rows i = .ok x) :
    ∃ col, IsColumn rows i col ∧ x ∈ col ∧ ∀ z ∈ col, z ≤ x := by
  simp only [colMax, bind_eq_ok, orErr_eq_ok] at h
  obtain ⟨col, h1, h2⟩ := h
  refine ⟨col, ?_, (List.max?_eq_some_iff.mp h2).1, (List.max?_eq_some_iff.mp h2).2⟩
  have := (mapM_eq_ok _ _ _).1 h1
  unfold IsColumn
  clear h1 h2
  induction this with
  | nil => rfl
  | cons e _ ih => simp only [List.map_cons, ih, (getIdx_eq_ok _ _ _).mp e]

theorem isColumn_unique {rows : List (List K)} {i : Nat} {c c' : List K} (h : IsColumn rows i c)
    (h' : IsColumn rows i c') : c = c' := by
  unfold IsColumn at h h'
  rw [h] at h'
  exact List.map_injective_iff.mpr (Option.some_injective K) h'

/-- C60 (what the code does): the points are drawn from a cube with the same side in every direction:
from the least value of the last coordinate of all samples, minus `compare_factor` times the range,
to the greatest value of the last coordinate. -/
theorem C60_box (st : Stats K) {size : Nat} (hsize : 0 < size) {c c' : Compare K} {factor : K} {n : Nat}
    {v1 v2 : List (List K)} (h1 : c.set1.glob.values = some v1) (h2 : c.set2.glob.values = some v2)
    (h : c.setCompareSet st size factor (.int n) = .ok c') :
    ∃ col lo hi v, IsColumn (v1 ++ v2) (c.set1.dim - 1) col ∧ Extremes col lo hi ∧
      c'.vals = some v ∧
      UniformOn st size (List.replicate c.set1.dim (lo - factor * (hi - lo), hi)) n v := by
  simp only [Compare.setCompareSet, bind_eq_ok, pure_eq_ok, h1, h2, orErr_some, ok_bind] at h
  obtain ⟨rv, hrv, u, hu, rfl⟩ := h
  simp only [Compare.rvLast, bind_eq_ok, orErr_eq_ok] at hrv
  obtain ⟨rs, hrs, hlast⟩ := hrv
  have hdim : 0 < c.set1.dim := by
    by_contra hc
    have : c.set1.dim = 0 := by omega
    rw [this] at hrs
    cases hrs
    cases hlast
  have hf := (mapM_eq_ok _ _ _).1 hrs
  have hlen : c.set1.dim = rs.length := by simpa using hf.length_eq
  have hrv : Compare.rvLoc factor (v1 ++ v2) (c.set1.dim - 1) = .ok rv := by
    rw [List.getLast?_eq_getElem?] at hlast
    obtain ⟨hl, he⟩ := List.getElem?_eq_some_iff.mp hlast
    have := hf.get (i := c.set1.dim - 1) (by simp; omega) (by omega)
    simp only [List.get_eq_getElem, List.getElem_range] at this
    rw [this]
    congr 1
    rw [← he]
    congr 1
    omega
  simp only [Compare.rvLoc, bind_eq_ok, pure_eq_ok] at hrv
  obtain ⟨lo, hlo, hi, hhi, rfl⟩ := hrv
  obtain ⟨col, hc1, hm1, hm2⟩ := colMin_eq_ok hlo
  obtain ⟨col', hc2, hm3, hm4⟩ := colMax_eq_ok hhi
  obtain rfl := isColumn_unique hc1 hc2
  obtain ⟨specs, chunks, dom, hd, -, hdr, -, -, -, -, hn, hg, -⟩ :=
    C76_draws hsize (Space.dim c.set1.dim) hu
  refine ⟨col, lo, hi, chunks.flatten, hc1, ⟨⟨hm1, hm2⟩, hm3, hm4⟩, hg rfl, chunks, ?_, rfl, hn⟩
  cases hd
  rw [List.map_replicate]
  have : hi - lo + factor * (hi - lo) = hi - (lo - factor * (hi - lo)) := by ring
  rw [← this]
  exact hdr

/-- C60 (part): if the values of all coordinates lie in the range of the last coordinate - in particular
for one-dimensional sets - and `compare_factor ≥ 0`, the box contains all values of both sets. -/
theorem C60_contains_partial [IsStrictOrderedRing K] (st : Stats K) {size : Nat} (hsize : 0 < size)
    {c c' : Compare K} {factor : K} (hfac : 0 ≤ factor) {n : Nat} {v1 v2 : List (List K)}
    (h1 : c.set1.glob.values = some v1) (h2 : c.set2.glob.values = some v2)
    (hr : ∀ r ∈ v1 ++ v2, r.length = c.set1.dim)
    (hlast : ∀ r ∈ v1 ++ v2, ∀ x ∈ r, ∃ r' ∈ v1 ++ v2, ∃ r'' ∈ v1 ++ v2,
      r'.getD (c.set1.dim - 1) 0 ≤ x ∧ x ≤ r''.getD (c.set1.dim - 1) 0)
    (h : c.setCompareSet st size factor (.int n) = .ok c') :
    ∃ box v, c'.vals = some v ∧ UniformOn st size box n v ∧ ∀ r ∈ v1 ++ v2, InIntervals box r := by
  obtain ⟨col, lo, hi, v, hc, hex, hv, hu⟩ := C60_box st hsize h1 h2 h
  refine ⟨_, v, hv, hu, fun r hrm => ?_⟩
  have hmem : ∀ r' ∈ v1 ++ v2, c.set1.dim ≠ 0 → r'.getD (c.set1.dim - 1) 0 ∈ col := by
    intro r' hr' h0
    have hl := hr r' hr'
    have : some (r'.getD (c.set1.dim - 1) 0) ∈ col.map some := by
      rw [← hc, List.mem_map]
      refine ⟨r', hr', ?_⟩
      rw [List.getD_eq_getElem?_getD, List.getElem?_eq_getElem (by omega)]
      rfl
    obtain ⟨y, hy, hye⟩ := List.mem_map.mp this
    cases hye
    exact hy
  have hlh : lo ≤ hi := hex.1.2 _ hex.2.1
  rw [InIntervals, List.forall₂_iff_get]
  refine ⟨by simp [hr r hrm], fun i hi1 hi2 => ?_⟩
  simp only [List.get_eq_getElem, List.getElem_replicate]
  have hd0 : c.set1.dim ≠ 0 := by
    have := hr r hrm
    omega
  obtain ⟨r', hr', r'', hr'', hle, hge⟩ := hlast r hrm r[i] (List.getElem_mem hi1)
  have a := hex.1.2 _ (hmem r' hr' hd0)
  have b := hex.2.2 _ (hmem r'' hr'' hd0)
  have := mul_nonneg hfac (sub_nonneg.mpr hlh)
  constructor <;> linarith

/-- C60 fails: the box is never enlarged upwards.  If the random numbers lie in the support of their
distribution, no comparison point exceeds the greatest value of the last coordinate. -/
theorem C60_negation_upper (st : Stats K) {size : Nat} (hsize : 0 < size) {c c' : Compare K}
    {factor : K} {n : Nat} {v1 v2 : List (List K)}
    (hst : ∀ r i a w m col, st.rvs r i ⟨"uniform", [("loc", a), ("scale", w)]⟩ m = .ok col →
      ∀ x ∈ col, a ≤ x ∧ x ≤ a + w)
    (h1 : c.set1.glob.values = some v1) (h2 : c.set2.glob.values = some v2)
    (h : c.setCompareSet st size factor (.int n) = .ok c') :
    ∃ col lo hi v, IsColumn (v1 ++ v2) (c.set1.dim - 1) col ∧ Extremes col lo hi ∧
      c'.vals = some v ∧ ∀ r ∈ v, ∀ x ∈ r, lo - factor * (hi - lo) ≤ x ∧ x ≤ hi := by
  obtain ⟨col, lo, hi, v, hc, hex, hv, chunks, hdr, rfl, hn⟩ := C60_box st hsize h1 h2 h
  refine ⟨col, lo, hi, _, hc, hex, hv, fun r hr x hx => ?_⟩
  obtain ⟨ch, hch, hrc⟩ := List.mem_flatten.1 hr
  obtain ⟨k, hk, rfl⟩ := List.getElem_of_mem hch
  obtain ⟨-, hl, hcol⟩ := hdr.2 k _ (List.getElem?_eq_getElem hk)
  obtain ⟨i, hi', rfl⟩ := List.getElem_of_mem hx
  have hil : i < c.set1.dim := by
    have := hl r hrc
    simp at this
    omega
  obtain ⟨cl, hcl, hic⟩ := hcol i ⟨"uniform", [("loc", lo - factor * (hi - lo)),
    ("scale", hi - (lo - factor * (hi - lo)))]⟩ (by simp [hil])
  have hm : r[i] ∈ cl := by
    have : some r[i] ∈ cl.map some := by
      rw [← hic, List.mem_map]
      exact ⟨r, hrc, List.getElem?_eq_getElem hi'⟩
    obtain ⟨y, hy, hye⟩ := List.mem_map.mp this
    cases hye
    exact hy
  have := hst _ _ _ _ _ _ hcl _ hm
  have e : lo - factor * (hi - lo) + (hi - (lo - factor * (hi - lo))) = hi := by ring
  rw [e] at this
  exact this

/-! #### The interval for marginals -/

/-- C60 (part): if both sets have domains and that of the second lies in that of the first, the automatic
interval contains both and is enlarged by `compare_factor` in both directions. -/
theorem C60_interval_partial [IsStrictOrderedRing K] {c : Compare K} {i : Nat} {factor : K}
    (hfac : 0 ≤ factor) {d1 d2 : List (K × K)} (h1 : c.set1.domain = some d1)
    (h2 : c.set2.domain = some d2) {a b a' b' : K} (hab : a ≤ b) (hi : d1[i]? = some (a, b))
    (_hi' : d2[i]? = some (a', b')) (hin : a ≤ a' ∧ b' ≤ b) :
    ∃ x y, c.autoInterval i factor = .ok (x, y) ∧ x = a - factor * (b - a) ∧
      y = b + factor * (b - a) ∧ x ≤ a ∧ b ≤ y ∧ x ≤ a' ∧ b' ≤ y := by
  refine ⟨a - factor * (b - a), b + factor * (b - a), ?_, rfl, rfl, ?_⟩
  · simp only [Compare.autoInterval, h1, h2, getIdx, hi, ok_bind, min_self]
    rfl
  · have := mul_nonneg hfac (sub_nonneg.mpr hab)
    refine ⟨?_, ?_, ?_, ?_⟩ <;> linarith [hin.1, hin.2]

theorem col_length {rows : List (List K)} {i : Nat} {col : List K} (h : IsColumn rows i col) :
    col.length = rows.length := by
  have := congrArg List.length h
  simpa using this.symm

/-- C60 (part): if a domain is missing and the sets have equally many samples, the automatic interval
contains the `i`-th coordinates of all samples of both sets and is enlarged in both directions. -/
theorem C60_values_partial [IsStrictOrderedRing K] {c : Compare K} {i : Nat} {factor : K}
    (hfac : 0 ≤ factor) (hd : c.set1.domain = none ∨ c.set2.domain = none) {v1 v2 : List (List K)}
    (h1 : c.set1.glob.values = some v1) (h2 : c.set2.glob.values = some v2)
    (hl : v1.length = v2.length) (hne : v1 ≠ []) {col : List K} (hc : IsColumn (v1 ++ v2) i col) :
    ∃ lo hi x y, c.autoInterval i factor = .ok (x, y) ∧ Extremes col lo hi ∧
      x = lo - factor * (hi - lo) ∧ y = hi + factor * (hi - lo) ∧ ∀ z ∈ col, x ≤ z ∧ z ≤ y := by
  have e : c.autoInterval i factor = (do
    let v1 ← orErr .typeError c.set1.glob.values
    let v2 ← orErr .typeError c.set2.glob.values
    let x ← v1.mapM fun r => getIdx r i
    let y ← v2.mapM fun r => getIdx r i
    raiseIf (x.length ≠ y.length) .valueError
    let lo ← orErr .valueError (x ++ y).min?
    let hi ← orErr .valueError (x ++ y).max?
    pure (lo - factor * (hi - lo), hi + factor * (hi - lo))) := by
    unfold Compare.autoInterval
    rcases hd with hd | hd
    · rw [hd]
    · rw [hd]
      cases c.set1.domain <;> rfl
  have hcl := col_length hc
  rw [List.length_append] at hcl
  have hget : ∀ (rows : List (List K)) (cl : List K), IsColumn rows i cl →
      (rows.mapM fun r => getIdx r i) = .ok cl := by
    intro rows
    induction rows with
    | nil =>
      intro cl h
      cases cl with
      | nil => rfl
      | cons => simp [IsColumn] at h
    | cons r rows ih =>
      intro cl h
      cases cl with
      | nil => simp [IsColumn] at h
      | cons y cl =>
        simp only [IsColumn, List.map_cons, List.cons.injEq] at h
        rw [List.mapM_cons, ih cl h.2]
        simp only [getIdx, h.1, ok_bind]
        rfl
  have hs1 : IsColumn v1 i (col.take v1.length) := by
    have := congrArg (List.take v1.length) hc
    simpa [IsColumn, List.map_append, List.map_take] using this
  have hs2 : IsColumn v2 i (col.drop v1.length) := by
    have := congrArg (List.drop v1.length) hc
    simpa [IsColumn, List.map_append, List.map_drop] using this
  have hcne : col ≠ [] := by
    rintro rfl
    simp only [List.length_nil] at hcl
    exact hne (List.length_eq_zero_iff.mp (by omega))
  obtain ⟨lo, hlo⟩ : ∃ lo, col.min? = some lo := by
    cases hm : col.min? with
    | none => exact (hcne (List.min?_eq_none_iff.mp hm)).elim
    | some x => exact ⟨x, rfl⟩
  obtain ⟨hi, hhi⟩ : ∃ hi, col.max? = some hi := by
    cases hm : col.max? with
    | none => exact (hcne (List.max?_eq_none_iff.mp hm)).elim
    | some x => exact ⟨x, rfl⟩
  have hex : Extremes col lo hi := ⟨List.min?_eq_some_iff.mp hlo, List.max?_eq_some_iff.mp hhi⟩
  refine ⟨lo, hi, _, _, ?_, hex, rfl, rfl, fun z hz => ?_⟩
  · rw [e]
    have hlen : ¬ (col.take v1.length).length ≠ (col.drop v1.length).length := by
      simp; omega
    simp only [h1, h2, orErr_some, ok_bind, hget _ _ hs1, hget _ _ hs2, raiseIf_false hlen,
      List.take_append_drop, hlo, hhi]
    rfl
  · have a := hex.1.2 z hz
    have b := hex.2.2 z hz
    have := mul_nonneg hfac (sub_nonneg.mpr (a.trans b))
    have := mul_nonneg hfac (sub_nonneg.mpr (hex.1.2 _ hex.2.1))
    constructor <;> linarith

/-- C60 fails: without domains, sets with different numbers of samples cannot be compared at all. -/
theorem C60_negation_lengths {c : Compare K} {i : Nat} {factor : K}
    (hd : c.set1.domain = none) {v1 v2 : List (List K)} (h1 : c.set1.glob.values = some v1)
    (h2 : c.set2.glob.values = some v2) (hl : v1.length ≠ v2.length) (num : Nat) (sqrt : K → K)
    (b : Bool) (fn : Functional K) (d : K) :
    c.distanceMarginal sqrt i none num factor b fn ≠ .ok d := by
  intro h
  simp only [Compare.distanceMarginal, Compare.marginalPoints, Compare.autoInterval, hd, h1, h2,
    orErr_some, ok_bind, bind_eq_ok, raiseIf_eq_ok] at h
  obtain ⟨_, ⟨_, ⟨x, hx, y, hy, _, hxy, -⟩, -⟩, -⟩ := h
  have e1 := ((mapM_eq_ok _ _ _).1 hx).length_eq
  have e2 := ((mapM_eq_ok _ _ _).1 hy).length_eq
  exact hl (by rw [e1, e2]; simpa using hxy)

end box

/-! ### Examples -/

namespace Ex

/-- Two densities that depend on the points. -/
def cmpVar : Compare ℚ where
  set1 := { dim := 1 }
  set2 := { dim := 1 }
  dens1 := ⟨fun v => .ok (v.map fun r => r.headD 0), fun x _ => .ok x⟩
  dens2 := ⟨fun v => .ok (v.map fun _ => 1), fun x _ => .ok (x.map fun _ => 1)⟩

/-- Two comparison sets with a distance call in between: the second distance is the first one. -/
theorem C59_negation_reuse :
    ((do
      let c ← cmpVar.setCompareSet fakeStats 1 0 (.array 1 [[1], [3]])
      let r ← c.distance id .tv false
      let c ← r.2.setCompareSet fakeStats 1 0 (.array 1 [[1], [1]])
      let r ← c.distance id .tv false
      pure r.1 : Except Err ℚ)).toOption = some (1/2) ∧
    ((do
      let c ← cmpVar.setCompareSet fakeStats 1 0 (.array 1 [[1], [1]])
      let r ← c.distance id .tv false
      pure r.1 : Except Err ℚ)).toOption = some 0 := by
  decide +kernel

/-- A call with `normalize=True` changes the result of a later call without it. -/
theorem C59_negation_normalize :
    (runDistances id (cmp (K := ℚ) [1, 3] [2, 2] [[0], [1]]) [(.tv, false)]).toOption = some [1/2] ∧
    (runDistances id (cmp (K := ℚ) [1, 3] [2, 2] [[0], [1]]) [(.tv, true), (.tv, false)]).toOption =
      some [1/4, 1/8] := by
  decide +kernel

example : (runDistances id (cmp (K := ℚ) [1, 3] [2, 2] [[0], [1]])
    [(.tv, true), (.sqhell, true), (.tv, true)]).toOption = some [1/4, 1/16, 1/4] := by
  decide +kernel

/-- Two sets in the plane whose coordinates have different ranges. -/
def cmpPlane : Compare ℚ where
  set1 := { dim := 2, glob := { values := some [[0, 5], [1, 6]] } }
  set2 := { dim := 2, glob := { values := some [[1, 5]] } }
  dens1 := ⟨fun v => .ok (v.map fun _ => 1), fun x _ => .ok x⟩
  dens2 := ⟨fun v => .ok (v.map fun _ => 1), fun x _ => .ok x⟩

/-- The points are drawn from `[5, 6] × [5, 6]`, which contains none of the samples' first
coordinates. -/
theorem C60_negation_coordinates :
    (cmpPlane.setCompareSet fakeStats 1 0 (.int 2)).toOption.bind (fun c => c.vals) =
      some [[5, 51/10], [51/10, 26/5]] ∧
    (Compare.rvLast (0 : ℚ) [[0, 5], [1, 6], [1, 5]] 2).toOption =
      some ⟨"uniform", [("loc", 5), ("scale", 1)]⟩ := by
  decide +kernel

/-- One-dimensional sets, enlarged below but not above. -/
def cmpLine : Compare ℚ where
  set1 := { dim := 1, glob := { values := some [[0], [1]] } }
  set2 := { dim := 1, glob := { values := some [[2], [3]] } }
  dens1 := ⟨fun v => .ok (v.map fun _ => 1), fun x _ => .ok x⟩
  dens2 := ⟨fun v => .ok (v.map fun _ => 1), fun x _ => .ok x⟩

example : (Compare.rvLast (1/3 : ℚ) [[0], [1], [2], [3]] 1).toOption =
    some ⟨"uniform", [("loc", -1), ("scale", 4)]⟩ := by decide +kernel

example : (cmpLine.setCompareSet fakeStats 2 (1/3) (.int 3)).toOption.isSome = true := by
  decide +kernel

example : (cmpLine.autoInterval 0 (1/3)).toOption = some (-1, 4) := by decide +kernel

/-- The interval for marginals covers the first domain only. -/
theorem C60_negation_domains :
    (({ cmpLine with
        set1 := { cmpLine.set1 with domain := some [(0, 1)] },
        set2 := { cmpLine.set2 with domain := some [(2, 3)] } } : Compare ℚ).autoInterval 0
      0).toOption = some (0, 1) := by
  decide +kernel

end Ex

end BET
