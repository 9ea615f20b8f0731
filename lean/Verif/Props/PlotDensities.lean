import Verif.Model.PlotDensities
import Verif.Lemmas.Names
import Verif.Props.Pdf
import Verif.Props.CalculateR
import Verif.Props.PlotMarginals1D

/-!
# C99: plots of marginal densities
-/

set_option autoImplicit false
set_option linter.unusedSectionVars false
set_option linter.unusedSimpArgs false

namespace BET

section
variable {K : Type} [Field K] [LinearOrder K]

/-! ## Specification -/

/-- `marginal_pdf_init` gives the values of `g` at any numbers. -/
def Spec.InitIs (P : Pdfs K) (m : FittedMeasure K) (i : Nat) (g : K → K) : Prop :=
  ∀ ts : List K, marginalPdfInit P m (.vec ts) i = .ok (ts.map g)

/-- `marginal_pdf` gives the values of `g` at any numbers. -/
def Spec.UpdatedIs (P : Pdfs K) (hasProbs : Bool) (m : FittedMeasure K) (i : Nat) (g : K → K) : Prop :=
  ∀ ts : List K, marginalPdf P hasProbs m (.vec ts) i = .ok (ts.map g)

/-- `n` equally spaced numbers from `a` to `b`. -/
def Spec.Equispaced (a b : K) (n : Nat) (x : List K) : Prop :=
  x.length = n ∧ ∀ k : Nat, k < n → x[k]? = some (a + (k : K) * ((b - a) / ((n - 1 : Nat) : K)))

/-- The values of parameter `i` in all of the sets. -/
def Spec.Column (sets : List (DensSet K)) (i : Nat) : Set K :=
  {v | ∃ s ∈ sets, ∃ row ∈ s.values, row[i]? = some v}

/-- The legend of set `k`: that which was given, or the name of the parameter, or the number of the set. -/
def Spec.LegendIs (given : Option (List String)) (labels : Option (List String)) (i k : Nat)
    (kind suffix l : String) : Prop :=
  match given, labels with
  | some ls, _ => ls[k]? = some l
  | none, some ls => ∃ q, ls[i]? = some q ∧ l = q ++ suffix
  | none, none => l = "Set " ++ toString k ++ kind

/-- The abscissae: `num_points` points of `interval`, or points of an interval around the samples. -/
def Spec.AxisIs (interval : Option (K × K)) (numPoints : Nat) (sets : List (DensSet K)) (i : Nat)
    (x : List K) : Prop :=
  match interval with
  | some r => Equispaced r.1 r.2 numPoints x
  | none => ∃ lo hi, IsLeast (Column sets i) lo ∧ IsGreatest (Column sets i) hi ∧
      Equispaced (lo - (hi - lo) / 4) (hi + (hi - lo) / 4) 100 x

open Spec

/-! ## Lemmas -/

theorem equispaced_linspace (a b : K) (n : Nat) : Equispaced a b n (linspace a b n) :=
  ⟨length_linspace a b n, fun _ hk => getElem?_linspace a b hk⟩

/-- If `marginal_pdf` gives some values at some numbers, there is a function whose values it gives. -/
theorem evaluate_vec {P : Pdfs K} {m : FittedMeasure K} {i : Nat} {x y : List K}
    (h : evaluatePdfMarginal P m (.vec x) i = .ok y) :
    ∃ g : K → K, y = x.map g ∧ ∀ ts, evaluatePdfMarginal P m (.vec ts) i = .ok (ts.map g) := by
  simp only [evaluatePdfMarginal, bind_eq_ok] at h
  obtain ⟨z, hz, g, hg, u, hu, h⟩ := h
  cases hz
  refine ⟨g, ((pure_eq_ok _ _).mp h).symm, fun ts => ?_⟩
  have hv : voronoiArg (.vec ts) m = .ok () := by cases m <;> rfl
  simp only [evaluatePdfMarginal, marginalArg, hg, ok_bind, hv]
  rfl

theorem init_vec {P : Pdfs K} {m : FittedMeasure K} {i : Nat} {x y : List K}
    (h : marginalPdfInit P m (.vec x) i = .ok y) : ∃ g, y = x.map g ∧ InitIs P m i g := by
  cases m with
  | voronoi ms => cases h
  | kde a b => exact evaluate_vec h
  | rv a => exact evaluate_vec h
  | gmm a b c d => exact evaluate_vec h
  | other => exact evaluate_vec h

theorem updated_vec {P : Pdfs K} {b : Bool} {m : FittedMeasure K} {i : Nat} {x y : List K}
    (h : marginalPdf P b m (.vec x) i = .ok y) : ∃ g, y = x.map g ∧ UpdatedIs P b m i g := by
  cases m with
  | voronoi ms =>
    simp only [marginalPdf, bind_eq_ok] at h
    obtain ⟨u, hu, h⟩ := h
    obtain ⟨g, hy, hg⟩ := evaluate_vec h
    refine ⟨g, hy, fun ts => ?_⟩
    simp only [marginalPdf, hu, ok_bind]
    exact hg ts
  | kde a b => exact evaluate_vec h
  | rv a => exact evaluate_vec h
  | gmm a b c d => exact evaluate_vec h
  | other => exact evaluate_vec h

theorem legends_get {given : Option (List String)} {i : Nat} {kind suffix : String}
    {sets : List (DensSet K)} {ls : List String} (h : legends given i kind suffix sets = .ok ls)
    {k : Nat} {s : DensSet K} (hs : sets[k]? = some s) {l : String} (hl : ls[k]? = some l) :
    LegendIs given s.labels i k kind suffix l := by
  cases given with
  | some g =>
    cases h
    exact hl
  | none =>
    have hF := (mapM_eq_ok _ _ _).mp h
    obtain ⟨hk, hse⟩ := List.getElem?_eq_some_iff.mp hs
    obtain ⟨hk', hle⟩ := List.getElem?_eq_some_iff.mp hl
    have := List.Forall₂.get hF (i := k) (by simp [hk]) hk'
    simp only [List.get_eq_getElem, List.getElem_zip, List.getElem_range, hse, hle] at this
    unfold legendOf at this
    unfold LegendIs
    cases hlab : s.labels with
    | none =>
      simp only [hlab] at this
      exact (Except.ok.inj this).symm
    | some q =>
      simp only [hlab, bind_eq_ok] at this
      obtain ⟨w, hw, this⟩ := this
      exact ⟨w, (getIdx_eq_ok _ _ _).mp hw, ((pure_eq_ok _ _).mp this).symm⟩

theorem mem_column {i : Nat} {rows : List (List K)} {col : List K}
    (h : rows.mapM (fun row => getIdx row i) = .ok col) (v : K) :
    v ∈ col ↔ ∃ row ∈ rows, row[i]? = some v := by
  have hF := (mapM_eq_ok _ _ _).mp h
  clear h
  induction hF with
  | nil => simp
  | cons h1 _ ih =>
    rw [getIdx_eq_ok] at h1
    simp only [List.mem_cons, ih, exists_eq_or_imp, h1, Option.some.injEq]
    rw [eq_comm]

section ordered
variable [IsStrictOrderedRing K]

/-- The range of some sets. -/
theorem widen_fold {i : Nat} (sets pre : List (DensSet K)) (r : Option (K × K)) (r' : Option (K × K))
    (hr : ∀ q, r = some q → IsLeast (Column pre i) q.1 ∧ IsGreatest (Column pre i) q.2)
    (hn : r = none → pre = [])
    (h : sets.foldlM (widen i) r = .ok r') :
    (∀ q, r' = some q → IsLeast (Column (pre ++ sets) i) q.1 ∧ IsGreatest (Column (pre ++ sets) i) q.2) := by
  induction sets generalizing pre r with
  | nil =>
    cases (pure_eq_ok _ _).mp h
    simpa using hr
  | cons s sets ih =>
    rw [List.foldlM_cons, bind_eq_ok] at h
    obtain ⟨q, hq, h⟩ := h
    simp only [widen, bind_eq_ok] at hq
    obtain ⟨col, hcol, lo, hlo, hi, hhi, hq⟩ := hq
    have hq := (pure_eq_ok _ _).mp hq
    have hlo := npMin_isLeast hlo
    have hhi := npMax_isGreatest hhi
    have hmem := mem_column hcol
    have hc : ∀ v, v ∈ Column (pre ++ [s]) i ↔ v ∈ Column pre i ∨ v ∈ col := by
      intro v
      rw [hmem]
      simp only [Column, Set.mem_ofPred_eq, List.mem_append, List.mem_singleton]
      constructor
      · rintro ⟨u, hu | rfl, h⟩
        · exact Or.inl ⟨u, hu, h⟩
        · exact Or.inr h
      · rintro (⟨u, hu, h⟩ | h)
        · exact ⟨u, Or.inl hu, h⟩
        · exact ⟨s, Or.inr rfl, h⟩
    have := ih (pre ++ [s]) q ?_ ?_ h
    · simpa using this
    · intro p hp
      rw [hp] at hq
      cases r with
      | none =>
        have hpre := hn rfl
        subst hpre
        simp only [Option.map_none, Option.getD_none, Option.some.injEq] at hq
        subst hq
        have hc' : ∀ v, v ∈ Column ([] ++ [s]) i ↔ v ∈ col := by
          intro v
          rw [hc v]
          simp [Column]
        exact ⟨⟨(hc' _).mpr hlo.1, fun v hv => hlo.2 ((hc' v).mp hv)⟩,
          ⟨(hc' _).mpr hhi.1, fun v hv => hhi.2 ((hc' v).mp hv)⟩⟩
      | some w =>
        obtain ⟨h1, h2⟩ := hr w rfl
        simp only [Option.map_some, Option.getD_some, Option.some.injEq] at hq
        subst hq
        constructor
        · dsimp only
          split
          · rename_i hlt
            refine ⟨(hc _).mpr (Or.inr hlo.1), fun v hv => ?_⟩
            rcases (hc v).mp hv with hv | hv
            · exact hlt.le.trans (h1.2 hv)
            · exact hlo.2 hv
          · rename_i hlt
            refine ⟨(hc _).mpr (Or.inl h1.1), fun v hv => ?_⟩
            rcases (hc v).mp hv with hv | hv
            · exact h1.2 hv
            · exact (not_lt.mp hlt).trans (hlo.2 hv)
        · dsimp only
          split
          · rename_i hlt
            refine ⟨(hc _).mpr (Or.inr hhi.1), fun v hv => ?_⟩
            rcases (hc v).mp hv with hv | hv
            · exact (h2.2 hv).trans hlt.le
            · exact hhi.2 hv
          · rename_i hlt
            refine ⟨(hc _).mpr (Or.inl h2.1), fun v hv => ?_⟩
            rcases (hc v).mp hv with hv | hv
            · exact h2.2 hv
            · exact (hhi.2 hv).trans (not_lt.mp hlt)
    · intro h0
      rw [h0] at hq
      cases hq

theorem densityAxis_is {interval : Option (K × K)} {numPoints : Nat} {sets : List (DensSet K)} {i : Nat}
    {x : List K} (h : densityAxis interval numPoints sets i = .ok x) : AxisIs interval numPoints sets i x := by
  cases interval with
  | some r =>
    cases h
    exact equispaced_linspace _ _ _
  | none =>
    simp only [densityAxis, bind_eq_ok] at h
    obtain ⟨r, hr, q, hq, h⟩ := h
    rw [orErr_eq_ok] at hq
    have := widen_fold sets [] none r (by simp) (fun _ => rfl) hr q hq
    simp only [List.nil_append] at this
    refine ⟨q.1, q.2, this.1, this.2, ?_⟩
    have h := (pure_eq_ok _ _).mp h
    rw [← h, show (q.2 - q.1) / 4 = 1 / 4 * (q.2 - q.1) by ring]
    exact equispaced_linspace _ _ _

end ordered

theorem initCurve_inv {P : Pdfs K} {initials : Bool} {x : List K} {i : Nat} {legend : List String}
    {ks : Nat × DensSet K} {c : List (Curve K)} (h : initCurve P initials x i legend ks = .ok c) :
    ((initials = false ∨ ks.2.init = none) ∧ c = []) ∨
      ∃ m g l, initials = true ∧ ks.2.init = some m ∧ InitIs P m i g ∧ legend[ks.1]? = some l ∧
        c = [⟨x, x.map g, l, false⟩] := by
  unfold initCurve at h
  cases hm : ks.2.init with
  | none =>
    simp only [hm] at h
    exact Or.inl ⟨Or.inr rfl, (Except.ok.inj h).symm⟩
  | some m =>
    simp only [hm] at h
    cases initials with
    | false => exact Or.inl ⟨Or.inl rfl, (Except.ok.inj h).symm⟩
    | true =>
      simp only [if_true, bind_eq_ok] at h
      obtain ⟨mar, hmar, l, hl, h⟩ := h
      obtain ⟨g, hg, hI⟩ := init_vec hmar
      subst hg
      exact Or.inr ⟨m, g, l, rfl, rfl, hI, (getIdx_eq_ok _ _ _).mp hl, ((pure_eq_ok _ _).mp h).symm⟩

theorem updatedCurve_inv {P : Pdfs K} {x : List K} {i : Nat} {legend : List String}
    {ks : Nat × DensSet K} {c : List (Curve K)} (h : updatedCurve P x i legend ks = .ok c) :
    (ks.2.updated = none ∧ c = []) ∨
      ∃ m g l, ks.2.updated = some m ∧ UpdatedIs P ks.2.hasProbs m i g ∧ legend[ks.1]? = some l ∧
        c = [⟨x, x.map g, l, true⟩] := by
  unfold updatedCurve at h
  cases hm : ks.2.updated with
  | none =>
    simp only [hm] at h
    exact Or.inl ⟨rfl, (Except.ok.inj h).symm⟩
  | some m =>
    simp only [hm, bind_eq_ok] at h
    obtain ⟨mar, hmar, l, hl, h⟩ := h
    obtain ⟨g, hg, hI⟩ := updated_vec hmar
    subst hg
    exact Or.inr ⟨m, g, l, rfl, hI, (getIdx_eq_ok _ _ _).mp hl, ((pure_eq_ok _ _).mp h).symm⟩

/-- Steps of the function. -/
theorem plot1DDensities_inv {P : Pdfs K} {arg : DensArg K} {i : Nat} {interval : Option (K × K)}
    {numPoints : Nat} {label : Option String} {sl sli : Option (List String)} {initials inputs : Bool}
    {p : DensPlot K} (h : plot1DDensities P arg i interval numPoints label sl sli initials inputs = .ok p) :
    ∃ objs found sets, arg.toList = .ok objs ∧ objs.mapM (DensObj.get inputs) = .ok found ∧
      found.mapM (orErr .attributeError) = .ok sets ∧ plotLabel label sets i = .ok p.label ∧
      ∃ legend legendInit x curves, legends sl i " Updated" "" sets = .ok legend ∧
        legends sli i " Initial" " Initial" sets = .ok legendInit ∧
        densityAxis interval numPoints sets i = .ok x ∧
        ((List.range sets.length).zip sets).mapM (setCurves P initials x i legend legendInit) = .ok curves ∧
        p.curves = curves.flatten := by
  simp only [plot1DDensities, bind_eq_ok] at h
  obtain ⟨objs, h1, found, h2, sets, h3, lab, h4, legend, h5, legendInit, h6, x, h7, curves, h8, h⟩ := h
  cases (pure_eq_ok _ _).mp h
  exact ⟨objs, found, sets, h1, h2, h3, h4, legend, legendInit, x, curves, h5, h6, h7, h8, rfl⟩

theorem sets_found {sets : List (DensSet K)} {inputs : Bool} {found : List (Option (DensSet K))}
    {sets' : List (DensSet K)} (h1 : (sets.map DensObj.set).mapM (DensObj.get inputs) = .ok found)
    (h2 : found.mapM (orErr .attributeError) = .ok sets') : sets' = sets := by
  rw [List.mapM_map, mapM_ok (DensObj.get inputs ∘ DensObj.set) some sets (fun _ _ => rfl)] at h1
  cases h1
  rw [List.mapM_map, mapM_ok (orErr Err.attributeError ∘ some) id sets (fun _ _ => rfl)] at h2
  cases h2
  exact List.map_id _

/-! ## Theorems -/

variable [IsStrictOrderedRing K]

/-- C99: whenever `plot_1d_marginal_densities` succeeds on a list of sample sets, all curves have the same
abscissae (`num_points` points of `interval`, or 100 points of an interval that reaches a quarter of the range
of the samples beyond them); there is a dashed curve for every set with an updated measure and, with `initials`,
a solid one for every set with an initial measure, through the values of the marginal density of that measure;
and there are no other curves. -/
theorem C99_curves {P : Pdfs K} {sets : List (DensSet K)} {i : Nat} {interval : Option (K × K)}
    {numPoints : Nat} {label : Option String} {sl sli : Option (List String)} {initials inputs : Bool}
    {p : DensPlot K}
    (h : plot1DDensities P (.many (sets.map .set)) i interval numPoints label sl sli initials inputs = .ok p) :
    ∃ x, AxisIs interval numPoints sets i x ∧
      (∀ (k : Nat) (s : DensSet K), sets[k]? = some s →
        (∀ m, s.init = some m → initials = true → ∃ g l, InitIs P m i g ∧
          LegendIs sli s.labels i k " Initial" " Initial" l ∧ (⟨x, x.map g, l, false⟩ : Curve K) ∈ p.curves) ∧
        (∀ m, s.updated = some m → ∃ g l, UpdatedIs P s.hasProbs m i g ∧
          LegendIs sl s.labels i k " Updated" "" l ∧ (⟨x, x.map g, l, true⟩ : Curve K) ∈ p.curves)) ∧
      p.curves.length = (sets.map fun s => (if initials = true ∧ s.init.isSome then 1 else 0) +
        (if s.updated.isSome then 1 else 0)).sum := by
  obtain ⟨objs, found, sets', h1, h2, h3, -, legend, legendInit, x, curves, h5, h6, h7, h8, h9⟩ :=
    plot1DDensities_inv h
  cases h1
  have := sets_found h2 h3
  subst this
  have hF := (mapM_eq_ok _ _ _).mp h8
  have hlen : curves.length = sets'.length := by rw [← hF.length_eq]; simp
  refine ⟨x, densityAxis_is h7, ?_, ?_⟩
  · intro k s hs
    obtain ⟨hk, hse⟩ := List.getElem?_eq_some_iff.mp hs
    have hstep := List.Forall₂.get hF (i := k) (by simp [hk]) (by omega)
    simp only [List.get_eq_getElem, List.getElem_zip, List.getElem_range, hse, setCurves, bind_eq_ok] at hstep
    obtain ⟨a, ha, b, hb, hab⟩ := hstep
    have hab := (pure_eq_ok _ _).mp hab
    have hmem : ∀ c, c ∈ a ++ b → c ∈ p.curves := by
      intro c hc
      rw [h9]
      exact List.mem_flatten.mpr ⟨_, List.getElem_mem (by omega : k < curves.length), by rw [← hab]; exact hc⟩
    constructor
    · intro m hm hi
      rcases initCurve_inv ha with ⟨h0 | h0, -⟩ | ⟨m', g, l, -, hm', hI, hl, rfl⟩
      · rw [hi] at h0; cases h0
      · rw [hm] at h0; cases h0
      · simp only at hm' hl
        rw [hm] at hm'
        cases hm'
        exact ⟨g, l, hI, legends_get h6 hs hl, hmem _ (by simp)⟩
    · intro m hm
      rcases updatedCurve_inv hb with ⟨h0, -⟩ | ⟨m', g, l, hm', hI, hl, rfl⟩
      · rw [hm] at h0; cases h0
      · simp only at hm' hl
        rw [hm] at hm'
        cases hm'
        exact ⟨g, l, hI, legends_get h5 hs hl, hmem _ (by simp)⟩
  · rw [h9, List.length_flatten]
    congr 1
    refine List.ext_getElem (by simp [hlen]) fun k hk _ => ?_
    rw [List.length_map] at hk
    have hstep := List.Forall₂.get hF (i := k) (by simp; omega) hk
    simp only [List.get_eq_getElem, List.getElem_zip, List.getElem_range, setCurves, bind_eq_ok] at hstep
    obtain ⟨a, ha, b, hb, hab⟩ := hstep
    have hab := (pure_eq_ok _ _).mp hab
    simp only [List.getElem_map, ← hab, List.length_append]
    congr 1
    · rcases initCurve_inv ha with ⟨h0 | h0, rfl⟩ | ⟨m', g, l, hi, hm', -, -, rfl⟩
      · simp [h0]
      · simp only at h0
        simp [h0]
      · simp only at hm'
        simp [hi, hm']
    · rcases updatedCurve_inv hb with ⟨h0, rfl⟩ | ⟨m', g, l, hm', -, -, rfl⟩
      · simp only at h0
        simp [h0]
      · simp only at hm'
        simp [hm']

/-! ### It succeeds -/

theorem legends_total {given : Option (List String)} {i : Nat} {kind suffix : String}
    {sets : List (DensSet K)} (hg : ∀ ls, given = some ls → sets.length ≤ ls.length)
    (hl : ∀ s ∈ sets, ∀ ls, s.labels = some ls → i < ls.length) :
    ∃ ls, legends given i kind suffix sets = .ok ls ∧ sets.length ≤ ls.length := by
  cases given with
  | some ls => exact ⟨ls, rfl, hg ls rfl⟩
  | none =>
    obtain ⟨ls, h⟩ := mapM_total (f := legendOf i kind suffix) (l := (List.range sets.length).zip sets) (by
      intro js hjs
      have hjs := hl js.2 (List.of_mem_zip hjs).2
      unfold legendOf
      cases hlab : js.2.labels with
      | none => exact ⟨_, rfl⟩
      | some q =>
        simp only [getIdx, List.getElem?_eq_getElem (hjs q hlab), ok_bind]
        exact ⟨_, rfl⟩)
    refine ⟨ls, h, ?_⟩
    have := ((mapM_eq_ok _ _ _).mp h).length_eq
    simp at this
    omega

theorem npMin_exists {l : List K} (h : l ≠ []) : ∃ m, npMin l = .ok m := by
  cases l with
  | nil => exact absurd rfl h
  | cons a l => exact ⟨_, rfl⟩

theorem widen_total {i : Nat} {sets : List (DensSet K)}
    (h : ∀ s ∈ sets, s.values ≠ [] ∧ ∀ row ∈ s.values, i < row.length) (r : Option (K × K)) :
    ∃ r', sets.foldlM (widen i) r = .ok r' ∧ (sets ≠ [] → r' ≠ none) ∧ (r ≠ none → r' ≠ none) := by
  induction sets generalizing r with
  | nil => exact ⟨r, rfl, fun h => absurd rfl h, id⟩
  | cons s sets ih =>
    obtain ⟨h1, h2⟩ := h s (by simp)
    obtain ⟨col, hcol⟩ := mapM_total (f := fun row : List K => getIdx row i) (l := s.values) (by
      intro row hrow
      exact ⟨row[i]'(h2 row hrow), by simp only [getIdx, List.getElem?_eq_getElem (h2 row hrow)]⟩)
    have hne : col ≠ [] := by
      rintro rfl
      have := ((mapM_eq_ok _ _ _).mp hcol).length_eq
      exact h1 (List.length_eq_zero_iff.mp this)
    obtain ⟨lo, hlo⟩ := npMin_exists hne
    obtain ⟨hi, hhi⟩ := npMax_exists hne
    rw [List.foldlM_cons]
    simp only [widen, hcol, hlo, hhi, ok_bind, pure_bind_ok]
    obtain ⟨r', hr', -, h4⟩ := ih (fun s hs => h s (by simp [hs]))
      (some ((r.map fun (q : K × K) => if lo < q.1 then lo else q.1).getD lo,
        (r.map fun (q : K × K) => if q.2 < hi then hi else q.2).getD hi))
    exact ⟨r', hr', fun _ => h4 (by simp), fun _ => h4 (by simp)⟩

/-- C99: the function succeeds on every non-empty list of sample sets whose measures have marginal densities,
if there are legends for all sets and, without `interval`, samples in all of them. -/
theorem C99_succeeds {P : Pdfs K} {sets : List (DensSet K)} {i : Nat} {interval : Option (K × K)}
    {label : Option String} {sl sli : Option (List String)} (hne : sets ≠ [])
    (hlab : ∀ s ∈ sets, ∀ ls, s.labels = some ls → i < ls.length)
    (hsl : ∀ ls, sl = some ls → sets.length ≤ ls.length)
    (hsli : ∀ ls, sli = some ls → sets.length ≤ ls.length)
    (hval : interval = none → ∀ s ∈ sets, s.values ≠ [] ∧ ∀ row ∈ s.values, i < row.length)
    (hinit : ∀ s ∈ sets, ∀ m, s.init = some m → ∃ g, InitIs P m i g)
    (hupd : ∀ s ∈ sets, ∀ m, s.updated = some m → ∃ g, UpdatedIs P s.hasProbs m i g)
    (numPoints : Nat) (initials inputs : Bool) :
    ∃ p, plot1DDensities P (.many (sets.map .set)) i interval numPoints label sl sli initials inputs = .ok p := by
  obtain ⟨l1, hl1, hl1'⟩ := legends_total (kind := " Updated") (suffix := "") hsl hlab
  obtain ⟨l2, hl2, hl2'⟩ := legends_total (kind := " Initial") (suffix := " Initial") hsli hlab
  have hx : ∃ x, densityAxis interval numPoints sets i = .ok x := by
    cases interval with
    | some r => exact ⟨_, rfl⟩
    | none =>
      obtain ⟨r, hr, h1, -⟩ := widen_total (hval rfl) none
      obtain ⟨q, rfl⟩ := Option.ne_none_iff_exists'.mp (h1 hne)
      simp only [densityAxis, hr, ok_bind, orErr_some]
      exact ⟨_, rfl⟩
  obtain ⟨x, hx⟩ := hx
  have hlabel : ∃ q, plotLabel label sets i = .ok q := by
    cases label with
    | some q => exact ⟨q, rfl⟩
    | none =>
      cases sets with
      | nil => exact absurd rfl hne
      | cons s sets =>
        simp only [plotLabel, getIdx, List.getElem?_cons_zero, ok_bind]
        cases hq : s.labels with
        | none => exact ⟨_, rfl⟩
        | some ls =>
          simp only [List.getElem?_eq_getElem (hlab s (by simp) ls hq)]
          exact ⟨_, rfl⟩
  obtain ⟨q, hq⟩ := hlabel
  obtain ⟨cs, hcs⟩ := mapM_total (f := setCurves P initials x i l1 l2)
    (l := (List.range sets.length).zip sets) (by
      intro ks hks
      obtain ⟨hk, hs⟩ := List.of_mem_zip hks
      rw [List.mem_range] at hk
      have ha : ∃ a, initCurve P initials x i l2 ks = .ok a := by
        unfold initCurve
        cases hm : ks.2.init with
        | none => exact ⟨_, rfl⟩
        | some m =>
          obtain ⟨g, hg⟩ := hinit _ hs m hm
          cases initials with
          | false => exact ⟨_, rfl⟩
          | true =>
            simp only [if_true, hg x, ok_bind, getIdx, List.getElem?_eq_getElem (show ks.1 < l2.length by omega)]
            exact ⟨_, rfl⟩
      have hb : ∃ b, updatedCurve P x i l1 ks = .ok b := by
        unfold updatedCurve
        cases hm : ks.2.updated with
        | none => exact ⟨_, rfl⟩
        | some m =>
          obtain ⟨g, hg⟩ := hupd _ hs m hm
          simp only [hg x, ok_bind, getIdx, List.getElem?_eq_getElem (show ks.1 < l1.length by omega)]
          exact ⟨_, rfl⟩
      obtain ⟨a, ha⟩ := ha
      obtain ⟨b, hb⟩ := hb
      exact ⟨a ++ b, by simp only [setCurves, ha, hb, ok_bind]; rfl⟩)
  refine ⟨⟨cs.flatten, q⟩, ?_⟩
  simp only [plot1DDensities, DensArg.toList, ok_bind]
  rw [List.mapM_map, mapM_ok (DensObj.get inputs ∘ DensObj.set) some sets (fun _ _ => rfl)]
  simp only [ok_bind]
  rw [List.mapM_map, mapM_ok (orErr Err.attributeError ∘ some) id sets (fun _ _ => rfl), List.map_id]
  simp only [ok_bind, hq, hl1, hl2, hx, hcs]
  rfl

/-- C99: a discretization stands for its input sample set, or for its output sample set without `inputs`, and
an object alone for the list of it. -/
theorem C99_discretizations {P : Pdfs K} {discs : List (DensSet K × DensSet K)} {i : Nat}
    {interval : Option (K × K)} {numPoints : Nat} {label : Option String} {sl sli : Option (List String)}
    {initials inputs : Bool} :
    plot1DDensities P (.many (discs.map fun d => .disc (some d.1) (some d.2))) i interval numPoints label sl sli
        initials inputs =
      plot1DDensities P (.many (discs.map fun d => .set (if inputs then d.1 else d.2))) i interval numPoints label
        sl sli initials inputs ∧
    (∀ s, plot1DDensities P (.one (.set s)) i interval numPoints label sl sli initials inputs =
      plot1DDensities P (.many [.set s]) i interval numPoints label sl sli initials inputs) ∧
    ∀ a b, plot1DDensities P (.one (.disc a b)) i interval numPoints label sl sli initials inputs =
      plot1DDensities P (.many [.disc a b]) i interval numPoints label sl sli initials inputs := by
  refine ⟨?_, fun _ => rfl, fun _ _ => rfl⟩
  simp only [plot1DDensities, DensArg.toList, ok_bind]
  rw [List.mapM_map, List.mapM_map]
  have : (DensObj.get inputs ∘ fun d : DensSet K × DensSet K => DensObj.disc (some d.1) (some d.2)) =
      DensObj.get inputs ∘ fun d : DensSet K × DensSet K => DensObj.set (if inputs then d.1 else d.2) := by
    funext d
    cases inputs <;> rfl
  rw [this]

/-- C99: other objects are refused with `bad_object`, wherever they are in a list of sample sets and
discretizations; an empty list with an `IndexError`, unless the label is given. -/
theorem C99_refused {P : Pdfs K} {objs : List (DensObj K)} (h : DensObj.other ∈ objs) (i : Nat)
    (interval : Option (K × K)) (numPoints : Nat) (label : Option String) (sl sli : Option (List String))
    (initials inputs : Bool) :
    plot1DDensities P (.many objs) i interval numPoints label sl sli initials inputs = .error .badObject ∧
    plot1DDensities P (.many []) i interval numPoints none sl sli initials inputs = .error .indexError ∧
    plot1DDensities P (.one .other) i interval numPoints label sl sli initials inputs = .error .typeError := by
  refine ⟨?_, rfl, rfl⟩
  have : objs.mapM (DensObj.get inputs) = .error .badObject := by
    induction objs with
    | nil => cases h
    | cons o objs ih =>
      rw [List.mapM_cons]
      cases o with
      | other => rfl
      | set s =>
        rw [ih (by simpa using h)]
        rfl
      | disc a b =>
        rw [ih (by simpa using h)]
        rfl
  simp only [plot1DDensities, DensArg.toList, ok_bind, this]
  rfl

/-- C99, negation: `num_points` has no effect without `interval`: every curve then has 100 points. -/
theorem C99_negation_points {P : Pdfs K} {sets : List (DensSet K)} {i : Nat}
    {numPoints : Nat} {label : Option String} {sl sli : Option (List String)} {initials inputs : Bool}
    {p : DensPlot K}
    (h : plot1DDensities P (.many (sets.map .set)) i none numPoints label sl sli initials inputs = .ok p) :
    ∀ c ∈ p.curves, c.xs.length = 100 ∧ c.ys.length = 100 := by
  obtain ⟨objs, found, sets', h1, h2, h3, -, legend, legendInit, x, curves, h5, h6, h7, h8, h9⟩ :=
    plot1DDensities_inv h
  obtain ⟨lo, hi, -, -, hx, -⟩ := densityAxis_is h7
  intro c hc
  rw [h9, List.mem_flatten] at hc
  obtain ⟨cs, hcs, hc⟩ := hc
  obtain ⟨k, hk, rfl⟩ := List.getElem_of_mem hcs
  have hF := (mapM_eq_ok _ _ _).mp h8
  have hks := List.Forall₂.get hF (i := k) (by rw [hF.length_eq]; exact hk) hk
  simp only [List.get_eq_getElem] at hks
  simp only [setCurves, bind_eq_ok] at hks
  obtain ⟨a, ha, b, hb, hab⟩ := hks
  rw [← (pure_eq_ok _ _).mp hab] at hc
  rcases List.mem_append.mp hc with hc | hc
  · rcases initCurve_inv ha with ⟨-, rfl⟩ | ⟨m', g, l, hi, hm', -, -, rfl⟩
    · cases hc
    · rw [List.mem_singleton.mp hc]
      simp [hx]
  · rcases updatedCurve_inv hb with ⟨-, rfl⟩ | ⟨m', g, l, hm', -, -, rfl⟩
    · cases hc
    · rw [List.mem_singleton.mp hc]
      simp [hx]

/-- C99: without labels of the parameters and without given legends, no two sets have the same entry in the
legend; nor have the two curves of one set. -/
theorem C99_legends (i : Nat) (s t : DensSet K) (hs : s.labels = none) (ht : t.labels = none) (j k : Nat)
    {a b : String} (ha : LegendIs none s.labels i j " Updated" "" a) :
    (LegendIs none t.labels i k " Updated" "" b → j ≠ k → a ≠ b) ∧
      (LegendIs none t.labels i k " Initial" " Initial" b → a ≠ b) := by
  rw [hs] at ha
  rw [ht]
  constructor
  · rintro hb hjk rfl
    exact hjk (name1_injective (ha.symm.trans hb))
  · rintro hb rfl
    have h := congrArg (fun q : String => q.toList.getLast?) (ha.symm.trans hb)
    simp only [String.toList_append, show (" Updated" : String).toList = " Update".toList ++ ['d'] from rfl,
      show (" Initial" : String).toList = " Initia".toList ++ ['l'] from rfl, ← List.append_assoc,
      List.getLast?_concat] at h
    exact absurd h (by decide)

/-- C99, negation: two sets whose parameters have the same labels get the same entry in the legend, so that the
curves cannot be told apart. -/
theorem C99_negation_legends (i : Nat) (s t : DensSet K) {ls : List String} (hs : s.labels = some ls)
    (ht : t.labels = some ls) (j k : Nat) {a b : String}
    (ha : LegendIs none s.labels i j " Updated" "" a) (hb : LegendIs none t.labels i k " Updated" "" b) :
    a = b := by
  rw [hs] at ha
  rw [ht] at hb
  obtain ⟨q, hq, rfl⟩ := ha
  obtain ⟨q', hq', rfl⟩ := hb
  rw [hq] at hq'
  cases hq'
  rfl

end

/-! ### What the curves are -/

open Spec in
/-- C99: the dashed curve of a set with a weighted kernel density estimate, and the solid curve of a set with
independent random variables, are graphs of the density of parameter `i` under the law whose density is `pdf`
(`pdf_init`). -/
theorem C99_densities {P : Pdfs ℝ} {sets : List (DensSet ℝ)} {dim : Nat} {i : Fin dim}
    {interval : Option (ℝ × ℝ)} {numPoints : Nat} {label : Option String} {sl sli : Option (List String)}
    {initials inputs : Bool} {p : DensPlot ℝ}
    (h : plot1DDensities P (.many (sets.map .set)) i interval numPoints label sl sli initials inputs = .ok p)
    {s : DensSet ℝ} (hs : s ∈ sets) :
    ∃ x, AxisIs interval numPoints sets i x ∧ (∀ ms ws, s.updated = some (.kde ms ws) → Weights ws → ms.length = dim →
      (∀ fs ∈ ms, fs.length = ws.length) → (∀ fs ∈ ms, ∀ f ∈ fs, IsDensity f) →
      ∃ ρ g l, PdfIs P dim (.kde ms ws) ρ ∧ IsDensity ρ ∧ IsMarginal ρ i g ∧
        (⟨x, x.map g, l, true⟩ : Curve ℝ) ∈ p.curves) ∧
    (∀ specs, s.init = some (.rv specs) → initials = true → specs.length = dim →
      (∀ sp ∈ specs, IsDensity (P.rv sp)) →
      ∃ ρ g l, PdfIs P dim (.rv specs) ρ ∧ IsDensity ρ ∧ IsMarginal ρ i g ∧
        (⟨x, x.map g, l, false⟩ : Curve ℝ) ∈ p.curves) := by
  obtain ⟨objs, found, sets', h1, h2, h3, -, legend, legendInit, x, curves, h5, h6, h7, h8, h9⟩ :=
    plot1DDensities_inv h
  cases h1
  have := sets_found h2 h3
  subst this
  obtain ⟨k, hk, hse⟩ := List.getElem_of_mem hs
  have hF := (mapM_eq_ok _ _ _).mp h8
  have hlen : curves.length = sets'.length := by rw [← hF.length_eq]; simp
  have hstep := List.Forall₂.get hF (i := k) (by simp [hk]) (by omega)
  simp only [List.get_eq_getElem, List.getElem_zip, List.getElem_range, hse, setCurves, bind_eq_ok] at hstep
  obtain ⟨a, ha, b, hb, hab⟩ := hstep
  have hab := (pure_eq_ok _ _).mp hab
  have hmem : ∀ c, c ∈ a ++ b → c ∈ p.curves := by
    intro c hc
    rw [h9]
    exact List.mem_flatten.mpr ⟨_, List.getElem_mem (by omega : k < curves.length), by rw [← hab]; exact hc⟩
  refine ⟨x, densityAxis_is h7, ?_, ?_⟩
  · intro ms ws hm hw hdim hl hf
    obtain ⟨ρ, g, h1, h2, h3, h4, -⟩ := C89_kde P dim ms ws hw hdim hl hf
    rcases updatedCurve_inv hb with ⟨h0, -⟩ | ⟨m', g', l, hm', hI, -, rfl⟩
    · rw [hm] at h0; cases h0
    · simp only at hm'
      rw [hm] at hm'
      cases hm'
      have he : x.map g' = x.map (g i) := Except.ok.inj ((hI x).symm.trans ((h2 i).1 x))
      exact ⟨ρ, g i, l, h1, h3, (h4 i).2, hmem _ (by rw [he]; simp)⟩
  · intro specs hm hi hdim hf
    obtain ⟨ρ, h1, h2, h3, h4, -⟩ := C89_rv P dim specs hdim hf
    rcases initCurve_inv ha with ⟨h0 | h0, -⟩ | ⟨m', g', l, -, hm', hI, -, rfl⟩
    · rw [hi] at h0; cases h0
    · rw [hm] at h0; cases h0
    · simp only at hm'
      rw [hm] at hm'
      cases hm'
      have he : x.map g' = x.map (P.rv specs[i]) := Except.ok.inj ((hI x).symm.trans ((h2 i).1 x))
      exact ⟨ρ, _, l, h1, h3, h4 i, hmem _ (by rw [he]; simp)⟩

/-! ### Examples -/

namespace Ex

/-- A set with an initial and an updated measure. -/
def densA : DensSet ℚ := ⟨[[0, 1], [2, 5]], none, some (.rv [⟨"u", []⟩, ⟨"u", []⟩]),
  some (.kde [[box 0, box 2], [box 1, box 5]] [1 / 4, 3 / 4]), true⟩

/-- A set without initial measure. -/
def densB : DensSet ℚ := ⟨[[1, 1], [4, 5]], none, none,
  some (.kde [[box 0, box 3], [box 1, box 5]] [1 / 2, 1 / 2]), true⟩

/-- Hypotheses of `C99_curves` (and `C99_negation_points`): three curves of 100 points over
`[0 - 1, 4 + 1]`. -/
example : (plot1DDensities qPdfs (.many ([densA, densB].map .set)) 0 none 5 none none none true true).toOption.map
    (fun p => ((p.curves.map (fun c => c.xs.headD 0), p.curves.map (fun c => c.xs.getLastD 0)),
      (p.curves.map (fun c => (c.legend, c.dashed)), p.label))) =
    some (([-1, -1, -1], [5, 5, 5]),
      ([("Set 0 Initial", false), ("Set 0 Updated", true), ("Set 1 Updated", true)], "Parameter 0")) := by
  decide +kernel

/-- With an interval and no initial curves. -/
example : (plot1DDensities qPdfs (.many ([densA, densB].map .set)) 0 (some (0, 4)) 5 (some "a") none none
    false true).toOption.map (fun p => (p.curves.map (fun c => (c.xs, c.ys)), p.label)) =
    some ([([0, 1, 2, 3, 4], [1 / 4, 1 / 4, 3 / 4, 3 / 4, 0]), ([0, 1, 2, 3, 4], [1 / 2, 1 / 2, 0, 1 / 2, 1 / 2])],
      "a") := by
  decide +kernel

/-- Hypotheses of `C99_succeeds`. -/
example : (∀ s ∈ [densA, densB], s.values ≠ [] ∧ ∀ row ∈ s.values, 0 < row.length) ∧
    (∀ s ∈ [densA, densB], ∀ m, s.updated = some m → ∃ g, Spec.UpdatedIs qPdfs s.hasProbs m 0 g) ∧
    (∀ s ∈ [densA, densB], ∀ m, s.init = some m → ∃ g, Spec.InitIs qPdfs m 0 g) := by
  refine ⟨by decide, ?_, ?_⟩
  · intro s hs m hm
    fin_cases hs <;> cases hm <;> exact ⟨_, fun ts => rfl⟩
  · intro s hs m hm
    fin_cases hs <;> cases hm <;> exact ⟨_, fun ts => rfl⟩

/-- Two sets with the same labels. -/
example : (plot1DDensities qPdfs (.many [.set { densA with labels := some ["x", "y"] },
      .set { densB with labels := some ["x", "y"] }]) 0 none 5 none none none true true).toOption.map
    (fun p => p.curves.map (fun c => (c.legend, c.dashed))) =
    some [("x Initial", false), ("x", true), ("x", true)] := by
  decide +kernel

/-- Hypotheses of `C99_densities`. -/
noncomputable def densR : DensSet ℝ := ⟨[[0, 1], [2, 5]], none, some (.rv [⟨"u", []⟩, ⟨"u", []⟩]),
  some (.kde [[unif 0, unif 2], [unif 1, unif 5]] [1 / 4, 3 / 4]), true⟩

example : ∃ p, plot1DDensities unifPdfs (.many ([densR].map .set)) ((1 : Fin 2) : Nat) (some (0, 6)) 5 none none
      none true true = .ok p := by
  refine C99_succeeds (by simp) ?_ (by simp) (by simp) (by simp) ?_ ?_ _ _ _
  · intro s hs ls hl
    fin_cases hs
    cases hl
  · intro s hs m hm
    fin_cases hs
    cases hm
    exact ⟨_, fun ts => rfl⟩
  · intro s hs m hm
    fin_cases hs
    cases hm
    exact ⟨_, fun ts => rfl⟩

example : (plot1DDensities qPdfs (.many [.set densA, .other]) 0 none 5 none none none true true).toOption.isNone := by
  decide +kernel

end Ex

end BET
