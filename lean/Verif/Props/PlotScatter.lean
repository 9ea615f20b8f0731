import Verif.Model.PlotDomains
import Verif.Lemmas.Names
import Verif.Props.Choose
import Verif.Props.UniqueVecs

/-!
# C100: scatter plots of sample sets
-/

set_option autoImplicit false
set_option linter.unusedSectionVars false
set_option linter.unusedSimpArgs false

namespace BET

section
variable {K : Type}

/-! ## Specification -/

/-- The numbers of the samples to plot: those asked for, or all in order. -/
def Spec.Chosen {α : Type} (nos : Option (List Nat)) (v : List α) : List Nat :=
  match nos with
  | none => List.range v.length
  | some l => l

/-- The colour of sample `n`: its entry in `color`, or one. -/
def Spec.ColorOf [One K] (color : Option (List K)) (n : Nat) (c : K) : Prop :=
  match color with
  | none => c = 1
  | some l => l[n]? = some c

/-- `p` consists of the coordinates `cols` of `row`. -/
def Spec.ProjectsTo (cols : List Nat) (row p : List K) : Prop :=
  p.length = cols.length ∧ ∀ j x : Nat, cols[j]? = some x → ∃ t, row[x]? = some t ∧ p[j]? = some t

/-- The figure shows, for each number in `nos`, the coordinates `cols` of that row of `v` in the colour of that
row, and no other points. -/
def Spec.ShowsSamples [One K] (f : ScatterFig K) (v : List (List K)) (cols nos : List Nat)
    (color : Option (List K)) : Prop :=
  f.points.length = nos.length ∧ f.colors.length = nos.length ∧
    ∀ k n : Nat, nos[k]? = some n → ∃ row p c, v[n]? = some row ∧ f.points[k]? = some p ∧
      ProjectsTo cols row p ∧ f.colors[k]? = some c ∧ ColorOf color n c

/-- The mark (if any) is that of the reference value (if any). -/
def Spec.MarksRef (mark : Option (List K)) (cols : List Nat) (ref : Option (List K)) : Prop :=
  match ref with
  | none => mark = none
  | some r => ∃ p, mark = some p ∧ ProjectsTo cols r p

open Spec

/-! ## Lemmas -/

theorem firstCols_proj {dim : Nat} {row p : List K} (h : firstCols dim row = .ok p) :
    ProjectsTo (List.range dim) row p := by
  have hF := (mapM_eq_ok _ _ _).mp h
  refine ⟨hF.length_eq.symm, fun j x hx => ?_⟩
  obtain ⟨hj, rfl⟩ := List.getElem?_eq_some_iff.mp hx
  have := List.Forall₂.get hF (i := j) hj (by rw [← hF.length_eq]; exact hj)
  simp only [List.get_eq_getElem] at this
  exact ⟨_, (getIdx_eq_ok _ _ _).mp this, List.getElem?_eq_getElem _⟩

theorem entriesAt_proj {cols : List Nat} {row p : List K} (h : entriesAt cols row = .ok p) :
    ProjectsTo cols row p := by
  have hF := (mapM_eq_ok _ _ _).mp h
  refine ⟨hF.length_eq.symm, fun j x hx => ?_⟩
  obtain ⟨hj, rfl⟩ := List.getElem?_eq_some_iff.mp hx
  have := List.Forall₂.get hF (i := j) hj (by rw [← hF.length_eq]; exact hj)
  simp only [List.get_eq_getElem] at this
  exact ⟨_, (getIdx_eq_ok _ _ _).mp this, List.getElem?_eq_getElem _⟩

theorem firstCols_total {dim : Nat} {row : List K} (h : dim ≤ row.length) : ∃ p, firstCols dim row = .ok p := by
  refine mapM_total (f := fun k => getIdx row k) (l := List.range dim) fun k hk => ?_
  rw [List.mem_range] at hk
  exact ⟨row[k]'(by omega), (getIdx_eq_ok _ _ _).mpr (List.getElem?_eq_getElem _)⟩

theorem entriesAt_total {cols : List Nat} {row : List K} (h : ∀ x ∈ cols, x < row.length) :
    ∃ p, entriesAt cols row = .ok p := by
  refine mapM_total (f := fun k => getIdx row k) (l := cols) fun k hk => ?_
  exact ⟨row[k]'(h k hk), (getIdx_eq_ok _ _ _).mpr (List.getElem?_eq_getElem _)⟩

/-- The coordinates are determined. -/
theorem projectsTo_unique {cols : List Nat} {row p q : List K} (hp : ProjectsTo cols row p)
    (hq : ProjectsTo cols row q) : p = q := by
  refine List.ext_getElem? fun j => ?_
  by_cases hj : j < cols.length
  · obtain ⟨t, h1, h2⟩ := hp.2 j cols[j] (List.getElem?_eq_getElem hj)
    obtain ⟨u, h3, h4⟩ := hq.2 j cols[j] (List.getElem?_eq_getElem hj)
    rw [h2, h4, ← h1, ← h3]
  · rw [List.getElem?_eq_none (by rw [hp.1]; omega), List.getElem?_eq_none (by rw [hq.1]; omega)]

variable [One K]

/-- What the points and colours are. -/
theorem scatterData_inv {dim : Nat} {s : SampleSet K} {nos : Option (List Nat)} {color : Option (List K)}
    {q : List (List K) × List K} (h : scatterData dim s nos color = .ok q) :
    ∃ v, s.glob.values = some v ∧ q.1.length = (Chosen nos v).length ∧ q.2.length = (Chosen nos v).length ∧
      ∀ k n : Nat, (Chosen nos v)[k]? = some n → ∃ row p c, v[n]? = some row ∧ q.1[k]? = some p ∧
        ProjectsTo (List.range dim) row p ∧ q.2[k]? = some c ∧ ColorOf color n c := by
  simp only [scatterData, bind_eq_ok] at h
  obtain ⟨v, hv, colors, hc, rows, hr, points, hp, h⟩ := h
  cases (pure_eq_ok _ _).mp h
  have hnos : nos.getD (List.range v.length) = Chosen nos v := by cases nos <;> rfl
  rw [hnos] at hc hr
  have hc := (mapM_eq_ok _ _ _).mp hc
  have hr := (mapM_eq_ok _ _ _).mp hr
  have hp := (mapM_eq_ok _ _ _).mp hp
  refine ⟨v, (orErr_eq_ok _ _ _).mp hv, hp.length_eq.symm.trans hr.length_eq.symm, hc.length_eq.symm, ?_⟩
  intro k n hn
  obtain ⟨hk, rfl⟩ := List.getElem?_eq_some_iff.mp hn
  have hk1 : k < rows.length := by rw [← hr.length_eq]; exact hk
  have hk2 : k < points.length := by rw [← hp.length_eq]; exact hk1
  have hk3 : k < colors.length := by rw [← hc.length_eq]; exact hk
  have h1 := List.Forall₂.get hr (i := k) hk hk1
  have h2 := List.Forall₂.get hp (i := k) hk1 hk2
  have h3 := List.Forall₂.get hc (i := k) hk hk3
  simp only [List.get_eq_getElem, getIdx_eq_ok] at h1 h2 h3
  refine ⟨rows[k], points[k], colors[k], h1, List.getElem?_eq_getElem _, firstCols_proj h2,
    List.getElem?_eq_getElem _, ?_⟩
  cases color with
  | some l => exact h3
  | none =>
    simp only [Option.getD_none] at h3
    obtain ⟨h4, h5⟩ := List.getElem?_eq_some_iff.mp h3
    rw [List.getElem_replicate] at h5
    exact h5.symm

theorem scatterData_total {dim : Nat} {s : SampleSet K} {nos : Option (List Nat)} {color : Option (List K)}
    {v : List (List K)} (hv : s.glob.values = some v) (hcols : ∀ row ∈ v, dim ≤ row.length)
    (hnos : ∀ l, nos = some l → ∀ n ∈ l, n < v.length) (hcolor : ∀ c, color = some c → v.length ≤ c.length) :
    ∃ q, scatterData dim s nos color = .ok q := by
  have hlt : ∀ n ∈ nos.getD (List.range v.length), n < v.length := by
    cases nos with
    | none => simp
    | some l => exact hnos l rfl
  obtain ⟨cs, hcs⟩ := mapM_total (f := fun k => getIdx (color.getD (List.replicate v.length 1)) k)
    (l := nos.getD (List.range v.length)) (by
      intro n hn
      have h1 : n < (color.getD (List.replicate v.length 1)).length := by
        cases color with
        | none => simpa using hlt n hn
        | some c => exact (hlt n hn).trans_le (hcolor c rfl)
      exact ⟨_, (getIdx_eq_ok _ _ _).mpr (List.getElem?_eq_getElem h1)⟩)
  obtain ⟨rows, hrows⟩ := mapM_total (f := fun k => getIdx v k)
    (l := nos.getD (List.range v.length)) (by
      intro n hn
      exact ⟨_, (getIdx_eq_ok _ _ _).mpr (List.getElem?_eq_getElem (hlt n hn))⟩)
  obtain ⟨ps, hps⟩ := mapM_total (f := firstCols (K := K) dim) (l := rows) (by
    intro row hrow
    obtain ⟨k, hk, rfl⟩ := List.getElem_of_mem hrow
    have hF := (mapM_eq_ok _ _ _).mp hrows
    have := List.Forall₂.get hF (i := k) (by rw [hF.length_eq]; exact hk) hk
    simp only [List.get_eq_getElem, getIdx_eq_ok] at this
    exact firstCols_total (hcols _ (List.mem_of_getElem? this)))
  refine ⟨(ps, cs), ?_⟩
  simp only [scatterData, hv, orErr_some, ok_bind, rowsAt, hcs, hrows, hps]
  rfl

omit [One K] in
theorem refPointOf_inv {dim : Nat} {ref r : Option (List K)} (h : refPointOf dim ref = .ok r) :
    MarksRef r (List.range dim) ref := by
  cases ref with
  | none => exact (Except.ok.inj h).symm
  | some x =>
    simp only [refPointOf, bind_eq_ok] at h
    obtain ⟨p, hp, h⟩ := h
    exact ⟨p, ((pure_eq_ok _ _).mp h).symm, firstCols_proj hp⟩

omit [One K] in
theorem refPointOf_total {dim : Nat} {ref : Option (List K)} (h : ∀ x, ref = some x → dim ≤ x.length) :
    ∃ r, refPointOf dim ref = .ok r := by
  cases ref with
  | none => exact ⟨none, rfl⟩
  | some x =>
    obtain ⟨p, hp⟩ := firstCols_total (h x rfl)
    exact ⟨some p, by simp only [refPointOf, hp, ok_bind]; rfl⟩

/-- Inversion of `scatter_2D`. -/
theorem scatter2D_inv {s : SampleSet K} {nos : Option (List Nat)} {color ref : Option (List K)}
    {save : Bool} {xlabel ylabel : String} {cbar : Option String} {filename ext : String} {f : ScatterFig K}
    (h : scatter2D (.set s) nos color ref save xlabel ylabel cbar filename ext = .ok f) :
    s.dim = 2 ∧ (∃ v, s.glob.values = some v ∧ ShowsSamples f v [0, 1] (Chosen nos v) color) ∧
      MarksRef f.ref [0, 1] (ref.or s.referenceValue) ∧ f.plain = color.isNone ∧
      f.cbar = (if color.isNone then "index" else cbar.getD rhoLabel) ∧
      f.labels = (if save then [xlabel, ylabel] else []) ∧
      f.file = if save then some (fullName filename ext) else none := by
  simp only [scatter2D, bind_eq_ok] at h
  obtain ⟨s', hs, _, hd, q, hq, r, hr, h⟩ := h
  cases hs
  cases (pure_eq_ok _ _).mp h
  rw [raiseIf_eq_ok] at hd
  obtain ⟨v, hv, h1, h2, h3⟩ := scatterData_inv hq
  refine ⟨not_not.mp hd, ⟨v, hv, h1, h2, h3⟩, refPointOf_inv hr, rfl, rfl, rfl, rfl⟩

/-- Inversion of `scatter_3D`. -/
theorem scatter3D_inv {s : SampleSet K} {nos : Option (List Nat)} {color ref : Option (List K)}
    {save : Bool} {xlabel ylabel zlabel : String} {cbar : Option String} {filename ext : String}
    {f : ScatterFig K}
    (h : scatter3D (.set s) nos color ref save xlabel ylabel zlabel cbar filename ext = .ok f) :
    s.dim = 3 ∧ (∃ v, s.glob.values = some v ∧ ShowsSamples f v [0, 1, 2] (Chosen nos v) color) ∧
      MarksRef f.ref [0, 1, 2] (ref.or s.referenceValue) ∧ f.plain = color.isNone ∧ f.cbar = cbar.getD rhoLabel ∧
      f.labels = [xlabel, ylabel, zlabel] ∧ f.file = if save then some (fullName filename ext) else none := by
  simp only [scatter3D, bind_eq_ok] at h
  obtain ⟨s', hs, _, hd, q, hq, r, hr, h⟩ := h
  cases hs
  cases (pure_eq_ok _ _).mp h
  rw [raiseIf_eq_ok] at hd
  obtain ⟨v, hv, h1, h2, h3⟩ := scatterData_inv hq
  refine ⟨not_not.mp hd, ⟨v, hv, h1, h2, h3⟩, refPointOf_inv hr, rfl, rfl, rfl, rfl⟩

theorem scatter2D_total {s : SampleSet K} (hd : s.dim = 2) {nos : Option (List Nat)}
    {color ref : Option (List K)} {v : List (List K)} (hv : s.glob.values = some v)
    (hcols : ∀ row ∈ v, 2 ≤ row.length) (hnos : ∀ l, nos = some l → ∀ n ∈ l, n < v.length)
    (hcolor : ∀ c, color = some c → v.length ≤ c.length)
    (href : ∀ x, ref.or s.referenceValue = some x → 2 ≤ x.length)
    (save : Bool) (xlabel ylabel : String) (cbar : Option String) (filename ext : String) :
    ∃ f, scatter2D (.set s) nos color ref save xlabel ylabel cbar filename ext = .ok f := by
  obtain ⟨q, hq⟩ := scatterData_total hv hcols hnos hcolor
  obtain ⟨r, hr⟩ := refPointOf_total href
  simp only [scatter2D, SampleObj.needSet, ok_bind, raiseIf, hd, hq, hr]
  exact ⟨_, rfl⟩

theorem scatter3D_total {s : SampleSet K} (hd : s.dim = 3) {nos : Option (List Nat)}
    {color ref : Option (List K)} {v : List (List K)} (hv : s.glob.values = some v)
    (hcols : ∀ row ∈ v, 3 ≤ row.length) (hnos : ∀ l, nos = some l → ∀ n ∈ l, n < v.length)
    (hcolor : ∀ c, color = some c → v.length ≤ c.length)
    (href : ∀ x, ref.or s.referenceValue = some x → 3 ≤ x.length)
    (save : Bool) (xlabel ylabel zlabel : String) (cbar : Option String) (filename ext : String) :
    ∃ f, scatter3D (.set s) nos color ref save xlabel ylabel zlabel cbar filename ext = .ok f := by
  obtain ⟨q, hq⟩ := scatterData_total hv hcols hnos hcolor
  obtain ⟨r, hr⟩ := refPointOf_total href
  simp only [scatter3D, SampleObj.needSet, ok_bind, raiseIf, hd, hq, hr]
  exact ⟨_, rfl⟩

/-! ## Theorems -/

/-- C100: `scatter_2D` shows, for the sample numbers asked for (or all), both coordinates of each sample in the
colour of the same sample, and marks the reference value (given or of the set). -/
theorem C100_scatter2D {s : SampleSet K} {nos : Option (List Nat)} {color ref : Option (List K)}
    {save : Bool} {xlabel ylabel : String} {cbar : Option String} {filename ext : String} {f : ScatterFig K}
    (h : scatter2D (.set s) nos color ref save xlabel ylabel cbar filename ext = .ok f) :
    (∃ v, s.glob.values = some v ∧ ShowsSamples f v [0, 1] (Chosen nos v) color) ∧
      MarksRef f.ref [0, 1] (ref.or s.referenceValue) ∧ (save = true → f.labels = [xlabel, ylabel]) ∧
      (f.plain = true ↔ color = none) ∧ (∀ l, color ≠ none → cbar = some l → f.cbar = l) := by
  obtain ⟨-, h1, h2, h3, h4, h5, -⟩ := scatter2D_inv h
  refine ⟨h1, h2, fun hs => by rw [h5, hs]; rfl, by rw [h3]; cases color <;> simp, ?_⟩
  intro l hc hl
  rw [h4, hl]
  cases color with
  | none => exact absurd rfl hc
  | some c => rfl

/-- C100: `scatter_3D` shows, for the sample numbers asked for (or all), the three coordinates of each sample in
the colour of the same sample, and marks the reference value (given or of the set). -/
theorem C100_scatter3D {s : SampleSet K} {nos : Option (List Nat)} {color ref : Option (List K)}
    {save : Bool} {xlabel ylabel zlabel : String} {cbar : Option String} {filename ext : String}
    {f : ScatterFig K}
    (h : scatter3D (.set s) nos color ref save xlabel ylabel zlabel cbar filename ext = .ok f) :
    (∃ v, s.glob.values = some v ∧ ShowsSamples f v [0, 1, 2] (Chosen nos v) color) ∧
      MarksRef f.ref [0, 1, 2] (ref.or s.referenceValue) ∧ f.labels = [xlabel, ylabel, zlabel] ∧
      (f.plain = true ↔ color = none) ∧ (∀ l, cbar = some l → f.cbar = l) := by
  obtain ⟨-, h1, h2, h3, h4, h5, -⟩ := scatter3D_inv h
  exact ⟨h1, h2, h5, by rw [h3]; cases color <;> simp, fun l hl => by rw [h4, hl]; rfl⟩

/-- C100: they succeed on every set of the right dimension with values, if the sample numbers exist and there is
a colour for every sample; and they refuse sets of other dimensions and other objects. -/
theorem C100_succeeds {s : SampleSet K} {nos : Option (List Nat)} {color ref : Option (List K)}
    {v : List (List K)} (hv : s.glob.values = some v) (hcols : ∀ row ∈ v, row.length = s.dim)
    (hnos : ∀ l, nos = some l → ∀ n ∈ l, n < v.length) (hcolor : ∀ c, color = some c → c.length = v.length)
    (href : ∀ x, ref = some x ∨ s.referenceValue = some x → x.length = s.dim)
    (save : Bool) (xlabel ylabel zlabel : String) (cbar : Option String) (filename ext : String) :
    (s.dim = 2 → ∃ f, scatter2D (.set s) nos color ref save xlabel ylabel cbar filename ext = .ok f) ∧
    (s.dim ≠ 2 → scatter2D (.set s) nos color ref save xlabel ylabel cbar filename ext =
      .error .dimNotMatching) ∧
    (s.dim = 3 → ∃ f, scatter3D (.set s) nos color ref save xlabel ylabel zlabel cbar filename ext = .ok f) ∧
    (s.dim ≠ 3 → scatter3D (.set s) nos color ref save xlabel ylabel zlabel cbar filename ext =
      .error .dimNotMatching) := by
  have href' : ∀ x, ref.or s.referenceValue = some x → x.length = s.dim := by
    intro x hx
    apply href
    cases ref with
    | none => exact Or.inr (by simpa using hx)
    | some y => exact Or.inl (by simpa using hx)
  refine ⟨fun hd => ?_, fun hd => ?_, fun hd => ?_, fun hd => ?_⟩
  · exact scatter2D_total hd hv (fun r hr => by rw [hcols r hr, hd]) hnos
      (fun c hc => (hcolor c hc).ge) (fun x hx => by rw [href' x hx, hd]) _ _ _ _ _ _
  · simp only [scatter2D, SampleObj.needSet, ok_bind, raiseIf, if_pos hd, error_bind]
  · exact scatter3D_total hd hv (fun r hr => by rw [hcols r hr, hd]) hnos
      (fun c hc => (hcolor c hc).ge) (fun x hx => by rw [href' x hx, hd]) _ _ _ _ _ _ _
  · simp only [scatter3D, SampleObj.needSet, ok_bind, raiseIf, if_pos hd, error_bind]

/-- C100: objects that are no sample sets are refused with `bad_object`; so are objects that are no
discretizations by the functions for inputs and outputs. -/
theorem C100_refused (d : Disc K) (s : SampleSet K) (side : Side) (nos : Option (List Nat))
    (color : Option (List K)) (carg : ColorArg K) (ref : Option (List K)) (save : Bool)
    (xlabel ylabel zlabel : String) (cbar : Option String) (filename ext : String) :
    (∀ obj ∈ [SampleObj.disc d, .other],
      scatter2D obj nos color ref save xlabel ylabel cbar filename ext = .error .badObject ∧
      scatter3D obj nos color ref save xlabel ylabel zlabel cbar filename ext = .error .badObject) ∧
    ∀ obj ∈ [SampleObj.set s, .other],
      scatter2DOf side obj nos carg ref save xlabel ylabel cbar filename ext = .error .badObject := by
  constructor
  · intro obj hobj
    rcases List.mem_cons.mp hobj with rfl | hobj
    · exact ⟨rfl, rfl⟩
    · cases List.mem_singleton.mp hobj
      exact ⟨rfl, rfl⟩
  · intro obj hobj
    rcases List.mem_cons.mp hobj with rfl | hobj
    · rfl
    · cases List.mem_singleton.mp hobj
      rfl

/-- C100: a figure is saved if and only if this is asked for; to `filename` with the extension if the file name
contains no dot. -/
theorem C100_file {s : SampleSet K} {nos : Option (List Nat)} {color ref : Option (List K)}
    {save : Bool} {xlabel ylabel : String} {cbar : Option String} {filename ext : String} {f : ScatterFig K}
    (h : scatter2D (.set s) nos color ref save xlabel ylabel cbar filename ext = .ok f) :
    (save = false → f.file = none) ∧
    (save = true → '.' ∉ filename.toList → f.file = some (filename ++ ext)) ∧
    (save = true → '.' ∈ filename.toList → f.file = some filename) := by
  obtain ⟨-, -, -, -, -, -, h6⟩ := scatter2D_inv h
  refine ⟨fun hs => by rw [h6, hs]; rfl, fun hs hd => ?_, fun hs hd => ?_⟩
  · rw [h6, hs, fullName, if_neg hd]; rfl
  · rw [h6, hs, fullName, if_pos hd]; rfl

/-- C100, negation: in a folder whose path contains a dot (`./figs/`, `../`) the extension is lost, for every
file name. -/
theorem C100_negation_extension {s : SampleSet K} {nos : Option (List Nat)} {color ref : Option (List K)}
    {xlabel ylabel : String} {cbar : Option String} {folder name ext : String} {f : ScatterFig K}
    (hdot : '.' ∈ folder.toList) (hext : ext ≠ "")
    (h : scatter2D (.set s) nos color ref true xlabel ylabel cbar (folder ++ name) ext = .ok f) :
    f.file = some (folder ++ name) ∧ f.file ≠ some (folder ++ name ++ ext) := by
  have h1 := (C100_file h).2.2 rfl (by simp [hdot])
  refine ⟨h1, ?_⟩
  rw [h1]
  intro h2
  have h3 := congrArg String.length (Option.some.inj h2)
  simp only [String.length_append] at h3
  exact hext (String.length_eq_zero_iff.mp (by omega))

/-! ### Inputs and outputs -/

/-- The array of a set that a string names. -/
def Spec.ArrayNamed (s : SampleSet K) : String → Option (List K)
  | "volumes" => s.glob.volumes
  | "probabilities" => s.glob.probabilities
  | "radii" => s.glob.radii
  | "normalized radii" => s.glob.normalizedRadii
  | "error_id" => s.glob.errorId
  | _ => none

/-- The strings that name arrays. -/
def Spec.colorNames : List String := ["volumes", "probabilities", "radii", "normalized radii", "error_id"]

omit [One K] in
theorem namedColor_eq (side : Side) (s : SampleSet K) {name : String} (h : name ∈ colorNames) :
    ∃ l, namedColor side s name = some (l, ArrayNamed s name) := by
  simp only [colorNames, List.mem_cons, List.not_mem_nil, or_false] at h
  rcases h with rfl | rfl | rfl | rfl | rfl <;> exact ⟨_, rfl⟩

omit [One K] in
theorem resolveColor_named (side : Side) (s : SampleSet K) (cbar : Option String) {name : String}
    (h : name ∈ colorNames) :
    ∃ l : String, resolveColor side (some s) cbar (.str name true) = .ok (some (some l, ArrayNamed s name)) := by
  obtain ⟨l, hl⟩ := namedColor_eq side s h
  have hk : knownColor name = true := by simpa [knownColor, colorNames] using h
  refine ⟨l, ?_⟩
  simp only [resolveColor, hk, and_self, if_true, orErr_some, ok_bind, hl]
  rfl

/-- C100: `scatter_2D_input` and `scatter_2D_output` plot the input and the output samples as `scatter_2D`
does, coloured by the given array, or by the array of that sample set that the given string names. -/
theorem C100_sides (side : Side) (d : Disc K) (s : SampleSet K)
    (hs : (match side with | .input => d.input | .output => d.output) = some s) (nos : Option (List Nat))
    (ref : Option (List K)) (save : Bool) (xlabel ylabel : String) (cbar : Option String)
    (filename ext : String) :
    (∀ c, scatter2DOf side (.disc d) nos (.array c) ref save xlabel ylabel cbar filename ext =
      scatter2D (.set s) nos (some c) ref save xlabel ylabel cbar filename ext) ∧
    (scatter2DOf side (.disc d) nos .unset ref save xlabel ylabel cbar filename ext =
      scatter2D (.set s) nos none ref save xlabel ylabel cbar filename ext) ∧
    ∀ name ∈ colorNames, ∃ l, scatter2DOf side (.disc d) nos (.str name true) ref save xlabel ylabel cbar
        filename ext =
      scatter2D (.set s) nos (ArrayNamed s name) ref save xlabel ylabel (some l) filename ext := by
  have hs' : side.of d = some s := by cases side <;> exact hs
  refine ⟨fun c => ?_, ?_, fun name hname => ?_⟩
  · simp only [scatter2DOf, SampleObj.needDisc, ok_bind, resolveColor, hs', SampleObj.ofOption]
  · simp only [scatter2DOf, SampleObj.needDisc, ok_bind, resolveColor, hs', SampleObj.ofOption]
  · obtain ⟨l, hl⟩ := resolveColor_named side s cbar hname
    refine ⟨l, ?_⟩
    simp only [scatter2DOf, SampleObj.needDisc, ok_bind, hl, hs', SampleObj.ofOption]

/-- C100, negation: if the named array has not been computed, the figure is drawn nevertheless, with the same
colour for all samples. -/
theorem C100_negation_unset {side : Side} {d : Disc K} {s : SampleSet K}
    (hs : (match side with | .input => d.input | .output => d.output) = some s) {name : String}
    (hname : name ∈ colorNames) (hunset : ArrayNamed s name = none) {nos : Option (List Nat)}
    {ref : Option (List K)} {save : Bool} {xlabel ylabel : String} {cbar : Option String}
    {filename ext : String} {f : ScatterFig K}
    (h : scatter2DOf side (.disc d) nos (.str name true) ref save xlabel ylabel cbar filename ext = .ok f) :
    (∀ c ∈ f.colors, c = 1) ∧ f.cbar = "index" := by
  obtain ⟨l, hl⟩ := (C100_sides side d s hs nos ref save xlabel ylabel cbar filename ext).2.2 name hname
  rw [hl, hunset] at h
  obtain ⟨-, ⟨v, -, -, h2, h3⟩, -, -, h4, -, -⟩ := scatter2D_inv h
  refine ⟨fun c hc => ?_, h4⟩
  obtain ⟨k, hk, rfl⟩ := List.getElem_of_mem hc
  have hk' : k < (Chosen nos v).length := by omega
  obtain ⟨row, p, c, -, -, -, h5, h6⟩ := h3 k _ (List.getElem?_eq_getElem hk')
  rw [List.getElem?_eq_getElem hk] at h5
  cases h5
  exact h6

/-- C100, negation: a string that is equal to one of the names but another object (as strings with a blank from
another module are in CPython) is refused, because strings are compared by identity. -/
theorem C100_negation_identity (side : Side) (d : Disc K) (s : SampleSet K)
    (hs : (match side with | .input => d.input | .output => d.output) = some s) (hd : s.dim = 2)
    (hv : s.glob.values ≠ none) (name : String) (nos : Option (List Nat)) (ref : Option (List K)) (save : Bool)
    (xlabel ylabel : String) (cbar : Option String) (filename ext : String) :
    scatter2DOf side (.disc d) nos (.str name false) ref save xlabel ylabel cbar filename ext =
      .error .typeError := by
  have hs' : side.of d = some s := by cases side <;> exact hs
  have hv' : s.glob.values.isNone = false := by
    cases h : s.glob.values with
    | none => exact absurd h hv
    | some v => rfl
  simp only [scatter2DOf, SampleObj.needDisc, ok_bind, resolveColor, hs', SampleObj.ofOption, stringColor,
    SampleObj.needSet, raiseIf, hd, hv']
  simp
  rfl

omit [One K] in
/-- C100, negation: `scatter_3D_input` and `scatter_3D_output` never produce a figure; on a discretization
whose sample sets exist they raise `bad_object`, whatever the colour. -/
theorem C100_negation_3D (side : Side) (obj : SampleObj K) (color : ColorArg K) (cbar : Option String) :
    (∀ f, scatter3DOf side obj color cbar ≠ .ok f) ∧
    ∀ (d : Disc K) (s t : SampleSet K), d.input = some s → d.output = some t →
      scatter3DOf side (.disc d) color cbar = .error .badObject := by
  constructor
  · intro f h
    simp only [scatter3DOf, bind_eq_ok] at h
    obtain ⟨d, -, _, -, u, -, h⟩ := h
    exact throw_ne_ok _ _ h
  · intro d s t hs ht
    have : ∃ r, side.of d = some r := by cases side <;> [exact ⟨s, hs⟩; exact ⟨t, ht⟩]
    obtain ⟨r, hr⟩ := this
    have hres : ∃ q, resolveColor side (some r) cbar color = .ok q := by
      cases color with
      | unset => exact ⟨_, rfl⟩
      | array c => exact ⟨_, rfl⟩
      | str name interned =>
        by_cases hk : interned = true ∧ knownColor name = true
        · obtain ⟨rfl, hk⟩ := hk
          obtain ⟨l, hl⟩ := resolveColor_named side r cbar (name := name) (by
            simpa [knownColor, colorNames] using hk)
          exact ⟨_, hl⟩
        · exact ⟨none, by simp only [resolveColor, if_neg hk]⟩
    obtain ⟨q, hq⟩ := hres
    simp only [scatter3DOf, SampleObj.needDisc, ok_bind, hr, hq, SampleObj.ofOption, error_bind]

end

/-! ### Examples -/

namespace Ex

def scat : SampleSet ℚ where
  dim := 2
  glob := { values := some [[0, 1], [2, 3], [4, 5]], volumes := some [1 / 2, 1 / 4, 1 / 4] }
  referenceValue := some [1, 1]

def scat3 : SampleSet ℚ := { dim := 3, glob := { values := some [[0, 1, 2], [2, 3, 4]] } }

/-- Hypotheses of `C100_scatter2D`, `C100_file`: two of three samples. -/
example : (scatter2D (.set scat) (some [2, 0]) (some [7, 8, 9]) none true "a" "b" none "fig" ".png").toOption =
    some ⟨[[4, 5], [0, 1]], [9, 7], false, rhoLabel, some [1, 1], ["a", "b"], some "fig.png"⟩ := by
  decide +kernel

/-- All samples, default colour, not saved. -/
example : (scatter2D (.set scat) none none (some [3, 4]) false "a" "b" none "fig" ".png").toOption =
    some ⟨[[0, 1], [2, 3], [4, 5]], [1, 1, 1], true, "index", some [3, 4], [], none⟩ := by
  decide +kernel

/-- Hypotheses of `C100_negation_extension`. -/
example : (scatter2D (.set scat) none none none true "a" "b" none ("./figs/" ++ "fig") ".png").toOption.bind
    (fun f => f.file) = some "./figs/fig" := by
  decide +kernel

/-- Hypotheses of `C100_scatter3D`. -/
example : (scatter3D (.set scat3) none (some [7, 8]) none true "a" "b" "c" (some "l") "fig" ".png").toOption =
    some ⟨[[0, 1, 2], [2, 3, 4]], [7, 8], false, "l", none, ["a", "b", "c"], some "fig.png"⟩ := by
  decide +kernel

/-- Hypotheses of `C100_sides` and `C100_negation_unset`. -/
example : (scatter2DOf .input (.disc { input := some scat, output := none }) none (.str "volumes" true) none true
    "a" "b" none "fig" ".png").toOption.map (fun f => f.colors) = some [1 / 2, 1 / 4, 1 / 4] := by
  decide +kernel

example : (scatter2DOf .output (.disc { input := none, output := some scat }) none (.str "radii" true) none true
    "a" "b" none "fig" ".png").toOption.map (fun f => (f.colors, f.cbar)) = some ([1, 1, 1], "index") := by
  decide +kernel

end Ex

end BET
