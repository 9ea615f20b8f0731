import Verif.Props.PlotScatter
import Verif.Props.PlotMarginals2D

/-!
# C101, C102: scatter plots of pairs and triples of coordinates
-/

set_option autoImplicit false
set_option linter.unusedSectionVars false
set_option linter.unusedSimpArgs false

namespace BET

section
variable {K : Type}

/-! ## Specification -/

/-- The sample set that `scatter_rhoD` plots: the given one, or the input or output of the discretization. -/
def Spec.PlotsSet (obj : SampleObj K) (io : String) (s : SampleSet K) : Prop :=
  match obj with
  | .set t => t = s
  | .disc d => (io = "input" → d.input = some s) ∧ (io ≠ "input" → d.output = some s)
  | .other => False

/-- The colours: the values of `rho_D` at the output samples of the discretization, or at the samples of the set
if these are outputs; without `rho_D`, and for input samples without their outputs, there are none. -/
def Spec.DensityColors (obj : SampleObj K) (io : String) (rhoD : Option (List (List K) → List K))
    (color : Option (List K)) : Prop :=
  match obj, rhoD with
  | .disc d, some rho => ∃ o v, d.output = some o ∧ o.glob.values = some v ∧ color = some (rho v)
  | .disc _, none => color = none
  | .set s, some rho => (io = "output" → ∃ v, s.glob.values = some v ∧ color = some (rho v)) ∧
      (io ≠ "output" → color = none)
  | .set _, none => color = none
  | .other, _ => False

open Spec

/-! ## Lemmas -/

variable [One K]

theorem colorOf_getD {color : Option (List K)} {m n : Nat} {c : K}
    (h : ColorOf (some (color.getD (List.replicate m 1))) n c) : ColorOf color n c := by
  cases color with
  | some l => exact h
  | none =>
    obtain ⟨h1, h2⟩ := List.getElem?_eq_some_iff.mp (show (List.replicate m (1 : K))[n]? = some c from h)
    rw [List.getElem_replicate] at h2
    exact h2.symm

theorem showsSamples_getD {f : ScatterFig K} {v : List (List K)} {cols nos : List Nat} {color : Option (List K)}
    {m : Nat} (h : ShowsSamples f v cols nos (some (color.getD (List.replicate m 1)))) :
    ShowsSamples f v cols nos color := by
  refine ⟨h.1, h.2.1, fun k n hn => ?_⟩
  obtain ⟨row, p, c, h1, h2, h3, h4, h5⟩ := h.2.2 k n hn
  exact ⟨row, p, c, h1, h2, h3, h4, colorOf_getD h5⟩

omit [One K] in
theorem projectsTo_self {n : Nat} {row p : List K} (hl : row.length = n) (h : ProjectsTo (List.range n) row p) :
    p = row := by
  refine List.ext_getElem? fun j => ?_
  by_cases hj : j < n
  · obtain ⟨t, h1, h2⟩ := h.2 j j (by rw [List.getElem?_range hj])
    rw [h1, h2]
  · rw [List.getElem?_eq_none (by rw [h.1, List.length_range]; omega), List.getElem?_eq_none (by omega)]

/-- Showing the first columns of a projection is showing the columns projected to. -/
theorem showsSamples_comp {f : ScatterFig K} {v v' : List (List K)} {cols nos : List Nat}
    {color : Option (List K)} (hF : List.Forall₂ (ProjectsTo cols) v v')
    (h : ShowsSamples f v' (List.range cols.length) nos color) : ShowsSamples f v cols nos color := by
  refine ⟨h.1, h.2.1, fun k n hn => ?_⟩
  obtain ⟨row, p, c, h1, h2, h3, h4, h5⟩ := h.2.2 k n hn
  obtain ⟨hn', rfl⟩ := List.getElem?_eq_some_iff.mp h1
  have hn'' : n < v.length := by rw [hF.length_eq]; exact hn'
  have hp := List.Forall₂.get hF (i := n) hn'' hn'
  simp only [List.get_eq_getElem] at hp
  rw [projectsTo_self hp.1 h3] at h2
  exact ⟨v[n], v'[n], c, List.getElem?_eq_getElem hn'', h2, hp, h4, h5⟩

omit [One K] in
theorem marksRef_comp {mark ref r : Option (List K)} {cols : List Nat} (h1 : MarksRef r cols ref)
    (h2 : MarksRef mark (List.range cols.length) r) : MarksRef mark cols ref := by
  cases ref with
  | none =>
    cases h1
    exact h2
  | some x =>
    obtain ⟨p, rfl, hp⟩ := h1
    obtain ⟨q, hq, hq'⟩ := h2
    rw [projectsTo_self hp.1 hq'] at hq
    exact ⟨p, hq, hp⟩

omit [One K] in
theorem forall₂_mapM {f : List K → Except Err (List K)} {R : List K → List K → Prop}
    (hf : ∀ a b, f a = .ok b → R a b) {v v' : List (List K)} (h : v.mapM f = .ok v') : List.Forall₂ R v v' := by
  have hF := (mapM_eq_ok _ _ _).mp h
  clear h
  induction hF with
  | nil => exact .nil
  | cons h _ ih => exact .cons (hf _ _ h) ih

omit [One K] in
theorem entries1_proj {xs : List Nat} (hx : ∀ x ∈ xs, 1 ≤ x) {row p : List K} (h : entries1 xs row = .ok p) :
    ProjectsTo (xs.map (· - 1)) row p := by
  have hF := (mapM_eq_ok _ _ _).mp h
  refine ⟨by simp [hF.length_eq], fun j x hj => ?_⟩
  rw [List.getElem?_map] at hj
  obtain ⟨y, hy, rfl⟩ := Option.map_eq_some_iff.mp hj
  clear hj
  obtain ⟨hj, rfl⟩ := List.getElem?_eq_some_iff.mp hy
  have h1 := List.Forall₂.get hF (i := j) hj (by rw [← hF.length_eq]; exact hj)
  have := hx _ (List.getElem_mem hj)
  simp only [List.get_eq_getElem, entry1, if_neg (show ¬ xs[j] = 0 by omega)] at h1
  exact ⟨_, (getIdx_eq_ok _ _ _).mp h1, List.getElem?_eq_getElem _⟩

omit [One K] in
theorem entries1_total {xs : List Nat} {row : List K} (hx : ∀ x ∈ xs, 1 ≤ x ∧ x ≤ row.length) :
    ∃ p, entries1 xs row = .ok p := by
  refine mapM_total (f := entry1 row) (l := xs) fun x hxm => ?_
  have := hx x hxm
  simp only [entry1, if_neg (show ¬ x = 0 by omega)]
  exact ⟨row[x - 1]'(by omega), (getIdx_eq_ok _ _ _).mpr (List.getElem?_eq_getElem _)⟩

omit [One K] in
theorem refEntries1_inv {xs : List Nat} (hx : ∀ x ∈ xs, 1 ≤ x) {ref r : Option (List K)}
    (h : refEntries1 xs ref = .ok r) : MarksRef r (xs.map (· - 1)) ref := by
  cases ref with
  | none => exact (Except.ok.inj h).symm
  | some x =>
    simp only [refEntries1, bind_eq_ok] at h
    obtain ⟨p, hp, h⟩ := h
    exact ⟨p, ((pure_eq_ok _ _).mp h).symm, entries1_proj hx hp⟩

omit [One K] in
theorem refEntries1_total {xs : List Nat} {ref : Option (List K)}
    (hx : ∀ r, ref = some r → ∀ x ∈ xs, 1 ≤ x ∧ x ≤ r.length) :
    ∃ r, refEntries1 xs ref = .ok r ∧ ∀ q, r = some q → q.length = xs.length := by
  cases ref with
  | none => exact ⟨none, rfl, by simp⟩
  | some r =>
    obtain ⟨p, hp⟩ := entries1_total (hx r rfl)
    refine ⟨some p, by simp only [refEntries1, hp, ok_bind]; rfl, ?_⟩
    rintro q hq
    cases hq
    exact ((mapM_eq_ok _ _ _).mp hp).length_eq.symm

omit [One K] in
theorem refEntriesAt_inv {xs : List Nat} {ref r : Option (List K)}
    (h : refEntriesAt xs ref = .ok r) : MarksRef r xs ref := by
  cases ref with
  | none => exact (Except.ok.inj h).symm
  | some x =>
    simp only [refEntriesAt, bind_eq_ok] at h
    obtain ⟨p, hp, h⟩ := h
    exact ⟨p, ((pure_eq_ok _ _).mp h).symm, entriesAt_proj hp⟩

omit [One K] in
theorem refEntriesAt_total {xs : List Nat} {ref : Option (List K)}
    (hx : ∀ r, ref = some r → ∀ x ∈ xs, x < r.length) :
    ∃ r, refEntriesAt xs ref = .ok r ∧ ∀ q, r = some q → q.length = xs.length := by
  cases ref with
  | none => exact ⟨none, rfl, by simp⟩
  | some r =>
    obtain ⟨p, hp⟩ := entriesAt_total (hx r rfl)
    refine ⟨some p, by simp only [refEntriesAt, hp, ok_bind]; rfl, ?_⟩
    rintro q hq
    cases hq
    exact ((mapM_eq_ok _ _ _).mp hp).length_eq.symm

omit [One K] in
/-- Every row is mapped, and the rows of the result have the same length. -/
theorem cols_total {f : List K → Except Err (List K)} {n : Nat} {v : List (List K)}
    (h : ∀ row ∈ v, ∃ p, f row = .ok p ∧ p.length = n) :
    ∃ cols, v.mapM f = .ok cols ∧ cols.length = v.length ∧ ∀ row ∈ cols, row.length = n := by
  obtain ⟨cols, hc⟩ := mapM_total (f := f) (l := v) fun row hr => ⟨_, (h row hr).choose_spec.1⟩
  have hF := (mapM_eq_ok _ _ _).mp hc
  refine ⟨cols, hc, hF.length_eq.symm, fun row hrow => ?_⟩
  obtain ⟨k, hk, rfl⟩ := List.getElem_of_mem hrow
  have hk' : k < v.length := by rw [hF.length_eq]; exact hk
  have h1 := List.Forall₂.get hF (i := k) hk' hk
  simp only [List.get_eq_getElem] at h1
  obtain ⟨p, hp, hl⟩ := h _ (List.getElem_mem hk')
  rw [h1] at hp
  cases hp
  exact hl

omit [One K] in
theorem or_temp (r : Option (List K)) (n : Nat) (cols : List (List K)) :
    r.or (tempSet n cols).referenceValue = r := by cases r <;> rfl

/-! ### One pair, one triple -/

/-- What the figure of a pair of coordinates (numbered from one) shows. -/
def Spec.PairFigure (f : ScatterFig K) (v : List (List K)) (nos : List Nat) (color ref : Option (List K))
    (char prefix' : String) (save : Bool) (x y : Nat) : Prop :=
  ShowsSamples f v [x - 1, y - 1] nos color ∧ MarksRef f.ref [x - 1, y - 1] ref ∧
    (save = true → f.labels = [char ++ "{" ++ toString x ++ "}$", char ++ "{" ++ toString y ++ "}$"] ∧
      f.file = some (prefix' ++ "samples_x" ++ toString x ++ "x" ++ toString y ++ "_cs" ++ ".png")) ∧
    (save = false → f.file = none)

/-- What the figure of a triple of coordinates (numbered from one) shows. -/
def Spec.TripleFigure (f : ScatterFig K) (v : List (List K)) (nos : List Nat) (color ref : Option (List K))
    (char prefix' ext : String) (save : Bool) (x y z : Nat) : Prop :=
  ShowsSamples f v [x - 1, y - 1, z - 1] nos color ∧ MarksRef f.ref [x - 1, y - 1, z - 1] ref ∧
    f.labels = [char ++ "{" ++ toString x ++ "}$", char ++ "{" ++ toString y ++ "}$",
      char ++ "{" ++ toString z ++ "}$"] ∧
    (save = true → f.file = some (prefix' ++ "samples_x" ++ toString x ++ "x" ++ toString y ++ "x" ++
      toString z ++ "_cs" ++ ext)) ∧
    (save = false → f.file = none)

theorem no_dot_digits (n : Nat) : '.' ∉ (toString n).toList := by
  rw [toList_toString]
  intro h
  have := Nat.isDigit_of_mem_toDigits (b := 10) (by omega) (by omega) h
  exact absurd this (by decide)

omit [One K] in
theorem chosen_length {nos : Option (List Nat)} {v v' : List (List K)} (h : v'.length = v.length) :
    Chosen nos v' = Chosen nos v := by
  cases nos with
  | none => simp only [Chosen, h]
  | some l => rfl

theorem rhoDPair_inv {v : List (List K)} {nos : Option (List Nat)} {color ref : Option (List K)} {m : Nat}
    {save : Bool} {char prefix' : String} (hdot : '.' ∉ prefix'.toList) {x y : Nat} (hx : 1 ≤ x) (hy : 1 ≤ y)
    {f : ScatterFig K}
    (h : rhoDPair v nos (color.getD (List.replicate m 1)) ref save (char, prefix') [x, y] = .ok f) :
    PairFigure f v (Chosen nos v) color ref char prefix' save x y := by
  simp only [rhoDPair, bind_eq_ok] at h
  obtain ⟨x', hx', y', hy', cols, hc, r, hr, h⟩ := h
  cases hx'
  cases hy'
  have h1 : ∀ t ∈ [x, y], 1 ≤ t := by simp [hx, hy]
  have hF := forall₂_mapM (fun a b (h : entries1 _ a = .ok b) => entries1_proj h1 h) hc
  obtain ⟨-, ⟨v', hv', h2⟩, h3, -, -, h4, h5⟩ := scatter2D_inv h
  cases hv'
  have hch := chosen_length (nos := nos) hF.length_eq.symm
  rw [hch] at h2
  refine ⟨showsSamples_comp hF (showsSamples_getD h2), ?_, fun hs => ?_, fun hs => ?_⟩
  · exact marksRef_comp (refEntries1_inv h1 hr) (by rw [or_temp] at h3; exact h3)
  · refine ⟨by rw [h4, hs]; rfl, ?_⟩
    rw [h5, if_pos hs, fullName, if_neg]
    · simp only [String.toList_append, List.mem_append, hdot, no_dot_digits, false_or, or_false]
      decide
  · rw [h5, hs]; rfl

theorem rhoDTriple_inv {v : List (List K)} {nos : Option (List Nat)} {color ref : Option (List K)} {m : Nat}
    {save : Bool} {char prefix' ext : String} (hdot : '.' ∉ prefix'.toList) {x y z : Nat} (hx : 1 ≤ x)
    (hy : 1 ≤ y) (hz : 1 ≤ z) {f : ScatterFig K}
    (h : rhoDTriple v nos (color.getD (List.replicate m 1)) ref save (char, prefix') ext [x, y, z] = .ok f) :
    TripleFigure f v (Chosen nos v) color ref char prefix' ext save x y z := by
  simp only [rhoDTriple, bind_eq_ok] at h
  obtain ⟨x', hx', y', hy', z', hz', cols, hc, r, hr, h⟩ := h
  cases hx'
  cases hy'
  cases hz'
  have h1 : ∀ t ∈ [x, y, z], 1 ≤ t := by simp [hx, hy, hz]
  have hF := forall₂_mapM (fun a b (h : entries1 _ a = .ok b) => entries1_proj h1 h) hc
  obtain ⟨-, ⟨v', hv', h2⟩, h3, -, -, h4, h5⟩ := scatter3D_inv h
  cases hv'
  have hch := chosen_length (nos := nos) hF.length_eq.symm
  rw [hch] at h2
  refine ⟨showsSamples_comp hF (showsSamples_getD h2), ?_, h4, fun hs => ?_, fun hs => ?_⟩
  · exact marksRef_comp (refEntries1_inv h1 hr) (by rw [or_temp] at h3; exact h3)
  · rw [h5, if_pos hs, fullName, if_neg]
    · simp only [String.toList_append, List.mem_append, hdot, no_dot_digits, false_or, or_false]
      decide
  · rw [h5, hs]; rfl

omit [One K] in
theorem rhoDSet_inv {obj : SampleObj K} {io : String} {rhoD : Option (List (List K) → List K)}
    {q : Option (SampleSet K) × Option (List K)} (h : rhoDSet obj io rhoD = .ok q) {s : SampleSet K}
    (hs : q.1 = some s) : PlotsSet obj io s ∧ DensityColors obj io rhoD q.2 := by
  cases obj with
  | other => cases h
  | disc d =>
    cases rhoD with
    | none =>
      cases h
      refine ⟨⟨fun h => ?_, fun h => ?_⟩, rfl⟩
      · simpa [h] using hs
      · simpa [h] using hs
    | some rho =>
      simp only [rhoDSet, bind_eq_ok] at h
      obtain ⟨o, ho, v, hv, h⟩ := h
      cases (pure_eq_ok _ _).mp h
      refine ⟨⟨fun h => ?_, fun h => ?_⟩, o, v, (orErr_eq_ok _ _ _).mp ho, (orErr_eq_ok _ _ _).mp hv, rfl⟩
      · simpa [h] using hs
      · simpa [h] using hs
  | set t =>
    simp only [rhoDSet] at h
    split at h
    · rename_i hio
      simp only [bind_eq_ok] at h
      obtain ⟨rho, ho, v, hv, h⟩ := h
      cases (pure_eq_ok _ _).mp h
      cases (orErr_eq_ok _ _ _).mp ho
      exact ⟨Option.some.inj hs, fun _ => ⟨v, (orErr_eq_ok _ _ _).mp hv, rfl⟩, fun hne => absurd hio hne⟩
    · rename_i hio
      cases h
      refine ⟨Option.some.inj hs, ?_⟩
      cases rhoD with
      | none => rfl
      | some rho => exact ⟨fun h => absurd h hio, fun _ => rfl⟩

omit [One K] in
theorem rhoDSet_total {s : SampleSet K} {v : List (List K)} (hv : s.glob.values = some v) {obj : SampleObj K}
    {io : String} {rhoD : Option (List (List K) → List K)} (hobj : PlotsSet obj io s)
    (hout : io = "output" → (∃ t, obj = .set t) → rhoD ≠ none)
    (hdisc : ∀ d, obj = .disc d → ∃ o w, d.output = some o ∧ o.glob.values = some w ∧ w.length = v.length)
    (hrho : ∀ rho, rhoD = some rho → ∀ w, (rho w).length = w.length) :
    ∃ color, rhoDSet obj io rhoD = .ok (some s, color) ∧ ∀ c, color = some c → c.length = v.length := by
  cases obj with
  | other => exact hobj.elim
  | set t =>
    have hobj : t = s := hobj
    subst hobj
    by_cases hio : io = "output"
    · obtain ⟨rho, rfl⟩ := Option.ne_none_iff_exists'.mp (hout hio ⟨t, rfl⟩)
      refine ⟨some (rho v), ?_, ?_⟩
      · simp only [rhoDSet, if_pos hio, orErr_some, ok_bind, hv]
        rfl
      · rintro c hc
        cases hc
        exact hrho rho rfl v
    · exact ⟨none, by simp only [rhoDSet, if_neg hio], by simp⟩
  | disc d =>
    have hs : (if io = "input" then d.input else d.output) = some s := by
      by_cases h : io = "input"
      · rw [if_pos h]; exact hobj.1 h
      · rw [if_neg h]; exact hobj.2 h
    cases rhoD with
    | none => exact ⟨none, by simp only [rhoDSet, hs], by simp⟩
    | some rho =>
      obtain ⟨o, w, ho, hw, hl⟩ := hdisc d rfl
      refine ⟨some (rho w), ?_, ?_⟩
      · simp only [rhoDSet, ho, orErr_some, ok_bind, hw]
        rw [ho] at hs
        rw [hs]
        rfl
      · rintro c hc
        cases hc
        rw [hrho rho rfl w, hl]

theorem rhoDNames_no_dot (labelChar : Option String) (io : String) :
    '.' ∉ (rhoDNames labelChar io).2.toList := by
  unfold rhoDNames
  split
  · decide
  · split <;> decide

/-- The steps of `scatter_rhoD`. -/
theorem scatterRhoD_inv {obj : SampleObj K} {ref : Option (List K)} {nos : Option (List Nat)} {io : String}
    {rhoD : Option (List (List K) → List K)} {dimNums : Option (List Nat)} {labelChar : Option String}
    {showdim : Option Nat} {save : Bool} {ext : String} {figs : List (ScatterFig K)}
    (h : scatterRhoD obj ref nos io rhoD dimNums labelChar showdim save ext = .ok figs) :
    ∃ s v color x y, PlotsSet obj io s ∧ s.glob.values = some v ∧ DensityColors obj io rhoD color ∧
      (dimNums.getD ((List.range s.dim).map (· + 1)))[0]? = some x ∧
      (dimNums.getD ((List.range s.dim).map (· + 1)))[1]? = some y ∧
      scatterRhoD.rhoDFigures nos showdim save ext s v (ref.or s.referenceValue)
        (color.getD (List.replicate v.length 1)) (rhoDNames labelChar io)
        (dimNums.getD ((List.range s.dim).map (· + 1))) x y = .ok figs := by
  simp only [scatterRhoD, bind_eq_ok] at h
  obtain ⟨q, hq, s, hs, v, hv, x, hx, y, hy, h⟩ := h
  obtain ⟨h1, h2⟩ := rhoDSet_inv hq ((orErr_eq_ok _ _ _).mp hs)
  exact ⟨s, v, q.2, x, y, h1, (orErr_eq_ok _ _ _).mp hv, h2, (getIdx_eq_ok _ _ _).mp hx,
    (getIdx_eq_ok _ _ _).mp hy, h⟩

/-! ## C101 -/

omit [One K] in
/-- The set that is plotted is determined. -/
theorem plotsSet_unique {obj : SampleObj K} {io : String} {s t : SampleSet K} (hs : PlotsSet obj io s)
    (ht : PlotsSet obj io t) : s = t := by
  cases obj with
  | other => exact hs.elim
  | set u => exact hs.symm.trans ht
  | disc d =>
    by_cases h : io = "input"
    · exact Option.some.inj ((hs.1 h).symm.trans (ht.1 h))
    · exact Option.some.inj ((hs.2 h).symm.trans (ht.2 h))

/-- C101: two-dimensional samples are shown in one figure, coloured by the values of `rho_D`. -/
theorem C101_plane {obj : SampleObj K} {ref : Option (List K)} {nos : Option (List Nat)} {io : String}
    {rhoD : Option (List (List K) → List K)} {dimNums : Option (List Nat)} {labelChar : Option String}
    {showdim : Option Nat} {save : Bool} {ext : String} {figs : List (ScatterFig K)}
    (h : scatterRhoD obj ref nos io rhoD dimNums labelChar showdim save ext = .ok figs)
    {s : SampleSet K} (hs : PlotsSet obj io s) (hd : s.dim = 2) :
    ∃ f v color, figs = [f] ∧ s.glob.values = some v ∧ DensityColors obj io rhoD color ∧
      ShowsSamples f v [0, 1] (Chosen nos v) color ∧ MarksRef f.ref [0, 1] (ref.or s.referenceValue) := by
  obtain ⟨s', v, color, x, y, hs', hv, hc, hx, hy, h⟩ := scatterRhoD_inv h
  cases plotsSet_unique hs hs'
  simp only [scatterRhoD.rhoDFigures, if_pos hd, bind_eq_ok] at h
  obtain ⟨f, hf, h⟩ := h
  obtain ⟨-, ⟨v', hv', h2⟩, h3, -, -, h4, h5⟩ := scatter2D_inv hf
  rw [hv] at hv'
  cases hv'
  refine ⟨f, v, color, ((pure_eq_ok _ _).mp h).symm, hv, hc, showsSamples_getD h2, ?_⟩
  cases ref with
  | none => simpa using h3
  | some r => simpa using h3

/-- C101: with `showdim = 2` there is one figure for each pair of the coordinates `dim_nums` (by default all) of
samples of dimension three or more, which shows these coordinates of all chosen samples coloured by the values
of `rho_D`; and there are no other figures. -/
theorem C101_pairs {obj : SampleObj K} {ref : Option (List K)} {nos : Option (List Nat)} {io : String}
    {rhoD : Option (List (List K) → List K)} {dimNums : Option (List Nat)} {labelChar : Option String}
    {save : Bool} {ext : String} {figs : List (ScatterFig K)}
    (h : scatterRhoD obj ref nos io rhoD dimNums labelChar (some 2) save ext = .ok figs)
    {s : SampleSet K} (hs : PlotsSet obj io s) (hd : 3 ≤ s.dim) (hpos : ∀ l, dimNums = some l → ∀ x ∈ l, 1 ≤ x) :
    ∃ v color char prefix', s.glob.values = some v ∧ DensityColors obj io rhoD color ∧
      (∀ x y : Nat, [x, y].Sublist (dimNums.getD ((List.range s.dim).map (· + 1))) →
        ∃ f ∈ figs, PairFigure f v (Chosen nos v) color (ref.or s.referenceValue) char prefix' save x y) ∧
      (∀ f ∈ figs, ∃ x y : Nat, [x, y].Sublist (dimNums.getD ((List.range s.dim).map (· + 1))) ∧
        PairFigure f v (Chosen nos v) color (ref.or s.referenceValue) char prefix' save x y) := by
  obtain ⟨s', v, color, x, y, hs', hv, hc, hx, hy, h⟩ := scatterRhoD_inv h
  cases plotsSet_unique hs hs'
  simp only [scatterRhoD.rhoDFigures, if_neg (show ¬ s.dim = 2 by omega),
    if_pos (show 2 < s.dim ∧ True from ⟨hd, trivial⟩)] at h
  have hnums : ∀ t ∈ dimNums.getD ((List.range s.dim).map (· + 1)), 1 ≤ t := by
    cases dimNums with
    | none => simp
    | some l => exact hpos l rfl
  have hdot := rhoDNames_no_dot labelChar io
  refine ⟨v, color, (rhoDNames labelChar io).1, (rhoDNames labelChar io).2, hv, hc, ?_, ?_⟩
  · intro a b hab
    obtain ⟨f, hf⟩ := mapM_ok_mem _ _ _ h [a, b] ((mem_combos 2 _ _).mpr ⟨hab, rfl⟩)
    exact ⟨f, mapM_mem_of h ((mem_combos 2 _ _).mpr ⟨hab, rfl⟩) hf,
      rhoDPair_inv hdot (hnums a (hab.subset (by simp))) (hnums b (hab.subset (by simp))) hf⟩
  · intro f hf
    obtain ⟨k, hk, rfl⟩ := List.getElem_of_mem hf
    have hF := (mapM_eq_ok _ _ _).mp h
    have hk' : k < (combos 2 (dimNums.getD ((List.range s.dim).map (· + 1)))).length := by
      rw [hF.length_eq]; exact hk
    have h1 := List.Forall₂.get hF (i := k) hk' hk
    simp only [List.get_eq_getElem] at h1
    obtain ⟨h2, h3⟩ := (mem_combos 2 _ _).mp (List.getElem_mem hk')
    obtain ⟨a, b, hab⟩ := List.length_eq_two.mp h3
    rw [hab] at h1 h2
    exact ⟨a, b, h2, rhoDPair_inv hdot (hnums a (h2.subset (by simp))) (hnums b (h2.subset (by simp))) h1⟩

/-- C101: samples of dimension three are shown in one figure, unless pairs are asked for. -/
theorem C101_space {obj : SampleObj K} {ref : Option (List K)} {nos : Option (List Nat)} {io : String}
    {rhoD : Option (List (List K) → List K)} {dimNums : Option (List Nat)} {labelChar : Option String}
    {showdim : Option Nat} {save : Bool} {ext : String} {figs : List (ScatterFig K)}
    (h : scatterRhoD obj ref nos io rhoD dimNums labelChar showdim save ext = .ok figs)
    {s : SampleSet K} (hs : PlotsSet obj io s) (hd : s.dim = 3) (hshow : showdim ≠ some 2) :
    ∃ f v color, figs = [f] ∧ s.glob.values = some v ∧ DensityColors obj io rhoD color ∧
      ShowsSamples f v [0, 1, 2] (Chosen nos v) color ∧ MarksRef f.ref [0, 1, 2] (ref.or s.referenceValue) := by
  obtain ⟨s', v, color, x, y, hs', hv, hc, hx, hy, h⟩ := scatterRhoD_inv h
  cases plotsSet_unique hs hs'
  simp only [scatterRhoD.rhoDFigures, if_neg (show ¬ s.dim = 2 by omega),
    if_neg (show ¬ (2 < s.dim ∧ showdim = some 2) from fun h => hshow h.2), if_pos hd, bind_eq_ok] at h
  obtain ⟨z, hz, f, hf, h⟩ := h
  obtain ⟨-, ⟨v', hv', h2⟩, h3, -, -, h4, h5⟩ := scatter3D_inv hf
  rw [hv] at hv'
  cases hv'
  refine ⟨f, v, color, ((pure_eq_ok _ _).mp h).symm, hv, hc, showsSamples_getD h2, ?_⟩
  cases ref with
  | none => simpa using h3
  | some r => simpa using h3

/-- C101: with `showdim = 3` there is one figure for each triple of the coordinates `dim_nums` (by default all)
of samples of dimension four or more; and there are no other figures. -/
theorem C101_triples {obj : SampleObj K} {ref : Option (List K)} {nos : Option (List Nat)} {io : String}
    {rhoD : Option (List (List K) → List K)} {dimNums : Option (List Nat)} {labelChar : Option String}
    {save : Bool} {ext : String} {figs : List (ScatterFig K)}
    (h : scatterRhoD obj ref nos io rhoD dimNums labelChar (some 3) save ext = .ok figs)
    {s : SampleSet K} (hs : PlotsSet obj io s) (hd : 4 ≤ s.dim) (hpos : ∀ l, dimNums = some l → ∀ x ∈ l, 1 ≤ x) :
    ∃ v color char prefix', s.glob.values = some v ∧ DensityColors obj io rhoD color ∧
      (∀ x y z : Nat, [x, y, z].Sublist (dimNums.getD ((List.range s.dim).map (· + 1))) →
        ∃ f ∈ figs, TripleFigure f v (Chosen nos v) color (ref.or s.referenceValue) char prefix' ext save x y z) ∧
      (∀ f ∈ figs, ∃ x y z : Nat, [x, y, z].Sublist (dimNums.getD ((List.range s.dim).map (· + 1))) ∧
        TripleFigure f v (Chosen nos v) color (ref.or s.referenceValue) char prefix' ext save x y z) := by
  obtain ⟨s', v, color, x, y, hs', hv, hc, hx, hy, h⟩ := scatterRhoD_inv h
  cases plotsSet_unique hs hs'
  simp only [scatterRhoD.rhoDFigures, if_neg (show ¬ s.dim = 2 by omega),
    if_neg (show ¬ (2 < s.dim ∧ some 3 = some 2) by simp), if_neg (show ¬ s.dim = 3 by omega),
    if_pos (show 3 < s.dim ∧ True from ⟨hd, trivial⟩)] at h
  have hnums : ∀ t ∈ dimNums.getD ((List.range s.dim).map (· + 1)), 1 ≤ t := by
    cases dimNums with
    | none => simp
    | some l => exact hpos l rfl
  have hdot := rhoDNames_no_dot labelChar io
  refine ⟨v, color, (rhoDNames labelChar io).1, (rhoDNames labelChar io).2, hv, hc, ?_, ?_⟩
  · intro a b c hab
    obtain ⟨f, hf⟩ := mapM_ok_mem _ _ _ h [a, b, c] ((mem_combos 3 _ _).mpr ⟨hab, rfl⟩)
    exact ⟨f, mapM_mem_of h ((mem_combos 3 _ _).mpr ⟨hab, rfl⟩) hf,
      rhoDTriple_inv hdot (hnums a (hab.subset (by simp))) (hnums b (hab.subset (by simp)))
        (hnums c (hab.subset (by simp))) hf⟩
  · intro f hf
    obtain ⟨k, hk, rfl⟩ := List.getElem_of_mem hf
    have hF := (mapM_eq_ok _ _ _).mp h
    have hk' : k < (combos 3 (dimNums.getD ((List.range s.dim).map (· + 1)))).length := by
      rw [hF.length_eq]; exact hk
    have h1 := List.Forall₂.get hF (i := k) hk' hk
    simp only [List.get_eq_getElem] at h1
    obtain ⟨h2, h3⟩ := (mem_combos 3 _ _).mp (List.getElem_mem hk')
    obtain ⟨a, b, c, hab⟩ := List.length_eq_three.mp h3
    rw [hab] at h1 h2
    exact ⟨a, b, c, h2, rhoDTriple_inv hdot (hnums a (h2.subset (by simp))) (hnums b (h2.subset (by simp)))
      (hnums c (h2.subset (by simp))) h1⟩

/-- The pairs of the default coordinates are the pairs `x < y` between one and the dimension. -/
theorem C101_default_pairs (dim x y : Nat) :
    [x, y].Sublist ((List.range dim).map (· + 1)) ↔ 1 ≤ x ∧ x < y ∧ y ≤ dim := by
  constructor
  · intro h
    have h1 : ((List.range dim).map (· + 1)).Pairwise (· < ·) := by
      rw [List.pairwise_map]
      exact List.pairwise_lt_range.imp (by omega)
    have h2 := List.Pairwise.sublist h h1
    have h3 : x ∈ (List.range dim).map (· + 1) := h.subset (by simp)
    have h4 : y ∈ (List.range dim).map (· + 1) := h.subset (by simp)
    simp only [List.mem_map, List.mem_range] at h3 h4
    simp only [List.pairwise_cons, List.mem_singleton, forall_eq] at h2
    omega
  · rintro ⟨h1, h2, h3⟩
    refine List.sublist_iff_exists_fin_orderEmbedding_get_eq.mpr
      ⟨OrderEmbedding.ofStrictMono (fun k => ⟨if k.1 = 0 then x - 1 else y - 1, ?_⟩) ?_, ?_⟩
    · simp only [List.length_map, List.length_range]
      split <;> omega
    · intro a b hab
      have ha := a.2
      have hb := b.2
      simp only [List.length_cons, List.length_nil] at ha hb
      have hab' : a.1 < b.1 := hab
      have : a.1 = 0 ∧ b.1 = 1 := by omega
      simp only [Fin.mk_lt_mk, this.1, this.2]
      simp
      omega
    · intro k
      have hk := k.2
      simp only [List.length_cons, List.length_nil] at hk
      obtain ⟨k, hk'⟩ := k
      rcases (show k = 0 ∨ k = 1 by simp only at hk; omega) with rfl | rfl
      · simp; omega
      · simp; omega

/-- C101: figures of different pairs are saved to different files. -/
theorem C101_files {f g : ScatterFig K} {v : List (List K)} {nos : List Nat} {color ref : Option (List K)}
    {char prefix' : String} {x y x' y' : Nat}
    (hf : PairFigure f v nos color ref char prefix' true x y)
    (hg : PairFigure g v nos color ref char prefix' true x' y') (hne : (x, y) ≠ (x', y')) :
    f.file ≠ g.file := by
  rw [(hf.2.2.1 rfl).2, (hg.2.2.1 rfl).2]
  intro h
  have h := Option.some.inj h
  rw [String.append_assoc (s₁ := prefix' ++ "samples_x" ++ toString x ++ "x" ++ toString y),
    String.append_assoc (s₁ := prefix' ++ "samples_x" ++ toString x' ++ "x" ++ toString y')] at h
  obtain ⟨rfl, rfl⟩ := name2_injective (q := "x") (c := 'x') (l := []) rfl rfl h
  exact hne rfl

/-- C101: it succeeds for every consistent sample set of dimension three or more with `showdim = 2`. -/
theorem C101_succeeds {s : SampleSet K} {v : List (List K)} (hv : s.glob.values = some v)
    (hcols : ∀ row ∈ v, row.length = s.dim) (hd : 3 ≤ s.dim) {dimNums : Option (List Nat)}
    (hnums : ∀ l, dimNums = some l → 2 ≤ l.length ∧ ∀ x ∈ l, 1 ≤ x ∧ x ≤ s.dim) {nos : Option (List Nat)}
    (hnos : ∀ l, nos = some l → ∀ n ∈ l, n < v.length) {ref : Option (List K)}
    (href : ∀ x, ref.or s.referenceValue = some x → x.length = s.dim) {obj : SampleObj K} {io : String}
    {rhoD : Option (List (List K) → List K)} (hobj : PlotsSet obj io s)
    (hout : io = "output" → (∃ t, obj = .set t) → rhoD ≠ none)
    (hdisc : ∀ d, obj = .disc d → ∃ o w, d.output = some o ∧ o.glob.values = some w ∧ w.length = v.length)
    (hrho : ∀ rho, rhoD = some rho → ∀ w, (rho w).length = w.length)
    (labelChar : Option String) (save : Bool) (ext : String) :
    ∃ figs, scatterRhoD obj ref nos io rhoD dimNums labelChar (some 2) save ext = .ok figs := by
  obtain ⟨color, hq, hcolor⟩ : ∃ color, rhoDSet obj io rhoD = .ok (some s, color) ∧
      ∀ c, color = some c → c.length = v.length := by
    exact rhoDSet_total hv hobj hout hdisc hrho
  have hrD : (color.getD (List.replicate v.length 1)).length = v.length := by
    cases color with
    | none => simp
    | some c => exact hcolor c rfl
  have hn : 2 ≤ (dimNums.getD ((List.range s.dim).map (· + 1))).length ∧
      ∀ x ∈ dimNums.getD ((List.range s.dim).map (· + 1)), 1 ≤ x ∧ x ≤ s.dim := by
    cases dimNums with
    | none =>
      refine ⟨by simp; omega, ?_⟩
      intro x hx
      simp only [Option.getD_none, List.mem_map, List.mem_range] at hx
      omega
    | some l => exact hnums l rfl
  have h0 := List.getElem?_eq_getElem (show 0 < (dimNums.getD ((List.range s.dim).map (· + 1))).length by omega)
  have h1 := List.getElem?_eq_getElem (show 1 < (dimNums.getD ((List.range s.dim).map (· + 1))).length by omega)
  simp only [scatterRhoD, hq, ok_bind, orErr_some, hv, getIdx, h0, h1]
  simp only [scatterRhoD.rhoDFigures, if_neg (show ¬ s.dim = 2 by omega),
    if_pos (show 2 < s.dim ∧ True from ⟨hd, trivial⟩)]
  refine mapM_total (f := _) (l := combos 2 _) fun xy hxy => ?_
  obtain ⟨h2, h3⟩ := (mem_combos 2 _ _).mp hxy
  obtain ⟨x, y, rfl⟩ := List.length_eq_two.mp h3
  have hb : ∀ t ∈ [x, y], 1 ≤ t ∧ t ≤ s.dim := fun t ht => hn.2 t (h2.subset ht)
  obtain ⟨cols, hc, hcl, hcr⟩ := cols_total (f := entries1 [x, y]) (n := 2) (v := v) (by
    intro row hrow
    obtain ⟨p, hp⟩ := entries1_total (xs := [x, y]) (row := row) (fun t ht => by rw [hcols row hrow]; exact hb t ht)
    exact ⟨p, hp, ((mapM_eq_ok _ _ _).mp hp).length_eq.symm⟩)
  obtain ⟨r, hr, hrl⟩ := refEntries1_total (xs := [x, y]) (ref := ref.or s.referenceValue)
    (fun q hq t ht => by rw [href q hq]; exact hb t ht)
  obtain ⟨f, hf⟩ := scatter2D_total (s := tempSet 2 cols) rfl (nos := nos)
    (color := some (color.getD (List.replicate v.length 1))) (ref := r) (v := cols) rfl
    (fun row hrow => (hcr row hrow).ge) (fun l hl n hn => by rw [hcl]; exact hnos l hl n hn)
    (fun c hc => by cases hc; rw [hrD, hcl])
    (fun q hq => by
      have : r = some q := by
        cases r with
        | none => simp [tempSet] at hq
        | some w => simpa using hq
      rw [hrl q this]; rfl) save
    (axisName (rhoDNames labelChar io).1 x) (axisName (rhoDNames labelChar io).1 y) none
    ((rhoDNames labelChar io).2 ++ "samples_x" ++ toString x ++ "x" ++ toString y ++ "_cs") ".png"
  refine ⟨f, ?_⟩
  simp only [rhoDPair, getIdx, List.getElem?_cons_zero, List.getElem?_cons_succ, ok_bind, hc, hr]
  exact hf

/-- C101, negation: a given `label_char` is not used; the labels and files are those of any other one. -/
theorem C101_negation_label (a b : String) (obj : SampleObj K) (ref : Option (List K)) (nos : Option (List Nat))
    (io : String) (rhoD : Option (List (List K) → List K)) (dimNums : Option (List Nat)) (showdim : Option Nat)
    (save : Bool) (ext : String) :
    scatterRhoD obj ref nos io rhoD dimNums (some a) showdim save ext =
      scatterRhoD obj ref nos io rhoD dimNums (some b) showdim save ext := rfl

/-- C101, negation: the output samples of a sample set cannot be plotted without `rho_D`. -/
theorem C101_negation_output (s : SampleSet K) (ref : Option (List K)) (nos : Option (List Nat))
    (dimNums : Option (List Nat)) (labelChar : Option String) (showdim : Option Nat) (save : Bool) (ext : String) :
    scatterRhoD (.set s) ref nos "output" none dimNums labelChar showdim save ext = .error .typeError := rfl

/-- C101, negation: samples of dimension four or more are not plotted at all by default. -/
theorem C101_negation_silent {s : SampleSet K} (hd : 4 ≤ s.dim) (hv : s.glob.values ≠ none)
    (ref : Option (List K)) (nos : Option (List Nat)) (save : Bool) (ext : String)
    (rhoD : Option (List (List K) → List K)) :
    scatterRhoD (.set s) ref nos "input" rhoD none none none save ext = .ok [] := by
  obtain ⟨v, hv⟩ := Option.ne_none_iff_exists'.mp hv
  have h0 : ((List.range s.dim).map (· + 1))[0]? = some 1 := by
    rw [List.getElem?_map, List.getElem?_range (by omega)]; rfl
  have h1 : ((List.range s.dim).map (· + 1))[1]? = some 2 := by
    rw [List.getElem?_map, List.getElem?_range (by omega)]; rfl
  simp only [scatterRhoD, rhoDSet, if_neg (show ¬ ("input" = "output") by decide), ok_bind, orErr_some, hv,
    Option.getD_none, getIdx, h0, h1]
  simp only [scatterRhoD.rhoDFigures, if_neg (show ¬ s.dim = 2 by omega), if_neg (show ¬ s.dim = 3 by omega)]
  simp

/-- C101, negation: samples of dimension one are refused with an `IndexError`. -/
theorem C101_negation_line {s : SampleSet K} (hd : s.dim = 1) (hv : s.glob.values ≠ none)
    (ref : Option (List K)) (nos : Option (List Nat)) (labelChar : Option String) (showdim : Option Nat)
    (save : Bool) (ext : String) :
    scatterRhoD (.set s) ref nos "input" none none labelChar showdim save ext = .error .indexError := by
  obtain ⟨v, hv⟩ := Option.ne_none_iff_exists'.mp hv
  simp only [scatterRhoD, rhoDSet, if_neg (show ¬ ("input" = "output") by decide), ok_bind, orErr_some, hv,
    Option.getD_none, hd]
  rfl

/-- C101, negation: for samples of dimension two, `dim_nums` changes the labels of the axes but not the
coordinates that are shown, and the extension is not used. -/
theorem C101_negation_dim_nums {s : SampleSet K} (hd : s.dim = 2) {ref : Option (List K)}
    {nos : Option (List Nat)} {showdim : Option Nat} {ext : String} {figs : List (ScatterFig K)}
    (h : scatterRhoD (.set s) ref nos "input" none (some [2, 1]) none showdim true ext = .ok figs) :
    ∃ f v, figs = [f] ∧ s.glob.values = some v ∧ ShowsSamples f v [0, 1] (Chosen nos v) none ∧
      f.labels = ["$\\lambda_{2}$", "$\\lambda_{1}$"] ∧ f.file = some "input_samples_cs.png" := by
  obtain ⟨s', v, color, x, y, hs', hv, hc, hx, hy, h⟩ := scatterRhoD_inv h
  cases hs'
  cases hx
  cases hy
  cases hc
  simp only [scatterRhoD.rhoDFigures, if_pos hd, bind_eq_ok] at h
  obtain ⟨f, hf, h⟩ := h
  obtain ⟨-, ⟨v', hv', h2⟩, h3, -, -, h4, h5⟩ := scatter2D_inv hf
  rw [hv] at hv'
  cases hv'
  refine ⟨f, v, ((pure_eq_ok _ _).mp h).symm, hv, showsSamples_getD (color := none) h2, ?_, ?_⟩
  · rw [h4]; decide
  · rw [h5]; decide

/-! ## C102 -/

/-- The path of a file: the extension is added to a name without dots. -/
def Spec.FileName (name ext path : String) : Prop :=
  ('.' ∉ name.toList → path = name ++ ext) ∧ ('.' ∈ name.toList → path = name)

/-- What the figure of a pair of coordinates (numbered from zero) shows. -/
def Spec.MultiFigure (f : ScatterFig K) (v : List (List K)) (color ref : Option (List K)) (char name ext : String)
    (x y : Nat) : Prop :=
  ShowsSamples f v [x, y] (List.range v.length) color ∧ MarksRef f.ref [x, y] ref ∧
    f.labels = [char ++ "_{" ++ toString (x + 1) ++ "}$", char ++ "_{" ++ toString (y + 1) ++ "}$"] ∧
    ∃ path, f.file = some path ∧
      FileName (name ++ "_d" ++ toString (x + 1) ++ "_d" ++ toString (y + 1)) ext path

/-- The path of a file in a folder. -/
def Spec.InFolder (folder filename path : String) : Prop :=
  path = folder ++ filename ∨ path = folder ++ "/" ++ filename

theorem pathJoin_append (folder : String) : ∃ sep, (sep = "" ∨ sep = "/") ∧
    ∀ name, pathJoin folder name = folder ++ sep ++ name := by
  unfold pathJoin
  by_cases h : folder = ""
  · exact ⟨"", Or.inl rfl, fun name => by rw [if_pos h, h]; rfl⟩
  · by_cases h2 : folder.toList.getLast? = some '/'
    · exact ⟨"", Or.inl rfl, fun name => by simp [h, h2]⟩
    · exact ⟨"/", Or.inr rfl, fun name => by simp [h, h2]⟩

theorem multiFigure_inv {v : List (List K)} {color ref : Option (List K)}
    {folder filename char ext : String} {cbar : Option String} {x y : Nat} {f : ScatterFig K}
    {sep : String} (hsep : ∀ name, pathJoin folder name = folder ++ sep ++ name)
    (h : multiFigure v color ref folder filename char ext cbar x y = .ok f) :
    MultiFigure f v color ref char (folder ++ sep ++ filename) ext x y := by
  simp only [multiFigure, bind_eq_ok] at h
  obtain ⟨cols, hc, r, hr, h⟩ := h
  have hF := forall₂_mapM (fun a b (h : entriesAt _ a = .ok b) => entriesAt_proj h) hc
  obtain ⟨-, ⟨v', hv', h2⟩, h3, -, -, h4, h5⟩ := scatter2D_inv h
  cases hv'
  rw [chosen_length (nos := none) hF.length_eq.symm] at h2
  refine ⟨showsSamples_comp hF h2, ?_, h4, ?_⟩
  · exact marksRef_comp (refEntriesAt_inv hr) (by rw [or_temp] at h3; exact h3)
  · refine ⟨_, h5, ?_⟩
    have : pathJoin folder (filename ++ "_d" ++ toString (x + 1) ++ "_d" ++ toString (y + 1)) =
        folder ++ sep ++ filename ++ "_d" ++ toString (x + 1) ++ "_d" ++ toString (y + 1) := by
      rw [hsep]
      simp only [String.append_assoc]
    rw [this]
    exact ⟨fun hn => by rw [fullName, if_neg hn], fun hn => by rw [fullName, if_pos hn]⟩

/-- The pairs that are plotted: with `'all'` all pairs, with a number that one with each. -/
def Spec.Pair (showdim : ShowDim) (dim x y : Nat) : Prop :=
  match showdim with
  | .unset => x = 0 ∧ y < dim
  | .one d => x = d ∧ y < dim
  | .all => x < y ∧ y < dim
  | .str => False

theorem sublist_range_pair (dim x y : Nat) : [x, y].Sublist (List.range dim) ↔ x < y ∧ y < dim := by
  have h := C101_default_pairs dim (x + 1) (y + 1)
  have h2 : [x, y].Sublist (List.range dim) ↔ [x + 1, y + 1].Sublist ((List.range dim).map (· + 1)) := by
    constructor
    · intro h
      exact h.map (· + 1)
    · intro h
      have := h.map (· - 1)
      simpa [List.map_map, Function.comp_def] using this
  rw [h2, h]
  omega

theorem mem_multiPairs (showdim : ShowDim) (dim x y : Nat) :
    (x, y) ∈ multiPairs showdim (List.range dim) ↔ Pair showdim dim x y := by
  cases showdim with
  | unset =>
    simp only [multiPairs, List.mem_map, List.mem_range, Prod.mk.injEq, Pair]
    exact ⟨fun ⟨a, h1, h2, h3⟩ => ⟨h2.symm, h3 ▸ h1⟩, fun ⟨h1, h2⟩ => ⟨y, h2, h1.symm, rfl⟩⟩
  | one d =>
    simp only [multiPairs, List.mem_map, List.mem_range, Prod.mk.injEq, Pair]
    exact ⟨fun ⟨a, h1, h2, h3⟩ => ⟨h2.symm, h3 ▸ h1⟩, fun ⟨h1, h2⟩ => ⟨y, h2, h1.symm, rfl⟩⟩
  | all =>
    simp only [multiPairs, List.mem_map, Pair]
    rw [← sublist_range_pair]
    constructor
    · rintro ⟨c, hc, h⟩
      obtain ⟨h1, h2⟩ := (mem_combos 2 _ _).mp hc
      obtain ⟨a, b, rfl⟩ := List.length_eq_two.mp h2
      cases h
      exact h1
    · intro h
      exact ⟨[x, y], (mem_combos 2 _ _).mpr ⟨h, rfl⟩, rfl⟩
  | str => simp [multiPairs, Pair]

/-- C102: `scatter_2D_multi` makes one figure for each pair of coordinates that `showdim` asks for, which shows
these coordinates of all samples in their colours, and marks these coordinates of the reference value; and no
other figures. -/
theorem C102_pairs {isDir canMake : Bool} {s : SampleSet K} {color ref : Option (List K)}
    {folder filename char ext : String} {showdim : ShowDim} {cbar : Option String} {figs : List (ScatterFig K)}
    (h : scatter2DMulti isDir canMake (.set s) color ref folder filename char showdim ext cbar = .ok figs) :
    ∃ path, InFolder folder filename path ∧
      (∀ x y, Pair showdim s.dim x y → ∃ v, s.glob.values = some v ∧
        ∃ f ∈ figs, MultiFigure f v color ref char path ext x y) ∧
      (∀ f ∈ figs, ∃ v, s.glob.values = some v ∧ ∃ x y, Pair showdim s.dim x y ∧
        MultiFigure f v color ref char path ext x y) := by
  obtain ⟨sep, hsep, hj⟩ := pathJoin_append folder
  simp only [scatter2DMulti, SampleObj.needSet, ok_bind, bind_eq_ok] at h
  obtain ⟨_, -, h⟩ := h
  refine ⟨folder ++ sep ++ filename, ?_, ?_, ?_⟩
  · rcases hsep with rfl | rfl
    · exact Or.inl (by simp)
    · exact Or.inr rfl
  · intro x y hxy
    have hm := (mem_multiPairs showdim s.dim x y).mpr hxy
    obtain ⟨f, hf⟩ := mapM_ok_mem _ _ _ h (x, y) hm
    have hf' := hf
    simp only [bind_eq_ok] at hf
    obtain ⟨v, hv, hf⟩ := hf
    exact ⟨v, (orErr_eq_ok _ _ _).mp hv, f, mapM_mem_of h hm hf', multiFigure_inv hj hf⟩
  · intro f hf
    obtain ⟨k, hk, rfl⟩ := List.getElem_of_mem hf
    have hF := (mapM_eq_ok _ _ _).mp h
    have hk' : k < (multiPairs showdim (List.range s.dim)).length := by
      rw [hF.length_eq]; exact hk
    have h1 := List.Forall₂.get hF (i := k) hk' hk
    simp only [List.get_eq_getElem, bind_eq_ok] at h1
    obtain ⟨v, hv, h1⟩ := h1
    exact ⟨v, (orErr_eq_ok _ _ _).mp hv, _, _,
      (mem_multiPairs showdim s.dim _ _).mp (List.getElem_mem hk'), multiFigure_inv hj h1⟩

/-- C102: figures of different pairs are saved to different files. -/
theorem C102_files {f g : ScatterFig K} {v : List (List K)} {color ref : Option (List K)}
    {char name ext : String} {x y x' y' : Nat}
    (hf : MultiFigure f v color ref char name ext x y) (hg : MultiFigure g v color ref char name ext x' y')
    (hne : (x, y) ≠ (x', y')) : f.file ≠ g.file := by
  obtain ⟨-, -, -, p, hp, h1, h2⟩ := hf
  obtain ⟨-, -, -, q, hq, h3, h4⟩ := hg
  rw [hp, hq]
  intro h
  have h := Option.some.inj h
  subst h
  have key : ∀ e, name ++ "_d" ++ toString (x + 1) ++ "_d" ++ toString (y + 1) ++ e =
      name ++ "_d" ++ toString (x' + 1) ++ "_d" ++ toString (y' + 1) ++ e → False := by
    intro e h
    obtain ⟨h1, h2⟩ := name2_injective (q := "_d") (c := '_') (l := ['d']) rfl rfl h
    exact hne (by rw [show x = x' by omega, show y = y' by omega])
  have hdot : ∀ a b : Nat, '.' ∈ (name ++ "_d" ++ toString a ++ "_d" ++ toString b).toList ↔
      '.' ∈ name.toList := by
    intro a b
    simp only [String.toList_append, List.mem_append, no_dot_digits, or_false]
    simp
  by_cases hd : '.' ∈ name.toList
  · exact key "" (by
      rw [String.append_empty, String.append_empty]
      exact (h2 ((hdot _ _).mpr hd)).symm.trans (h4 ((hdot _ _).mpr hd)))
  · exact key ext ((h1 fun h => hd ((hdot _ _).mp h)).symm.trans (h3 fun h => hd ((hdot _ _).mp h)))

/-- C102: it succeeds on every consistent sample set, with any colours for its samples, if the folder exists or
can be made. -/
theorem C102_succeeds {isDir canMake : Bool} (hdir : isDir = true ∨ canMake = true) {s : SampleSet K}
    {v : List (List K)} (hv : s.glob.values = some v) (hcols : ∀ row ∈ v, row.length = s.dim)
    {showdim : ShowDim} (hshow : ∀ d, showdim = .one d → d < s.dim) {color ref : Option (List K)}
    (hcolor : ∀ c, color = some c → c.length = v.length) (href : ∀ r, ref = some r → r.length = s.dim)
    (folder filename char ext : String) (cbar : Option String) :
    ∃ figs, scatter2DMulti isDir canMake (.set s) color ref folder filename char showdim ext cbar = .ok figs := by
  have hens : ∃ b, ensureDir isDir canMake = .ok b := by
    unfold ensureDir
    rcases hdir with rfl | rfl
    · exact ⟨_, rfl⟩
    · cases isDir <;> exact ⟨_, rfl⟩
  obtain ⟨b, hb⟩ := hens
  simp only [scatter2DMulti, SampleObj.needSet, ok_bind, hb, hv, orErr_some]
  refine mapM_total (f := fun xy : Nat × Nat => multiFigure v color ref folder filename char ext cbar xy.1 xy.2)
    (l := multiPairs showdim (List.range s.dim)) fun xy hxy => ?_
  have hp := (mem_multiPairs showdim s.dim xy.1 xy.2).mp hxy
  have hlt : ∀ t ∈ [xy.1, xy.2], t < s.dim := by
    cases showdim with
    | unset =>
      have hp : xy.1 = 0 ∧ xy.2 < s.dim := hp
      simp only [List.mem_cons, List.not_mem_nil, or_false]
      rintro t (rfl | rfl) <;> omega
    | one d =>
      have hp : xy.1 = d ∧ xy.2 < s.dim := hp
      have := hshow d rfl
      simp only [List.mem_cons, List.not_mem_nil, or_false]
      rintro t (rfl | rfl) <;> omega
    | all =>
      have hp : xy.1 < xy.2 ∧ xy.2 < s.dim := hp
      simp only [List.mem_cons, List.not_mem_nil, or_false]
      rintro t (rfl | rfl) <;> omega
    | str => exact hp.elim
  obtain ⟨cols, hc, hcl, hcr⟩ := cols_total (f := entriesAt [xy.1, xy.2]) (n := 2) (v := v) (by
    intro row hrow
    obtain ⟨p, hp⟩ := entriesAt_total (cols := [xy.1, xy.2]) (row := row)
      (fun t ht => by rw [hcols row hrow]; exact hlt t ht)
    exact ⟨p, hp, ((mapM_eq_ok _ _ _).mp hp).length_eq.symm⟩)
  obtain ⟨r, hr, hrl⟩ := refEntriesAt_total (xs := [xy.1, xy.2]) (ref := ref)
    (fun q hq t ht => by rw [href q hq]; exact hlt t ht)
  simp only [multiFigure, hc, hr, ok_bind]
  exact scatter2D_total (s := tempSet 2 cols) rfl (nos := none) (color := color) (ref := r) (v := cols) rfl
    (fun row hrow => (hcr row hrow).ge) (by simp)
    (fun c hc => by rw [hcolor c hc, hcl])
    (fun q hq => by
      have : r = some q := by
        cases r with
        | none => simp [tempSet] at hq
        | some w => simpa using hq
      rw [hrl q this]; rfl) true _ _ _ _ _

/-- C102, negation: with a number (and by default) there is also a figure of that coordinate against itself. -/
theorem C102_negation_diagonal {isDir canMake : Bool} {s : SampleSet K} {color ref : Option (List K)}
    {folder filename char ext : String} {d : Nat} (hd : d < s.dim) {cbar : Option String}
    {figs : List (ScatterFig K)}
    (h : scatter2DMulti isDir canMake (.set s) color ref folder filename char (.one d) ext cbar = .ok figs) :
    ∃ f ∈ figs, ∃ v, s.glob.values = some v ∧ ShowsSamples f v [d, d] (List.range v.length) color := by
  obtain ⟨path, -, h1, -⟩ := C102_pairs h
  obtain ⟨v, hv, f, hf, hm⟩ := h1 d d ⟨rfl, hd⟩
  exact ⟨f, hf, v, hv, hm.1⟩

/-- C102, negation: `scatter_2D_multi_input` never produces figures: it raises for every argument. -/
theorem C102_negation_input (isDir canMake : Bool) (obj : SampleObj K) (color : ColorArg K)
    (ref : Option (List K)) (folder filename char : String) (showdim : ShowDim) (ext : String)
    (figs : List (ScatterFig K)) :
    scatter2DMultiOf .input isDir canMake obj color ref folder filename char showdim ext ≠ .ok figs := by
  intro h
  simp only [scatter2DMultiOf, bind_eq_ok] at h
  obtain ⟨d, -, h⟩ := h
  split at h
  · split at h
    · simp only [bind_eq_ok] at h
      obtain ⟨s, -, p, -, _, h1, -⟩ := h
      simp [raiseIf] at h1
    · cases h
  · cases h

/-- C102, negation: `scatter_2D_multi_output` raises `UnboundLocalError` for an array of colours, and by
default. -/
theorem C102_negation_output (isDir canMake : Bool) (d : Disc K) (c : List K)
    (ref : Option (List K)) (folder filename char : String) (showdim : ShowDim) (ext : String) :
    scatter2DMultiOf .output isDir canMake (.disc d) .unset ref folder filename char showdim ext =
      .error .unboundLocal ∧
    scatter2DMultiOf .output isDir canMake (.disc d) (.array c) ref folder filename char showdim ext =
      .error .unboundLocal := ⟨rfl, rfl⟩

/-- C102: `scatter_2D_multi_output` with the name of an array plots the output samples in the colours of that
array. -/
theorem C102_output (isDir canMake : Bool) (d : Disc K) (s : SampleSet K) (hs : d.output = some s) {name : String}
    (hname : name ∈ colorNames) (ref : Option (List K)) (folder filename char : String) (showdim : ShowDim)
    (ext : String) :
    ∃ l, scatter2DMultiOf .output isDir canMake (.disc d) (.str name true) ref folder filename char showdim ext =
      scatter2DMulti isDir canMake (.set s) (ArrayNamed s name) ref folder filename char showdim ext (some l) := by
  obtain ⟨l, hl⟩ := namedColor_eq .output s hname
  have hk : knownColor name = true := by simpa [knownColor, colorNames] using hname
  refine ⟨l, ?_⟩
  simp only [scatter2DMultiOf, SampleObj.needDisc, ok_bind, hk, if_true, Side.of, hs, orErr_some, hl, raiseIf]
  rfl

end

/-! ### Examples -/

namespace Ex

def scat4 : SampleSet ℚ where
  dim := 4
  glob := { values := some [[0, 1, 2, 3], [4, 5, 6, 7]], volumes := some [1 / 4, 3 / 4] }
  referenceValue := some [9, 8, 7, 6]

/-- Hypotheses of `C101_pairs`, `C101_files`: three pairs of coordinates, coloured by a density of outputs. -/
example : (scatterRhoD (.disc { input := some scat4, output := some scat }) none none "input"
    (some fun v => v.map fun row => row.headD 0) (some [1, 2, 4]) none (some 2) true ".pdf").toOption.map
    (fun figs => figs.map fun f => (f.points, (f.colors, f.ref.getD []), f.file.getD "")) =
    some [([[0, 1], [4, 5]], ([0, 2], [9, 8]), "input_samples_x1x2_cs.png"),
      ([[0, 3], [4, 7]], ([0, 2], [9, 6]), "input_samples_x1x4_cs.png"),
      ([[1, 3], [5, 7]], ([0, 2], [8, 6]), "input_samples_x2x4_cs.png")] := by
  decide +kernel

/-- Hypotheses of `C101_triples`. -/
example : (scatterRhoD (.set scat4) none (some [1]) "input" none none none (some 3) true ".pdf").toOption.map
    (fun figs => figs.map fun f => (f.points, f.colors, f.file.getD "")) =
    some [([[4, 5, 6]], [1], "input_samples_x1x2x3_cs.pdf"), ([[4, 5, 7]], [1], "input_samples_x1x2x4_cs.pdf"),
      ([[4, 6, 7]], [1], "input_samples_x1x3x4_cs.pdf"), ([[5, 6, 7]], [1], "input_samples_x2x3x4_cs.pdf")] := by
  decide +kernel

/-- Hypotheses of `C101_plane`, `C101_space`, `C101_negation_dim_nums`. -/
example : (scatterRhoD (.set scat) none none "input" none (some [2, 1]) none none true ".pdf").toOption.map
    (fun figs => figs.map fun f => (f.points, f.labels, f.file.getD "")) =
    some [([[0, 1], [2, 3], [4, 5]], ["$\\lambda_{2}$", "$\\lambda_{1}$"], "input_samples_cs.png")] := by
  decide +kernel

example : (scatterRhoD (.set scat3) none none "output" (some fun v => v.map fun row => row.headD 0) none none none
    true ".pdf").toOption.map (fun figs => figs.map fun f => (f.points, f.colors, f.file.getD "")) =
    some [([[0, 1, 2], [2, 3, 4]], [0, 2], "output_samples_cs.png")] := by
  decide +kernel

/-- Hypotheses of `C101_succeeds`. -/
example : Spec.PlotsSet (.set scat4) "input" scat4 ∧ scat4.glob.values = some [[0, 1, 2, 3], [4, 5, 6, 7]] ∧
    (∀ row ∈ [[(0 : ℚ), 1, 2, 3], [4, 5, 6, 7]], row.length = scat4.dim) ∧ scat4.referenceValue = some [9, 8, 7, 6] :=
  ⟨rfl, rfl, by decide, rfl⟩

/-- Hypotheses of `C102_pairs`, `C102_negation_diagonal`. -/
example : (scatter2DMulti true false (.set scat3) none none "figs/" "s" "$a" (.one 1) ".png" none).toOption.map
    (fun figs => figs.map fun f => (f.points, f.file.getD "")) =
    some [([[1, 0], [3, 2]], "figs/s_d2_d1.png"), ([[1, 1], [3, 3]], "figs/s_d2_d2.png"),
      ([[1, 2], [3, 4]], "figs/s_d2_d3.png")] := by
  decide +kernel

example : (scatter2DMulti false true (.set scat3) (some [5, 6]) (some [7, 8, 9]) "figs" "s" "$a" .all ".png"
    none).toOption.map (fun figs => figs.map fun f => (f.points, (f.colors, f.ref.getD []), f.file.getD "")) =
    some [([[0, 1], [2, 3]], ([5, 6], [7, 8]), "figs/s_d1_d2.png"),
      ([[0, 2], [2, 4]], ([5, 6], [7, 9]), "figs/s_d1_d3.png"),
      ([[1, 2], [3, 4]], ([5, 6], [8, 9]), "figs/s_d2_d3.png")] := by
  decide +kernel

/-- Hypotheses of `C102_output`. -/
example : (scatter2DMultiOf .output true true (.disc { input := none, output := some scat4 }) (.str "volumes" true)
    none "figs/" "s" "$q$" .all ".png").toOption.map (fun figs => (figs.length, figs.map fun f => f.colors)) =
    some (6, List.replicate 6 [1 / 4, 3 / 4]) := by
  decide +kernel

end Ex

end BET
