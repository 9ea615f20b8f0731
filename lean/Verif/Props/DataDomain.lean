import Verif.Model.DataDomain
import Verif.Props.PlotRhoD

/-!
# C103: plots of the data domain
-/

set_option autoImplicit false
set_option linter.unusedSectionVars false
set_option linter.unusedSimpArgs false

namespace BET

section
variable {K : Type}

/-! ## Specification -/

/-- `l` is column `j` of the values of the set. -/
def Spec.ColumnOf (s : SampleSet K) (j : Nat) (l : List K) : Prop :=
  ∃ v, s.glob.values = some v ∧ l.length = v.length ∧
    ∀ (k : Nat) (row : List K), v[k]? = some row → ∃ t, row[j]? = some t ∧ l[k]? = some t

/-- The reference values as rows of length `dim`: a vector is one of them, a matrix with `dim` columns has them
as rows. -/
inductive Spec.RefRows (dim : Nat) : RefArg K → List (List K) → Prop
  | vec (l : List K) (h : dim ≠ 1) : RefRows dim (.vec l) [l]
  | mat (rows : List (List K)) : RefRows dim (.mat dim rows) rows

/-- One mark for each reference value, in its own colour and shape, at the coordinates `x` and `y` of it. -/
def Spec.MarksAt (rows : List (List K)) (x y : Nat) (colors markers : List String)
    (ms : List (DomainItem K)) : Prop :=
  ms.length = rows.length ∧ ∀ (k : Nat) (row : List K), rows[k]? = some row →
    ∃ a b c m, row[x]? = some a ∧ row[y]? = some b ∧ colors[k]? = some c ∧ markers[k]? = some m ∧
      ms[k]? = some (.mark a b c m)

/-- The marks of the reference value that is given, or that of the set. -/
def Spec.MarksGiven (dim : Nat) (s : SampleSet K) (ref : Option (RefArg K)) (x y : Nat)
    (colors markers : List String) (ms : List (DomainItem K)) : Prop :=
  match ref.or (s.referenceValue.map .vec) with
  | none => ms = []
  | some r => ∀ rows, RefRows dim r rows → MarksAt rows x y colors markers ms

open Spec

/-! ## Lemmas -/

theorem mapM_column {s : SampleSet K} {v : List (List K)} (hv : s.glob.values = some v) {j : Nat} {l : List K}
    (h : v.mapM (fun row => getIdx row j) = .ok l) : ColumnOf s j l := by
  have hF := (mapM_eq_ok _ _ _).mp h
  refine ⟨v, hv, hF.length_eq.symm, fun k row hk => ?_⟩
  obtain ⟨hk0, rfl⟩ := List.getElem?_eq_some_iff.mp hk
  have hk' : k < l.length := by rw [← hF.length_eq]; exact hk0
  have h1 := List.Forall₂.get hF (i := k) hk0 hk'
  simp only [List.get_eq_getElem, getIdx_eq_ok] at h1
  exact ⟨_, h1, List.getElem?_eq_getElem hk'⟩

theorem firstTwo_inv {s : Option (SampleSet K)} {q : List K × List K} (h : firstTwo s = .ok q) :
    ∃ t, s = some t ∧ ColumnOf t 0 q.1 ∧ ColumnOf t 1 q.2 := by
  simp only [firstTwo, bind_eq_ok] at h
  obtain ⟨t, ht, v, hv, xs, hx, ys, hy, h⟩ := h
  cases (pure_eq_ok _ _).mp h
  have hv := (orErr_eq_ok _ _ _).mp hv
  exact ⟨t, (orErr_eq_ok _ _ _).mp ht, mapM_column hv hx, mapM_column hv hy⟩

theorem columnOf_unique {s : SampleSet K} {j : Nat} {l l' : List K} (h : ColumnOf s j l) (h' : ColumnOf s j l') :
    l = l' := by
  obtain ⟨v, hv, h1, h2⟩ := h
  obtain ⟨v', hv', h3, h4⟩ := h'
  rw [hv] at hv'
  cases hv'
  refine List.ext_getElem? fun k => ?_
  by_cases hk : k < v.length
  · obtain ⟨t, ht, e⟩ := h2 k _ (List.getElem?_eq_getElem hk)
    obtain ⟨t', ht', e'⟩ := h4 k _ (List.getElem?_eq_getElem hk)
    rw [e, e', ← ht, ← ht']
  · rw [List.getElem?_eq_none (by omega), List.getElem?_eq_none (by omega)]

/-- The loop over the marks. -/
theorem drawMark_fold {colors markers : List String} (l : List (Nat × List K)) {p p' : Plt K}
    (h : l.foldlM (drawMark colors markers) p = .ok p') (hp : p.figs ≠ []) :
    ∃ ms, p' = { p with figs := (p.figs.headD [] ++ ms) :: p.figs.tail } ∧ ms.length = l.length ∧
      ∀ (k : Nat) (ir : Nat × List K), l[k]? = some ir → ∃ a b c m, ir.2[0]? = some a ∧ ir.2[1]? = some b ∧
        colors[ir.1]? = some c ∧ markers[ir.1]? = some m ∧ ms[k]? = some (.mark a b c m) := by
  induction l generalizing p with
  | nil =>
    obtain rfl : p' = p := ((pure_eq_ok _ _).mp h).symm
    refine ⟨[], ?_, rfl, by simp⟩
    obtain ⟨figs, saved⟩ := p'
    cases figs with
    | nil => exact absurd rfl hp
    | cons f fs => simp
  | cons ir l ih =>
    rw [List.foldlM_cons, bind_eq_ok] at h
    obtain ⟨q, hq, h⟩ := h
    simp only [drawMark, bind_eq_ok] at hq
    obtain ⟨a, ha, b, hb, c, hc, m, hm, hq⟩ := hq
    cases (pure_eq_ok _ _).mp hq
    obtain ⟨ms, hms, hl, hk⟩ := ih h (by simp [Plt.draw])
    refine ⟨.mark a b c m :: ms, ?_, by simp [hl], ?_⟩
    · rw [hms]
      simp [Plt.draw]
    · intro k jr hjr
      cases k with
      | zero =>
        cases hjr
        exact ⟨a, b, c, m, (getIdx_eq_ok _ _ _).mp ha, (getIdx_eq_ok _ _ _).mp hb, (getIdx_eq_ok _ _ _).mp hc,
          (getIdx_eq_ok _ _ _).mp hm, rfl⟩
      | succ k => simpa using hk k jr (by simpa using hjr)

theorem drawMarks_inv {colors markers : List String} {ref : Option (RefArg K)} {p p' : Plt K}
    (h : drawMarks colors markers ref p = .ok p') (hp : p.figs ≠ []) :
    ∃ ms, p' = { p with figs := (p.figs.headD [] ++ ms) :: p.figs.tail } ∧
      (ref = none → ms = []) ∧ ∀ r, ref = some r → MarksAt (r.rows 2) 0 1 colors markers ms := by
  cases ref with
  | none =>
    cases h
    refine ⟨[], ?_, fun _ => rfl, by simp⟩
    obtain ⟨figs, saved⟩ := p
    cases figs with
    | nil => exact absurd rfl hp
    | cons f fs => simp
  | some r =>
    obtain ⟨ms, h1, h2, h3⟩ := drawMark_fold _ h hp
    refine ⟨ms, h1, by simp, ?_⟩
    rintro r' hr
    cases hr
    refine ⟨by simpa using h2, fun k row hk => ?_⟩
    obtain ⟨hk', rfl⟩ := List.getElem?_eq_some_iff.mp hk
    have := h3 k (k, (r.rows 2)[k]) (by
      rw [List.getElem?_eq_getElem (by simpa using hk')]
      simp)
    exact this

theorem rows_of_refRows {dim : Nat} {r : RefArg K} {rows : List (List K)} (h : RefRows dim r rows) :
    r.rows dim = rows := by
  cases h with
  | vec l h => simp [RefArg.rows, h]
  | mat rows => simp [RefArg.rows]

theorem domainRef_inv {s : SampleSet K} {ref r : Option (RefArg K)} (h : domainRef (some s) ref = .ok r) :
    r = ref.or (s.referenceValue.map .vec) := by
  cases ref with
  | some x => cases h; rfl
  | none => cases h; rfl

/-! ## Theorems -/

/-- C103: `show_data_domain_2D` adds to the current figure (a new one if none is open) the region that the
triangles cover in the plane of the two outputs and the labels, saves it, adds a mark for each reference value,
saves it again if `save`, and closes it. The triangles are those given, or those of the first two coordinates of
the input samples. -/
theorem C103_one {tri : List K → List K → Except Err (List (List Nat))}
    {aft : List (List (DomainItem K)) → List (List (DomainItem K))} {d : Disc K} {ref : Option (RefArg K)}
    {markers colors : List String} {xl yl : String} {given : Option (List (List Nat))} {save : Bool}
    {f0 f1 ext : String} {p p' : Plt K}
    (h : dataDomain2D tri aft (.disc d) ref markers colors xl yl given save false f0 f1 ext p = .ok p') :
    ∃ s xs ys t ms g0 g1, d.output = some s ∧ ColumnOf s 0 xs ∧ ColumnOf s 1 ys ∧
      (given = some t ∨ given = none ∧ ∃ i us vs, d.input = some i ∧ ColumnOf i 0 us ∧ ColumnOf i 1 vs ∧
        tri us vs = .ok t) ∧
      MarksGiven 2 s ref 0 1 colors markers ms ∧ FileName f0 ext g0 ∧ FileName f1 ext g1 ∧
      p'.saved = p.saved ++ (g0, p.figs.headD [] ++ [.region xs ys t, .labels xl yl]) ::
        (if save then [(g1, p.figs.headD [] ++ [.region xs ys t, .labels xl yl] ++ ms)] else []) ∧
      p'.figs = p.figs.tail := by
  simp only [dataDomain2D, SampleObj.needDisc, ok_bind, bind_eq_ok] at h
  obtain ⟨r, hr, t, ht, q, hq, p1, hp1, h⟩ := h
  have h := (pure_eq_ok _ _).mp h
  obtain ⟨s, hs, hx, hy⟩ := firstTwo_inv hq
  rw [hs] at hr
  have hr := domainRef_inv hr
  obtain ⟨ms, h1, h2, h3⟩ := drawMarks_inv hp1 (by simp [Plt.draw, Plt.save])
  have hfile : ∀ f, FileName f ext (fullName f ext) := fun f =>
    ⟨fun hn => by rw [fullName, if_neg hn], fun hn => by rw [fullName, if_pos hn]⟩
  refine ⟨s, q.1, q.2, t, ms, _, _, hs, hx, hy, ?_, ?_, hfile f0, hfile f1, ?_, ?_⟩
  · cases given with
    | some t' => exact Or.inl (by rw [Except.ok.inj ht])
    | none =>
      simp only [trianglesOf, bind_eq_ok] at ht
      obtain ⟨w, hw, ht⟩ := ht
      obtain ⟨i, hi, hu, hv⟩ := firstTwo_inv hw
      exact Or.inr ⟨rfl, i, _, _, hi, hu, hv, ht⟩
  · unfold MarksGiven
    rw [← hr]
    cases r with
    | none => exact h2 rfl
    | some r =>
      intro rows hrows
      rw [← rows_of_refRows hrows]
      exact h3 r rfl
  · rw [← h, h1]
    cases save <;> simp [Plt.draw, Plt.save, Plt.close]
  · rw [← h, h1]
    cases save <;> simp [Plt.draw, Plt.save, Plt.close]

/-- C103, negation: with `save = False` the first file is written all the same. -/
theorem C103_negation_save {tri : List K → List K → Except Err (List (List Nat))}
    {aft : List (List (DomainItem K)) → List (List (DomainItem K))} {d : Disc K} {ref : Option (RefArg K)}
    {markers colors : List String} {xl yl : String} {given : Option (List (List Nat))}
    {f0 f1 ext : String} {p p' : Plt K}
    (h : dataDomain2D tri aft (.disc d) ref markers colors xl yl given false false f0 f1 ext p = .ok p') :
    ∃ g, FileName f0 ext g ∧ g ∈ (p'.saved.drop p.saved.length).map Prod.fst := by
  obtain ⟨s, xs, ys, t, ms, g0, g1, -, -, -, -, -, h0, -, h1, -⟩ := C103_one h
  refine ⟨g0, h0, ?_⟩
  rw [h1]
  simp

/-- C103, negation: if a figure is open, what it shows is also in the saved figures of the domain. -/
theorem C103_negation_open {tri : List K → List K → Except Err (List (List Nat))}
    {aft : List (List (DomainItem K)) → List (List (DomainItem K))} {d : Disc K} {ref : Option (RefArg K)}
    {markers colors : List String} {xl yl : String} {given : Option (List (List Nat))} {save : Bool}
    {f0 f1 ext : String} {fig : List (DomainItem K)} {rest : List (List (DomainItem K))}
    {saved : List (String × List (DomainItem K))} {p' : Plt K}
    (h : dataDomain2D tri aft (.disc d) ref markers colors xl yl given save false f0 f1 ext
      ⟨fig :: rest, saved⟩ = .ok p') :
    ∀ e ∈ p'.saved.drop saved.length, ∀ it ∈ fig, it ∈ e.2 := by
  obtain ⟨s, xs, ys, t, ms, g0, g1, -, -, -, -, -, -, -, h1, -⟩ := C103_one h
  intro e he it hit
  rw [h1] at he
  simp only [List.drop_left] at he
  rcases List.mem_cons.mp he with rfl | he
  · simp [hit]
  · cases save with
    | false => cases he
    | true =>
      cases List.mem_singleton.mp he
      simp [hit]

/-- C103, negation: there must be a colour and a marker for each reference value; with the seven default colours
eight reference values cannot be shown. -/
theorem C103_negation_colors {tri : List K → List K → Except Err (List (List Nat))}
    {aft : List (List (DomainItem K)) → List (List (DomainItem K))} {d : Disc K} {rows : List (List K)}
    {markers colors : List String} {xl yl : String} {given : Option (List (List Nat))} {save : Bool}
    {f0 f1 ext : String} {p p' : Plt K} (hrows : colors.length < rows.length) :
    dataDomain2D tri aft (.disc d) (some (.mat 2 rows)) markers colors xl yl given save false f0 f1 ext p ≠
      .ok p' := by
  intro h
  obtain ⟨s, xs, ys, t, ms, g0, g1, -, -, -, -, hm, -⟩ := C103_one h
  obtain ⟨-, h2⟩ := hm rows (.mat rows)
  obtain ⟨a, b, c, m, -, -, hc, -⟩ := h2 colors.length _ (List.getElem?_eq_getElem hrows)
  simp at hc

/-! ### All pairs -/

/-- The pairs that are plotted. -/
def Spec.DomainPair (showdim : ShowDim) (nums : List Nat) (x y : Nat) : Prop :=
  match showdim with
  | .unset => x = 0 ∧ y ∈ nums ∧ y ≠ 0
  | .one d => x = d ∧ y ∈ nums ∧ y ≠ d
  | .all => [x, y].Sublist nums
  | .str => False

theorem mem_domainPairs (showdim : ShowDim) (nums : List Nat) (x y : Nat) :
    (x, y) ∈ domainPairs showdim nums ↔ DomainPair showdim nums x y := by
  cases showdim with
  | unset =>
    simp only [domainPairs, List.mem_map, List.mem_filter, decide_eq_true_eq, Prod.mk.injEq, DomainPair]
    exact ⟨fun ⟨a, ⟨h1, h2⟩, h3, h4⟩ => ⟨h3.symm, h4 ▸ h1, h4 ▸ h2⟩,
      fun ⟨h1, h2, h3⟩ => ⟨y, ⟨h2, h3⟩, h1.symm, rfl⟩⟩
  | one d =>
    simp only [domainPairs, List.mem_map, List.mem_filter, decide_eq_true_eq, Prod.mk.injEq, DomainPair]
    exact ⟨fun ⟨a, ⟨h1, h2⟩, h3, h4⟩ => ⟨h3.symm, h4 ▸ h1, h4 ▸ h2⟩,
      fun ⟨h1, h2, h3⟩ => ⟨y, ⟨h2, h3⟩, h1.symm, rfl⟩⟩
  | all =>
    simp only [domainPairs, List.mem_map, DomainPair]
    constructor
    · rintro ⟨c, hc, h⟩
      obtain ⟨h1, h2⟩ := (mem_combos 2 _ _).mp hc
      obtain ⟨a, b, rfl⟩ := List.length_eq_two.mp h2
      cases h
      exact h1
    · intro h
      exact ⟨[x, y], (mem_combos 2 _ _).mpr ⟨h, rfl⟩, rfl⟩
  | str => simp [domainPairs, DomainPair]

/-- The names of the two files of a pair. -/
def Spec.domainFile (folder : String) (x y : Nat) : String :=
  folder ++ "domain_q" ++ toString (x + 1) ++ "_q" ++ toString (y + 1)

/-- The name of the file with marks. -/
def Spec.markedFile (folder : String) (x y : Nat) : String :=
  folder ++ "q" ++ toString (x + 1) ++ "_q" ++ toString (y + 1) ++ "_domain_Q_cs"

/-- The two files of a pair, and what they show: nothing but the domain of this pair and its marks. -/
def Spec.PairFiles (s : SampleSet K) (dim : Nat) (ref : Option (RefArg K)) (markers colors : List String)
    (folder ext : String) (t : List (List Nat)) (x y : Nat) (a b : String × List (DomainItem K)) : Prop :=
  ∃ xs ys ms, ColumnOf s x xs ∧ ColumnOf s y ys ∧ MarksGiven dim s ref x y colors markers ms ∧
    FileName (domainFile folder x y) ext a.1 ∧ FileName (markedFile folder x y) ext b.1 ∧
    a.2 = [.region xs ys t, .labels ("$q_{" ++ toString (x + 1) ++ "}$") ("$q_{" ++ toString (y + 1) ++ "}$")] ∧
    b.2 = a.2 ++ ms

theorem columnOf_temp {s : SampleSet K} {v cols : List (List K)} (hv : s.glob.values = some v) {xs : List Nat}
    (hF : List.Forall₂ (ProjectsTo xs) v cols) {n j x : Nat} (hx : xs[j]? = some x) {l : List K}
    (h : ColumnOf (tempSet n cols) j l) : ColumnOf s x l := by
  obtain ⟨w, hw, h1, h2⟩ := h
  cases hw
  refine ⟨v, hv, h1.trans hF.length_eq.symm, fun k row hk => ?_⟩
  obtain ⟨hk', rfl⟩ := List.getElem?_eq_some_iff.mp hk
  have hk'' : k < cols.length := by rw [← hF.length_eq]; exact hk'
  have hp := List.Forall₂.get hF (i := k) hk' hk''
  simp only [List.get_eq_getElem] at hp
  obtain ⟨t, ht, hl⟩ := h2 k _ (List.getElem?_eq_getElem hk'')
  obtain ⟨u, hu, hpu⟩ := hp.2 j x hx
  rw [ht] at hpu
  cases hpu
  exact ⟨t, hu, hl⟩

/-- One pair. -/
theorem domainPair_inv {size : Nat} {tri : List K → List K → Except Err (List (List Nat))} {d : Disc K}
    {s : SampleSet K} {v : List (List K)} (hv : s.glob.values = some v) {dim : Nat} {ref : Option (RefArg K)}
    {markers colors : List String} {folder ext : String} {t : List (List Nat)} {p p' : Plt K} {x y : Nat}
    (h : domainPair size tri d v ((ref.or (s.referenceValue.map .vec)).map (RefArg.rows dim)) markers colors
      folder ext t p (x, y) = .ok p') (hp : p.figs = []) :
    ∃ a b, p' = ⟨[], p.saved ++ [a, b]⟩ ∧ PairFiles s dim ref markers colors folder ext t x y a b := by
  simp only [domainPair, bind_eq_ok] at h
  obtain ⟨cols, hc, e, he, r, hr, h⟩ := h
  have he := new_eq_ok he
  subst he
  have hF := forall₂_mapM (fun a b (h : entriesAt [x, y] a = .ok b) => entriesAt_proj h) hc
  obtain ⟨s', xs, ys, t', ms, g0, g1, hs', hx, hy, ht, hm, h0, h1, h2, h3⟩ := C103_one h
  cases hs'
  have htt : t' = t := by
    rcases ht with ht | ⟨ht, -⟩
    · exact (Option.some.inj ht).symm
    · cases ht
  subst htt
  rw [hp] at h2 h3
  simp only [List.headD_nil, List.nil_append, List.tail_nil] at h2 h3
  refine ⟨(g0, [.region xs ys t', .labels _ _]), (g1, [.region xs ys t', .labels _ _] ++ ms), ?_, xs, ys, ms,
    columnOf_temp hv hF (j := 0) rfl hx, columnOf_temp hv hF (j := 1) rfl hy, ?_, h0, h1, rfl, rfl⟩
  · obtain ⟨figs, saved⟩ := p'
    simp only at h2 h3
    rw [h2, h3]
    simp
  · unfold MarksGiven at hm ⊢
    cases hre : ref.or (s.referenceValue.map RefArg.vec) with
    | none =>
      rw [hre] at hr
      cases hr
      simpa [tempSet] using hm
    | some q =>
      rw [hre] at hr
      simp only [Option.map_some, refColumns, bind_eq_ok] at hr
      obtain ⟨rr, hrr, hr⟩ := hr
      cases (pure_eq_ok _ _).mp hr
      intro rows hrows
      rw [rows_of_refRows hrows] at hrr
      have hm := hm rr (.mat rr)
      have hF2 := forall₂_mapM (fun a b (h : entriesAt [x, y] a = .ok b) => entriesAt_proj h) hrr
      refine ⟨hm.1.trans hF2.length_eq.symm, fun k row hk => ?_⟩
      obtain ⟨hk', rfl⟩ := List.getElem?_eq_some_iff.mp hk
      have hk'' : k < rr.length := by rw [← hF2.length_eq]; exact hk'
      have hpk := List.Forall₂.get hF2 (i := k) hk' hk''
      simp only [List.get_eq_getElem] at hpk
      obtain ⟨a, b, c, m, ha, hb, hcm⟩ := hm.2 k _ (List.getElem?_eq_getElem hk'')
      obtain ⟨u, hu, hu'⟩ := hpk.2 0 x rfl
      obtain ⟨w, hw, hw'⟩ := hpk.2 1 y rfl
      rw [ha] at hu'
      rw [hb] at hw'
      cases hu'
      cases hw'
      exact ⟨a, b, c, m, hu, hw, hcm⟩

theorem domain_fold {size : Nat} {tri : List K → List K → Except Err (List (List Nat))} {d : Disc K}
    {s : SampleSet K} {ref : Option (RefArg K)} {markers colors : List String} {folder ext : String}
    {t : List (List Nat)} (l : List (Nat × Nat)) {p p' : Plt K} (hp : p.figs = [])
    (h : l.foldlM (dataDomainMulti.domainStep size tri folder markers colors ext d s
      ((ref.or (s.referenceValue.map .vec)).map (RefArg.rows s.dim)) t) p = .ok p') :
    ∃ new, p' = ⟨[], p.saved ++ new⟩ ∧
      (∀ xy ∈ l, ∃ a ∈ new, ∃ b ∈ new, PairFiles s s.dim ref markers colors folder ext t xy.1 xy.2 a b) ∧
      ∀ e ∈ new, ∃ xy ∈ l, ∃ a b, (e = a ∨ e = b) ∧
        PairFiles s s.dim ref markers colors folder ext t xy.1 xy.2 a b := by
  induction l generalizing p with
  | nil =>
    obtain rfl : p' = p := ((pure_eq_ok _ _).mp h).symm
    refine ⟨[], ?_, by simp, by simp⟩
    obtain ⟨figs, saved⟩ := p'
    simp only at hp
    simp [hp]
  | cons xy l ih =>
    rw [List.foldlM_cons, bind_eq_ok] at h
    obtain ⟨q, hq, h⟩ := h
    simp only [dataDomainMulti.domainStep, bind_eq_ok] at hq
    obtain ⟨v, hv, hq⟩ := hq
    obtain ⟨a, b, rfl, hab⟩ := domainPair_inv ((orErr_eq_ok _ _ _).mp hv) (x := xy.1) (y := xy.2) hq hp
    obtain ⟨new, rfl, h1, h2⟩ := ih rfl h
    refine ⟨a :: b :: new, by simp, ?_, ?_⟩
    · intro z hz
      rcases List.mem_cons.mp hz with rfl | hz
      · exact ⟨a, by simp, b, by simp, hab⟩
      · obtain ⟨a', ha', b', hb', h⟩ := h1 z hz
        exact ⟨a', by simp [ha'], b', by simp [hb'], h⟩
    · intro e he
      rcases List.mem_cons.mp he with rfl | he
      · exact ⟨xy, by simp, _, b, Or.inl rfl, hab⟩
      · rcases List.mem_cons.mp he with rfl | he
        · exact ⟨xy, by simp, a, _, Or.inr rfl, hab⟩
        · obtain ⟨z, hz, a', b', h⟩ := h2 e he
          exact ⟨z, by simp [hz], a', b', h⟩

/-- C103: if no figure is open, `show_data_domain_multi` writes two files for each pair of outputs that
`showdim` and `Q_nums` ask for, and no others; they show nothing but the region of this pair, with the same
triangles for all pairs (from the first two input coordinates), and the marks of the reference values in the
second; and no figure stays open. -/
theorem C103_pairs {size : Nat} {tri : List K → List K → Except Err (List (List Nat))} {isDir canMake : Bool}
    {d : Disc K} {ref : Option (RefArg K)} {nums : Option (List Nat)} {folder ext : String}
    {markers colors : List String} {showdim : ShowDim} {p p' : Plt K} (hp : p.figs = [])
    (h : dataDomainMulti size tri isDir canMake (.disc d) ref nums folder markers colors showdim ext p =
      .ok p') :
    ∃ s i us vs t new, d.output = some s ∧ d.input = some i ∧ ColumnOf i 0 us ∧ ColumnOf i 1 vs ∧
      tri us vs = .ok t ∧ p' = ⟨[], p.saved ++ new⟩ ∧
      (∀ x y, DomainPair showdim (nums.getD (List.range s.dim)) x y →
        ∃ a ∈ new, ∃ b ∈ new, PairFiles s s.dim ref markers colors folder ext t x y a b) ∧
      ∀ e ∈ new, ∃ x y, DomainPair showdim (nums.getD (List.range s.dim)) x y ∧
        ∃ a b, (e = a ∨ e = b) ∧ PairFiles s s.dim ref markers colors folder ext t x y a b := by
  simp only [dataDomainMulti, SampleObj.needDisc, ok_bind, bind_eq_ok] at h
  obtain ⟨r, hr, s, hs, _, -, t, ht, h⟩ := h
  have hs := (orErr_eq_ok _ _ _).mp hs
  rw [hs] at hr
  have hr := domainRef_inv hr
  subst hr
  simp only [trianglesOf, bind_eq_ok] at ht
  obtain ⟨w, hw, ht⟩ := ht
  obtain ⟨i, hi, hu, hv⟩ := firstTwo_inv hw
  obtain ⟨new, h1, h2, h3⟩ := domain_fold _ hp h
  refine ⟨s, i, _, _, t, new, hs, hi, hu, hv, ht, h1, ?_, ?_⟩
  · intro x y hxy
    exact h2 (x, y) ((mem_domainPairs _ _ _ _).mpr hxy)
  · intro e he
    obtain ⟨xy, hxy, a, b, h4, h5⟩ := h3 e he
    exact ⟨xy.1, xy.2, (mem_domainPairs _ _ _ _).mp hxy, a, b, h4, h5⟩

theorem fileName_injective {f g ext q : String} (h1 : FileName f ext q) (h2 : FileName g ext q)
    (hd : '.' ∈ f.toList ↔ '.' ∈ g.toList) : f = g := by
  by_cases h : '.' ∈ f.toList
  · exact (h1.2 h).symm.trans (h2.2 (hd.mp h))
  · have := (h1.1 h).symm.trans (h2.1 fun hg => h (hd.mpr hg))
    have h3 := congrArg String.toList this
    simp only [String.toList_append, List.append_cancel_right_eq] at h3
    exact String.toList_inj.mp h3

theorem dot_domainFile (folder : String) (x y : Nat) :
    '.' ∈ (domainFile folder x y).toList ↔ '.' ∈ folder.toList := by
  simp only [domainFile, String.toList_append, List.mem_append, no_dot_digits, or_false]
  simp

theorem dot_markedFile (folder : String) (x y : Nat) :
    '.' ∈ (markedFile folder x y).toList ↔ '.' ∈ folder.toList := by
  simp only [markedFile, String.toList_append, List.mem_append, no_dot_digits, or_false]
  simp

/-- C103: the files of different pairs are different, and so are the two files of a pair: no figure overwrites
another. -/
theorem C103_files {folder ext : String} {x y x' y' : Nat} {q q' : String} :
    (FileName (domainFile folder x y) ext q → FileName (domainFile folder x' y') ext q → (x, y) = (x', y')) ∧
    (FileName (markedFile folder x y) ext q → FileName (markedFile folder x' y') ext q → (x, y) = (x', y')) ∧
    (FileName (domainFile folder x y) ext q → FileName (markedFile folder x' y') ext q' → q ≠ q') := by
  refine ⟨fun h1 h2 => ?_, fun h1 h2 => ?_, ?_⟩
  · have h := fileName_injective h1 h2 (by rw [dot_domainFile, dot_domainFile])
    have h : folder ++ "domain_q" ++ toString (x + 1) ++ "_q" ++ toString (y + 1) ++ "" =
        folder ++ "domain_q" ++ toString (x' + 1) ++ "_q" ++ toString (y' + 1) ++ "" := by
      rw [String.append_empty, String.append_empty]; exact h
    obtain ⟨h1, h2⟩ := name2_injective (q := "_q") (c := '_') (l := ['q']) rfl rfl h
    rw [show x = x' by omega, show y = y' by omega]
  · have h := fileName_injective h1 h2 (by rw [dot_markedFile, dot_markedFile])
    obtain ⟨h1, h2⟩ := name2_injective (q := "_q") (c := '_') (l := ['q']) rfl rfl h
    rw [show x = x' by omega, show y = y' by omega]
  · rintro h1 h2 rfl
    have h := fileName_injective h1 h2 (by rw [dot_domainFile, dot_markedFile])
    have h := congrArg String.toList h
    simp only [domainFile, markedFile, String.toList_append, List.append_assoc, List.append_cancel_left_eq] at h
    have h0 := congrArg List.head? h
    rw [show ("domain_q" : String).toList = 'd' :: "omain_q".toList from rfl,
      show ("q" : String).toList = ['q'] from rfl] at h0
    simp at h0

/-! ### It succeeds -/

theorem drawMark_total {colors markers : List String} (l : List (Nat × List K)) (p : Plt K)
    (h : ∀ ir ∈ l, 2 ≤ ir.2.length ∧ ir.1 < colors.length ∧ ir.1 < markers.length) :
    ∃ p', l.foldlM (drawMark colors markers) p = .ok p' := by
  induction l generalizing p with
  | nil => exact ⟨p, rfl⟩
  | cons ir l ih =>
    obtain ⟨h1, h2, h3⟩ := h ir (by simp)
    rw [List.foldlM_cons]
    simp only [drawMark, getIdx, List.getElem?_eq_getElem (show 0 < ir.2.length by omega),
      List.getElem?_eq_getElem (show 1 < ir.2.length by omega), List.getElem?_eq_getElem h2,
      List.getElem?_eq_getElem h3, ok_bind, pure_bind_ok]
    exact ih _ fun q hq => h q (by simp [hq])

theorem firstTwo_total {s : SampleSet K} {v : List (List K)} (hv : s.glob.values = some v)
    (h : ∀ row ∈ v, 2 ≤ row.length) : ∃ q, firstTwo (some s) = .ok q := by
  have hcol : ∀ j, j < 2 → ∃ l, v.mapM (fun row => getIdx row j) = .ok l := by
    intro j hj
    refine mapM_total fun row hrow => ?_
    have := h row hrow
    exact ⟨row[j]'(by omega), (getIdx_eq_ok _ _ _).mpr (List.getElem?_eq_getElem _)⟩
  obtain ⟨a, ha⟩ := hcol 0 (by omega)
  obtain ⟨b, hb⟩ := hcol 1 (by omega)
  refine ⟨(a, b), ?_⟩
  simp only [firstTwo, orErr_some, ok_bind, hv, ha, hb]
  rfl

theorem dataDomain2D_total {tri : List K → List K → Except Err (List (List Nat))}
    {aft : List (List (DomainItem K)) → List (List (DomainItem K))} {d : Disc K} {s : SampleSet K}
    (hs : d.output = some s) {v : List (List K)} (hv : s.glob.values = some v) (hrow : ∀ row ∈ v, 2 ≤ row.length)
    {ref : Option (RefArg K)} {markers colors : List String}
    (href : ∀ r, ref.or (s.referenceValue.map .vec) = some r → (∀ row ∈ r.rows 2, 2 ≤ row.length) ∧
      (r.rows 2).length ≤ colors.length ∧ (r.rows 2).length ≤ markers.length)
    {given : Option (List (List Nat))} (ht : ∃ t, trianglesOf tri d.input given = .ok t)
    (xl yl : String) (save inter : Bool) (f0 f1 ext : String) (p : Plt K) :
    ∃ p', dataDomain2D tri aft (.disc d) ref markers colors xl yl given save inter f0 f1 ext p = .ok p' := by
  obtain ⟨t, ht⟩ := ht
  obtain ⟨q, hq⟩ := firstTwo_total hv hrow
  have hr : domainRef (some s) ref = .ok (ref.or (s.referenceValue.map .vec)) := by
    cases ref <;> rfl
  have hm : ∀ p0 : Plt K, ∃ p1, drawMarks colors markers (ref.or (s.referenceValue.map .vec)) p0 = .ok p1 := by
    intro p0
    cases hre : ref.or (s.referenceValue.map RefArg.vec) with
    | none => exact ⟨p0, rfl⟩
    | some r =>
      obtain ⟨h1, h2, h3⟩ := href r hre
      refine drawMark_total _ _ fun ir hir => ?_
      obtain ⟨h4, h5⟩ := List.of_mem_zip hir
      rw [List.mem_range] at h4
      exact ⟨h1 _ h5, by omega, by omega⟩
  simp only [dataDomain2D, SampleObj.needDisc, ok_bind, hs, hr, ht, hq]
  obtain ⟨p1, hp1⟩ := hm (((p.draw (.region q.1 q.2 t)).draw (.labels xl yl)).save (fullName f0 ext))
  simp only [hp1, ok_bind]
  exact ⟨_, rfl⟩

theorem tempSet_checkNum {size n : Nat} {cols : List (List K)} (h : ∀ row ∈ cols, row.length = n) :
    (tempSet n cols).checkNum size = .ok cols.length := by
  have : SampleSet.colsOk n (some cols) = true := by
    simp only [SampleSet.colsOk, List.all_eq_true, beq_iff_eq]
    exact h
  unfold SampleSet.checkNum
  simp only [tempSet, Arrays.toList, Option.map_some, Option.map_none, SampleSet.checkNumLoop, ok_bind, this,
    if_true]
  rfl

/-- C103: it succeeds on every discretization with as many inputs as outputs, of dimension two at least, if the
folder exists or can be made, the inputs can be triangulated, and there is a colour and a marker for each
reference value. -/
theorem C103_succeeds {size : Nat} {tri : List K → List K → Except Err (List (List Nat))}
    (htri : ∀ a b, ∃ t, tri a b = .ok t) {isDir canMake : Bool} (hdir : isDir = true ∨ canMake = true) {d : Disc K}
    {i s : SampleSet K} (hi : d.input = some i) (hs : d.output = some s) {u v : List (List K)}
    (hu : i.glob.values = some u) (hv : s.glob.values = some v) (hui : ∀ row ∈ u, 2 ≤ row.length)
    (hvs : ∀ row ∈ v, row.length = s.dim) (hnum : i.checkNum size = .ok v.length)
    {nums : Option (List Nat)} (hnums : ∀ l, nums = some l → ∀ x ∈ l, x < s.dim) (hdim : 1 ≤ s.dim)
    {showdim : ShowDim} (hshow : ∀ k, showdim = .one k → k < s.dim) {ref : Option (RefArg K)}
    {markers colors : List String}
    (href : ∀ r, ref.or (s.referenceValue.map .vec) = some r → ∃ rows, RefRows s.dim r rows ∧
      (∀ row ∈ rows, row.length = s.dim) ∧ rows.length ≤ colors.length ∧ rows.length ≤ markers.length)
    (folder ext : String) (p : Plt K) :
    ∃ p', dataDomainMulti size tri isDir canMake (.disc d) ref nums folder markers colors showdim ext p =
      .ok p' := by
  have hens : ∃ b, ensureDir isDir canMake = .ok b := by
    unfold ensureDir
    rcases hdir with rfl | rfl
    · exact ⟨_, rfl⟩
    · cases isDir <;> exact ⟨_, rfl⟩
  obtain ⟨b, hb⟩ := hens
  obtain ⟨w, hw⟩ := firstTwo_total hu hui
  obtain ⟨t, ht⟩ := htri w.1 w.2
  have hr : domainRef (some s) ref = .ok (ref.or (s.referenceValue.map .vec)) := by
    cases ref <;> rfl
  simp only [dataDomainMulti, SampleObj.needDisc, ok_bind, hs, hr, orErr_some, hb, trianglesOf, hi, hw, ht]
  have hlt : ∀ xy ∈ domainPairs showdim (nums.getD (List.range s.dim)), xy.1 < s.dim ∧ xy.2 < s.dim := by
    intro xy hxy
    have hn : ∀ x ∈ nums.getD (List.range s.dim), x < s.dim := by
      cases nums with
      | none => simp
      | some l => exact hnums l rfl
    have hp := (mem_domainPairs _ _ xy.1 xy.2).mp hxy
    cases showdim with
    | unset => exact ⟨by rw [hp.1]; omega, hn _ hp.2.1⟩
    | one k => exact ⟨by rw [hp.1]; exact hshow k rfl, hn _ hp.2.1⟩
    | all =>
      have hp : [xy.1, xy.2].Sublist _ := hp
      exact ⟨hn _ (hp.subset (by simp)), hn _ (hp.subset (by simp))⟩
    | str => exact hp.elim
  generalize hpairs : domainPairs showdim (nums.getD (List.range s.dim)) = pairs at hlt
  clear hpairs
  induction pairs generalizing p with
  | nil => exact ⟨p, rfl⟩
  | cons xy l ih =>
    rw [List.foldlM_cons]
    obtain ⟨hx, hy⟩ := hlt xy (by simp)
    have hxy : ∀ z ∈ [xy.1, xy.2], z < s.dim := by simp [hx, hy]
    have hstep : ∃ q, dataDomainMulti.domainStep size tri folder markers colors ext d s
        ((ref.or (s.referenceValue.map .vec)).map (RefArg.rows s.dim)) t p xy = .ok q := by
      obtain ⟨cols, hc, hcl, hcr⟩ := cols_total (f := entriesAt [xy.1, xy.2]) (n := 2) (v := v) (by
        intro row hrow
        obtain ⟨q, hq⟩ := entriesAt_total (cols := [xy.1, xy.2]) (row := row)
          (fun z hz => by rw [hvs row hrow]; exact hxy z hz)
        exact ⟨q, hq, ((mapM_eq_ok _ _ _).mp hq).length_eq.symm⟩)
      have hnew : Disc.new size (some i) (some (tempSet 2 cols)) none none none =
          .ok { input := some i, output := some (tempSet 2 cols) } := by
        simp only [Disc.new, Option.isSome_some, if_true, Disc.checkNums, orErr_some, ok_bind,
          tempSet_checkNum hcr, hnum, hcl]
        simp
        rfl
      have hrc : ∃ r', refColumns xy.1 xy.2 ((ref.or (s.referenceValue.map .vec)).map (RefArg.rows s.dim)) =
          .ok r' ∧ ∀ q, r'.or ((tempSet 2 cols).referenceValue.map .vec) = some q →
            (∀ row ∈ q.rows 2, 2 ≤ row.length) ∧ (q.rows 2).length ≤ colors.length ∧
              (q.rows 2).length ≤ markers.length := by
        cases hre : ref.or (s.referenceValue.map RefArg.vec) with
        | none => exact ⟨none, rfl, by simp [tempSet]⟩
        | some r =>
          obtain ⟨rows, h1, h2, h3, h4⟩ := href r hre
          obtain ⟨rr, hrr, hrl, hrr2⟩ := cols_total (f := entriesAt [xy.1, xy.2]) (n := 2) (v := rows) (by
            intro row hrow
            obtain ⟨q, hq⟩ := entriesAt_total (cols := [xy.1, xy.2]) (row := row)
              (fun z hz => by rw [h2 row hrow]; exact hxy z hz)
            exact ⟨q, hq, ((mapM_eq_ok _ _ _).mp hq).length_eq.symm⟩)
          refine ⟨some (.mat 2 rr), ?_, ?_⟩
          · simp only [Option.map_some, refColumns, rows_of_refRows h1, hrr, ok_bind]
            rfl
          · intro q hq
            have hq : q = .mat 2 rr := by simpa [tempSet] using hq.symm
            subst hq
            simp only [RefArg.rows, if_true, hrl]
            exact ⟨fun row hrow => (hrr2 row hrow).ge, h3, h4⟩
      obtain ⟨r', hr', hr''⟩ := hrc
      simp only [dataDomainMulti.domainStep, hv, orErr_some, ok_bind, domainPair, hc, hi, hnew, hr']
      exact dataDomain2D_total (d := { input := some i, output := some (tempSet 2 cols) }) rfl (v := cols) rfl
        (fun row hrow => (hcr row hrow).ge) hr'' ⟨t, rfl⟩ _ _ _ _ _ _ _ _
    obtain ⟨q, hq⟩ := hstep
    rw [hq, ok_bind]
    exact ih q fun z hz => hlt z (by simp [hz])

/-- C103: other objects than discretizations are refused with `bad_object`. -/
theorem C103_refused (size : Nat) (tri : List K → List K → Except Err (List (List Nat))) (isDir canMake : Bool)
    (s : SampleSet K) (ref : Option (RefArg K)) (nums : Option (List Nat)) (folder ext : String)
    (markers colors : List String) (showdim : ShowDim) (p : Plt K) :
    ∀ obj ∈ [SampleObj.set s, .other],
      dataDomainMulti size tri isDir canMake obj ref nums folder markers colors showdim ext p =
        .error .badObject := by
  intro obj hobj
  rcases List.mem_cons.mp hobj with rfl | hobj
  · rfl
  · cases List.mem_singleton.mp hobj
    rfl

end

/-! ### Examples -/

namespace Ex

def domIn : SampleSet ℚ := { dim := 2, glob := { values := some [[0, 0], [1, 0], [0, 1]] } }

def domOut : SampleSet ℚ := { dim := 3, glob := { values := some [[0, 1, 2], [3, 4, 5], [6, 7, 8]] } }

def oneTri (_ _ : List ℚ) : Except Err (List (List Nat)) := .ok [[0, 1, 2]]

/-- Hypotheses of `C103_one`, `C103_negation_save`. -/
example : (dataDomain2D oneTri id (.disc { input := some domIn, output := some domOut }) (some (.mat 2 [[1, 2], [3, 4]]))
    ["o", "x"] ["b", "g"] "a" "b" none false false "f0" "f1" ".png" {}).toOption =
    some ⟨[], [("f0.png", [.region [0, 3, 6] [1, 4, 7] [[0, 1, 2]], .labels "a" "b"])]⟩ := by
  decide +kernel

/-- Hypotheses of `C103_negation_open`. -/
example : (dataDomain2D oneTri id (.disc { input := some domIn, output := some domOut }) none
    ["o", "x"] ["b", "g"] "a" "b" none true false "f0" "f1" ".png" ⟨[[.mark 5 5 "k" "s"]], []⟩).toOption =
    some ⟨[], [("f0.png", [.mark 5 5 "k" "s", .region [0, 3, 6] [1, 4, 7] [[0, 1, 2]], .labels "a" "b"]),
      ("f1.png", [.mark 5 5 "k" "s", .region [0, 3, 6] [1, 4, 7] [[0, 1, 2]], .labels "a" "b"])]⟩ := by
  decide +kernel

/-- Hypotheses of `C103_pairs`. -/
example : (dataDomainMulti 1 oneTri true true (.disc { input := some domIn, output := some domOut })
    (some (.vec [7, 8, 9])) none "figs/" ["o", "x"] ["b", "g"] .unset ".png" {}).toOption =
    some ⟨[], [("figs/domain_q1_q2.png", [.region [0, 3, 6] [1, 4, 7] [[0, 1, 2]], .labels "$q_{1}$" "$q_{2}$"]),
      ("figs/q1_q2_domain_Q_cs.png", [.region [0, 3, 6] [1, 4, 7] [[0, 1, 2]], .labels "$q_{1}$" "$q_{2}$",
        .mark 7 8 "b" "o"]),
      ("figs/domain_q1_q3.png", [.region [0, 3, 6] [2, 5, 8] [[0, 1, 2]], .labels "$q_{1}$" "$q_{3}$"]),
      ("figs/q1_q3_domain_Q_cs.png", [.region [0, 3, 6] [2, 5, 8] [[0, 1, 2]], .labels "$q_{1}$" "$q_{3}$",
        .mark 7 9 "b" "o"])]⟩ := by
  decide +kernel

/-- Hypotheses of `C103_succeeds`. -/
example : (∀ a b, ∃ t, oneTri a b = .ok t) ∧ domIn.checkNum 1 = .ok 3 ∧
    (∃ rows, Spec.RefRows 3 (.vec [(7 : ℚ), 8, 9]) rows ∧ ∀ row ∈ rows, row.length = 3) :=
  ⟨fun _ _ => ⟨_, rfl⟩, rfl, [[7, 8, 9]], .vec _ (by decide), by decide⟩

/-- Hypotheses of `C103_negation_colors`: the default colours. -/
example : ["b", "g", "r", "c", "m", "y", "k"].length < (List.replicate 8 [(1 : ℚ), 2]).length := by decide

end Ex

end BET
