import Verif.Props.Densities

/-!
# C111: evaluating the density of a Voronoi set again
-/

set_option linter.unusedSectionVars false
set_option linter.unusedSimpArgs false
set_option autoImplicit false

namespace BET

open Spec

section c111
variable {K : Type} [Field K] [LinearOrder K]

/-- The answer of a call without the changed object. -/
def Spec.answer {α β : Type} (r : Except Err (α × β)) : Except Err β := r.map Prod.snd

/-- The set with other probabilities, as after `set_probabilities(p)` and `global_to_local()`. -/
def Spec.withProbabilities (size : Nat) (p : List K) (s : SampleSet K) : SampleSet K :=
  { s with
    glob := { s.glob with probabilities := some p }
    loc := { s.loc with probabilities := some (arraySplit size p) } }

/-- What a set with a tree and local densities answers. -/
def cachedAnswer (G : Geometry K) (dim pNorm : Nat) (pts : List (List K)) (dens : List K)
    (vals : List (List K)) : Except Err (List K) := do
  let _ ← raiseIf (¬ vals.all (fun r => r.length == dim)) .dimNotMatching
  (vals.map (G.nn pNorm pts)).mapM fun i => orErr .indexError dens[i]?

theorem pdf_of_cache {G : Geometry K} {size n : Nat} {w : SampleSet K} {pts : List (List K)}
    {dl : Chunks K} (hk : w.kind = .voronoi) (ht : w.kdtree = some pts)
    (hd : w.loc.densities = some dl)
    (hp : ¬ (w.loc.probabilities.isNone ∧ w.glob.probabilities.isNone))
    (hc : w.localToGlobal.checkNum size = .ok n) (vals : List (List K)) :
    answer (w.pdfVoronoi G size vals) = cachedAnswer G w.dim w.pNorm pts dl.flatten vals := by
  have e1 : w.localToGlobal.kdtree = some pts := ht
  have e2 : w.localToGlobal.kind = .voronoi := hk
  have e3 : w.localToGlobal.pNorm = w.pNorm := rfl
  have e4 : w.localToGlobal.glob.densities = some dl.flatten := by
    simp [SampleSet.localToGlobal, Arrays.map₂, hd, SampleSet.gatherArr, getGlobalValues]
  unfold SampleSet.pdfVoronoi SampleSet.ensureDensitiesLocal SampleSet.query SampleSet.ensureTree
    cachedAnswer answer
  simp only [hd, Option.isNone_some, Bool.false_eq_true, if_false, ok_bind, e1, e2, e3, e4, hc,
    orErr_some, pure_bind_ok, pure, Except.pure, List.map_cons, List.map_nil, List.flatten_cons,
    List.flatten_nil, List.append_nil, List.mapM_map]
  by_cases hv : vals.all (fun r => r.length == w.dim) = true
  · simp only [raiseIf, hv, not_true_eq_false, if_false, ok_bind, if_neg hp]
    cases List.mapM ((fun i => orErr .indexError dl.flatten[i]?) ∘ G.nn w.pNorm pts) vals <;> rfl
  · simp only [raiseIf, hv, not_false_eq_true, if_true, error_bind]
    rfl

theorem setDensitiesLocal_frame {s t : SampleSet K} (h : s.setDensitiesLocal = .ok t) :
    (∃ dl, t.loc.densities = some dl) ∧ t.kind = s.kind ∧ t.dim = s.dim ∧ t.pNorm = s.pNorm ∧
      t.loc.probabilities = s.loc.probabilities ∧ t.glob = s.glob ∧ t.kdtree = s.kdtree := by
  unfold SampleSet.setDensitiesLocal at h
  obtain ⟨p, _, h⟩ := (bind_eq_ok _ _ _).mp h
  obtain ⟨v, _, h⟩ := (bind_eq_ok _ _ _).mp h
  obtain ⟨d, _, h⟩ := (bind_eq_ok _ _ _).mp h
  rw [pure_eq_ok] at h
  subst h
  exact ⟨⟨d, rfl⟩, rfl, rfl, rfl, rfl, rfl, rfl⟩

theorem ensureDensitiesLocal_frame {size : Nat} {s t : SampleSet K}
    (h : s.ensureDensitiesLocal size = .ok t) :
    (∃ dl, t.loc.densities = some dl) ∧ t.kind = s.kind ∧ t.dim = s.dim ∧ t.pNorm = s.pNorm ∧
      t.loc.probabilities = s.loc.probabilities ∧ t.glob = s.glob ∧ t.kdtree = s.kdtree := by
  unfold SampleSet.ensureDensitiesLocal at h
  split at h
  · obtain ⟨r, hr, h⟩ := (bind_eq_ok _ _ _).mp h
    obtain ⟨a, b, c, d, e, f, g⟩ := setDensitiesLocal_frame h
    have : r.kind = s.kind ∧ r.dim = s.dim ∧ r.pNorm = s.pNorm ∧
        r.loc.probabilities = s.loc.probabilities ∧ r.glob = s.glob ∧ r.kdtree = s.kdtree := by
      unfold SampleSet.ensureVolumesLocal at hr
      split at hr
      · unfold SampleSet.estimateVolumeMc at hr
        obtain ⟨_, _, hr⟩ := (bind_eq_ok _ _ _).mp hr
        obtain ⟨_, _, hr⟩ := (bind_eq_ok _ _ _).mp hr
        simp only [Bool.false_eq_true, if_false] at hr
        obtain ⟨_, _, hr⟩ := (bind_eq_ok _ _ _).mp hr
        rw [pure_eq_ok] at hr
        subst hr
        exact ⟨rfl, rfl, rfl, rfl, rfl, rfl⟩
      · cases hr
        exact ⟨rfl, rfl, rfl, rfl, rfl, rfl⟩
    obtain ⟨b', c', d', e', f', g'⟩ := this
    exact ⟨a, b.trans b', c.trans c', d.trans d', e.trans e', f.trans f', g.trans g'⟩
  · rename_i hs
    cases h
    refine ⟨?_, rfl, rfl, rfl, rfl, rfl, rfl⟩
    cases hd : s.loc.densities with
    | none => simp [hd] at hs
    | some dl => exact ⟨dl, rfl⟩

theorem ensureTree_frame {size : Nat} {s t : SampleSet K} (h : s.ensureTree size = .ok t) :
    (∃ pts, t.kdtree = some pts) ∧ t.kind = s.kind ∧ t.dim = s.dim ∧ t.pNorm = s.pNorm ∧
      t.loc = s.loc ∧ t.glob.probabilities = s.glob.probabilities ∧
      t.glob.densities = s.glob.densities := by
  unfold SampleSet.ensureTree at h
  split at h
  · unfold SampleSet.setKdtree at h
    obtain ⟨v, _, h⟩ := (bind_eq_ok _ _ _).mp h
    rw [pure_eq_ok] at h
    subst h
    exact ⟨⟨v, rfl⟩, rfl, rfl, rfl, rfl, rfl, rfl⟩
  · rename_i pts hp
    obtain ⟨_, _, h⟩ := (bind_eq_ok _ _ _).mp h
    rw [pure_eq_ok] at h
    subst h
    exact ⟨⟨pts, hp⟩, rfl, rfl, rfl, rfl, rfl, rfl⟩

theorem ensureDensitiesLocal_fresh {size : Nat} {s t : SampleSet K} {vl : Chunks K}
    (h : s.ensureDensitiesLocal size = .ok t) (hd : s.loc.densities = none)
    (hv : s.loc.volumes = some vl) :
    s.setDensitiesLocal = .ok t ∧ t.loc.volumes = some vl ∧ t.loc.values = s.loc.values := by
  unfold SampleSet.ensureDensitiesLocal SampleSet.ensureVolumesLocal at h
  simp only [hd, hv, Option.isNone_none, Option.isNone_some, if_true, Bool.false_eq_true, if_false,
    ok_bind] at h
  refine ⟨h, ?_⟩
  unfold SampleSet.setDensitiesLocal at h
  obtain ⟨p, _, h⟩ := (bind_eq_ok _ _ _).mp h
  obtain ⟨v, _, h⟩ := (bind_eq_ok _ _ _).mp h
  obtain ⟨d, _, h⟩ := (bind_eq_ok _ _ _).mp h
  rw [pure_eq_ok] at h
  subst h
  exact ⟨hv, rfl⟩

/-- The points of the tree that a query uses. -/
def treePoints (s : SampleSet K) : Option (List (List K)) := s.kdtree.or s.glob.values

theorem ensureTree_points {size : Nat} {s t : SampleSet K} (h : s.ensureTree size = .ok t) :
    t.kdtree = treePoints s := by
  unfold SampleSet.ensureTree at h
  unfold treePoints
  split at h
  · rename_i hn
    unfold SampleSet.setKdtree at h
    obtain ⟨v, hv, h⟩ := (bind_eq_ok _ _ _).mp h
    rw [orErr_eq_ok] at hv
    rw [pure_eq_ok] at h
    subst h
    simp [hn, hv]
  · rename_i pts hp
    obtain ⟨_, _, h⟩ := (bind_eq_ok _ _ _).mp h
    rw [pure_eq_ok] at h
    subst h
    simp [hp]

/-- What the first evaluation leaves behind, and what the set answered before. -/
theorem pdf_first {G : Geometry K} {size : Nat} {s u : SampleSet K} {vals : List (List K)}
    {out : List K} (hk : s.kind = .voronoi) (h : s.pdfVoronoi G size vals = .ok (u, out)) :
    ∃ pts dl, u.kdtree = some pts ∧ u.loc.densities = some dl ∧ u.kind = .voronoi ∧
      u.dim = s.dim ∧ u.pNorm = s.pNorm ∧
      ¬ (u.loc.probabilities.isNone ∧ u.glob.probabilities.isNone) ∧
      (∀ vl, s.loc.densities = none → s.loc.volumes = some vl → u.loc.volumes = some vl ∧
        treePoints s.localToGlobal = some pts ∧
        ∃ t, s.setDensitiesLocal = .ok t ∧ t.loc.densities = some dl) ∧
      ∀ vals', answer (s.pdfVoronoi G size vals') =
        cachedAnswer G s.dim s.pNorm pts dl.flatten vals' := by
  have h' := h
  unfold SampleSet.pdfVoronoi at h
  obtain ⟨_, _, h⟩ := (bind_eq_ok _ _ _).mp h
  obtain ⟨_, hprob, h⟩ := (bind_eq_ok _ _ _).mp h
  obtain ⟨t, ht, h⟩ := (bind_eq_ok _ _ _).mp h
  obtain ⟨q, hq, h⟩ := (bind_eq_ok _ _ _).mp h
  obtain ⟨dens, hdens, h⟩ := (bind_eq_ok _ _ _).mp h
  obtain ⟨o, ho, h⟩ := (bind_eq_ok _ _ _).mp h
  rw [pure_eq_ok] at h
  obtain ⟨rfl, rfl⟩ := Prod.mk.inj h
  obtain ⟨⟨dl, hdl⟩, hk1, hd1, hn1, hp1, hg1, ht1⟩ := ensureDensitiesLocal_frame ht
  have hkt : t.localToGlobal.kind = .voronoi := hk1.trans hk
  have hpr : ¬ (s.loc.probabilities.isNone ∧ s.glob.probabilities.isNone) :=
    raiseIf_eq_ok.mp hprob
  have hq' := hq
  unfold SampleSet.query at hq'
  rw [hkt] at hq'
  simp only [] at hq'
  obtain ⟨r, hr, hq'⟩ := (bind_eq_ok _ _ _).mp hq'
  obtain ⟨pts, hpts, hq'⟩ := (bind_eq_ok _ _ _).mp hq'
  rw [orErr_eq_ok] at hpts
  rw [pure_eq_ok] at hq'
  subst hq'
  obtain ⟨_, hk2, hd2, hn2, hl2, hp2, hg2⟩ := ensureTree_frame hr
  have hgd : r.glob.densities = some dl.flatten := by
    rw [hg2]
    simp [SampleSet.localToGlobal, Arrays.map₂, hdl, SampleSet.gatherArr, getGlobalValues]
  have hnp : r.pNorm = s.pNorm := hn2.trans hn1
  refine ⟨pts, dl, hpts, by rw [hl2]; exact hdl, hk2.trans hkt, hd2.trans hd1, hnp, ?_, ?_, ?_⟩
  · rintro ⟨a, b⟩
    simp only [hl2, hp2] at a b
    apply hpr
    have a' : t.loc.probabilities.isNone := a
    have b' : (SampleSet.gatherArr t.loc.probabilities t.glob.probabilities).isNone := b
    rw [Option.isNone_iff_eq_none] at a'
    rw [a'] at b'
    rw [← hp1, ← hg1, a']
    exact ⟨rfl, b'⟩
  · intro vl hd hv
    obtain ⟨e1, e2, e3⟩ := ensureDensitiesLocal_fresh ht hd hv
    refine ⟨by rw [hl2]; exact e2, ?_, t, e1, hdl⟩
    rw [← hpts, ensureTree_points hr]
    simp only [treePoints, SampleSet.localToGlobal, Arrays.map₂, ht1, hg1, e3]
  · intro vals'
    unfold SampleSet.pdfVoronoi cachedAnswer answer SampleSet.query
    simp only [ht, hkt, hr, hpts, hgd, hnp, raiseIf, if_neg hpr, ok_bind, orErr_some, pure,
      Except.pure, List.map_cons, List.map_nil, List.flatten_cons, List.flatten_nil,
      List.append_nil, List.mapM_map]
    by_cases hv : vals'.all (fun r => r.length == s.dim) = true
    · simp only [hv, not_true_eq_false, if_false, ok_bind]
      cases List.mapM ((fun i => orErr .indexError dl.flatten[i]?) ∘ G.nn s.pNorm pts) vals' <;> rfl
    · simp only [hv, not_false_eq_true, if_true, error_bind]
      rfl

/-- **C111.** Evaluating the density of a Voronoi set does not change later answers: after a
successful `pdf` the set, if it is still consistent, answers every further `pdf` as it would have
before. -/
theorem C111_repeat {G : Geometry K} {size n : Nat} {s u : SampleSet K} {vals : List (List K)}
    {out : List K} (hk : s.kind = .voronoi) (h : s.pdfVoronoi G size vals = .ok (u, out))
    (hc : u.localToGlobal.checkNum size = .ok n) (vals' : List (List K)) :
    answer (u.pdfVoronoi G size vals') = answer (s.pdfVoronoi G size vals') := by
  obtain ⟨pts, dl, h1, h2, h3, h4, h5, h6, _, h7⟩ := pdf_first hk h
  rw [h7, pdf_of_cache h3 h1 h2 h6 hc, h4, h5]

/-- **C111, negation (general).** After one evaluation the density no longer follows the
probabilities: whatever probabilities the set is given, `pdf` answers with the old ones. -/
theorem C111_negation_stale {G : Geometry K} {size n : Nat} {s u : SampleSet K}
    {vals : List (List K)} {out : List K} (hk : s.kind = .voronoi)
    (h : s.pdfVoronoi G size vals = .ok (u, out)) (p : List K)
    (hc : (withProbabilities size p u).localToGlobal.checkNum size = .ok n)
    (vals' : List (List K)) :
    answer ((withProbabilities size p u).pdfVoronoi G size vals') =
      answer (s.pdfVoronoi G size vals') := by
  obtain ⟨pts, dl, h1, h2, h3, h4, h5, h6, _, h7⟩ := pdf_first hk h
  have := pdf_of_cache (G := G) (w := withProbabilities size p u) h3 h1 h2
    (by simp [withProbabilities]) hc vals'
  rw [h7, this]
  simp only [withProbabilities, h4, h5]

theorem setDensitiesLocal_loc {s t : SampleSet K} (h : s.setDensitiesLocal = .ok t) :
    ∃ pl vl, s.loc.probabilities = some pl ∧ s.loc.volumes = some vl ∧
      ∃ dl, (List.zip pl vl).mapM (fun pv => SampleSet.divArr pv.1 pv.2) = .ok dl ∧
        t.loc.densities = some dl := by
  unfold SampleSet.setDensitiesLocal at h
  obtain ⟨p, hp, h⟩ := (bind_eq_ok _ _ _).mp h
  obtain ⟨v, hv, h⟩ := (bind_eq_ok _ _ _).mp h
  obtain ⟨d, hd, h⟩ := (bind_eq_ok _ _ _).mp h
  rw [orErr_eq_ok] at hp hv
  rw [pure_eq_ok] at h
  subst h
  exact ⟨p, v, hp, hv, d, hd, rfl⟩

/-- **C111.** The remedy: calling `set_densities_local()` without an argument after the
probabilities were changed makes `pdf` answer as a set that had these probabilities from the
start. -/
theorem C111_refresh {G : Geometry K} {size n : Nat} {s u u₂ w : SampleSet K}
    {vals vals₂ : List (List K)} {out out₂ : List K} {vl : Chunks K} (hk : s.kind = .voronoi)
    (hd : s.loc.densities = none) (hv : s.loc.volumes = some vl)
    (h : s.pdfVoronoi G size vals = .ok (u, out)) (p : List K)
    (hfresh : (withProbabilities size p s).pdfVoronoi G size vals₂ = .ok (u₂, out₂))
    (hw : (withProbabilities size p u).setDensitiesLocal = .ok w)
    (hc : w.localToGlobal.checkNum size = .ok n) (vals' : List (List K)) :
    answer (w.pdfVoronoi G size vals') =
      answer ((withProbabilities size p s).pdfVoronoi G size vals') := by
  obtain ⟨pts, dl, h1, h2, h3, h4, h5, h6, h8, h7⟩ := pdf_first hk h
  obtain ⟨pts₂, dl₂, k1, k2, k3, k4, k5, k6, k8, k7⟩ :=
    pdf_first (s := withProbabilities size p s) hk hfresh
  obtain ⟨a1, a2, _⟩ := h8 vl hd hv
  obtain ⟨_, b2, t, b3, b4⟩ := k8 vl hd hv
  have hpts : pts₂ = pts := by
    have e : treePoints (withProbabilities size p s).localToGlobal = treePoints s.localToGlobal := by
      simp [treePoints, withProbabilities, SampleSet.localToGlobal, Arrays.map₂]
    rw [e, a2] at b2
    exact (Option.some.inj b2).symm
  obtain ⟨pl, vl', c1, c2, d₁, c3, c4⟩ := setDensitiesLocal_loc hw
  obtain ⟨pl₂, vl₂, e1, e2, d₂, e3, e4⟩ := setDensitiesLocal_loc b3
  obtain ⟨⟨_, _⟩, f1, f2, f3, f4, f5, f6⟩ := setDensitiesLocal_frame hw
  have hpl : pl = pl₂ := by
    have x1 : some (arraySplit size p) = some pl := c1
    have x2 : some (arraySplit size p) = some pl₂ := e1
    exact Option.some.inj (x1.symm.trans x2)
  have hvl : vl' = vl₂ := by
    have x1 : u.loc.volumes = some vl' := c2
    have x2 : s.loc.volumes = some vl₂ := e2
    rw [a1] at x1
    rw [hv] at x2
    exact Option.some.inj (x1.symm.trans x2)
  subst hpl hvl
  rw [c3] at e3
  cases e3
  have hdl : dl₂ = d₁ := by
    rw [b4] at e4
    exact Option.some.inj e4
  have hp' : ¬ (w.loc.probabilities.isNone ∧ w.glob.probabilities.isNone) := by
    rw [f4]
    simp [withProbabilities]
  rw [k7, pdf_of_cache (f1.trans h3) (f6.trans h1) c4 hp' hc, f2, f3, hpts, hdl]
  simp only [withProbabilities, h4, h5]

end c111

/-! ### Concrete cases -/

namespace Ex

/-- The set `twoCells` with its arrays distributed. -/
def twoCellsLocal : SampleSet ℚ :=
  { twoCells with
    localIndex := some [[0, 1]]
    loc := { values := some [[[1/2], [3/2]]], volumes := some [[1/2, 1/2]],
             probabilities := some [[1/4, 3/4]] } }

/-- The same set after `pdf`. -/
def twoCellsAfter : SampleSet ℚ :=
  { twoCellsLocal with
    kdtree := some [[1/2], [3/2]]
    glob := { twoCellsLocal.glob with
      densities := some [1/2, 3/2], kdtreeValues := some [[1/2], [3/2]] }
    loc := { twoCellsLocal.loc with densities := some [[1/2, 3/2]] } }

/-- A set that had other probabilities from the start, after `pdf`. -/
def twoCellsFresh : SampleSet ℚ :=
  { withProbabilities 1 [3/4, 1/4] twoCellsLocal with
    kdtree := some [[1/2], [3/2]]
    glob := { (withProbabilities 1 [3/4, 1/4] twoCellsLocal).glob with
      densities := some [3/2, 1/2], kdtreeValues := some [[1/2], [3/2]] }
    loc := { (withProbabilities 1 [3/4, 1/4] twoCellsLocal).loc with
      densities := some [[3/2, 1/2]] } }

theorem twoCells_fresh : (withProbabilities 1 [3/4, 1/4] twoCellsLocal).pdfVoronoi G 1 [[1/2]] =
    .ok (twoCellsFresh, [3/2]) := by
  with_unfolding_all rfl

theorem twoCells_first : twoCellsLocal.pdfVoronoi G 1 [[1/2]] = .ok (twoCellsAfter, [1/2]) := by
  with_unfolding_all rfl

/-- C111: the second evaluation. -/
example (vals' : List (List ℚ)) :
    answer (twoCellsAfter.pdfVoronoi G 1 vals') = answer (twoCellsLocal.pdfVoronoi G 1 vals') :=
  C111_repeat rfl twoCells_first (n := 2) (by decide +kernel) vals'

/-- C111: with the probabilities `[3/4, 1/4]` the density of the first cell is 3/2 … -/
example : answer ((withProbabilities 1 [3/4, 1/4] twoCellsLocal).pdfVoronoi G 1 [[1/2]]) =
    .ok [3/2] := by
  decide +kernel

/-- … but a set that was evaluated before still says 1/2 … -/
example : answer ((withProbabilities 1 [3/4, 1/4] twoCellsAfter).pdfVoronoi G 1 [[1/2]]) =
    .ok [1/2] :=
  (C111_negation_stale rfl twoCells_first [3/4, 1/4] (n := 2) (by decide +kernel) [[1/2]]).trans
    (by decide +kernel)

/-- … until `set_densities_local()` is called. -/
example : ∃ w, (withProbabilities 1 [3/4, 1/4] twoCellsAfter).setDensitiesLocal = .ok w ∧
    answer (w.pdfVoronoi G 1 [[1/2]]) = .ok [3/2] :=
  ⟨_, rfl, (C111_refresh (s := twoCellsLocal) (vl := [[1/2, 1/2]]) rfl rfl rfl twoCells_first
    [3/4, 1/4] twoCells_fresh rfl (n := 2) (by decide +kernel) [[1/2]]).trans
    (by decide +kernel)⟩

end Ex

end BET
