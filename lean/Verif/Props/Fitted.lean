import Verif.Model.Fitted
import Verif.Props.InvertDefined
import Verif.Props.Pdf

/-!
# C92, C93: inversion to kernel density estimates and to random variables
-/

set_option autoImplicit false
set_option linter.unusedSectionVars false
set_option linter.unusedSimpArgs false

namespace BET

open Spec

section
variable {K : Type} [Field K] [LinearOrder K]

theorem presentAll_some (ms : List (List (K → K))) :
    presentAll (ms.map fun fs => fs.map some) = .ok ms := by
  unfold presentAll
  rw [List.mapM_map]
  have h : ∀ fs : List (K → K), (fs.map some).mapM (orErr Err.typeError) = .ok fs := by
    intro fs
    rw [List.mapM_map]
    rw [mapM_ok (orErr Err.typeError ∘ some) (fun f => f) fs (fun f _ => rfl), List.map_id']
  rw [mapM_ok ((fun fs => List.mapM (orErr Err.typeError) fs) ∘ fun fs => List.map some fs)
    (fun fs => fs) ms (fun fs _ => h fs), List.map_id']

/-- With a density for every parameter and cluster, `pdf` is that of the fitted measure. -/
theorem pdfKde_some (P : Pdfs K) (dim : Nat) (ms : List (List (K → K))) (cw : List K) (v : Vals K) :
    pdfKde P dim (ms.map fun fs => fs.map some, cw) v = pdfOf P dim (.kde ms cw) v := by
  unfold pdfKde pdfOf
  simp only [presentAll_some]
  by_cases h : v.toMat.1 = dim
  · simp [raiseIf, h, ok_bind]
  · simp [raiseIf, h, error_bind]

theorem mapM_present {α β : Type} {f : α → Except Err (Option β)} {l : List α}
    (h : ∀ a ∈ l, ∃ b, f a = .ok (some b)) :
    ∃ bs : List β, l.mapM f = .ok (bs.map some) ∧ bs.length = l.length ∧
      ∀ (i : Nat) (a : α) (b : β), l[i]? = some a → bs[i]? = some b → f a = .ok (some b) := by
  induction l with
  | nil => exact ⟨[], rfl, rfl, fun i a b hi => by simp at hi⟩
  | cons a l ih =>
    obtain ⟨b, hb⟩ := h a (by simp)
    obtain ⟨bs, h1, h2, h3⟩ := ih fun a ha => h a (by simp [ha])
    refine ⟨b :: bs, ?_, by simp [h2], ?_⟩
    · rw [List.mapM_cons, hb, ok_bind, h1]
      rfl
    · intro i a' b' hi hb'
      cases i with
      | zero =>
        simp only [List.getElem?_cons_zero, Option.some.injEq] at hi hb'
        rw [← hi, ← hb']
        exact hb
      | succ i => exact h3 i a' b' (by simpa using hi) (by simpa using hb')

theorem mapM_rows {α β : Type} {f : α → Except Err (List (Option β))} {l : List α} (n : Nat)
    (h : ∀ a ∈ l, ∃ bs : List β, f a = .ok (bs.map some) ∧ bs.length = n) :
    ∃ rows : List (List β), l.mapM f = .ok (rows.map fun bs => bs.map some) ∧
      rows.length = l.length ∧ (∀ r ∈ rows, r.length = n) ∧
      ∀ (i : Nat) (a : α) (r : List β), l[i]? = some a → rows[i]? = some r → f a = .ok (r.map some) := by
  induction l with
  | nil => exact ⟨[], rfl, rfl, by simp, fun i a b hi => by simp at hi⟩
  | cons a l ih =>
    obtain ⟨b, hb, hbn⟩ := h a (by simp)
    obtain ⟨bs, h1, h2, h3, h4⟩ := ih fun a ha => h a (by simp [ha])
    refine ⟨b :: bs, ?_, by simp [h2], ?_, ?_⟩
    · rw [List.mapM_cons, hb, ok_bind, h1]
      rfl
    · intro r hr
      rcases List.mem_cons.mp hr with rfl | hr
      · exact hbn
      · exact h3 r hr
    · intro i a' b' hi hb'
      cases i with
      | zero =>
        simp only [List.getElem?_cons_zero, Option.some.injEq] at hi hb'
        rw [← hi, ← hb']
        exact hb
      | succ i => exact h4 i a' b' (by simpa using hi) (by simpa using hb')

end

/-- Every observed sample is in a cluster that is not above those of the predicted samples. -/
def Spec.ObservedIn {K : Type} [Field K] [LinearOrder K] (ps os : RSet K) : Prop :=
  ∀ a ∈ labelOf ps os os, 0 ≤ a ∧ ∃ b ∈ labelOf ps os ps, a ≤ b

theorem num_of_invert {K : Type} [Field K] [LinearOrder K] {F : KdeFit K} {ps os : RSet K} {k : Kdes K}
    {st : Inversion K} (hm : ps.maps = none) (h : invert F ps os = .ok (k, st)) :
    k.regP = labelOf ps os ps ∧ k.regO = labelOf ps os os ∧
      ∃ M, npMax (labelOf ps os ps) = .ok M ∧ k.num = (M + 1).toNat := by
  simp only [invert, bind_eq_ok, pure_eq_ok, Prod.mk.injEq] at h
  obtain ⟨k, hk, st, hst, rfl, rfl⟩ := h
  obtain ⟨h1, h2, h3, -, -⟩ := kdes_eq_ok hk
  rw [labels_pred] at h2
  rw [labels_obs] at h3
  refine ⟨h2, h3, ?_⟩
  simp only [numClusters, hm, h2] at h1
  cases hM : npMax (labelOf ps os ps) with
  | error e => rw [hM] at h1; cases h1
  | ok M =>
    rw [hM] at h1
    exact ⟨M, rfl, (Except.ok.inj h1).symm⟩

/-- **C92** `invert_to_kde`: if every cluster has two predicted and two observed samples and all observed
samples are in these clusters, the call succeeds. The weight of a cluster is its fraction of the observed
samples; parameter `i` of cluster `j` gets the density estimate of the values of this parameter in the
cluster, weighted by the ratios that `invert` returns. The result is a probability measure: `pdf` and
`marginal_pdf` give a density and its marginals. -/
theorem C92_kde {F : KdeFit ℝ} (hF : ∀ pts w x, 0 < F pts w x) {fit : KdeFit1 ℝ}
    (hfit : ∀ c w, c ≠ [] → c.length = w.length → (∀ y ∈ w, 0 < y) →
      ∃ f, fit c w = .ok f ∧ Spec.IsDensity f)
    {ps os : RSet ℝ} (hm : ps.maps = none) (hmo : os.maps = none) (hp : Populated ps os)
    (ho : Spec.ObservedIn ps os) (hw : ∀ w, ps.weightsInit = some w → w.length = ps.values.length)
    {dim : Nat} {x : List (List ℝ)} (hx : x.length = ps.values.length) (hrow : ∀ r ∈ x, r.length = dim)
    (P : Pdfs ℝ) :
    ∃ (ms : List (List (ℝ → ℝ))) (cw : List ℝ) (k : Kdes ℝ) (st : Inversion ℝ),
      invert F ps os = .ok (k, st) ∧
      invertKde F fit dim x ps os = .ok (ms.map fun fs => fs.map some, cw) ∧
      ms.length = dim ∧ (∀ fs ∈ ms, fs.length = k.num) ∧
      cw = (List.range k.num).map (fun (j : Nat) =>
        (((labelOf ps os os).count (j : Int) : Nat) : ℝ) / (os.values.length : ℝ)) ∧
      (∀ (i j : Nat) (fs : List (ℝ → ℝ)) (f : ℝ → ℝ), ms[i]? = some fs → fs[j]? = some f →
        ∃ r, st.r[j]? = some (some r) ∧
          fit ((clusterSamples x (labelOf ps os ps) j).map fun row => row.getD i 0) r = .ok f) ∧
      (∀ v, pdfKde P dim (ms.map fun fs => fs.map some, cw) v = pdfOf P dim (.kde ms cw) v) ∧
      ∃ ρ : (Fin dim → ℝ) → ℝ, ∃ g : Fin dim → ℝ → ℝ,
        Spec.PdfIs P dim (.kde ms cw) ρ ∧ (∀ i, Spec.MarginalIs P dim (.kde ms cw) i (g i)) ∧
        Spec.IsDensity ρ ∧ (∀ i, Spec.IsDensity (g i) ∧ Spec.IsMarginal ρ i (g i)) ∧
        ∀ y, ρ y = ∏ i, g i (y i) := by
  obtain ⟨k, st, hinv, hreg, hnum, hptr, hr⟩ := C74_invert_defined_partial
    (fun pts w x => (hF pts w x).ne') hm hmo hp hw
  obtain ⟨-, hrego, M, hM, hnumM⟩ := num_of_invert hm hinv
  have hlen : (labelOf ps os ps).length = x.length := hp.pred_len.trans hx.symm
  -- the entries
  have hentry : ∀ i < dim, ∀ j < k.num, ∃ f r, st.r[j]? = some (some r) ∧
      kdeCluster fit x st i j = .ok (some f) ∧
      fit ((clusterSamples x (labelOf ps os ps) j).map fun row => row.getD i 0) r = .ok f ∧
      Spec.IsDensity f := by
    intro i hi j hj
    obtain ⟨rr, hrj, -⟩ := hr j hj
    obtain ⟨hpos, hrl, hne⟩ := ratio_pos hF hinv hj hrj
    have hsel : takeIdx (whereEq k.regP j) x = .ok (clusterSamples x (labelOf ps os ps) j) := by
      rw [hreg]; exact takeIdx_whereEq x _ j hlen
    have hselrow : ∀ row ∈ clusterSamples x (labelOf ps os ps) j, row.length = dim := by
      intro row hrw
      unfold clusterSamples at hrw
      obtain ⟨q, hq, rfl⟩ := List.mem_map.mp hrw
      exact hrow _ (List.of_mem_zip (List.mem_of_mem_filter hq)).1
    have hcol : (clusterSamples x (labelOf ps os ps) j).mapM (fun row => getIdx row i) =
        .ok ((clusterSamples x (labelOf ps os ps) j).map fun row => row.getD i 0) := by
      apply mapM_ok
      intro row hrw
      have : i < row.length := by rw [hselrow row hrw]; exact hi
      rw [getIdx_eq_ok, List.getD_eq_getElem?_getD, List.getElem?_eq_getElem this]
      rfl
    have hcl : (clusterSamples x (labelOf ps os ps) j).length = rr.length := by
      rw [(takeIdx_eq_ok hsel).1, hrl]
    obtain ⟨f, hf, hd⟩ := hfit ((clusterSamples x (labelOf ps os ps) j).map fun row => row.getD i 0) rr
      (by
        intro h0
        have h1 := congrArg List.length h0
        rw [List.length_map, hcl, hrl, List.length_nil] at h1
        exact hne (List.eq_nil_of_length_eq_zero h1))
      (by rw [List.length_map, hcl]) hpos
    refine ⟨f, rr, hrj, ?_, hf, hd⟩
    have hp' : getIdx st.ptr j = .ok (whereEq k.regP j) := by
      rw [getIdx_eq_ok, hptr, List.getElem?_map, List.getElem?_range hj]; rfl
    simp only [kdeCluster, (getIdx_eq_ok _ _ _).mpr hrj, ok_bind, hp', hsel, hcol, hf]
    rfl
  have hrows : ∀ i ∈ List.range dim, ∃ fs : List (ℝ → ℝ),
      (List.range k.num).mapM (kdeCluster fit x st i) = .ok (fs.map some) ∧ fs.length = k.num := by
    intro i hi
    obtain ⟨fs, h1, h2, -⟩ := mapM_present (f := kdeCluster fit x st i) (l := List.range k.num)
      fun j hj => by
        obtain ⟨f, r, -, h2, -⟩ := hentry i (List.mem_range.mp hi) j (List.mem_range.mp hj)
        exact ⟨f, h2⟩
    exact ⟨fs, h1, by simpa using h2⟩
  obtain ⟨ms, hms, hml, hmr, hmi⟩ := mapM_rows k.num hrows
  rw [List.length_range] at hml
  have hn0 : os.values.length ≠ 0 := by
    intro h0
    have hlo := hp.obs_len
    rw [h0] at hlo
    obtain ⟨a, ha⟩ := List.exists_mem_of_ne_nil (labelOf ps os ps) (by
      intro h1
      have := hp.pred_len
      rw [h1] at this
      exact hp.nonempty (List.eq_nil_of_length_eq_zero this.symm))
    obtain ⟨s, hs⟩ := List.getElem?_of_mem ha
    have := hp.obs s 0 a hs (by simpa using hp.nonneg a ha)
    rw [List.eq_nil_of_length_eq_zero hlo] at this
    simp at this
  have hcw : clusterWeights k.num k.regO os.values.length = .ok ((List.range k.num).map (fun (j : Nat) =>
      (((labelOf ps os os).count (j : Int) : Nat) : ℝ) / (os.values.length : ℝ))) := by
    unfold clusterWeights
    apply mapM_ok
    intro j _
    rw [← length_whereEq, hrego]
    simp [raiseIf, hn0, ok_bind]
  have hprob := (C42_cluster_weights (hrego ▸ hp.obs_len) hnum hcw).2.2.2.2.mpr (by
    intro a ha
    rw [hrego] at ha
    obtain ⟨h0, b, hb, hab⟩ := ho a ha
    have hbM : b ≤ M := npMax_int hM b hb
    refine ⟨h0, ?_⟩
    rw [hnumM]
    omega)
  have hall : ∀ (i j : Nat) (fs : List (ℝ → ℝ)) (f : ℝ → ℝ), ms[i]? = some fs → fs[j]? = some f →
      i < dim ∧ j < k.num ∧ kdeCluster fit x st i j = .ok (some f) := by
    intro i j fs f hi hj
    have hid : i < dim := hml ▸ (List.getElem?_eq_some_iff.mp hi).1
    have hjk : j < k.num := hmr fs (List.mem_of_getElem? hi) ▸ (List.getElem?_eq_some_iff.mp hj).1
    have h1 := (mapM_eq_ok _ _ _).1 (hmi i i fs (List.getElem?_range hid) hi)
    have hjf := (List.getElem?_eq_some_iff.mp hj).1
    have h2 := List.Forall₂.get h1 (i := j) (by simpa using hjk) (by simpa using hjf)
    obtain ⟨_, hfj⟩ := List.getElem?_eq_some_iff.mp hj
    simp only [List.get_eq_getElem, List.getElem_range, List.getElem_map, hfj] at h2
    exact ⟨hid, hjk, h2⟩
  have hdens : ∀ fs ∈ ms, ∀ f ∈ fs, Spec.IsDensity f := by
    intro fs hfs f hf
    obtain ⟨i, hi⟩ := List.getElem?_of_mem hfs
    obtain ⟨j, hj⟩ := List.getElem?_of_mem hf
    obtain ⟨hid, hjk, he⟩ := hall i j fs f hi hj
    obtain ⟨f', r, -, he', -, hd⟩ := hentry i hid j hjk
    rw [he] at he'
    rw [Option.some.inj (Except.ok.inj he')]
    exact hd
  refine ⟨ms, _, k, st, hinv, ?_, hml, hmr, rfl, ?_, pdfKde_some P dim ms _, ?_⟩
  · unfold invertKde
    simp only [hinv, ok_bind, hcw, hms]
    rfl
  · intro i j fs f hi hj
    obtain ⟨hid, hjk, he⟩ := hall i j fs f hi hj
    obtain ⟨f', r, hr', he', hf', -⟩ := hentry i hid j hjk
    rw [he] at he'
    rw [Option.some.inj (Except.ok.inj he')]
    exact ⟨r, hr', hf'⟩
  · exact C89_kde P dim ms _ ⟨hprob.1, hprob.2⟩ hml (by
      intro fs hfs; rw [hmr fs hfs]; simp) hdens

section
variable {K : Type} [Field K] [LinearOrder K]

/-- **C92 (negation)** A cluster number that no predicted sample has, below the largest one: whenever
`invert_to_kde` succeeds, `pdf` raises at every array of points. -/
theorem C92_negation_gap {F : KdeFit K} {fit : KdeFit1 K} {dim : Nat} (hdim : 0 < dim)
    {x : List (List K)} {ps os : RSet K} (hm : ps.maps = none)
    {m : List (List (Option (K → K))) × List K} (h : invertKde F fit dim x ps os = .ok m) (j : Nat)
    (hgap : (j : Int) ∉ labelOf ps os ps) (htop : ∃ a ∈ labelOf ps os ps, (j : Int) < a) (P : Pdfs K)
    (rows : List (List K)) : pdfKde P dim m (.mat dim rows) = .error .typeError := by
  simp only [invertKde, bind_eq_ok, pure_eq_ok] at h
  obtain ⟨⟨k, st⟩, hinv, cw, hcw, ms, hms, rfl⟩ := h
  obtain ⟨hreg, -, M, hM, hnum⟩ := num_of_invert hm hinv
  obtain ⟨a, ha, hja⟩ := htop
  have hj : j < k.num := by
    have := npMax_int hM a ha
    rw [hnum]
    omega
  have hr : st.r[j]? = some none := by
    simp only [invert, bind_eq_ok, pure_eq_ok, Prod.mk.injEq] at hinv
    obtain ⟨k, hk, st, hst, rfl, rfl⟩ := hinv
    obtain ⟨-, -, -, hc, -⟩ := invert_loop hst
    obtain ⟨vals, r, -, h2, h3, -⟩ := hc j hj
    have hw : whereEq k.regP j = [] := by
      rw [List.eq_nil_iff_forall_not_mem]
      intro s hs
      rw [mem_whereEq, hreg] at hs
      exact hgap (List.mem_of_getElem? hs)
    simp only [clusterRatio, hw, List.length_nil, lt_irrefl, if_false, pure_eq_ok] at h2
    rw [h3, ← h2]
  have hrow : ∀ (i : Nat) (fs : List (Option (K → K))), ms[i]? = some fs → fs[j]? = some none := by
    intro i fs hi
    have h1 := (mapM_eq_ok _ _ _).1 hms
    obtain ⟨hlt, hfs⟩ := List.getElem?_eq_some_iff.mp hi
    have h2 := List.Forall₂.get h1 (i := i) (h1.length_eq ▸ hlt) hlt
    simp only [List.get_eq_getElem, hfs] at h2
    have h3 := (mapM_eq_ok _ _ _).1 h2
    have hl : j < fs.length := by rw [← h3.length_eq]; simpa using hj
    have h4 := List.Forall₂.get h3 (i := j) (by simpa using hj) hl
    simp only [List.get_eq_getElem, List.getElem_range, kdeCluster, (getIdx_eq_ok _ _ _).mpr hr,
      ok_bind] at h4
    rw [List.getElem?_eq_getElem hl]
    exact congrArg some (Except.ok.inj h4).symm
  have hlen : ms.length = dim := by
    have := ((mapM_eq_ok _ _ _).1 hms).length_eq
    simpa using this.symm
  have herr : ∀ (fs : List (Option (K → K))), none ∈ fs →
      fs.mapM (orErr Err.typeError) = .error Err.typeError := by
    intro fs
    induction fs with
    | nil => simp
    | cons a fs ih =>
      intro h
      cases a with
      | none => rfl
      | some f =>
        have := ih (by simpa using h)
        rw [List.mapM_cons, this]
        rfl
  have hpres : presentAll ms = .error .typeError := by
    unfold presentAll
    cases ms with
    | nil => simp at hlen; omega
    | cons fs ms =>
      rw [List.mapM_cons, herr fs (List.mem_of_getElem? (hrow 0 fs rfl))]
      rfl
  simp [pdfKde, Vals.toMat, raiseIf, ok_bind, hpres, error_bind]

/-! ## Random variables -/

/-- **C93** The argument `rv`: a name stands for that distribution in every dimension, a pair for that
distribution with these parameters in every dimension, a list must have an entry for every dimension, and
anything else is refused, before anything is computed. -/
theorem C93_argument (F : KdeFit K) (S : RvLib K) (rnd : K → Int) (m dim : Nat) (x : List (List K))
    (ps os : RSet K) :
    (∀ name, invertRv F S rnd m dim x ps os (.str name) =
      invertRv F S rnd m dim x ps os (.list (List.replicate dim ⟨name, []⟩))) ∧
    (∀ sp, invertRv F S rnd m dim x ps os (.pair sp) =
      invertRv F S rnd m dim x ps os (.list (List.replicate dim sp))) ∧
    (∀ l : List (RvSpec K), l.length ≠ dim →
      invertRv F S rnd m dim x ps os (.list l) = .error .dimNotMatching) ∧
    invertRv F S rnd m dim x ps os .other = .error .wrongInput := by
  refine ⟨?_, ?_, ?_, rfl⟩
  · intro name
    simp [invertRv, RvArg.perDim]
  · intro sp
    simp [invertRv, RvArg.perDim]
  · intro l hl
    simp [invertRv, RvArg.perDim, hl, error_bind]

/-- The numbers of a fit under their names in `scipy.stats`: shape parameters, location, scale. -/
def Spec.Named (shapes : List String) (fitted : List K) (args : List (String × K)) : Prop :=
  args = (shapes ++ ["loc", "scale"]).zip fitted ∧ fitted.length = shapes.length + 2

end

section
variable {K : Type} [Field K] [LinearOrder K] [IsStrictOrderedRing K]

/-- **C93, part** A successful `invert_to_random_variable` gives one distribution for each dimension, the
one asked for. Its parameters come from a fit to this coordinate of copies of the samples, in proportion to
the weights: `copies s` differs by at most one half from the share of sample `s`. For distributions whose
shape parameters have the names `a` and `b` all fitted numbers are stored under their names, and
`marginal_pdf` is the density of the fitted distribution. -/
theorem C93_fitted_partial {F : KdeFit K} {S : RvLib K} {rnd : K → Int} (hr : IsRounding rnd) {m dim : Nat}
    {x : List (List K)} {ps os : RSet K} {specs pps : List (RvSpec K)}
    (hS : ∀ sp shapes col a, S.shapes sp.name = some shapes → S.fit sp col = .ok a →
      a.length = shapes.length + 2)
    (h : invertRv F S rnd m dim x ps os (.list specs) = .ok pps) :
    ∃ tot, totalWeights F x.length ps os = .ok tot ∧ ∃ copies : Nat → Nat,
      (∀ (s : Nat) t, tot[s]? = some t → |(copies s : K) - (m : K) * (t / tot.sum)| ≤ 1 / 2) ∧
      pps.length = dim ∧ ∀ (i : Nat) (sp pp : RvSpec K), specs[i]? = some sp → pps[i]? = some pp →
        pp.name = sp.name ∧ ∃ (shapes : List String) (fitted : List K),
          S.shapes sp.name = some shapes ∧
          S.fit sp (((List.range x.length).map fun s =>
            List.replicate (copies s) ((x.getD s []).getD i 0)).flatten) = .ok fitted ∧
          (shapes = [] ∨ shapes = ["a"] ∨ shapes = ["a", "b"] →
            Spec.Named shapes fitted pp.args ∧ ∀ (P : Pdfs K) (ts : List K),
              rvMarginalPdf S P pps (.vec ts) i = .ok (ts.map (P.rv ⟨sp.name, pp.args⟩))) := by
  simp only [invertRv, bind_eq_ok] at h
  obtain ⟨specs', hsp, tot, htot, vals, hvals, h⟩ := h
  have hspecs : specs' = specs := by
    simp only [RvArg.perDim] at hsp
    split at hsp
    · cases hsp
    · exact (Except.ok.inj hsp).symm
  subst hspecs
  have hl : x.length = tot.length := by
    obtain ⟨-, -, -, -, -, hl, -⟩ := C43_total_weights htot
    exact hl.symm
  obtain ⟨copies, hc1, hc2, -⟩ := C73_reweighted hr hl hvals
  have hf := (mapM_eq_ok _ _ _).1 h
  refine ⟨tot, htot, copies, hc2, by simpa using hf.length_eq.symm, ?_⟩
  intro i sp pp hi hpp
  obtain ⟨hlt, hpe⟩ := List.getElem?_eq_some_iff.mp hpp
  have h1 := List.Forall₂.get hf (i := i) (hf.length_eq ▸ hlt) hlt
  simp only [List.get_eq_getElem, List.getElem_range, hpe] at h1
  simp only [fitDim, bind_eq_ok, getIdx_eq_ok, orErr_eq_ok, pure_eq_ok] at h1
  obtain ⟨sp', hsp', shapes, hshapes, col, hcol, a, ha, args, hargs, hres⟩ := h1
  rw [hi] at hsp'
  obtain rfl := Option.some.inj hsp'
  have hname : pp.name = sp.name := by rw [← hres]
  have hpargs : pp.args = args := by rw [← hres]
  refine ⟨hname, shapes, a, hshapes, ?_, ?_⟩
  · have hcolv : col = vals.map fun row => row.getD i 0 := by
      have h2 := (mapM_eq_ok _ _ _).1 hcol
      apply List.ext_getElem?
      intro t
      by_cases ht : t < vals.length
      · have ht' : t < col.length := h2.length_eq ▸ ht
        have h3 := List.Forall₂.get h2 (i := t) ht ht'
        rw [getIdx_eq_ok] at h3
        simp only [List.get_eq_getElem] at h3
        rw [List.getElem?_eq_getElem ht', List.getElem?_map, List.getElem?_eq_getElem ht,
          Option.map_some, List.getD_eq_getElem?_getD, h3, Option.getD_some]
      · rw [List.getElem?_eq_none (by rw [← h2.length_eq]; omega),
          List.getElem?_eq_none (by simp; omega)]
    have : vals.map (fun row => row.getD i 0) = ((List.range x.length).map fun s =>
        List.replicate (copies s) ((x.getD s []).getD i 0)).flatten := by
      rw [hc1, List.map_flatten, List.map_map]
      congr 1
      apply List.map_congr_left
      intro s _
      simp
    rw [← this, ← hcolv]
    exact ha
  · intro hsh
    have hlen := hS sp shapes col a hshapes ha
    have hnamed : Spec.Named shapes a pp.args ∧ acceptsArgs shapes pp.args = true := by
      rw [hpargs]
      rcases hsh with rfl | rfl | rfl
      · match a, hlen with
        | [l, s], _ =>
          cases hargs
          exact ⟨⟨rfl, rfl⟩, by simp [acceptsArgs]⟩
      · match a, hlen with
        | [u, l, s], _ =>
          cases hargs
          exact ⟨⟨rfl, rfl⟩, by simp [acceptsArgs]⟩
      · match a, hlen with
        | [u, v, l, s], _ =>
          cases hargs
          exact ⟨⟨rfl, rfl⟩, by simp [acceptsArgs]⟩
    refine ⟨hnamed.1, fun P ts => ?_⟩
    have e : pp = ⟨sp.name, pp.args⟩ := by rw [← hname]
    unfold rvMarginalPdf
    simp only [(getIdx_eq_ok _ _ _).mpr hpp, ok_bind, hname, hshapes, orErr_some, hnamed.2, raiseIf,
      marginalPdf, evaluatePdfMarginal, marginalArg, marginalDensity, voronoiArg]
    rw [← e]
    rfl

/-- **C93 (negation)** If a distribution has another shape parameter, such as `s` of `lognorm` or `df` of
`t`, the fit may succeed but the density of the result cannot be evaluated: the fitted number is stored as
`a`, which `pdf` does not accept. -/
theorem C93_negation_shapes {F : KdeFit K} {S : RvLib K} {rnd : K → Int} {m dim : Nat}
    {x : List (List K)} {ps os : RSet K} {specs pps : List (RvSpec K)}
    (h : invertRv F S rnd m dim x ps os (.list specs) = .ok pps) (i : Nat) (sp : RvSpec K)
    (hi : specs[i]? = some sp) (hid : i < dim) (shapes : List String) (hs : S.shapes sp.name = some shapes)
    (s : String) (hsm : s ∈ shapes) (hsa : s ≠ "a") (hsb : s ≠ "b") (hsl : s ≠ "loc") (hsc : s ≠ "scale")
    (P : Pdfs K) (v : Vals K) : rvMarginalPdf S P pps v i = .error .typeError := by
  simp only [invertRv, bind_eq_ok] at h
  obtain ⟨specs', hsp, tot, htot, vals, hvals, h⟩ := h
  have hspecs : specs' = specs := by
    simp only [RvArg.perDim] at hsp
    split at hsp
    · cases hsp
    · exact (Except.ok.inj hsp).symm
  subst hspecs
  have hf := (mapM_eq_ok _ _ _).1 h
  have hlt : i < pps.length := by rw [← hf.length_eq]; simpa using hid
  have h1 := List.Forall₂.get hf (i := i) (by simpa using hid) hlt
  simp only [List.get_eq_getElem, List.getElem_range] at h1
  simp only [fitDim, bind_eq_ok, getIdx_eq_ok, orErr_eq_ok, pure_eq_ok] at h1
  obtain ⟨sp', hsp', shapes', hshapes, col, hcol, a, ha, args, hargs, hres⟩ := h1
  rw [hi] at hsp'
  obtain rfl := Option.some.inj hsp'
  have hkeys : ∀ k ∈ args.map Prod.fst, k = "a" ∨ k = "b" ∨ k = "loc" ∨ k = "scale" := by
    unfold storedArgs at hargs
    split at hargs <;> cases hargs
    all_goals simp
  have hacc : acceptsArgs shapes pps[i].args = false := by
    rw [← hres]
    unfold acceptsArgs
    rw [Bool.and_eq_false_iff]
    right
    rw [List.all_eq_false]
    refine ⟨s, hsm, ?_⟩
    intro hc
    rw [List.contains_iff_mem] at hc
    rcases hkeys s hc with h | h | h | h
    · exact hsa h
    · exact hsb h
    · exact hsl h
    · exact hsc h
  have hname : pps[i].name = sp.name := by rw [← hres]
  unfold rvMarginalPdf
  simp [(getIdx_eq_ok _ _ _).mpr (List.getElem?_eq_getElem hlt), ok_bind, hname, hs, orErr_some, hacc,
    raiseIf, error_bind]

/-- **C93 (negation)** Distributions with three or more shape parameters are never fitted. -/
theorem C93_negation_many {F : KdeFit K} {S : RvLib K} {rnd : K → Int} {m dim : Nat}
    {x : List (List K)} {ps os : RSet K} {specs : List (RvSpec K)} (i : Nat) (hid : i < dim)
    (sp : RvSpec K) (hi : specs[i]? = some sp) (shapes : List String)
    (_hs : S.shapes sp.name = some shapes) (h3 : 3 ≤ shapes.length)
    (hS : ∀ col a, S.fit sp col = .ok a → a.length = shapes.length + 2) (pps : List (RvSpec K)) :
    invertRv F S rnd m dim x ps os (.list specs) ≠ .ok pps := by
  intro h
  simp only [invertRv, bind_eq_ok] at h
  obtain ⟨specs', hsp, tot, htot, vals, hvals, h⟩ := h
  have hspecs : specs' = specs := by
    simp only [RvArg.perDim] at hsp
    split at hsp
    · cases hsp
    · exact (Except.ok.inj hsp).symm
  subst hspecs
  obtain ⟨r, h⟩ := mapM_ok_mem _ _ _ h i (List.mem_range.mpr hid)
  simp only [fitDim, bind_eq_ok, getIdx_eq_ok, orErr_eq_ok, pure_eq_ok] at h
  obtain ⟨sp', hsp', shapes', hshapes, col, hcol, a, ha, args, hargs, hres⟩ := h
  rw [hi] at hsp'
  obtain rfl := Option.some.inj hsp'
  have hl := hS col a ha
  unfold storedArgs at hargs
  split at hargs
  · simp only [List.length_cons, List.length_nil] at hl; omega
  · simp only [List.length_cons, List.length_nil] at hl; omega
  · simp only [List.length_cons, List.length_nil] at hl; omega
  · cases hargs

end

namespace Ex

/-- Predicted and observed values in two clusters. -/
noncomputable def predR : RSet ℝ := { values := [[0], [1], [2], [3]], region := some [0, 1, 0, 1] }
noncomputable def obsR : RSet ℝ := { values := [[0], [1], [2], [3], [4]], region := some [0, 1, 0, 1, 1] }

theorem populatedR : Populated predR obsR where
  nonempty := by simp [predR]
  nonneg := by decide
  pred_len := rfl
  obs_len := rfl
  pred := by
    intro s j a hs hj
    have ha : a ≤ 1 := by
      have : a ∈ [(0 : Int), 1, 0, 1] := List.mem_of_getElem? hs
      fin_cases this <;> decide
    have : j = 0 ∨ j = 1 := by omega
    rcases this with rfl | rfl <;> decide
  obs := by
    intro s j a hs hj
    have ha : a ≤ 1 := by
      have : a ∈ [(0 : Int), 1, 0, 1] := List.mem_of_getElem? hs
      fin_cases this <;> decide
    have : j = 0 ∨ j = 1 := by omega
    rcases this with rfl | rfl <;> decide

/-- The hypotheses of `C92_kde` are met. -/
example : ∃ (ms : List (List (ℝ → ℝ))) (cw : List ℝ),
    invertKde (fun _ _ _ => 1) (fun c _ => .ok (unif (c.headD 0))) 2 [[0, 5], [1, 6], [2, 7], [3, 8]] predR
      obsR = .ok (ms.map fun fs => fs.map some, cw) := by
  obtain ⟨ms, cw, k, st, -, h, -⟩ := C92_kde (F := fun _ _ _ => 1) (fun _ _ _ => one_pos)
    (fit := fun c _ => .ok (unif (c.headD 0))) (fun c w _ _ _ => ⟨_, rfl, unif_density _⟩) (ps := predR)
    (os := obsR) rfl rfl populatedR (by
      intro a ha
      have : a ∈ [(0 : Int), 1, 0, 1, 1] := ha
      refine ⟨?_, 1, by decide, ?_⟩ <;> fin_cases this <;> decide) (fun w hw => by cases hw) (dim := 2)
    (x := [[0, 5], [1, 6], [2, 7], [3, 8]]) rfl (by simp) unifPdfs
  exact ⟨ms, cw, h⟩

/-- Labels 0 and 2: `invert_to_kde` succeeds. -/
example : (invertKde fit' (fun _ _ => .ok id) 1 [[10], [11], [12], [13]]
    { predSet with region := some [0, 0, 2, 2] }
    { obsSet with region := some [0, 0, 2, 2, 2] }).toOption.isSome = true := by decide +kernel

/-- A library of distributions: `norm`, `gamma`, `beta`, `t` with their shape parameters. -/
def lib : RvLib ℚ where
  shapes n := if n = "norm" then some [] else if n = "gamma" then some ["a"]
    else if n = "beta" then some ["a", "b"] else if n = "t" then some ["df"] else none
  fit sp col := .ok ((if sp.name = "norm" then [] else if sp.name = "beta" then [2, 3] else [7]) ++
    [col.sum, col.length])

example : (invertRv fit lib rnd 10 2 [[10, 0], [11, 1], [12, 2], [13, 3]] predSet obsSet
      (.list [⟨"norm", []⟩, ⟨"beta", []⟩])).toOption.isSome = true ∧
    (invertRv fit lib rnd 10 2 [[10, 0], [11, 1], [12, 2], [13, 3]] predSet obsSet
      (.str "t")).toOption.isSome = true := by
  decide +kernel

example : ∀ sp shapes col a, lib.shapes sp.name = some shapes → lib.fit sp col = .ok a →
    a.length = shapes.length + 2 := by
  intro sp shapes col a h1 h2
  simp only [lib] at h1 h2
  have h2 := (Except.ok.inj h2).symm
  subst h2
  split_ifs at h1 with c1 c2 c3 c4 <;> obtain rfl := Option.some.inj h1 <;> simp_all

end Ex

end BET
