import Verif.Props.Voronoi1D
import Verif.Model.Densities

/-!
# C26: densities
-/

set_option linter.unusedSectionVars false
set_option linter.unusedSimpArgs false
set_option autoImplicit false

namespace BET

open Spec

section c26
variable {K : Type} [Field K] [LinearOrder K] [IsStrictOrderedRing K]

/-- The volume of the domain; 1 when there is none (then volumes are absolute). -/
def Spec.domVolume (dom : Option (List (K × K))) : K :=
  match dom with
  | none => 1
  | some d => domainVolume d

/-- **C26.** After `set_densities()` the density times the absolute volume of the cell is the
probability of the cell, for every sample of positive volume. -/
theorem C26_density_times_volume {s : SampleSet K} {p v : List K}
    (hp : s.glob.probabilities = some p) (hv : s.glob.volumes = some v)
    (hlen : p.length = v.length) (hdom : ∀ d, s.domain = some d → ∀ e ∈ d, e.1 < e.2) :
    ∃ t d, s.setDensities = .ok t ∧ t = { s with glob := { s.glob with densities := some d } } ∧
      d.length = p.length ∧
      ∀ (i : Nat) di pi vi, d[i]? = some di → p[i]? = some pi → v[i]? = some vi → 0 < vi →
        di * (vi * domVolume s.domain) = pi := by
  have hpos : 0 < domVolume s.domain := by
    unfold domVolume
    cases h : s.domain with
    | none => exact one_pos
    | some d =>
      have := hdom d h
      simp only [domainVolume]
      clear h hdom
      induction d with
      | nil => simp
      | cons e d ih =>
        simp only [List.map_cons, List.prod_cons]
        exact mul_pos (sub_pos.mpr (this e (by simp))) (ih fun x hx => this x (by simp [hx]))
  have htot : SampleSet.totalVol s.domain = domVolume s.domain := by
    cases s.domain <;> rfl
  refine ⟨_, List.zipWith (· / ·) p (v.map (· * domVolume s.domain)), ?_, rfl, by simp [hlen], ?_⟩
  · unfold SampleSet.setDensities SampleSet.divArr
    simp only [hp, hv, orErr_some, ok_bind, raiseIf, List.length_map, hlen, ne_eq,
      not_true_eq_false, if_false, htot]
    rfl
  · intro i di pi vi hdi hpi hvi hvpos
    rw [List.getElem?_zipWith, hpi, List.getElem?_map, hvi] at hdi
    simp only [Option.map_some, Option.some.injEq] at hdi
    subst hdi
    exact div_mul_cancel₀ _ (mul_pos hvpos hpos).ne'

/-- **C26.** So the piecewise constant density integrates to the total probability when all
volumes are positive. -/
theorem C26_integral {s : SampleSet K} {p v : List K}
    (hp : s.glob.probabilities = some p) (hv : s.glob.volumes = some v)
    (hlen : p.length = v.length) (hdom : ∀ d, s.domain = some d → ∀ e ∈ d, e.1 < e.2)
    (hpos : ∀ x ∈ v, 0 < x) :
    ∃ t d, s.setDensities = .ok t ∧ t.glob.densities = some d ∧
      (List.zipWith (fun di vi => di * (vi * domVolume s.domain)) d v).sum = p.sum := by
  obtain ⟨t, d, h1, h2, h3, h4⟩ := C26_density_times_volume hp hv hlen hdom
  refine ⟨t, d, h1, by rw [h2], ?_⟩
  congr 1
  apply List.ext_getElem
  · simp [h3, hlen]
  · intro i hi hi'
    simp only [List.length_zipWith] at hi
    rw [List.getElem_zipWith]
    exact h4 i _ _ _ (List.getElem?_eq_getElem (by omega)) (List.getElem?_eq_getElem hi')
      (List.getElem?_eq_getElem (by omega)) (hpos _ (List.getElem_mem _))

theorem zipWith_arraySplit_div (size : Nat) (p v : List K) (hlen : p.length = v.length) :
    (List.zip (arraySplit size p) (arraySplit size v)).mapM
      (fun pv => SampleSet.divArr pv.1 pv.2) =
      .ok (List.zipWith (List.zipWith (· / ·)) (arraySplit size p) (arraySplit size v)) := by
  rw [mapM_ok (g := fun pv : List K × List K => List.zipWith (· / ·) pv.1 pv.2)]
  · rw [List.zip_eq_zipWith, List.map_zipWith]
  · intro pv hpv
    obtain ⟨i, hi, rfl⟩ := List.mem_iff_getElem.mp hpv
    unfold SampleSet.divArr
    have : ((arraySplit size p)[i]'(by simp at hi; omega)).length =
        ((arraySplit size v)[i]'(by simp at hi; omega)).length := by
      simp [arraySplit, hlen]
    simp only [List.getElem_zip, raiseIf, this, ne_eq, not_true_eq_false, if_false, ok_bind]
    rfl

theorem flatten_zipWith_div (size : Nat) (hsize : 0 < size) (p v : List K)
    (hlen : p.length = v.length) :
    (List.zipWith (List.zipWith (· / ·)) (arraySplit size p) (arraySplit size v)).flatten =
      List.zipWith (· / ·) p v := by
  have key : ∀ (a b : List (List K)), SameShape a b →
      (List.zipWith (List.zipWith (· / ·)) a b).flatten =
        List.zipWith (· / ·) a.flatten b.flatten := by
    intro a b h
    induction h with
    | nil => rfl
    | cons hxy _ ih => simp [List.zipWith_append hxy, ih]
  rw [key _ _ ?_, flatten_arraySplit _ _ hsize, flatten_arraySplit _ _ hsize]
  unfold SameShape
  rw [List.forall₂_iff_get]
  refine ⟨by simp [arraySplit], fun i h1 h2 => ?_⟩
  simp [arraySplit, hlen]

/-- **C26 (part).** `pdf` of a Voronoi set whose arrays are distributed gives every point the
probability of its cell divided by the relative volume of the cell, if that is not zero (otherwise
numpy returns `inf` or `nan`).  Missing: the volume of the
domain, which `set_densities` takes into account and `pdf` does not
(`C26_negation_pdf_scale`). -/
theorem C26_pdf_partial {G : Geometry K} (hG : Sound G) {size : Nat} (hsize : 0 < size)
    {s t : SampleSet K} {n : Nat} (hr : Ready s n) (hk : s.kind = .voronoi)
    {p v : List K} (hp : s.glob.probabilities = some p) (hv : s.glob.volumes = some v)
    (hd : s.glob.densities = none) (hl : NonePresent s.loc)
    (ht : s.globalToLocal size = .ok t) (vals : List (List K))
    (hvals : ∀ x ∈ vals, x.length = s.dim) :
    ∃ u out, t.pdfVoronoi G size vals = .ok (u, out) ∧
      List.Forall₂ (fun x d => ∃ i pi vi, IsCell G s x i ∧ p[i]? = some pi ∧ v[i]? = some vi ∧
        (vi ≠ 0 → d * vi = pi)) vals out := by
  rw [SampleSet.globalToLocal_ok hr.consistent] at ht
  cases ht
  have hpl := hr.consistent.1.probabilities p hp
  have hvl := hr.consistent.1.volumes v hv
  set d := List.zipWith (· / ·) p v with hdd
  set dl : Chunks K :=
    List.zipWith (List.zipWith (· / ·)) (arraySplit size p) (arraySplit size v) with hdl'
  set t' : SampleSet K := { s.splitSet size n with
    loc := { (s.splitSet size n).loc with densities := some dl } } with ht'
  have hens : (s.splitSet size n).ensureDensitiesLocal size = .ok t' := by
    unfold SampleSet.ensureDensitiesLocal SampleSet.ensureVolumesLocal SampleSet.setDensitiesLocal
    have e1 : (s.splitSet size n).loc.densities = none := by
      simp [SampleSet.splitSet, Arrays.map₂, hd, hl.densities]
    have e2 : (s.splitSet size n).loc.volumes = some (arraySplit size v) := by
      simp [SampleSet.splitSet, Arrays.map₂, hv]
    have e3 : (s.splitSet size n).loc.probabilities = some (arraySplit size p) := by
      simp [SampleSet.splitSet, Arrays.map₂, hp]
    simp only [e1, e2, e3, Option.isNone_none, Option.isNone_some, if_true, Bool.false_eq_true,
      if_false, ok_bind, orErr_some, zipWith_arraySplit_div size p v (by omega)]
    simp only [ht', e2, e3]
    rfl
  -- gathering gives the global arrays back
  have hgath : ∀ {α : Type} (g : Option (List α)) (l : Option (Chunks α)), l = none →
      SampleSet.gatherArr (SampleSet.splitArr size g l) g = g := by
    intro α g l hl
    subst hl
    cases g with
    | none => rfl
    | some xs => simp [flatten_arraySplit _ _ hsize]
  have hglob : t'.localToGlobal.glob = { s.glob with densities := some d } := by
    simp only [SampleSet.localToGlobal, ht', SampleSet.splitSet, Arrays.map₂]
    simp only [hgath _ _ hl.values, hgath _ _ hl.volumes, hgath _ _ hl.probabilities,
      hgath _ _ hl.jacobians, hgath _ _ hl.errorEstimates, hgath _ _ hl.right, hgath _ _ hl.left,
      hgath _ _ hl.width, hgath _ _ hl.kdtreeValues, hgath _ _ hl.radii,
      hgath _ _ hl.normalizedRadii, hgath _ _ hl.region, hgath _ _ hl.errorId,
      SampleSet.gatherArr_some, hdl', flatten_zipWith_div size hsize p v (by omega), hdd]
  have hdl : d.length = n := by simp [hdd, hpl, hvl]
  have hc := hr.consistent
  have hready : Ready t'.localToGlobal n := by
    refine ⟨⟨?_, ?_, ?_⟩, hr.pos, ?_, ?_, ?_, ?_⟩
    · rw [hglob]
      exact ⟨hc.1.values, hc.1.volumes, hc.1.probabilities, fun x hx => by cases hx; exact hdl,
        hc.1.jacobians, hc.1.errorEstimates, hc.1.right, hc.1.left, hc.1.width, hc.1.kdtreeValues,
        hc.1.radii, hc.1.normalizedRadii, hc.1.region, hc.1.errorId⟩
    · rw [hglob]
      intro hn
      have := hn.densities
      cases this
    · rw [hglob]; exact hc.2.2
    · rw [hglob]; exact hr.values
    · rw [hglob]; exact hr.tree
    · intro hk'; rw [hglob]; exact hr.rect hk'
    · intro hk'; rw [hglob]; exact hr.ball hk'
  obtain ⟨u, hq, hru, hcell, hval⟩ := SampleSet.query_ready (G := G) (size := size) hready [vals]
  have hframe := SampleSet.query_frame hq
  have hcellS : ∀ x, IsCell G s x (t'.localToGlobal.cell G x) := by
    intro x
    have := SampleSet.cell_isCell hG hready x
    unfold IsCell at this ⊢
    have hk' : t'.localToGlobal.kind = .voronoi := hk
    rw [hk'] at this
    rw [hk]
    rw [hglob] at this
    exact this
  have hlt : ∀ x, t'.localToGlobal.cell G x < n := fun x => SampleSet.cell_lt hG hready x
  have hdens : u.glob.densities = some d := by
    rw [hframe.1, hglob]
  have hcheck : vals.all (fun r => r.length == s.dim) = true := by simpa using hvals
  have hget : ∀ x, d[t'.localToGlobal.cell G x]? =
      some (d[t'.localToGlobal.cell G x]'(by have := hlt x; omega)) := fun x =>
    List.getElem?_eq_getElem _
  refine ⟨u, vals.map fun x => d[t'.localToGlobal.cell G x]'(by have := hlt x; omega), ?_, ?_⟩
  · have e3 : (s.splitSet size n).loc.probabilities = some (arraySplit size p) := by
      simp [SampleSet.splitSet, Arrays.map₂, hp]
    have e4 : (s.splitSet size n).dim = s.dim := rfl
    unfold SampleSet.pdfVoronoi
    simp only [e3, e4, hcheck, raiseIf, not_true_eq_false, if_false, Option.isNone_some,
      Bool.false_eq_true, false_and, ok_bind, hens, hq, hdens, orErr_some, List.map_cons,
      List.map_nil, List.flatten_cons, List.flatten_nil, List.append_nil]
    rw [mapM_ok (g := fun i => d.getD i 0)]
    · simp only [ok_bind, List.map_map, pure, Except.pure, Except.ok.injEq, Prod.mk.injEq, true_and]
      refine List.map_congr_left fun x _ => ?_
      simp [List.getD_eq_getElem?_getD, hget x]
    · intro i hi
      obtain ⟨x, _, rfl⟩ := List.mem_map.mp hi
      simp [List.getD_eq_getElem?_getD, hget x]
  · rw [List.forall₂_map_right_iff]
    refine List.forall₂_same.mpr fun x _ => ?_
    have hx := hlt x
    exact ⟨_, _, _, hcellS x, List.getElem?_eq_getElem (by omega),
      List.getElem?_eq_getElem (by omega), fun h0 => by simp [hdd, h0]⟩

end c26

/-! ### Concrete cases -/

namespace Ex

/-- Two samples of the interval `[0, 2]`. -/
def twoCells : SampleSet ℚ :=
  { dim := 1, domain := some [(0, 2)],
    glob := { values := some [[1/2], [3/2]], volumes := some [1/2, 1/2],
              probabilities := some [1/4, 3/4] } }

example : Ready twoCells 2 :=
  ⟨consistent_of _ _ rfl rfl, by norm_num, rfl, Or.inl rfl, nofun, nofun⟩

/-- C26. -/
example : (twoCells.setDensities.toOption.bind (·.glob.densities)) = some [1/4, 3/4] := by
  decide +kernel

/-- **C26, negation.** `pdf` of the same set is twice the density that `set_densities` computes:
it integrates to 2 over the domain. -/
theorem C26_negation_pdf_scale :
    (twoCells.setDensities.toOption.bind (·.glob.densities)) = some [1/4, 3/4] ∧
    ((twoCells.globalToLocal 1).toOption.bind fun t =>
      (t.pdfVoronoi G 1 [[1/2], [3/2]]).toOption.map Prod.snd) = some [1/2, 3/2] := by
  decide +kernel

/-- **C26, negation.** `pdf` of a set with probabilities and volumes that were never distributed
raises, although `set_densities` works. -/
theorem C26_negation_pdf_global_only :
    errOf (twoCells.pdfVoronoi G 1 [[1/2]]) = some .typeError ∧
    (twoCells.setDensities).toOption.isSome := by
  decide +kernel

end Ex

end BET
