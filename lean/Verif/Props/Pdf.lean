import Verif.Model.Pdf
import Verif.Props.Choose
import Mathlib.MeasureTheory.Integral.Pi
import Mathlib.MeasureTheory.Measure.Lebesgue.Basic
import Mathlib.MeasureTheory.Integral.Bochner.Set
import Mathlib.Tactic.Ring
import Mathlib.Tactic.Linarith
import Mathlib.Tactic.LinearCombination

/-!
# C89: the densities of fitted measures
-/

set_option autoImplicit false
set_option linter.unusedSectionVars false
set_option linter.unusedSimpArgs false

namespace BET

open MeasureTheory

/-! ## Specification -/

/-- A probability density on the line or on a space of parameters. -/
structure Spec.IsDensity {E : Type} [MeasureSpace E] (f : E → ℝ) : Prop where
  nonneg : ∀ x, 0 ≤ f x
  integrable : Integrable f
  mass : ∫ x, f x = 1

/-- `g` is the density of coordinate `i` under the density `ρ`: they give the same probability to every
measurable set. -/
def Spec.IsMarginal {dim : Nat} (ρ : (Fin dim → ℝ) → ℝ) (i : Fin dim) (g : ℝ → ℝ) : Prop :=
  ∀ A : Set ℝ, MeasurableSet A → ∫ x in {x : Fin dim → ℝ | x i ∈ A}, ρ x = ∫ t in A, g t

/-- `pdf`, at any points and any number of them, gives the values of the function `ρ`. -/
def Spec.PdfIs (P : Pdfs ℝ) (dim : Nat) (m : FittedMeasure ℝ) (ρ : (Fin dim → ℝ) → ℝ) : Prop :=
  ∀ pts : List (Fin dim → ℝ),
    pdfOf P dim m (.mat dim (pts.map List.ofFn)) = .ok (pts.map ρ)

/-- `marginal_pdf` for coordinate `i`, at any numbers or at any points, gives the values of `g`. -/
def Spec.MarginalIs (P : Pdfs ℝ) (dim : Nat) (m : FittedMeasure ℝ) (i : Fin dim) (g : ℝ → ℝ) : Prop :=
  (∀ ts : List ℝ, marginalPdf P true m (.vec ts) i = .ok (ts.map g)) ∧
    (∀ ts : List ℝ, marginalPdf P true m (.mat 1 (ts.map fun t => [t])) i = .ok (ts.map g)) ∧
    ∀ pts : List (Fin dim → ℝ),
      marginalPdf P true m (.mat dim (pts.map List.ofFn)) i = .ok (pts.map fun x => g (x i))

/-- A cluster model: non-negative weights that sum to one. -/
def Spec.Weights (ws : List ℝ) : Prop := (∀ w ∈ ws, 0 ≤ w) ∧ ws.sum = 1

/-- The density of the law from which one draws a cluster `j` with probability `ws[j]` and then the
coordinates independently of one another with the densities of that cluster. -/
def Spec.clusterDensity {dim : Nat} (ms : Fin dim → List (ℝ → ℝ)) (ws : List ℝ) (x : Fin dim → ℝ) : ℝ :=
  ∑ j : Fin ws.length, ws[j] * ∏ i : Fin dim, ((ms i)[(j : Nat)]?.getD fun _ => 0) (x i)

open Spec

/-! ## Evaluation -/

section
variable {K : Type} [Field K]

theorem marginalArg_rows (dim i : Nat) (hi : i < dim) (rows : List (List K))
    (hr : ∀ r ∈ rows, r.length = dim) :
    marginalArg i (.mat dim rows) = .ok (rows.map fun r => r.getD i 0) := by
  have key : ∀ k < dim, (rows.mapM fun r => getIdx r k) = .ok (rows.map fun r => r.getD k 0) := by
    intro k hk
    refine mapM_ok _ (fun r : List K => r.getD k 0) _ fun r hmem => ?_
    have : k < r.length := by rw [hr r hmem]; exact hk
    simp [getIdx, List.getElem?_eq_getElem this, List.getD]
  simp only [marginalArg]
  by_cases h1 : dim = 1
  · have h0 : i = 0 := by omega
    subst h0
    rw [if_pos h1]
    exact key 0 hi
  · rw [if_neg h1, if_pos hi]
    exact key i hi

theorem voronoiArg_ok (v : Vals K) (m : FittedMeasure K) (h : ∀ ms, m ≠ .voronoi ms) :
    voronoiArg v m = .ok () := by
  cases m <;> cases v <;> simp_all [voronoiArg]

theorem evaluateMarginal_rows (P : Pdfs K) (m : FittedMeasure K) (hm : ∀ ms, m ≠ .voronoi ms)
    (dim i : Nat) (hi : i < dim) (rows : List (List K)) (hr : ∀ r ∈ rows, r.length = dim)
    (g : K → K) (hg : marginalDensity P i m = .ok g) :
    evaluatePdfMarginal P m (.mat dim rows) i = .ok (rows.map fun r => g (r.getD i 0)) := by
  simp only [evaluatePdfMarginal, marginalArg_rows dim i hi rows hr, hg, voronoiArg_ok _ _ hm,
    ok_bind, List.map_map, Function.comp_def]
  rfl

theorem productLoop_rows (P : Pdfs K) (m : FittedMeasure K) (hm : ∀ ms, m ≠ .voronoi ms)
    (dim : Nat) (rows : List (List K)) (hr : ∀ r ∈ rows, r.length = dim)
    (g : Nat → K → K) (hg : ∀ i < dim, marginalDensity P i m = .ok (g i)) (is : List Nat)
    (his : ∀ i ∈ is, i < dim) (h : List K → K) :
    productLoop P m dim rows is (rows.map h) =
      .ok (rows.map fun r => h r * (is.map fun i => g i (r.getD i 0)).prod) := by
  induction is generalizing h with
  | nil => simp [productLoop]
  | cons i is ih =>
    have hi := his i (List.mem_cons_self ..)
    rw [productLoop, evaluateMarginal_rows P m hm dim i hi rows hr (g i) (hg i hi), ok_bind]
    have hz : List.zipWith (· * ·) (rows.map h) (rows.map fun r => g i (r.getD i 0)) =
        rows.map fun r => h r * g i (r.getD i 0) := by
      rw [List.zipWith_map, List.zipWith_self]
    rw [hz, ih (fun i hi => his i (List.mem_cons_of_mem _ hi)) fun r => h r * g i (r.getD i 0)]
    congr 1
    refine List.map_congr_left fun r _ => ?_
    simp only [List.map_cons, List.prod_cons]
    ring

/-- The measures for which `pdf` multiplies the marginals. -/
def Spec.IsProduct : FittedMeasure K → Prop
  | .kde _ _ => True
  | .rv _ => True
  | _ => False

theorem notVoronoi_of_product (m : FittedMeasure K) (hm : Spec.IsProduct m) : ∀ ms, m ≠ .voronoi ms := by
  intro ms e
  subst e
  exact hm

theorem pdfOf_mat (P : Pdfs K) (dim : Nat) (m : FittedMeasure K) (rows : List (List K)) :
    pdfOf P dim m (.mat dim rows) = evaluatePdf P m dim rows := by
  simp only [pdfOf, Vals.toMat]
  simp [raiseIf, ok_bind]

theorem pdf_product (P : Pdfs K) (m : FittedMeasure K) (hm : Spec.IsProduct m) (dim : Nat)
    (g : Fin dim → K → K) (hg : ∀ i : Fin dim, marginalDensity P i m = .ok (g i))
    (pts : List (Fin dim → K)) :
    pdfOf P dim m (.mat dim (pts.map List.ofFn)) = .ok (pts.map fun x => ∏ i, g i (x i)) := by
  have hv := notVoronoi_of_product m hm
  have hr : ∀ r ∈ pts.map List.ofFn, r.length = dim := by
    intro r h
    obtain ⟨x, _, rfl⟩ := List.mem_map.mp h
    exact List.length_ofFn
  have hloop := productLoop_rows P m hv dim (pts.map List.ofFn) hr
    (fun k => if h : k < dim then g ⟨k, h⟩ else fun _ => 0)
    (fun i hi => by rw [dif_pos hi]; exact hg ⟨i, hi⟩) (List.range dim)
    (fun i hi => List.mem_range.mp hi) (fun _ => 1)
  have he : evaluatePdf P m dim (pts.map List.ofFn) =
      productLoop P m dim (pts.map List.ofFn) (List.range dim) ((pts.map List.ofFn).map fun _ => 1) := by
    cases m <;> first | rfl | exact absurd hm (fun h => h)
  rw [pdfOf_mat, he, hloop, List.map_map]
  congr 1
  refine List.map_congr_left fun x _ => ?_
  simp only [Function.comp, one_mul]
  rw [← Fin.prod_ofFn]
  congr 1
  refine List.ext_getElem (by simp) fun k hk _ => ?_
  have hk' : k < dim := by simpa using hk
  simp [hk', List.getD]

theorem marginal_values (P : Pdfs K) (m : FittedMeasure K) (hm : ∀ ms, m ≠ .voronoi ms) (dim : Nat)
    (i : Fin dim) (g : K → K) (hg : marginalDensity P i m = .ok g) :
    (∀ ts : List K, marginalPdf P true m (.vec ts) i = .ok (ts.map g)) ∧
    (∀ ts : List K, marginalPdf P true m (.mat 1 (ts.map fun t => [t])) i = .ok (ts.map g)) ∧
    ∀ pts : List (Fin dim → K),
      marginalPdf P true m (.mat dim (pts.map List.ofFn)) i = .ok (pts.map fun x => g (x i)) := by
  have he : ∀ v, marginalPdf P true m v i = evaluatePdfMarginal P m v i := by
    intro v
    cases m <;> rfl
  refine ⟨fun ts => ?_, fun ts => ?_, fun pts => ?_⟩
  · rw [he]
    simp only [evaluatePdfMarginal, marginalArg, hg, voronoiArg_ok _ _ hm, ok_bind]
    rfl
  · rw [he]
    have h1 : marginalArg (i : Nat) (.mat 1 (ts.map fun t => [t])) = .ok ts := by
      simp only [marginalArg, if_pos]
      have := mapM_ok (fun r : List K => getIdx r 0) (fun r : List K => r.getD 0 0)
        (ts.map fun t => [t]) (by
          intro r hr
          obtain ⟨t, _, rfl⟩ := List.mem_map.mp hr
          rfl)
      rw [this, List.map_map]
      simp [Function.comp_def]
    simp only [evaluatePdfMarginal, h1, hg, voronoiArg_ok _ _ hm, ok_bind]
    rfl
  · rw [he, evaluateMarginal_rows P m hm dim i i.2 _ _ g hg, List.map_map]
    · congr 1
      refine List.map_congr_left fun x _ => ?_
      simp [List.getD]
    · intro r h
      obtain ⟨x, _, rfl⟩ := List.mem_map.mp h
      exact List.length_ofFn

theorem mixture_eq {α : Type} (fs : List (α → K)) (ws : List K) (x : α) :
    mixture fs ws x = (List.zipWith (fun f w => f x * w) fs ws).sum := by
  unfold mixture
  rw [← List.sum_eq_foldl]

theorem mixture_fin {α : Type} (fs : List (α → K)) (ws : List K) (h : fs.length = ws.length) (x : α) :
    mixture fs ws x = ∑ j : Fin ws.length, ws[j] * (fs[(j : Nat)]'(by omega)) x := by
  have hz : List.zipWith (fun f w => f x * w) fs ws =
      List.ofFn fun j : Fin ws.length => ws[j] * (fs[(j : Nat)]'(by omega)) x := by
    refine List.ext_getElem (by simp [h]) fun k hk _ => ?_
    rw [List.getElem_zipWith, List.getElem_ofFn]
    exact mul_comm _ _
  rw [mixture_eq, hz, List.sum_ofFn]

end

/-! ## Sums of densities -/

theorem density_sum {E : Type} [MeasureSpace E] {n : Nat} (w : Fin n → ℝ) (f : Fin n → E → ℝ)
    (hw : ∀ j, 0 ≤ w j) (hs : ∑ j, w j = 1) (hf : ∀ j, Spec.IsDensity (f j)) :
    Spec.IsDensity fun x => ∑ j, w j * f j x := by
  refine ⟨fun x => Finset.sum_nonneg fun j _ => mul_nonneg (hw j) ((hf j).nonneg x), ?_, ?_⟩
  · exact integrable_finsetSum _ fun j _ => (hf j).integrable.const_mul (w j)
  · rw [integral_finsetSum _ fun j _ => (hf j).integrable.const_mul (w j)]
    rw [← hs]
    refine Finset.sum_congr rfl fun j _ => ?_
    rw [integral_const_mul, (hf j).mass, mul_one]

theorem fin_sum_list (ws : List ℝ) : ∑ j : Fin ws.length, ws[j] = ws.sum := by
  rw [← Fin.sum_ofFn]
  simp

theorem kde_density (P : Pdfs ℝ) (ms : List (List (ℝ → ℝ))) (ws : List ℝ) (hw : Spec.Weights ws)
    (i : Nat) (fs : List (ℝ → ℝ)) (hi : ms[i]? = some fs) (hl : fs.length = ws.length)
    (hf : ∀ f ∈ fs, Spec.IsDensity f) :
    ∃ g, marginalDensity P i (.kde ms ws) = .ok g ∧ Spec.IsDensity g := by
  refine ⟨mixture fs ws, ?_, ?_⟩
  · simp only [marginalDensity, getIdx, hi, ok_bind, firstOf, hl, le_refl, if_true]
    rw [List.take_of_length_le (by omega)]
    rfl
  · have : mixture fs ws = fun x => ∑ j : Fin ws.length, ws[j] * (fs[(j : Nat)]'(by omega)) x := by
      funext x
      exact mixture_fin fs ws hl x
    rw [this]
    exact density_sum (fun j : Fin ws.length => ws[j]) (fun j => fs[(j : Nat)]'(by omega))
      (fun j => hw.1 _ (List.getElem_mem _)) (by rw [fin_sum_list]; exact hw.2)
      (fun j => hf _ (List.getElem_mem _))

/-! ## Products of marginals -/

theorem density_prod {dim : Nat} (g : Fin dim → ℝ → ℝ) (hg : ∀ i, Spec.IsDensity (g i)) :
    Spec.IsDensity fun x : Fin dim → ℝ => ∏ i, g i (x i) := by
  refine ⟨fun x => Finset.prod_nonneg fun i _ => (hg i).nonneg _, ?_, ?_⟩
  · exact Integrable.fintype_prod fun i => (hg i).integrable
  · rw [integral_fintype_prod_volume_eq_prod]
    exact Finset.prod_eq_one fun i _ => (hg i).mass

theorem marginal_prod {dim : Nat} (g : Fin dim → ℝ → ℝ) (hg : ∀ i, Spec.IsDensity (g i))
    (i : Fin dim) : Spec.IsMarginal (fun x => ∏ i, g i (x i)) i (g i) := by
  intro A hA
  have hA' : MeasurableSet {x : Fin dim → ℝ | x i ∈ A} := measurable_pi_apply i hA
  rw [← integral_indicator hA', ← integral_indicator hA]
  have : ({x : Fin dim → ℝ | x i ∈ A}.indicator fun x => ∏ k, g k (x k)) =
      fun x => ∏ k, (if k = i then A.indicator (g k) else g k) (x k) := by
    funext x
    by_cases hx : x i ∈ A
    · rw [Set.indicator_of_mem (by exact hx)]
      refine Finset.prod_congr rfl fun k _ => ?_
      by_cases hk : k = i
      · subst hk
        simp [hx]
      · simp [hk]
    · rw [Set.indicator_of_notMem (by exact hx)]
      symm
      refine Finset.prod_eq_zero (Finset.mem_univ i) ?_
      simp [hx]
  rw [this, integral_fintype_prod_volume_eq_prod]
  rw [Finset.prod_eq_single i]
  · simp
  · intro k _ hk
    simp only [if_neg hk]
    exact (hg k).mass
  · intro h
    exact absurd (Finset.mem_univ i) h

theorem product_measure (P : Pdfs ℝ) (dim : Nat) (m : FittedMeasure ℝ) (hm : Spec.IsProduct m)
    (h : ∀ i : Fin dim, ∃ g, marginalDensity P i m = .ok g ∧ Spec.IsDensity g) :
    ∃ ρ : (Fin dim → ℝ) → ℝ, ∃ g : Fin dim → ℝ → ℝ,
      Spec.PdfIs P dim m ρ ∧ (∀ i, Spec.MarginalIs P dim m i (g i)) ∧
      Spec.IsDensity ρ ∧ (∀ i, Spec.IsDensity (g i) ∧ Spec.IsMarginal ρ i (g i)) ∧
      ∀ x, ρ x = ∏ i, g i (x i) := by
  choose g hg hd using h
  exact ⟨fun x => ∏ i, g i (x i), g, pdf_product P m hm dim g hg,
    fun i => marginal_values P m (notVoronoi_of_product m hm) dim i (g i) (hg i),
    density_prod g hd, fun i => ⟨hd i, marginal_prod g hd i⟩, fun x => rfl⟩

/-- **C89** For a weighted kernel density estimate, with any number of parameters and clusters, whose
one-dimensional estimates are densities and whose weights are non-negative with sum one: `pdf` evaluates
one probability density at the points asked for, `marginal_pdf` evaluates the densities of its
coordinates, and the density is the product of its marginals. -/
theorem C89_kde (P : Pdfs ℝ) (dim : Nat) (ms : List (List (ℝ → ℝ))) (ws : List ℝ)
    (hw : Spec.Weights ws) (hdim : ms.length = dim) (hl : ∀ fs ∈ ms, fs.length = ws.length)
    (hf : ∀ fs ∈ ms, ∀ f ∈ fs, Spec.IsDensity f) :
    ∃ ρ : (Fin dim → ℝ) → ℝ, ∃ g : Fin dim → ℝ → ℝ,
      Spec.PdfIs P dim (.kde ms ws) ρ ∧ (∀ i, Spec.MarginalIs P dim (.kde ms ws) i (g i)) ∧
      Spec.IsDensity ρ ∧ (∀ i, Spec.IsDensity (g i) ∧ Spec.IsMarginal ρ i (g i)) ∧
      ∀ x, ρ x = ∏ i, g i (x i) := by
  refine product_measure P dim (.kde ms ws) trivial fun i => ?_
  have hi : (i : Nat) < ms.length := by rw [hdim]; exact i.2
  exact kde_density P ms ws hw i ms[(i : Nat)] (List.getElem?_eq_getElem hi)
    (hl _ (List.getElem_mem hi)) (hf _ (List.getElem_mem hi))

/-- **C89** The same for independent random variables, whose marginals are the densities of the
distributions asked for. -/
theorem C89_rv (P : Pdfs ℝ) (dim : Nat) (specs : List (RvSpec ℝ)) (hdim : specs.length = dim)
    (hf : ∀ sp ∈ specs, Spec.IsDensity (P.rv sp)) :
    ∃ ρ : (Fin dim → ℝ) → ℝ,
      Spec.PdfIs P dim (.rv specs) ρ ∧
      (∀ i : Fin dim, Spec.MarginalIs P dim (.rv specs) i (P.rv specs[i])) ∧
      Spec.IsDensity ρ ∧ (∀ i : Fin dim, Spec.IsMarginal ρ i (P.rv specs[i])) ∧
      ∀ x, ρ x = ∏ i : Fin dim, P.rv specs[i] (x i) := by
  have hg : ∀ i : Fin dim, marginalDensity P i (.rv specs) = .ok (P.rv specs[i]) := by
    intro i
    have hi : (i : Nat) < specs.length := by rw [hdim]; exact i.2
    simp only [marginalDensity, getIdx, List.getElem?_eq_getElem hi, ok_bind]
    rfl
  have hd : ∀ i : Fin dim, Spec.IsDensity (P.rv specs[i]) := fun i => hf _ (List.getElem_mem _)
  exact ⟨_, pdf_product P (.rv specs) trivial dim _ hg,
    fun i => marginal_values P (.rv specs) (fun _ e => by cases e) dim i _ (hg i),
    density_prod _ hd, fun i => marginal_prod _ hd i, fun x => rfl⟩

/-- **C89** The same for Gaussian mixtures, but for independence: if the density of every cluster is one
and its coordinates have the normal densities with the means and the diagonal entries of the covariance,
`pdf` evaluates the mixture of the clusters and `marginal_pdf` its marginals. -/
theorem C89_gmm (P : Pdfs ℝ) (dim : Nat) (ds : List (List ℝ → ℝ)) (means vars : List (List ℝ))
    (ws : List ℝ) (hw : Spec.Weights ws) (h1 : ds.length = ws.length)
    (h2 : means.length = ws.length) (h3 : vars.length = ws.length)
    (hm : ∀ m ∈ means, m.length = dim) (hv : ∀ v ∈ vars, v.length = dim)
    (hd : ∀ d ∈ ds, Spec.IsDensity fun x : Fin dim → ℝ => d (List.ofFn x))
    (hn : ∀ (j : Nat) (d : List ℝ → ℝ) (mu va : List ℝ), ds[j]? = some d → means[j]? = some mu →
      vars[j]? = some va → ∀ i : Fin dim, Spec.IsDensity (P.norm (mu.getD i 0) (va.getD i 0)) ∧
        Spec.IsMarginal (fun x : Fin dim → ℝ => d (List.ofFn x)) i (P.norm (mu.getD i 0) (va.getD i 0))) :
    ∃ ρ : (Fin dim → ℝ) → ℝ, ∃ g : Fin dim → ℝ → ℝ,
      Spec.PdfIs P dim (.gmm ds means vars ws) ρ ∧
      (∀ i, Spec.MarginalIs P dim (.gmm ds means vars ws) i (g i)) ∧
      Spec.IsDensity ρ ∧ (∀ i, Spec.IsDensity (g i) ∧ Spec.IsMarginal ρ i (g i)) ∧
      ∀ x, ρ x = ∑ j : Fin ws.length, ws[j] * (ds[(j : Nat)]?.getD fun _ => 0) (List.ofFn x) := by
  have hw0 : ∀ j : Fin ws.length, 0 ≤ ws[j] := fun j => hw.1 _ (List.getElem_mem _)
  have hws : ∑ j : Fin ws.length, ws[j] = 1 := by rw [fin_sum_list]; exact hw.2
  let N : Fin dim → Fin ws.length → ℝ → ℝ := fun i j =>
    P.norm ((means[(j : Nat)]'(by omega)).getD i 0) ((vars[(j : Nat)]'(by omega)).getD i 0)
  let D : Fin ws.length → (Fin dim → ℝ) → ℝ := fun j x => (ds[(j : Nat)]'(by omega)) (List.ofFn x)
  have hND : ∀ i j, Spec.IsDensity (N i j) ∧ Spec.IsMarginal (D j) i (N i j) := fun i j =>
    hn j _ _ _ (List.getElem?_eq_getElem (by omega)) (List.getElem?_eq_getElem (by omega))
      (List.getElem?_eq_getElem (by omega)) i
  have hD : ∀ j, Spec.IsDensity (D j) := fun j => hd _ (List.getElem_mem _)
  refine ⟨fun x => ∑ j, ws[j] * D j x, fun i t => ∑ j, ws[j] * N i j t, ?_, ?_, ?_, ?_, ?_⟩
  · intro pts
    rw [pdfOf_mat]
    simp only [evaluatePdf, firstOf, h1, le_refl, if_true]
    rw [ok_bind, List.take_of_length_le (by omega), List.map_map]
    refine congrArg Except.ok (List.map_congr_left fun x _ => ?_)
    exact mixture_fin ds ws h1 (List.ofFn x)
  · intro i
    refine marginal_values P _ (fun _ e => by cases e) dim i _ ?_
    have hmu := mapM_ok (fun m : List ℝ => getIdx m i) (fun m => m.getD i 0) means (fun m hmem => by
      have : (i : Nat) < m.length := by rw [hm m hmem]; exact i.2
      simp [getIdx, List.getElem?_eq_getElem this, List.getD])
    have hva := mapM_ok (fun m : List ℝ => getIdx m i) (fun m => m.getD i 0) vars (fun m hmem => by
      have : (i : Nat) < m.length := by rw [hv m hmem]; exact i.2
      simp [getIdx, List.getElem?_eq_getElem this, List.getD])
    simp only [marginalDensity, firstOf, h2, h3, le_refl, if_true, ok_bind]
    rw [List.take_of_length_le (by omega), List.take_of_length_le (by omega), hmu, ok_bind, hva, ok_bind]
    refine congrArg Except.ok (funext fun t => ?_)
    rw [mixture_fin _ _ (by simp [h2, h3])]
    refine Finset.sum_congr rfl fun j _ => ?_
    simp [N]
  · exact density_sum _ _ hw0 hws hD
  · intro i
    refine ⟨density_sum _ _ hw0 hws fun j => (hND i j).1, fun A hA => ?_⟩
    rw [integral_finsetSum _ fun j _ => ((hD j).integrable.const_mul _).integrableOn,
      integral_finsetSum _ fun j _ => ((hND i j).1.integrable.const_mul _).integrableOn]
    refine Finset.sum_congr rfl fun j _ => ?_
    rw [integral_const_mul, integral_const_mul, (hND i j).2 A hA]
  · intro x
    refine Finset.sum_congr rfl fun j _ => ?_
    have : (j : Nat) < ds.length := by omega
    simp [D, List.getElem?_eq_getElem this]

/-! ## What is drawn from a kernel density estimate -/

/-- **C89 (part)** With one cluster `pdf` is the density of the law that `sample_from_updated` draws from:
a cluster first, then the coordinates from the estimates of that cluster. -/
theorem C89_one_cluster_partial (P : Pdfs ℝ) (dim : Nat) (fs : Fin dim → ℝ → ℝ) :
    Spec.PdfIs P dim (.kde (List.ofFn fun i => [fs i]) [1])
      (Spec.clusterDensity (fun i => [fs i]) [1]) := by
  have hg : ∀ i : Fin dim, marginalDensity P i (.kde (List.ofFn fun i => [fs i]) [1]) = .ok (fs i) := by
    intro i
    simp only [marginalDensity, getIdx, List.getElem?_ofFn, i.2, dif_pos, ok_bind, firstOf,
      List.length_singleton, le_refl, if_true, List.take_one]
    refine congrArg Except.ok (funext fun t => ?_)
    simp [mixture]
  intro pts
  rw [pdf_product P (.kde _ _) trivial dim fs hg]
  refine congrArg Except.ok (List.map_congr_left fun x _ => ?_)
  simp [Spec.clusterDensity]

/-- **C89 (negation)** With two parameters and two clusters `pdf` is not the density of the law that
`sample_from_updated` draws from: at every point where the two clusters have different densities in both
coordinates, and both have positive weight, the two differ. -/
theorem C89_negation_kde (P : Pdfs ℝ) (a₁ a₂ b₁ b₂ : ℝ → ℝ) (w₁ w₂ : ℝ) (hw : w₁ + w₂ = 1) (x y : ℝ) :
    ∃ v : ℝ, pdfOf P 2 (.kde [[a₁, a₂], [b₁, b₂]] [w₁, w₂]) (.mat 2 [[x, y]]) = .ok [v] ∧
      v = Spec.clusterDensity ![[a₁, a₂], [b₁, b₂]] [w₁, w₂] ![x, y]
        - w₁ * w₂ * (a₁ x - a₂ x) * (b₁ y - b₂ y) ∧
      (0 < w₁ → 0 < w₂ → a₁ x ≠ a₂ x → b₁ y ≠ b₂ y →
        v ≠ Spec.clusterDensity ![[a₁, a₂], [b₁, b₂]] [w₁, w₂] ![x, y]) := by
  have hv : pdfOf P 2 (.kde [[a₁, a₂], [b₁, b₂]] [w₁, w₂]) (.mat 2 [[x, y]]) =
      .ok [(a₁ x * w₁ + a₂ x * w₂) * (b₁ y * w₁ + b₂ y * w₂)] := by
    have := pdf_product P (.kde [[a₁, a₂], [b₁, b₂]] [w₁, w₂]) trivial 2
      ![mixture [a₁, a₂] [w₁, w₂], mixture [b₁, b₂] [w₁, w₂]] (by
        intro i
        fin_cases i <;> rfl) [![x, y]]
    simpa [Fin.prod_univ_two, mixture] using this
  have hc : Spec.clusterDensity ![[a₁, a₂], [b₁, b₂]] [w₁, w₂] ![x, y] =
      w₁ * (a₁ x * b₁ y) + w₂ * (a₂ x * b₂ y) := by
    simp [Spec.clusterDensity, Fin.sum_univ_two, Fin.prod_univ_two]
  refine ⟨_, hv, ?_, ?_⟩
  · rw [hc]
    have : w₂ = 1 - w₁ := by linarith
    subst this
    ring
  · intro h1 h2 hx hy h
    rw [hc] at h
    have h0 : w₁ * w₂ * (a₁ x - a₂ x) * (b₁ y - b₂ y) = 0 := by
      have : w₂ = 1 - w₁ := by linarith
      subst this
      linear_combination -h
    have := mul_ne_zero (mul_ne_zero (mul_ne_zero h1.ne' h2.ne') (sub_ne_zero.mpr hx))
      (sub_ne_zero.mpr hy)
    exact this h0

/-! ## Refusals -/

section
variable {K : Type} [Field K]

/-- **C89** Arrays with another number of columns than the dimension are refused, whatever the measure. -/
theorem C89_dimension (P : Pdfs K) (dim cols : Nat) (m : FittedMeasure K) (rows : List (List K))
    (h : cols ≠ dim) : pdfOf P dim m (.mat cols rows) = .error .dimNotMatching := by
  simp only [pdfOf, Vals.toMat]
  simp [raiseIf, h, error_bind]

/-- **C89** Without probabilities the marginals of a Voronoi set are refused, as is any initial density
of this kind, and measures of other kinds. -/
theorem C89_refused (P : Pdfs K) (dim : Nat) (ms : List (K → K)) (rows : List (List K)) (v : Vals K)
    (i : Nat) :
    marginalPdf P false (.voronoi ms) v i = .error .wrongInput ∧
    marginalPdfInit P (.voronoi ms) v i = .error .wrongInput ∧
    pdfOf P dim (.voronoi ms) (.mat dim rows) = .error .wrongInput ∧
    pdfOf P dim .other (.mat dim rows) = .error .wrongInput := by
  refine ⟨rfl, rfl, ?_, ?_⟩ <;> (rw [pdfOf_mat]; rfl)

/-- **C89 (negation)** Although `marginal_pdf` is documented for arrays of shape `(num_vals, dim)`, it
raises for Voronoi sets when `dim` is at least two, whatever the values are. -/
theorem C89_negation_voronoi (P : Pdfs K) (dim : Nat) (hdim : 2 ≤ dim) (ms : List (K → K))
    (hms : ms.length = dim) (i : Fin dim) (pts : List (Fin dim → K)) :
    marginalPdf P true (.voronoi ms) (.mat dim (pts.map List.ofFn)) i = .error .valueError := by
  have hi : (i : Nat) < ms.length := by rw [hms]; exact i.2
  have hr : ∀ r ∈ pts.map List.ofFn, r.length = dim := by
    intro r h
    obtain ⟨x, _, rfl⟩ := List.mem_map.mp h
    exact List.length_ofFn
  simp only [marginalPdf, evaluatePdfMarginal, marginalArg_rows dim i i.2 _ hr, marginalDensity, getIdx,
    List.getElem?_eq_getElem hi, voronoiArg]
  simp [raiseIf, ok_bind, error_bind, show dim ≠ 1 by omega]

/-- **C89 (part)** With numbers, or with one column, it gives the estimate for the parameter asked for. -/
theorem C89_voronoi_partial (P : Pdfs K) (ms : List (K → K)) (i : Nat) (hi : i < ms.length)
    (ts : List K) :
    marginalPdf P true (.voronoi ms) (.vec ts) i = .ok (ts.map ms[i]) ∧
    marginalPdf P true (.voronoi ms) (.mat 1 (ts.map fun t => [t])) i = .ok (ts.map ms[i]) := by
  have h1 : marginalArg i (.mat 1 (ts.map fun t => [t])) = .ok ts := by
    simp only [marginalArg, if_pos]
    have := mapM_ok (fun r : List K => getIdx r 0) (fun r : List K => r.getD 0 0)
      (ts.map fun t => [t]) (by
        intro r hr
        obtain ⟨t, _, rfl⟩ := List.mem_map.mp hr
        rfl)
    rw [this, List.map_map]
    simp [Function.comp_def]
  constructor
  · simp only [marginalPdf, evaluatePdfMarginal, marginalArg, marginalDensity, getIdx,
      List.getElem?_eq_getElem hi, voronoiArg]
    simp [raiseIf, ok_bind]
  · simp only [marginalPdf, evaluatePdfMarginal, h1, marginalDensity, getIdx,
      List.getElem?_eq_getElem hi, voronoiArg]
    simp [raiseIf, ok_bind]

end

/-! ## Examples -/

namespace Ex

/-- The uniform density on `[a, a + 1]`. -/
noncomputable def unif (a : ℝ) : ℝ → ℝ := (Set.Icc a (a + 1)).indicator fun _ => 1

theorem unif_density (a : ℝ) : Spec.IsDensity (unif a) := by
  refine ⟨fun x => Set.indicator_nonneg (fun _ _ => zero_le_one) x, ?_, ?_⟩
  · exact (integrable_indicator_iff measurableSet_Icc).mpr (by simp)
  · rw [unif, integral_indicator measurableSet_Icc]
    simp

noncomputable def unifPdfs : Pdfs ℝ := ⟨fun _ => unif 0, fun m _ => unif m⟩

/-- Hypotheses of `C89_kde`: two parameters, two clusters. -/
example : Spec.Weights [1 / 4, 3 / 4] ∧
    (∀ fs ∈ [[unif 0, unif 2], [unif 1, unif 5]], fs.length = [(1 : ℝ) / 4, 3 / 4].length) ∧
    ∀ fs ∈ [[unif 0, unif 2], [unif 1, unif 5]], ∀ f ∈ fs, Spec.IsDensity f := by
  refine ⟨⟨by intro w h; fin_cases h <;> norm_num, by norm_num⟩, by simp, ?_⟩
  intro fs h f hf
  fin_cases h <;> fin_cases hf <;> exact unif_density _

/-- Hypotheses of `C89_rv`. -/
example : ∀ sp ∈ [(⟨"uniform", []⟩ : RvSpec ℝ), ⟨"uniform", [("loc", 0)]⟩],
    Spec.IsDensity (unifPdfs.rv sp) := fun _ _ => unif_density 0

/-- Hypotheses of `C89_gmm`: two parameters, two clusters around `(0, 1)` and `(2, 5)`. -/
example : Spec.Weights [1 / 4, 3 / 4] ∧
    (∀ (j : Nat) (d : List ℝ → ℝ) (mu va : List ℝ),
      [fun r => unif 0 (r.getD 0 0) * unif 1 (r.getD 1 0),
        fun r => unif 2 (r.getD 0 0) * unif 5 (r.getD 1 0)][j]? = some d →
      [[(0 : ℝ), 1], [2, 5]][j]? = some mu → [[(1 : ℝ), 1], [1, 1]][j]? = some va → ∀ i : Fin 2,
        Spec.IsDensity (unifPdfs.norm (mu.getD i 0) (va.getD i 0)) ∧
        Spec.IsMarginal (fun x : Fin 2 → ℝ => d (List.ofFn x)) i
          (unifPdfs.norm (mu.getD i 0) (va.getD i 0))) := by
  refine ⟨⟨by intro w h; fin_cases h <;> norm_num, by norm_num⟩, ?_⟩
  intro j d mu va hd hm hv i
  refine ⟨unif_density _, ?_⟩
  match j, hd, hm, hv with
  | 0, hd, hm, hv =>
    obtain rfl := Option.some.inj hd
    obtain rfl := Option.some.inj hm
    have := marginal_prod ![unif 0, unif 1] (by intro i; fin_cases i <;> exact unif_density _) i
    fin_cases i <;> simpa [Fin.prod_univ_two, unifPdfs] using this
  | 1, hd, hm, hv =>
    obtain rfl := Option.some.inj hd
    obtain rfl := Option.some.inj hm
    have := marginal_prod ![unif 2, unif 5] (by intro i; fin_cases i <;> exact unif_density _) i
    fin_cases i <;> simpa [Fin.prod_univ_two, unifPdfs] using this

/-- Hypotheses of `C89_negation_kde`: two clusters that do not overlap. At `(1/2, 11/2)`, where neither
cluster has any mass, `pdf` is positive. -/
example : unif 0 (1 / 2) ≠ unif 2 (1 / 2) ∧ unif 1 (11 / 2) ≠ unif 5 (11 / 2) := by
  constructor <;> norm_num [unif, Set.indicator, Set.mem_Icc]

def qPdfs : Pdfs ℚ := ⟨fun _ x => x, fun m v x => m + v * x⟩

def box (a : ℚ) : ℚ → ℚ := fun x => if a ≤ x ∧ x ≤ a + 1 then 1 else 0

/-- Two clusters in two dimensions: the density at one point of each cluster and at one of neither. -/
example : (pdfOf qPdfs 2 (.kde [[box 0, box 2], [box 1, box 5]] [1 / 4, 3 / 4])
      (.mat 2 [[1 / 2, 3 / 2], [5 / 2, 11 / 2], [1 / 2, 11 / 2]])).toOption =
    some [1 / 16, 9 / 16, 3 / 16] := by decide +kernel

/-- Numbers for a measure in two dimensions are refused. -/
example : pdfOf qPdfs 2 (.kde [[box 0], [box 1]] [1]) (.vec [1 / 2]) = .error .dimNotMatching := rfl

/-- The marginal of a Gaussian mixture uses the entries of its parameter. -/
example : (marginalPdf qPdfs true (.gmm [] [[0, 1], [2, 5]] [[1, 2], [3, 4]] [1 / 4, 3 / 4])
    (.mat 2 [[10, 20], [30, 40]]) 1).toOption = some [74, 144] := by decide +kernel

end Ex

end BET
