import Verif.Props.PlotMarginals1D

/-!
# C98: plots of two-dimensional marginals
-/

set_option autoImplicit false
set_option linter.unusedSectionVars false
set_option linter.unusedSimpArgs false

namespace BET

open Spec

section
variable {K : Type} [Field K] [LinearOrder K]

/-! ## Specification -/

/-- `imshow(data, extent=…, origin='lower')` shows the value `v` in the point `(x, y)`: the rectangle is
divided into equal pixels, one for each entry of the matrix; columns go from left to right and rows go up. -/
def Spec.ShowsAt (p : MargImage K) (x y v : K) : Prop :=
  ∃ (r c : Nat) (row : List K), p.data[r]? = some row ∧ row[c]? = some v ∧
    InCell p.extent.1.1 p.extent.1.2 row.length c x ∧ InCell p.extent.2.1 p.extent.2.2 p.data.length r y

/-- `contour(data, extent=…, origin='lower')` takes `v` for the value in the point `(x, y)`: entries belong
to the centres of the pixels. -/
def Spec.ContourAt (p : MargImage K) (x y v : K) : Prop :=
  ∃ (r c : Nat) (row : List K), p.data[r]? = some row ∧ row[c]? = some v ∧
    x = p.extent.1.1 + ((c : K) + 1 / 2) * ((p.extent.1.2 - p.extent.1.1) / (row.length : K)) ∧
    y = p.extent.2.1 + ((r : K) + 1 / 2) * ((p.extent.2.2 - p.extent.2.1) / (p.data.length : K))

/-- `plot_surface` has a node over the point `(x, y)` at height `z`. -/
def Spec.NodeAt (p : MargSurface K) (x y z : K) : Prop :=
  ∃ (k l : Nat) (rx ry rz : List K), p.x[k]? = some rx ∧ p.y[k]? = some ry ∧ p.z[k]? = some rz ∧
    rx[l]? = some x ∧ ry[l]? = some y ∧ rz[l]? = some z

/-- Dimension `i` is `[a, b]` with `m` bins. -/
def Spec.Dim (dom : List (K × K)) (nb : List Nat) (i : Nat) (a b : K) (m : Nat) : Prop :=
  dom[i]? = some (a, b) ∧ nb[i]? = some m

/-- The mean density over a bin of the product grid. -/
def Spec.binDensity (dom : List (K × K)) (nb : List Nat) (vals : List (List K)) (probs : List K)
    (i j k l : Nat) (a b : K) (m : Nat) (c d : K) (n : Nat) : K :=
  massOf (fun v => InBin dom nb i k v ∧ InBin dom nb j l v) vals probs /
    ((b - a) / (m : K) * ((d - c) / (n : K)))

/-! ## Lemmas -/

/-- A matrix with `m` rows and `n` columns and entries `g k l`. -/
def Spec.MatIs (t : List (List K)) (m n : Nat) (g : Nat → Nat → K) : Prop :=
  t.length = m ∧ ∀ k, k < m → ∃ row, t[k]? = some row ∧ row.length = n ∧ ∀ l, l < n → row[l]? = some (g k l)

theorem matIs_iff {t : List (List K)} {m n : Nat} {g : Nat → Nat → K} :
    MatIs t m n g ↔ t = (List.range m).map fun k => (List.range n).map fun l => g k l := by
  constructor
  · rintro ⟨h1, h2⟩
    refine List.ext_getElem? fun k => ?_
    by_cases hk : k < m
    · obtain ⟨row, hr, hl, hrow⟩ := h2 k hk
      rw [hr]
      simp only [List.getElem?_map, List.getElem?_range hk, Option.map_some, Option.some.injEq]
      refine List.ext_getElem? fun l => ?_
      by_cases hl' : l < n
      · rw [hrow l hl']; simp [hl']
      · rw [List.getElem?_eq_none (by omega), List.getElem?_eq_none (by simp; omega)]
    · rw [List.getElem?_eq_none (by omega), List.getElem?_eq_none (by simp; omega)]
  · rintro rfl
    refine ⟨by simp, fun k hk => ⟨(List.range n).map fun l => g k l, by simp [hk], by simp, fun l hl => by
      simp [hl]⟩⟩

theorem transposed_eq {t : List (List K)} {m n : Nat} (hm : 0 < m) {g : Nat → Nat → K}
    (h : MatIs t m n g) : transposed t = (List.range n).map fun l => (List.range m).map fun k => g k l := by
  rw [matIs_iff] at h
  have hh : (t.headD []).length = n := by
    obtain ⟨m', rfl⟩ : ∃ m', m = m' + 1 := ⟨m - 1, by omega⟩
    rw [h, List.range_succ_eq_map]
    simp
  unfold transposed
  rw [hh]
  refine List.map_congr_left fun l hl => ?_
  rw [List.mem_range] at hl
  rw [h, List.map_map]
  refine List.map_congr_left fun k _ => ?_
  simp [hl]

section ordered
variable [IsStrictOrderedRing K]

theorem margImage_ok {dom : List (K × K)} {nb : List Nat} {bins : List (List K)} (hE : Edges dom nb bins)
    (hlt : ∀ r ∈ dom, r.1 < r.2) (hpos : ∀ n ∈ nb, 0 < n) {i j m n : Nat} {a b c d : K}
    (hi : Dim dom nb i a b m) (hj : Dim dom nb j c d n) {t : List (List K)} {g : Nat → Nat → K}
    (ht : MatIs t m n g) :
    ∃ im top, margImage bins ((i, j), t) = .ok im ∧ npMax t.flatten = .ok top ∧
      im.1 = ((List.range n).map fun l => (List.range m).map fun k =>
        g k l / ((b - a) / (m : K) * ((d - c) / (n : K)))) ∧
      im.2 = top / ((b - a) / (m : K) * ((d - c) / (n : K))) := by
  have hm := hpos m (List.mem_of_getElem? hi.2)
  have hn := hpos n (List.mem_of_getElem? hj.2)
  have h1 := binWidth_ok hE hi.1 (hlt _ (List.mem_of_getElem? hi.1)) hi.2 hm
  have h2 := binWidth_ok hE hj.1 (hlt _ (List.mem_of_getElem? hj.1)) hj.2 hn
  obtain ⟨top, htop⟩ := npMax_exists (l := t.flatten) (by
    obtain ⟨row, hr, hl, -⟩ := ht.2 0 hm
    intro h0
    have := List.flatten_eq_nil_iff.mp h0 row (List.mem_of_getElem? hr)
    rw [this] at hl
    simp at hl
    omega)
  refine ⟨((transposed t).map fun row => row.map fun p => p / ((b - a) / (m : K) * ((d - c) / (n : K))),
    top / ((b - a) / (m : K) * ((d - c) / (n : K)))), top, ?_, htop, ?_, rfl⟩
  · simp only [margImage, h1, h2, htop, ok_bind]
    rfl
  · simp only [transposed_eq hm ht, List.map_map]
    refine List.map_congr_left fun l _ => ?_
    simp

end ordered

theorem refMark2_ok {ref : Option (List K)} {i j : Nat}
    (h : ∀ x, ref = some x → i < x.length ∧ j < x.length) :
    refMark2 ref i j = .ok (ref.bind fun x => x[i]?.bind fun u => x[j]?.map fun v => (u, v)) := by
  cases ref with
  | none => rfl
  | some x =>
    obtain ⟨h1, h2⟩ := h x rfl
    simp [refMark2, getIdx, h1, h2, ok_bind, pure, Except.pure]

section ordered
variable [IsStrictOrderedRing K]

/-- What an image made of a matrix shows. -/
theorem showsAt_iff {p : MargImage K} {m n : Nat} {g : Nat → Nat → K} {a b c d : K}
    (hd : p.data = (List.range n).map fun l => (List.range m).map fun k => g k l)
    (he : p.extent = ((a, b), (c, d))) (x y v : K) :
    ShowsAt p x y v ↔ ∃ k l, k < m ∧ l < n ∧ InCell a b m k x ∧ InCell c d n l y ∧ v = g k l := by
  unfold ShowsAt
  rw [hd, he]
  simp only [List.getElem?_map, List.length_map, List.length_range]
  constructor
  · rintro ⟨r, q, row, h1, h2, h3, h4⟩
    by_cases hr : r < n
    · rw [List.getElem?_range hr] at h1
      cases h1
      by_cases hq : q < m
      · simp only [List.getElem?_map, List.getElem?_range hq, Option.map_some, Option.some.injEq] at h2
        simp only [List.length_map, List.length_range] at h3
        exact ⟨q, r, hq, hr, h3, h4, h2.symm⟩
      · rw [List.getElem?_eq_none (by simp; omega)] at h2
        cases h2
    · rw [List.getElem?_eq_none (by simp; omega)] at h1
      cases h1
  · rintro ⟨k, l, hk, hl, h1, h2, rfl⟩
    refine ⟨l, k, (List.range m).map fun k => g k l, by simp [hl], by simp [hk], ?_, h2⟩
    simpa using h1

theorem contourAt_iff {p : MargImage K} {m n : Nat} {g : Nat → Nat → K} {a b c d : K}
    (hd : p.data = (List.range n).map fun l => (List.range m).map fun k => g k l)
    (he : p.extent = ((a, b), (c, d))) (x y v : K) :
    ContourAt p x y v ↔ ∃ k l : Nat, k < m ∧ l < n ∧ x = a + ((k : K) + 1 / 2) * ((b - a) / (m : K)) ∧
      y = c + ((l : K) + 1 / 2) * ((d - c) / (n : K)) ∧ v = g k l := by
  unfold ContourAt
  rw [hd, he]
  simp only [List.getElem?_map, List.length_map, List.length_range]
  constructor
  · rintro ⟨r, q, row, h1, h2, h3, h4⟩
    by_cases hr : r < n
    · rw [List.getElem?_range hr] at h1
      cases h1
      by_cases hq : q < m
      · simp only [List.getElem?_map, List.getElem?_range hq, Option.map_some, Option.some.injEq] at h2
        simp only [List.length_map, List.length_range] at h3
        exact ⟨q, r, hq, hr, h3, h4, h2.symm⟩
      · rw [List.getElem?_eq_none (by simp; omega)] at h2
        cases h2
    · rw [List.getElem?_eq_none (by simp; omega)] at h1
      cases h1
  · rintro ⟨k, l, hk, hl, h1, h2, rfl⟩
    refine ⟨l, k, (List.range m).map fun k => g k l, by simp [hl], by simp [hk], ?_, h2⟩
    simpa using h1

/-- The largest entry of a matrix bounds the others. -/
theorem entry_le_top {t : List (List K)} {m n : Nat} {g : Nat → Nat → K} (ht : MatIs t m n g) {top : K}
    (htop : npMax t.flatten = .ok top) {k l : Nat} (hk : k < m) (hl : l < n) : g k l ≤ top := by
  obtain ⟨row, hr, -, hrow⟩ := ht.2 k hk
  exact (npMax_isGreatest htop).2
    (List.mem_flatten.mpr ⟨row, List.mem_of_getElem? hr, List.mem_of_getElem? (hrow l hl)⟩)

/-- A result of `mapM` for every item. -/
theorem mapM_mem_of {α β : Type} {f : α → Except Err β} {l : List α} {r : List β} (h : l.mapM f = .ok r)
    {x : α} (hx : x ∈ l) {y : β} (hy : f x = .ok y) : y ∈ r := by
  have hF := (mapM_eq_ok _ _ _).mp h
  clear h
  induction hF with
  | nil => cases hx
  | cons h1 _ ih =>
    rcases List.mem_cons.mp hx with rfl | hx
    · rw [hy] at h1
      cases h1
      exact List.mem_cons_self
    · exact List.mem_cons_of_mem _ (ih hx)

theorem mem_sortPairs {α : Type} {l : List ((Nat × Nat) × α)} {x : (Nat × Nat) × α} :
    x ∈ sortPairs l ↔ x ∈ l := (List.perm_insertionSort _ l).mem_iff

theorem binCenters_linspace {dom : List (K × K)} {nb : List Nat} {bins : List (List K)}
    (hE : Edges dom nb bins) {i m : Nat} {a b : K} (hi : Dim dom nb i a b m) :
    ∃ e, bins[i]? = some e ∧ binCenters e =
      (List.range m).map fun (k : Nat) => a + ((k : K) + 1 / 2) * ((b - a) / (m : K)) := by
  obtain ⟨e, m', he, hm', hlen, hk⟩ := hE.2 i a b hi.1
  rw [hi.2] at hm'
  cases hm'
  refine ⟨e, he, ?_⟩
  refine List.ext_getElem? fun k => ?_
  by_cases hkm : k < m
  · have h1 : e.dropLast[k]? = some (a + (k : K) * ((b - a) / (m : K))) := by
      rw [List.getElem?_dropLast, if_pos (by omega)]
      exact hk k (by omega)
    have h2 : e.tail[k]? = some (a + ((k + 1 : Nat) : K) * ((b - a) / (m : K))) := by
      rw [List.getElem?_tail]
      exact hk (k + 1) (by omega)
    simp only [binCenters, List.getElem?_zipWith, h1, h2, List.getElem?_map, List.getElem?_range hkm,
      Option.map_some]
    congr 1
    push_cast
    ring
  · rw [List.getElem?_eq_none (by simp [binCenters]; omega), List.getElem?_eq_none (by simp; omega)]

/-- The items of the dictionary. -/
theorem joint_items {o : PostObj K} {s : SampleSet K} {vals : List (List K)} {probs : List K}
    {dom : List (K × K)} {nb : List Nat} {nbins : NBins} (h : Histo o s vals probs dom nb nbins)
    (hdim : 2 ≤ s.dim) {size : Nat} (hs : 0 < size) {r : Marginals K ((Nat × Nat) × List (List K))}
    (hr : calculate2D size nbins o = .ok r) :
    Edges dom nb r.bins ∧ (r.margs.map Prod.fst).Nodup ∧
      (∀ q ∈ r.margs, ∃ a b m c d n, Dim dom nb q.1.1 a b m ∧ Dim dom nb q.1.2 c d n ∧
        q.1.1 < s.dim ∧ q.1.2 < s.dim ∧ MatIs q.2 m n fun k l =>
          massOf (fun v => InBin dom nb q.1.1 k v ∧ InBin dom nb q.1.2 l v) vals probs) ∧
      ∀ i j, i < j → j < s.dim → ∃ t, ((i, j), t) ∈ r.margs := by
  obtain ⟨r', hr', -, -, hE, hnd, hmem, htab⟩ := C61_joint h hdim hs
  rw [hr] at hr'
  cases hr'
  refine ⟨hE, hnd, ?_, ?_⟩
  · rintro ⟨⟨i, j⟩, t⟩ hq
    obtain ⟨hij, hj⟩ := (hmem i j).mp (List.mem_map_of_mem (f := Prod.fst) hq)
    have hi : i < s.dim := by omega
    have entry : ∀ i, i < s.dim → ∃ (a b : K) (n : Nat), Dim dom nb i a b n := by
      intro i hi
      exact ⟨(dom[i]'(by rw [h.dims]; exact hi)).1, (dom[i]'(by rw [h.dims]; exact hi)).2,
        nb[i]'(by rw [h.numBins]; exact hi), by simp [h.dims, hi], by simp [h.numBins, hi]⟩
    obtain ⟨a, b, m, h1⟩ := entry i hi
    obtain ⟨c, d, n, h2⟩ := entry j hj
    exact ⟨a, b, m, c, d, n, h1, h2, hi, hj, htab i j t hq m n h1.2 h2.2⟩
  · intro i j hij hj
    have := (hmem i j).mpr ⟨hij, hj⟩
    obtain ⟨⟨q, t⟩, hq, hqe⟩ := List.mem_map.mp this
    cases hqe
    exact ⟨t, hq⟩

end ordered

variable [IsStrictOrderedRing K]

theorem margFigure2_ok {dom : List (K × K)} {nb : List Nat} {bins : List (List K)}
    (hE : Edges dom nb bins) (hlt : ∀ r ∈ dom, r.1 < r.2) (hpos : ∀ n ∈ nb, 0 < n) {t : SampleSet K}
    (ht : t.domain = some dom) {i j m n : Nat} {a b c d : K} (hi : Dim dom nb i a b m)
    (hj : Dim dom nb j c d n) {q : List (List K)} {g : Nat → Nat → K} (hq : MatIs q m n g)
    {ref : Option (List K)} (href : ∀ x, ref = some x → i < x.length ∧ j < x.length)
    {labels : Option (List String)} (hlab : ∀ l, labels = some l → i < l.length ∧ j < l.length)
    (f e : String) :
    ∃ p top, margFigure2 t bins ref labels f e ((i, j), q) = .ok p ∧ npMax q.flatten = .ok top ∧
      p.data = ((List.range n).map fun l => (List.range m).map fun k =>
        g k l / ((b - a) / (m : K) * ((d - c) / (n : K)))) ∧
      p.extent = ((a, b), (c, d)) ∧ p.axis = ((a, b), (c, d)) ∧
      p.vmax = top / ((b - a) / (m : K) * ((d - c) / (n : K))) ∧
      p.ref = (ref.bind fun x => x[i]?.bind fun u => x[j]?.map fun v => (u, v)) ∧
      (labels = none → p.labels =
        ("$\\lambda_{" ++ toString (i + 1) ++ "}$", "$\\lambda_{" ++ toString (j + 1) ++ "}$")) ∧
      (∀ l, labels = some l → l[i]? = some p.labels.1 ∧ l[j]? = some p.labels.2) ∧
      p.file = f ++ "_2D_" ++ toString i ++ "_" ++ toString j ++ e := by
  obtain ⟨im, top, him, htop, hd, hv⟩ := margImage_ok hE hlt hpos hi hj hq
  obtain ⟨l1, hl1, hl1n, hl1s⟩ := axisLabel_ok fun l hl => (hlab l hl).1
  obtain ⟨l2, hl2, hl2n, hl2s⟩ := axisLabel_ok fun l hl => (hlab l hl).2
  refine ⟨⟨im.1, ((a, b), (c, d)), im.2, ((a, b), (c, d)), [],
    ref.bind fun x => x[i]?.bind fun u => x[j]?.map fun v => (u, v), (l1, l2),
    f ++ "_2D_" ++ toString i ++ "_" ++ toString j ++ e⟩, top, ?_, htop, hd, rfl, rfl, hv, rfl, ?_, ?_, rfl⟩
  · simp only [margFigure2, him, domainRow_ok ht hi.1, domainRow_ok ht hj.1, refMark2_ok href, hl1, hl2, ok_bind]
    rfl
  · intro hn
    rw [hl1n hn, hl2n hn]
  · intro l hl
    exact ⟨hl1s l hl, hl2s l hl⟩

theorem margSurface_ok {dom : List (K × K)} {nb : List Nat} {bins : List (List K)}
    (hE : Edges dom nb bins) {i j m n : Nat} {a b c d : K} (hi : Dim dom nb i a b m)
    (hj : Dim dom nb j c d n) {q : List (List K)} {g : Nat → Nat → K} (hq : MatIs q m n g) (f e : String) :
    ∃ p, margSurface bins f e ((i, j), q) = .ok p ∧
      p.x = ((List.range m).map fun (k : Nat) => (List.range n).map fun _ =>
        a + ((k : K) + 1 / 2) * ((b - a) / (m : K))) ∧
      p.y = ((List.range m).map fun (_ : Nat) => (List.range n).map fun (l : Nat) =>
        c + ((l : K) + 1 / 2) * ((d - c) / (n : K))) ∧
      p.z = q ∧ p.file = f ++ "_surf_" ++ toString i ++ "_" ++ toString j ++ e := by
  obtain ⟨e1, he1, hc1⟩ := binCenters_linspace hE hi
  obtain ⟨e2, he2, hc2⟩ := binCenters_linspace hE hj
  have hshape : q.map List.length = (binCenters e1).map fun _ => (binCenters e2).length := by
    rw [matIs_iff.mp hq, hc1, hc2]
    simp [List.map_map, Function.comp_def]
  have g1 : getIdx bins i = .ok e1 := (getIdx_eq_ok _ _ _).mpr he1
  have g2 : getIdx bins j = .ok e2 := (getIdx_eq_ok _ _ _).mpr he2
  refine ⟨⟨(binCenters e1).map fun x => (binCenters e2).map fun _ => x,
    (binCenters e1).map fun _ => binCenters e2, q,
    ("$\\lambda_{" ++ toString (i + 1) ++ "}$", "$\\lambda_{" ++ toString (j + 1) ++ "}$"),
    f ++ "_surf_" ++ toString i ++ "_" ++ toString j ++ e⟩, ?_, ?_, ?_, rfl, rfl⟩
  · simp only [margSurface, g1, g2, ok_bind, hshape, ne_eq, not_true_eq_false, decide_false]
    rfl
  · simp only [hc1, hc2, List.map_map]
    rfl
  · simp only [hc1, hc2, List.map_map]
    rfl

/-! ## Theorems -/

/-- C98: `plot_2D_marginal_probs`, applied to what `calculate_2D_marginal_probs` returns, makes one image for
each pair of dimensions.  In a point `(x, y)` it shows the mean density of the probability over the bin that
contains the point, and there is exactly one such value for every point of the domain.  The colours reach up
to the largest of these values.  With `plot_surface` there is also one surface for each pair; over the centre
of each bin its height is the probability of that bin. -/
theorem C98_image {o : PostObj K} {s : SampleSet K} {vals : List (List K)} {probs : List K}
    {dom : List (K × K)} {nb : List Nat} {nbins : NBins} (h : Histo o s vals probs dom nb nbins)
    (hdim : 2 ≤ s.dim) {size : Nat} (hs : 0 < size) {r : Marginals K ((Nat × Nat) × List (List K))}
    (hr : calculate2D size nbins o = .ok r)
    {o' : PostObj K} {t : SampleSet K} (ho : AxesOf o' t) (ht : t.domain = some dom)
    {lamRef : Option (List K)} (href : RefOk s.dim lamRef t) {labels : Option (List String)}
    (hlab : LabelsOk s.dim labels) (surface : Bool) (f e : String) :
    ∃ ims surfs, plot2DMarginals r.margs r.bins o' lamRef surface labels f e = .ok (ims, surfs) ∧
      ims.length = r.margs.length ∧ surfs.length = (if surface then r.margs.length else 0) ∧
      ∀ (i j : Nat), i < j → j < s.dim → ∀ (a b : K) (m : Nat) (c d : K) (n : Nat), Dim dom nb i a b m →
        Dim dom nb j c d n →
        (∃ p ∈ ims, p.file = f ++ "_2D_" ++ toString i ++ "_" ++ toString j ++ e ∧
          p.axis = ((a, b), (c, d)) ∧
          (∀ x y v, ShowsAt p x y v ↔ ∃ k l, k < m ∧ l < n ∧ InCell a b m k x ∧ InCell c d n l y ∧
            v = binDensity dom nb vals probs i j k l a b m c d n) ∧
          (∀ x y, a ≤ x ∧ x ≤ b → c ≤ y ∧ y ≤ d → ∃! v, ShowsAt p x y v) ∧
          (∀ x y v, ShowsAt p x y v → v ≤ p.vmax) ∧
          p.ref = ((lamRef.or t.referenceValue).bind fun x =>
            x[i]?.bind fun u => x[j]?.map fun v => (u, v)) ∧
          (labels = none → p.labels =
            ("$\\lambda_{" ++ toString (i + 1) ++ "}$", "$\\lambda_{" ++ toString (j + 1) ++ "}$")) ∧
          (∀ l, labels = some l → l[i]? = some p.labels.1 ∧ l[j]? = some p.labels.2)) ∧
        (surface = true → ∃ p ∈ surfs, p.file = f ++ "_surf_" ++ toString i ++ "_" ++ toString j ++ e ∧
          ∀ x y z, NodeAt p x y z ↔ ∃ k l : Nat, k < m ∧ l < n ∧
            x = a + ((k : K) + 1 / 2) * ((b - a) / (m : K)) ∧
            y = c + ((l : K) + 1 / 2) * ((d - c) / (n : K)) ∧
            z = massOf (fun v => InBin dom nb i k v ∧ InBin dom nb j l v) vals probs) := by
  obtain ⟨hE, hnd, hitems, hmem⟩ := joint_items h hdim hs hr
  have hfig : ∀ q ∈ r.margs, ∀ a b m c d n, Dim dom nb q.1.1 a b m → Dim dom nb q.1.2 c d n →
      MatIs q.2 m n (fun k l => massOf (fun v => InBin dom nb q.1.1 k v ∧ InBin dom nb q.1.2 l v) vals probs) →
      q.1.1 < s.dim → q.1.2 < s.dim → _ := fun q _ a b m c d n h1 h2 h3 h4 h5 =>
    margFigure2_ok hE h.lo_lt_hi h.pos ht h1 h2 h3
      (ref := refPoint lamRef t.referenceValue)
      (fun x hx => ⟨lt_of_lt_of_le h4 (href x hx), lt_of_lt_of_le h5 (href x hx)⟩)
      (labels := labels) (fun l hl => ⟨lt_of_lt_of_le h4 (hlab l hl), lt_of_lt_of_le h5 (hlab l hl)⟩) f e
  obtain ⟨ims, hims⟩ := mapM_total
    (f := margFigure2 t r.bins (refPoint lamRef t.referenceValue) labels f e) (l := sortPairs r.margs) (by
      intro q hq
      have hq := mem_sortPairs.mp hq
      obtain ⟨a, b, m, c, d, n, h1, h2, h4, h5, h3⟩ := hitems q hq
      obtain ⟨p, top, hp, -⟩ := hfig q hq a b m c d n h1 h2 h3 h4 h5
      exact ⟨p, hp⟩)
  obtain ⟨surfs, hsurfs⟩ := mapM_total
    (f := margSurface r.bins f e) (l := if surface then sortPairs r.margs else []) (by
      intro q hq
      have hq : q ∈ r.margs := by
        cases surface with
        | false => cases hq
        | true => exact mem_sortPairs.mp hq
      obtain ⟨a, b, m, c, d, n, h1, h2, h4, h5, h3⟩ := hitems q hq
      obtain ⟨p, hp, -⟩ := margSurface_ok hE h1 h2 h3 f e
      exact ⟨p, hp⟩)
  have hlen : (sortPairs r.margs).length = r.margs.length := (List.perm_insertionSort _ _).length_eq
  refine ⟨ims, surfs, ?_, ?_, ?_, ?_⟩
  · simp only [plot2DMarginals, axesSet_ok ho, ok_bind, hims, hsurfs]
    rfl
  · rw [← ((mapM_eq_ok _ _ _).mp hims).length_eq, hlen]
  · rw [← ((mapM_eq_ok _ _ _).mp hsurfs).length_eq]
    cases surface
    · rfl
    · exact hlen
  intro i j hij hj a b m c d n hI hJ
  obtain ⟨q, hq⟩ := hmem i j hij hj
  obtain ⟨a', b', m', c', d', n', hI', hJ', h4, h5, h3⟩ := hitems _ hq
  have e1 : (a, b) = (a', b') := by have := hI.1; rw [hI'.1] at this; exact (Option.some.inj this).symm
  have e2 : m = m' := by have := hI.2; rw [hI'.2] at this; exact (Option.some.inj this).symm
  have e3 : (c, d) = (c', d') := by have := hJ.1; rw [hJ'.1] at this; exact (Option.some.inj this).symm
  have e4 : n = n' := by have := hJ.2; rw [hJ'.2] at this; exact (Option.some.inj this).symm
  cases e1
  cases e2
  cases e3
  cases e4
  have hmpos := h.pos m (List.mem_of_getElem? hI.2)
  have hnpos := h.pos n (List.mem_of_getElem? hJ.2)
  have hab : a < b := h.lo_lt_hi _ (List.mem_of_getElem? hI.1)
  have hcd : c < d := h.lo_lt_hi _ (List.mem_of_getElem? hJ.1)
  constructor
  · obtain ⟨p, top, hp, htop, hdata, hext, haxis, hvmax, hrf, hl1, hl2, hfile⟩ :=
      hfig _ hq a b m c d n hI hJ h3 h4 h5
    have hsh := showsAt_iff hdata hext
    refine ⟨p, mapM_mem_of hims (mem_sortPairs.mpr hq) hp, hfile, haxis, hsh, ?_, ?_, hrf, hl1, hl2⟩
    · intro x y hx hy
      obtain ⟨k, ⟨hk, hkx⟩, hku⟩ := C61_one_bin hab hmpos hx
      obtain ⟨l, ⟨hl, hly⟩, hlu⟩ := C61_one_bin hcd hnpos hy
      refine ⟨_, (hsh x y _).mpr ⟨k, l, hk, hl, hkx, hly, rfl⟩, ?_⟩
      intro v hv
      obtain ⟨k', l', hk', hl', hkx', hly', rfl⟩ := (hsh x y v).mp hv
      rw [hku k' ⟨hk', hkx'⟩, hlu l' ⟨hl', hly'⟩]
    · intro x y v hv
      obtain ⟨k, l, hk, hl, -, -, rfl⟩ := (hsh x y v).mp hv
      rw [hvmax]
      have hm0 : (0 : K) < (m : K) := by exact_mod_cast hmpos
      have hn0 : (0 : K) < (n : K) := by exact_mod_cast hnpos
      exact div_le_div_of_nonneg_right (entry_le_top h3 htop hk hl)
        (mul_pos (div_pos (sub_pos.mpr hab) hm0) (div_pos (sub_pos.mpr hcd) hn0)).le
  · rintro rfl
    obtain ⟨p, hp, hx, hy, hz, hfile⟩ := margSurface_ok hE hI hJ h3 f e
    refine ⟨p, mapM_mem_of hsurfs (mem_sortPairs.mpr hq) hp, hfile, ?_⟩
    intro x y z
    unfold NodeAt
    rw [hx, hy, hz, matIs_iff.mp h3]
    constructor
    · rintro ⟨k, l, rx, ry, rz, h1, h2, h3, h4, h5, h6⟩
      by_cases hk : k < m
      · simp only [List.getElem?_map, List.getElem?_range hk, Option.map_some, Option.some.injEq] at h1 h2 h3
        subst h1 h2 h3
        by_cases hl : l < n
        · simp only [List.getElem?_map, List.getElem?_range hl, Option.map_some, Option.some.injEq] at h4 h5 h6
          exact ⟨k, l, hk, hl, h4.symm, h5.symm, h6.symm⟩
        · rw [List.getElem?_eq_none (by simp; omega)] at h4
          cases h4
      · rw [List.getElem?_eq_none (by simp; omega)] at h1
        cases h1
    · rintro ⟨k, l, hk, hl, rfl, rfl, rfl⟩
      exact ⟨k, l, _, _, _, by simp [hk]; rfl, by simp [hk]; rfl, by simp [hk]; rfl, by simp [hl], by simp [hl],
        by simp [hl]⟩

/-- C98: the mean densities times the areas of the bins sum to the total probability, if the samples lie in
the domain along both axes. -/
theorem C98_mass {o : PostObj K} {s : SampleSet K} {vals : List (List K)} {probs : List K}
    {dom : List (K × K)} {nb : List Nat} {nbins : NBins} (h : Histo o s vals probs dom nb nbins)
    {i j : Nat} {a b : K} {m : Nat} {c d : K} {n : Nat} (hI : Dim dom nb i a b m) (hJ : Dim dom nb j c d n)
    (hdi : InDomain dom vals i) (hdj : InDomain dom vals j) :
    ((List.range m).map fun k => ((List.range n).map fun l =>
      binDensity dom nb vals probs i j k l a b m c d n * ((b - a) / (m : K) * ((d - c) / (n : K)))).sum).sum =
      probs.sum := by
  have hmpos := h.pos m (List.mem_of_getElem? hI.2)
  have hnpos := h.pos n (List.mem_of_getElem? hJ.2)
  have hab : a < b := h.lo_lt_hi _ (List.mem_of_getElem? hI.1)
  have hcd : c < d := h.lo_lt_hi _ (List.mem_of_getElem? hJ.1)
  have hm0 : (0 : K) < (m : K) := by exact_mod_cast hmpos
  have hn0 : (0 : K) < (n : K) := by exact_mod_cast hnpos
  have hne := (mul_pos (div_pos (sub_pos.mpr hab) hm0) (div_pos (sub_pos.mpr hcd) hn0)).ne'
  simp only [binDensity, div_mul_cancel₀ _ hne]
  rw [← massOf_true (samples_length h.samples),
    ← massOf_partition (B := fun _ => True) probs (inBin_unique h hI.2 hdi)]
  congr 1
  refine List.map_congr_left fun k _ => ?_
  simp only [true_and]
  exact massOf_partition probs (inBin_unique h hJ.2 hdj)

theorem refMarks_ok {refs : Option (List (List K))} {i j : Nat}
    (h : ∀ L, refs = some L → ∀ x ∈ L, i < x.length ∧ j < x.length) :
    refMarks refs i j = .ok ((refs.getD []).map fun x => (x.getD i 0, x.getD j 0)) := by
  unfold refMarks
  refine mapM_ok _ _ _ fun x hx => ?_
  obtain ⟨h1, h2⟩ : i < x.length ∧ j < x.length := by
    cases refs with
    | none => cases hx
    | some L => exact h L rfl x hx
  simp [getIdx, h1, h2, ok_bind, pure, Except.pure]

theorem contourFigure_ok {dom : List (K × K)} {nb : List Nat} {bins : List (List K)}
    (hE : Edges dom nb bins) (hlt : ∀ r ∈ dom, r.1 < r.2) (hpos : ∀ n ∈ nb, 0 < n) {t : SampleSet K}
    (ht : t.domain = some dom) {i j m n : Nat} {a b c d : K} (hi : Dim dom nb i a b m)
    (hj : Dim dom nb j c d n) {q : List (List K)} {g : Nat → Nat → K} (hq : MatIs q m n g)
    {refs : Option (List (List K))} (hrefs : ∀ L, refs = some L → ∀ x ∈ L, i < x.length ∧ j < x.length)
    {ref : Option (List K)} (href : ∀ x, ref = some x → i < x.length ∧ j < x.length)
    {pd : Option (List (K × K))} (hpd : ∀ P, pd = some P → i < P.length ∧ j < P.length)
    {labels : Option (List String)} (hlab : ∀ l, labels = some l → i < l.length ∧ j < l.length)
    (f e : String) :
    ∃ p, contourFigure t bins refs ref pd labels f e ((i, j), q) = .ok p ∧
      p.data = ((List.range n).map fun l => (List.range m).map fun k =>
        g k l / ((b - a) / (m : K) * ((d - c) / (n : K)))) ∧
      p.extent = ((a, b), (c, d)) ∧ (pd = none → p.axis = ((a, b), (c, d))) ∧
      (∀ P, pd = some P → P[i]? = some p.axis.1 ∧ P[j]? = some p.axis.2) ∧
      p.refs = ((refs.getD []).map fun x => (x.getD i 0, x.getD j 0)) ∧
      p.ref = (ref.bind fun x => x[i]?.bind fun u => x[j]?.map fun v => (u, v)) ∧
      (labels = none → p.labels =
        ("$\\lambda_{" ++ toString (i + 1) ++ "}$", "$\\lambda_{" ++ toString (j + 1) ++ "}$")) ∧
      (∀ l, labels = some l → l[i]? = some p.labels.1 ∧ l[j]? = some p.labels.2) ∧
      p.file = f ++ "_2D_contours_" ++ toString i ++ "_" ++ toString j ++ e := by
  obtain ⟨im, top, him, htop, hd, hv⟩ := margImage_ok hE hlt hpos hi hj hq
  obtain ⟨l1, hl1, hl1n, hl1s⟩ := axisLabel_ok fun l hl => (hlab l hl).1
  obtain ⟨l2, hl2, hl2n, hl2s⟩ := axisLabel_ok fun l hl => (hlab l hl).2
  have hax : ∀ (u : Nat) (z : K × K), (∀ P, pd = some P → u < P.length) → ∃ v, contourAxis pd z u = .ok v ∧
      (pd = none → v = z) ∧ (∀ P, pd = some P → P[u]? = some v) := by
    intro u z hu
    cases pd with
    | none => exact ⟨z, rfl, fun _ => rfl, by simp⟩
    | some P =>
      have := hu P rfl
      exact ⟨P[u], by simp [contourAxis, getIdx, this], by simp, by rintro _ ⟨⟩; simp [this]⟩
  obtain ⟨a1, ha1, ha1n, ha1s⟩ := hax i (a, b) fun P hP => (hpd P hP).1
  obtain ⟨a2, ha2, ha2n, ha2s⟩ := hax j (c, d) fun P hP => (hpd P hP).2
  refine ⟨⟨im.1, ((a, b), (c, d)), im.2, (a1, a2), (refs.getD []).map fun x => (x.getD i 0, x.getD j 0),
    ref.bind fun x => x[i]?.bind fun u => x[j]?.map fun v => (u, v), (l1, l2),
    f ++ "_2D_contours_" ++ toString i ++ "_" ++ toString j ++ e⟩, ?_, hd, rfl, ?_, ?_, rfl, rfl, ?_, ?_, rfl⟩
  · simp only [contourFigure, him, domainRow_ok ht hi.1, domainRow_ok ht hj.1, refMark2_ok href,
      refMarks_ok hrefs, hl1, hl2, ha1, ha2, ok_bind]
    rfl
  · intro hn
    rw [ha1n hn, ha2n hn]
  · intro P hP
    exact ⟨ha1s P hP, ha2s P hP⟩
  · intro hn
    rw [hl1n hn, hl2n hn]
  · intro l hl
    exact ⟨hl1s l hl, hl2s l hl⟩

/-- C98: `plot_2D_marginal_contours` makes one figure of contours for each pair of dimensions, of the function
which takes the mean density over each bin as its value in the centre of the bin; it marks the reference values
and is restricted to `plot_domain`. -/
theorem C98_contours {o : PostObj K} {s : SampleSet K} {vals : List (List K)} {probs : List K}
    {dom : List (K × K)} {nb : List Nat} {nbins : NBins} (h : Histo o s vals probs dom nb nbins)
    (hdim : 2 ≤ s.dim) {size : Nat} (hs : 0 < size) {r : Marginals K ((Nat × Nat) × List (List K))}
    (hr : calculate2D size nbins o = .ok r)
    {o' : PostObj K} {t : SampleSet K} (ho : AxesOf o' t) (ht : t.domain = some dom)
    {lamRef : Option (List K)} (href : RefOk s.dim lamRef t) {lamRefs : Option (List (List K))}
    (hrefs : ∀ L, lamRefs = some L → ∀ x ∈ L, s.dim ≤ x.length)
    {pd : Option (List (K × K))} (hpd : ∀ P, pd = some P → s.dim ≤ P.length)
    {labels : Option (List String)} (hlab : LabelsOk s.dim labels) (f e : String) :
    ∃ ps, plotContours r.margs r.bins o' lamRef lamRefs pd labels f e = .ok ps ∧
      ps.length = r.margs.length ∧
      ∀ (i j : Nat), i < j → j < s.dim → ∀ (a b : K) (m : Nat) (c d : K) (n : Nat), Dim dom nb i a b m →
        Dim dom nb j c d n →
        ∃ p ∈ ps, p.file = f ++ "_2D_contours_" ++ toString i ++ "_" ++ toString j ++ e ∧
          (∀ x y v, ContourAt p x y v ↔ ∃ k l : Nat, k < m ∧ l < n ∧
            x = a + ((k : K) + 1 / 2) * ((b - a) / (m : K)) ∧
            y = c + ((l : K) + 1 / 2) * ((d - c) / (n : K)) ∧
            v = binDensity dom nb vals probs i j k l a b m c d n) ∧
          (pd = none → p.axis = ((a, b), (c, d))) ∧
          (∀ P, pd = some P → P[i]? = some p.axis.1 ∧ P[j]? = some p.axis.2) ∧
          p.refs = ((lamRefs.getD []).map fun x => (x.getD i 0, x.getD j 0)) ∧
          p.ref = ((lamRef.or t.referenceValue).bind fun x =>
            x[i]?.bind fun u => x[j]?.map fun v => (u, v)) ∧
          (labels = none → p.labels =
            ("$\\lambda_{" ++ toString (i + 1) ++ "}$", "$\\lambda_{" ++ toString (j + 1) ++ "}$")) ∧
          (∀ l, labels = some l → l[i]? = some p.labels.1 ∧ l[j]? = some p.labels.2) := by
  obtain ⟨hE, hnd, hitems, hmem⟩ := joint_items h hdim hs hr
  have hfig : ∀ q ∈ r.margs, ∀ a b m c d n, Dim dom nb q.1.1 a b m → Dim dom nb q.1.2 c d n →
      MatIs q.2 m n (fun k l => massOf (fun v => InBin dom nb q.1.1 k v ∧ InBin dom nb q.1.2 l v) vals probs) →
      q.1.1 < s.dim → q.1.2 < s.dim → _ := fun q _ a b m c d n h1 h2 h3 h4 h5 =>
    contourFigure_ok hE h.lo_lt_hi h.pos ht h1 h2 h3 (refs := lamRefs)
      (fun L hL x hx => ⟨lt_of_lt_of_le h4 (hrefs L hL x hx), lt_of_lt_of_le h5 (hrefs L hL x hx)⟩)
      (ref := refPoint lamRef t.referenceValue)
      (fun x hx => ⟨lt_of_lt_of_le h4 (href x hx), lt_of_lt_of_le h5 (href x hx)⟩) (pd := pd)
      (fun P hP => ⟨lt_of_lt_of_le h4 (hpd P hP), lt_of_lt_of_le h5 (hpd P hP)⟩)
      (labels := labels) (fun l hl => ⟨lt_of_lt_of_le h4 (hlab l hl), lt_of_lt_of_le h5 (hlab l hl)⟩) f e
  obtain ⟨ps, hps⟩ := mapM_total
    (f := contourFigure t r.bins lamRefs (refPoint lamRef t.referenceValue) pd labels f e)
    (l := sortPairs r.margs) (by
      intro q hq
      have hq := mem_sortPairs.mp hq
      obtain ⟨a, b, m, c, d, n, h1, h2, h4, h5, h3⟩ := hitems q hq
      obtain ⟨p, hp, -⟩ := hfig q hq a b m c d n h1 h2 h3 h4 h5
      exact ⟨p, hp⟩)
  have hlen : (sortPairs r.margs).length = r.margs.length := (List.perm_insertionSort _ _).length_eq
  refine ⟨ps, ?_, ?_, ?_⟩
  · simp only [plotContours, axesSet_ok ho, ok_bind, hps]
  · rw [← ((mapM_eq_ok _ _ _).mp hps).length_eq, hlen]
  intro i j hij hj a b m c d n hI hJ
  obtain ⟨q, hq⟩ := hmem i j hij hj
  obtain ⟨a', b', m', c', d', n', hI', hJ', h4, h5, h3⟩ := hitems _ hq
  have e1 : (a, b) = (a', b') := by have := hI.1; rw [hI'.1] at this; exact (Option.some.inj this).symm
  have e2 : m = m' := by have := hI.2; rw [hI'.2] at this; exact (Option.some.inj this).symm
  have e3 : (c, d) = (c', d') := by have := hJ.1; rw [hJ'.1] at this; exact (Option.some.inj this).symm
  have e4 : n = n' := by have := hJ.2; rw [hJ'.2] at this; exact (Option.some.inj this).symm
  cases e1
  cases e2
  cases e3
  cases e4
  obtain ⟨p, hp, hdata, hext, hax1, hax2, hrs, hrf, hl1, hl2, hfile⟩ :=
    hfig _ hq a b m c d n hI hJ h3 h4 h5
  exact ⟨p, mapM_mem_of hps (mem_sortPairs.mpr hq) hp, hfile, contourAt_iff hdata hext, hax1, hax2, hrs, hrf,
    hl1, hl2⟩

theorem nodup_names {α β : Type} {ms : List ((Nat × Nat) × α)} (hnd : (ms.map Prod.fst).Nodup)
    {g : (Nat × Nat) × α → Except Err β} {file : β → String} {pre e : String}
    (hfile : ∀ x y, g x = .ok y → file y = pre ++ toString x.1.1 ++ "_" ++ toString x.1.2 ++ e)
    {ps : List β} (h : (sortPairs ms).mapM g = .ok ps) : (ps.map file).Nodup := by
  rw [mapM_map_eq (g := file)
    (k := fun (item : (Nat × Nat) × α) => pre ++ toString item.1.1 ++ "_" ++ toString item.1.2 ++ e) hfile h]
  have hperm : (sortPairs ms).Perm ms := List.perm_insertionSort _ ms
  have hk : ((sortPairs ms).map Prod.fst).Nodup := (hperm.map Prod.fst).nodup_iff.mpr hnd
  have : (sortPairs ms).map (fun item => pre ++ toString item.1.1 ++ "_" ++ toString item.1.2 ++ e) =
      ((sortPairs ms).map Prod.fst).map
        (fun (q : Nat × Nat) => pre ++ toString q.1 ++ "_" ++ toString q.2 ++ e) := by
    rw [List.map_map]; rfl
  rw [this]
  refine List.Nodup.map (f := fun (q : Nat × Nat) => pre ++ toString q.1 ++ "_" ++ toString q.2 ++ e)
    (fun q q' (hqq : pre ++ toString q.1 ++ "_" ++ toString q.2 ++ e =
      pre ++ toString q'.1 ++ "_" ++ toString q'.2 ++ e) => ?_) hk
  obtain ⟨h1, h2⟩ := name2_injective (c := '_') (l := []) (by decide) (by decide) hqq
  exact Prod.ext h1 h2

/-- C98: no figure overwrites another figure of the same call. -/
theorem C98_files {ms : List ((Nat × Nat) × List (List K))} (hnd : (ms.map Prod.fst).Nodup)
    {bins : List (List K)} {o : PostObj K} {lamRef : Option (List K)} {labels : Option (List String)}
    {f e : String} :
    (∀ surface ims surfs, plot2DMarginals ms bins o lamRef surface labels f e = .ok (ims, surfs) →
      (ims.map MargImage.file).Nodup ∧ (surfs.map MargSurface.file).Nodup) ∧
    (∀ lamRefs pd ps, plotContours ms bins o lamRef lamRefs pd labels f e = .ok ps →
      (ps.map MargImage.file).Nodup) := by
  constructor
  · intro surface ims surfs h
    simp only [plot2DMarginals, bind_eq_ok] at h
    obtain ⟨s, -, ims', h1, surfs', h2, h3⟩ := h
    cases (pure_eq_ok _ _).mp h3
    constructor
    · refine nodup_names (pre := f ++ "_2D_") (e := e) hnd ?_ h1
      intro x y hxy
      simp only [margFigure2, bind_eq_ok] at hxy
      obtain ⟨im, -, d1, -, d2, -, r, -, l1, -, l2, -, hxy⟩ := hxy
      cases (pure_eq_ok _ _).mp hxy
      rfl
    · cases surface with
      | false =>
        cases (pure_eq_ok _ _).mp h2
        exact List.nodup_nil
      | true =>
        refine nodup_names (pre := f ++ "_surf_") (e := e) hnd ?_ h2
        intro x y hxy
        simp only [margSurface, bind_eq_ok] at hxy
        obtain ⟨e1, -, e2, -, -, -, hxy⟩ := hxy
        cases (pure_eq_ok _ _).mp hxy
        rfl
  · intro lamRefs pd ps h
    simp only [plotContours, bind_eq_ok] at h
    obtain ⟨s, -, h⟩ := h
    refine nodup_names (pre := f ++ "_2D_contours_") (e := e) hnd ?_ h
    intro x y hxy
    simp only [contourFigure, bind_eq_ok] at hxy
    obtain ⟨im, -, d1, -, d2, -, rs, -, r, -, l1, -, l2, -, a1, -, a2, -, hxy⟩ := hxy
    cases (pure_eq_ok _ _).mp hxy
    rfl

/-- C98: a wrong object, and a discretization without an input set, are refused. -/
theorem C98_refused (ms : List ((Nat × Nat) × List (List K))) (bins : List (List K))
    (lamRef : Option (List K)) (lamRefs : Option (List (List K))) (pd : Option (List (K × K)))
    (surface : Bool) (labels : Option (List String)) (f e : String) :
    plot2DMarginals ms bins .other lamRef surface labels f e = .error .badObject ∧
    plotContours ms bins .other lamRef lamRefs pd labels f e = .error .badObject ∧
    ∀ d : Disc K, d.input = none →
      plot2DMarginals ms bins (.disc d) lamRef surface labels f e = .error .attributeError ∧
      plotContours ms bins (.disc d) lamRef lamRefs pd labels f e = .error .attributeError := by
  refine ⟨rfl, rfl, fun d hd => ?_⟩
  simp [plot2DMarginals, plotContours, PostObj.axesSet, hd, orErr, error_bind]

end

/-! ## Examples -/

namespace Ex

/-- What the two functions do one after the other. -/
def margPlot2 (o : PostObj ℚ) (nb : NBins) : Option (List (MargImage ℚ) × List (MargSurface ℚ)) :=
  (calculate2D 2 nb o).toOption.bind fun r =>
    (plot2DMarginals r.margs r.bins o none true none "file" ".png").toOption

/-- Two columns and three rows: the image has a row for each bin of the second dimension. -/
example : (margPlot2 (.set margSet) (.arr [2, 3])).map (fun ps => ps.1.map fun p => (p.data, p.file)) =
    some [([[0, 3/4], [3/2, 0], [0, 3/4]], "file_2D_0_1.png")] := by decide +kernel

example : (margPlot2 (.set margSet) (.int 2)).map (fun ps => ps.2.map fun p => (p.x, p.y, p.z)) =
    some [([[1/4, 1/4], [3/4, 3/4]], [[1/2, 3/2], [1/2, 3/2]], [[0, 1/2], [1/4, 1/4]])] := by
  decide +kernel

example : RefOk 2 none margSet ∧ LabelsOk 2 none ∧ AxesOf (.set margSet) margSet ∧
    Dim [((0 : ℚ), 1), (0, 2)] [2, 2] 1 0 2 2 := by
  refine ⟨?_, ?_, rfl, rfl, rfl⟩
  · rintro x ⟨⟩
  · rintro l ⟨⟩

/-- The keys are not in order. -/
example : ((plotContours [((1, 2), [[(1 : ℚ)]]), ((0, 1), [[1/2]])] [[0, 1], [0, 2], [0, 4]]
    (.set { dim := 3, domain := some [(0, 1), (0, 2), (0, 4)] }) none (some [[1, 2, 3]]) none none "f" ".png"
    ).toOption.map fun ps => ps.map fun p => (p.file, p.refs, p.data)) =
    some [("f_2D_contours_0_1.png", [(1, 2)], [[1/4]]), ("f_2D_contours_1_2.png", [(2, 3)], [[1/8]])] := by
  decide +kernel

end Ex

end BET
