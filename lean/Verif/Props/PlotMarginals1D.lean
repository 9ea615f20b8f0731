import Verif.Model.PlotMarginals
import Verif.Lemmas.Names
import Verif.Props.PlotP
import Verif.Props.CalculateR
import Verif.Props.PlotVoronoi1D

/-!
# C97: plots of one-dimensional marginals
-/

set_option autoImplicit false
set_option linter.unusedSectionVars false
set_option linter.unusedSimpArgs false

namespace BET

open Spec

section
variable {K : Type} [Field K] [LinearOrder K]

/-! ## Specification -/

/-- The set whose domain and reference value a plot shows. -/
def Spec.AxesOf : PostObj K → SampleSet K → Prop
  | .set s, t => t = s
  | .disc d, t => d.input = some t
  | .other, _ => False

/-- The reference value is the argument if there is one, else that of the set; it has enough entries. -/
def Spec.RefOk (dim : Nat) (lamRef : Option (List K)) (t : SampleSet K) : Prop :=
  ∀ x, lamRef.or t.referenceValue = some x → dim ≤ x.length

/-- There are enough labels. -/
def Spec.LabelsOk (dim : Nat) (labels : Option (List String)) : Prop :=
  ∀ l, labels = some l → dim ≤ l.length

/-- The area under the straight lines through the points. -/
def Spec.areaUnder (xs ys : List K) : K :=
  ((List.range (xs.length - 1)).map fun k =>
    (xs.getD (k + 1) 0 - xs.getD k 0) * (ys.getD k 0 + ys.getD (k + 1) 0) / 2).sum

/-! ## Lemmas -/

theorem axesSet_ok {o : PostObj K} {t : SampleSet K} (h : AxesOf o t) : o.axesSet = .ok t := by
  cases o with
  | set s => cases h; rfl
  | disc d => simp only [AxesOf] at h; simp [PostObj.axesSet, h, orErr_some]
  | other => exact h.elim

theorem refCoord_ok {r : Option (List K)} {i : Nat} (h : ∀ x, r = some x → i < x.length) :
    refCoord r i = .ok (r.bind fun x => x[i]?) := by
  cases r with
  | none => rfl
  | some x =>
    have hi := h x rfl
    simp [refCoord, getIdx, hi, ok_bind, pure, Except.pure]

theorem axisLabel_ok {labels : Option (List String)} {i : Nat}
    (h : ∀ l, labels = some l → i < l.length) : ∃ s, axisLabel labels i = .ok s ∧
      (labels = none → s = "$\\lambda_{" ++ toString (i + 1) ++ "}$") ∧
      (∀ l, labels = some l → l[i]? = some s) := by
  cases labels with
  | none => exact ⟨_, rfl, fun _ => rfl, by simp⟩
  | some l =>
    have hi := h l rfl
    exact ⟨l[i], by simp [axisLabel, getIdx, hi], by simp, by rintro _ ⟨⟩; simp [hi]⟩

theorem domainRow_ok {s : SampleSet K} {dom : List (K × K)} (h : s.domain = some dom) {i : Nat}
    {r : K × K} (hr : dom[i]? = some r) : domainRow s i = .ok r := by
  simp [domainRow, h, orErr_some, ok_bind, getIdx, hr]

theorem marginalItems_sorted {α : Type} (l : List α) : sortItems (marginalItems l) = marginalItems l := by
  unfold sortItems
  refine List.Pairwise.insertionSort_eq ?_
  unfold marginalItems
  rw [List.pairwise_iff_getElem]
  intro i j hi hj hij
  simp
  omega

theorem npMax_exists {l : List K} (h : l ≠ []) : ∃ m, npMax l = .ok m := by
  cases l with
  | nil => exact absurd rfl h
  | cons a l => exact ⟨_, rfl⟩

section ordered
variable [IsStrictOrderedRing K]

theorem binWidth_ok {dom : List (K × K)} {nb : List Nat} {bins : List (List K)} (h : Edges dom nb bins)
    {i n : Nat} {a b : K} (hab : dom[i]? = some (a, b)) (hlt : a < b) (hn : nb[i]? = some n)
    (hpos : 0 < n) : binWidth bins i = .ok ((b - a) / (n : K)) := by
  obtain ⟨e, n', he, hn', hlen, hk⟩ := h.2 i a b hab
  rw [hn] at hn'
  cases hn'
  have h0 := hk 0 (by omega)
  have h1 := hk 1 (by omega)
  have hn0 : (0 : K) < (n : K) := by exact_mod_cast hpos
  have hw : (b - a) / (n : K) ≠ 0 := (div_pos (sub_pos.mpr hlt) hn0).ne'
  have e1 : a + ((1 : Nat) : K) * ((b - a) / (n : K)) - (a + ((0 : Nat) : K) * ((b - a) / (n : K))) =
      (b - a) / (n : K) := by push_cast; ring
  simp only [binWidth, getIdx, he, h0, h1, ok_bind, e1]
  simp [raiseIf, hw, ok_bind, pure, Except.pure]

/-- Points of `np.linspace(a, b, n)` lie in the bins. -/
theorem linspace_in_cell {a b : K} (h : a < b) {n k : Nat} (hk : k < n) :
    ∃ x, (linspace a b n)[k]? = some x ∧ a + (k : K) * ((b - a) / (n : K)) ≤ x ∧
      x ≤ a + ((k : K) + 1) * ((b - a) / (n : K)) := by
  refine ⟨_, getElem?_linspace a b hk, ?_⟩
  have hn : (0 : K) < (n : K) := by exact_mod_cast (by omega : 0 < n)
  have hd : 0 < b - a := sub_pos.mpr h
  have hk0 : (0 : K) ≤ (k : K) := Nat.cast_nonneg k
  rcases Nat.lt_or_ge 1 n with h1 | h1
  · have hn1 : (0 : K) < ((n - 1 : Nat) : K) := by exact_mod_cast (by omega : 0 < n - 1)
    have e : ((n - 1 : Nat) : K) = (n : K) - 1 := by
      rw [Nat.cast_sub (by omega)]; simp
    have hkn : (k : K) + 1 ≤ (n : K) := by exact_mod_cast hk
    constructor
    · have : (b - a) / (n : K) ≤ (b - a) / ((n - 1 : Nat) : K) := by
        apply div_le_div_of_nonneg_left hd.le hn1
        rw [e]; linarith
      have := mul_le_mul_of_nonneg_left this hk0
      linarith
    · have : (k : K) * ((b - a) / ((n - 1 : Nat) : K)) ≤ ((k : K) + 1) * ((b - a) / (n : K)) := by
        rw [← mul_div_assoc, ← mul_div_assoc, div_le_div_iff₀ hn1 hn, e]
        have : (k : K) * (n : K) ≤ ((k : K) + 1) * ((n : K) - 1) := by
          have : ((k : K) + 1) * ((n : K) - 1) = (k : K) * (n : K) + ((n : K) - ((k : K) + 1)) := by ring
          rw [this]; linarith
        have := mul_le_mul_of_nonneg_left this hd.le
        linarith
      linarith
  · have hn' : n = 1 := by omega
    subst hn'
    have hk' : k = 0 := by omega
    subst hk'
    simp
    linarith

theorem linspace_ends {a b : K} {n : Nat} (hn : 1 < n) :
    (linspace a b n)[0]? = some a ∧ (linspace a b n)[n - 1]? = some b := by
  have hn1 : ((n - 1 : Nat) : K) ≠ 0 := by exact_mod_cast (by omega : n - 1 ≠ 0)
  refine ⟨by rw [getElem?_linspace a b (by omega)]; simp, ?_⟩
  rw [getElem?_linspace a b (by omega)]
  congr 1
  field_simp
  ring

/-- One figure. -/
theorem margFigure_ok {dom : List (K × K)} {nb : List Nat} {bins : List (List K)}
    (hE : Edges dom nb bins) {t : SampleSet K} (ht : t.domain = some dom) {i n : Nat} {a b : K}
    (hab : dom[i]? = some (a, b)) (hlt : a < b) (hn : nb[i]? = some n) (hpos : 0 < n) {m : List K}
    (hm : m.length = n) {ref : Option (List K)} (href : ∀ x, ref = some x → i < x.length)
    {labels : Option (List String)} (hlab : ∀ l, labels = some l → i < l.length) (f e : String) :
    ∃ p, margFigure t bins ref labels f e (i, m) = .ok p ∧ p.xs = linspace a b n ∧
      p.ys = (m.map fun q => q / ((b - a) / (n : K))) ∧
      (∃ top, npMax p.ys = .ok top ∧ p.ymax = 105 / 100 * top ∧
        p.ref = (ref.bind fun x => x[i]?).map fun x => (x, 2 / 100 * (105 / 100) * top)) ∧
      (labels = none → p.label = "$\\lambda_{" ++ toString (i + 1) ++ "}$") ∧
      (∀ l, labels = some l → l[i]? = some p.label) ∧ p.file = f ++ "_1D_" ++ toString i ++ e := by
  obtain ⟨top, htop⟩ := npMax_exists (l := m.map fun q => q / ((b - a) / (n : K)))
    (by rw [Ne, List.map_eq_nil_iff]; rintro rfl; simp at hm; omega)
  obtain ⟨s, hs, hs1, hs2⟩ := axisLabel_ok hlab
  obtain ⟨E, n', hE', hn', hlen, -⟩ := hE.2 i a b hab
  rw [hn] at hn'
  cases hn'
  refine ⟨⟨linspace a b n, m.map fun q => q / ((b - a) / (n : K)), 105 / 100 * top,
    (ref.bind fun x => x[i]?).map fun x => (x, 2 / 100 * (105 / 100) * top), s,
    f ++ "_1D_" ++ toString i ++ e⟩, ?_, rfl, rfl, ⟨top, htop, rfl, rfl⟩, hs1, hs2, rfl⟩
  have h1 : getIdx bins i = .ok E := by simp [getIdx, hE']
  simp only [margFigure, domainRow_ok ht hab, ok_bind, h1, binWidth_ok hE hab hlt hn hpos, htop, refMark,
    refCoord_ok href, hs, hlen, hm]
  simp [raiseIf, ok_bind, pure, Except.pure, bind, Except.bind]

end ordered

variable [IsStrictOrderedRing K]

/-! ## Theorems -/

/-- C97: `plot_1D_marginal_probs`, applied to what `calculate_1D_marginal_probs` returns, makes one figure for
each dimension.  Its curve has one point for each bin: the abscissa lies in that bin, and the ordinate times
the width of the bin is the probability of the samples in the bin.  The curve starts and ends at the ends of
the domain. -/
theorem C97_curve {o : PostObj K} {s : SampleSet K} {vals : List (List K)} {probs : List K}
    {dom : List (K × K)} {nb : List Nat} {nbins : NBins} (h : Histo o s vals probs dom nb nbins)
    {size : Nat} (hs : 0 < size) {r : Marginals K (List K)} (hr : calculate1D size nbins o = .ok r)
    {o' : PostObj K} {t : SampleSet K} (ho : AxesOf o' t) (ht : t.domain = some dom)
    {lamRef : Option (List K)} (href : RefOk s.dim lamRef t) {labels : Option (List String)}
    (hlab : LabelsOk s.dim labels) (f e : String) :
    ∃ ps, plot1DMarginals (marginalItems r.margs) r.bins o' lamRef labels f e = .ok ps ∧
      ps.length = s.dim ∧
      ∀ (i : Nat) (a b : K) (n : Nat), dom[i]? = some (a, b) → nb[i]? = some n →
        ∃ p : MargPlot K, ps[i]? = some p ∧ p.xs.length = n ∧ p.ys.length = n ∧
          (∀ k : Nat, k < n → ∃ x y, p.xs[k]? = some x ∧ p.ys[k]? = some y ∧
            a + (k : K) * ((b - a) / (n : K)) ≤ x ∧ x ≤ a + ((k : K) + 1) * ((b - a) / (n : K)) ∧
            y * ((b - a) / (n : K)) = massOf (InBin dom nb i k) vals probs) ∧
          (1 < n → p.xs[0]? = some a ∧ p.xs[n - 1]? = some b) ∧
          p.ref.map Prod.fst = ((lamRef.or t.referenceValue).bind fun x => x[i]?) ∧
          (labels = none → p.label = "$\\lambda_{" ++ toString (i + 1) ++ "}$") ∧
          (∀ l, labels = some l → l[i]? = some p.label) ∧ p.file = f ++ "_1D_" ++ toString i ++ e := by
  obtain ⟨r', hr', -, -, hE, hlen, hall⟩ := C61_marginal h hs
  rw [hr] at hr'
  cases hr'
  have fig : ∀ (i : Nat) (a b : K) (n : Nat) (m : List K), dom[i]? = some (a, b) → nb[i]? = some n →
      r.margs[i]? = some m → ∃ p, margFigure t r.bins (refPoint lamRef t.referenceValue) labels f e (i, m) =
        .ok p ∧ p.xs = linspace a b n ∧ p.ys = (m.map fun q => q / ((b - a) / (n : K))) ∧
      (∃ top, npMax p.ys = .ok top ∧ p.ymax = 105 / 100 * top ∧
        p.ref = ((lamRef.or t.referenceValue).bind fun x => x[i]?).map
          fun x => (x, 2 / 100 * (105 / 100) * top)) ∧
      (labels = none → p.label = "$\\lambda_{" ++ toString (i + 1) ++ "}$") ∧
      (∀ l, labels = some l → l[i]? = some p.label) ∧ p.file = f ++ "_1D_" ++ toString i ++ e := by
    intro i a b n m hab hn hm
    have hi : i < s.dim := by rw [← h.dims]; exact (List.getElem?_eq_some_iff.mp hab).1
    obtain ⟨m', hm', hl, -⟩ := hall i n hi hn
    rw [hm] at hm'
    cases hm'
    exact margFigure_ok hE ht hab (h.lo_lt_hi _ (List.mem_of_getElem? hab)) hn
      (h.pos n (List.mem_of_getElem? hn)) hl (fun x hx => lt_of_lt_of_le hi (href x hx))
      (fun l hl => lt_of_lt_of_le hi (hlab l hl)) f e
  have entry : ∀ i, i < s.dim → ∃ (a b : K) (n : Nat), dom[i]? = some (a, b) ∧ nb[i]? = some n := by
    intro i hi
    exact ⟨(dom[i]'(by rw [h.dims]; exact hi)).1, (dom[i]'(by rw [h.dims]; exact hi)).2,
      nb[i]'(by rw [h.numBins]; exact hi), by simp [h.dims, hi], by simp [h.numBins, hi]⟩
  have hlenI : (marginalItems r.margs).length = s.dim := by simp [marginalItems, hlen]
  obtain ⟨ps, hps⟩ := mapM_total
    (f := margFigure t r.bins (refPoint lamRef t.referenceValue) labels f e)
    (l := marginalItems r.margs) (by
      intro q hq
      simp only [marginalItems, List.mem_map, Prod.exists] at hq
      obtain ⟨m, i, hmi, rfl⟩ := hq
      have hm := List.mem_zipIdx_iff_getElem?.mp hmi
      have hi : i < s.dim := by rw [← hlen]; exact (List.getElem?_eq_some_iff.mp hm).1
      obtain ⟨a, b, n, hab, hn⟩ := entry i hi
      obtain ⟨p, hp, -⟩ := fig i a b n m hab hn hm
      exact ⟨p, hp⟩)
  have hF := (mapM_eq_ok _ _ _).mp hps
  have hpl : ps.length = s.dim := by rw [← hF.length_eq, hlenI]
  refine ⟨ps, ?_, hpl, ?_⟩
  · simp only [plot1DMarginals, axesSet_ok ho, ok_bind, marginalItems_sorted]
    exact hps
  intro i a b n hab hn
  have hi : i < s.dim := by rw [← h.dims]; exact (List.getElem?_eq_some_iff.mp hab).1
  obtain ⟨m, hm, hml, hmass⟩ := hall i n hi hn
  have hstep := List.Forall₂.get hF (i := i) (by rw [hlenI]; exact hi) (by rw [hpl]; exact hi)
  have hitem : (marginalItems r.margs)[i]'(by rw [hlenI]; exact hi) = (i, m) := by
    have := (List.getElem?_eq_some_iff.mp hm).2
    simp [marginalItems, this]
  simp only [List.get_eq_getElem, hitem] at hstep
  obtain ⟨p, hp, hx, hy, ⟨top, -, -, hrf⟩, hl1, hl2, hfile⟩ := fig i a b n m hab hn hm
  rw [hstep] at hp
  cases hp
  have hlt := h.lo_lt_hi _ (List.mem_of_getElem? hab)
  have hpos := h.pos n (List.mem_of_getElem? hn)
  refine ⟨ps[i], by simp [hpl, hi], by rw [hx, length_linspace], by rw [hy]; simp [hml], ?_, ?_, ?_, hl1, hl2,
    hfile⟩
  · intro k hk
    obtain ⟨x, hxk, h1, h2⟩ := linspace_in_cell hlt hk
    have hn0 : (0 : K) < (n : K) := by exact_mod_cast hpos
    have hw : (b - a) / (n : K) ≠ 0 := (div_pos (sub_pos.mpr hlt) hn0).ne'
    refine ⟨x, massOf (InBin dom nb i k) vals probs / ((b - a) / (n : K)), by rw [hx]; exact hxk, ?_, h1, h2,
      div_mul_cancel₀ _ hw⟩
    rw [hy, List.getElem?_map, hmass k hk]
    rfl
  · intro hn1
    rw [hx]
    exact linspace_ends hn1
  · rw [hrf]
    cases ((lamRef.or t.referenceValue).bind fun x => x[i]?) <;> rfl

/-- C97: if the samples lie in the domain, the ordinates times the width of the bins sum to the total
probability. -/
theorem C97_mass {o : PostObj K} {s : SampleSet K} {vals : List (List K)} {probs : List K}
    {dom : List (K × K)} {nb : List Nat} {nbins : NBins} (h : Histo o s vals probs dom nb nbins)
    {size : Nat} (hs : 0 < size) {r : Marginals K (List K)} (hr : calculate1D size nbins o = .ok r)
    {o' : PostObj K} {t : SampleSet K} (ho : AxesOf o' t) (ht : t.domain = some dom)
    {lamRef : Option (List K)} (href : RefOk s.dim lamRef t) {labels : Option (List String)}
    (hlab : LabelsOk s.dim labels) (f e : String) {ps : List (MargPlot K)}
    (hps : plot1DMarginals (marginalItems r.margs) r.bins o' lamRef labels f e = .ok ps)
    {i n : Nat} {a b : K} (hab : dom[i]? = some (a, b)) (hn : nb[i]? = some n)
    (hd : InDomain dom vals i) {p : MargPlot K} (hp : ps[i]? = some p) :
    (p.ys.map fun y => y * ((b - a) / (n : K))).sum = probs.sum := by
  obtain ⟨ps', hps', -, hall⟩ := C97_curve h hs hr ho ht href hlab f e
  rw [hps] at hps'
  cases hps'
  obtain ⟨p', hp', -, hyl, hk, -⟩ := hall i a b n hab hn
  rw [hp] at hp'
  cases hp'
  obtain ⟨r', hr', -, -, -, -, hm⟩ := C61_marginal h hs
  rw [hr] at hr'
  cases hr'
  have hi : i < s.dim := by rw [← h.dims]; exact (List.getElem?_eq_some_iff.mp hab).1
  obtain ⟨m, hmi, hml, hmk⟩ := hm i n hi hn
  rw [← C61_total h hs hr hmi hd]
  congr 1
  refine List.ext_getElem? fun k => ?_
  by_cases hkn : k < n
  · obtain ⟨x, y, -, hy, -, -, he⟩ := hk k hkn
    rw [List.getElem?_map, hy, hmk k hkn, ← he]
    rfl
  · rw [List.getElem?_eq_none (by simp; omega), List.getElem?_eq_none (by omega)]

/-- A list of results of `mapM`, mapped. -/
theorem mapM_map_eq {α β γ : Type} {f : α → Except Err β} {g : β → γ} {k : α → γ}
    (h : ∀ x y, f x = .ok y → g y = k x) {l : List α} {r : List β} (hr : l.mapM f = .ok r) :
    r.map g = l.map k := by
  have hF := (mapM_eq_ok _ _ _).mp hr
  clear hr
  induction hF with
  | nil => rfl
  | cons h1 _ ih => simp [h _ _ h1, ih]

/-- Inversion for one figure. -/
theorem margFigure_inv {s : SampleSet K} {bins : List (List K)} {ref : Option (List K)}
    {labels : Option (List String)} {f e : String} {item : Nat × List K} {p : MargPlot K}
    (h : margFigure s bins ref labels f e item = .ok p) :
    ∃ w top, binWidth bins item.1 = .ok w ∧ p.ys = (item.2.map fun q => q / w) ∧ npMax p.ys = .ok top ∧
      p.ymax = 105 / 100 * top ∧ (∀ q, p.ref = some q → q.2 = 2 / 100 * (105 / 100) * top) ∧
      p.file = f ++ "_1D_" ++ toString item.1 ++ e := by
  simp only [margFigure, bind_eq_ok] at h
  obtain ⟨d, -, E, -, -, -, w, hw, -, -, top, htop, r, hr, l, -, h⟩ := h
  cases (pure_eq_ok _ _).mp h
  refine ⟨w, top, hw, rfl, htop, rfl, ?_, rfl⟩
  intro q hq
  simp only [refMark, bind_eq_ok] at hr
  obtain ⟨x, -, hx⟩ := hr
  have hx := (pure_eq_ok _ _).mp hx
  simp only at hq
  rw [← hx] at hq
  cases x with
  | none => cases hq
  | some x => cases hq; rfl

theorem plot1D_inv {ms : List (Nat × List K)} {bins : List (List K)} {o : PostObj K}
    {lamRef : Option (List K)} {labels : Option (List String)} {f e : String} {ps : List (MargPlot K)}
    (h : plot1DMarginals ms bins o lamRef labels f e = .ok ps) : ∃ s, o.axesSet = .ok s ∧
      (sortItems ms).mapM (margFigure s bins (refPoint lamRef s.referenceValue) labels f e) = .ok ps := by
  simp only [plot1DMarginals, bind_eq_ok] at h
  exact h

/-- C97: the curve and the mark of the reference value lie between the limits of the axis, if the marginals
are not negative: the lower limit is zero and the upper one is `ymax`. -/
theorem C97_limits {ms : List (Nat × List K)} {bins : List (List K)} {o : PostObj K}
    {lamRef : Option (List K)} {labels : Option (List String)} {f e : String} {ps : List (MargPlot K)}
    (h : plot1DMarginals ms bins o lamRef labels f e = .ok ps) :
    ∀ p ∈ ps, (∀ y ∈ p.ys, 0 ≤ y) →
      (∀ y ∈ p.ys, y ≤ p.ymax) ∧ (∀ q, p.ref = some q → 0 ≤ q.2 ∧ q.2 ≤ p.ymax) := by
  obtain ⟨s, -, h⟩ := plot1D_inv h
  have hF := (mapM_eq_ok _ _ _).mp h
  intro p hp hy
  obtain ⟨k, hk, rfl⟩ := List.mem_iff_getElem.mp hp
  have := List.Forall₂.get hF (i := k) (by rw [hF.length_eq]; exact hk) hk
  simp only [List.get_eq_getElem] at this
  obtain ⟨w, top, -, -, htop, hmax, href, -⟩ := margFigure_inv this
  have hg := npMax_isGreatest htop
  have h0 : 0 ≤ top := hy top hg.1
  rw [hmax]
  refine ⟨fun y hy => ?_, fun q hq => ?_⟩
  · have := hg.2 hy
    linarith
  · rw [href q hq]
    constructor <;> linarith

/-- C97: the height of the curve over bin `k` is the mean density over that bin only if the bin is as wide as
the first bin (or has no probability): the width of the first bin is used for all of them. -/
theorem C97_first_width {ms : List (Nat × List K)} {bins : List (List K)} {o : PostObj K}
    {lamRef : Option (List K)} {labels : Option (List String)} {f e : String} {ps : List (MargPlot K)}
    (h : plot1DMarginals ms bins o lamRef labels f e = .ok ps) {i : Nat} {m : List K} (hm : (i, m) ∈ ms)
    {x0 x1 : K} {l : List K} (hb : bins[i]? = some (x0 :: x1 :: l)) :
    ∃ p ∈ ps, p.file = f ++ "_1D_" ++ toString i ++ e ∧ p.ys.length = m.length ∧
      ∀ (k : Nat) (q y w : K), m[k]? = some q → p.ys[k]? = some y →
        (y * w = q ↔ q = 0 ∨ w = x1 - x0) := by
  obtain ⟨s, -, h⟩ := plot1D_inv h
  have hF := (mapM_eq_ok _ _ _).mp h
  have hm' : (i, m) ∈ sortItems ms := (List.perm_insertionSort _ _).mem_iff.mpr hm
  obtain ⟨j, hj, hje⟩ := List.mem_iff_getElem.mp hm'
  have hj' : j < ps.length := by rw [← hF.length_eq]; exact hj
  have := List.Forall₂.get hF (i := j) hj hj'
  simp only [List.get_eq_getElem, hje] at this
  obtain ⟨w0, top, hw, hys, -, -, -, hfile⟩ := margFigure_inv this
  refine ⟨ps[j], List.getElem_mem hj', hfile, by rw [hys]; simp, ?_⟩
  simp only [binWidth, getIdx, hb, ok_bind, bind_eq_ok, List.getElem?_cons_succ, List.getElem?_cons_zero] at hw
  obtain ⟨_, hz, hw⟩ := hw
  have hw := (pure_eq_ok _ _).mp hw
  have hne : x1 - x0 ≠ 0 := by
    intro h0
    simp [raiseIf, h0] at hz
  intro k q y w hq hy
  rw [hys, List.getElem?_map, hq] at hy
  cases hy
  rw [← hw, div_mul_eq_mul_div, div_eq_iff hne]
  constructor
  · intro he
    by_cases hq0 : q = 0
    · exact Or.inl hq0
    · exact Or.inr (mul_left_cancel₀ hq0 he)
  · rintro (rfl | rfl)
    · simp
    · rfl

/-- C97: no figure overwrites another one. -/
theorem C97_files {ms : List (Nat × List K)} (hnd : (ms.map Prod.fst).Nodup) {bins : List (List K)}
    {o : PostObj K} {lamRef : Option (List K)} {labels : Option (List String)} {f e : String}
    {ps : List (MargPlot K)} (h : plot1DMarginals ms bins o lamRef labels f e = .ok ps) :
    ps.length = ms.length ∧ (ps.map MargPlot.file).Nodup := by
  obtain ⟨s, -, h⟩ := plot1D_inv h
  have hperm := List.perm_insertionSort (fun (a b : Nat × List K) => a.1 ≤ b.1) ms
  refine ⟨by rw [← ((mapM_eq_ok _ _ _).mp h).length_eq]; exact hperm.length_eq, ?_⟩
  have hfile : ∀ x y, margFigure s bins (refPoint lamRef s.referenceValue) labels f e x = .ok y →
      y.file = f ++ "_1D_" ++ toString x.1 ++ e := by
    intro x y hxy
    obtain ⟨-, -, -, -, -, -, -, hy⟩ := margFigure_inv hxy
    exact hy
  rw [mapM_map_eq (g := MargPlot.file) (k := fun item => f ++ "_1D_" ++ toString item.1 ++ e) hfile h]
  have hk : ((sortItems ms).map Prod.fst).Nodup := (hperm.map Prod.fst).nodup_iff.mpr hnd
  have : (sortItems ms).map (fun item => f ++ "_1D_" ++ toString item.1 ++ e) =
      ((sortItems ms).map Prod.fst).map (fun (i : Nat) => f ++ "_1D_" ++ toString i ++ e) := by
    rw [List.map_map]; rfl
  rw [this]
  exact List.Nodup.map (f := fun (i : Nat) => f ++ "_1D_" ++ toString i ++ e)
    (fun i j (hij : f ++ "_1D_" ++ toString i ++ e = f ++ "_1D_" ++ toString j ++ e) =>
      name1_injective hij) hk

/-- C97: a wrong object, and a discretization without an input set, are refused. -/
theorem C97_refused (ms : List (Nat × List K)) (bins : List (List K)) (lamRef : Option (List K))
    (labels : Option (List String)) (f e : String) :
    plot1DMarginals ms bins .other lamRef labels f e = .error .badObject ∧
    ∀ d : Disc K, d.input = none →
      plot1DMarginals ms bins (.disc d) lamRef labels f e = .error .attributeError := by
  refine ⟨rfl, fun d hd => ?_⟩
  simp [plot1DMarginals, PostObj.axesSet, hd, orErr, error_bind]

end

/-! ## Examples -/

namespace Ex

/-- One dimension, all of the probability in the first third. -/
def margLine : SampleSet ℚ :=
  { dim := 1, domain := some [(0, 1)], referenceValue := some [1/5],
    glob := { values := some [[1/10], [1/5]], probabilities := some [1/2, 1/2] } }

theorem margLine_ok : Histo (.set margLine) margLine [[1/10], [1/5]] [1/2, 1/2] [(0, 1)] [3] (.int 3) where
  obj := rfl
  samples := Or.inr ⟨rfl, rfl, rfl, 2, consistent_of _ _ rfl rfl⟩
  rows := by decide
  domain := rfl
  dims := rfl
  lo_lt_hi := by decide +kernel
  bins := Or.inl ⟨rfl, rfl⟩
  numBins := rfl
  pos := by decide

/-- What the two functions do one after the other. -/
def margCurve (o : PostObj ℚ) (n : Nat) : Option (List (MargPlot ℚ)) :=
  (calculate1D 2 (.int n) o).toOption.bind fun r =>
    (plot1DMarginals (marginalItems r.margs) r.bins o none none "file" ".png").toOption

example : (margCurve (.set margLine) 3).map (fun ps => ps.map fun p => ((p.xs, p.ys), (p.ymax, p.ref))) =
    some [(([0, 1/2, 1], [3, 0, 0]), (63/20, some (1/5, 63/1000)))] := by decide +kernel

example : (margCurve (.set margLine) 3).map (fun ps => ps.map fun p => (p.label, p.file)) =
    some [("$\\lambda_{1}$", "file_1D_0.png")] := by decide +kernel

example : RefOk 1 none margLine ∧ LabelsOk 1 none ∧ AxesOf (.set margLine) margLine := by
  refine ⟨?_, ?_, rfl⟩
  · intro x hx
    cases hx
    decide
  · rintro l ⟨⟩

example : (margCurve (.set margSet) 2).map (fun ps => ps.map fun p => (p.xs, p.ys)) =
    some [([0, 1], [1, 1]), ([0, 2], [1/4, 3/4])] := by decide +kernel

/-- A discretization whose emulated input set has another domain than the input set. -/
def margEm : Disc ℚ :=
  { input := some { margLine with domain := some [(0, 10)] }, output := none, emInput := some margLine }

end Ex

open Ex

/-- C97 fails for the curve as a density: the area under the curve drawn is not the total probability. -/
theorem C97_negation_area :
    ∃ (ps : List (MargPlot ℚ)) (p : MargPlot ℚ), margCurve (.set margLine) 3 = some ps ∧ ps[0]? = some p ∧
      ([1/2, 1/2] : List ℚ).sum = 1 ∧ areaUnder p.xs p.ys = 3/4 :=
  ⟨[⟨[0, 1/2, 1], [3, 0, 0], 63/20, some (1/5, 63/1000), "$\\lambda_{1}$", "file_1D_0.png"⟩], _,
    by decide +kernel, rfl, by decide +kernel, by decide +kernel⟩

/-- C97 fails for discretizations with an emulated input set: the marginals are those of the emulated set, here
on bins of width 1/3, but they are drawn over the domain of the input set. -/
theorem C97_negation_emulated :
    (calculate1D 1 (.int 3) (.disc margEm)).toOption.map (fun r => r.bins) = some [[0, 1/3, 2/3, 1]] ∧
    (margCurve (.disc margEm) 3).map (fun ps => ps.map fun p => (p.xs, p.ys)) =
      some [([0, 5, 10], [3, 0, 0])] := by
  constructor <;> decide +kernel

end BET
