import Verif.Props.SimpleFun

/-!
# C33 (normal partitions), C34, C35: regular partitions, scaled and domain variants
-/

set_option autoImplicit false
set_option linter.unusedSectionVars false
set_option linter.unusedSimpArgs false

namespace BET

open Spec

variable {K : Type} [Field K] [LinearOrder K]

/-! ### C33: `normal_partition_normal_distribution` -/

section normal
variable [IsStrictOrderedRing K]

/-- **C33.** `normal_partition_normal_distribution`: whenever the density is positive at the points
that were drawn, the probabilities are a probability vector.  (They are not the shares of the
points, see C67.) -/
theorem C33_normal_partition {G : Geometry K} (hG : Sound G) {size : Nat} {ds ds' : DataSet K}
    {q std : NumArg K} {pdf : List K → K} {samples : List (List K)} {emu : Chunks (List K)}
    {ps : SampleSet K} (hM : 0 < samples.length) (hpdf : ∀ x, 0 < pdf x)
    (h : normalNormal G size ds q std pdf samples emu = .ok (ps, ds')) :
    ps.glob.values = some samples ∧
    (∃ p, ps.glob.probabilities = some p ∧ p.length = samples.length ∧ IsProbVector p) ∧
    Attached G ps ds ds' := by
  simp only [normalNormal, bind_eq_ok, raiseIf_eq_ok, pure_eq_ok] at h
  obtain ⟨q', -, qr, -, sd, -, -, -, s1, h1, s2, h2, ⟨s3, ptr⟩, h3, _, h4, h⟩ := h
  obtain ⟨hr, hk, hv, -, -⟩ := ready_tree h1 h2 hM
  obtain ⟨t, ht, hrt, hct, hvt⟩ := SampleSet.query_ready (G := G) (size := size) hr emu
  rw [h3] at ht
  simp only [Except.ok.injEq, Prod.mk.injEq] at ht
  obtain ⟨rfl, rfl⟩ := ht
  simp only at h h4
  set rho := List.zipWith (· * ·)
    ((List.range samples.length).map fun i => allreduceSum
      ((emu.map fun c => c.map (s2.cell G)).map fun c => (((npEqual c i).count true : Nat) : K)))
    ((List.range samples.length).map fun i => allreduceSum (List.zipWith (fun c xs =>
      ((maskSel xs (npEqual c i)).map fun x => 1 / pdf x).sum)
        (emu.map fun c => c.map (s2.cell G)) emu)) with hrho
  have hlen : rho.length = samples.length := by simp [hrho]
  have hnn : ∀ x ∈ rho, 0 ≤ x := by
    intro x hx
    rw [hrho, List.zipWith_map, List.zipWith_self] at hx
    obtain ⟨i, -, rfl⟩ := List.mem_map.mp hx
    refine mul_nonneg (List.sum_nonneg ?_) (List.sum_nonneg ?_)
    · intro y hy
      simp only [List.mem_map] at hy
      obtain ⟨c, -, rfl⟩ := hy
      positivity
    · intro y hy
      obtain ⟨k, hk', rfl⟩ := List.mem_iff_getElem.mp hy
      rw [List.getElem_zipWith]
      refine List.sum_nonneg ?_
      intro z hz
      obtain ⟨x, -, rfl⟩ := List.mem_map.mp hz
      exact (one_div_pos.mpr (hpdf x)).le
  have hready := ready_setVolumes (ready_probabilities hrt (p := rho.map (· / rho.sum))
    (by simpa using hlen)) (p := (List.range samples.length).map fun i =>
      allreduceSum (List.zipWith (fun c xs =>
      ((maskSel xs (npEqual c i)).map fun x => 1 / pdf x).sum)
        (emu.map fun c => c.map (s2.cell G)) emu)) (by simp)
  obtain ⟨-, hg, -, -, -, -, hat⟩ := attach_ready hG hready h
  refine ⟨by rw [hg]; exact hvt.trans hv, ⟨rho.map (· / rho.sum), by rw [hg], by simpa using hlen,
    ?_, ?_⟩, hat⟩
  · intro x hx
    obtain ⟨y, hy, rfl⟩ := List.mem_map.mp hx
    exact div_nonneg (hnn y hy) (List.sum_nonneg hnn)
  · simp only [div_eq_mul_inv]
    rw [List.sum_map_mul_right, List.map_id']
    exact mul_inv_cancel₀ h4

end normal

/-! ### Regular grids -/

section grid

theorem length_linspace (a b : K) (n : Nat) : (linspace a b n).length = n := by
  simp [linspace]

theorem getElem?_linspace (a b : K) {n i : Nat} (hi : i < n) :
    (linspace a b n)[i]? = some (a + (i : K) * ((b - a) / ((n - 1 : Nat) : K))) := by
  simp [linspace, hi]

variable [IsStrictOrderedRing K]

theorem linspace_isGrid {a b : K} (h : a < b) {n : Nat} (hn : 0 < n) :
    IsGrid (linspace a b (n + 1)) := by
  refine ⟨by rw [length_linspace]; omega, ?_⟩
  unfold linspace
  rw [List.pairwise_map]
  refine List.pairwise_lt_range.imp fun {i j} hij => ?_
  have h1 : (0 : K) < (b - a) / ((n + 1 - 1 : Nat) : K) := by
    apply div_pos (sub_pos.mpr h)
    simpa using hn
  have h2 : (i : K) < (j : K) := by exact_mod_cast hij
  have := mul_lt_mul_of_pos_right h2 h1
  linarith

theorem linspace_head? (a b : K) (n : Nat) : (linspace a b (n + 1)).head? = some a := by
  rw [List.head?_eq_getElem?, getElem?_linspace a b (by omega)]
  simp

theorem linspace_getLast? (a b : K) {n : Nat} (hn : 0 < n) :
    (linspace a b (n + 1)).getLast? = some b := by
  rw [List.getLast?_eq_getElem?, length_linspace, getElem?_linspace a b (by omega)]
  have : (n : K) ≠ 0 := by exact_mod_cast hn.ne'
  simp only [Nat.add_sub_cancel, Option.some.injEq]
  field_simp
  ring

theorem linspace_consecutive {a b x y : K} {n : Nat}
    (h : Consecutive (linspace a b (n + 1)) x y) : y - x = (b - a) / (n : K) := by
  obtain ⟨k, h1, h2⟩ := h
  have hk : k + 1 < n + 1 := by
    have := (List.getElem?_eq_some_iff.mp h2).1
    rwa [length_linspace] at this
  rw [getElem?_linspace a b (by omega)] at h1
  rw [getElem?_linspace a b hk] at h2
  cases h1; cases h2
  rw [Nat.add_sub_cancel]
  push_cast
  ring

end grid

/-- The numbers of cells: the number given for every dimension, or the first entries of the
list. -/
def Spec.UsedCells (given : CellArg) (ns : List Nat) : Prop :=
  match given with
  | .scalar n => ns = List.replicate ns.length n
  | .list l => ns = l.take ns.length

theorem gridVectors_inv {mins maxes : List K} {cells : CellArg} {dim : Nat} {xi : List (List K)}
    (h : gridVectors mins maxes cells dim = .ok xi) :
    ∃ ns, ns.length = dim ∧ UsedCells cells ns ∧ xi.length = dim ∧
      ∀ k, k < dim → ∃ a b n, mins[k]? = some a ∧ maxes[k]? = some b ∧ ns[k]? = some n ∧
        xi[k]? = some (linspace a b (n + 1)) := by
  unfold gridVectors at h
  rw [mapM_eq_ok, List.forall₂_iff_get] at h
  obtain ⟨h1, h2⟩ := h
  simp only [List.length_range] at h1
  have h3 : ∀ k, k < dim → ∃ a b n, mins[k]? = some a ∧ maxes[k]? = some b ∧
      cells.get k = .ok n ∧ xi[k]? = some (linspace a b (n + 1)) := by
    intro k hk
    have := h2 k (by simpa using hk) (by omega)
    simp only [bind_eq_ok, pure_eq_ok, getIdx_eq_ok, List.get_eq_getElem,
      List.getElem_range] at this
    obtain ⟨a, ha, b, hb, n, hn, hx⟩ := this
    exact ⟨a, b, n, ha, hb, hn, by rw [List.getElem?_eq_getElem (by omega), hx]⟩
  cases cells with
  | scalar n =>
    refine ⟨List.replicate dim n, by simp, by simp [UsedCells], h1.symm, fun k hk => ?_⟩
    obtain ⟨a, b, m, ha, hb, hm, hx⟩ := h3 k hk
    cases hm
    exact ⟨a, b, n, ha, hb, by simp [hk], hx⟩
  | list l =>
    have hl : dim ≤ l.length := by
      by_contra hlt
      obtain ⟨a, b, m, ha, hb, hm, hx⟩ := h3 l.length (by omega)
      simp [CellArg.get, getIdx] at hm
    refine ⟨l.take dim, by simpa using hl, by simp [UsedCells, hl], h1.symm, fun k hk => ?_⟩
    obtain ⟨a, b, m, ha, hb, hm, hx⟩ := h3 k hk
    rw [CellArg.get, getIdx_eq_ok] at hm
    exact ⟨a, b, m, ha, hb, by rw [List.getElem?_take, if_pos hk]; exact hm, hx⟩

section regular
variable [IsStrictOrderedRing K]

/-- `x` lies in the half-open rectangle with centre `q` and sides `rs`. -/
def Spec.InRect (q rs x : List K) : Prop :=
  List.Forall₂ (fun ab c => ab.1 - ab.2 / 2 < c ∧ c ≤ ab.1 + ab.2 / 2) (List.zip q rs) x

/-- What `regular_partition_uniform_distribution_rectangle_size` promises about the rectangle
with centre `q` and sides `rs` cut into `ns` parts: the first `prod ns` cells are boxes with sides
`rs / ns` that tile it, each has the probability `1 / prod ns`, and the remaining cell has
probability 0. -/
structure Spec.IsRegularPartition (ps : SampleSet K) (q rs : List K) (ns : List Nat) : Prop where
  kind : ps.kind = .rectangle
  congruent : ∃ left right, ps.glob.left = some left ∧ ps.glob.right = some right ∧
    ∀ i < ns.prod, ∃ a b, left[i]? = some a ∧ right[i]? = some b ∧
      a.length = ns.length ∧ b.length = ns.length ∧
      ∀ (k : Nat) (x y r : K) (n : Nat), a[k]? = some x → b[k]? = some y → rs[k]? = some r →
        ns[k]? = some n → y - x = r / (n : K)
  tiles : ∀ x : List K, x.length = ns.length →
    (InRect q rs x → ∃! i, i < ns.prod ∧ InRectangle ps x i) ∧
    (¬ InRect q rs x → ∀ i < ns.prod, ¬ InRectangle ps x i)
  probabilities : ps.glob.probabilities =
    some (List.replicate ns.prod (1 / (ns.prod : K)) ++ [0])

theorem prod_zipWith_div (rs : List K) (ns : List Nat) (h : rs.length = ns.length) :
    (List.zipWith (fun (r : K) (n : Nat) => r / (n : K)) rs ns).prod = rs.prod / (ns.prod : K) := by
  induction rs generalizing ns with
  | nil => cases ns <;> simp at h ⊢
  | cons r rs ih =>
    cases ns with
    | nil => simp at h
    | cons n ns =>
      simp only [List.zipWith_cons_cons, List.prod_cons, Nat.cast_mul]
      rw [ih ns (by simpa using h), div_mul_div_comm]

theorem domainVolume_rect (q rs : List K) (h : q.length = rs.length) :
    domainVolume (List.zip (List.zipWith (fun q r => q - 1 / 2 * r) q rs)
      (List.zipWith (fun q r => q + 1 / 2 * r) q rs)) = rs.prod := by
  unfold domainVolume
  induction q generalizing rs with
  | nil => cases rs <;> simp at h ⊢
  | cons a q ih =>
    cases rs with
    | nil => simp at h
    | cons r rs =>
      simp only [List.zipWith_cons_cons, List.zip_cons_cons, List.map_cons, List.prod_cons]
      rw [ih rs (by simpa using h)]
      congr 1
      ring

theorem regular_core {size dim : Nat} {q rs : List K} {ns : List Nat} {xi : List (List K)}
    {t u : SampleSet K} (hdim : 0 < dim) (hq : q.length = dim) (hrs : rs.length = dim)
    (hns : ns.length = dim) (hpos : ∀ r ∈ rs, 0 < r) (hxl : xi.length = dim)
    (hxi : ∀ k, k < dim → ∃ a b n,
      (List.zipWith (fun q r => q - 1 / 2 * r) q rs)[k]? = some a ∧
      (List.zipWith (fun q r => q + 1 / 2 * r) q rs)[k]? = some b ∧ ns[k]? = some n ∧
        xi[k]? = some (linspace a b (n + 1)))
    (ht : SampleSet.setupCartesian { dim := dim, kind := .rectangle } xi = .ok t)
    (hu : SampleSet.exactVolumeLebesgue size { t with domain := some (List.zip
      (List.zipWith (fun q r => q - 1 / 2 * r) q rs)
      (List.zipWith (fun q r => q + 1 / 2 * r) q rs)) } = .ok u)
    {vols : List K} (hvols : u.glob.volumes = some vols)
    (hne0 : vols.dropLast.sum ≠ 0 ∨ 0 < ns.prod) :
    vols.dropLast.sum = 1 ∧ (∀ n ∈ ns, 0 < n) ∧
    Ready { u with glob := { u.glob with
      probabilities := some (vols.dropLast.map (· / vols.dropLast.sum) ++ [0]) } }
      (ns.prod + 1) ∧
    IsRegularPartition { u with glob := { u.glob with
      probabilities := some (vols.dropLast.map (· / vols.dropLast.sum) ++ [0]) } } q rs ns := by
  have hnumCells : numCells xi = ns.prod := by
    unfold numCells
    congr 1
    apply List.ext_getElem?
    intro k
    by_cases hk : k < dim
    · obtain ⟨a, b, n, -, -, hn, hx⟩ := hxi k hk
      simp [hx, hn, length_linspace]
    · rw [List.getElem?_eq_none (by simp; omega), List.getElem?_eq_none (by omega)]
  have hne : xi ≠ [] := by rintro rfl; simp at hxl; omega
  set dom := List.zip (List.zipWith (fun q r => q - 1 / 2 * r) q rs)
      (List.zipWith (fun q r => q + 1 / 2 * r) q rs) with hdomdef
  -- the same set with the domain set first
  have hs' : SampleSet.setupCartesian { dim := dim, kind := .rectangle, domain := some dom } xi =
      .ok { t with domain := some dom } := by
    obtain ⟨h1, rfl⟩ := setupCartesian_iff.mp ht
    exact setupCartesian_iff.mpr ⟨h1, rfl⟩
  have h' : SampleSet.setupRect { dim := dim, kind := .rectangle, domain := some dom }
      ((cartRows xi).map (List.map Prod.snd))
      ((cartRows xi).map (List.map Prod.fst)) = .ok { t with domain := some dom } := by
    simp only [SampleSet.setupCartesian, bind_eq_ok, tails_eq, dropLasts_eq] at hs'
    exact hs'.choose_spec.2
  have hgl : ∀ k (r : K), rs[k]? = some r → 0 < r := fun k r hr => hpos r (List.mem_of_getElem? hr)
  have hdomlen : dom.length = dim := by simp [hdomdef, hq, hrs]
  have hdompos : ∀ d ∈ dom, d.1 < d.2 := by
    intro d hd
    obtain ⟨k, hk, rfl⟩ := List.mem_iff_getElem.mp hd
    rw [hdomlen] at hk
    have hr := hpos _ (List.getElem_mem (l := rs) (n := k) (by omega))
    simp only [hdomdef, List.getElem_zip, List.getElem_zipWith]
    linarith
  obtain ⟨u', vols', hu', hu2, hlen, hvi, hsum⟩ :=
    C23_relative_volumes (s := { dim := dim, kind := .rectangle, domain := some dom }) rfl h' rfl
      hdomlen hdompos size
  rw [hu] at hu'
  cases hu'
  have : vols' = vols := by
    rw [hu2] at hvols
    exact Option.some.inj hvols
  subst this
  rw [List.length_map, length_cartRows hne, hnumCells] at hlen
  have hdl : vols'.dropLast.length = ns.prod := by simp [hlen]
  have hN : 0 < ns.prod := by
    rcases Nat.eq_zero_or_pos ns.prod with h0 | h0
    · rw [h0] at hdl
      rw [List.eq_nil_of_length_eq_zero hdl] at hne0
      simp [h0] at hne0
    · exact h0
  have hnpos : ∀ n ∈ ns, 0 < n := by
    intro n hn
    rcases Nat.eq_zero_or_pos n with rfl | h0
    · rw [List.prod_eq_zero hn] at hN; omega
    · exact h0
  have hgrid : ∀ l ∈ xi, IsGrid l := by
    intro l hl
    obtain ⟨k, hk, rfl⟩ := List.mem_iff_getElem.mp hl
    obtain ⟨a, b, n, ha, hb, hn, hx⟩ := hxi k (by omega)
    rw [List.getElem?_eq_getElem hk] at hx
    rw [Option.some.inj hx]
    apply linspace_isGrid _ (hnpos n (List.mem_of_getElem? hn))
    rw [List.getElem?_zipWith, List.getElem?_eq_getElem (by omega),
      List.getElem?_eq_getElem (by omega)] at ha hb
    cases ha; cases hb
    have := hpos _ (List.getElem_mem (l := rs) (n := k) (by omega))
    linarith
  -- side lengths
  have hside : ∀ (k : Nat) l (x y r : K) (n : Nat), xi[k]? = some l → Consecutive l x y →
      rs[k]? = some r → ns[k]? = some n → y - x = r / (n : K) := by
    intro k l x y r n hl hc hr hn
    have hk : k < dim := by
      have := (List.getElem?_eq_some_iff.mp hl).1; omega
    obtain ⟨a, b, n', ha, hb, hn', hx⟩ := hxi k hk
    rw [hn] at hn'; cases hn'
    rw [hl] at hx; cases hx
    rw [linspace_consecutive hc]
    rw [List.getElem?_zipWith, List.getElem?_eq_getElem (by omega), hr] at ha hb
    cases ha; cases hb
    congr 1
    ring
  have hbox : ∀ row ∈ cartRows xi, boxVolume (row.map Prod.fst) (row.map Prod.snd) =
      rs.prod / (ns.prod : K) := by
    intro row hrow
    have hm := (mem_cartRows hne row).mp hrow
    rw [← prod_zipWith_div rs ns (by omega)]
    unfold boxVolume
    congr 1
    have hrl := hm.length_eq
    apply List.ext_getElem
    · simp; omega
    · intro k h1 h2
      simp only [List.length_zipWith, List.length_map] at h1 h2
      simp only [List.getElem_zipWith, List.getElem_map]
      have hmk := (List.forall₂_iff_get.mp hm).2 k (by omega) (by omega)
      refine hside k _ _ _ _ _ (List.getElem?_eq_getElem (by omega))
        ((mem_intervals _ _ _).mp hmk) (List.getElem?_eq_getElem (by omega))
        (List.getElem?_eq_getElem (by omega))
  have hrsne : rs.prod ≠ 0 := by
    refine List.prod_ne_zero fun h0 => ?_
    exact lt_irrefl _ (hpos 0 h0)
  have hvol : vols'.dropLast = List.replicate ns.prod (1 / (ns.prod : K)) := by
    rw [List.eq_replicate_iff]
    refine ⟨hdl, fun v hv => ?_⟩
    obtain ⟨i, hi, rfl⟩ := List.mem_iff_getElem.mp hv
    rw [hdl] at hi
    have hi' : i < (cartRows xi).length := by rw [length_cartRows hne, hnumCells]; exact hi
    have := hvi i (((cartRows xi)[i]).map Prod.snd) (((cartRows xi)[i]).map Prod.fst)
        (by simp [hi']) (by simp [hi'])
    rw [hbox _ (List.getElem_mem hi'), hdomdef, domainVolume_rect q rs (by omega),
      List.getElem?_eq_getElem (by omega)] at this
    rw [List.getElem_dropLast, Option.some.inj this]
    field_simp
  have hNK : (ns.prod : K) ≠ 0 := by exact_mod_cast hN.ne'
  have hs1 : vols'.dropLast.sum = 1 := by
    rw [hvol, List.sum_replicate, nsmul_eq_mul]
    field_simp
  have hprob : vols'.dropLast.map (· / vols'.dropLast.sum) ++ [0] =
      List.replicate ns.prod (1 / (ns.prod : K)) ++ [0] := by
    rw [hs1]
    simp [hvol]
  have hready := ready_cartesian (s := { dim := dim, kind := .rectangle, domain := some dom }) rfl rfl
    hdim hs'
  obtain ⟨left, right, hleft, hright, hcells, -⟩ :=
    C24_cells (s := { dim := dim, kind := .rectangle, domain := some dom }) hdim hgrid hs'
  have hInR : ∀ x i, InRectangle { u with glob := { u.glob with
      probabilities := some (vols'.dropLast.map (· / vols'.dropLast.sum) ++ [0]) } } x i =
      InRectangle { t with domain := some dom } x i := by
    intro x i
    rw [hu2]
    rfl
  refine ⟨hs1, hnpos, ?_, ?_, ?_, ?_, ?_⟩
  · rw [← hnumCells, hu2]
    refine ready_probabilities (ready_setVolumes hready.1 (by rw [hlen, hnumCells])) ?_
    rw [hprob]; simp [hnumCells]
  · rw [hu2]; exact hready.2
  · refine ⟨left, right, by rw [hu2]; exact hleft, by rw [hu2]; exact hright, ?_⟩
    intro i hi
    obtain ⟨a, b, ha, hb, hal, hbl, hc⟩ := hcells i (by rw [hnumCells]; exact hi)
    refine ⟨a, b, ha, hb, hal.trans hns.symm, hbl.trans hns.symm, ?_⟩
    intro k x y r n hx hy hr hn
    have hk : k < dim := by
      have := (List.getElem?_eq_some_iff.mp hn).1; omega
    exact hside k xi[k] x y r n (List.getElem?_eq_getElem (by omega))
      (hc k _ x y (List.getElem?_eq_getElem (by omega)) hx hy) hr hn
  · intro x hx
    have hIn : InGridBox xi x ↔ InRect q rs x := by
      unfold InGridBox InRect
      rw [List.forall₂_iff_get, List.forall₂_iff_get]
      simp only [List.length_zip, hq, hrs, hxl, min_self, hx.trans hns, true_and,
        List.get_eq_getElem, List.getElem_zip]
      refine forall_congr' fun k => ?_
      have key : ∀ (h1 : k < dim) (h2 : k < x.length),
          ((∃ a b, (xi[k]'(by omega)).head? = some a ∧ (xi[k]'(by omega)).getLast? = some b ∧
            a < x[k] ∧ x[k] ≤ b) ↔
          ((q[k]'(by omega)) - (rs[k]'(by omega)) / 2 < x[k] ∧
            x[k] ≤ (q[k]'(by omega)) + (rs[k]'(by omega)) / 2)) := by
        intro h1 h2
        obtain ⟨a, b, n, ha, hb, hn, hxk⟩ := hxi k h1
        rw [List.getElem?_eq_getElem (by omega)] at hxk
        have hxk := Option.some.inj hxk
        rw [List.getElem?_zipWith, List.getElem?_eq_getElem (by omega),
          List.getElem?_eq_getElem (by omega)] at ha hb
        cases ha; cases hb
        rw [hxk, linspace_head?, linspace_getLast? _ _ (hnpos n (List.mem_of_getElem? hn))]
        constructor
        · rintro ⟨a, b, ha, hb, h3, h4⟩
          cases ha; cases hb
          constructor <;> linarith
        · rintro ⟨h3, h4⟩
          refine ⟨_, _, rfl, rfl, ?_, ?_⟩ <;> linarith
      constructor
      · intro h h1 h2
        exact (key h1 (by omega)).mp (h h1 h2)
      · intro h h1 h2
        exact (key h1 (by omega)).mpr (h h1 h2)
    have := C24_tiles (s := { dim := dim, kind := .rectangle, domain := some dom }) hdim hgrid hs' x
      (hx.trans hns)
    rw [hIn, hnumCells] at this
    simp only [hInR]
    exact this
  · rw [hprob]

/-- **C34.** Whenever `regular_partition_uniform_distribution_rectangle_size` returns, the
requested rectangle is cut into `prod cells` congruent cells that tile it, each with probability
`1 / prod cells`, and the remainder has probability 0. -/
theorem C34_regular {G : Geometry K} (hG : Sound G) {size : Nat} {ds ds' : DataSet K}
    {q : Option (List K)} {rectSize : NumArg K} {cells : CellArg} {ps : SampleSet K}
    (h : regularSize G size ds q rectSize cells = .ok (ps, ds')) (hdim : 0 < ps.dim) :
    ∃ qr rs ns, UsedReference ds q qr ∧ UsedSizes rectSize rs ∧ UsedCells cells ns ∧
      rs.length = ps.dim ∧ qr.length = ps.dim ∧ ns.length = ps.dim ∧ (∀ r ∈ rs, 0 < r) ∧
      (∀ n ∈ ns, 0 < n) ∧ IsRegularPartition ps qr rs ns ∧ Attached G ps ds ds' := by
  simp only [regularSize, bind_eq_ok, raiseIf_eq_ok, pure_eq_ok, orErr_eq_ok] at h
  obtain ⟨⟨inp, qr⟩, hc, rs, hrs, -, hpos, -, hl1, xi, hxi, t, ht, -, hl2, u, hu, vols, hvols,
    -, hne0, h⟩ := h
  have hpos' : ∀ r ∈ rs, 0 < r := by
    intro r hr
    by_contra hn
    exact hpos ⟨r, hr, not_lt.mp hn⟩
  simp only [not_not] at hl1 hl2
  have hud : u.dim = inp.dim := by
    simp only [SampleSet.exactVolumeLebesgue, bind_eq_ok, pure_eq_ok] at hu
    obtain ⟨-, -, -, -, -, -, rfl⟩ := hu
    obtain ⟨-, rfl⟩ := setupCartesian_iff.mp ht
    rfl
  have hpd : ps.dim = inp.dim := (attach_dim h).trans hud
  have hd : 0 < inp.dim := hpd ▸ hdim
  obtain ⟨ns, hns, hcell, hxl, hxi⟩ := gridVectors_inv hxi
  have hrl : rs.length = inp.dim := by simpa [← hl1] using hl2
  obtain ⟨-, hn, hr, hreg⟩ := regular_core hd (hl1 ▸ hrl) hrl hns hpos' hxl hxi ht hu hvols
    (Or.inl hne0)
  obtain ⟨-, hg, hk', -, -, -, hat⟩ := attach_ready hG hr h
  refine ⟨qr, rs, ns, checkInputs_reference hc, sizeArray_used hrs, hcell, hrl.trans hpd.symm,
    (hl1 ▸ hrl : qr.length = inp.dim).trans hpd.symm, hns.trans hpd.symm, hpos', hn, ?_, hat⟩
  have e1 : ps.glob.left = u.glob.left := by rw [hg]
  have e2 : ps.glob.right = u.glob.right := by rw [hg]
  have e3 : ∀ x i, InRectangle ps x i = InRectangle { u with glob := { u.glob with
      probabilities := some (vols.dropLast.map (· / vols.dropLast.sum) ++ [0]) } } x i := by
    intro x i
    unfold InRectangle
    rw [e1, e2]
  refine ⟨hk'.trans hreg.kind, by rw [e1, e2]; exact hreg.congruent, ?_, ?_⟩
  · simp only [e3]; exact hreg.tiles
  · rw [hg]; exact hreg.probabilities

/-- The probabilities of a regular partition are a probability vector. -/
theorem regular_probVector {ps : SampleSet K} {q rs : List K} {ns : List Nat}
    (hns : ∀ n ∈ ns, 0 < n) (h : IsRegularPartition ps q rs ns) :
    ∃ p, ps.glob.probabilities = some p ∧ IsProbVector p := by
  refine ⟨_, h.probabilities, ?_, ?_⟩
  · intro x hx
    rw [List.mem_append] at hx
    rcases hx with hx | hx
    · rw [List.eq_of_mem_replicate hx]; positivity
    · simp at hx; rw [hx]
  · have : (ns.prod : K) ≠ 0 := by
      have : ns.prod ≠ 0 := by
        refine List.prod_ne_zero fun h0 => ?_
        exact lt_irrefl _ (hns 0 h0)
      exact_mod_cast this
    rw [List.sum_append, List.sum_replicate, nsmul_eq_mul, mul_one_div, div_self this]
    simp

/-- **C33.** The probabilities of `regular_partition_uniform_distribution_rectangle_size` are a probability vector
with one entry for each cell and one for the remainder. -/
theorem C33_regular {G : Geometry K} (hG : Sound G) {size : Nat} {ds ds' : DataSet K}
    {q : Option (List K)} {rectSize : NumArg K} {cells : CellArg} {ps : SampleSet K}
    (h : regularSize G size ds q rectSize cells = .ok (ps, ds')) (hdim : 0 < ps.dim) :
    ∃ ns p, UsedCells cells ns ∧ ns.length = ps.dim ∧ ps.glob.probabilities = some p ∧ p.length = ns.prod + 1 ∧
      IsProbVector p := by
  obtain ⟨qr, rs, ns, -, -, h1, -, -, h2, -, h3, h4, -⟩ := C34_regular hG h hdim
  obtain ⟨p, hp, hpv⟩ := regular_probVector h3 h4
  refine ⟨ns, p, h1, h2, hp, ?_, hpv⟩
  have := h4.probabilities
  rw [hp] at this
  rw [Option.some.inj this]
  simp

end regular

end BET
