import Verif.Model.SimpleFun
import Verif.Props.LocalVolume

/-!
# C33: simple-function approximations
-/

set_option autoImplicit false
set_option linter.unusedSectionVars false
set_option linter.unusedSimpArgs false

namespace BET

open Spec

variable {K : Type} [Field K] [LinearOrder K]

/-- What the constructors do to the data set: a discretization refers to the new set and its
input-output pointers lead every output value to its cell; other data stay as they are. -/
def Spec.Attached (G : Geometry K) (ps : SampleSet K) : DataSet K → DataSet K → Prop
  | .disc d, .disc d' => d'.outputProb = some ps ∧ d'.input = d.input ∧
      ∃ out x ptr, d'.output = some out ∧ out.loc.values = some x ∧ d'.ioPtrLocal = some ptr ∧
        List.Forall₂ (List.Forall₂ (IsCell G ps)) x ptr
  | ds, ds' => ds' = ds

/-- The simple function on the Voronoi cells of `samples` in which every cell has the share of
the points `pts` that lie in it, a probability vector. -/
def Spec.IsSimpleFunction (G : Geometry K) (ps : SampleSet K) (samples pts : List (List K)) :
    Prop :=
  ps.kind = .voronoi ∧ ps.glob.values = some samples ∧
  ∃ p, ps.glob.probabilities = some p ∧ CellFractions G ps samples.length pts p ∧ IsProbVector p

theorem isCell_congr {G : Geometry K} {s t : SampleSet K}
    (hg : t.glob = { s.glob with kdtreeValues := t.glob.kdtreeValues })
    (hk : t.kind = s.kind) (hp : t.pNorm = s.pNorm) : IsCell G t = IsCell G s := by
  have hv : t.glob.values = s.glob.values := by rw [hg]
  have hr : t.glob.right = s.glob.right := by rw [hg]
  have hl : t.glob.left = s.glob.left := by rw [hg]
  have hrad : t.glob.radii = s.glob.radii := by rw [hg]
  funext x i
  unfold IsCell
  rw [hk, hp, hv, hr, hl, hrad]

theorem setIoPtr_inv {G : Geometry K} {size : Nat} {d d' : Disc K}
    (h : d.setIoPtr G size false = .ok d') :
    ∃ o out x ps ps' ptr, d.output = some o ∧ o.localized size = .ok out ∧
      out.loc.values = some x ∧ d.outputProb = some ps ∧ ps.query G size x = .ok (ps', ptr) ∧
      d' = { d with output := some out, outputProb := some ps', ioPtrLocal := some ptr } := by
  simp only [Disc.setIoPtr, bind_eq_ok, orErr_eq_ok, pure_eq_ok] at h
  obtain ⟨o, ho, out, hout, ps, hps, x, hx, ⟨ps', ptr⟩, hq, h⟩ := h
  refine ⟨o, out, x, ps, ps', ptr, ho, hout, hx, hps, hq, ?_⟩
  rw [← h]
  rfl

theorem attach_dim {G : Geometry K} {size : Nat} {ds ds' : DataSet K}
    {s ps : SampleSet K} (h : ds.attach G size s = .ok (ps, ds')) : ps.dim = s.dim := by
  cases ds with
  | array dim v => cases h; rfl
  | set s0 => cases h; rfl
  | disc d =>
    simp only [DataSet.attach, bind_eq_ok, pure_eq_ok, orErr_eq_ok, Prod.mk.injEq] at h
    obtain ⟨d', hd', ps', hps', rfl, rfl⟩ := h
    obtain ⟨o, out, x, s', s'', ptr, ho, hout, hx, hs', hq, rfl⟩ := setIoPtr_inv hd'
    cases hs'
    cases hps'
    exact (SampleSet.query_frame hq).2.2.1

theorem attach_ready {G : Geometry K} (hG : Sound G) {size n : Nat} {ds ds' : DataSet K}
    {s ps : SampleSet K} (hr : Ready s n) (h : ds.attach G size s = .ok (ps, ds')) :
    Ready ps n ∧ ps.glob = { s.glob with kdtreeValues := ps.glob.kdtreeValues } ∧
      ps.kind = s.kind ∧ ps.pNorm = s.pNorm ∧ ps.dim = s.dim ∧ ps.domain = s.domain ∧
      Attached G ps ds ds' := by
  cases ds with
  | array dim v =>
    simp only [DataSet.attach, pure_eq_ok, Prod.mk.injEq] at h
    obtain ⟨rfl, rfl⟩ := h
    exact ⟨hr, rfl, rfl, rfl, rfl, rfl, rfl⟩
  | set s0 =>
    simp only [DataSet.attach, pure_eq_ok, Prod.mk.injEq] at h
    obtain ⟨rfl, rfl⟩ := h
    exact ⟨hr, rfl, rfl, rfl, rfl, rfl, rfl⟩
  | disc d =>
    simp only [DataSet.attach, bind_eq_ok, pure_eq_ok, orErr_eq_ok, Prod.mk.injEq] at h
    obtain ⟨d', hd', ps', hps', rfl, rfl⟩ := h
    obtain ⟨o, out, x, s', s'', ptr, ho, hout, hx, hs', hq, rfl⟩ := setIoPtr_inv hd'
    cases hs'
    cases hps'
    obtain ⟨t, ht, hrt, hct, hvt⟩ := SampleSet.query_ready (G := G) (size := size) hr x
    rw [hq] at ht
    simp only [Except.ok.injEq, Prod.mk.injEq] at ht
    obtain ⟨rfl, rfl⟩ := ht
    obtain ⟨f1, -, f3, f4, f5, f6⟩ := SampleSet.query_frame hq
    refine ⟨hrt, f1, f5, f6, f3, f4, rfl, rfl, out, x, _, rfl, hx, rfl, ?_⟩
    rw [List.forall₂_map_right_iff]
    refine List.forall₂_same.mpr fun c _ => ?_
    rw [List.forall₂_map_right_iff]
    refine List.forall₂_same.mpr fun y _ => ?_
    rw [← hct]
    exact SampleSet.cell_isCell hG hrt y

theorem consistent_probabilities {s : SampleSet K} {n : Nat} (h : Consistent s n) {p : List K}
    (hp : p.length = n) :
    Consistent { s with glob := { s.glob with probabilities := some p } } n := by
  obtain ⟨h1, _, h3⟩ := h
  refine ⟨⟨h1.values, h1.volumes, fun v hv' => by cases hv'; exact hp, h1.densities,
    h1.jacobians, h1.errorEstimates, h1.right, h1.left, h1.width, h1.kdtreeValues, h1.radii,
    h1.normalizedRadii, h1.region, h1.errorId⟩, fun hn => ?_, h3⟩
  have := hn.probabilities
  cases this

theorem ready_probabilities {s : SampleSet K} {n : Nat} (h : Ready s n) {p : List K}
    (hp : p.length = n) :
    Ready { s with glob := { s.glob with probabilities := some p } } n :=
  ⟨consistent_probabilities h.consistent hp, h.pos, h.values, h.tree, h.rect, h.ball⟩

theorem ready_setVolumes {s : SampleSet K} {n : Nat} (h : Ready s n) {p : List K}
    (hp : p.length = n) :
    Ready { s with glob := { s.glob with volumes := some p } } n :=
  ⟨consistent_setVolumes h.consistent hp, h.pos, h.values, h.tree, h.rect, h.ball⟩

/-- A fresh Voronoi set with tree. -/
theorem ready_tree {dim : Nat} {samples : List (List K)} {s t : SampleSet K}
    (h1 : SampleSet.setValues { dim } samples = .ok s) (h2 : s.setKdtree = .ok t)
    (hpos : 0 < samples.length) :
    Ready t samples.length ∧ t.kind = .voronoi ∧ t.glob.values = some samples ∧
      t.glob.volumes = none ∧ t.glob.probabilities = none := by
  unfold SampleSet.setValues at h1
  split at h1
  · rename_i hc
    cases h1
    simp only [SampleSet.setKdtree, bind_eq_ok, orErr_eq_ok, pure_eq_ok] at h2
    obtain ⟨v, hv, rfl⟩ := h2
    cases hv
    rw [SampleSet.colsOk_iff] at hc
    refine ⟨⟨⟨⟨?_, nofun, nofun, nofun, nofun, nofun, nofun, nofun, nofun, ?_, nofun, nofun,
      nofun, nofun⟩, fun hn => ?_, hc⟩, hpos, rfl, Or.inr rfl, nofun, nofun⟩, rfl, rfl, rfl, rfl⟩
    · intro v hv; cases hv; rfl
    · intro v hv; cases hv; rfl
    · have := hn.values; cases this
  · cases h1

theorem binnedSet_inv {G : Geometry K} {size dim : Nat} {samples : List (List K)}
    {emu : Chunks (List K)} {denom : K} {s : SampleSet K} (hpos : 0 < samples.length)
    (h : binnedSet G size dim samples.length samples emu denom = .ok s) :
    Ready s samples.length ∧ s.kind = .voronoi ∧ s.glob.values = some samples ∧ denom ≠ 0 ∧
      s.glob.probabilities = some ((List.range samples.length).map fun i =>
        (hits (emu.flatten.map (s.cell G)) i : K) / denom) := by
  simp only [binnedSet, bind_eq_ok, raiseIf_eq_ok, pure_eq_ok] at h
  obtain ⟨s1, h1, s2, h2, ⟨s3, ptr⟩, h3, _, h4, rfl⟩ := h
  obtain ⟨hr, hk, hv, -, -⟩ := ready_tree h1 h2 hpos
  obtain ⟨t, ht, hrt, hct, hvt⟩ := SampleSet.query_ready (G := G) (size := size) hr emu
  rw [h3] at ht
  simp only [Except.ok.injEq, Prod.mk.injEq] at ht
  obtain ⟨rfl, rfl⟩ := ht
  obtain ⟨-, -, -, -, f5, -⟩ := SampleSet.query_frame h3
  refine ⟨ready_probabilities hrt (by simp), f5.trans hk, hvt.trans hv, h4, ?_⟩
  have hcell : ∀ p : Option (List K), SampleSet.cell G
      { s3 with glob := { s3.glob with probabilities := p } } = s2.cell G := by
    intro p; rw [← hct]; rfl
  simp only [hcell]
  rw [countVec_eq, List.map_map, ← List.map_flatten]
  rfl

/-- The reference value: the one given, or else the one the data set has. -/
def Spec.UsedReference (ds : DataSet K) (given : Option (List K)) (q : List K) : Prop :=
  given = some q ∨ given = none ∧ ds.inferQ = .ok (some q)

/-- The sizes of the rectangle: the array given, or the number given for every dimension. -/
def Spec.UsedSizes (given : NumArg K) (rs : List K) : Prop :=
  given = .array rs ∨ given = .pylist rs ∨ ∃ x, given = .scalar x ∧ rs = List.replicate rs.length x

theorem checkInputs_reference {size : Nat} {ds : DataSet K} {q : Option (List K)}
    {inp : Inputs K} {qr : List K} (h : ds.checkInputs size q = .ok (inp, qr)) :
    UsedReference ds q qr := by
  simp only [DataSet.checkInputs, bind_eq_ok, orErr_eq_ok, pure_eq_ok, Prod.mk.injEq] at h
  obtain ⟨q', hq, inp', -, qr', h1, -, rfl⟩ := h
  cases q with
  | some q => cases hq; exact Or.inl h1
  | none => subst h1; exact Or.inr ⟨rfl, hq⟩

theorem sizeArray_used {dim : Nat} {a : NumArg K} {rs : List K} (h : sizeArray dim a = .ok rs) :
    UsedSizes a rs := by
  cases a with
  | missing => cases h
  | scalar x => cases h; exact Or.inr (Or.inr ⟨x, rfl, by simp⟩)
  | pylist l => cases h; exact Or.inr (Or.inl rfl)
  | array l => cases h; exact Or.inl rfl

section ordered
variable [IsStrictOrderedRing K]

theorem simpleFunction_of_cellFractions {G : Geometry K} (hG : Sound G) {s ps : SampleSet K}
    {samples pts : List (List K)} (hr : Ready s samples.length) (hk : s.kind = .voronoi)
    (hv : s.glob.values = some samples) (hne : pts ≠ [])
    (hp : s.glob.probabilities = some (cellFractions G s samples.length pts))
    (hg : ps.glob = { s.glob with kdtreeValues := ps.glob.kdtreeValues })
    (hk' : ps.kind = s.kind) (hpn : ps.pNorm = s.pNorm) :
    IsSimpleFunction G ps samples pts := by
  refine ⟨hk'.trans hk, by rw [hg]; exact hv, _, by rw [hg]; exact hp, ?_, ?_⟩
  · have := cellFractions_map hG hr pts
    exact ⟨this.length, by rw [isCell_congr hg hk' hpn]; exact this.fraction⟩
  · exact cellFractions_prob hG hr hne

theorem binned_attach {G : Geometry K} (hG : Sound G) {size dim M : Nat} {ds ds' : DataSet K}
    {samples pts : List (List K)} {emu : Chunks (List K)} {denom : K} {s ps : SampleSet K}
    (hM : samples.length = M) (hpos : 0 < M)
    (h : binnedSet G size dim M samples emu denom = .ok s)
    (h' : ds.attach G size s = .ok (ps, ds'))
    (hfrac : denom ≠ 0 → ∀ i, (hits (emu.flatten.map (s.cell G)) i : K) / denom =
      (hits (pts.map (s.cell G)) i : K) / (pts.length : K)) (hne : denom ≠ 0 → pts ≠ []) :
    IsSimpleFunction G ps samples pts ∧ Attached G ps ds ds' := by
  subst hM
  obtain ⟨hr, hk, hv, hd, hp⟩ := binnedSet_inv hpos h
  obtain ⟨-, hg, hk', hpn, -, -, hat⟩ := attach_ready hG hr h'
  refine ⟨simpleFunction_of_cellFractions hG hr hk hv (hne hd) ?_ hg hk' hpn, hat⟩
  rw [hp, cellFractions]
  congr 1
  exact List.map_congr_left fun i _ => hfrac hd i

/-- **C33.** `uniform_partition_uniform_distribution_rectangle_size` for every outcome of the
random numbers, however the `num` emulated points are spread over the processes: the
probability of each of the `M` cells is the share of the emulated points in it, and the
probabilities are a probability vector. -/
theorem C33_uniform_size {G : Geometry K} (hG : Sound G) {size num : Nat} {ds ds' : DataSet K}
    {q : Option (List K)} {rectSize : NumArg K} {unif : List (List K)} {emu : Chunks (List K)}
    {ps : SampleSet K} (hM : 0 < unif.length) (hnum : emu.flatten.length = num)
    (h : uniformSize G size ds q rectSize unif emu num = .ok (ps, ds')) :
    ∃ rs qr, UsedReference ds q qr ∧ UsedSizes rectSize rs ∧ rs.length = qr.length ∧
      (∀ r ∈ rs, 0 < r) ∧
      IsSimpleFunction G ps (unif.map (stretch (3 / 2) rs qr))
        (emu.flatten.map (stretch 1 rs qr)) ∧ Attached G ps ds ds' := by
  simp only [uniformSize, bind_eq_ok, raiseIf_eq_ok, pure_eq_ok] at h
  obtain ⟨⟨inp, qr⟩, hc, rs, hrs, -, hpos, -, -, -, hlen, s, hs, h⟩ := h
  simp only [not_or, not_not] at hlen
  refine ⟨rs, qr, checkInputs_reference hc, sizeArray_used hrs, hlen.1.trans hlen.2.symm, ?_,
    binned_attach hG (by simp) hM hs h (fun hd i => ?_) ?_⟩
  · intro r hr
    by_contra hn
    exact hpos ⟨r, hr, not_lt.mp hn⟩
  · simp only [List.map_flatten, List.length_flatten, List.map_map, Function.comp_def,
      List.length_map, ← hnum]
  · intro hd h0
    rw [List.map_eq_nil_iff] at h0
    apply hd
    rw [← hnum, h0]; simp

/-- **C33.** `uniform_partition_normal_distribution`, likewise. -/
theorem C33_uniform_normal {G : Geometry K} (hG : Sound G) {size num : Nat} {ds ds' : DataSet K}
    {q std : NumArg K} {unif : List (List K)} {emu : Chunks (List K)}
    {ps : SampleSet K} (hM : 0 < unif.length) (hnum : emu.flatten.length = num)
    (h : uniformNormal G size ds q std unif emu num = .ok (ps, ds')) :
    ∃ sd qr, sd.length = qr.length ∧
      IsSimpleFunction G ps (unif.map (stretch 4 sd qr)) emu.flatten ∧ Attached G ps ds ds' := by
  simp only [uniformNormal, bind_eq_ok, raiseIf_eq_ok, pure_eq_ok] at h
  obtain ⟨q', -, qr, -, sd, -, -, hl, s, hs, h⟩ := h
  refine ⟨sd, qr, not_not.mp hl, binned_attach hG (by simp) hM hs h (fun hd i => by rw [hnum]) ?_⟩
  intro hd h0
  apply hd
  rw [← hnum, h0]; simp

/-- `x` is the image of the uniform numbers `u`: in every coordinate the reference value plus
`c * size * (u - 1/2)`. -/
theorem stretch_getElem? {c : K} {rs qr u : List K} (h1 : rs.length = u.length)
    (h2 : qr.length = u.length) (k : Nat) (hk : k < u.length) :
    (stretch c rs qr u)[k]? = some (c * rs[k] * (u[k] - 1 / 2) + qr[k]) := by
  unfold stretch
  rw [List.getElem?_eq_getElem (by simp; omega)]
  simp

/-- **C33.** Where the points are: uniform numbers in `[0, 1)` are sent into the rectangle with
centre `Q_ref` whose sides are `c` times the sizes; `c` is 1 for the emulated points and 3/2
for the samples that define the cells. -/
theorem C33_support {c : K} (hc : 0 < c) {rs qr u : List K} (h1 : rs.length = u.length)
    (h2 : qr.length = u.length) (hrs : ∀ r ∈ rs, 0 < r) (hu : ∀ x ∈ u, 0 ≤ x ∧ x < 1)
    (k : Nat) (hk : k < u.length) :
    ∃ x, (stretch c rs qr u)[k]? = some x ∧ qr[k] - c * rs[k] / 2 ≤ x ∧
      x < qr[k] + c * rs[k] / 2 := by
  refine ⟨_, stretch_getElem? h1 h2 k hk, ?_, ?_⟩
  · have h3 := (hu _ (List.getElem_mem hk)).1
    have h4 := mul_pos hc (hrs _ (List.getElem_mem (h1 ▸ hk)))
    nlinarith
  · have h3 := (hu _ (List.getElem_mem hk)).2
    have h4 := mul_pos hc (hrs _ (List.getElem_mem (h1 ▸ hk)))
    nlinarith

theorem hits_replicate (size : Nat) (l : List Nat) (i : Nat) :
    hits (List.replicate size l).flatten i = size * hits l i := by
  rw [hits_flatten]
  simp [hits]

/-- **C33.** `user_partition_user_distribution`: the partition has `par.num ≥ 1` samples and the
distribution `dist.num` points. -/
theorem C33_user_partition {G : Geometry K} (hG : Sound G) {size : Nat}
    {ds ds' partition distribution : DataSet K} {ps : SampleSet K} {samples pts : List (List K)}
    {dimP dimD : Nat} (hM : 0 < samples.length)
    (hpar : partition.inputs size = .ok ⟨samples.length, dimP, some samples⟩)
    (hdist : distribution.inputs size = .ok ⟨pts.length, dimD, some pts⟩)
    (h : userPartition G size ds partition distribution = .ok (ps, ds')) :
    IsSimpleFunction G ps samples pts ∧ Attached G ps ds ds' := by
  simp only [userPartition, bind_eq_ok, raiseIf_eq_ok, pure_eq_ok, orErr_eq_ok, hpar, hdist,
    Except.ok.injEq] at h
  obtain ⟨dim, -, par, rfl, samples', hsa, dist, rfl, pts', hpts, -, -, s, hs, h⟩ := h
  cases hsa
  cases hpts
  refine binned_attach hG rfl hM hs h (fun hd i => ?_) ?_
  · rw [List.map_flatten, List.map_replicate, hits_replicate]
    push_cast at hd ⊢
    have h1 : (pts.length : K) ≠ 0 := fun h0 => hd (by rw [h0, zero_mul])
    have h2 : (size : K) ≠ 0 := fun h0 => hd (by rw [h0, mul_zero])
    rw [mul_comm, mul_div_mul_right _ _ h2]
  · rintro hd rfl
    simp at hd

/-- **C33.** `uniform_partition_uniform_distribution_data_samples`: every sample of the data gets
probability `1/num`, where `num ≥ 1` is the number of samples. -/
theorem C33_data_samples {G : Geometry K} (hG : Sound G) {size n : Nat} {ds ds' : DataSet K}
    {s0 ps : SampleSet K} (hs0 : ds.asSet size = .ok (s0, n)) (hr : Ready s0 n)
    (h : dataSamples G size ds = .ok (ps, ds')) :
    ps.glob.values = s0.glob.values ∧
    (∃ p, ps.glob.probabilities = some p ∧ IsProbVector p ∧ p.length = n ∧
      ∀ x ∈ p, x = 1 / (n : K)) ∧ Attached G ps ds ds' := by
  simp only [dataSamples, hs0, ok_bind] at h
  obtain ⟨-, hg, -, -, -, -, hat⟩ := attach_ready hG (ready_probabilities hr (by simp)) h
  refine ⟨by rw [hg], ⟨List.replicate n (1 / (n : K)), by rw [hg], ⟨?_, ?_⟩, by simp, ?_⟩, hat⟩
  · intro x hx
    rw [List.eq_of_mem_replicate hx]
    positivity
  · have : (n : K) ≠ 0 := by exact_mod_cast hr.pos.ne'
    simp [List.sum_replicate, this]
  · intro x hx
    exact List.eq_of_mem_replicate hx

end ordered

end BET
