import Verif.Props.SimpleFun2

/-!
# C35: scaled and domain variants; C67: shares of the emulated points; C68: argument forms
-/

set_option autoImplicit false
set_option linter.unusedSectionVars false
set_option linter.unusedSimpArgs false

namespace BET

open Spec

variable {K : Type} [Field K] [LinearOrder K]

/-- `w` has the extent of every column of `v`: largest minus smallest entry. -/
def Spec.IsExtent (v : List (List K)) (w : List K) : Prop :=
  ∀ (k : Nat) (x : K), w[k]? = some x → ∃ hi lo,
    IsGreatest {y | ∃ row ∈ v, row[k]? = some y} hi ∧
    IsLeast {y | ∃ row ∈ v, row[k]? = some y} lo ∧ x = hi - lo

theorem foldl_zipWith_length (f : K → K → K) (d : Nat) (rs : List (List K)) (r : List K)
    (hr : r.length = d) (h : ∀ row ∈ rs, row.length = d) :
    (rs.foldl (List.zipWith f) r).length = d := by
  induction rs generalizing r with
  | nil => exact hr
  | cons a rs ih =>
    rw [List.foldl_cons]
    exact ih _ (by simp [hr, h a (by simp)]) (fun row hrow => h row (by simp [hrow]))

theorem foldl_zipWith_get (f : K → K → K) (k d : Nat) (hk : k < d) (rs : List (List K))
    (r : List K) (hr : r.length = d) (h : ∀ row ∈ rs, row.length = d) :
    (rs.foldl (List.zipWith f) r)[k]? =
      some ((rs.map fun row => row.getD k 0).foldl f (r.getD k 0)) := by
  induction rs generalizing r with
  | nil =>
    simp [List.getElem?_eq_getElem (show k < r.length by omega)]
  | cons a rs ih =>
    have ha := h a (by simp)
    rw [List.foldl_cons, ih _ (by simp [hr, ha]) (fun row hrow => h row (by simp [hrow]))]
    simp only [List.map_cons, List.foldl_cons]
    congr 2
    rw [List.getD_eq_getElem?_getD, List.getElem?_zipWith,
      List.getElem?_eq_getElem (show k < r.length by omega),
      List.getElem?_eq_getElem (show k < a.length by omega)]
    simp [List.getElem?_eq_getElem (show k < r.length by omega),
      List.getElem?_eq_getElem (show k < a.length by omega)]

theorem foldl_max_isGreatest (l : List K) (a : K) :
    IsGreatest {y | y ∈ a :: l} (l.foldl max a) := by
  induction l generalizing a with
  | nil => simp [IsGreatest, upperBounds]
  | cons b l ih =>
    obtain ⟨h1, h2⟩ := ih (max a b)
    rw [List.foldl_cons]
    constructor
    · rcases List.mem_cons.mp h1 with h | h
      · rcases max_choice a b with e | e
        · rw [h, e]; simp
        · rw [h, e]; simp
      · simp only [Set.mem_ofPred_eq, List.mem_cons]
        exact Or.inr (Or.inr h)
    · intro y hy
      have h3 : max a b ≤ l.foldl max (max a b) := h2 (List.mem_cons_self ..)
      rcases List.mem_cons.mp hy with rfl | hy
      · exact (le_max_left _ _).trans h3
      · rcases List.mem_cons.mp hy with rfl | hy
        · exact (le_max_right _ _).trans h3
        · exact h2 (List.mem_cons_of_mem _ hy)

theorem foldl_min_isLeast (l : List K) (a : K) :
    IsLeast {y | y ∈ a :: l} (l.foldl min a) := by
  induction l generalizing a with
  | nil => simp [IsLeast, lowerBounds]
  | cons b l ih =>
    obtain ⟨h1, h2⟩ := ih (min a b)
    rw [List.foldl_cons]
    constructor
    · rcases List.mem_cons.mp h1 with h | h
      · rcases min_choice a b with e | e
        · rw [h, e]; simp
        · rw [h, e]; simp
      · simp only [Set.mem_ofPred_eq, List.mem_cons]
        exact Or.inr (Or.inr h)
    · intro y hy
      have h3 : l.foldl min (min a b) ≤ min a b := h2 (List.mem_cons_self ..)
      rcases List.mem_cons.mp hy with rfl | hy
      · exact h3.trans (min_le_left _ _)
      · rcases List.mem_cons.mp hy with rfl | hy
        · exact h3.trans (min_le_right _ _)
        · exact h2 (List.mem_cons_of_mem _ hy)

theorem column_eq (r : List K) (rs : List (List K)) (k d : Nat) (hk : k < d)
    (h : ∀ row ∈ r :: rs, row.length = d) :
    {y | ∃ row ∈ r :: rs, row[k]? = some y} =
      {y | y ∈ r.getD k 0 :: rs.map fun row => row.getD k 0} := by
  ext y
  simp only [Set.mem_ofPred_eq]
  have hg : ∀ row ∈ r :: rs, row[k]? = some (row.getD k 0) := by
    intro row hrow
    have := h row hrow
    simp [List.getElem?_eq_getElem (show k < row.length by omega)]
  constructor
  · rintro ⟨row, hrow, hy⟩
    rw [hg row hrow] at hy
    cases hy
    rcases List.mem_cons.mp hrow with rfl | hrow
    · exact List.mem_cons_self ..
    · exact List.mem_cons_of_mem _ (List.mem_map.mpr ⟨row, hrow, rfl⟩)
  · intro hy
    rcases List.mem_cons.mp hy with rfl | hy
    · exact ⟨r, by simp, hg r (by simp)⟩
    · obtain ⟨row, hrow, rfl⟩ := List.mem_map.mp hy
      exact ⟨row, by simp [hrow], hg row (by simp [hrow])⟩

theorem extent_isExtent {v : List (List K)} {d : Nat} (hv : v ≠ [])
    (h : ∀ row ∈ v, row.length = d) :
    ∃ w, extent v = .ok w ∧ w.length = d ∧ IsExtent v w := by
  cases v with
  | nil => exact absurd rfl hv
  | cons r rs =>
    have hr := h r (by simp)
    have hrs : ∀ row ∈ rs, row.length = d := fun row hrow => h row (by simp [hrow])
    refine ⟨_, rfl, ?_, ?_⟩
    · simp [foldl_zipWith_length _ d rs r hr hrs]
    · intro k x hx
      have hk : k < d := by
        have := (List.getElem?_eq_some_iff.mp hx).1
        simpa [foldl_zipWith_length _ d rs r hr hrs] using this
      rw [List.getElem?_zipWith, foldl_zipWith_get _ k d hk rs r hr hrs,
        foldl_zipWith_get _ k d hk rs r hr hrs] at hx
      refine ⟨_, _, ?_, ?_, (Option.some.inj hx).symm⟩
      · rw [column_eq r rs k d hk h]; exact foldl_max_isGreatest _ _
      · rw [column_eq r rs k d hk h]; exact foldl_min_isLeast _ _

theorem checkInputs_some {size : Nat} {ds : DataSet K} {q : Option (List K)} {inp : Inputs K}
    {qr : List K} (h : ds.checkInputs size q = .ok (inp, qr)) :
    ds.checkInputs size (some qr) = .ok (inp, qr) := by
  simp only [DataSet.checkInputs, bind_eq_ok, orErr_eq_ok, pure_eq_ok, Prod.mk.injEq] at h ⊢
  obtain ⟨q', hq, inp', hi, qr', h1, rfl, rfl⟩ := h
  exact ⟨some qr', rfl, inp', hi, qr', rfl, rfl, rfl⟩

theorem uniformSize_reference {G : Geometry K} {size : Nat} {ds : DataSet K}
    {q : Option (List K)} {inp : Inputs K} {qr : List K}
    (h : ds.checkInputs size q = .ok (inp, qr)) (rs : NumArg K) (unif : List (List K))
    (emu : Chunks (List K)) (num : Nat) :
    uniformSize G size ds (some qr) rs unif emu num = uniformSize G size ds q rs unif emu num := by
  unfold uniformSize
  rw [h, checkInputs_some h]

theorem regularSize_reference {G : Geometry K} {size : Nat} {ds : DataSet K}
    {q : Option (List K)} {inp : Inputs K} {qr : List K}
    (h : ds.checkInputs size q = .ok (inp, qr)) (rs : NumArg K) (cells : CellArg) :
    regularSize G size ds (some qr) rs cells = regularSize G size ds q rs cells := by
  unfold regularSize
  rw [h, checkInputs_some h]

/-- **C35.** `..._rectangle_scaled` with one scale for all coordinates: what `..._rectangle_size`
returns for `rect_size = scale * extent of the data`; both for the uniform and the regular
partition.  `v` are the output data, with `d` columns. -/
theorem C35_scaled {G : Geometry K} {size d : Nat} {ds : DataSet K} {q : Option (List K)}
    {inp : Inputs K} {qr : List K} {v : List (List K)}
    (hin : ds.checkInputs size q = .ok (inp, qr)) (hv : inp.values = some v) (hne : v ≠ [])
    (hd : ∀ row ∈ v, row.length = d) (scale : K) :
    ∃ w, IsExtent v w ∧ w.length = d ∧
      (∀ unif emu num, uniformScaled G size ds q (.scalar scale) unif emu num =
        uniformSize G size ds q (.array (w.map (· * scale))) unif emu num) ∧
      ∀ cells, regularScaled G size ds q (.scalar scale) cells =
        regularSize G size ds q (.array (w.map (· * scale))) cells := by
  obtain ⟨w, hw, hl, he⟩ := extent_isExtent hne hd
  refine ⟨w, he, hl, fun unif emu num => ?_, fun cells => ?_⟩
  · rw [← uniformSize_reference hin]
    simp only [uniformScaled, hin, ok_bind, hv, orErr_some, hw, scaleBy]
    rfl
  · rw [← regularSize_reference hin]
    simp only [regularScaled, hin, ok_bind, hv, orErr_some, hw, scaleBy]
    rfl

/-- **C35.** The same with one scale per coordinate, given as list or array. -/
theorem C35_scaled_each {G : Geometry K} {size d : Nat} {ds : DataSet K} {q : Option (List K)}
    {inp : Inputs K} {qr : List K} {v : List (List K)}
    (hin : ds.checkInputs size q = .ok (inp, qr)) (hv : inp.values = some v) (hne : v ≠ [])
    (hd : ∀ row ∈ v, row.length = d) (scale : List K) (hs : scale.length = d) (a : NumArg K)
    (ha : a = .array scale ∨ a = .pylist scale) :
    ∃ w, IsExtent v w ∧ w.length = d ∧
      (∀ unif emu num, uniformScaled G size ds q a unif emu num =
        uniformSize G size ds q (.array (List.zipWith (· * ·) w scale)) unif emu num) ∧
      ∀ cells, regularScaled G size ds q a cells =
        regularSize G size ds q (.array (List.zipWith (· * ·) w scale)) cells := by
  obtain ⟨w, hw, hl, he⟩ := extent_isExtent hne hd
  have hsc : scaleBy w a = .ok (List.zipWith (· * ·) w scale) := by
    rcases ha with rfl | rfl <;> simp [scaleBy, hl, hs] <;> rfl
  refine ⟨w, he, hl, fun unif emu num => ?_, fun cells => ?_⟩
  · rw [← uniformSize_reference hin]
    simp only [uniformScaled, hin, ok_bind, hv, orErr_some, hw, hsc]
  · rw [← regularSize_reference hin]
    simp only [regularScaled, hin, ok_bind, hv, orErr_some, hw, hsc]

/-- **C35.** `..._rectangle_domain` for a rectangle given by two opposite corners `a` and `b`: what
`..._rectangle_size` returns for a centre and sizes whose rectangle reaches exactly from the
smaller to the larger coordinate of the corners. -/
theorem C35_domain [IsStrictOrderedRing K] {G : Geometry K} {size : Nat} {ds : DataSet K}
    {inp : Inputs K} (hin : ds.inputs size = .ok inp) (hv : inp.values.isSome) {a b : List K}
    (hab : a.length = b.length) :
    ∃ centre lengths,
      List.zipWith (fun c l => c - l / 2) centre lengths = List.zipWith min a b ∧
      List.zipWith (fun c l => c + l / 2) centre lengths = List.zipWith max a b ∧
      centre.length = a.length ∧ lengths.length = a.length ∧
      (∀ unif emu num, uniformDomain G size ds [a, b] unif emu num =
        uniformSize G size ds (some centre) (.array lengths) unif emu num) ∧
      ∀ cells, regularDomain G size ds [a, b] cells =
        regularSize G size ds (some centre) (.array lengths) cells := by
  obtain ⟨v, hv⟩ := Option.isSome_iff_exists.mp hv
  refine ⟨(List.zipWith (· + ·) a b).map (· / (2 : K)),
    List.zipWith (fun x y => x - y) (List.zipWith max a b) (List.zipWith min a b), ?_, ?_,
    by simp [hab], by simp [hab], fun unif emu num => ?_, fun cells => ?_⟩
  · apply List.ext_getElem (by simp)
    intro k h1 h2
    simp only [List.length_zipWith] at h2
    simp only [List.getElem_zipWith, List.getElem_map]
    have := min_add_max (a[k]'(by omega)) (b[k]'(by omega))
    linarith
  · apply List.ext_getElem (by simp)
    intro k h1 h2
    simp only [List.length_zipWith] at h2
    simp only [List.getElem_zipWith, List.getElem_map]
    have := min_add_max (a[k]'(by omega)) (b[k]'(by omega))
    linarith
  · simp [uniformDomain, hin, hv, colMean, extent, colFold, raiseIf, orErr]
  · simp [regularDomain, hin, hv, colMean, extent, colFold, raiseIf, orErr]

/-! ### C67, C68 -/

/-- **C67 (part).** The constructors that count emulated points give every cell the share of the
points in it: the uniform partition with uniform or normal distribution, and the partition by the
user.  Missing: `normal_partition_normal_distribution`, for which it is false. -/
theorem C67_shares_partial [IsStrictOrderedRing K] {G : Geometry K} (hG : Sound G)
    {size num : Nat} {ds ds' : DataSet K} {ps : SampleSet K} :
    (∀ q rectSize unif emu, 0 < unif.length → emu.flatten.length = num →
      uniformSize G size ds q rectSize unif emu num = .ok (ps, ds') →
      ∃ rs qr, UsedReference ds q qr ∧ UsedSizes rectSize rs ∧
        IsSimpleFunction G ps (unif.map (stretch (3 / 2) rs qr))
          (emu.flatten.map (stretch 1 rs qr))) ∧
    (∀ q std unif emu, 0 < unif.length → emu.flatten.length = num →
      uniformNormal G size ds q std unif emu num = .ok (ps, ds') →
      ∃ samples, IsSimpleFunction G ps samples emu.flatten) ∧
    (∀ dim samples pts, 0 < samples.length →
      userPartition G size ds (.array dim samples) (.array dim pts) = .ok (ps, ds') →
      IsSimpleFunction G ps samples pts) := by
  refine ⟨?_, ?_, ?_⟩
  · intro q rectSize unif emu hM hn h
    obtain ⟨rs, qr, h1, h2, -, -, h3, -⟩ := C33_uniform_size hG hM hn h
    exact ⟨rs, qr, h1, h2, h3⟩
  · intro q std unif emu hM hn h
    obtain ⟨sd, qr, -, h3, -⟩ := C33_uniform_normal hG hM hn h
    exact ⟨_, h3⟩
  · intro dim samples pts hM h
    exact (C33_user_partition hG hM rfl rfl h).1

theorem binnedSet_total {G : Geometry K} {size dim M : Nat} {samples : List (List K)}
    {emu : Chunks (List K)} {denom : K} (hM : samples.length = M) (hpos : 0 < M)
    (hs : ∀ row ∈ samples, row.length = dim) (hd : denom ≠ 0) :
    ∃ s, binnedSet G size dim M samples emu denom = .ok s := by
  subst hM
  have hc : SampleSet.colsOk dim (some samples) = true := by
    rw [SampleSet.colsOk_iff]
    intro v hv; cases hv; exact hs
  have h1 : SampleSet.setValues { dim } samples =
      .ok { dim, glob := { values := some samples } } := by
    unfold SampleSet.setValues
    rw [if_pos hc]
  have h2 : SampleSet.setKdtree (K := K) { dim, glob := { values := some samples } } =
      .ok { dim, kdtree := some samples,
            glob := { values := some samples, kdtreeValues := some samples } } := rfl
  obtain ⟨hr, -⟩ := ready_tree h1 h2 hpos
  obtain ⟨t, ht, -⟩ := SampleSet.query_ready (G := G) (size := size) hr emu
  unfold binnedSet
  simp only [h1, h2, ht, ok_bind, raiseIf_false hd]
  exact ⟨_, rfl⟩

theorem length_stretch {c : K} {rs qr u : List K} {d : Nat} (h1 : rs.length = d)
    (h2 : qr.length = d) (h3 : u.length = d) : (stretch c rs qr u).length = d := by
  simp [stretch, h1, h2, h3]

/-- **C68 (part).** `uniform_partition_uniform_distribution_rectangle_size` accepts a positive
number or an array of positive sizes for an array of output data.  Missing: a Python list, which
the documentation allows and the code rejects. -/
theorem C68_accepts_partial [CharZero K] {G : Geometry K} {size d num : Nat} {v : List (List K)}
    {q : List K} (hq : q.length = d) {a : NumArg K} {rs : List K} (hrs : ∀ r ∈ rs, 0 < r)
    (ha : (∃ x, a = .scalar x ∧ rs = List.replicate d x) ∨ a = .array rs ∧ rs.length = d)
    {unif : List (List K)} (hM : 0 < unif.length) (hu : ∀ row ∈ unif, row.length = d)
    (emu : Chunks (List K)) (hnum : 0 < num) :
    ∃ ps, uniformSize G size (.array d v) (some q) a unif emu num = .ok (ps, .array d v) := by
  have hsz : sizeArray d a = .ok rs := by
    rcases ha with ⟨x, rfl, rfl⟩ | ⟨rfl, -⟩ <;> rfl
  have hlen : rs.length = d := by
    rcases ha with ⟨x, rfl, rfl⟩ | ⟨rfl, h⟩
    · simp
    · exact h
  have hpl : notPyList a = .ok () := by
    rcases ha with ⟨x, rfl, rfl⟩ | ⟨rfl, -⟩ <;> rfl
  have hneg : ¬ ∃ r ∈ rs, r ≤ 0 := by
    rintro ⟨r, hr, h0⟩
    exact absurd (hrs r hr) (not_lt.mpr h0)
  obtain ⟨s, hs⟩ := binnedSet_total (G := G) (size := size) (dim := d) (M := unif.length)
    (samples := unif.map (stretch (3 / 2) rs q)) (emu := emu.map fun ch => ch.map (stretch 1 rs q))
    (denom := (num : K)) (by simp) hM (by
      intro row hrow
      obtain ⟨u, hu', rfl⟩ := List.mem_map.mp hrow
      exact length_stretch hlen hq (hu u hu')) (by exact_mod_cast hnum.ne')
  refine ⟨s, ?_⟩
  have hci : (DataSet.array d v).checkInputs size (some q) = .ok (⟨v.length, d, some v⟩, q) := rfl
  simp only [uniformSize, hci, ok_bind, hsz, raiseIf_false hneg, hpl, hlen, hq, ne_eq,
    not_true_eq_false, or_self, raiseIf_false not_false, hs, DataSet.attach]
  rfl

end BET

/-! ### Concrete cases -/

namespace BET.Ex

open Spec

/-- One output sample set in one dimension with a reference value. -/
def outSet : SampleSet ℚ :=
  { dim := 1, glob := { values := some [[0], [2]] }, referenceValue := some [1] }

/-- C33: two cells, four emulated points on two processes. -/
example : ((uniformSize G 2 (.set outSet) none (.scalar 1) [[1/4], [3/4]]
    [[[1/8], [1/2]], [[7/8], [15/16]]] 4).toOption.bind fun r =>
      r.1.glob.probabilities) = some [1/2, 1/2] := by decide +kernel

/-- C33: the same for a discretization, which gets pointers. -/
example : ((uniformSize G 1 (.disc { input := some outSet, output := some outSet }) (some [1])
    (.array [1]) [[1/4], [3/4]] [[[1/8], [1/2], [7/8], [15/16]]] 4).toOption.bind fun r =>
      match r.2 with
      | .disc d => d.ioPtrLocal
      | _ => none) = some [[0, 1]] := by decide +kernel

example : ((uniformNormal G 1 (.set outSet) .missing (.scalar 1) [[1/4], [3/4]]
    [[[0], [3], [5/2]]] 3).toOption.bind fun r =>
      r.1.glob.probabilities) = some [1/3, 2/3] := by decide +kernel

example : ((userPartition G 2 (.set outSet) (.array 1 [[0], [1]])
    (.array 1 [[1/4], [3/4], [1]])).toOption.bind fun r =>
      r.1.glob.probabilities) = some [1/3, 2/3] := by decide +kernel

example : (DataSet.array 1 [[(1/4 : ℚ)], [3/4], [1]]).inputs 2 =
    .ok ⟨[[(1/4 : ℚ)], [3/4], [1]].length, 1, some [[1/4], [3/4], [1]]⟩ := rfl

example : ((dataSamples G 1 (.set outSet)).toOption.bind fun r =>
      r.1.glob.probabilities) = some [1/2, 1/2] := by decide +kernel

example : Ready outSet 2 :=
  ⟨consistent_of _ _ rfl rfl, by norm_num, rfl, Or.inl rfl, nofun, nofun⟩

/-- C33: a positive function in place of the density. -/
example : ((normalNormal G 1 (.set outSet) .missing (.scalar 1) (fun _ => 1/2) [[0], [1]]
    [[[0], [3], [5/2]]]).toOption.bind fun r =>
      r.1.glob.probabilities) = some [1/5, 4/5] := by decide +kernel

/-- C34: two cells times one. -/
example : ((regularSize G 1 (.array 2 []) (some [0, 1]) (.scalar 2) (.list [2, 1])).toOption.bind
    fun r => r.1.glob.probabilities) = some [1/2, 1/2, 0] := by decide +kernel

example : ((regularSize G 1 (.array 2 []) (some [0, 1]) (.scalar 2) (.list [2, 1])).toOption.bind
    fun r => r.1.glob.left.map (List.take 2)) = some [[-1, 0], [0, 0]] := by decide +kernel

example : ((regularSize G 1 (.array 2 []) (some [0, 1]) (.scalar 2) (.list [2, 1])).toOption.map
    fun r => r.1.dim) = some 2 := by decide +kernel

/-- C35. -/
example : ((DataSet.set outSet).checkInputs 1 none).toOption.map Prod.snd = some [1] := by
  decide +kernel

example : ((regularScaled G 1 (.set outSet) none (.scalar (1/2)) (.scalar 2)).toOption.bind
    fun r => r.1.glob.left.map (List.take 2)) = some [[1/2], [1]] := by decide +kernel

example : ((regularDomain G 1 (.set outSet) [[0], [4]] (.scalar 2)).toOption.bind
    fun r => r.1.glob.left.map (List.take 2)) = some [[0], [2]] := by decide +kernel

example : ((uniformDomain G 1 (.set outSet) [[0], [4]] [[1/2]] [[[1/4]]] 1).toOption.bind
    fun r => r.1.glob.values) = some [[2]] := by decide +kernel

/-! ### C67, C68: what does not hold -/

/-- **C67, negation.** `normal_partition_normal_distribution` does not give a cell the share of the
emulated points in it, even where the density is constant: one of three points is in the first
cell, whose probability is 1/5. -/
theorem C67_negation_normal :
    ¬ ∀ (ds ds' : DataSet ℚ) (pdf : List ℚ → ℚ) (samples : List (List ℚ))
      (emu : Chunks (List ℚ)) (ps : SampleSet ℚ),
      (∀ x, 0 < pdf x) → 0 < samples.length →
      normalNormal G 1 ds .missing (.scalar 1) pdf samples emu = .ok (ps, ds') →
      IsSimpleFunction G ps samples emu.flatten := by
  intro h
  have hrun : ∃ r, normalNormal G 1 (.set outSet) .missing (.scalar 1) (fun _ => 1/2) [[0], [1]]
      [[[0], [3], [5/2]]] = .ok r ∧ r.1.glob.probabilities = some [1/5, 4/5] := by
    have h1 : ((normalNormal G 1 (.set outSet) .missing (.scalar 1) (fun _ => 1/2) [[0], [1]]
      [[[0], [3], [5/2]]]).toOption.bind fun r => r.1.glob.probabilities) = some [1/5, 4/5] := by
      decide +kernel
    cases hn : normalNormal G 1 (.set outSet) .missing (.scalar 1) (fun _ => 1/2) [[0], [1]]
      [[[0], [3], [5/2]]] with
    | error e => rw [hn] at h1; cases h1
    | ok r => rw [hn] at h1; exact ⟨r, rfl, h1⟩
  obtain ⟨⟨ps, ds'⟩, hrun, hp⟩ := hrun
  obtain ⟨-, -, p, hp', hf, -⟩ := h _ _ _ _ _ _ (fun _ => by norm_num) (by simp) hrun
  rw [hp] at hp'
  cases hp'
  obtain ⟨cells, -, hc⟩ := hf.fraction
  have h0 := hc 0 (by simp)
  simp only [List.getElem?_cons_zero, Option.some.injEq, List.flatten_cons, List.flatten_nil,
    List.append_nil, List.length_cons, List.length_nil] at h0
  have h5 : (hits cells 0 : ℚ) * 5 = 3 := by
    push_cast at h0
    field_simp at h0
    linarith
  have h6 : hits cells 0 * 5 = 3 := by exact_mod_cast h5
  omega

/-- **C68, negation.** `rect_size` may not be a Python list in
`uniform_partition_uniform_distribution_rectangle_size`, although the same list is accepted as
array. -/
theorem C68_negation_list :
    errOf (uniformSize G 1 (.set outSet) none (.pylist [1]) [[1/4], [3/4]] [[[1/8]]] 1) =
      some .typeError ∧
    errOf (uniformSize G 1 (.set outSet) none (.array [1]) [[1/4], [3/4]] [[[1/8]]] 1) = none := by
  decide +kernel

end BET.Ex
