import Verif.Props.Volumes

/-!
# C29, C30, C32: discretizations
-/

set_option linter.unusedSectionVars false
set_option linter.unusedSimpArgs false
set_option autoImplicit false

namespace BET

open Spec

/-! ### C29 -/

section c29
variable {K : Type}

/-- The input and output samples of a discretization in pairs. -/
def Spec.IsPairing (d : Disc K) (ps : List (List K × List K)) : Prop :=
  ∃ i o, d.input = some i ∧ d.output = some o ∧
    i.glob.values = some (ps.map Prod.fst) ∧ o.glob.values = some (ps.map Prod.snd)

theorem checkNums_ok {d : Disc K} {i o : SampleSet K} {n : Nat} (hi : d.input = some i)
    (ho : d.output = some o) (hic : Consistent i n) (hoc : Consistent o n) (size : Nat) :
    d.checkNums size = .ok n := by
  unfold Disc.checkNums
  simp [hi, ho, SampleSet.checkNum_consistent hic, SampleSet.checkNum_consistent hoc, pure,
    Except.pure]

/-- **C29.** A discretization of `n` inputs and `m` outputs can be made if `n = m`, and raises
`length_not_matching` if not; so does every later `check_nums`. -/
theorem C29_construction {i o : SampleSet K} {n m : Nat} (hi : Consistent i n)
    (ho : Consistent o m) (hiv : i.glob.values.isSome) (hov : o.glob.values.isSome) (size : Nat)
    (ps ei eo : Option (SampleSet K)) :
    (n = m → Disc.new size (some i) (some o) ps ei eo = .ok
      { input := some i, output := some o, outputProb := ps, emInput := ei, emOutput := eo }) ∧
    (n ≠ m → Disc.new size (some i) (some o) ps ei eo = .error .lengthNotMatching) ∧
    (∀ d : Disc K, d.input = some i → d.output = some o →
      (n = m → d.checkNums size = .ok n) ∧
      (n ≠ m → d.checkNums size = .error .lengthNotMatching)) := by
  have key : ∀ d : Disc K, d.input = some i → d.output = some o →
      (n = m → d.checkNums size = .ok n) ∧
      (n ≠ m → d.checkNums size = .error .lengthNotMatching) := by
    intro d hdi hdo
    constructor
    · rintro rfl
      exact checkNums_ok hdi hdo hi ho size
    · intro hne
      unfold Disc.checkNums
      simp [hdi, hdo, SampleSet.checkNum_consistent hi, SampleSet.checkNum_consistent ho,
        Ne.symm hne, hiv, hov, throw, throwThe, MonadExceptOf.throw]
  refine ⟨?_, ?_, key⟩
  · intro h
    simp [Disc.new, (key ⟨some i, some o, ps, ei, eo, none, none, none, none, none, none⟩ rfl
      rfl).1 h, pure, Except.pure]
  · intro h
    simp [Disc.new, (key ⟨some i, some o, ps, ei, eo, none, none, none, none, none, none⟩ rfl
      rfl).2 h]

/-- **C29.** `clip` keeps the first pairs. -/
theorem C29_clip {d : Disc K} {ps : List (List K × List K)} (hp : IsPairing d ps) {n : Nat}
    {i o : SampleSet K} (hi : d.input = some i) (ho : d.output = some o) (hic : Consistent i n)
    (hoc : Consistent o n) (size k : Nat) :
    ∃ d', d.clip size k = .ok d' ∧ IsPairing d' (ps.take k) ∧ d'.checkNums size = .ok (min k n) ∧
      d'.outputProb = d.outputProb := by
  obtain ⟨i', o', hi', ho', hiv, hov⟩ := hp
  rw [hi] at hi'
  rw [ho] at ho'
  cases hi'
  cases ho'
  obtain ⟨ci, h1, hc1, hg1, _⟩ := clip_ok hic hiv size k
  obtain ⟨co, h2, hc2, hg2, _⟩ := clip_ok hoc hov size k
  have hv1 : ci.glob.values = some ((ps.take k).map Prod.fst) := by
    rw [hg1, List.map_take]; simp [Arrays.map, hiv]
  have hv2 : co.glob.values = some ((ps.take k).map Prod.snd) := by
    rw [hg2, List.map_take]; simp [Arrays.map, hov]
  have hnew := (C29_construction hc1 hc2 (by simp [hv1]) (by simp [hv2]) size d.outputProb
    d.emInput d.emOutput).1 rfl
  have hrun : d.clip size k = .ok { input := some ci, output := some co
                                    outputProb := d.outputProb, emInput := d.emInput
                                    emOutput := d.emOutput } := by
    unfold Disc.clip
    simp only [hi, ho, orErr_some, ok_bind, h1, h2, hnew]
  exact ⟨_, hrun, ⟨ci, co, rfl, rfl, hv1, hv2⟩, checkNums_ok rfl rfl hc1 hc2 size, rfl⟩

theorem zip_merge {α β : Type} {a b : List (List α)} {a' b' : List (List β)}
    (ha : SameShape a a') (hb : SameShape b b') :
    (List.zipWith (· ++ ·) a b).flatten.zip (List.zipWith (· ++ ·) a' b').flatten =
      (List.zipWith (· ++ ·) (List.zipWith List.zip a a') (List.zipWith List.zip b b')).flatten := by
  induction ha generalizing b b' with
  | nil => simp
  | @cons x x' as as' hx _ ih =>
    cases hb with
    | nil => simp
    | @cons y y' bs bs' hy hbs =>
      simp only [List.zipWith_cons_cons, List.flatten_cons]
      rw [List.zip_append (by simp [hx, hy]), List.zip_append hx, ih hbs]

theorem zipWith_zip_arraySplit {α β : Type} (p : Nat) (xs : List α) (ys : List β)
    (h : xs.length = ys.length) :
    List.zipWith List.zip (arraySplit p xs) (arraySplit p ys) = arraySplit p (xs.zip ys) := by
  simp only [arraySplit, List.zipWith_map, List.zipWith_self, List.length_zip, h, Nat.min_self]
  refine List.map_congr_left fun r _ => ?_
  rw [List.zip_eq_zipWith, List.zip_eq_zipWith, List.drop_zipWith, List.take_zipWith]

variable [DecidableEq K]

/-- **C29.** `merge` of two discretizations (which must have emulated sets) has exactly the
pairs of the two, each as often as they have it. -/
theorem C29_merge {d e : Disc K} {size : Nat} (hsize : 0 < size)
    {di do_ dei deo ei eo eei eeo : SampleSet K} {n m k₁ k₂ l₁ l₂ : Nat}
    {ps qs : List (List K × List K)} (hdp : IsPairing d ps) (hep : IsPairing e qs)
    (hdi : d.input = some di) (hdo : d.output = some do_) (hei : e.input = some ei)
    (heo : e.output = some eo) (hdei : d.emInput = some dei) (hdeo : d.emOutput = some deo)
    (heei : e.emInput = some eei) (heeo : e.emOutput = some eeo)
    (mi : Mergeable di ei n m) (mo : Mergeable do_ eo n m) (mei : Mergeable dei eei k₁ k₂)
    (meo : Mergeable deo eeo l₁ l₂) :
    ∃ r rs, d.merge size e = .ok r ∧ IsPairing r rs ∧ rs.Perm (ps ++ qs) ∧
      (size = 1 → rs = ps ++ qs) ∧ r.checkNums size = .ok (n + m) := by
  obtain ⟨i, o, hi, ho, hiv, hov⟩ := hdp
  rw [hdi] at hi; cases hi
  rw [hdo] at ho; cases ho
  obtain ⟨i, o, hi, ho, hiv', hov'⟩ := hep
  rw [hei] at hi; cases hi
  rw [heo] at ho; cases ho
  obtain ⟨dv, hdv⟩ := Option.isSome_iff_exists.mp mei.values₁
  obtain ⟨ev, hev⟩ := Option.isSome_iff_exists.mp mei.values₂
  obtain ⟨dw, hdw⟩ := Option.isSome_iff_exists.mp meo.values₁
  obtain ⟨ew, hew⟩ := Option.isSome_iff_exists.mp meo.values₂
  have h1 := merge_ok (size := size) mi.dims mi.domains mi.cons₁ mi.cons₂ hiv hiv' mi.loc₁ mi.loc₂
  have h2 := merge_ok (size := size) mo.dims mo.domains mo.cons₁ mo.cons₂ hov hov' mo.loc₁ mo.loc₂
  have h3 := merge_ok (size := size) mei.dims mei.domains mei.cons₁ mei.cons₂ hdv hev mei.loc₁
    mei.loc₂
  have h4 := merge_ok (size := size) meo.dims meo.domains meo.cons₁ meo.cons₂ hdw hew meo.loc₁
    meo.loc₂
  obtain ⟨ri, _, _, vi, hri, hvi, _, _, hci, _⟩ := C14_merge_union hsize mi.dims mi.domains
    mi.cons₁ mi.cons₂ hiv hiv' mi.loc₁ mi.loc₂
  obtain ⟨ro, _, _, vo, hro, hvo, _, _, hco, _⟩ := C14_merge_union hsize mo.dims mo.domains
    mo.cons₁ mo.cons₂ hov hov' mo.loc₁ mo.loc₂
  rw [h1] at hri
  rw [h2] at hro
  simp only [Except.ok.injEq, Prod.mk.injEq] at hri hro
  have hnew := fun p q r => (C29_construction hci hco (by simp [hvi]) (by simp [hvo]) size p q
    r).1 rfl
  have hrun : ∃ a b, d.merge size e = .ok { input := some ri, output := some ro
                                            outputProb := d.outputProb, emInput := a
                                            emOutput := b } := by
    unfold Disc.merge
    simp only [hdi, hei, hdo, heo, hdei, heei, hdeo, heeo, orErr_some, ok_bind, h1, h2, h3, h4]
    rw [hri.1, hro.1]
    exact ⟨_, _, hnew _ _ _⟩
  obtain ⟨_, _, hrun⟩ := hrun
  have hzip : vi.zip vo = (List.zipWith (· ++ ·) (arraySplit size ps)
      (arraySplit size qs)).flatten := by
    have e1 : vi = (List.zipWith (· ++ ·) (arraySplit size (ps.map Prod.fst))
        (arraySplit size (qs.map Prod.fst))).flatten := by
      rw [← hri.1] at hvi; exact (Option.some.inj hvi).symm
    have e2 : vo = (List.zipWith (· ++ ·) (arraySplit size (ps.map Prod.snd))
        (arraySplit size (qs.map Prod.snd))).flatten := by
      rw [← hro.1] at hvo; exact (Option.some.inj hvo).symm
    rw [e1, e2, zip_merge (arraySplit_sameShape _ _ _ (by simp))
      (arraySplit_sameShape _ _ _ (by simp)), zipWith_zip_arraySplit _ _ _ (by simp),
      zipWith_zip_arraySplit _ _ _ (by simp)]
    simp only [List.zip_map', List.map_id', Prod.mk.eta]
  have hlen : vi.length = vo.length := by
    rw [hci.1.values vi hvi, hco.1.values vo hvo]
  refine ⟨_, vi.zip vo, hrun, ⟨ri, ro, rfl, rfl, ?_, ?_⟩, ?_, ?_, checkNums_ok rfl rfl hci hco _⟩
  · rw [hvi, List.map_fst_zip (by omega)]
  · rw [hvo, List.map_snd_zip (by omega)]
  · rw [hzip]
    refine (perm_flatten_zipWith_append _ _ (by simp [length_arraySplit])).trans ?_
    rw [flatten_arraySplit _ _ hsize, flatten_arraySplit _ _ hsize]
  · rintro rfl
    rw [hzip]
    simp [arraySplit_one]

/-- **C29.** Without emulated sets `merge` raises, whatever the samples are. -/
theorem C29_merge_needs_emulated {d e : Disc K} {size : Nat} {di do_ ei eo : SampleSet K}
    {n m : Nat} (hdi : d.input = some di) (hdo : d.output = some do_) (hei : e.input = some ei)
    (heo : e.output = some eo) (mi : Mergeable di ei n m) (mo : Mergeable do_ eo n m)
    (h : d.emInput = none ∨ e.emInput = none) :
    d.merge size e = .error .attributeError := by
  obtain ⟨a, ha⟩ := Option.isSome_iff_exists.mp mi.values₁
  obtain ⟨b, hb⟩ := Option.isSome_iff_exists.mp mi.values₂
  obtain ⟨a', ha'⟩ := Option.isSome_iff_exists.mp mo.values₁
  obtain ⟨b', hb'⟩ := Option.isSome_iff_exists.mp mo.values₂
  have h1 := merge_ok (size := size) mi.dims mi.domains mi.cons₁ mi.cons₂ ha hb mi.loc₁ mi.loc₂
  have h2 := merge_ok (size := size) mo.dims mo.domains mo.cons₁ mo.cons₂ ha' hb' mo.loc₁ mo.loc₂
  unfold Disc.merge
  simp only [hdi, hei, hdo, heo, orErr_some, ok_bind, h1, h2]
  rcases h with h | h
  · simp [h]
  · cases hd : d.emInput <;> simp [h, hd]

end c29

/-! ### C30 -/

section c30
variable {K : Type} [Field K] [LinearOrder K]

/-- **C30.** After a successful `set_io_ptr` the local pointer gives, on every process, for
every local output sample the cell of the output probability set that contains it, and
the global pointer, if asked for, is the concatenation of the local ones. -/
theorem C30_pointer_local {G : Geometry K} (hG : Sound G) {size : Nat} {d d' : Disc K}
    {g : Bool} {ps : SampleSet K} {m : Nat} (hps : d.outputProb = some ps) (hr : Ready ps m)
    (h : d.setIoPtr G size g = .ok d') :
    ∃ out x ptr, d'.output = some out ∧ out.loc.values = some x ∧ d'.ioPtrLocal = some ptr ∧
      List.Forall₂ (List.Forall₂ (IsCell G ps)) x ptr ∧
      d'.ioPtr = (if g then some ptr.flatten else d.ioPtr) := by
  simp only [Disc.setIoPtr, bind_eq_ok, orErr_eq_ok, pure_eq_ok] at h
  obtain ⟨out, hout, out', hloc, ps', hps', x, hx, ⟨ps₁, ptr⟩, hq, rfl⟩ := h
  rw [hps] at hps'
  cases hps'
  obtain ⟨s', hq', _⟩ := SampleSet.query_ready (G := G) (size := size) hr x
  rw [hq] at hq'
  simp only [Except.ok.injEq, Prod.mk.injEq] at hq'
  refine ⟨out', x, ptr, by cases g <;> rfl, hx, by cases g <;> rfl, ?_, by cases g <;> rfl⟩
  rw [hq'.2, List.forall₂_map_right_iff]
  refine List.forall₂_same.mpr fun c _ => ?_
  rw [List.forall₂_map_right_iff]
  exact List.forall₂_same.mpr fun p _ => SampleSet.cell_isCell hG hr p

/-- **C30.** On a discretization whose output has only global values `y`, `set_io_ptr`
succeeds for every number of processes, the local pointers are the parts of one list,
that list gives for every output its cell, and it becomes the global pointer. -/
theorem C30_pointer_global {G : Geometry K} (hG : Sound G) {d : Disc K} {out ps : SampleSet K}
    {n m : Nat} (hout : d.output = some out) (hc : Consistent out n) {y : List (List K)}
    (hy : out.glob.values = some y) (hl : out.loc.values = none) (hps : d.outputProb = some ps)
    (hr : Ready ps m) :
    ∃ p : List Nat, List.Forall₂ (IsCell G ps) y p ∧ ∀ size, 0 < size →
      ∃ d' ptr, d.setIoPtr G size true = .ok d' ∧ d'.ioPtr = some p ∧
        d'.ioPtrLocal = some ptr ∧ IsBalancedSplit size p ptr := by
  refine ⟨y.map (ps.cell G), ?_, ?_⟩
  · rw [List.forall₂_map_right_iff]
    exact List.forall₂_same.mpr fun p _ => SampleSet.cell_isCell hG hr p
  · intro size hsize
    obtain ⟨ps', h, _⟩ := setIoPtr_fresh (G := G) (size := size) (g := true) hout hc hy hl hps hr
    refine ⟨_, _, h, ?_, rfl, isBalancedSplit_arraySplit size hsize _⟩
    simp [flatten_arraySplit _ _ hsize]

/-- **C30.** The pointers of the emulated inputs, likewise: each local emulated point goes to
its cell among the input samples. -/
theorem C30_emulated_input_pointer {G : Geometry K} (hG : Sound G) {size : Nat} {d d' : Disc K}
    {g : Bool} {inp : SampleSet K} {m : Nat} (hi : d.input = some inp) (hr : Ready inp m)
    (h : d.setIiPtr G size g = .ok d') :
    ∃ em x ptr, d'.emInput = some em ∧ em.loc.values = some x ∧ d'.iiPtrLocal = some ptr ∧
      List.Forall₂ (List.Forall₂ (IsCell G inp)) x ptr ∧
      d'.iiPtr = (if g then some ptr.flatten else d.iiPtr) := by
  simp only [Disc.setIiPtr, bind_eq_ok, orErr_eq_ok, pure_eq_ok] at h
  obtain ⟨em, hem, em', hloc, i', hi', x, hx, ⟨i₁, ptr⟩, hq, rfl⟩ := h
  rw [hi] at hi'
  cases hi'
  obtain ⟨s', hq', _⟩ := SampleSet.query_ready (G := G) (size := size) hr x
  rw [hq] at hq'
  simp only [Except.ok.injEq, Prod.mk.injEq] at hq'
  refine ⟨em', x, ptr, by cases g <;> rfl, hx, by cases g <;> rfl, ?_, by cases g <;> rfl⟩
  rw [hq'.2, List.forall₂_map_right_iff]
  refine List.forall₂_same.mpr fun c _ => ?_
  rw [List.forall₂_map_right_iff]
  exact List.forall₂_same.mpr fun p _ => SampleSet.cell_isCell hG hr p

/-- **C30.** And those of the emulated outputs. -/
theorem C30_emulated_output_pointer {G : Geometry K} (hG : Sound G) {size : Nat}
    {d d' : Disc K} {g : Bool} {ps : SampleSet K} {m : Nat} (hps : d.outputProb = some ps)
    (hr : Ready ps m) (h : d.setOoPtr G size g = .ok d') :
    ∃ em x ptr, d'.emOutput = some em ∧ em.loc.values = some x ∧ d'.ooPtrLocal = some ptr ∧
      List.Forall₂ (List.Forall₂ (IsCell G ps)) x ptr ∧
      d'.ooPtr = (if g then some ptr.flatten else d.ooPtr) := by
  simp only [Disc.setOoPtr, bind_eq_ok, orErr_eq_ok, pure_eq_ok] at h
  obtain ⟨em, hem, em', hloc, i', hi', x, hx, ⟨i₁, ptr⟩, hq, rfl⟩ := h
  rw [hps] at hi'
  cases hi'
  obtain ⟨s', hq', _⟩ := SampleSet.query_ready (G := G) (size := size) hr x
  rw [hq] at hq'
  simp only [Except.ok.injEq, Prod.mk.injEq] at hq'
  refine ⟨em', x, ptr, by cases g <;> rfl, hx, by cases g <;> rfl, ?_, by cases g <;> rfl⟩
  rw [hq'.2, List.forall₂_map_right_iff]
  refine List.forall₂_same.mpr fun c _ => ?_
  rw [List.forall₂_map_right_iff]
  exact List.forall₂_same.mpr fun p _ => SampleSet.cell_isCell hG hr p

/-- **C30 (part).** `set_output_probability_set`, on a discretization with local outputs,
makes the local pointer refer to the new set.  Missing: the global pointer, which
keeps referring to the old set (`C30_negation_stale_global`). -/
theorem C30_new_probability_set_partial {G : Geometry K} (hG : Sound G) {size : Nat}
    {d d' : Disc K} {ps out : SampleSet K} {m : Nat} (hr : Ready ps m) {x : Chunks (List K)}
    (hout : d.output = some out) (hx : out.loc.values = some x)
    (h : d.setOutputProbabilitySet G size ps = .ok d') :
    ∃ ptr, d'.ioPtrLocal = some ptr ∧ d'.output = some out ∧
      List.Forall₂ (List.Forall₂ (IsCell G ps)) x ptr ∧ d'.ioPtr = d.ioPtr := by
  obtain ⟨v, hv, _⟩ := SampleSet.ready_values hr
  unfold Disc.setOutputProbabilitySet at h
  simp only [hout] at h
  have hb : ∀ (b : Bool) (X : Except Err (Disc K)),
      (if b = true then X else throw Err.dimNotMatching) = .ok d' → X = .ok d' := by
    rintro (_ | _) X hX
    · exact absurd hX (throw_ne_ok _ _)
    · exact hX
  · replace h := hb _ _ h
    simp only [orErr_some, ok_bind, hx, hv, Option.isSome_some, Bool.and_self, if_true] at h
    obtain ⟨out', x', ptr, h1, h2, h3, h4, h5⟩ := C30_pointer_local hG rfl hr h
    have hsame : out' = out := by
      simp only [Disc.setIoPtr, hout, bind_eq_ok, orErr_eq_ok, pure_eq_ok, orErr_some, ok_bind,
        SampleSet.localized_some size hx, hx] at h
      obtain ⟨_, _, _, rfl⟩ := h
      simp at h1
      exact h1.symm
    subst hsame
    rw [hx] at h2
    cases h2
    exact ⟨ptr, h3, h1, h4, h5⟩

end c30

/-! ### C32 -/

section c32
variable {K : Type}

theorem localizeOpt_spec {size : Nat} (hsize : 0 < size) {o o' : Option (SampleSet K)}
    (h : Disc.localizeOpt size o = .ok o') :
    (o' = none ↔ o = none) ∧ ∀ s, o = some s → ∃ s', o' = some s' ∧ s'.glob = s.glob ∧
      Each (fun _ g l => ∀ xs, g = some xs → ∃ cs, l = some cs ∧ IsBalancedSplit size xs cs)
        s.glob s'.loc := by
  cases o with
  | none => cases h; simp
  | some s =>
    simp only [Disc.localizeOpt, bind_eq_ok, pure_eq_ok] at h
    obtain ⟨s', hs', rfl⟩ := h
    refine ⟨by simp, ?_⟩
    intro t ht
    cases ht
    simp only [SampleSet.globalToLocal, bind_eq_ok, pure_eq_ok] at hs'
    obtain ⟨n, hn, rfl⟩ := hs'
    refine ⟨_, rfl, rfl, ?_⟩
    have key : ∀ (α : Type) (g : Option (List α)) (l : Option (Chunks α)) (xs : List α),
        g = some xs → ∃ cs, SampleSet.splitArr size g l = some cs ∧ IsBalancedSplit size xs cs := by
      rintro α _ l xs rfl
      exact ⟨_, rfl, isBalancedSplit_arraySplit size hsize xs⟩
    constructor <;> exact key _ _ _

/-- Every array that the set `s` has globally, its successor `s'` has locally, in balanced
parts. -/
def Spec.Localized (size : Nat) (o o' : Option (SampleSet K)) : Prop :=
  ∀ s, o = some s → ∃ s', o' = some s' ∧ s'.glob = s.glob ∧
    Each (fun _ g l => ∀ xs, g = some xs → ∃ cs, l = some cs ∧ IsBalancedSplit size xs cs)
      s.glob s'.loc

/-- **C32 (part).** `global_to_local` of a discretization localizes the input, output,
output probability and emulated input sets.  Missing: the emulated output set, which
is never localized (`C32_negation_emulated_output`). -/
theorem C32_global_to_local_partial {size : Nat} (hsize : 0 < size) {d d' : Disc K}
    (h : d.globalToLocal size = .ok d') :
    Localized size d.input d'.input ∧ Localized size d.output d'.output ∧
      Localized size d.outputProb d'.outputProb ∧ Localized size d.emInput d'.emInput ∧
      d'.emOutput = d.emOutput := by
  simp only [Disc.globalToLocal, bind_eq_ok, pure_eq_ok] at h
  obtain ⟨i, hi, o, ho, p, hp, e, he, rfl⟩ := h
  exact ⟨(localizeOpt_spec hsize hi).2, (localizeOpt_spec hsize ho).2,
    (localizeOpt_spec hsize hp).2, (localizeOpt_spec hsize he).2, rfl⟩

/-- **C32.** The call succeeds when the first four sets that are present are consistent. -/
theorem C32_succeeds {size : Nat} {d : Disc K}
    (h : ∀ s, d.input = some s ∨ d.output = some s ∨ d.outputProb = some s ∨ d.emInput = some s →
      ∃ n, Consistent s n) : ∃ d', d.globalToLocal size = .ok d' := by
  have key : ∀ o : Option (SampleSet K), (∀ s, o = some s → ∃ n, Consistent s n) →
      ∃ o', Disc.localizeOpt size o = .ok o' := by
    rintro (_ | s) hs
    · exact ⟨none, rfl⟩
    · obtain ⟨n, hn⟩ := hs s rfl
      exact ⟨_, by simp only [Disc.localizeOpt, SampleSet.globalToLocal_ok hn, ok_bind]; rfl⟩
  obtain ⟨_, h1⟩ := key d.input fun s hs => h s (by simp [hs])
  obtain ⟨_, h2⟩ := key d.output fun s hs => h s (by simp [hs])
  obtain ⟨_, h3⟩ := key d.outputProb fun s hs => h s (by simp [hs])
  obtain ⟨_, h4⟩ := key d.emInput fun s hs => h s (by simp [hs])
  unfold Disc.globalToLocal
  simp only [h1, h2, h3, h4, ok_bind]
  exact ⟨_, rfl⟩

/-- `o'` is the set `o`, if there is one, with every array that has a local part gathered from the
processes in rank order, and the other arrays as they were. -/
def Spec.Gathered (o o' : Option (SampleSet K)) : Prop :=
  (o = none → o' = none) ∧ ∀ s, o = some s → ∃ s', o' = some s' ∧ s'.loc = s.loc ∧ s'.dim = s.dim ∧
    Each₃ (fun _ g l g' => (∀ cs, l = some cs → g' = some cs.flatten) ∧ (l = none → g' = g))
      s.glob s.loc s'.glob

/-- **C32.** `local_to_global` of a discretization gathers all five sets and leaves the pointers
alone. -/
theorem C32_local_to_global (d : Disc K) :
    Gathered d.input d.localToGlobal.input ∧ Gathered d.output d.localToGlobal.output ∧
    Gathered d.outputProb d.localToGlobal.outputProb ∧
    Gathered d.emInput d.localToGlobal.emInput ∧ Gathered d.emOutput d.localToGlobal.emOutput ∧
    d.localToGlobal.ioPtr = d.ioPtr ∧ d.localToGlobal.ioPtrLocal = d.ioPtrLocal ∧
    d.localToGlobal.iiPtr = d.iiPtr ∧ d.localToGlobal.iiPtrLocal = d.iiPtrLocal ∧
    d.localToGlobal.ooPtr = d.ooPtr ∧ d.localToGlobal.ooPtrLocal = d.ooPtrLocal := by
  have key : ∀ o : Option (SampleSet K), Gathered o (o.map SampleSet.localToGlobal) := by
    intro o
    refine ⟨fun h => by rw [h]; rfl, fun s h => ⟨s.localToGlobal, by rw [h]; rfl, rfl, rfl,
      (C11_local_to_global s).1⟩⟩
  exact ⟨key _, key _, key _, key _, key _, rfl, rfl, rfl, rfl, rfl, rfl⟩

/-- `local_to_global` after `global_to_local` gives the four sets their arrays back. -/
theorem C32_round_trip {size : Nat} (hsize : 0 < size) {d d' : Disc K}
    (h : d.globalToLocal size = .ok d') :
    (∀ s, d.input = some s → ∃ s', d'.localToGlobal.input = some s' ∧
      Each (fun _ g g' => g.isSome → g' = g) s.glob s'.glob) ∧
    (∀ s, d.output = some s → ∃ s', d'.localToGlobal.output = some s' ∧
      Each (fun _ g g' => g.isSome → g' = g) s.glob s'.glob) ∧
    (∀ s, d.outputProb = some s → ∃ s', d'.localToGlobal.outputProb = some s' ∧
      Each (fun _ g g' => g.isSome → g' = g) s.glob s'.glob) ∧
    (∀ s, d.emInput = some s → ∃ s', d'.localToGlobal.emInput = some s' ∧
      Each (fun _ g g' => g.isSome → g' = g) s.glob s'.glob) := by
  have key : ∀ o o' : Option (SampleSet K), Localized size o o' → ∀ s, o = some s →
      ∃ s', o'.map SampleSet.localToGlobal = some s' ∧
        Each (fun _ g g' => g.isSome → g' = g) s.glob s'.glob := by
    intro o o' hl s hs
    obtain ⟨s', h1, h2, h3⟩ := hl s hs
    refine ⟨s'.localToGlobal, by rw [h1]; rfl, ?_⟩
    have k : ∀ (α : Type) (g : Option (List α)) (l : Option (Chunks α)) (g' : Option (List α)),
        (∀ xs, g = some xs → ∃ cs, l = some cs ∧ IsBalancedSplit size xs cs) → g.isSome →
        SampleSet.gatherArr l g' = g := by
      rintro α (_ | xs) l g' hx hg
      · cases hg
      · obtain ⟨cs, rfl, hcs⟩ := hx xs rfl
        rw [SampleSet.gatherArr_some, hcs.2.1]
    exact ⟨k _ _ _ _ h3.values, k _ _ _ _ h3.volumes, k _ _ _ _ h3.probabilities,
      k _ _ _ _ h3.densities, k _ _ _ _ h3.jacobians, k _ _ _ _ h3.errorEstimates,
      k _ _ _ _ h3.right, k _ _ _ _ h3.left, k _ _ _ _ h3.width, k _ _ _ _ h3.kdtreeValues,
      k _ _ _ _ h3.radii, k _ _ _ _ h3.normalizedRadii, k _ _ _ _ h3.region,
      k _ _ _ _ h3.errorId⟩
  obtain ⟨h1, h2, h3, h4, _⟩ := C32_global_to_local_partial hsize h
  exact ⟨key _ _ h1, key _ _ h2, key _ _ h3, key _ _ h4⟩

end c32

end BET

namespace BET.Ex

open BET.Spec

def em1 : SampleSet ℚ := { dim := 1, glob := { values := some [[1/3], [2/3]] } }

def fullDisc : Disc ℚ := { probDisc with emInput := some em1, emOutput := some em1 }

/-- **C30, negation.** A discretization whose global pointer was set; then the output
probability set is replaced by one with the cells in the other order.  The local
pointer is right, the global one still that of the old set. -/
theorem C30_negation_stale_global :
    ∃ (d d' d'' : Disc ℚ) (ps : SampleSet ℚ), d.setIoPtr G 1 true = .ok d' ∧
      d'.setOutputProbabilitySet G 1 ps = .ok d'' ∧ Ready ps 2 ∧
      (d''.output.bind (·.glob.values)) = some [[0], [5]] ∧
      d''.ioPtr = some [0, 1] ∧ d''.ioPtrLocal = some [[1, 0]] ∧
      ¬ IsCell G ps [0] 0 := by
  refine ⟨{ input := some { dim := 1, glob := { values := some [[0], [1]] } }
            output := some { dim := 1, glob := { values := some [[0], [5]] } }
            outputProb := some { dim := 1, glob := { values := some [[0], [5]] } } }, _, _,
    { dim := 1, glob := { values := some [[5], [0]] } }, rfl, rfl,
    ⟨consistent_of _ _ rfl rfl, by norm_num, rfl, Or.inl rfl, nofun, nofun⟩, rfl,
    by decide +kernel, by decide +kernel, ?_⟩
  intro h
  obtain ⟨c, hc, hmin⟩ := h [[5], [0]] rfl
  simp only [List.getElem?_cons_zero, Option.some.injEq] at hc
  subst hc
  have h' : dist1 [0] [5] ≤ dist1 [0] [0] := hmin [0] (by simp)
  exact absurd h' (by decide +kernel)

/-- **C32, negation.** The emulated output set has values and the call succeeds, but its
local arrays stay absent. -/
theorem C32_negation_emulated_output :
    ∃ d', fullDisc.globalToLocal 2 = .ok d' ∧
      (d'.input.bind (·.loc.values)).isSome ∧
      (d'.emOutput.bind (·.glob.values)).isSome ∧ (d'.emOutput.bind (·.loc.values)) = none :=
  ⟨_, rfl, rfl, rfl, rfl⟩

/-- C29: the hypotheses of the clip and merge theorems. -/
example : IsPairing fullDisc [([0], [0]), ([1], [1/10]), ([2], [1]), ([3], [11/10])] :=
  ⟨_, _, rfl, rfl, rfl, rfl⟩

theorem mergeable_of (a b : SampleSet ℚ) (n m : Nat) (h1 : a.checkNum 1 = .ok n)
    (h2 : b.checkNum 1 = .ok m) (h3 : a.glob.values.isSome = true)
    (h4 : b.glob.values.isSome = true) (h5 : a.dim = b.dim) (h6 : a.domain = b.domain)
    (h7 : a.loc.values = none) (h8 : b.loc.values = none) : Mergeable a b n m :=
  ⟨h5, Or.inr (Or.inr h6), consistent_of _ _ h1 h3, consistent_of _ _ h2 h4, h3, h4, h7, h8⟩

example : ∃ di do_ dei deo, fullDisc.input = some di ∧ fullDisc.output = some do_ ∧
    fullDisc.emInput = some dei ∧ fullDisc.emOutput = some deo ∧ Mergeable di di 4 4 ∧
    Mergeable do_ do_ 4 4 ∧ Mergeable dei dei 2 2 ∧ Mergeable deo deo 2 2 :=
  ⟨_, _, _, _, rfl, rfl, rfl, rfl, mergeable_of _ _ _ _ rfl rfl rfl rfl rfl rfl rfl rfl,
    mergeable_of _ _ _ _ rfl rfl rfl rfl rfl rfl rfl rfl,
    mergeable_of _ _ _ _ rfl rfl rfl rfl rfl rfl rfl rfl,
    mergeable_of _ _ _ _ rfl rfl rfl rfl rfl rfl rfl rfl⟩

example : (fullDisc.merge 2 fullDisc).toOption.bind (fun d => d.output.bind (·.glob.values)) =
    some [[0], [1/10], [0], [1/10], [1], [11/10], [1], [11/10]] := by decide +kernel

example : (fullDisc.clip 2 3).toOption.bind (fun d => d.output.bind (·.glob.values)) =
    some [[0], [1/10], [1]] := by decide +kernel

example : errOf (Disc.new 1 probDisc.input (some em1) none none none) =
    some .lengthNotMatching := by decide +kernel

/-- C30: local and global pointers on three processes. -/
example : (probDisc.setIoPtr G 3 true).toOption.bind (·.ioPtrLocal) = some [[0, 0], [1], [1]] := by
  decide +kernel

end BET.Ex
