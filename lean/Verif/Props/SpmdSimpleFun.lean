import Verif.Model.SpmdSimpleFun
import Verif.Props.SpmdSet
import Verif.Props.SimpleFun3

/-!
# The constructors of simple functions on several processes (C120)
-/

set_option autoImplicit false
set_option linter.unusedSectionVars false
set_option linter.unusedSimpArgs false

namespace BET

open Spec

/-- Every local array of the data set has a part for each of the `n` processes. -/
def Spec.SpreadData {K : Type} (n : Nat) : DataSet K → Prop
  | .array _ _ => True
  | .set s => SpreadSet n s
  | .disc d => SpreadDisc n d

variable {n : Nat}

section
variable {K : Type} [Field K] [LinearOrder K]

theorem fits_bcast {α : Type} [Payload K α] {x : Fin n → List α} {y : List α}
    (h : ∀ r : Fin n, (r : Nat) = 0 → x r = y) :
    Fits (fun r : Fin n => (bcastList r (x r) : Proc (Msg K) (List α))) (fun _ => .ok y) := by
  refine ⟨1, .coll .bcast (fun r => Payload.pack (x r)) _ (fun _ => rfl) (.done fun r => ?_)⟩
  have hn : 0 < n := r.pos
  rw [head_ofFn hn]
  simp only [Proc.result, Option.map_some, Option.getD_some, Payload.law, onRoot]
  split
  · case isTrue h0 => rw [h r h0]
  · rw [h ⟨0, hn⟩ rfl]

theorem fits_inputs {ds : DataSet K} {inp : Inputs K} (h : ds.inputs n = .ok inp) :
    Fits (fun r : Fin n => (ds.view r).procInputs) (fun _ => .ok inp) := by
  cases ds with
  | array dim v =>
    simp only [DataSet.inputs, pure_eq_ok] at h
    subst h
    exact Fits.ret _
  | set s =>
    simp only [DataSet.inputs, bind_eq_ok, pure_eq_ok] at h
    obtain ⟨num, hnum, rfl⟩ := h
    exact Fits.bind (fits_checkNum hnum) (Fits.ret _)
  | disc d =>
    simp only [DataSet.inputs, bind_eq_ok, pure_eq_ok] at h
    obtain ⟨num, hnum, out, hout, rfl⟩ := h
    refine Fits.bind (fits_checkNums hnum) ?_
    exact Fits.except (r := fun r => out.view r) (fun r => orErr_view hout r) (Fits.ret _)

theorem view_inferQ (ds : DataSet K) (r : Nat) : (ds.view r).inferQ = ds.inferQ := by
  cases ds with
  | array => rfl
  | set => rfl
  | disc d =>
    simp only [DataSet.view, DataSet.inferQ, Disc.view]
    cases d.output <;> rfl

theorem view_orInfer (ds : DataSet K) (r : Nat) (q : Option (List K)) :
    (ds.view r).orInfer q = ds.orInfer q := by
  cases q with
  | some _ => rfl
  | none => exact view_inferQ ds r

theorem view_typeDim (ds : DataSet K) (r : Nat) : (ds.view r).typeDim = ds.typeDim := by
  cases ds with
  | array => rfl
  | set => rfl
  | disc d =>
    simp only [DataSet.view, DataSet.typeDim, Disc.view]
    cases d.output <;> rfl

theorem view_dimOf (ds : DataSet K) (r : Nat) : (ds.view r).dimOf = ds.dimOf := by
  cases ds with
  | array => rfl
  | set => rfl
  | disc d =>
    simp only [DataSet.view, DataSet.dimOf, Disc.view]
    cases d.output <;> rfl

theorem view_checkType (ds : DataSet K) (r : Nat) (a : NumArg K) :
    checkType (ds.view r) a = checkType ds a := by
  unfold checkType
  rw [view_typeDim]

theorem view_orInferArg (ds : DataSet K) (r : Nat) (a : NumArg K) :
    (ds.view r).orInferArg a = ds.orInferArg a := by
  cases a <;> simp only [DataSet.orInferArg, view_inferQ]

theorem view_refLen (ds : DataSet K) (r : Nat) (a : NumArg K) :
    refLen (ds.view r) a = refLen ds a := by
  cases a <;> simp only [refLen, view_typeDim, view_checkType]

theorem view_aroundRef (ds : DataSet K) (r : Nat) (a : NumArg K) (sd : List K)
    (f : List K → List (List K)) : aroundRef (ds.view r) a sd f = aroundRef ds a sd f := by
  simp only [aroundRef, view_checkType]

theorem fits_checkInputs {ds : DataSet K} {q : Option (List K)} {c : Inputs K × List K}
    (h : ds.checkInputs n q = .ok c) :
    Fits (fun r : Fin n => (ds.view r).procCheckInputs q) (fun _ => .ok c) := by
  simp only [DataSet.checkInputs, bind_eq_ok, pure_eq_ok] at h
  obtain ⟨q1, hq1, inp, hinp, q2, hq2, rfl⟩ := h
  unfold DataSet.procCheckInputs
  refine Fits.except (r := fun _ => q1) (fun r => by rw [view_orInfer]; exact hq1) ?_
  refine Fits.bind (fits_inputs hinp) ?_
  exact Fits.except (r := fun _ => q2) (fun _ => hq2) (Fits.ret _)

theorem fits_attach {G : Geometry K} {ds ds' : DataSet K} {s s' : SampleSet K}
    (hd : SpreadData n ds) (hs : SpreadSet n s) (h : ds.attach G n s = .ok (s', ds')) :
    SpreadSet n s' ∧ SpreadData n ds' ∧
    Fits (fun r : Fin n => (ds.view r).procAttach G r n (s.view r))
      (fun r => .ok (s'.view r, ds'.view r)) := by
  cases ds with
  | array dim v =>
    simp only [DataSet.attach, pure_eq_ok, Prod.mk.injEq] at h
    obtain ⟨rfl, rfl⟩ := h
    exact ⟨hs, hd, Fits.ret _⟩
  | set t =>
    simp only [DataSet.attach, pure_eq_ok, Prod.mk.injEq] at h
    obtain ⟨rfl, rfl⟩ := h
    exact ⟨hs, hd, Fits.ret _⟩
  | disc d =>
    simp only [DataSet.attach, bind_eq_ok, pure_eq_ok, Prod.mk.injEq] at h
    obtain ⟨d1, hd1, ps, hps, rfl, rfl⟩ := h
    have hd0 : SpreadDisc n { d with outputProb := some s } := by
      have hd : SpreadDisc n d := hd
      refine ⟨hd.input, hd.output, ?_, hd.emInput, hd.emOutput, hd.io, hd.ii, hd.oo⟩
      rintro s ⟨⟩; exact hs
    obtain ⟨hs1, hf1⟩ := fits_setIoPtr hd0 hd1
    refine ⟨hs1.outputProb _ ((orErr_eq_ok _ _ _).1 hps), hs1, ?_⟩
    refine Fits.bind hf1 ?_
    exact Fits.except (r := fun r => ps.view r) (fun r => orErr_view hps r) (Fits.ret _)

/-- A set without local arrays is the same on all processes. -/
theorem view_fresh {s : SampleSet K} (h : s.loc = {}) (h' : s.localIndex = none) (r : Nat) :
    s.view r = s := by
  unfold SampleSet.view
  obtain ⟨_⟩ := s
  simp only at h h'
  subst h h'
  rfl

theorem spread_fresh {s : SampleSet K} (h : s.loc = {}) (h' : s.localIndex = none) :
    SpreadSet n s := by
  unfold SpreadSet
  rw [h, h']
  simp [Arrays.All, Spread]

theorem setValues_loc {s s' : SampleSet K} {v : List (List K)} (h : s.setValues v = .ok s') :
    s'.loc = s.loc ∧ s'.localIndex = s.localIndex := by
  unfold SampleSet.setValues at h
  split at h
  · cases h; exact ⟨rfl, rfl⟩
  · cases h

theorem setKdtree_loc {s s' : SampleSet K} (h : s.setKdtree = .ok s') :
    s'.loc = s.loc ∧ s'.localIndex = s.localIndex := by
  simp only [SampleSet.setKdtree, bind_eq_ok, pure_eq_ok] at h
  obtain ⟨_, _, rfl⟩ := h
  exact ⟨rfl, rfl⟩

/-- The counts that the processes sum up. -/
theorem fits_counts (M : Nat) (p : Fin n → List Nat) :
    Fits (fun r : Fin n => reduceArr M ((List.range M).map fun i =>
        (((npEqual (p r) i).count true : Nat) : K)))
      (fun _ => .ok ((List.range M).map fun i =>
        allreduceSum ((List.ofFn p).map fun c => (((npEqual c i).count true : Nat) : K)))) := by
  have := fit_reduceArr M fun r : Fin n => (List.range M).map fun i =>
        (((npEqual (p r) i).count true : Nat) : K)
  refine ⟨1, ?_⟩
  have e : ((List.range M).map fun i => allreduceSum ((List.ofFn p).map fun c =>
        (((npEqual c i).count true : Nat) : K))) = (List.range M).map fun k =>
      (List.ofFn fun r => ((List.range M).map fun i =>
        (((npEqual (p r) i).count true : Nat) : K)).getD k 0).sum := by
    refine List.map_congr_left fun k hk => ?_
    rw [List.mem_range] at hk
    rw [allreduceSum_num, List.map_ofFn]
    simp only [Function.comp_def, count_getD M k hk]
  rw [e]
  exact this

theorem fits_binned {G : Geometry K} {dim M : Nat} {samples : List (List K)}
    {pts : Fin n → List (List K)} {denom : K} {s : SampleSet K}
    (h : binnedSet G n dim M samples (List.ofFn pts) denom = .ok s) :
    SpreadSet n s ∧ (∀ r : Fin n, s.view r = s) ∧
    Fits (fun r : Fin n => procBinned G dim M samples (.ok (pts r)) denom) (fun _ => .ok s) := by
  simp only [binnedSet, bind_eq_ok, pure_eq_ok] at h
  obtain ⟨s1, h1, s2, h2, ⟨s3, ptr⟩, h3, _, hz, rfl⟩ := h
  have hl2 : s2.loc = {} ∧ s2.localIndex = none := by
    obtain ⟨a, b⟩ := setValues_loc h1
    obtain ⟨c, d⟩ := setKdtree_loc h2
    exact ⟨c.trans a, d.trans b⟩
  obtain ⟨a, b, p, hp, hf⟩ := query_spread h3
  dsimp only at hp hz ⊢
  subst hp
  have hl3 : s3.loc = {} ∧ s3.localIndex = none := ⟨a.trans hl2.1, b.trans hl2.2⟩
  refine ⟨spread_fresh hl3.1 hl3.2, fun r => view_fresh (by exact hl3.1) (by exact hl3.2) r, ?_⟩
  unfold procBinned
  refine Fits.except (r := fun _ => s1) (fun _ => h1) ?_
  refine Fits.except (r := fun _ => s2) (fun _ => h2) ?_
  refine Fits.except (r := pts) (fun _ => rfl) ?_
  have hf' : Fits (fun r : Fin n => s2.procQuery G (pts r)) (fun r => .ok (s3, p r)) := by
    have e2 : ∀ r : Fin n, s2.view r = s2 := fun r => view_fresh hl2.1 hl2.2 r
    have e3 : ∀ r : Fin n, s3.view r = s3 := fun r => view_fresh hl3.1 hl3.2 r
    simp only [e2, e3] at hf
    exact hf
  refine Fits.bind hf' ?_
  refine Fits.bind (fits_counts M p) ?_
  exact fits_raiseIf hz (Fits.ret _)

theorem onRoot_of {α : Type} {f : Fin n → α} {x y : α}
    (hf : ∀ r : Fin n, f r = onRoot r x y) : ∀ r : Fin n, (r : Nat) = 0 → f r = x := by
  intro r hr
  rw [hf r, onRoot, if_pos hr]

/-- What only the root computes, sent to all. -/
theorem fits_rootBcast {S : Type} {x : Except Err (List (List K))} {y z : List (List K)}
    (h : x = .ok y) {f : Fin n → List (List K) → Proc (Msg K) S} {rs : Fin n → Except Err S}
    (hf : Fits (fun r => f r y) rs) :
    Fits (fun r : Fin n => Proc.ofExcept (onRoot r x (.ok z)) >>= fun mine =>
      bcastList r mine >>= f r) rs := by
  refine Fits.except (r := fun r : Fin n => onRoot r y z) ?_ ?_
  · intro r
    unfold onRoot
    split
    · exact h
    · rfl
  · exact Fits.bind (fits_bcast (onRoot_of fun _ => rfl)) hf

theorem fits_uniformSize {G : Geometry K} {ds ds' : DataSet K} {q : Option (List K)}
    {rectSize : NumArg K} {unif : List (List K)} {emu : Fin n → List (List K)} {num : Nat}
    {s : SampleSet K} (hd : SpreadData n ds)
    (h : uniformSize G n ds q rectSize unif (List.ofFn emu) num = .ok (s, ds')) :
    SpreadSet n s ∧ SpreadData n ds' ∧
    Fits (fun r : Fin n => procUniformSize G r n (ds.view r) q rectSize unif (emu r) num)
      (fun r => .ok (s.view r, ds'.view r)) := by
  simp only [uniformSize, bind_eq_ok, List.map_ofFn] at h
  obtain ⟨c, hc, rs, hrs, _, hpos, _, hpy, _, hlen, s1, hs1, h⟩ := h
  obtain ⟨hsp, hv, hf⟩ := fits_binned hs1
  obtain ⟨ha, hb, hfa⟩ := fits_attach hd hsp h
  refine ⟨ha, hb, ?_⟩
  unfold procUniformSize
  refine Fits.bind (fits_checkInputs hc) ?_
  refine Fits.except (r := fun _ => rs) (fun _ => hrs) ?_
  refine fits_raiseIf hpos ?_
  refine fits_rootBcast (y := unif.map (stretch (3 / 2) rs c.2)) ?_ ?_
  · rw [rootUniform, hpy, hlen]; rfl
  have e : ∀ r, ownUniform c.1.dim rs c.2 (emu r) = .ok ((emu r).map (stretch 1 rs c.2)) := by
    intro r
    rw [ownUniform, hlen]; rfl
  simp only [e]
  refine Fits.bind hf ?_
  simp only [hv] at hfa
  exact hfa

theorem fits_uniformScaled {G : Geometry K} {ds ds' : DataSet K} {q : Option (List K)}
    {scale : NumArg K} {unif : List (List K)} {emu : Fin n → List (List K)} {num : Nat}
    {s : SampleSet K} (hd : SpreadData n ds)
    (h : uniformScaled G n ds q scale unif (List.ofFn emu) num = .ok (s, ds')) :
    SpreadSet n s ∧ SpreadData n ds' ∧
    Fits (fun r : Fin n => procUniformScaled G r n (ds.view r) q scale unif (emu r) num)
      (fun r => .ok (s.view r, ds'.view r)) := by
  simp only [uniformScaled, bind_eq_ok] at h
  obtain ⟨c, hc, v, hv, w, hw, rs, hrs, h⟩ := h
  obtain ⟨ha, hb, hf⟩ := fits_uniformSize hd h
  refine ⟨ha, hb, ?_⟩
  unfold procUniformScaled
  refine Fits.bind (fits_checkInputs hc) ?_
  refine Fits.except (r := fun _ => v) (fun _ => hv) ?_
  refine Fits.except (r := fun _ => w) (fun _ => hw) ?_
  exact Fits.except (r := fun _ => rs) (fun _ => hrs) hf

theorem fits_uniformDomain {G : Geometry K} {ds ds' : DataSet K} {rect unif : List (List K)}
    {emu : Fin n → List (List K)} {num : Nat} {s : SampleSet K} (hd : SpreadData n ds)
    (h : uniformDomain G n ds rect unif (List.ofFn emu) num = .ok (s, ds')) :
    SpreadSet n s ∧ SpreadData n ds' ∧
    Fits (fun r : Fin n => procUniformDomain G r n (ds.view r) rect unif (emu r) num)
      (fun r => .ok (s.view r, ds'.view r)) := by
  simp only [uniformDomain, bind_eq_ok] at h
  obtain ⟨inp, hinp, v, hv, c, hc, l, hl, h⟩ := h
  obtain ⟨ha, hb, hf⟩ := fits_uniformSize hd h
  refine ⟨ha, hb, ?_⟩
  unfold procUniformDomain
  refine Fits.bind (fits_inputs hinp) ?_
  refine Fits.except (r := fun _ => v) (fun _ => hv) ?_
  refine Fits.except (r := fun _ => c) (fun _ => hc) ?_
  exact Fits.except (r := fun _ => l) (fun _ => hl) hf

theorem fits_dataSamples {G : Geometry K} {ds ds' : DataSet K} {s : SampleSet K}
    (hd : SpreadData n ds) (h : dataSamples G n ds = .ok (s, ds')) :
    SpreadSet n s ∧ SpreadData n ds' ∧
    Fits (fun r : Fin n => procDataSamples G r n (ds.view r))
      (fun r => .ok (s.view r, ds'.view r)) := by
  simp only [dataSamples, bind_eq_ok] at h
  obtain ⟨⟨t, num⟩, ht, h⟩ := h
  have key : SpreadSet n t ∧ Fits (fun r : Fin n => (ds.view r).procAsSet)
      (fun r => .ok (t.view r, num)) := by
    cases ds with
    | array dim v =>
      simp only [DataSet.asSet, bind_eq_ok, pure_eq_ok, Prod.mk.injEq] at ht
      obtain ⟨s1, h1, rfl, rfl⟩ := ht
      obtain ⟨a, b⟩ := setValues_loc h1
      refine ⟨spread_fresh a b, ?_⟩
      have e : ∀ r : Fin n, s1.view r = s1 := fun r => view_fresh a b r
      simp only [e]
      exact Fits.except (r := fun _ => s1) (fun _ => h1) (Fits.ret _)
    | set s1 =>
      simp only [DataSet.asSet, bind_eq_ok, pure_eq_ok, Prod.mk.injEq] at ht
      obtain ⟨m, hm, rfl, rfl⟩ := ht
      exact ⟨hd, Fits.bind (fits_checkNum hm) (Fits.ret _)⟩
    | disc d =>
      simp only [DataSet.asSet, bind_eq_ok, pure_eq_ok, Prod.mk.injEq] at ht
      obtain ⟨m, hm, out, hout, rfl, rfl⟩ := ht
      have hd : SpreadDisc n d := hd
      refine ⟨hd.output _ ((orErr_eq_ok _ _ _).1 hout), ?_⟩
      refine Fits.bind (fits_checkNums hm) ?_
      exact Fits.except (r := fun r => out.view r) (fun r => orErr_view hout r) (Fits.ret _)
  obtain ⟨ht', hf⟩ := key
  have hs' : SpreadSet n { t with glob := { t.glob with
    probabilities := some (List.replicate num (1 / (num : K))) } } := ht'
  obtain ⟨ha, hb, hfa⟩ := fits_attach hd hs' h
  refine ⟨ha, hb, ?_⟩
  unfold procDataSamples
  exact Fits.bind hf hfa

theorem refLen_of {ds : DataSet K} {q : NumArg K} {qr : List K} (h : checkType ds q = .ok qr) :
    refLen ds q = .ok qr.length := by
  cases q with
  | missing =>
    simp only [checkType, bind_eq_ok] at h
    obtain ⟨_, _, h⟩ := h
    cases h
  | _ => simp only [refLen, h]; rfl

theorem aroundRef_of {ds : DataSet K} {q : NumArg K} {qr sd : List K} {u : Unit}
    (h : checkType ds q = .ok qr) (hl : raiseIf (sd.length ≠ qr.length) .valueError = .ok u)
    (f : List K → List (List K)) : aroundRef ds q sd f = .ok (f qr) := by
  rw [aroundRef, h]
  simp only [ok_bind, hl]
  rfl

theorem fits_uniformNormal {G : Geometry K} {ds ds' : DataSet K} {q std : NumArg K}
    {unif : List (List K)} {emu : Fin n → List (List K)} {num : Nat}
    {s : SampleSet K} (hd : SpreadData n ds)
    (h : uniformNormal G n ds q std unif (List.ofFn emu) num = .ok (s, ds')) :
    SpreadSet n s ∧ SpreadData n ds' ∧
    Fits (fun r : Fin n => procUniformNormal G r n (ds.view r) q std unif (emu r) num)
      (fun r => .ok (s.view r, ds'.view r)) := by
  simp only [uniformNormal, bind_eq_ok] at h
  obtain ⟨q1, hq1, qr, hqr, sd, hsd, _, hlen, s1, hs1, h⟩ := h
  obtain ⟨hsp, hv, hf⟩ := fits_binned hs1
  obtain ⟨ha, hb, hfa⟩ := fits_attach hd hsp h
  refine ⟨ha, hb, ?_⟩
  unfold procUniformNormal
  simp only [view_orInferArg, view_refLen, view_checkType, view_aroundRef]
  refine Fits.except (r := fun _ => q1) (fun _ => hq1) ?_
  refine Fits.except (r := fun _ => qr.length) (fun _ => refLen_of hqr) ?_
  refine Fits.except (r := fun _ => sd) (fun _ => hsd) ?_
  simp only [aroundRef_of hqr hlen]
  refine fits_rootBcast (y := unif.map (stretch 4 sd qr)) rfl ?_
  refine Fits.bind hf ?_
  simp only [hv] at hfa
  exact hfa

theorem fits_normalNormal {G : Geometry K} {ds ds' : DataSet K} {q std : NumArg K}
    {pdf : List K → K} {draw : List (List K)} {emu : Fin n → List (List K)}
    {s : SampleSet K} (hd : SpreadData n ds)
    (h : normalNormal G n ds q std pdf draw (List.ofFn emu) = .ok (s, ds')) :
    SpreadSet n s ∧ SpreadData n ds' ∧
    Fits (fun r : Fin n => procNormalNormal G r n (ds.view r) q std pdf draw (emu r))
      (fun r => .ok (s.view r, ds'.view r)) := by
  simp only [normalNormal, bind_eq_ok] at h
  obtain ⟨q1, hq1, qr, hqr, sd, hsd, _, hlen, s1, h1, s2, h2, ⟨s3, ptr⟩, h3, _, hz, h⟩ := h
  have hl2 : s2.loc = {} ∧ s2.localIndex = none := by
    obtain ⟨a, b⟩ := setValues_loc h1
    obtain ⟨c, d⟩ := setKdtree_loc h2
    exact ⟨c.trans a, d.trans b⟩
  obtain ⟨a, b, p, hp, hf⟩ := query_spread h3
  dsimp only at hp hz h
  subst hp
  have hl3 : s3.loc = {} ∧ s3.localIndex = none := ⟨a.trans hl2.1, b.trans hl2.2⟩
  have hf' : Fits (fun r : Fin n => s2.procQuery G (emu r)) (fun r => .ok (s3, p r)) := by
    have e2 : ∀ r : Fin n, s2.view r = s2 := fun r => view_fresh hl2.1 hl2.2 r
    have e3 : ∀ r : Fin n, s3.view r = s3 := fun r => view_fresh hl3.1 hl3.2 r
    simp only [e2, e3] at hf
    exact hf
  have hvol : Fits (fun r : Fin n => reduceArr draw.length ((List.range draw.length).map fun i =>
      ((maskSel (emu r) (npEqual (p r) i)).map fun x => 1 / pdf x).sum))
      (fun _ => .ok ((List.range draw.length).map fun i =>
        allreduceSum (List.zipWith (fun c xs =>
          ((maskSel xs (npEqual c i)).map fun x => 1 / pdf x).sum) (List.ofFn p)
          (List.ofFn emu)))) := by
    refine ⟨1, ?_⟩
    have := fit_reduceArr draw.length fun r : Fin n => (List.range draw.length).map fun i =>
      ((maskSel (emu r) (npEqual (p r) i)).map fun x => 1 / pdf x).sum
    have e : ((List.range draw.length).map fun i =>
        allreduceSum (List.zipWith (fun c xs =>
          ((maskSel xs (npEqual c i)).map fun x => 1 / pdf x).sum) (List.ofFn p)
          (List.ofFn emu))) = (List.range draw.length).map fun k =>
        (List.ofFn fun r : Fin n => ((List.range draw.length).map fun i =>
          ((maskSel (emu r) (npEqual (p r) i)).map fun x => 1 / pdf x).sum).getD k 0).sum := by
      refine List.map_congr_left fun k hk => ?_
      rw [List.mem_range] at hk
      rw [allreduceSum_num, zipWith_ofFn]
      simp [List.getD, hk]
    rw [e]
    exact this
  have hvl : ∀ (g : Arrays List K) (r : Fin n), SampleSet.view r { s3 with glob := g } =
      { s3 with glob := g } := fun g r => view_fresh (by exact hl3.1) (by exact hl3.2) r
  obtain ⟨ha, hb, hfa⟩ := fits_attach hd (spread_fresh (by exact hl3.1) (by exact hl3.2)) h
  refine ⟨ha, hb, ?_⟩
  unfold procNormalNormal
  simp only [view_orInferArg, view_refLen, view_checkType, view_aroundRef]
  refine Fits.except (r := fun _ => q1) (fun _ => hq1) ?_
  refine Fits.except (r := fun _ => qr.length) (fun _ => refLen_of hqr) ?_
  refine Fits.except (r := fun _ => sd) (fun _ => hsd) ?_
  simp only [aroundRef_of hqr hlen]
  refine fits_rootBcast (y := draw) rfl ?_
  refine Fits.except (r := fun _ => s1) (fun _ => h1) ?_
  refine Fits.except (r := fun _ => s2) (fun _ => h2) ?_
  refine Fits.except (r := emu) (fun _ => rfl) ?_
  refine Fits.bind hf' ?_
  refine Fits.bind (fits_counts draw.length p) ?_
  refine Fits.bind hvol ?_
  refine fits_raiseIf hz ?_
  simp only [hvl] at hfa
  exact hfa

theorem fits_userPartition {G : Geometry K} {ds par dist ds' : DataSet K}
    {s : SampleSet K} (hd : SpreadData n ds)
    (h : userPartition G n ds par dist = .ok (s, ds')) :
    SpreadSet n s ∧ SpreadData n ds' ∧
    Fits (fun r : Fin n => procUserPartition G r n (ds.view r) (par.view r) (dist.view r))
      (fun r => .ok (s.view r, ds'.view r)) := by
  simp only [userPartition, bind_eq_ok] at h
  obtain ⟨dim, hdim, pa, hpa, v, hv, di, hdi, pts, hpts, _, hc, s1, hs1, h⟩ := h
  have e : List.replicate n pts = List.ofFn fun _ : Fin n => pts := by simp
  rw [e] at hs1
  obtain ⟨hsp, hvi, hf⟩ := fits_binned hs1
  obtain ⟨ha, hb, hfa⟩ := fits_attach hd hsp h
  refine ⟨ha, hb, ?_⟩
  unfold procUserPartition
  simp only [view_dimOf]
  refine Fits.except (r := fun _ => dim) (fun _ => hdim) ?_
  refine Fits.bind (fits_inputs hpa) ?_
  refine Fits.except (r := fun _ => v) (fun _ => hv) ?_
  refine Fits.bind (fits_inputs hdi) ?_
  refine Fits.except (r := fun _ => pts) (fun _ => hpts) ?_
  refine fits_raiseIf hc ?_
  refine Fits.bind hf ?_
  simp only [hvi] at hfa
  exact hfa

theorem setupCartesian_loc {s s' : SampleSet K} {xi : List (List K)}
    (h : s.setupCartesian xi = .ok s') : s'.loc = s.loc ∧ s'.localIndex = s.localIndex := by
  simp only [SampleSet.setupCartesian, SampleSet.setupRect, bind_eq_ok, pure_eq_ok] at h
  obtain ⟨_, _, _, _, _, _, rfl⟩ := h
  exact ⟨rfl, rfl⟩

theorem fits_exactVolume {s s' : SampleSet K} (h : s.exactVolumeLebesgue n = .ok s') :
    (s'.loc = s.loc ∧ s'.localIndex = s.localIndex) ∧
    Fits (fun r : Fin n => (s.view r).procExactVolume) (fun r => .ok (s'.view r)) := by
  simp only [SampleSet.exactVolumeLebesgue, bind_eq_ok, pure_eq_ok] at h
  obtain ⟨num, hnum, dom, hdom, w, hw, rfl⟩ := h
  refine ⟨⟨rfl, rfl⟩, ?_⟩
  unfold SampleSet.procExactVolume
  refine Fits.bind (fits_checkNum hnum) ?_
  refine Fits.except (r := fun _ => dom) (fun _ => hdom) ?_
  exact Fits.except (r := fun _ => w) (fun _ => hw) (Fits.ret _)

theorem fits_regularSize {G : Geometry K} {ds ds' : DataSet K} {q : Option (List K)}
    {rectSize : NumArg K} {cells : CellArg}
    {s : SampleSet K} (hd : SpreadData n ds)
    (h : regularSize G n ds q rectSize cells = .ok (s, ds')) :
    SpreadSet n s ∧ SpreadData n ds' ∧
    Fits (fun r : Fin n => procRegularSize G r n (ds.view r) q rectSize cells)
      (fun r => .ok (s.view r, ds'.view r)) := by
  simp only [regularSize, bind_eq_ok] at h
  obtain ⟨c, hc, rs, hrs, _, hpos, _, hlen, xi, hxi, s1, hs1, _, hmin, s2, hs2, vols, hvols, _, hz,
    h⟩ := h
  obtain ⟨a1, b1⟩ := setupCartesian_loc hs1
  obtain ⟨⟨a2, b2⟩, hf2⟩ := fits_exactVolume hs2
  have hl1 : ∀ (dom : Option (List (K × K))) (r : Fin n),
      SampleSet.view r { s1 with domain := dom } = { s1 with domain := dom } :=
    fun dom r => view_fresh (by exact a1) (by exact b1) r
  have hl2 : s2.loc = {} ∧ s2.localIndex = none := ⟨a2.trans a1, b2.trans b1⟩
  have e2 : ∀ r : Fin n, s2.view r = s2 := fun r => view_fresh hl2.1 hl2.2 r
  have hvl : ∀ (g : Arrays List K) (r : Fin n), SampleSet.view r { s2 with glob := g } =
      { s2 with glob := g } := fun g r => view_fresh (by exact hl2.1) (by exact hl2.2) r
  obtain ⟨ha, hb, hfa⟩ := fits_attach hd (spread_fresh (by exact hl2.1) (by exact hl2.2)) h
  refine ⟨ha, hb, ?_⟩
  unfold procRegularSize
  refine Fits.bind (fits_checkInputs hc) ?_
  refine Fits.except (r := fun _ => rs) (fun _ => hrs) ?_
  refine fits_raiseIf hpos ?_
  refine fits_raiseIf hlen ?_
  refine Fits.except (r := fun _ => xi) (fun _ => hxi) ?_
  refine Fits.except (r := fun _ => s1) (fun _ => hs1) ?_
  refine fits_raiseIf hmin ?_
  simp only [hl1, e2] at hf2
  refine Fits.bind hf2 ?_
  refine Fits.except (r := fun _ => vols) (fun _ => hvols) ?_
  refine fits_raiseIf hz ?_
  simp only [hvl] at hfa
  exact hfa

theorem fits_regularDomain {G : Geometry K} {ds ds' : DataSet K} {rect : List (List K)}
    {cells : CellArg} {s : SampleSet K} (hd : SpreadData n ds)
    (h : regularDomain G n ds rect cells = .ok (s, ds')) :
    SpreadSet n s ∧ SpreadData n ds' ∧
    Fits (fun r : Fin n => procRegularDomain G r n (ds.view r) rect cells)
      (fun r => .ok (s.view r, ds'.view r)) := by
  simp only [regularDomain, bind_eq_ok] at h
  obtain ⟨inp, hinp, v, hv, c, hc, l, hl, h⟩ := h
  obtain ⟨ha, hb, hf⟩ := fits_regularSize hd h
  refine ⟨ha, hb, ?_⟩
  unfold procRegularDomain
  refine Fits.bind (fits_inputs hinp) ?_
  refine Fits.except (r := fun _ => v) (fun _ => hv) ?_
  refine Fits.except (r := fun _ => c) (fun _ => hc) ?_
  exact Fits.except (r := fun _ => l) (fun _ => hl) hf

theorem fits_regularScaled {G : Geometry K} {ds ds' : DataSet K} {q : Option (List K)}
    {scale : NumArg K} {cells : CellArg} {s : SampleSet K} (hd : SpreadData n ds)
    (h : regularScaled G n ds q scale cells = .ok (s, ds')) :
    SpreadSet n s ∧ SpreadData n ds' ∧
    Fits (fun r : Fin n => procRegularScaled G r n (ds.view r) q scale cells)
      (fun r => .ok (s.view r, ds'.view r)) := by
  simp only [regularScaled, bind_eq_ok] at h
  obtain ⟨c, hc, v, hv, w, hw, rs, hrs, h⟩ := h
  obtain ⟨ha, hb, hf⟩ := fits_regularSize hd h
  refine ⟨ha, hb, ?_⟩
  unfold procRegularScaled
  refine Fits.bind (fits_checkInputs hc) ?_
  refine Fits.except (r := fun _ => v) (fun _ => hv) ?_
  refine Fits.except (r := fun _ => w) (fun _ => hw) ?_
  exact Fits.except (r := fun _ => rs) (fun _ => hrs) hf

/-! ### C120 -/

/-- **C120.** `uniform_partition_uniform_distribution_rectangle_size`: the random samples of
the root reach every process, and each ends with the simple function, and the data set with it
attached, that the call gives when the processes are in step. -/
theorem C120_uniform_size (hpos : 0 < n) {G : Geometry K} {ds ds' : DataSet K} {q : Option (List K)}
    {rectSize : NumArg K} {unif : List (List K)} {emu : Fin n → List (List K)} {num : Nat}
    {s : SampleSet K} (hd : SpreadData n ds)
    (h : uniformSize G n ds q rectSize unif (List.ofFn emu) num = .ok (s, ds')) :
    SpreadSet n s ∧ SpreadData n ds' ∧
    RunsTo (fun r : Fin n => procUniformSize G r n (ds.view r) q rectSize unif (emu r) num)
      (fun r => .ok (s.view r, ds'.view r)) :=
  let h0 := fits_uniformSize hd h; ⟨h0.1, h0.2.1, h0.2.2.runs hpos⟩

/-- **C120.** `uniform_partition_uniform_distribution_rectangle_scaled`. -/
theorem C120_uniform_scaled (hpos : 0 < n)
    {G : Geometry K} {ds ds' : DataSet K} {q : Option (List K)}
    {scale : NumArg K} {unif : List (List K)} {emu : Fin n → List (List K)} {num : Nat}
    {s : SampleSet K} (hd : SpreadData n ds)
    (h : uniformScaled G n ds q scale unif (List.ofFn emu) num = .ok (s, ds')) :
    SpreadSet n s ∧ SpreadData n ds' ∧
    RunsTo (fun r : Fin n => procUniformScaled G r n (ds.view r) q scale unif (emu r) num)
      (fun r => .ok (s.view r, ds'.view r)) :=
  let h0 := fits_uniformScaled hd h; ⟨h0.1, h0.2.1, h0.2.2.runs hpos⟩

/-- **C120.** `uniform_partition_uniform_distribution_rectangle_domain`. -/
theorem C120_uniform_domain (hpos : 0 < n)
    {G : Geometry K} {ds ds' : DataSet K} {rect unif : List (List K)}
    {emu : Fin n → List (List K)} {num : Nat} {s : SampleSet K} (hd : SpreadData n ds)
    (h : uniformDomain G n ds rect unif (List.ofFn emu) num = .ok (s, ds')) :
    SpreadSet n s ∧ SpreadData n ds' ∧
    RunsTo (fun r : Fin n => procUniformDomain G r n (ds.view r) rect unif (emu r) num)
      (fun r => .ok (s.view r, ds'.view r)) :=
  let h0 := fits_uniformDomain hd h; ⟨h0.1, h0.2.1, h0.2.2.runs hpos⟩

/-- **C120.** `uniform_partition_uniform_distribution_data_samples`. -/
theorem C120_data_samples (hpos : 0 < n) {G : Geometry K} {ds ds' : DataSet K} {s : SampleSet K}
    (hd : SpreadData n ds) (h : dataSamples G n ds = .ok (s, ds')) :
    SpreadSet n s ∧ SpreadData n ds' ∧
    RunsTo (fun r : Fin n => procDataSamples G r n (ds.view r))
      (fun r => .ok (s.view r, ds'.view r)) :=
  let h0 := fits_dataSamples hd h; ⟨h0.1, h0.2.1, h0.2.2.runs hpos⟩

/-- **C120.** `uniform_partition_normal_distribution`. -/
theorem C120_uniform_normal (hpos : 0 < n) {G : Geometry K} {ds ds' : DataSet K} {q std : NumArg K}
    {unif : List (List K)} {emu : Fin n → List (List K)} {num : Nat}
    {s : SampleSet K} (hd : SpreadData n ds)
    (h : uniformNormal G n ds q std unif (List.ofFn emu) num = .ok (s, ds')) :
    SpreadSet n s ∧ SpreadData n ds' ∧
    RunsTo (fun r : Fin n => procUniformNormal G r n (ds.view r) q std unif (emu r) num)
      (fun r => .ok (s.view r, ds'.view r)) :=
  let h0 := fits_uniformNormal hd h; ⟨h0.1, h0.2.1, h0.2.2.runs hpos⟩

/-- **C120.** `normal_partition_normal_distribution`. -/
theorem C120_normal_normal (hpos : 0 < n) {G : Geometry K} {ds ds' : DataSet K} {q std : NumArg K}
    {pdf : List K → K} {draw : List (List K)} {emu : Fin n → List (List K)}
    {s : SampleSet K} (hd : SpreadData n ds)
    (h : normalNormal G n ds q std pdf draw (List.ofFn emu) = .ok (s, ds')) :
    SpreadSet n s ∧ SpreadData n ds' ∧
    RunsTo (fun r : Fin n => procNormalNormal G r n (ds.view r) q std pdf draw (emu r))
      (fun r => .ok (s.view r, ds'.view r)) :=
  let h0 := fits_normalNormal hd h; ⟨h0.1, h0.2.1, h0.2.2.runs hpos⟩

/-- **C120.** `user_partition_user_distribution`. -/
theorem C120_user_partition (hpos : 0 < n) {G : Geometry K} {ds par dist ds' : DataSet K}
    {s : SampleSet K} (hd : SpreadData n ds)
    (h : userPartition G n ds par dist = .ok (s, ds')) :
    SpreadSet n s ∧ SpreadData n ds' ∧
    RunsTo (fun r : Fin n => procUserPartition G r n (ds.view r) (par.view r) (dist.view r))
      (fun r => .ok (s.view r, ds'.view r)) :=
  let h0 := fits_userPartition hd h; ⟨h0.1, h0.2.1, h0.2.2.runs hpos⟩

/-- **C120.** `regular_partition_uniform_distribution_rectangle_size`. -/
theorem C120_regular_size (hpos : 0 < n) {G : Geometry K} {ds ds' : DataSet K} {q : Option (List K)}
    {rectSize : NumArg K} {cells : CellArg}
    {s : SampleSet K} (hd : SpreadData n ds)
    (h : regularSize G n ds q rectSize cells = .ok (s, ds')) :
    SpreadSet n s ∧ SpreadData n ds' ∧
    RunsTo (fun r : Fin n => procRegularSize G r n (ds.view r) q rectSize cells)
      (fun r => .ok (s.view r, ds'.view r)) :=
  let h0 := fits_regularSize hd h; ⟨h0.1, h0.2.1, h0.2.2.runs hpos⟩

/-- **C120.** `regular_partition_uniform_distribution_rectangle_domain`. -/
theorem C120_regular_domain (hpos : 0 < n)
    {G : Geometry K} {ds ds' : DataSet K} {rect : List (List K)}
    {cells : CellArg} {s : SampleSet K} (hd : SpreadData n ds)
    (h : regularDomain G n ds rect cells = .ok (s, ds')) :
    SpreadSet n s ∧ SpreadData n ds' ∧
    RunsTo (fun r : Fin n => procRegularDomain G r n (ds.view r) rect cells)
      (fun r => .ok (s.view r, ds'.view r)) :=
  let h0 := fits_regularDomain hd h; ⟨h0.1, h0.2.1, h0.2.2.runs hpos⟩

/-- **C120.** `regular_partition_uniform_distribution_rectangle_scaled`. -/
theorem C120_regular_scaled (hpos : 0 < n)
    {G : Geometry K} {ds ds' : DataSet K} {q : Option (List K)}
    {scale : NumArg K} {cells : CellArg} {s : SampleSet K} (hd : SpreadData n ds)
    (h : regularScaled G n ds q scale cells = .ok (s, ds')) :
    SpreadSet n s ∧ SpreadData n ds' ∧
    RunsTo (fun r : Fin n => procRegularScaled G r n (ds.view r) q scale cells)
      (fun r => .ok (s.view r, ds'.view r)) :=
  let h0 := fits_regularScaled hd h; ⟨h0.1, h0.2.1, h0.2.2.runs hpos⟩

/-- Only the root computes what it sends, and it raises. -/
theorem apart_bcast {T : Type} {x : Fin n → Except Err (List (List K))} {z : List (List K)} {e : Err}
    {j : Fin n} (hj : (j : Nat) ≠ 0) (he : x ⟨0, j.pos⟩ = .error e)
    {g : Fin n → List (List K) → Proc (Msg K) T} :
    ComeApart ⟨0, j.pos⟩ j fun r : Fin n =>
      Proc.ofExcept (onRoot r (x r) (.ok z)) >>= fun mine => bcastList r mine >>= g r := by
  refine .left (r0 := .error e) ?_ ?_
  · simp only [onRoot, if_true, he]
    rfl
  · simp only [onRoot, if_neg hj]
    rfl

/-- **C120, negation.** A Python list for `rect_size` passes the checks, and `1.5 * rect_size` is
computed on the root only: the root raises `TypeError` and the others wait in `Bcast` for ever. -/
theorem C120_negation_list {G : Geometry K} {ds : DataSet K} {q : Option (List K)} {l : List K}
    {unif : List (List K)} {emu : Fin n → List (List K)} {num : Nat} {c : Inputs K × List K}
    (hc : ds.checkInputs n q = .ok c) (hl : ∀ x ∈ l, 0 < x) {j : Fin n} (hj : (j : Nat) ≠ 0)
    (sched : List (Fin n)) :
    (((Sys.start fun r : Fin n => procUniformSize G r n (ds.view r) q (.pylist l) unif (emu r)
      num).run sched) j).1.result = none := by
  refine C114_negation_apart (i := ⟨0, j.pos⟩) ?_ sched
  unfold procUniformSize
  have hraise : raiseIf (∃ r ∈ l, r ≤ 0) .wrongArgumentType = .ok () :=
    raiseIf_eq_ok.mpr (by push Not; exact hl)
  refine Fits.apart (fits_checkInputs hc) ?_
  refine Fits.apart (r := fun _ => l) (Fits.of_except fun _ => rfl) ?_
  refine Fits.apart (r := fun _ => ()) (Fits.of_except fun _ => hraise) ?_
  exact apart_bcast (e := .typeError) hj rfl

theorem apart_root {T : Type} {q q1 std : NumArg K} {ds : DataSet K} {dim : Nat} {sd : List K}
    {f : List K → List K → List (List K)} {z : Nat → List (List K)} {e : Err}
    (hq : ds.orInferArg q = .ok q1) (hd : refLen ds q1 = .ok dim) (hs : checkType ds std = .ok sd)
    (he : aroundRef ds q1 sd (f sd) = .error e)
    {g : Fin n → NumArg K → Nat → List K → List (List K) → Proc (Msg K) T}
    {j : Fin n} (hj : (j : Nat) ≠ 0) (sched : List (Fin n)) :
    (((Sys.start fun r : Fin n =>
      Proc.ofExcept ((ds.view r).orInferArg q) >>= fun q1 =>
      Proc.ofExcept (refLen (ds.view r) q1) >>= fun dim =>
      Proc.ofExcept (checkType (ds.view r) std) >>= fun sd =>
      Proc.ofExcept (onRoot r (aroundRef (ds.view r) q1 sd (f sd)) (.ok (z dim))) >>= fun mine =>
      bcastList r mine >>= fun samples => g r q1 dim sd samples).run sched) j).1.result = none := by
  refine C114_negation_apart (i := ⟨0, j.pos⟩) ?_ sched
  refine Fits.apart (r := fun _ => q1) (Fits.of_except fun r => (view_orInferArg ds r q).trans hq) ?_
  refine Fits.apart (r := fun _ => dim) (Fits.of_except fun r => (view_refLen ds r q1).trans hd) ?_
  refine Fits.apart (r := fun _ => sd) (Fits.of_except fun r => (view_checkType ds r std).trans hs) ?_
  exact apart_bcast (e := e) hj ((view_aroundRef ds 0 q1 sd _).trans he)

theorem checkType_missing {ds : DataSet K} {dim : Nat} (h : ds.typeDim = .ok dim) :
    checkType ds .missing = .error .typeError := by
  unfold checkType
  rw [h]
  rfl

/-- **C120, negation.** Without a reference value the root of `uniform_partition_normal_distribution`
raises `TypeError`, and the others wait in `Bcast` for ever. -/
theorem C120_negation_missing {G : Geometry K} {ds : DataSet K} {std : NumArg K} {sd : List K}
    {unif : List (List K)} {emu : Fin n → List (List K)} {num dim : Nat}
    (hq : ds.inferQ = .ok none) (hd : ds.typeDim = .ok dim) (hs : checkType ds std = .ok sd)
    {j : Fin n} (hj : (j : Nat) ≠ 0) (sched : List (Fin n)) :
    (((Sys.start fun r : Fin n => procUniformNormal G r n (ds.view r) .missing std unif (emu r)
      num).run sched) j).1.result = none := by
  refine apart_root (q1 := .missing) (dim := 1) (sd := sd) (e := .typeError)
    (f := fun sd qr => unif.map (stretch 4 sd qr)) ?_ ?_ hs ?_ hj sched
  · simp only [DataSet.orInferArg, hq]; rfl
  · simp only [refLen, hd]; rfl
  · rw [aroundRef, checkType_missing hd]; rfl

/-- **C120, negation.** The same for `normal_partition_normal_distribution`. -/
theorem C120_negation_missing_normal {G : Geometry K} {ds : DataSet K} {std : NumArg K}
    {sd : List K} {pdf : List K → K} {draw : List (List K)} {emu : Fin n → List (List K)}
    {dim : Nat} (hq : ds.inferQ = .ok none) (hd : ds.typeDim = .ok dim)
    (hs : checkType ds std = .ok sd) {j : Fin n} (hj : (j : Nat) ≠ 0) (sched : List (Fin n)) :
    (((Sys.start fun r : Fin n => procNormalNormal G r n (ds.view r) .missing std pdf draw
      (emu r)).run sched) j).1.result = none := by
  refine apart_root (q1 := .missing) (dim := 1) (sd := sd) (e := .typeError)
    (f := fun _ _ => draw) ?_ ?_ hs ?_ hj sched
  · simp only [DataSet.orInferArg, hq]; rfl
  · simp only [refLen, hd]; rfl
  · rw [aroundRef, checkType_missing hd]; rfl

/-- **C120, negation.** An array of standard deviations that is not as long as the reference value:
the root of `uniform_partition_normal_distribution` raises `ValueError`, and the others wait for
ever. -/
theorem C120_negation_std {G : Geometry K} {ds : DataSet K} {qr sd : List K}
    {unif : List (List K)} {emu : Fin n → List (List K)} {num dim : Nat}
    (hd : ds.typeDim = .ok dim) (hl : sd.length ≠ qr.length)
    {j : Fin n} (hj : (j : Nat) ≠ 0) (sched : List (Fin n)) :
    (((Sys.start fun r : Fin n => procUniformNormal G r n (ds.view r) (.array qr) (.array sd) unif
      (emu r) num).run sched) j).1.result = none := by
  have hc : ∀ l : List K, checkType ds (.array l) = .ok l := by
    intro l
    unfold checkType
    rw [hd]
    rfl
  refine apart_root (q1 := .array qr) (dim := qr.length) (sd := sd) (e := .valueError)
    (f := fun sd qr => unif.map (stretch 4 sd qr)) rfl ?_ (hc sd) ?_ hj sched
  · simp only [refLen, hc]; rfl
  · rw [aroundRef, hc]
    have : raiseIf (sd.length ≠ qr.length) .valueError = .error .valueError := by
      simp [raiseIf, hl]
    show (raiseIf (sd.length ≠ qr.length) .valueError >>= _) = _
    rw [this]
    rfl

end

namespace Ex

/-- The hypotheses of the C120 theorems are met on two processes ... -/
example : SpreadData 2 (.set outSet) ∧
    (uniformSize G 2 (.set outSet) none (.scalar 1) [[1/4], [3/4]]
      (List.ofFn fun r : Fin 2 => if r = 0 then [[1/8], [1/2]] else [[7/8], [15/16]])
      4).toOption.isSome = true := by
  refine ⟨?_, by decide +kernel⟩
  show SpreadSet 2 outSet
  simp [SpreadSet, Arrays.All, Spread, outSet]

/-- ... and in this schedule the second process, which gets the samples from the root, ends with the
probabilities. -/
example : ((((Sys.start fun r : Fin 2 => procUniformSize G r 2 ((DataSet.set outSet).view r) none
    (.scalar 1) [[1/4], [3/4]] (if r = 0 then [[1/8], [1/2]] else [[7/8], [15/16]]) 4).run
    ((List.replicate 10 [1, 1, 0]).flatten)) 1).1.result.bind fun x => x.toOption.bind fun s =>
      s.1.glob.probabilities) = some [1/2, 1/2] := by decide +kernel

/-- The hypotheses of `C120_negation_list` are met. -/
example : ((DataSet.set outSet).checkInputs 2 none).toOption.isSome = true ∧
    ∀ x ∈ [(1 : ℚ)], 0 < x := by
  refine ⟨by decide +kernel, by decide +kernel⟩

/-- The hypotheses of `C120_negation_missing` and of `C120_negation_std` are met. -/
example : (DataSet.array 1 [[(1/4 : ℚ)], [3/4]]).inferQ = .ok none ∧
    (DataSet.array 1 [[(1/4 : ℚ)], [3/4]]).typeDim = .ok 1 ∧
    checkType (DataSet.array 1 [[(1/4 : ℚ)], [3/4]]) (.scalar 1) = .ok [1] ∧
    [(1 : ℚ), 2].length ≠ [(3 : ℚ)].length := ⟨rfl, rfl, rfl, by decide⟩

end Ex

end BET
