import Verif.Model.SpmdSurrogate
import Verif.Props.SpmdSampler
import Verif.Props.Radii
import Verif.Props.SurrogateUpdate

/-!
# Radii and surrogates on several processes (C128)
-/

set_option autoImplicit false
set_option linter.unusedSectionVars false
set_option linter.unusedSimpArgs false

namespace BET

open Spec

namespace Spec

/-- A surrogate whose local arrays and pointers have parts for each of the `n` processes. -/
structure SpreadSurrogate {K : Type} (n : Nat) (S : Surrogate K) : Prop where
  disc : SpreadDisc n S.disc
  ptr : S.ptr.length = n
  surr : SpreadDisc n S.surr

end Spec

variable {n : Nat}

section
variable {K : Type} [Field K] [LinearOrder K]

/-! ### Radii -/

theorem fits_reduceMax (x : Fin n → List K) :
    Fits (fun r => reduceMax (x r)) (fun _ => .ok (allreduceMax (List.ofFn x))) := by
  refine ⟨1, .coll .allreduce (fun i => .arr (x i)) _ (fun i => rfl) (.done fun i => ?_)⟩
  simp [Proc.result, List.map_ofFn, Function.comp_def, Msg.toArr]

theorem spread_storeRadii {s : SampleSet K} (hs : SpreadSet n s) (normalize : Bool) (rad : List K) :
    SpreadSet n (s.storeRadii normalize rad) := by
  unfold SampleSet.storeRadii
  split <;> exact hs

theorem view_storeRadii (s : SampleSet K) (normalize : Bool) (rad : List K) (r : Nat) :
    (s.storeRadii normalize rad).view r = (s.view r).storeRadii normalize rad := by
  unfold SampleSet.storeRadii
  split <;> rfl

theorem fits_localRadii {G : Geometry K} {s s' : SampleSet K} {mc : Fin n → List (List K)}
    {normalize : Bool} {ptr : Chunks Nat} {rad : List K} (hs : SpreadSet n s)
    (h : s.findRadii G n (List.ofFn mc) normalize = .ok (s', ptr, rad)) :
    SpreadSet n s' ∧ ∃ (p : Fin n → List Nat) (x : Fin n → List K), ptr = List.ofFn p ∧
      rad = allreduceMax (List.ofFn x) ∧
      Fits (fun r : Fin n => (s.view r).procLocalRadii G (mc r) normalize)
        (fun r => .ok (s'.view r, p r, x r)) := by
  simp only [SampleSet.findRadii, bind_eq_ok, pure_eq_ok, Prod.mk.injEq] at h
  obtain ⟨num, hnum, values, hv, D, hD, ⟨s1, ptr1⟩, hq, rows, hrows, rfl, rfl, rfl⟩ := h
  have hs1 := spread_query hq hs
  obtain ⟨-, -, p, rfl, hf⟩ := query_spread hq
  rw [zip_ofFn] at hrows
  obtain ⟨x, rfl, hx⟩ := mapM_ofFn_ok hrows
  refine ⟨hs1, p, x, rfl, rfl, ?_⟩
  unfold SampleSet.procLocalRadii
  refine Fits.bind (fits_checkNum hnum) ?_
  refine Fits.except (r := fun _ => values) (fun _ => hv) ?_
  refine Fits.except (r := fun _ => D) (fun _ => hD) ?_
  refine Fits.bind hf ?_
  exact Fits.except hx (Fits.ret _)

theorem fits_estimateRadii {G : Geometry K} {s s' : SampleSet K} {mc : Fin n → List (List K)}
    {normalize : Bool} (hs : SpreadSet n s)
    (h : s.estimateRadii G n (List.ofFn mc) normalize = .ok s') :
    SpreadSet n s' ∧ Fits (fun r : Fin n => (s.view r).procEstimateRadii G r n (mc r) normalize)
      (fun r => .ok (s'.view r)) := by
  simp only [SampleSet.estimateRadii, bind_eq_ok] at h
  obtain ⟨⟨s1, ptr, rad⟩, h1, h⟩ := h
  obtain ⟨hs1, p, x, rfl, rfl, hf⟩ := fits_localRadii hs h1
  refine ⟨spread_globalToLocal (spread_storeRadii hs1 _ _) h, ?_⟩
  unfold SampleSet.procEstimateRadii
  refine Fits.bind hf ?_
  refine Fits.bind (fits_reduceMax _) ?_
  have := fits_globalToLocal h
  simp only [view_storeRadii] at this
  exact this

theorem fits_estimateRadiiAndVolume {G : Geometry K} {s s' : SampleSet K} {k : Nat}
    {mc : Fin n → List (List K)} {normalize : Bool} (hs : SpreadSet n s)
    (h : s.estimateRadiiAndVolume G n k (List.ofFn mc) normalize = .ok s') :
    SpreadSet n s' ∧
    Fits (fun r : Fin n => (s.view r).procEstimateRadiiAndVolume G r n k (mc r) normalize)
      (fun r => .ok (s'.view r)) := by
  simp only [SampleSet.estimateRadiiAndVolume, bind_eq_ok] at h
  obtain ⟨num, hnum, ⟨s1, ptr, rad⟩, h1, _, hz, h⟩ := h
  obtain ⟨hs1, p, x, rfl, rfl, hf⟩ := fits_localRadii hs h1
  have hz' := raiseIf_eq_ok.mp hz
  refine ⟨spread_globalToLocal (spread_volumes (spread_storeRadii hs1 _ _) _) h, ?_⟩
  unfold SampleSet.procEstimateRadiiAndVolume
  refine Fits.bind (fits_checkNum hnum) ?_
  refine Fits.bind hf ?_
  refine Fits.bind (fits_reduceMax _) ?_
  refine Fits.bind ⟨1, fit_volumes (by simpa using hz')⟩ ?_
  have := fits_globalToLocal h
  dsimp only at this ⊢
  have e : ∀ (v : Option (List K)) (r : Nat), SampleSet.view r
      { s1.storeRadii normalize (allreduceMax (List.ofFn x)) with
        glob := { (s1.storeRadii normalize (allreduceMax (List.ofFn x))).glob with volumes := v } } =
      { (s1.view r).storeRadii normalize (allreduceMax (List.ofFn x)) with
        glob := { ((s1.view r).storeRadii normalize (allreduceMax (List.ofFn x))).glob with
          volumes := v } } := by
    intro v r
    rw [← view_storeRadii]
    rfl
  simp only [e] at this
  exact this

/-! ### Making a surrogate -/

theorem fits_surrogateInit {d d' : Disc K} (hd : SpreadDisc n d) (h : surrogateInit n d = .ok d') :
    SpreadDisc n d' ∧
    Fits (fun r : Fin n => procSurrogateInit (d.view r)) (fun r => .ok (d'.view r)) := by
  simp only [surrogateInit, bind_eq_ok, pure_eq_ok] at h
  obtain ⟨num, hnum, inp, hinp, out, hout, rfl⟩ := h
  have hi := hd.input _ ((orErr_eq_ok _ _ _).1 hinp)
  have ho := hd.output _ ((orErr_eq_ok _ _ _).1 hout)
  refine ⟨spread_putOutput (spread_putInput hd (spread_localToGlobal hi)) (spread_localToGlobal ho), ?_⟩
  unfold procSurrogateInit
  refine Fits.bind (fits_checkNums hnum) ?_
  refine Fits.except (r := fun r => inp.view r) (fun r => orErr_view hinp r) ?_
  refine Fits.except (r := fun r => out.view r) (fun r => orErr_view hout r) ?_
  refine Fits.bind (fits_localToGlobal hi) ?_
  refine Fits.bind (fits_localToGlobal ho) ?_
  exact Fits.ret _

theorem fits_surrogateJacobians {inp inp' : SampleSet K} (hi : SpreadSet n inp)
    (h : surrogateJacobians inp = .ok inp') :
    Fits (fun r : Fin n => procSurrogateJacobians (inp.view r)) (fun r => .ok (inp'.view r)) := by
  have e1 : ∀ r : Nat, (inp.view r).glob.jacobians = inp.glob.jacobians := fun _ => rfl
  have e2 : ∀ r : Nat, (inp.view r).loc.jacobians.isNone = inp.loc.jacobians.isNone :=
    fun r => isNone_oneOf _ _
  unfold surrogateJacobians at h
  unfold procSurrogateJacobians
  simp only [e1, e2]
  split at h
  · split at h
    · cases h
    · obtain rfl := Except.ok.inj h
      rename_i h1 h2
      simp only [h1, h2, if_true]
      exact fits_localToGlobal hi
  · obtain rfl := Except.ok.inj h
    rename_i h1
    simp only [h1]
    exact Fits.ret _

theorem takeRows_ofFn {α : Type} {a : List α} {p : Fin n → List Nat} {w : Chunks α}
    (h : takeRows a (List.ofFn p) = .ok w) :
    ∃ f : Fin n → List α, w = List.ofFn f ∧ ∀ r, (p r).mapM (getIdx a) = .ok (f r) := mapM_ofFn_ok h

theorem fits_surrogateValues {order : Nat} {inp out : SampleSet K} {x : Fin n → List (List K)}
    {p : Fin n → List Nat} {w : Chunks (List K)} (hi : SpreadSet n inp)
    (h : surrogateValues order inp out (List.ofFn x) (List.ofFn p) = .ok w) :
    ∃ f : Fin n → List (List K), w = List.ofFn f ∧
    Fits (fun r : Fin n => procSurrogateValues order (inp.view r) (out.view r) (x r) (p r))
      (fun r => .ok (f r)) := by
  rw [surrogateValues, bind_eq_ok] at h
  obtain ⟨y, hy, h⟩ := h
  unfold procSurrogateValues
  by_cases ho : order = 0
  · rw [if_pos ho] at h
    obtain ⟨f, rfl, hf⟩ := takeRows_ofFn h
    refine ⟨f, rfl, ?_⟩
    refine Fits.except (r := fun _ => y) (fun _ => hy) ?_
    simp only [if_pos ho]
    exact Fits.of_except hf
  · simp only [if_neg ho, bind_eq_ok, pure_eq_ok] at h
    obtain ⟨inp1, hinp1, jac, hjac, jacs, hjacs, v, hv, cs, hcs, qs, hqs, rfl⟩ := h
    obtain ⟨j1, rfl, hj1⟩ := takeRows_ofFn hjacs
    obtain ⟨c1, rfl, hc1⟩ := takeRows_ofFn hcs
    obtain ⟨q1, rfl, hq1⟩ := takeRows_ofFn hqs
    refine ⟨fun r => linear1 (q1 r) (j1 r) (c1 r) (x r), ?_, ?_⟩
    · simp only [linearValues, zipWith_ofFn]
      rfl
    refine Fits.except (r := fun _ => y) (fun _ => hy) ?_
    simp only [if_neg ho]
    refine Fits.bind (fits_surrogateJacobians hi hinp1) ?_
    refine Fits.except (r := fun _ => jac) (fun _ => hjac) ?_
    refine Fits.except hj1 ?_
    refine Fits.except (r := fun _ => v) (fun _ => hv) ?_
    refine Fits.except hc1 ?_
    refine Fits.except hq1 ?_
    exact Fits.ret _

theorem fits_surrogateErrors {out s t : SampleSet K} {p : Fin n → List Nat} (hs : SpreadSet n s)
    (h : surrogateErrors out (List.ofFn p) s = .ok t) :
    SpreadSet n t ∧
    Fits (fun r : Fin n => procSurrogateErrors (out.view r) (p r) (s.view r))
      (fun r => .ok (t.view r)) := by
  have e1 : ∀ r : Nat, (out.view r).glob.errorEstimates = out.glob.errorEstimates := fun _ => rfl
  unfold surrogateErrors at h
  unfold procSurrogateErrors
  simp only [e1]
  cases hee : out.glob.errorEstimates with
  | none =>
    simp only [hee] at h
    obtain rfl := Except.ok.inj h
    exact ⟨hs, Fits.ret _⟩
  | some ee =>
    simp only [hee, bind_eq_ok] at h
    obtain ⟨e, he, h⟩ := h
    obtain rfl := Except.ok.inj h
    obtain ⟨f, rfl, hf⟩ := takeRows_ofFn he
    refine ⟨?_, ?_⟩
    · obtain ⟨⟨h1, h2, h3, h4, h5, h6, hr⟩, hl⟩ := hs
      exact ⟨⟨h1, h2, h3, h4, h5, spread_some f, hr⟩, hl⟩
    refine Fits.except hf ?_
    simp only [SampleSet.view, Arrays.map, oneOf_ofFn]
    exact Fits.ret _

theorem spread_discNew {i o p ei eo : Option (SampleSet K)}
    (hi : ∀ s, i = some s → SpreadSet n s) (ho : ∀ s, o = some s → SpreadSet n s)
    (hp : ∀ s, p = some s → SpreadSet n s) (hei : ∀ s, ei = some s → SpreadSet n s)
    (heo : ∀ s, eo = some s → SpreadSet n s) :
    SpreadDisc n ({ input := i, output := o, outputProb := p, emInput := ei, emOutput := eo } : Disc K) := by
  refine ⟨hi, ho, hp, hei, heo, ?_, ?_, ?_⟩ <;> rintro c ⟨⟩

theorem fits_generate {G : Geometry K} {d : Disc K} {new : SampleSet K} {order : Nat}
    {S : Surrogate K} (hd : SpreadDisc n d) (hn : SpreadSet n new)
    (h : generateForInputSet G n d new order = .ok S) :
    SpreadSurrogate n S ∧
    Fits (fun r : Fin n => procGenerate G r n (d.view r) (new.view r) order)
      (fun r => .ok (S.view r)) := by
  simp only [generateForInputSet, bind_eq_ok, pure_eq_ok] at h
  obtain ⟨_, hord, num, hnum, inp, hinp, _, hdim, out, hout, d1, hd1, d2, hd2, ptr, hptr, new1, hnew1,
    xs, hxs, w, hw, o, ho, o1, ho1, surr, hsurr, rfl⟩ := h
  have hi := hd.input _ ((orErr_eq_ok _ _ _).1 hinp)
  have hs1 : SpreadDisc n d1 := by
    rw [setEmInput_eq hd1]
    exact spread_putEmInput hd (s := inheritDomain inp new) hn
  obtain ⟨hs2, hf2⟩ := fits_setIiPtr hs1 hd2
  obtain ⟨p, rfl, hp⟩ := localPtr hs2.ii hptr
  have hsn := hs2.emInput _ ((orErr_eq_ok _ _ _).1 hnew1)
  obtain ⟨x, rfl, hx⟩ := localValues hsn hxs
  obtain ⟨f, rfl, hf⟩ := fits_surrogateValues hi hw
  obtain ⟨hso, hvo⟩ := spread_setValuesLocal (spread_new _) ho
  obtain ⟨hso1, hfo1⟩ := fits_surrogateErrors hso ho1
  obtain ⟨rfl, hfd⟩ := fits_discNew hsurr
  refine ⟨⟨hd, by simp, spread_discNew ?_ ?_ hd.outputProb (by rintro s ⟨⟩) (by rintro s ⟨⟩)⟩, ?_⟩
  · rintro s ⟨⟩; exact hsn
  · rintro s ⟨⟩; exact hso1
  unfold procGenerate
  refine fits_raiseIf hord ?_
  refine Fits.bind (fits_checkNum hnum) ?_
  refine Fits.except (r := fun r => inp.view r) (fun r => orErr_view hinp r) ?_
  refine fits_raiseIf hdim ?_
  refine Fits.except (r := fun r => out.view r) (fun r => orErr_view hout r) ?_
  refine Fits.except (r := fun r => d1.view r) (fun r => view_setEmInput hd1 r) ?_
  refine Fits.bind hf2 ?_
  refine Fits.except (r := fun r => [p r]) hp ?_
  refine Fits.except (r := fun r => new1.view r) (fun r => orErr_view hnew1 r) ?_
  refine Fits.except (r := fun r => [x r]) hx ?_
  simp only [List.flatten_cons, List.flatten_nil, List.append_nil]
  refine Fits.bind hf ?_
  refine Fits.except (r := fun r => o.view r) hvo ?_
  refine Fits.bind hfo1 ?_
  refine Fits.bind hfd ?_
  simp only [Surrogate.view, List.getD_eq_getElem?_getD, List.getElem?_ofFn]
  simp only [Fin.is_lt, dite_true, Option.getD_some]
  exact Fits.ret _

/-! ### Solving the inverse problem -/

theorem fits_reduceExt (x : Fin n → Num K) :
    Fits (fun r => reduceExt (x r)) (fun _ => .ok (sumNum (List.ofFn x))) := by
  refine ⟨1, .coll .allreduce (fun i => .ext (x i)) _ (fun i => rfl) (.done fun i => ?_)⟩
  simp [Proc.result, List.map_ofFn, Function.comp_def]

theorem fits_estimateVolumeMcLocal {s s' : SampleSet K} (hs : SpreadSet n s)
    (h : s.estimateVolumeMc n false = .ok s') :
    SpreadSet n s' ∧
    Fits (fun r : Fin n => (s.view r).procEstimateVolumeMcLocal) (fun r => .ok (s'.view r)) := by
  simp only [SampleSet.estimateVolumeMc, bind_eq_ok, if_neg Bool.false_ne_true, pure_eq_ok] at h
  obtain ⟨num, hnum, _, hz, locs, hl, rfl⟩ := h
  have e : List.range n = List.ofFn fun r : Fin n => (r : Nat) := by
    apply List.ext_getElem <;> simp
  rw [e] at hl
  obtain ⟨f, rfl, hf⟩ := mapM_ofFn_ok hl
  refine ⟨?_, ?_⟩
  · obtain ⟨⟨h1, h2, hr⟩, hl⟩ := hs
    exact ⟨⟨h1, spread_some f, hr⟩, hl⟩
  simp only [bind_eq_ok, pure_eq_ok] at hf
  choose m0 hm0 m hm hf using hf
  unfold SampleSet.procEstimateVolumeMcLocal
  refine Fits.bind (fits_checkNum hnum) ?_
  refine fits_raiseIf hz ?_
  refine Fits.except (r := m0) (fun r => by rw [view_checkNumLocal]; exact hm0 r) ?_
  refine Fits.except (r := m) hm ?_
  simp only [SampleSet.view, Arrays.map, oneOf_ofFn, ← hf]
  exact Fits.ret _

theorem fits_ensureVolumesMc {d d' : Disc K} (hd : SpreadDisc n d)
    (h : ensureVolumesMc n d = .ok d') :
    SpreadDisc n d' ∧
    Fits (fun r : Fin n => procEnsureVolumesMc (d.view r)) (fun r => .ok (d'.view r)) := by
  rw [ensureVolumesMc, bind_eq_ok] at h
  obtain ⟨inp, hinp, h⟩ := h
  have hi := hd.input _ ((orErr_eq_ok _ _ _).1 hinp)
  have e : ∀ r : Nat, (inp.view r).loc.volumes.isNone = inp.loc.volumes.isNone :=
    fun r => isNone_oneOf _ _
  unfold procEnsureVolumesMc
  by_cases hc : inp.loc.volumes.isNone = true
  · simp only [if_pos hc, bind_eq_ok, pure_eq_ok] at h
    obtain ⟨i, h1, rfl⟩ := h
    obtain ⟨hs1, hf1⟩ := fits_estimateVolumeMcLocal hi h1
    refine ⟨spread_putInput hd hs1, ?_⟩
    refine Fits.except (r := fun r => inp.view r) (fun r => orErr_view hinp r) ?_
    simp only [e, if_pos hc]
    exact Fits.bind hf1 (Fits.ret _)
  · rw [if_neg hc, pure_eq_ok] at h
    subst h
    refine ⟨hd, ?_⟩
    refine Fits.except (r := fun r => inp.view r) (fun r => orErr_view hinp r) ?_
    simp only [e, if_neg hc]
    exact Fits.ret _

theorem fits_regionPass {G : Geometry K} {s : SampleSet K} {pn : List K} {surr : Disc K}
    {region : Int} {x : RegionPass K} (hs : SpreadSet n s) (hd : SpreadDisc n surr)
    (h : regionPass G n s pn surr region = .ok x) :
    SpreadDisc n x.surr ∧ x.ids.length = n ∧
    Fits (fun r : Fin n => procRegionPass G r n (s.view r) pn (surr.view r) region)
      (fun r => .ok (x.view r)) := by
  simp only [regionPass, modelErrorInit, bind_eq_ok, pure_eq_ok] at h
  obtain ⟨_, ⟨e, he, io', hio', rfl⟩, marker, hm, sel, hsel, inp, hinp, inA, hinA, ops, hops, num, hnum,
    probs, hprobs, io, hio, rfl⟩ := h
  obtain ⟨hse, hfe⟩ := fits_modelErrorNew hd he
  obtain ⟨m, rfl, hfm⟩ := fits_regionMask hs (hse.1.input _ ((orErr_eq_ok _ _ _).1 hinp)) hinA
  obtain ⟨p, rfl, hp⟩ := localPtr hse.1.io hio
  obtain ⟨p', rfl, hp'⟩ := localPtr hse.2.io hio'
  obtain ⟨ids', h1, h2⟩ := fits_mcLoop m p p' probs (List.range probs.length) (.fin 0)
    ((fun c => c.map fun _ => .fin 0) ∘ p)
  rw [← List.map_ofFn] at h1 h2
  dsimp only
  have hids : (modelRegionMc (List.ofFn m) (List.ofFn p) (List.ofFn p') probs).2 = List.ofFn ids' := h1
  refine ⟨hse.1, by rw [hids, List.length_ofFn], ?_⟩
  unfold procRegionPass
  refine Fits.bind hfe ?_
  refine Fits.except (r := fun r => [p' r]) hp' ?_
  refine Fits.except (r := fun _ => marker) (fun _ => hm) ?_
  refine Fits.except (r := fun _ => sel) (fun _ => hsel) ?_
  refine Fits.except (r := fun r => inp.view r) (fun r => orErr_view hinp r) ?_
  refine Fits.bind hfm ?_
  refine Fits.bind (r := fun _ => probs) (fits_measureProbs ?_) ?_
  · simp only [measureProbs, bind_eq_ok]
    exact ⟨ops, hops, num, hnum, hprobs⟩
  refine Fits.except (r := fun r => [p r]) hp ?_
  simp only [List.flatten_cons, List.flatten_nil, List.append_nil]
  refine Fits.bind h2 ?_
  simp only [RegionPass.view, hids, List.getD_eq_getElem?_getD, List.getElem?_ofFn]
  simp only [Fin.is_lt, dite_true, Option.getD_some]
  exact Fits.ret _

theorem fits_surrogateLoop {G : Geometry K} {s : SampleSet K} {pn : List K} (hs : SpreadSet n s)
    {regions : List Int} {surr surr' : Disc K} {ids ids' : Option (Chunks (Num K))} {l : List K}
    {es : List (Num K)} (hd : SpreadDisc n surr) (hi : Spread n ids)
    (h : surrogateLoop G n s pn surr ids regions = .ok (l, es, ids', surr')) :
    SpreadDisc n surr' ∧ Spread n ids' ∧
    Fits (fun r : Fin n => procSurrogateLoop G r n (s.view r) pn (surr.view r) (oneOf r ids) regions)
      (fun r => .ok (l, es, oneOf r ids', surr'.view r)) := by
  induction regions generalizing surr ids l es with
  | nil =>
    simp only [surrogateLoop, Except.ok.injEq, Prod.mk.injEq] at h
    obtain ⟨rfl, rfl, rfl, rfl⟩ := h
    exact ⟨hd, hi, Fits.ret _⟩
  | cons region rest ih =>
    simp only [surrogateLoop, bind_eq_ok, pure_eq_ok, Prod.mk.injEq] at h
    obtain ⟨x, hx, ⟨l1, es1, ids1, surr1⟩, h1, rfl, rfl, rfl, rfl⟩ := h
    obtain ⟨hs1, hl1, hf1⟩ := fits_regionPass hs hd hx
    obtain ⟨hs2, hi2, hf2⟩ := ih hs1 (by rintro c ⟨⟩; exact hl1) h1
    refine ⟨hs2, hi2, ?_⟩
    simp only [procSurrogateLoop]
    refine Fits.bind hf1 ?_
    exact Fits.bind hf2 (Fits.ret _)

theorem mapM_fst_snd {α β γ : Type} {f : α → Except Err β} {g : α → γ} :
    ∀ {l : List α} {ys : List β}, l.mapM f = .ok ys →
      l.mapM (fun a => do let y ← f a; pure (y, g a)) = .ok (ys.zip (l.map g))
  | [], ys, h => by
      rw [List.mapM_nil, pure_eq_ok] at h
      subst h
      rfl
  | a :: l, ys, h => by
      rw [List.mapM_cons] at h
      simp only [bind_eq_ok, pure_eq_ok] at h
      obtain ⟨y, hy, ys', h1, rfl⟩ := h
      rw [List.mapM_cons, mapM_fst_snd h1, hy]
      rfl

theorem fits_updateSteps {num : Nat} {p : Fin n → List Nat} {w : Option (Chunks K)}
    {v : Fin n → List (Num K)} {ps : List K} (hw : Spread n w)
    (h : gatherLoopOpt num (List.ofFn p) w = .ok ps) :
    Fits (fun r : Fin n => (List.range num).mapM (procUpdateStep (p r) (oneOf r w) (some [v r])))
      (fun _ => .ok (ps.zip (gatherNum num (List.ofFn p) (List.ofFn v)))) := by
  cases w with
  | none =>
    unfold gatherLoopOpt at h
    simp only at h
    split at h
    · rename_i h0
      cases h
      subst h0
      exact Fits.ret _
    · cases h
  | some w =>
    have hc := spread_ofFn hw rfl
    generalize (fun r : Fin n => w.getD r []) = f at hc
    subst hc
    simp only [oneOf_ofFn]
    have h' : (List.range num).mapM (fun i => do
        let sel ← maskSelRanks (List.ofFn f) ((List.ofFn p).map fun c => npEqual c i)
        pure (allreduceSum (sel.map List.sum))) = .ok ps := h
    have h2 := mapM_fst_snd (g := fun i => sumNum (List.zipWith
      (fun c v => sumNum (maskSel v (npEqual c i))) (List.ofFn p) (List.ofFn v))) h'
    refine fit_mapM (fun i y hy => ?_) _ h2
    simp only [bind_eq_ok, pure_eq_ok] at hy
    obtain ⟨y1, ⟨sel, h1, rfl⟩, rfl⟩ := hy
    rw [List.map_ofFn] at h1
    obtain ⟨b, rfl, hb⟩ := maskSelRanks_ofFn h1
    rw [List.map_ofFn, zipWith_ofFn]
    show Fits _ _
    unfold procUpdateStep
    refine Fits.except (r := fun r => [f r]) (fun _ => rfl) ?_
    simp only [List.flatten_cons, List.flatten_nil, List.append_nil]
    refine Fits.except hb ?_
    refine Fits.bind ⟨1, fit_reduceNum fun r => (b r).sum⟩ ?_
    refine Fits.except (r := fun r => [v r]) (fun _ => rfl) ?_
    simp only [List.flatten_cons, List.flatten_nil, List.append_nil]
    refine Fits.bind (fits_reduceExt _) ?_
    exact Fits.ret _

theorem fits_updateInput {S : Surrogate K} {ids : Option (Chunks (Num K))} {d : Disc K}
    {es : List (Num K)} (hS : SpreadSurrogate n S) (hi : Spread n ids)
    (h : updateInput n S ids = .ok (d, es)) :
    SpreadDisc n d ∧
    Fits (fun r : Fin n => procUpdateInput (S.view r) (oneOf r ids)) (fun r => .ok (d.view r, es)) := by
  simp only [updateInput, bind_eq_ok, pure_eq_ok, Prod.mk.injEq] at h
  obtain ⟨inp, hinp, num, hnum, sinp, hsinp, ps, hps, v, hv, rfl, rfl⟩ := h
  rw [orErr_eq_ok] at hv
  subst hv
  have hv := spread_ofFn hi rfl
  generalize (fun r : Fin n => v.getD r []) = f at hv
  subst hv
  have hp := spread_ofFn (n := n) (a := some S.ptr) (by rintro c ⟨⟩; exact hS.ptr) rfl
  obtain ⟨p, hp⟩ : ∃ p : Fin n → List Nat, S.ptr = List.ofFn p := ⟨_, hp⟩
  have hss := hS.surr.input _ ((orErr_eq_ok _ _ _).1 hsinp)
  rw [hp] at hps
  have hlen : ps.length = (gatherNum num (List.ofFn p) (List.ofFn f)).length := by
    simp only [gatherNum, List.length_map, List.length_range]
    unfold gatherLoopOpt at hps
    split at hps
    · split at hps
      · rename_i h0
        cases hps
        rw [h0]; rfl
      · cases hps
    · rw [gatherLoop, mapM_eq_ok] at hps
      have := hps.length_eq
      simpa using this.symm
  have hin : SpreadSet n inp := hS.disc.input _ ((orErr_eq_ok _ _ _).1 hinp)
  refine ⟨spread_putInput hS.disc hin, ?_⟩
  unfold procUpdateInput
  refine Fits.except (r := fun r => inp.view r) (fun r => orErr_view hinp r) ?_
  refine Fits.bind (fits_checkNum hnum) ?_
  refine Fits.except (r := fun r => sinp.view r) (fun r => orErr_view hsinp r) ?_
  have e : ∀ r : Fin n, (S.view r).ptr.flatten = p r := by
    intro r
    simp [Surrogate.view, hp]
  simp only [e, oneOf_ofFn]
  refine Fits.bind (fits_updateSteps hss.1.2.2.1 hps) ?_
  rw [List.map_fst_zip (by omega), List.map_snd_zip (by omega), hp]
  exact Fits.ret _

theorem fits_calculateProbForRegions {G : Geometry K} {S : Surrogate K} {s : SampleSet K}
    {regions : List Int} {update : Bool} {x : RegionResult K} (hS : SpreadSurrogate n S)
    (hs : SpreadSet n s) (h : calculateProbForRegions G n S s regions update = .ok x) :
    SpreadSurrogate n x.state ∧ Spread n x.charges ∧
    Fits (fun r : Fin n =>
        procCalculateProbForRegions G r n (S.view r) (s.view r) regions update)
      (fun r => .ok (x.view r)) := by
  rw [calculateProbForRegions, bind_eq_ok] at h
  obtain ⟨surr1, h1, h⟩ := h
  rw [bind_eq_ok] at h
  obtain ⟨surr2, h2, h⟩ := h
  rw [bind_eq_ok] at h
  obtain ⟨sinp, h3, h⟩ := h
  rw [bind_eq_ok] at h
  obtain ⟨⟨pn, old, new⟩, h4, h⟩ := h
  rw [bind_eq_ok] at h
  obtain ⟨⟨l, es, ids, surr3⟩, h5, h⟩ := h
  obtain ⟨hd1, hf1⟩ := fits_ensureVolumesMc hS.surr h1
  obtain ⟨hd2, hf2⟩ := fits_prob hd1 h2
  obtain ⟨ho, hn, hf4⟩ := fits_probFromSampleSet (hd2.input _ ((orErr_eq_ok _ _ _).1 h3)) hs h4
  obtain ⟨hd5, hi5, hf5⟩ := fits_surrogateLoop hn (spread_putInput hd2 ho) (by rintro c ⟨⟩) h5
  have hS' : SpreadSurrogate n { S with surr := surr3 } := ⟨hS.disc, hS.ptr, hd5⟩
  unfold procCalculateProbForRegions
  cases update with
  | true =>
    simp only [if_true, bind_eq_ok, pure_eq_ok] at h
    obtain ⟨⟨d, er⟩, h6, rfl⟩ := h
    obtain ⟨hd6, hf6⟩ := fits_updateInput hS' hi5 h6
    refine ⟨⟨hd6, hS.ptr, hd5⟩, hi5, ?_⟩
    refine Fits.bind hf1 ?_
    refine Fits.bind hf2 ?_
    refine Fits.except (r := fun r => sinp.view r) (fun r => orErr_view h3 r) ?_
    refine Fits.bind hf4 ?_
    refine Fits.bind hf5 ?_
    simp only [if_true]
    refine Fits.bind hf6 ?_
    exact Fits.ret _
  | false =>
    simp only [if_neg Bool.false_ne_true, pure_eq_ok] at h
    subst h
    refine ⟨hS', hi5, ?_⟩
    refine Fits.bind hf1 ?_
    refine Fits.bind hf2 ?_
    refine Fits.except (r := fun r => sinp.view r) (fun r => orErr_view h3 r) ?_
    refine Fits.bind hf4 ?_
    refine Fits.bind hf5 ?_
    simp only [if_neg Bool.false_ne_true]
    exact Fits.ret _

/-! ### C128 -/

/-- The part of both methods before the radii are combined: with the points of process `r` in all cells it
has radii, otherwise it raises. -/
theorem localRadii_split {G : Geometry K} {m : Nat} {s : SampleSet K} (hr : Ready s m)
    {D : List (K × K)} (hD : s.domain = some D) {values : List (List K)}
    (hv : s.glob.values = some values) (mc : Fin n → List (List K)) (normalize : Bool) :
    ∃ (s' : SampleSet K) (x : Fin n → Except Err (List K)),
      (∀ r, ((∀ i < m, i ∈ (mc r).map (s.cell G)) → ∃ y, x r = .ok y) ∧
        ((∃ i < m, i ∉ (mc r).map (s.cell G)) → x r = .error .valueError)) ∧
      ∃ R, ∃ ps : Fin n → Proc (Msg K) R, ∃ q : Fin n → R, Fits ps (fun r => .ok (q r)) ∧
        ∃ f : Fin n → R → Proc (Msg K) (SampleSet K × List Nat × List K),
        (fun r : Fin n => (s.view r).procLocalRadii G (mc r) normalize) = (fun r => ps r >>= f r) ∧
        ∀ r, f r (q r) = Proc.ofExcept (x r) >>= fun y =>
          pure (s'.view r, (mc r).map (s.cell G), y) := by
  have hm : values.length = m := hr.consistent.1.values values hv
  obtain ⟨s', hq, -⟩ := SampleSet.query_ready (G := G) (size := n) hr (List.ofFn mc)
  obtain ⟨-, -, p, hp, hf⟩ := query_spread hq
  rw [List.map_ofFn] at hp
  have hp : (fun r => (mc r).map (s.cell G)) = p := List.ofFn_injective hp
  subst hp
  refine ⟨s', fun r => radiiLocal G s.pNorm (unitCoords normalize D) values (mc r)
    ((mc r).map (s.cell G)), fun r => ?_, SampleSet K × List Nat,
    fun r : Fin n => (s.view r).procCheckNum >>= fun _ => (s.view r).procQuery G (mc r),
    fun r => (s'.view r, (mc r).map (s.cell G)),
    Fits.bind (fits_checkNum (SampleSet.checkNum_consistent (size := n) hr.consistent)) hf,
    fun r (q : SampleSet K × List Nat) =>
      Proc.ofExcept (radiiLocal G s.pNorm (unitCoords normalize D) values (mc r) q.2) >>=
      fun y => pure (q.1, q.2, y), ?_, fun r => rfl⟩
  · have := radiiLocal_total (G := G) (p := s.pNorm) (tr := unitCoords normalize D) (values := values)
      (pts := mc r) (ptr := (mc r).map (s.cell G)) (by rw [List.length_map])
    rw [hm] at this
    exact this
  · funext r
    have e1 : (s.view r).glob.values = some values := hv
    have e2 : (s.view r).domain = some D := hD
    simp only [SampleSet.procLocalRadii, e1, e2, orErr_some, bind_assoc]
    rfl

/-- **C128.** `estimate_radii` on processes that run at their own speed, each with its own random points:
there is an assignment of the points to cells such that
* if every process has a point in every cell, all processes come to an end, with the radii of the call in
  step, the largest distances over the points of all processes;
* if every process lacks a cell, all of them raise;
* if a process lacks a cell and another does not, the latter never comes to an end, whatever the
  schedule. -/
theorem C128_radii (hpos : 0 < n) {G : Geometry K} (hG : Sound G) {m : Nat} {s : SampleSet K}
    (hr : Ready s m) (hs : SpreadSet n s) {D : List (K × K)} (hD : s.domain = some D)
    {values : List (List K)} (hv : s.glob.values = some values) (mc : Fin n → List (List K))
    (normalize : Bool) :
    ∃ cells : Fin n → List Nat, (∀ r, List.Forall₂ (IsCell G s) (mc r) (cells r)) ∧
      ((∀ r, ∀ i < m, i ∈ cells r) → ∃ s' rad,
        RunsTo (fun r : Fin n => (s.view r).procEstimateRadii G r n (mc r) normalize)
          (fun r => .ok (s'.view r)) ∧
        radiiOf normalize s' = some rad ∧ localRadiiOf normalize s' = some (arraySplit n rad) ∧
        LargestDistances (separation G s.pNorm normalize D) values (List.ofFn mc).flatten
          (List.ofFn cells).flatten rad) ∧
      ((∀ r, ∃ i < m, i ∉ cells r) →
        RunsTo (fun r : Fin n => (s.view r).procEstimateRadii G r n (mc r) normalize)
          (fun _ => .error .valueError)) ∧
      ∀ j k, (∃ i < m, i ∉ cells j) → (∀ i < m, i ∈ cells k) → ∀ sched : List (Fin n),
        (((Sys.start fun r : Fin n =>
          (s.view r).procEstimateRadii G r n (mc r) normalize).run sched) k).1.result = none := by
  obtain ⟨s1, x, hx, R, ps, q, hps, f, e1, e2⟩ := localRadii_split (G := G) hr hD hv mc normalize
  have hne : List.ofFn mc ≠ [] := by
    intro h0
    have := congrArg List.length h0
    simp at this
    omega
  have e3 : (fun r : Fin n => (s.view r).procEstimateRadii G r n (mc r) normalize) = fun r : Fin n =>
      ps r >>= fun a => f r a >>= fun q => reduceMax q.2.2 >>= fun rad =>
        (q.1.storeRadii normalize rad).procGlobalToLocal r n := by
    funext r
    have := congrFun e1 r
    rw [SampleSet.procEstimateRadii, this, bind_assoc]
  refine ⟨fun r => (mc r).map (s.cell G), fun r => ?_, fun hall => ?_, fun hno => ?_, ?_⟩
  · rw [List.forall₂_map_right_iff]
    exact List.forall₂_same.mpr fun x _ => SampleSet.cell_isCell hG hr x
  · have hcells : List.ofFn (fun r => (mc r).map (s.cell G)) =
        (List.ofFn mc).map fun c => c.map (s.cell G) := by
      rw [List.map_ofFn]; rfl
    have hall' : ∀ c ∈ List.ofFn mc, ∀ i < m, i ∈ c.map (s.cell G) := by
      intro c hc
      obtain ⟨r, rfl⟩ := (List.mem_ofFn' _ _).1 hc
      exact hall r
    obtain ⟨q', rad, h3, ⟨s', h4, rfl⟩, h5⟩ :=
      (findRadii_cases (G := G) (size := n) hr hD hv hne normalize).1 hall'
    obtain ⟨s'', h6, h7, -, h8⟩ := SampleSet.query_ready (G := G) (size := n) hr (List.ofFn mc)
    rw [h4] at h6
    have h6 := (Prod.mk.inj (Except.ok.inj h6)).1
    subst h6
    have hm : values.length = m := hr.consistent.1.values values hv
    have hcons := consistent_storeRadii h7.consistent h7.values (h5.length.trans hm) normalize
    have ht := SampleSet.globalToLocal_ok hcons n
    have hstep : s.estimateRadii G n (List.ofFn mc) normalize =
        .ok ((q'.storeRadii normalize rad).splitSet n m) := by
      simp only [SampleSet.estimateRadii, h3, ok_bind]
      exact ht
    refine ⟨_, rad, (fits_estimateRadii hs hstep).2.runs hpos, ?_, ?_, ?_⟩
    · cases normalize <;> rfl
    · cases normalize <;> rfl
    · rw [hcells, ← List.map_flatten]
      exact h5
  · rw [e3]
    refine Fits.runs hpos (Fits.bind hps ⟨0, .done fun r => ?_⟩)
    rw [e2, (hx r).2 (hno r)]
    rfl
  · intro j k hj hk sched
    refine C114_negation_apart (i := j) ?_ sched
    rw [e3]
    refine Fits.apart hps (.left (r0 := .error .valueError) ?_ ?_)
    · rw [e2, (hx j).2 hj]
      rfl
    · obtain ⟨y, hy⟩ := (hx k).1 hk
      rw [e2, hy]
      rfl

/-- **C128.** `estimate_radii_and_volume` on processes that run at their own speed: they come to an end with
the result of the call in step. -/
theorem C128_radii_and_volume (hpos : 0 < n) {G : Geometry K} {s s' : SampleSet K} {k : Nat}
    {mc : Fin n → List (List K)} {normalize : Bool} (hs : SpreadSet n s)
    (h : s.estimateRadiiAndVolume G n k (List.ofFn mc) normalize = .ok s') :
    SpreadSet n s' ∧
    RunsTo (fun r : Fin n => (s.view r).procEstimateRadiiAndVolume G r n k (mc r) normalize)
      (fun r => .ok (s'.view r)) :=
  let h0 := fits_estimateRadiiAndVolume hs h; ⟨h0.1, h0.2.runs hpos⟩

/-- **C128, negation.** `estimate_radii_and_volume`: a process that has a point in every cell never comes to
an end when another lacks a cell. -/
theorem C128_negation_radii_and_volume {G : Geometry K} (hG : Sound G) {m l : Nat} {s : SampleSet K}
    (hr : Ready s m) {D : List (K × K)} (hD : s.domain = some D) (mc : Fin n → List (List K))
    (normalize : Bool) :
    ∃ cells : Fin n → List Nat, (∀ r, List.Forall₂ (IsCell G s) (mc r) (cells r)) ∧
      ∀ j k, (∃ i < m, i ∉ cells j) → (∀ i < m, i ∈ cells k) → ∀ sched : List (Fin n),
        (((Sys.start fun r : Fin n =>
          (s.view r).procEstimateRadiiAndVolume G r n l (mc r) normalize).run sched) k).1.result =
            none := by
  obtain ⟨values, hv, -⟩ := SampleSet.ready_values hr
  obtain ⟨s1, x, hx, R, ps, q, hps, f, e1, e2⟩ := localRadii_split (G := G) hr hD hv mc normalize
  refine ⟨fun r => (mc r).map (s.cell G), fun r => ?_, fun j k hj hk sched => ?_⟩
  · rw [List.forall₂_map_right_iff]
    exact List.forall₂_same.mpr fun x _ => SampleSet.cell_isCell hG hr x
  refine C114_negation_apart (i := j) ?_ sched
  have e3 : (fun r : Fin n => (s.view r).procEstimateRadiiAndVolume G r n l (mc r) normalize) =
      fun r : Fin n => (s.view r).procCheckNum >>= fun num => ps r >>= fun a => f r a >>= fun q =>
        reduceMax q.2.2 >>= fun rad => procVolumes num l q.2.1 >>= fun vol =>
        SampleSet.procGlobalToLocal r n { q.1.storeRadii normalize rad with
          glob := { (q.1.storeRadii normalize rad).glob with volumes := some vol } } := by
    funext r
    have := congrFun e1 r
    simp only [SampleSet.procEstimateRadiiAndVolume, this, bind_assoc]
  rw [e3]
  refine Fits.apart (fits_checkNum (SampleSet.checkNum_consistent (size := n) hr.consistent)) ?_
  refine Fits.apart hps (.left (r0 := .error .valueError) ?_ ?_)
  · rw [e2, (hx j).2 hj]
    rfl
  · obtain ⟨y, hy⟩ := (hx k).1 hk
    rw [e2, hy]
    rfl

/-- **C128.** Making a surrogate and solving with it on processes that run at their own speed: they come to
an end with the result of the calls in step. -/
theorem C128_surrogate (hpos : 0 < n) {G : Geometry K} {d d' : Disc K} {new s : SampleSet K}
    {order : Nat} {S : Surrogate K} {regions : List Int} {update : Bool} {x : RegionResult K}
    (hd : SpreadDisc n d) (hn : SpreadSet n new) (hs : SpreadSet n s)
    (h1 : surrogateInit n d = .ok d') (h2 : generateForInputSet G n d' new order = .ok S)
    (h3 : calculateProbForRegions G n S s regions update = .ok x) :
    RunsTo (fun r : Fin n => procSurrogateInit (d.view r) >>= fun d =>
        procGenerate G r n d (new.view r) order >>= fun S =>
        procCalculateProbForRegions G r n S (s.view r) regions update)
      (fun r => .ok (x.view r)) := by
  obtain ⟨hd', f1⟩ := fits_surrogateInit hd h1
  obtain ⟨hS, f2⟩ := fits_generate hd' hn h2
  obtain ⟨-, -, f3⟩ := fits_calculateProbForRegions hS hs h3
  exact Fits.runs hpos (Fits.bind f1 (Fits.bind f2 f3))

/-- **C128.** So the probabilities of the regions, the error estimates, the new probabilities of the
original samples and the errors charged to them are the same on all processes, for all schedules and for
all numbers of processes: `C49_update` without the processes in step. -/
theorem C128_surrogate_same [IsStrictOrderedRing K] {G : Geometry K} (hG : Sound G) {d : Disc K}
    {inp out ops new s : SampleSet K} {m k mo ms order : Nat} (hi : d.input = some inp)
    (hr : Ready inp m) (ho : d.output = some out) (hoc : Consistent out m)
    (hgen : CanGenerate inp out order) (hee : out.glob.errorEstimates.isSome)
    (hops : d.outputProb = some ops) (hro : Ready ops mo) (hp : ops.glob.probabilities.isSome)
    (hnew : Consistent new k) (hdim : new.dim = inp.dim) {u : List (List K)}
    (hu : new.glob.values = some u) (hloc : new.loc = {}) (hlix : new.localIndex = none)
    (hkv : 0 < k ∨ new.glob.volumes.isSome)
    (hs : Ready s ms) (hsd : new.dim = s.dim) {reg : List Int} (hreg : s.glob.region = some reg)
    {regions : List Int} (hne : regions ≠ []) (hmem : ∀ r ∈ regions, r ∈ reg) :
    ∃ prs ests p err pn P, p.length = m ∧ err.length = m ∧ p.sum = P.sum ∧ pn.length = ms ∧
      IsPushForward G s u P pn ∧ prs = regions.map (regionTotal pn reg) ∧
      ∀ n > 0, SpreadDisc n d → SpreadSet n s → ∃ x : Fin n → RegionResult K,
        RunsTo (fun r : Fin n => procGenerate G r n (d.view r) (new.view r) order >>= fun S =>
            procCalculateProbForRegions G r n S (s.view r) regions true) (fun r => .ok (x r)) ∧
        ∀ r, (x r).probs = prs ∧ (x r).estimates = ests ∧ (x r).errorId = some err ∧
          (x r).state.disc.input.bind (fun i => i.glob.probabilities) = some p := by
  obtain ⟨prs, ests, P, ids, p, err, ⟨cells, -, -, -, hpl, hel, -⟩, hps, -, ⟨pn, hpn, hpush, hprs⟩, -, -,
    hall⟩ := C49_update hG hi hr ho hoc hgen hee hops hro hp hnew hdim hu hloc hkv hs hsd hreg hne hmem
  refine ⟨prs, ests, p, err, pn, P, hpl, hel, hps, hpn, hpush, hprs, fun n hn hd hs' => ?_⟩
  obtain ⟨S, x, inp', sinp, _, _, _, h1, h2, h3, h4, h5, h6, h7, -⟩ := hall n hn
  obtain ⟨hS, f2⟩ := fits_generate hd (spread_fresh hloc hlix) h1
  obtain ⟨-, -, f3⟩ := fits_calculateProbForRegions hS hs' h2
  refine ⟨fun r => x.view r, Fits.runs hn (Fits.bind f2 f3), fun r => ⟨h3, h4, h5, ?_⟩⟩
  show (x.state.disc.input.map (SampleSet.view r)).bind _ = _
  rw [h6, h7]
  rfl

end

namespace Ex

/-- The hypotheses of `C128_radii` are met on two processes; the first has a point in both cells. -/
example := C128_radii (n := 2) (by norm_num) sound_G (s := radSet) (m := 2)
  ⟨consistent_of _ _ rfl rfl, by norm_num, rfl, Or.inl rfl, nofun, nofun⟩ (spread_fresh rfl rfl) rfl rfl
  (fun r => if r = 0 then [[0], [5 / 2], [4]] else [[1 / 2], [7 / 2]]) false

/-- One schedule: the radii of the call in step. -/
example : ((((Sys.start fun r : Fin 2 => (radSet.view r).procEstimateRadii G r 2
      (if r = 0 then [[0], [5 / 2], [4]] else [[1 / 2], [7 / 2]]) false).run
        [1, 1, 0, 1, 0, 0, 1, 0, 1]) 1).1.result).bind
      (fun x => x.toOption.bind fun s => s.glob.radii.bind fun a => s.loc.radii.map fun b => (a, b)) =
    some ([1, 1], [[1]]) := by decide +kernel

/-- The second process has no point in the second cell: it raises, the first one waits. -/
example : ((Sys.start fun r : Fin 2 => (radSet.view r).procEstimateRadii G r 2
      (if r = 0 then [[0], [5 / 2], [4]] else [[1 / 2]]) false).run
        [1, 1, 0, 1, 0, 0, 1, 0, 1] 0).1.result.isSome = false ∧
    (((Sys.start fun r : Fin 2 => (radSet.view r).procEstimateRadii G r 2
      (if r = 0 then [[0], [5 / 2], [4]] else [[1 / 2]]) false).run
        [1, 1, 0, 1, 0, 0, 1, 0, 1] 1).1.result.bind errOf) = some .valueError := by decide +kernel

theorem spread_surDiscP (m : Nat) : SpreadDisc m surDiscP :=
  spread_discNew (by rintro s ⟨⟩; exact spread_fresh rfl rfl) (by rintro s ⟨⟩; exact spread_fresh rfl rfl)
    (by rintro s ⟨⟩; exact spread_fresh rfl rfl) (by rintro s ⟨⟩) (by rintro s ⟨⟩)

/-- The hypotheses of `C128_surrogate_same` are met. -/
example := C128_surrogate_same (K := ℚ) sound_G
    (d := surDiscP) (new := surNew) (s := surRegions) (m := 2) (k := 3) (mo := 2) (ms := 3)
    (order := 0) rfl ⟨consistent_of _ _ rfl rfl, by norm_num, rfl, Or.inl rfl, nofun, nofun⟩ rfl
    (consistent_of _ _ rfl rfl) ⟨rfl, Or.inl rfl⟩ rfl rfl
    ⟨consistent_of _ _ rfl rfl, by norm_num, rfl, Or.inl rfl, nofun, nofun⟩ rfl
    (consistent_of _ _ rfl rfl) rfl rfl rfl rfl (Or.inl (by norm_num))
    ⟨consistent_of _ _ rfl rfl, by norm_num, rfl, Or.inl rfl, nofun, nofun⟩ rfl rfl
    (regions := [1, 0]) (by simp) (by decide)

/-- One schedule of two processes. -/
example : ((((Sys.start fun r : Fin 2 => procSurrogateInit (surDiscP.view r) >>= fun d =>
      procGenerate G r 2 d (surNew.view r) 1 >>= fun S =>
      procCalculateProbForRegions G r 2 S (surRegions.view r) [1, 0] true).run
      ((List.replicate 60 [1, 1, 0, 0, 0]).flatten)) 1).1.result).bind
      (fun x => x.toOption.bind fun x => x.state.disc.input.map fun i =>
        (x.probs, x.estimates, x.errorId, i.glob.probabilities)) =
    ((generateForInputSet G 2 surDiscP surNew 1).toOption.bind fun S =>
      (calculateProbForRegions G 2 S surRegions [1, 0] true).toOption.bind fun x =>
        x.state.disc.input.map fun i =>
        (x.probs, x.estimates, x.errorId, i.glob.probabilities)) ∧
    ((generateForInputSet G 2 surDiscP surNew 1).toOption.bind fun S =>
      (calculateProbForRegions G 2 S surRegions [1, 0] true).toOption.map fun x => x.probs) =
      some [3/4, 1/4] := by
  decide +kernel

end Ex

end BET
