import Verif.Model.SpmdHistory
import Verif.Props.SpmdSimpleFun

/-!
# Scripts on several processes (C121)
-/

set_option autoImplicit false
set_option linter.unusedSectionVars false
set_option linter.unusedSimpArgs false

namespace BET

open Spec

/-- The sets that the calls get as arguments have parts for each of the `n` processes. -/
def Spec.SpreadArgs {K : Type} (n : Nat) : ScriptCall K n → Prop
  | .call (.op (.setInput s)) => SpreadSet n s
  | .call (.op (.setOutput s)) => SpreadSet n s
  | .call (.op (.setProb s)) => SpreadSet n s
  | .call (.op (.setEmOutput s)) => SpreadSet n s
  | .call (.op (.setEmInput s)) => SpreadSet n s
  | _ => True

variable {n : Nat}

section
variable {K : Type} [Field K] [LinearOrder K]

theorem fits_estimateOutputVolumeEmulated {G : Geometry K} {d d' : Disc K} (hd : SpreadDisc n d)
    (h : d.estimateOutputVolumeEmulated G n = .ok d') :
    SpreadDisc n d' ∧
    Fits (fun r : Fin n => (d.view r).procEstimateOutputVolumeEmulated G r n)
      (fun r => .ok (d'.view r)) := by
  simp only [Disc.estimateOutputVolumeEmulated, bind_eq_ok, pure_eq_ok] at h
  obtain ⟨em, hem, inp, hinp, ⟨inp1, em1⟩, hv, rfl⟩ := h
  obtain ⟨h1, h2, hf⟩ := fits_estimateVolumeEmulated (hd.output _ ((orErr_eq_ok _ _ _).1 hinp))
    (hd.emOutput _ ((orErr_eq_ok _ _ _).1 hem)) hv
  refine ⟨⟨hd.input, ?_, hd.outputProb, hd.emInput, ?_, hd.io, hd.ii, hd.oo⟩, ?_⟩
  · rintro s ⟨⟩; exact h1
  · rintro s ⟨⟩; exact h2
  unfold Disc.procEstimateOutputVolumeEmulated
  refine Fits.except (r := fun r => em.view r) (fun r => orErr_view hem r) ?_
  refine Fits.except (r := fun r => inp.view r) (fun r => orErr_view hinp r) ?_
  exact Fits.bind hf (Fits.ret _)

theorem all_view (o : Option (SampleSet K)) (r dim : Nat) :
    ((o.map (SampleSet.view r)).all fun s => s.dim == dim) = o.all fun s => s.dim == dim := by
  cases o <;> rfl

theorem isSome_oneOf {α : Type} (r : Nat) (o : Option (Chunks α)) :
    (oneOf r o).isSome = o.isSome := by cases o <;> rfl

theorem setProb_eq (G : Geometry K) (size : Nat) (d : Disc K) (ps : SampleSet K) :
    d.setOutputProbabilitySet G size ps =
      if (d.output.all fun o => o.dim == ps.dim) && (d.emOutput.all fun o => o.dim == ps.dim) then do
        let out ← orErr .attributeError d.output
        if out.loc.values.isSome && ps.glob.values.isSome then
          Disc.setIoPtr G size { d with outputProb := some ps } false
        else pure { d with outputProb := some ps }
      else .error .dimNotMatching := by
  unfold Disc.setOutputProbabilitySet
  cases d.output <;> cases d.emOutput <;> rfl

theorem fits_setProb {G : Geometry K} {d d' : Disc K} {s : SampleSet K} (hd : SpreadDisc n d)
    (hs : SpreadSet n s) (h : d.setOutputProbabilitySet G n s = .ok d') :
    SpreadDisc n d' ∧
    Fits (fun r : Fin n => (d.view r).procSetOutputProbabilitySet G r n (s.view r))
      (fun r => .ok (d'.view r)) := by
  rw [setProb_eq] at h
  unfold Disc.procSetOutputProbabilitySet
  have hd0 : SpreadDisc n { d with outputProb := some s } := by
    refine ⟨hd.input, hd.output, ?_, hd.emInput, hd.emOutput, hd.io, hd.ii, hd.oo⟩
    rintro s ⟨⟩; exact hs
  have e1 : ∀ r : Nat, ((d.view r).output.all fun o => o.dim == (s.view r).dim) =
      d.output.all fun o => o.dim == s.dim := fun r => all_view _ r _
  have e2 : ∀ r : Nat, ((d.view r).emOutput.all fun o => o.dim == (s.view r).dim) =
      d.emOutput.all fun o => o.dim == s.dim := fun r => all_view _ r _
  simp only [e1, e2]
  split at h
  · case isTrue hc =>
    rw [bind_eq_ok] at h
    obtain ⟨out, hout, h⟩ := h
    simp only [hc, if_true]
    have e3 : ∀ r : Nat, ((out.view r).loc.values.isSome && (s.view r).glob.values.isSome) =
        (out.loc.values.isSome && s.glob.values.isSome) := by
      intro r
      rw [view_values, isSome_oneOf]
      rfl
    split at h
    · case isTrue hv =>
      obtain ⟨h1, h2⟩ := fits_setIoPtr hd0 h
      refine ⟨h1, ?_⟩
      refine Fits.except (r := fun r => out.view r) (fun r => orErr_view hout r) ?_
      simp only [e3, hv, if_true]
      exact h2
    · case isFalse hv =>
      rw [pure_eq_ok] at h
      subst h
      refine ⟨hd0, ?_⟩
      refine Fits.except (r := fun r => out.view r) (fun r => orErr_view hout r) ?_
      simp only [e3, hv]
      exact Fits.ret _
  · cases h

/-- A pointer after the statement of `globalize_ptrs` for it. -/
def filledPtr : Option (Chunks Nat) → Option (List Nat) → Option (List Nat)
  | some l, none => some (getGlobalValues l)
  | _, g => g

theorem fits_fillPtr {l : Option (Chunks Nat)} (hl : Spread n l) (g : Option (List Nat)) :
    Fits (fun r : Fin n => (Disc.procFillPtr (oneOf r l) g : Proc (Msg K) (Option (List Nat))))
      (fun _ => .ok (filledPtr l g)) := by
  unfold Disc.procFillPtr
  cases l with
  | none => exact Fits.ret _
  | some c =>
    cases g with
    | some g => exact Fits.ret _
    | none =>
      have hc := spread_ofFn hl rfl
      have := fits_gatherList (K := K) fun r : Fin n => c.getD r []
      rw [← hc] at this
      simp only [oneOf, Option.map_some, List.flatten_cons, List.flatten_nil, List.append_nil]
      exact Fits.bind this (Fits.ret _)

theorem globalizePtrs_eq (d : Disc K) : d.globalizePtrs = { d with
    ioPtr := filledPtr d.ioPtrLocal d.ioPtr
    iiPtr := filledPtr d.iiPtrLocal d.iiPtr
    ooPtr := filledPtr d.ooPtrLocal d.ooPtr } := by
  obtain ⟨_, _, _, _, _, io, iol, ii, iil, oo, ool⟩ := d
  cases io <;> cases iol <;> cases ii <;> cases iil <;> cases oo <;> cases ool <;> rfl

theorem fits_globalizePtrs {d : Disc K} (hd : SpreadDisc n d) :
    SpreadDisc n d.globalizePtrs ∧
    Fits (fun r : Fin n => (d.view r).procGlobalizePtrs)
      (fun r => .ok (d.globalizePtrs.view r)) := by
  rw [globalizePtrs_eq]
  refine ⟨⟨hd.input, hd.output, hd.outputProb, hd.emInput, hd.emOutput, hd.io, hd.ii, hd.oo⟩, ?_⟩
  unfold Disc.procGlobalizePtrs
  refine Fits.bind (fits_fillPtr (K := K) hd.io _) ?_
  refine Fits.bind (fits_fillPtr (K := K) hd.ii _) ?_
  refine Fits.bind (fits_fillPtr (K := K) hd.oo _) ?_
  exact Fits.ret _

theorem fits_optLocalToGlobal {o : Option (SampleSet K)} (ho : ∀ s, o = some s → SpreadSet n s) :
    Fits (fun r : Fin n => Disc.procOpt SampleSet.procLocalToGlobal (o.map (SampleSet.view r)))
      (fun r => .ok ((o.map SampleSet.localToGlobal).map (SampleSet.view r))) := by
  cases o with
  | none => exact Fits.ret _
  | some s => exact Fits.bind (fits_localToGlobal (ho s rfl)) (Fits.ret _)

theorem spread_optLocalToGlobal {o : Option (SampleSet K)}
    (ho : ∀ s, o = some s → SpreadSet n s) :
    ∀ s, o.map SampleSet.localToGlobal = some s → SpreadSet n s := by
  cases o with
  | none => rintro s ⟨⟩
  | some t => rintro s ⟨⟩; exact ho t rfl

theorem fits_discLocalToGlobal {d : Disc K} (hd : SpreadDisc n d) :
    SpreadDisc n d.localToGlobal ∧
    Fits (fun r : Fin n => (d.view r).procLocalToGlobal)
      (fun r => .ok (d.localToGlobal.view r)) := by
  refine ⟨⟨spread_optLocalToGlobal hd.input, spread_optLocalToGlobal hd.output,
    spread_optLocalToGlobal hd.outputProb, spread_optLocalToGlobal hd.emInput,
    spread_optLocalToGlobal hd.emOutput, hd.io, hd.ii, hd.oo⟩, ?_⟩
  unfold Disc.procLocalToGlobal
  refine Fits.bind (fits_optLocalToGlobal hd.input) ?_
  refine Fits.bind (fits_optLocalToGlobal hd.output) ?_
  refine Fits.bind (fits_optLocalToGlobal hd.outputProb) ?_
  refine Fits.bind (fits_optLocalToGlobal hd.emInput) ?_
  refine Fits.bind (fits_optLocalToGlobal hd.emOutput) ?_
  exact Fits.ret _

theorem fits_optGlobalToLocal {o o' : Option (SampleSet K)}
    (ho : ∀ s, o = some s → SpreadSet n s) (h : Disc.localizeOpt n o = .ok o') :
    (∀ s, o' = some s → SpreadSet n s) ∧
    Fits (fun r : Fin n => Disc.procOpt (SampleSet.procGlobalToLocal r n)
        (o.map (SampleSet.view r)))
      (fun r => .ok (o'.map (SampleSet.view r))) := by
  cases o with
  | none =>
    cases h
    exact ⟨fun s h => (by cases h), Fits.ret _⟩
  | some s =>
    simp only [Disc.localizeOpt, bind_eq_ok, pure_eq_ok] at h
    obtain ⟨s1, h1, rfl⟩ := h
    refine ⟨?_, Fits.bind (fits_globalToLocal h1) (Fits.ret _)⟩
    rintro s ⟨⟩
    exact spread_globalToLocal (ho _ rfl) h1

theorem fits_discGlobalToLocal {d d' : Disc K} (hd : SpreadDisc n d)
    (h : d.globalToLocal n = .ok d') :
    SpreadDisc n d' ∧
    Fits (fun r : Fin n => (d.view r).procGlobalToLocal r n) (fun r => .ok (d'.view r)) := by
  simp only [Disc.globalToLocal, bind_eq_ok, pure_eq_ok] at h
  obtain ⟨a, ha, b, hb, c, hc, e, he, rfl⟩ := h
  obtain ⟨sa, fa⟩ := fits_optGlobalToLocal hd.input ha
  obtain ⟨sb, fb⟩ := fits_optGlobalToLocal hd.output hb
  obtain ⟨sc, fc⟩ := fits_optGlobalToLocal hd.outputProb hc
  obtain ⟨se, fe⟩ := fits_optGlobalToLocal hd.emInput he
  refine ⟨⟨sa, sb, sc, se, hd.emOutput, hd.io, hd.ii, hd.oo⟩, ?_⟩
  unfold Disc.procGlobalToLocal
  refine Fits.bind fa ?_
  refine Fits.bind fb ?_
  refine Fits.bind fc ?_
  refine Fits.bind fe ?_
  exact Fits.ret _

theorem view_setEmOutput {d d' : Disc K} {s : SampleSet K} (h : d.setEmulatedOutput s = .ok d')
    (r : Nat) : (d.view r).setEmulatedOutput (s.view r) = .ok (d'.view r) := by
  obtain ⟨i, o, p, ei, eo, io, iol, ii, iil, oo, ool⟩ := d
  unfold Disc.setEmulatedOutput at h ⊢
  cases o <;> cases p <;> simp only [Disc.view, Option.map_none, Option.map_some] at h ⊢ <;>
    split at h <;> cases h <;> rename_i hc <;> exact if_pos hc

theorem view_setEmInput {d d' : Disc K} {s : SampleSet K} (h : d.setEmulatedInput s = .ok d')
    (r : Nat) : (d.view r).setEmulatedInput (s.view r) = .ok (d'.view r) := by
  obtain ⟨i, o, p, ei, eo, io, iol, ii, iil, oo, ool⟩ := d
  unfold Disc.setEmulatedInput at h ⊢
  cases i with
  | none => cases h; rfl
  | some i =>
    simp only at h
    split at h
    · case isTrue hc => cases h; exact if_pos hc
    · cases h

/-- A call on the discretization: what the processes have after it is what the call makes of the
discretization when the processes are in step. -/
theorem fits_discCall {G : Geometry K} {d d' : Disc K} {c : DiscCall K} (hd : SpreadDisc n d)
    (hc : SpreadArgs n (.call c : ScriptCall K n)) (h : c.step G n d = .ok d') :
    SpreadDisc n d' ∧
    Fits (fun r : Fin n => c.proc G r n (d.view r)) (fun r => .ok (d'.view r)) := by
  cases c with
  | op o =>
    cases o with
    | setInput s =>
      cases h
      refine ⟨⟨?_, hd.output, hd.outputProb, hd.emInput, hd.emOutput, hd.io, hd.ii, hd.oo⟩,
        Fits.ret _⟩
      rintro s ⟨⟩; exact hc
    | setOutput s =>
      cases h
      refine ⟨⟨hd.input, ?_, hd.outputProb, hd.emInput, hd.emOutput, hd.io, hd.ii, hd.oo⟩,
        Fits.ret _⟩
      rintro s ⟨⟩; exact hc
    | setProb s => exact fits_setProb hd hc h
    | setEmOutput s =>
      refine ⟨?_, Fits.of_except fun r => view_setEmOutput h r⟩
      have : d' = { d with emOutput := some s } := by
        simp only [DiscCall.step, Disc.step, Disc.setEmulatedOutput] at h
        repeat' split at h
        all_goals cases h
        all_goals rfl
      subst this
      refine ⟨hd.input, hd.output, hd.outputProb, hd.emInput, ?_, hd.io, hd.ii, hd.oo⟩
      rintro s ⟨⟩; exact hc
    | setEmInput s =>
      refine ⟨?_, Fits.of_except fun r => view_setEmInput h r⟩
      have : d' = { d with emInput := some s } := by
        simp only [DiscCall.step, Disc.step, Disc.setEmulatedInput] at h
        split at h
        · split at h
          · cases h; rfl
          · cases h
        · cases h; rfl
      subst this
      refine ⟨hd.input, hd.output, hd.outputProb, ?_, hd.emOutput, hd.io, hd.ii, hd.oo⟩
      rintro s ⟨⟩; exact hc
    | setPtr k g =>
      cases k
      · exact fits_setIoPtr hd h
      · exact fits_setIiPtr hd h
      · exact fits_setOoPtr hd h
    | globalizePtrs => cases h; exact fits_globalizePtrs hd
    | estimateInput => exact fits_estimateInputVolumeEmulated hd h
    | estimateOutput => exact fits_estimateOutputVolumeEmulated hd h
    | localToGlobal => cases h; exact fits_discLocalToGlobal hd
    | globalToLocal => exact fits_discGlobalToLocal hd h
  | prob g => exact fits_prob hd h
  | probOnEmulated g => exact fits_probOnEmulated hd h
  | probWithEmulated => exact fits_probWithEmulatedVolumes hd h

/-- The discretization that comes back from a constructor of simple functions. -/
theorem fits_ofData {d : Disc K} {ds : DataSet K} {s : SampleSet K}
    {p : Fin n → Proc (Msg K) (SampleSet K × DataSet K)} (hd : SpreadDisc n d)
    (h : SpreadSet n s ∧ SpreadData n ds ∧ Fits p (fun r => .ok (s.view r, ds.view r))) :
    SpreadDisc n (d.ofData ds) ∧
    Fits (fun r : Fin n => p r >>= fun x => pure ((d.view r).ofData x.2))
      (fun r => .ok ((d.ofData ds).view r)) := by
  obtain ⟨-, h2, h3⟩ := h
  cases ds with
  | disc d' => exact ⟨h2, Fits.bind h3 (Fits.ret _)⟩
  | array _ _ => exact ⟨hd, Fits.bind h3 (Fits.ret _)⟩
  | set _ => exact ⟨hd, Fits.bind h3 (Fits.ret _)⟩

end

section
variable {K : Type} [Field K] [LinearOrder K]

theorem fits_scriptCall {G : Geometry K} {d d' : Disc K} {c : ScriptCall K n}
    (hd : SpreadDisc n d) (hc : SpreadArgs n c) (h : c.step G d = .ok d') :
    SpreadDisc n d' ∧
    Fits (fun r : Fin n => c.proc G r (d.view r)) (fun r => .ok (d'.view r)) := by
  have hD : SpreadData n (.disc d) := hd
  cases c with
  | call c => exact fits_discCall hd hc h
  | uniformSize q rectSize unif emu num =>
    simp only [ScriptCall.step, bind_eq_ok, pure_eq_ok] at h
    obtain ⟨⟨s, ds⟩, h, rfl⟩ := h
    exact fits_ofData hd (fits_uniformSize hD h)
  | uniformScaled q scale unif emu num =>
    simp only [ScriptCall.step, bind_eq_ok, pure_eq_ok] at h
    obtain ⟨⟨s, ds⟩, h, rfl⟩ := h
    exact fits_ofData hd (fits_uniformScaled hD h)
  | uniformDomain rect unif emu num =>
    simp only [ScriptCall.step, bind_eq_ok, pure_eq_ok] at h
    obtain ⟨⟨s, ds⟩, h, rfl⟩ := h
    exact fits_ofData hd (fits_uniformDomain hD h)
  | regularSize q rectSize cells =>
    simp only [ScriptCall.step, bind_eq_ok, pure_eq_ok] at h
    obtain ⟨⟨s, ds⟩, h, rfl⟩ := h
    exact fits_ofData hd (fits_regularSize hD h)
  | regularScaled q scale cells =>
    simp only [ScriptCall.step, bind_eq_ok, pure_eq_ok] at h
    obtain ⟨⟨s, ds⟩, h, rfl⟩ := h
    exact fits_ofData hd (fits_regularScaled hD h)
  | regularDomain rect cells =>
    simp only [ScriptCall.step, bind_eq_ok, pure_eq_ok] at h
    obtain ⟨⟨s, ds⟩, h, rfl⟩ := h
    exact fits_ofData hd (fits_regularDomain hD h)
  | dataSamples =>
    simp only [ScriptCall.step, bind_eq_ok, pure_eq_ok] at h
    obtain ⟨⟨s, ds⟩, h, rfl⟩ := h
    exact fits_ofData hd (fits_dataSamples hD h)
  | uniformNormal q std unif emu num =>
    simp only [ScriptCall.step, bind_eq_ok, pure_eq_ok] at h
    obtain ⟨⟨s, ds⟩, h, rfl⟩ := h
    exact fits_ofData hd (fits_uniformNormal hD h)
  | normalNormal q std pdf draw emu =>
    simp only [ScriptCall.step, bind_eq_ok, pure_eq_ok] at h
    obtain ⟨⟨s, ds⟩, h, rfl⟩ := h
    exact fits_ofData hd (fits_normalNormal hD h)
  | userPartition partition distribution =>
    simp only [ScriptCall.step, bind_eq_ok, pure_eq_ok] at h
    obtain ⟨⟨s, ds⟩, h, rfl⟩ := h
    exact fits_ofData hd (fits_userPartition hD h)

theorem fits_script {G : Geometry K} {cs : List (ScriptCall K n)} :
    ∀ {d d' : Disc K}, SpreadDisc n d → (∀ c ∈ cs, SpreadArgs n c) →
      runScript G d cs = .ok d' →
      SpreadDisc n d' ∧
      Fits (fun r : Fin n => procScript G r (d.view r) cs) (fun r => .ok (d'.view r)) := by
  induction cs with
  | nil =>
    intro d d' hd _ h
    cases h
    exact ⟨hd, Fits.ret _⟩
  | cons c cs ih =>
    intro d d' hd hc h
    simp only [runScript, List.foldlM_cons, bind_eq_ok] at h
    obtain ⟨d1, h1, h2⟩ := h
    obtain ⟨hd1, hf1⟩ := fits_scriptCall hd (hc c (by simp)) h1
    obtain ⟨hd2, hf2⟩ := ih hd1 (fun c' hc' => hc c' (by simp [hc'])) h2
    refine ⟨hd2, ?_⟩
    simp only [procScript, List.foldlM_cons]
    exact Fits.bind hf1 hf2

/-- **C121.** A script of any length that works with one discretization, on processes with their own
speed.  When every call succeeds with all processes in step, then under every schedule every process
comes to the end of the script, no process waits for ever, and process `r` ends with the global
arrays and part `r` of the local arrays of the same discretization. -/
theorem C121_script (hpos : 0 < n) {G : Geometry K} {cs : List (ScriptCall K n)} {d d' : Disc K}
    (hd : SpreadDisc n d) (hc : ∀ c ∈ cs, SpreadArgs n c) (h : runScript G d cs = .ok d') :
    SpreadDisc n d' ∧
    RunsTo (fun r : Fin n => procScript G r (d.view r) cs) (fun r => .ok (d'.view r)) :=
  let h0 := fits_script hd hc h; ⟨h0.1, h0.2.runs hpos⟩

/-- **C121.** In such a script two schedules cannot be told apart. -/
theorem C121_same {G : Geometry K} {cs : List (ScriptCall K n)} {d d' : Disc K}
    (hd : SpreadDisc n d) (hc : ∀ c ∈ cs, SpreadArgs n c) (h : runScript G d cs = .ok d')
    {s1 s2 : List (Fin n)} {r1 r2 : Fin n → Except Err (Disc K)}
    (h1 : Finished ((Sys.start fun r : Fin n => procScript G r (d.view r) cs).run s1) r1)
    (h2 : Finished ((Sys.start fun r : Fin n => procScript G r (d.view r) cs).run s2) r2) :
    r1 = r2 := by
  rcases Nat.eq_zero_or_pos n with hn | hn
  · subst hn
    funext i
    exact i.elim0
  have := (C121_script hn hd hc h).2.1
  rw [this s1 r1 h1, this s2 r2 h2]

/-- **C121.** In such a script the global arrays are the same on all processes when they have come to
the end. -/
theorem C121_global (hpos : 0 < n) {G : Geometry K} {cs : List (ScriptCall K n)} {d d' : Disc K}
    (hd : SpreadDisc n d) (hc : ∀ c ∈ cs, SpreadArgs n c) (h : runScript G d cs = .ok d')
    {s1 : List (Fin n)} {r1 : Fin n → Except Err (Disc K)}
    (h1 : Finished ((Sys.start fun r : Fin n => procScript G r (d.view r) cs).run s1) r1)
    (i j : Fin n) : ∃ di dj, r1 i = .ok di ∧ r1 j = .ok dj ∧
      di.ioPtr = dj.ioPtr ∧ di.iiPtr = dj.iiPtr ∧ di.ooPtr = dj.ooPtr ∧
      di.input.map (·.glob) = dj.input.map (·.glob) ∧
      di.output.map (·.glob) = dj.output.map (·.glob) ∧
      di.outputProb.map (·.glob) = dj.outputProb.map (·.glob) ∧
      di.emInput.map (·.glob) = dj.emInput.map (·.glob) ∧
      di.emOutput.map (·.glob) = dj.emOutput.map (·.glob) := by
  have := (C121_script hpos hd hc h).2.1 s1 r1 h1
  have hg : ∀ (o : Option (SampleSet K)) (a b : Nat), (o.map (SampleSet.view a)).map (·.glob) =
      (o.map (SampleSet.view b)).map (·.glob) := by
    intro o a b
    cases o <;> rfl
  refine ⟨d'.view i, d'.view j, congrFun this i, congrFun this j, rfl, rfl, rfl, ?_, ?_, ?_, ?_, ?_⟩
  all_goals exact hg _ _ _

end

namespace Ex

/-- A script: make a simple function on the output space from random numbers, solve the inverse
problem, throw the local arrays away and make them again, solve it again on emulated inputs. -/
def sampleScript : List (ScriptCall ℚ 2) :=
  [.uniformSize (some [1]) (.array [1]) [[1/4], [3/4]]
      (fun r => if r = 0 then [[1/8], [1/2]] else [[7/8], [15/16]]) 4,
    .call (.prob true),
    .call (.op .localToGlobal),
    .call (.op .globalToLocal),
    .call (.op (.setEmInput { dim := 1, glob := { values := some [[0], [1/2], [3]] } })),
    .call (.op .globalizePtrs),
    .call (.probOnEmulated true)]

/-- The hypotheses of the C121 theorems are met: the script has no local arrays among its arguments,
... -/
example : SpreadDisc 2 probDisc ∧ ∀ c ∈ sampleScript, SpreadArgs 2 c := by
  refine ⟨spread_probDisc, ?_⟩
  simp [sampleScript, SpreadArgs, SpreadSet, Arrays.All, Spread]

/-- ... it succeeds, ... -/
example : ((runScript G probDisc sampleScript).toOption.bind fun d =>
    d.emInput.bind (·.glob.probabilities)) = some [1/4, 1/4, 1/2] := by decide +kernel

/-- ... and this is one schedule of it. -/
example : (((((Sys.start fun r : Fin 2 => procScript G r (probDisc.view r) sampleScript).run
    ((List.replicate 60 [1, 1, 0, 0, 0]).flatten)) 1).1.result).bind fun x => x.toOption.bind fun d =>
      d.emInput.bind (·.glob.probabilities)) = some [1/4, 1/4, 1/2] := by decide +kernel

end Ex

end BET
