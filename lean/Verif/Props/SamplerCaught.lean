import Verif.Model.SamplerCaught
import Verif.Props.Caught
import Verif.Props.SamplerHistory
import Verif.Props.RandomSampling

/-!
# C123: what is left when a call on a sampler raises
-/

set_option autoImplicit false
set_option linter.unusedSectionVars false
set_option linter.unusedSimpArgs false
set_option synthInstance.maxSize 2000

namespace BET

open Spec Act

section
variable {K : Type} [Field K]

/-! ## Specification -/

/-- The sample set `t` differs from `s` at most in its arrays. -/
def Spec.ArraysOnly (s t : SampleSet K) : Prop :=
  t = { s with glob := t.glob, loc := t.loc, localIndex := t.localIndex }

/-- Every call of the program is careful in the state it meets, also after calls that raised. -/
def Spec.CarefulRun (S : SamplerModel K) : SamplerState K → List (SamplerCall K × Breakdown K) → Prop
  | _, [] => True
  | m, c :: cs => Careful m c.1 ∧ CarefulRun S (m.execA S c.2 c.1).2 cs

/-! ## Statements -/

theorem attempt_ok {S : Type} {f : S → Except Err S} {s t : S} {u : Unit} :
    attempt f s = (.ok u, t) ↔ f s = .ok t := by
  unfold attempt
  cases f s <;> simp

theorem attempt_error {S : Type} {f : S → Except Err S} {s t : S} {e : Err} :
    attempt f s = (.error e, t) ↔ f s = .error e ∧ t = s := by
  unfold attempt
  cases f s <;> simp [eq_comm]

theorem onSet_ok {α : Type} {a : Nat} {x : Act (SampleSet K) α} {m m' : SamplerState K} {r : α} :
    SamplerState.onSet a x m = (.ok r, m') ↔
      ∃ s t, m.heap[a]? = some s ∧ x s = (.ok r, t) ∧ m' = { m with heap := m.heap.set a t } := by
  unfold SamplerState.onSet
  cases m.heap[a]? with
  | none => simp
  | some s =>
    constructor
    · intro h
      cases h' : x s with
      | mk r' t =>
        simp only [h'] at h
        cases h
        exact ⟨s, t, rfl, h', rfl⟩
    · rintro ⟨_, t, hs, h, rfl⟩
      obtain rfl := Option.some.inj hs
      simp only [h]

theorem onSet_error {α : Type} {a : Nat} {x : Act (SampleSet K) α} {m m' : SamplerState K} {e : Err} :
    SamplerState.onSet a x m = (.error e, m') ↔
      (m.heap[a]? = none ∧ e = .indexError ∧ m' = m) ∨
      ∃ s t, m.heap[a]? = some s ∧ x s = (.error e, t) ∧ m' = { m with heap := m.heap.set a t } := by
  unfold SamplerState.onSet
  cases m.heap[a]? with
  | none => simp [eq_comm]
  | some s =>
    constructor
    · intro h
      cases h' : x s with
      | mk r' t =>
        simp only [h'] at h
        cases h
        exact .inr ⟨s, t, rfl, h', rfl⟩
    · rintro (⟨h, -⟩ | ⟨_, t, hs, h, rfl⟩)
      · simp at h
      · obtain rfl := Option.some.inj hs
        simp only [h]

theorem onNew_ok {s : SampleSet K} {x : Act (SampleSet K) Unit} {m m' : SamplerState K} {u : Unit} :
    SamplerState.onNew s x m = (.ok u, m') ↔ ∃ t, x s = (.ok (), t) ∧ m' = m.put t .other := by
  unfold SamplerState.onNew
  rcases x s with ⟨_ | a, t⟩
  · simp
  · constructor
    · intro h; cases h; exact ⟨t, rfl, rfl⟩
    · rintro ⟨t', h, rfl⟩; cases h; rfl

theorem onNew_error {s : SampleSet K} {x : Act (SampleSet K) Unit} {m m' : SamplerState K} {e : Err}
    (h : SamplerState.onNew s x m = (.error e, m')) : m' = m := by
  unfold SamplerState.onNew at h
  rcases hx : x s with ⟨_ | a, t⟩ <;> rw [hx] at h <;> cases h
  rfl

/-! ## Sampling into a set -/

theorem randomA_ok {st : Stats K} {size : Nat} {rv : RvArg K} {n : Nat} {g : Bool} {s t : SampleSet K}
    {u : Unit} (h : randomA st size rv n g s = (.ok u, t)) :
    ∀ obj e, InputObj.toSet e obj = .ok s → e = .wrongInput → randomSampleSet st size rv obj n g = .ok t := by
  rintro obj e ho rfl
  unfold randomA at h
  replace h := bind_ok.1 h
  obtain ⟨specs, _, h1, h⟩ := h
  replace h1 := look_ok.1 h1; obtain rfl := h1.2.symm; replace h1 := h1.1
  replace h := bind_ok.1 h
  obtain ⟨chunks, _, h2, h⟩ := h
  replace h2 := look_ok.1 h2; obtain rfl := h2.2.symm; replace h2 := h2.1
  replace h := bind_ok.1 h
  obtain ⟨domain, _, h3, h⟩ := h
  replace h3 := look_ok.1 h3; obtain rfl := h3.2.symm; replace h3 := h3.1
  replace h := bind_ok.1 h
  obtain ⟨_, s1, h4, h⟩ := h
  replace h4 := attempt_ok.1 h4
  replace h := bind_ok.1 h
  obtain ⟨_, _, h5, h⟩ := h
  obtain rfl := change_ok.1 h5
  replace h := bind_ok.1 h
  obtain ⟨_, _, h6, h⟩ := h
  replace h6 := look_ok.1 h6; obtain rfl := h6.2.symm; replace h6 := h6.1
  replace h := bind_ok.1 h
  obtain ⟨_, _, h7, h⟩ := h
  replace h7 := look_ok.1 h7; obtain rfl := h7.2.symm; replace h7 := h7.1
  obtain rfl := change_ok.1 h
  simp only [randomSampleSet, ho, ok_bind, h1, h2, h3, h4, h6, h7]
  rfl

theorem randomA_error {st : Stats K} {size : Nat} {rv : RvArg K} {n : Nat} {g : Bool} {s t : SampleSet K}
    {e : Err} (h : randomA st size rv n g s = (.error e, t)) :
    t = s ∨ ∃ specs chunks dom, Distributions s.dim s.domain rv specs ∧ Drawn st specs n size chunks ∧
      List.Forall₂ (fun sp ab => st.interval sp = .ok ab) specs dom ∧
      (∀ c ∈ chunks, ∀ row ∈ c, row.length = s.dim) ∧
      t = { s with loc := { s.loc with values := some chunks }, domain := some dom } ∧
      (t.checkNumLocalAll size = .error e ∨ t.checkNum size = .error e) := by
  unfold randomA at h
  replace h := bind_error.1 h
  rcases h with h | ⟨specs, _, h1, h⟩
  · exact .inl (look_error.1 h).2
  replace h1 := look_ok.1 h1; obtain rfl := h1.2.symm; replace h1 := h1.1
  replace h := bind_error.1 h
  rcases h with h | ⟨chunks, _, h2, h⟩
  · exact .inl (look_error.1 h).2
  replace h2 := look_ok.1 h2; obtain rfl := h2.2.symm; replace h2 := h2.1
  replace h := bind_error.1 h
  rcases h with h | ⟨domain, _, h3, h⟩
  · exact .inl (look_error.1 h).2
  replace h3 := look_ok.1 h3; obtain rfl := h3.2.symm; replace h3 := h3.1
  replace h := bind_error.1 h
  rcases h with h | ⟨_, s1, h4, h⟩
  · exact .inl (attempt_error.1 h).2
  obtain ⟨rfl, hr⟩ := setValuesLocal_eq_ok (attempt_ok.1 h4)
  replace h := bind_error.1 h
  rcases h with h | ⟨_, _, h5, h⟩
  · exact absurd h change_error
  obtain rfl := change_ok.1 h5
  have key : ∀ {P : Prop}, P → _ := fun {P} hp => (⟨perDim_eq_ok h1, drawn_of_mapM h2, (mapM_eq_ok _ _ _).1 h3, hr, rfl, hp⟩ :
    Distributions s.dim s.domain rv specs ∧ Drawn st specs n size chunks ∧
      List.Forall₂ (fun sp ab => st.interval sp = .ok ab) specs domain ∧
      (∀ c ∈ chunks, ∀ row ∈ c, row.length = s.dim) ∧
      ({ s with loc := { s.loc with values := some chunks }, domain := some domain } : SampleSet K) =
        { s with loc := { s.loc with values := some chunks }, domain := some domain } ∧ P)
  right
  replace h := bind_error.1 h
  rcases h with h | ⟨_, _, h6, h⟩
  · replace h := look_error.1 h; obtain rfl := h.2.symm; replace h := h.1
    exact ⟨specs, chunks, domain, key (.inl h)⟩
  replace h6 := look_ok.1 h6; obtain rfl := h6.2.symm; replace h6 := h6.1
  replace h := bind_error.1 h
  rcases h with h | ⟨_, _, h7, h⟩
  · replace h := look_error.1 h; obtain rfl := h.2.symm; replace h := h.1
    exact ⟨specs, chunks, domain, key (.inr h)⟩
  exact absurd h change_error

theorem lhsA_ok {size : Nat} {cube : List (List K)} {g : Bool} {s t : SampleSet K} {u : Unit}
    (h : lhsA size cube g s = (.ok u, t)) :
    ∀ obj e, InputObj.toSet e obj = .ok s → e = .unboundLocal → lhsSampleSet size obj cube g = .ok t := by
  rintro obj e ho rfl
  unfold lhsA at h
  replace h := bind_ok.1 h
  obtain ⟨_, _, h1, h⟩ := h
  obtain rfl := change_ok.1 h1
  replace h := bind_ok.1 h
  obtain ⟨_, s1, h2, h⟩ := h
  replace h2 := attempt_ok.1 h2
  replace h := bind_ok.1 h
  obtain ⟨_, s2, h3, h⟩ := h
  replace h3 := attempt_ok.1 h3
  obtain rfl := change_ok.1 h
  have hd : domainOrUnit s1 = domainOrUnit s := by
    simp only [SampleSet.updateBounds, orErr_some, ok_bind, pure_eq_ok] at h2
    subst h2
    simp [domainOrUnit]
  simp only [lhsValues, hd] at h3
  simp only [lhsSampleSet, ho, ok_bind, h2, h3]
  rfl

/-! ## Evaluating the model -/

theorem modelReply_ok {S : SamplerModel K} {B : Breakdown K} {r : Nat} {x : List (List K)}
    {o : List (List K) × Option (List (List K)) × Option (List (List (List K)))}
    (h : modelReply S B r x = .ok o) : unpack S.ee S.jac (S.model r x) = .ok o := by
  unfold modelReply at h
  cases hb : B.fails r x with
  | none => rw [hb] at h; exact h
  | some e => rw [hb] at h; cases h

theorem localized_reference {size : Nat} {s t : SampleSet K} (h : s.localized size = .ok t) :
    ArraysOnly s t ∧ t.glob = s.glob := by
  unfold SampleSet.localized at h
  split at h
  · simp only [SampleSet.globalToLocal, bind_eq_ok, pure_eq_ok] at h
    obtain ⟨n, -, rfl⟩ := h
    exact ⟨rfl, rfl⟩
  · cases h; exact ⟨rfl, rfl⟩

/-- The Jacobians that are stored, if the sampler is to use them. -/
theorem withJacobians_ok {flag : Bool} {parts : List (Option (List (List (List K))))} {s t : SampleSet K}
    (h : withJacobians flag parts s = .ok t) :
    ∃ J, t = { s with loc := { s.loc with jacobians := J } } ∧ (flag = false → J = s.loc.jacobians) ∧
      (flag = true → ∃ J', J = some J' ∧ ∀ s' : SampleSet K, withJacobians flag parts s' =
        .ok { s' with loc := { s'.loc with jacobians := some J' } }) := by
  cases flag with
  | false => cases h; exact ⟨s.loc.jacobians, rfl, fun _ => rfl, nofun⟩
  | true =>
    simp only [withJacobians, if_true, bind_eq_ok, pure_eq_ok] at h
    obtain ⟨J, hJ, rfl⟩ := h
    exact ⟨some J, rfl, nofun, fun _ => ⟨J, rfl, fun s' => by simp only [withJacobians, if_true, hJ]; rfl⟩⟩

/-- What the call that returns has done, step by step. -/
theorem computeSetA_ok {S : SamplerModel K} {B : Breakdown K} {g : Bool} {s t out : SampleSet K} :
    computeSetA S B g s = (.ok out, t) ↔
      ∃ s1 vals outs o1 q o2 s2 d, s.localized S.size = .ok s1 ∧ s1.loc.values = some vals ∧
        (vals.zipIdx.mapM fun c => modelReply S B c.2 c.1) = .ok outs ∧
        ({ dim := S.outDim } : SampleSet K).setValuesLocal (outs.map fun o => o.1) = .ok o1 ∧
        mapReference B.ref S.outDim s1.referenceValue = .ok q ∧
        withErrors S.ee (outs.map fun o => o.2.1) { o1 with referenceValue := q } = .ok o2 ∧
        withJacobians S.jac (outs.map fun o => o.2.2) s1 = .ok s2 ∧
        t = s2.globalizeIf g ∧ out = gatherIf g o2 ∧
        Disc.new S.size (some (s2.globalizeIf g)) (some (gatherIf g o2)) none none none = .ok d := by
  constructor
  · intro h
    unfold computeSetA at h
    replace h := bind_ok.1 h
    obtain ⟨_, s1, h1, h⟩ := h
    replace h1 := localizedA_ok.1 h1
    replace h := bind_ok.1 h
    obtain ⟨vals, _, h2, h⟩ := h
    replace h2 := look_ok.1 h2; obtain rfl := h2.2.symm; replace h2 := h2.1
    replace h := bind_ok.1 h
    obtain ⟨outs, _, h3, h⟩ := h
    replace h3 := look_ok.1 h3; obtain rfl := h3.2.symm; replace h3 := h3.1
    replace h := bind_ok.1 h
    obtain ⟨o1, _, h4, h⟩ := h
    replace h4 := look_ok.1 h4; obtain rfl := h4.2.symm; replace h4 := h4.1
    replace h := bind_ok.1 h
    obtain ⟨q, _, h5, h⟩ := h
    replace h5 := look_ok.1 h5; obtain rfl := h5.2.symm; replace h5 := h5.1
    replace h := bind_ok.1 h
    obtain ⟨o2, _, h6, h⟩ := h
    replace h6 := look_ok.1 h6; obtain rfl := h6.2.symm; replace h6 := h6.1
    replace h := bind_ok.1 h
    obtain ⟨_, s2, h7, h⟩ := h
    replace h7 := attempt_ok.1 h7
    replace h := bind_ok.1 h
    obtain ⟨_, _, h8, h⟩ := h
    obtain rfl := change_ok.1 h8
    replace h := bind_ok.1 h
    obtain ⟨d, _, h9, h⟩ := h
    replace h9 := look_ok.1 h9; obtain rfl := h9.2.symm; replace h9 := h9.1
    replace h := look_ok.1 h; obtain rfl := h.2.symm; replace h := h.1
    exact ⟨s1, vals, outs, o1, q, o2, s2, d, h1, (orErr_eq_ok _ _ _).1 h2, h3, h4, h5, h6, h7, rfl,
      (Except.ok.inj h).symm, h9⟩
  · rintro ⟨s1, vals, outs, o1, q, o2, s2, d, h1, h2, h3, h4, h5, h6, h7, rfl, rfl, h9⟩
    unfold computeSetA
    refine bind_ok.2 ⟨(), s1, localizedA_ok.2 h1, ?_⟩
    refine bind_ok.2 ⟨vals, s1, look_ok.2 ⟨by rw [h2]; rfl, rfl⟩, ?_⟩
    refine bind_ok.2 ⟨outs, s1, look_ok.2 ⟨h3, rfl⟩, ?_⟩
    refine bind_ok.2 ⟨o1, s1, look_ok.2 ⟨h4, rfl⟩, ?_⟩
    refine bind_ok.2 ⟨q, s1, look_ok.2 ⟨h5, rfl⟩, ?_⟩
    refine bind_ok.2 ⟨o2, s1, look_ok.2 ⟨h6, rfl⟩, ?_⟩
    refine bind_ok.2 ⟨(), s2, attempt_ok.2 h7, ?_⟩
    refine bind_ok.2 ⟨(), s2.globalizeIf g, change_ok.2 rfl, ?_⟩
    refine bind_ok.2 ⟨d, s2.globalizeIf g, look_ok.2 ⟨h9, rfl⟩, ?_⟩
    exact look_ok.2 ⟨rfl, rfl⟩

/-- What the call that raises has done. -/
theorem computeSetA_error {S : SamplerModel K} {B : Breakdown K} {g : Bool} {s t : SampleSet K} {e : Err}
    (h : computeSetA S B g s = (.error e, t)) :
    t = s ∨ s.localized S.size = .ok t ∨
      ∃ s1 vals J, s.localized S.size = .ok s1 ∧ s1.loc.values = some vals ∧
        t = ({ s1 with loc := { s1.loc with jacobians := J } } : SampleSet K).globalizeIf g ∧
        (S.jac = false → J = s1.loc.jacobians) := by
  unfold computeSetA at h
  replace h := bind_error.1 h
  rcases h with h | ⟨_, s1, h1, h⟩
  · left
    exact (globalToLocalA_error.1 (whenever_error.1 h).2).2
  replace h1 := localizedA_ok.1 h1
  replace h := bind_error.1 h
  rcases h with h | ⟨vals, _, h2, h⟩
  · obtain ⟨-, rfl⟩ := look_error.1 h; exact .inr (.inl h1)
  replace h2 := look_ok.1 h2; obtain rfl := h2.2.symm; replace h2 := h2.1
  replace h := bind_error.1 h
  rcases h with h | ⟨outs, _, h3, h⟩
  · obtain ⟨-, rfl⟩ := look_error.1 h; exact .inr (.inl h1)
  replace h3 := look_ok.1 h3; obtain rfl := h3.2.symm; replace h3 := h3.1
  replace h := bind_error.1 h
  rcases h with h | ⟨o1, _, h4, h⟩
  · obtain ⟨-, rfl⟩ := look_error.1 h; exact .inr (.inl h1)
  replace h4 := look_ok.1 h4; obtain rfl := h4.2.symm; replace h4 := h4.1
  replace h := bind_error.1 h
  rcases h with h | ⟨q, _, h5, h⟩
  · obtain ⟨-, rfl⟩ := look_error.1 h; exact .inr (.inl h1)
  replace h5 := look_ok.1 h5; obtain rfl := h5.2.symm; replace h5 := h5.1
  replace h := bind_error.1 h
  rcases h with h | ⟨o2, _, h6, h⟩
  · obtain ⟨-, rfl⟩ := look_error.1 h; exact .inr (.inl h1)
  replace h6 := look_ok.1 h6; obtain rfl := h6.2.symm; replace h6 := h6.1
  replace h := bind_error.1 h
  rcases h with h | ⟨_, s2, h7, h⟩
  · obtain ⟨-, rfl⟩ := attempt_error.1 h; exact .inr (.inl h1)
  obtain ⟨J, rfl, hJ, -⟩ := withJacobians_ok (attempt_ok.1 h7)
  replace h := bind_error.1 h
  rcases h with h | ⟨_, _, h8, h⟩
  · exact absurd h change_error
  obtain rfl := change_ok.1 h8
  replace h := bind_error.1 h
  rcases h with h | ⟨d, _, h9, h⟩
  · obtain ⟨-, rfl⟩ := look_error.1 h
    exact .inr (.inr ⟨s1, vals, J, h1, (orErr_eq_ok _ _ _).1 h2, rfl, hJ⟩)
  replace h9 := look_ok.1 h9; obtain rfl := h9.2.symm; replace h9 := h9.1
  cases (look_error.1 h).1

theorem gatherArr_twice {α : Type} (l : Option (Chunks α)) (g : Option (List α)) :
    SampleSet.gatherArr l (SampleSet.gatherArr l g) = SampleSet.gatherArr l g := by
  cases l <;> rfl

/-- Storing Jacobians and gathering a second time undoes nothing but the Jacobians. -/
theorem globalizeIf_twice (g : Bool) (s : SampleSet K) (J J' : Option (Chunks (List (List K))))
    (h : J' = J ∨ ∃ j, J' = some j) :
    SampleSet.globalizeIf g { (({ s with loc := { s.loc with jacobians := J } } : SampleSet K).globalizeIf g) with
      loc := { (({ s with loc := { s.loc with jacobians := J } } : SampleSet K).globalizeIf g).loc with
        jacobians := J' } } =
    ({ s with loc := { s.loc with jacobians := J' } } : SampleSet K).globalizeIf g := by
  cases g with
  | false => rfl
  | true =>
    simp only [SampleSet.globalizeIf, if_true, SampleSet.localToGlobal, Arrays.map₂, gatherArr_twice]
    rcases h with rfl | ⟨j, rfl⟩
    · simp only [gatherArr_twice]
    · rfl

theorem globalizeIf_loc (g : Bool) (s : SampleSet K) : (s.globalizeIf g).loc = s.loc := by
  cases g <;> rfl

theorem globalizeIf_reference (g : Bool) (s : SampleSet K) :
    (s.globalizeIf g).referenceValue = s.referenceValue := by
  cases g <;> rfl

/-- Calling again gives what the first call would have given. -/
theorem computeSetA_again {S S' : SamplerModel K} {B B' : Breakdown K} {g : Bool} {s t s' out : SampleSet K}
    {e : Err} (hsize : S'.size = S.size) (hjac : S'.jac = S.jac)
    (h : computeSetA S B g s = (.error e, t)) (h' : computeSetA S' B' g s = (.ok out, s')) :
    computeSetA S' B' g t = (.ok out, s') := by
  rcases computeSetA_error h with rfl | h1 | ⟨s1, vals, J, h1, hv, rfl, hJ⟩
  · exact h'
  · obtain ⟨s1, vals, outs, o1, q, o2, s2, d, k1, k2, k⟩ := computeSetA_ok.1 h'
    rw [hsize, h1] at k1
    obtain rfl := Except.ok.inj k1
    exact computeSetA_ok.2 ⟨t, vals, outs, o1, q, o2, s2, d, SampleSet.localized_some _ k2, k2, k⟩
  · obtain ⟨s1', vals', outs, o1, q, o2, s2, d, k1, k2, k3, k4, k5, k6, k7, rfl, rfl, k8⟩ := computeSetA_ok.1 h'
    rw [hsize, h1] at k1
    obtain rfl := Except.ok.inj k1
    have hl : (({ s1 with loc := { s1.loc with jacobians := J } } : SampleSet K).globalizeIf g).loc.values =
        some vals' := by rw [globalizeIf_loc]; exact k2
    obtain ⟨J', rfl, hf, ht⟩ := withJacobians_ok k7
    have key : withJacobians S'.jac (outs.map fun o => o.2.2)
          (({ s1 with loc := { s1.loc with jacobians := J } } : SampleSet K).globalizeIf g) =
        .ok { (({ s1 with loc := { s1.loc with jacobians := J } } : SampleSet K).globalizeIf g) with
          loc := { (({ s1 with loc := { s1.loc with jacobians := J } } : SampleSet K).globalizeIf g).loc with
            jacobians := J' } } ∧ (J' = J ∨ ∃ j, J' = some j) := by
      cases hj : S'.jac with
      | false =>
        rw [hj] at hjac
        obtain rfl := hJ hjac.symm
        obtain rfl := hf hj
        refine ⟨?_, .inl rfl⟩
        cases g <;> rfl
      | true =>
        obtain ⟨j, rfl, hw⟩ := ht hj
        rw [hj] at hw
        exact ⟨hw _, .inr ⟨j, rfl⟩⟩
    have tw := globalizeIf_twice g s1 J J' key.2
    refine computeSetA_ok.2 ⟨_, vals', outs, o1, q, o2, _, d, SampleSet.localized_some _ hl, hl, k3, k4, ?_, k6,
      key.1, tw.symm, rfl, ?_⟩
    · rw [globalizeIf_reference]; exact k5
    · rw [tw]; exact k8

/-! ## The sampler -/

theorem computeA_ok {S : SamplerModel K} {B : Breakdown K} {input : Option Nat} {g : Bool}
    {m m' : SamplerState K} {u : Unit} :
    SamplerState.computeA S B input g m = (.ok u, m') ↔
      ∃ a s t out, input.or m.current = some a ∧ m.heap[a]? = some s ∧
        computeSetA S B g s = (.ok out, t) ∧
        m' = ⟨m.heap.set a t ++ [out], some a, m.discs ++ [(a, m.heap.length)]⟩ := by
  constructor
  · intro h
    unfold SamplerState.computeA at h
    replace h := bind_ok.1 h
    obtain ⟨_, m1, h1, h⟩ := h
    obtain rfl := change_ok.1 h1
    replace h := bind_ok.1 h
    obtain ⟨a, m2, h2, h⟩ := h
    replace h2 := look_ok.1 h2; obtain rfl := h2.2.symm; replace h2 := (orErr_eq_ok _ _ _).1 h2.1
    replace h := bind_ok.1 h
    obtain ⟨out, m3, h3, h⟩ := h
    replace h3 := onSet_ok.1 h3
    obtain ⟨s, t, h3, h4, rfl⟩ := h3
    obtain rfl := change_ok.1 h
    simp only at h2 h3
    exact ⟨a, s, t, out, h2, h3, h4, by simp [h2]⟩
  · rintro ⟨a, s, t, out, h2, h3, h4, rfl⟩
    unfold SamplerState.computeA
    refine bind_ok.2 ⟨(), _, change_ok.2 rfl, ?_⟩
    refine bind_ok.2 ⟨a, _, look_ok.2 ⟨by simp only [h2]; rfl, rfl⟩, ?_⟩
    refine bind_ok.2 ⟨out, _, onSet_ok.2 ⟨s, t, h3, h4, rfl⟩, ?_⟩
    exact change_ok.2 (by simp [h2])

theorem computeA_error {S : SamplerModel K} {B : Breakdown K} {input : Option Nat} {g : Bool}
    {m m' : SamplerState K} {e : Err} (h : SamplerState.computeA S B input g m = (.error e, m')) :
    (m' = { m with current := input.or m.current } ∧
      ∀ a, input.or m.current = some a → m.heap[a]? = none) ∨
      ∃ a s t, input.or m.current = some a ∧ m.heap[a]? = some s ∧
        computeSetA S B g s = (.error e, t) ∧
        m' = { m with current := some a, heap := m.heap.set a t } := by
  unfold SamplerState.computeA at h
  replace h := bind_error.1 h
  rcases h with h | ⟨_, m1, h1, h⟩
  · exact absurd h change_error
  obtain rfl := change_ok.1 h1
  replace h := bind_error.1 h
  rcases h with h | ⟨a, m2, h2, h⟩
  · replace h := look_error.1 h
    obtain ⟨h, rfl⟩ := h
    left
    refine ⟨rfl, fun a ha => ?_⟩
    simp only [ha, orErr_some] at h
    cases h
  replace h2 := look_ok.1 h2; obtain rfl := h2.2.symm; replace h2 := (orErr_eq_ok _ _ _).1 h2.1
  simp only at h2
  replace h := bind_error.1 h
  rcases h with h | ⟨out, m3, h3, h⟩
  · replace h := onSet_error.1 h
    rcases h with ⟨h, -, rfl⟩ | ⟨s, t, h3, h4, rfl⟩
    · left
      refine ⟨rfl, fun b hb => ?_⟩
      rw [h2] at hb
      cases hb
      exact h
    · right
      exact ⟨a, s, t, h2, h3, h4, by simp [h2]⟩
  · exact absurd h change_error

theorem into_ok {e : Err} {x : Act (SampleSet K) Unit} {obj : ObjRef K} {m m' : SamplerState K} {u : Unit}
    (h : SamplerState.into e x obj m = (.ok u, m')) :
    ∃ s t o, m.resolve obj = .ok o ∧ InputObj.toSet e o = .ok s ∧ x s = (.ok (), t) ∧ m' = m.put t obj := by
  cases obj with
  | ref a =>
    replace h := bind_ok.1 h
    obtain ⟨_, m1, h1, h⟩ := h
    replace h1 := onSet_ok.1 h1
    obtain ⟨s, t, h1, h2, rfl⟩ := h1
    obtain rfl := change_ok.1 h
    refine ⟨s, t, .set s, ?_, rfl, h2, rfl⟩
    simp only [SamplerState.resolve, (getIdx_eq_ok _ _ _).2 h1, ok_bind]
    rfl
  | dim d =>
    obtain ⟨t, h1, rfl⟩ := onNew_ok.1 h
    exact ⟨_, t, _, rfl, rfl, h1, rfl⟩
  | domain D =>
    obtain ⟨t, h1, rfl⟩ := onNew_ok.1 h
    exact ⟨_, t, _, rfl, rfl, h1, rfl⟩
  | other => cases (Prod.mk.inj h).1

theorem into_error {e e' : Err} {x : Act (SampleSet K) Unit} {obj : ObjRef K} {m m' : SamplerState K}
    (h : SamplerState.into e x obj m = (.error e', m')) :
    m' = m ∨ ∃ a s t, obj = .ref a ∧ m.heap[a]? = some s ∧ x s = (.error e', t) ∧
      m' = { m with heap := m.heap.set a t } := by
  cases obj with
  | ref a =>
    replace h := bind_error.1 h
    rcases h with h | ⟨_, m1, h1, h⟩
    · replace h := onSet_error.1 h
      rcases h with ⟨-, -, rfl⟩ | ⟨s, t, h1, h2, rfl⟩
      · exact .inl rfl
      · exact .inr ⟨a, s, t, rfl, h1, h2, rfl⟩
    · exact absurd h change_error
  | dim d => exact .inl (onNew_error h)
  | domain D => exact .inl (onNew_error h)
  | other => exact .inl (Prod.mk.inj h).2.symm

/-- The reference value of the set with number `k` is changed. -/
def SamplerState.setReferenceAt (m : SamplerState K) (k : Nat) (q : Option (List K)) : SamplerState K :=
  { m with heap := m.heap.modify k fun o => { o with referenceValue := q } }

theorem modify_last {α : Type} (l : List α) (x : α) (f : α → α) :
    (l ++ [x]).modify l.length f = l ++ [f x] := by
  induction l with
  | nil => rfl
  | cons a l ih => simpa using ih

theorem withErrors_reference {flag : Bool} {parts : List (Option (List (List K)))} {s t : SampleSet K}
    {q : Option (List K)} (h : withErrors flag parts { s with referenceValue := q } = .ok t) :
    ∃ t', withErrors flag parts s = .ok t' ∧ t = { t' with referenceValue := q } := by
  cases flag with
  | false => cases h; exact ⟨s, rfl, rfl⟩
  | true =>
    simp only [withErrors, if_true, bind_eq_ok, pure_eq_ok] at h
    obtain ⟨J, hJ, rfl⟩ := h
    exact ⟨_, by simp only [withErrors, if_true, hJ]; rfl, rfl⟩

theorem withErrors_none {flag : Bool} {parts : List (Option (List (List K)))} {s t : SampleSet K}
    (h : withErrors flag parts s = .ok t) : t.referenceValue = s.referenceValue := by
  cases flag with
  | false => cases h; rfl
  | true =>
    simp only [withErrors, if_true, bind_eq_ok, pure_eq_ok] at h
    obtain ⟨J, hJ, rfl⟩ := h
    rfl

theorem gatherIf_reference (g : Bool) (s : SampleSet K) (q : Option (List K)) :
    gatherIf g { s with referenceValue := q } = { gatherIf g s with referenceValue := q } := by
  cases g <;> rfl

theorem new_reference {size : Nat} {i o : SampleSet K} {q : Option (List K)} {d : Disc K}
    (h : Disc.new size (some i) (some { o with referenceValue := q }) none none none = .ok d) :
    ∃ d', Disc.new size (some i) (some o) none none none = .ok d' ∧ d'.input = some i ∧ d'.output = some o := by
  simp only [Disc.new, Option.isSome_some, if_true, bind_eq_ok] at h ⊢
  obtain ⟨n, h, -⟩ := h
  refine ⟨{ input := some i, output := some o }, ⟨n, ?_, rfl⟩, rfl, rfl⟩
  have h1 : ({ o with referenceValue := q } : SampleSet K).checkNum size = o.checkNum size := by
    have h2 : ∀ l, ({ o with referenceValue := q } : SampleSet K).checkNumLocals l = o.checkNumLocals l := by
      intro l
      induction l with
      | nil => rfl
      | cons r l ih =>
        simp only [SampleSet.checkNumLocals, ih]
        rfl
    simp only [SampleSet.checkNum, h2]
  simp only [Disc.checkNums, orErr_some, ok_bind, h1] at h ⊢
  exact h

/-- A call of `compute_qoi_and_create_discretization` that returns, in the model of `computeQoi`. -/
theorem computeSetA_returns {S : SamplerModel K} {B : Breakdown K} {g : Bool} {s t out : SampleSet K}
    (h : computeSetA S B g s = (.ok out, t)) :
    ∃ d o q, computeQoi S.size S.model S.outDim S.ee S.jac s g = .ok d ∧ d.input = some t ∧
      d.output = some o ∧ mapReference B.ref S.outDim s.referenceValue = .ok q ∧
      out = { o with referenceValue := q } := by
  obtain ⟨s1, vals, outs, o1, q, o2, s2, d, h1, h2, h3, h4, h5, h6, h7, rfl, rfl, h9⟩ := computeSetA_ok.1 h
  replace h6 := withErrors_reference h6
  obtain ⟨o3, h6, rfl⟩ := h6
  rw [gatherIf_reference] at h9 ⊢
  obtain ⟨d', h10, h11, h12⟩ := new_reference h9
  refine ⟨d', _, q, ?_, h11, h12, ?_, rfl⟩
  · have h3' : (vals.zipIdx.mapM fun c => unpack S.ee S.jac (S.model c.2 c.1)) = .ok outs := by
      rw [mapM_eq_ok] at h3 ⊢
      exact h3.imp fun c o => modelReply_ok
    simp only [computeQoi, h1, ok_bind, h2, orErr_some, h3', h4, h6, h7]
    cases g <;> exact h10
  · have := (localized_reference h1).1
    unfold ArraysOnly at this
    rw [this] at h5
    exact h5

/-! ## The theorems -/

/-- C123: a call that returns does what the model of C106 says; the outputs of a new discretization have in
addition the reference value that C107 is about. -/
theorem C123_returns {S : SamplerModel K} {B : Breakdown K} {c : SamplerCall K} {m m' : SamplerState K}
    {u : Unit} (h : m.execA S B c = (.ok u, m')) :
    ((∀ input g, c ≠ .compute input g) → m.exec S c = .ok m') ∧
    ∀ input g, c = .compute input g → ∃ m1 a s q, m.exec S c = .ok m1 ∧ input.or m.current = some a ∧
      m.heap[a]? = some s ∧ mapReference B.ref S.outDim s.referenceValue = .ok q ∧
      m' = m1.setReferenceAt m.heap.length q := by
  cases c with
  | newSet s =>
    cases h
    exact ⟨fun _ => rfl, fun _ _ h => by cases h⟩
  | random st rv obj n g =>
    obtain ⟨s, t, o, h1, h2, h3, rfl⟩ := into_ok h
    refine ⟨fun _ => ?_, fun _ _ h => by cases h⟩
    simp only [SamplerState.exec, h1, ok_bind, randomA_ok h3 o _ h2 rfl]
    rfl
  | lhs obj cube g =>
    obtain ⟨s, t, o, h1, h2, h3, rfl⟩ := into_ok h
    refine ⟨fun _ => ?_, fun _ _ h => by cases h⟩
    simp only [SamplerState.exec, h1, ok_bind, lhsA_ok h3 o _ h2 rfl]
    rfl
  | regular obj nums =>
    exact ⟨fun _ => attempt_ok (f := fun m : SamplerState K => m.exec S (.regular obj nums)).1 h, fun _ _ h => by cases h⟩
  | compute input g =>
    refine ⟨fun hc => absurd rfl (hc input g), fun _ _ hc => ?_⟩
    cases hc
    obtain ⟨a, s, t, out, h1, h2, h3, rfl⟩ := computeA_ok.1 h
    obtain ⟨d, o, q, h4, h5, h6, h7, rfl⟩ := computeSetA_returns h3
    refine ⟨⟨m.heap.set a t ++ [o], some a, m.discs ++ [(a, m.heap.length)]⟩, a, s, q, ?_, h1, h2, h7, ?_⟩
    · simp only [SamplerState.exec, SamplerState.compute, h1, orErr_some, ok_bind,
        (getIdx_eq_ok _ _ _).2 h2, h4, h5, h6]
      rfl
    · have := modify_last (m.heap.set a t) o fun o => { o with referenceValue := q }
      rw [List.length_set] at this
      simp only [SamplerState.setReferenceAt, this, List.length_set]
  | localToGlobal =>
    cases h
    exact ⟨fun _ => rfl, fun _ _ h => by cases h⟩

/-- C123: a call that raises leaves the discretizations as they were, all sets but the one it works on,
and `input_sample_set`, which is assigned only by `compute_qoi_and_create_discretization` (the set it is
given). -/
theorem C123_frame {S : SamplerModel K} {B : Breakdown K} {c : SamplerCall K} {m m' : SamplerState K}
    {e : Err} (h : m.execA S B c = (.error e, m')) :
    m'.discs = m.discs ∧ m'.heap.length = m.heap.length ∧
      (∀ a, ¬ Writes m a c → m'.heap[a]? = m.heap[a]?) ∧
      ((∀ input g, c ≠ .compute input g) → m'.current = m.current) ∧
      ∀ input g, c = .compute input g → m'.current = input.or m.current := by
  cases c with
  | newSet s => cases h
  | random st rv obj n g =>
    rcases into_error h with rfl | ⟨a, s, t, rfl, h1, h2, rfl⟩
    · exact ⟨rfl, rfl, fun _ _ => rfl, fun _ => rfl, fun _ _ h => by cases h⟩
    · refine ⟨rfl, by simp, fun b hb => ?_, fun _ => rfl, fun _ _ h => by cases h⟩
      exact List.getElem?_set_ne fun e => hb (by rw [e]; rfl)
  | lhs obj cube g =>
    rcases into_error h with rfl | ⟨a, s, t, rfl, h1, h2, rfl⟩
    · exact ⟨rfl, rfl, fun _ _ => rfl, fun _ => rfl, fun _ _ h => by cases h⟩
    · refine ⟨rfl, by simp, fun b hb => ?_, fun _ => rfl, fun _ _ h => by cases h⟩
      exact List.getElem?_set_ne fun e => hb (by rw [e]; rfl)
  | regular obj nums =>
    obtain ⟨-, rfl⟩ := attempt_error (f := fun m : SamplerState K => m.exec S (.regular obj nums)).1 h
    exact ⟨rfl, rfl, fun _ _ => rfl, fun _ => rfl, fun _ _ h => by cases h⟩
  | compute input g =>
    rcases computeA_error h with ⟨rfl, -⟩ | ⟨a, s, t, h1, h2, h3, rfl⟩
    · exact ⟨rfl, rfl, fun _ _ => rfl, fun hc => absurd rfl (hc _ _), fun _ _ h => by cases h; rfl⟩
    · refine ⟨rfl, by simp, fun b hb => ?_, fun hc => absurd rfl (hc _ _), fun _ _ h => by cases h; exact h1.symm⟩
      refine List.getElem?_set_ne fun e => hb ?_
      subst e
      cases input with
      | none => exact .inr ⟨rfl, by simpa using h1⟩
      | some x => exact .inl (by simpa using h1)
  | localToGlobal => cases h

/-- C123: `regular_sample_set` that raises changes nothing, and so do `random_sample_set` and
`lhs_sample_set` when they are not given a set. -/
theorem C123_nothing {S : SamplerModel K} {B : Breakdown K} {c : SamplerCall K} {m m' : SamplerState K}
    {e : Err} (h : m.execA S B c = (.error e, m')) (hc : ∀ a, ¬ Writes m a c)
    (hc' : ∀ input g, c ≠ .compute input g) : m' = m := by
  obtain ⟨h1, h2, h3, h4, -⟩ := C123_frame h
  have h5 : m'.heap = m.heap := List.ext_getElem? fun a => h3 a (hc a)
  have h6 := h4 hc'
  cases m
  cases m'
  simp only at h1 h5 h6
  rw [h1, h5, h6]

/-- C123: `random_sample_set` that raises for the set it is given has left it as it was, or given it the new
local values and the domain of the distributions; everything else, with the global values, is as before. The
second happens only if another array does not have as many entries as there are new samples. -/
theorem C123_random {S : SamplerModel K} {B : Breakdown K} {st : Stats K} {rv : RvArg K} {a n : Nat} {g : Bool}
    {m m' : SamplerState K} {e : Err} (h : m.execA S B (.random st rv (.ref a) n g) = (.error e, m'))
    {s : SampleSet K} (hs : m.heap[a]? = some s) :
    m'.heap[a]? = some s ∨ ∃ specs chunks dom t, Distributions s.dim s.domain rv specs ∧
      Drawn st specs n S.size chunks ∧ List.Forall₂ (fun sp ab => st.interval sp = .ok ab) specs dom ∧
      m'.heap[a]? = some t ∧
      t = { s with loc := { s.loc with values := some chunks }, domain := some dom } ∧
      ¬ (s.glob = {} ∧ s.loc = {}) := by
  have h : SamplerState.into .wrongInput (randomA st S.size rv n g) (.ref a) m = _ := h
  rcases into_error h with rfl | ⟨b, s', t, hb, h1, h2, rfl⟩
  · exact .inl hs
  cases hb
  rw [hs] at h1
  obtain rfl := Option.some.inj h1
  have ha := (List.getElem?_eq_some_iff.1 hs).1
  have ht : (m.heap.set a t)[a]? = some t := by simp [ha]
  rcases randomA_error h2 with rfl | ⟨specs, chunks, dom, h3, h4, h5, h6, h7, h8⟩
  · exact .inl ht
  · refine .inr ⟨specs, chunks, dom, t, h3, h4, h5, ht, h7, ?_⟩
    rintro ⟨hg, hl⟩
    subst h7
    have hp : NonePresent ({ s with loc := { s.loc with values := some chunks }, domain := some dom }
        : SampleSet K).glob := by
      simp only [hg]
      constructor <;> rfl
    have hsh : AllShape ({ s with loc := { s.loc with values := some chunks }, domain := some dom }
        : SampleSet K).loc (chunks.map List.length) := by
      simp only [hl]
      constructor <;> intro v hv <;> cases hv
      rfl
    have hsome : ¬ NonePresent ({ s with loc := { s.loc with values := some chunks }, domain := some dom }
        : SampleSet K).loc := by
      intro hn
      have := hn.values
      cases this
    have hck := C12_check_num_local hp (chunks.map List.length) hsh hsome
    rw [List.length_map, h4.1] at hck
    have hckl : ({ s with loc := { s.loc with values := some chunks }, domain := some dom }
        : SampleSet K).checkNumLocalAll S.size = .ok () := by
      unfold SampleSet.checkNumLocalAll
      have key := fun r (_ : r ∈ List.range S.size) => checkNumLocal_ok hp hsh hsome r
      rw [mapM_ok _ (fun r => some ((chunks.map List.length).getD r 0)) _ fun r hr => (key r hr).1]
      rfl
    rcases h8 with h8 | h8
    · rw [hckl] at h8; cases h8
    · rw [hck] at h8; cases h8

theorem localized_upToDate {size : Nat} (hsize : 0 < size) {s t : SampleSet K} (hs : UpToDate s)
    (h : s.localized size = .ok t) : UpToDate t := by
  intro v hv
  rw [(localized_reference h).2] at hv
  unfold SampleSet.localized at h
  split at h
  · simp only [SampleSet.globalToLocal, bind_eq_ok, pure_eq_ok] at h
    obtain ⟨n, -, rfl⟩ := h
    refine .inr ⟨arraySplit size v, ?_, flatten_arraySplit _ _ hsize⟩
    simp [Arrays.map₂, hv, SampleSet.splitArr]
  · cases h; exact hs v hv

/-- C123: what `compute_qoi_and_create_discretization` that raises leaves of the set it evaluates the model at,
for a set whose local values, if it has any, are the parts of its global ones: it differs at most in its
arrays, the local values are still the parts of the global ones, and the global values are still there unless
`globalize` was `False`. -/
theorem C123_compute {S : SamplerModel K} (hsize : 0 < S.size) {B : Breakdown K} {input : Option Nat} {g : Bool}
    {m m' : SamplerState K} {e : Err} (h : m.execA S B (.compute input g) = (.error e, m')) {a : Nat}
    {s : SampleSet K} (ha : input.or m.current = some a) (hs : m.heap[a]? = some s) (hu : UpToDate s) :
    ∃ t, m'.heap[a]? = some t ∧ ArraysOnly s t ∧ UpToDate t ∧
      ∀ v, s.glob.values = some v → t.glob.values = some v ∨ g = false ∧ t.glob.values = none ∧
        ∃ c, t.loc.values = some c ∧ c.flatten = v := by
  rcases computeA_error h with ⟨-, h1⟩ | ⟨b, s', t, h1, h2, h3, rfl⟩
  · rw [h1 a ha] at hs; simp at hs
  rw [ha] at h1
  cases h1
  rw [hs] at h2
  obtain rfl := Option.some.inj h2
  have hl := (List.getElem?_eq_some_iff.1 hs).1
  refine ⟨t, by simp [hl], ?_⟩
  rcases computeSetA_error h3 with rfl | h4 | ⟨s1, vals, J, h4, h5, rfl, -⟩
  · exact ⟨rfl, hu, fun v hv => .inl hv⟩
  · obtain ⟨h5, h6⟩ := localized_reference h4
    exact ⟨h5, localized_upToDate hsize hu h4, fun v hv => .inl (by rw [h6]; exact hv)⟩
  · obtain ⟨h6, h7⟩ := localized_reference h4
    have hu1 := localized_upToDate hsize hu h4
    refine ⟨?_, ?_, ?_⟩
    · unfold ArraysOnly at h6 ⊢
      rw [h6]
      cases g <;> rfl
    · cases g with
      | true => exact upToDate_of_gathered (c := vals) h5
      | false => intro v hv; cases hv
    · intro v hv
      cases g with
      | true =>
        exact .inl ((upToDate_gather { s1 with loc := { s1.loc with jacobians := J } } (fun v hv => hu1 v hv)).2 v
            (by rw [← hv]; exact congrArg Arrays.values h7))
      | false =>
        refine .inr ⟨rfl, rfl, ?_⟩
        rcases hu1 v (by rw [h7]; exact hv) with h8 | ⟨c, h8, h9⟩
        · rw [h5] at h8; cases h8
        · exact ⟨c, h8, h9⟩

/-- C123: when the model raises on one of the processes the call raises, and it has done nothing but to name the
set and to distribute its arrays. -/
theorem C123_model_raises {S : SamplerModel K} {B : Breakdown K} {input : Option Nat} {g : Bool}
    {m : SamplerState K} {a : Nat} {s s1 : SampleSet K} {vals : Chunks (List K)} (ha : input.or m.current = some a)
    (hs : m.heap[a]? = some s) (h1 : s.localized S.size = .ok s1) (h2 : s1.loc.values = some vals) {r : Nat}
    {x : List (List K)} {e : Err} (hr : vals[r]? = some x) (he : B.fails r x = some e) :
    ∃ e', m.execA S B (.compute input g) = (.error e', { m with current := some a, heap := m.heap.set a s1 }) := by
  have hx : ∃ e', (vals.zipIdx.mapM fun c => modelReply S B c.2 c.1) = .error e' := by
    cases h : vals.zipIdx.mapM fun c => modelReply S B c.2 c.1 with
    | error e' => exact ⟨e', rfl⟩
    | ok outs =>
      have hmem : (x, r) ∈ vals.zipIdx := by
        rw [List.mem_zipIdx_iff_getElem?]; exact hr
      have hall : ∀ (l : List (List (List K) × Nat)) (o), List.Forall₂ (fun c o => modelReply S B c.2 c.1 = .ok o) l o →
          (x, r) ∈ l → False := by
        intro l o hl
        induction hl with
        | nil => intro h; cases h
        | cons h1 _ ih =>
          intro hmem
          rcases List.mem_cons.1 hmem with rfl | hmem
          · simp [modelReply, he] at h1
          · exact ih hmem
      exact (hall _ _ ((mapM_eq_ok _ _ _).1 h) hmem).elim
  obtain ⟨e', hx⟩ := hx
  refine ⟨e', ?_⟩
  refine bind_error.2 (.inr ⟨(), _, change_ok.2 rfl, ?_⟩)
  refine bind_error.2 (.inr ⟨a, _, look_ok.2 ⟨by simp only [ha]; rfl, rfl⟩, ?_⟩)
  refine bind_error.2 (.inl (onSet_error.2 (.inr ⟨s, s1, hs, ?_, by simp only [ha]⟩)))
  refine bind_error.2 (.inr ⟨(), s1, localizedA_ok.2 h1, ?_⟩)
  refine bind_error.2 (.inr ⟨vals, s1, look_ok.2 ⟨by rw [h2]; rfl, rfl⟩, ?_⟩)
  exact bind_error.2 (.inl (look_error.2 ⟨hx, rfl⟩))

/-- C123: after a call of `compute_qoi_and_create_discretization` that raised, the same call, or the call without an
argument, with a model that works leaves exactly what it would have left without the first attempt. -/
theorem C123_retry {S S' : SamplerModel K} {B B' : Breakdown K} {input : Option Nat} {g : Bool}
    {m m' m2 : SamplerState K} {e : Err} {u : Unit} (hsize : S'.size = S.size) (hjac : S'.jac = S.jac)
    (h : m.execA S B (.compute input g) = (.error e, m')) (h' : m.execA S' B' (.compute input g) = (.ok u, m2)) :
    m'.execA S' B' (.compute input g) = (.ok u, m2) ∧ m'.execA S' B' (.compute none g) = (.ok u, m2) := by
  obtain ⟨a, s, t, out, h1, h2, h3, rfl⟩ := computeA_ok.1 h'
  rcases computeA_error h with ⟨-, k⟩ | ⟨b, s', t', k1, k2, k3, rfl⟩
  · rw [k a h1] at h2; simp at h2
  rw [h1] at k1
  cases k1
  rw [h2] at k2
  obtain rfl := Option.some.inj k2
  have hl := (List.getElem?_eq_some_iff.1 h2).1
  have key := computeSetA_again hsize hjac k3 h3
  have hh : (m.heap.set a t')[a]? = some t' := by simp [hl]
  constructor
  · refine computeA_ok.2 ⟨a, t', t, out, ?_, hh, key, by simp⟩
    cases input with
    | none => rfl
    | some x => simpa using h1
  · exact computeA_ok.2 ⟨a, t', t, out, rfl, hh, key, by simp⟩

theorem setReferenceAt_inv {f : List K → List K} {m : SamplerState K} {k : Nat} {q : Option (List K)}
    (h : SamplerInv f m) : SamplerInv f (m.setReferenceAt k q) := by
  intro d hd
  refine pairedNow_of (h d hd) fun a s v _ hs hu hv => ?_
  by_cases hk : k = a
  · subst hk
    exact ⟨{ s with referenceValue := q }, by simp [SamplerState.setReferenceAt, hs], hu, hv⟩
  · exact ⟨s, by simp [SamplerState.setReferenceAt, List.getElem?_modify_ne, hk, hs], hu, hv⟩

theorem inv_step_caught {S : SamplerModel K} (hsize : 0 < S.size) {f e : List K → List K}
    {j : List K → List (List K)} (hm : RowWise S.model S.ee S.jac f e j) (hf : ∀ row, (f row).length = S.outDim)
    {B : Breakdown K} {m : SamplerState K} {c : SamplerCall K} (hI : SamplerInv f m) (hc : Careful m c) :
    SamplerInv f (m.execA S B c).2 := by
  cases h : m.execA S B c with
  | mk r m' =>
  cases r with
  | ok u =>
    obtain ⟨h1, h2⟩ := C123_returns h
    by_cases hcomp : ∃ input g, c = .compute input g
    · obtain ⟨input, g, rfl⟩ := hcomp
      obtain ⟨m1, a, s, q, h3, -, -, -, rfl⟩ := h2 input g rfl
      exact setReferenceAt_inv (inv_step hsize hm hf hI hc h3)
    · exact inv_step hsize hm hf hI hc (h1 fun input g e => hcomp ⟨input, g, e⟩)
  | error e =>
    obtain ⟨h1, h2, h3, -, -⟩ := C123_frame h
    intro d hd
    rw [show (Except.error e, m').2 = m' from rfl, h1] at hd
    refine pairedNow_of (hI d hd) fun k s v hk hs hu hv => ?_
    by_cases hw : Writes m k c
    · cases c with
      | newSet s => cases hw
      | random st rv obj n g =>
        have := hc.2 k hw d hd
        rcases hk with rfl | rfl
        · exact absurd rfl this.1
        · exact absurd rfl this.2
      | lhs obj cube g =>
        have := hc.2 k hw d hd
        rcases hk with rfl | rfl
        · exact absurd rfl this.1
        · exact absurd rfl this.2
      | regular obj nums => cases hw
      | compute input g =>
        obtain rfl : g = true := hc
        have ha : input.or m.current = some k := by
          rcases hw with rfl | ⟨rfl, hw⟩
          · rfl
          · exact hw
        obtain ⟨t, ht, -, hu', hv'⟩ := C123_compute hsize h ha hs hu
        rcases hv' v hv with hv' | ⟨h, -⟩
        · exact ⟨t, ht, hu', hv'⟩
        · cases h
      | localToGlobal => cases h
    · exact ⟨s, (h3 k hw).trans hs, hu, hv⟩

/-- C123: for a model that works row by row when it does not raise, after any program of careful calls some of which
raised and were caught, every discretization that was returned pairs each input with its output. -/
theorem C123_pairs {S : SamplerModel K} (hsize : 0 < S.size) {f e : List K → List K} {j : List K → List (List K)}
    (hm : RowWise S.model S.ee S.jac f e j) (hf : ∀ row, (f row).length = S.outDim)
    {cs : List (SamplerCall K × Breakdown K)} (h : CarefulRun S {} cs) :
    ∀ d ∈ (SamplerState.runCaught S {} cs).discs, PairedBy f (SamplerState.runCaught S {} cs) d := by
  have : ∀ (cs : List (SamplerCall K × Breakdown K)) (m : SamplerState K), CarefulRun S m cs → SamplerInv f m →
      SamplerInv f (SamplerState.runCaught S m cs) := by
    intro cs
    induction cs with
    | nil => exact fun m _ h => h
    | cons c cs ih => exact fun m h hI => ih _ h.2 (inv_step_caught hsize hm hf hI h.1)
  intro d hd
  obtain ⟨i, o, v, h1, h2, -, -, h3, h4⟩ := this cs {} h (by simp [SamplerInv]) d hd
  exact ⟨i, o, v, h1, h2, h3, h4⟩

/-- C123: `lhs_sample_set` that raises for the set it is given leaves its values, local and global, as they were. -/
theorem C123_lhs {S : SamplerModel K} {B : Breakdown K} {cube : List (List K)} {a : Nat} {g : Bool}
    {m m' : SamplerState K} {e : Err} (h : m.execA S B (.lhs (.ref a) cube g) = (.error e, m'))
    {s : SampleSet K} (hs : m.heap[a]? = some s) :
    ∃ t, m'.heap[a]? = some t ∧ t.glob.values = s.glob.values ∧ t.loc = s.loc := by
  have h : SamplerState.into .unboundLocal (lhsA S.size cube g) (.ref a) m = _ := h
  rcases into_error h with rfl | ⟨b, s', t, hb, h1, h2, rfl⟩
  · exact ⟨s, hs, rfl, rfl⟩
  cases hb
  rw [hs] at h1
  obtain rfl := Option.some.inj h1
  refine ⟨t, by simp [(List.getElem?_eq_some_iff.1 hs).1], ?_⟩
  unfold lhsA at h2
  replace h2 := bind_error.1 h2
  rcases h2 with h2 | ⟨_, s1, h3, h2⟩
  · exact absurd h2 change_error
  obtain rfl := change_ok.1 h3
  replace h2 := bind_error.1 h2
  rcases h2 with h2 | ⟨_, s2, h4, h2⟩
  · obtain ⟨-, rfl⟩ := attempt_error.1 h2
    exact ⟨rfl, rfl⟩
  replace h4 := attempt_ok.1 h4
  simp only [SampleSet.updateBounds, bind_eq_ok, pure_eq_ok] at h4
  obtain ⟨d, -, rfl⟩ := h4
  replace h2 := bind_error.1 h2
  rcases h2 with h2 | ⟨_, s3, h5, h2⟩
  · obtain ⟨-, rfl⟩ := attempt_error.1 h2
    exact ⟨rfl, rfl⟩
  exact absurd h2 change_error

end

/-! ### Examples -/

namespace Ex

/-- A model that returns. -/
def brkNone : Breakdown ℚ := ⟨fun _ _ => none, fun _ => .error .typeError⟩

/-- A model that raises on the second process. -/
def brkSecond : Breakdown ℚ := ⟨fun r _ => if r = 1 then some .valueError else none, fun _ => .error .typeError⟩

def caughtCalls : List (SamplerCall ℚ × Breakdown ℚ) :=
  [(.random (smpStats 1) (.str "uniform") (.dim 1) 3 true, brkNone), (.compute none true, brkSecond),
   (.compute none true, brkNone), (.random (smpStats 5) (.str "uniform") (.dim 1) 2 true, brkNone),
   (.compute none true, brkSecond), (.compute (some 0) true, brkNone), (.localToGlobal, brkNone)]

/-- Hypotheses of `C123_pairs`: the program is careful. -/
example : Spec.CarefulRun smpModel {} caughtCalls := by
  simp [caughtCalls, Spec.CarefulRun, Spec.Careful]

/-- Two of the calls raise; two discretizations are returned, with the pairs of inputs and outputs. -/
example : (fun m : SamplerState ℚ => (m.discs, m.current, m.heap.map fun s => s.glob.values))
    (SamplerState.runCaught smpModel {} caughtCalls) =
    ([(0, 1), (0, 3)], some 0, [some [[1], [2], [2]], some [[2], [4], [4]], some [[5], [6]],
      some [[2], [4], [4]]]) := by
  decide +kernel

/-- Hypotheses of `C123_frame`, `C123_compute`, `C123_model_raises` and `C123_retry`: the first call raises, and
returns with the model that works. -/
example : let m : SamplerState ℚ := SamplerState.runCaught smpModel {} (caughtCalls.take 1)
    ((m.execA smpModel brkSecond (.compute none true)).1.toOption.isSome,
      (m.execA smpModel brkNone (.compute none true)).1.toOption.isSome, m.heap.map fun s => (s.glob.values, s.loc.values)) =
    (false, true, [(some [[1], [2], [2]], some [[[1], [2]], [[2]]])]) := by
  decide +kernel

/-- A set with volumes, on two processes. -/
def caughtSet : SampleSet ℚ :=
  { dim := 1, glob := { values := some [[7], [8], [9]], volumes := some [1/2, 1/4, 1/4] },
    loc := { values := some [[[7], [8]], [[9]]], volumes := some [[1/2, 1/4], [1/4]] } }

/-- C123, negation (and hypotheses of `C123_random`): another number of samples is drawn into a set with volumes;
`random_sample_set` raises, the set is left with the new local and the old global values. -/
theorem C123_negation_random :
    (fun r : Except Err Unit × SamplerState ℚ =>
      (r.1.toOption.isSome, r.2.heap.map fun s => (s.glob.values, s.loc.values, s.domain)))
      (SamplerState.execA smpModel brkNone (.random (smpStats 1) (.str "uniform") (.ref 0) 2 true)
        { heap := [caughtSet] }) =
      (false, [(some [[7], [8], [9]], some [[[1]], [[2]]], some [(0, 1)])]) ∧
    ¬ Spec.UpToDate ({ caughtSet with loc := { caughtSet.loc with values := some [[[1]], [[2]]] } } : SampleSet ℚ) := by
  refine ⟨by decide +kernel, fun h => ?_⟩
  rcases h _ rfl with h | ⟨c, h, h'⟩
  · cases h
  · cases h
    revert h'
    decide +kernel

/-- A model that returns one Jacobian on each process. -/
def jacModel : SamplerModel ℚ :=
  { smpModel with jac := true, model := fun _ rows => .tuple2 (rows.map fun r => [r.sum * 2]) [[1]] [[[1]]] }

/-- C123, negation: a model that returns too few Jacobians makes the call raise; the Jacobians stay in the set, whose
number of samples cannot be determined from then on (it was 3 before). With `globalize=False` the global values are
gone. -/
theorem C123_negation_jacobians :
    let m : SamplerState ℚ := SamplerState.runCaught jacModel {} (caughtCalls.take 1)
    let left := fun r : Except Err Unit × SamplerState ℚ =>
      (r.1.toOption.isSome, r.2.heap.map fun s => (s.glob.values, s.glob.jacobians, (s.checkNum 2).toOption))
    (m.heap.map fun s => (s.checkNum 2).toOption) = [some 3] ∧
    left (m.execA jacModel brkNone (.compute none true)) =
      (false, [(some [[1], [2], [2]], some [[[1]], [[1]]], none)]) ∧
    left (m.execA jacModel brkNone (.compute none false)) = (false, [(none, none, none)]) := by
  decide +kernel

/-- Hypotheses of `C123_lhs`: a set whose domain has two intervals although its dimension is one (assigned with
`_domain`); the hypercube has one column too many. -/
example : (SamplerState.execA smpModel brkNone (.lhs (.ref 0) [[1/2, 1/2]] true)
    { heap := [{ caughtSet with domain := some [(0, 1), (0, 1)] }] }).1.toOption.isSome = false := by
  decide +kernel

/-- Hypotheses of `C123_nothing`. -/
example : (SamplerState.execA smpModel brkNone (.random (smpStats 1) .other (.dim 1) 3 true)
    ({} : SamplerState ℚ)).1.toOption.isSome = false := by
  decide +kernel

end Ex

end BET
