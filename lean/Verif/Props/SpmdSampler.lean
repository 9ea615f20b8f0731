import Verif.Model.SpmdSampler
import Verif.Props.SamplerCaught
import Verif.Props.SpmdError

/-!
# A sampler on several processes (C125)
-/

set_option autoImplicit false
set_option linter.unusedSectionVars false
set_option linter.unusedSimpArgs false

namespace BET

open Spec Act

namespace Spec

section
variable {K : Type} [Field K]

/-- The local arrays of all sets have parts for each of the `n` processes. -/
def SpreadState (n : Nat) (m : SamplerState K) : Prop := ∀ s ∈ m.heap, SpreadSet n s

/-- A set that the user makes has parts for each of the `n` processes. -/
def SpreadCall (n : Nat) : SamplerCall K → Prop
  | .newSet s => SpreadSet n s
  | _ => True

/-- With all processes in step every call of the program returns. -/
def AllReturn (S : SamplerModel K) : SamplerState K → List (SamplerCall K × Breakdown K) → Prop
  | _, [] => True
  | m, c :: cs => (m.execA S c.2 c.1).1 = .ok () ∧ AllReturn S (m.execA S c.2 c.1).2 cs

end

end Spec

variable {n : Nat}

section
variable {K : Type} [Field K] [LinearOrder K]

theorem range_ofFn (n : Nat) : List.range n = List.ofFn fun i : Fin n => (i : Nat) := by
  apply List.ext_getElem <;> simp

theorem zipIdx_ofFn {α : Type} (v : Fin n → α) :
    (List.ofFn v).zipIdx = List.ofFn fun i => (v i, (i : Nat)) := by
  apply List.ext_getElem <;> simp

theorem spread_setValuesLocal {s t : SampleSet K} (hs : SpreadSet n s) {c : Fin n → List (List K)}
    (h : s.setValuesLocal (List.ofFn c) = .ok t) :
    SpreadSet n t ∧ ∀ r : Fin n, (s.view r).setValuesLocal [c r] = .ok (t.view r) := by
  unfold SampleSet.setValuesLocal at h
  split at h
  · case isTrue hc =>
    cases h
    obtain ⟨⟨h1, h2, h3, h4, h5, h6, h7, h8, h9, h10, h11, h12, h13, h14⟩, hi⟩ := hs
    refine ⟨⟨⟨spread_some c, h2, h3, h4, h5, h6, h7, h8, h9, h10, h11, h12, h13, h14⟩, hi⟩, ?_⟩
    intro r
    have hr : SampleSet.colsOk s.dim (some (c r)) = true := by
      rw [List.all_eq_true] at hc
      exact hc _ (by simp)
    have hr' : ([c r].all fun c => SampleSet.colsOk (s.view r).dim (some c)) = true := by
      rw [List.all_cons, List.all_nil, Bool.and_true]
      exact hr
    unfold SampleSet.setValuesLocal
    rw [if_pos hr']
    simp only [SampleSet.view, Arrays.map, oneOf_ofFn]
  · cases h

theorem fits_globalizeIf {s : SampleSet K} (hs : SpreadSet n s) (g : Bool) :
    SpreadSet n (s.globalizeIf g) ∧
    Fits (fun r : Fin n => (s.view r).procGlobalizeIf g) (fun r => .ok ((s.globalizeIf g).view r)) := by
  unfold SampleSet.procGlobalizeIf SampleSet.globalizeIf
  cases g with
  | false => exact ⟨hs, Fits.ret _⟩
  | true =>
    simp only [if_true]
    exact ⟨spread_localToGlobal hs, fits_localToGlobal hs⟩

theorem fits_random {st : Stats K} {rv : RvArg K} {k : Nat} {g : Bool} {s t : SampleSet K}
    (hs : SpreadSet n s) (h : randomSampleSet st n rv (.set s) k g = .ok t) :
    SpreadSet n t ∧
    Fits (fun r : Fin n => (s.view r).procRandom st r n rv k g) (fun r => .ok (t.view r)) := by
  simp only [randomSampleSet, InputObj.toSet, ok_bind, bind_eq_ok, pure_eq_ok] at h
  obtain ⟨specs, h1, chunks, h2, domain, h3, s1, h4, _, h5, num, h6, rfl⟩ := h
  rw [range_ofFn] at h2
  obtain ⟨c, rfl, hc⟩ := mapM_ofFn_ok h2
  obtain ⟨hs1, hv⟩ := spread_setValuesLocal hs h4
  have hs2 : SpreadSet n { s1 with domain := some domain } := hs1
  obtain ⟨hs3, hf⟩ := fits_globalizeIf hs2 g
  refine ⟨hs3, ?_⟩
  unfold SampleSet.procRandom
  refine Fits.except (r := fun _ => specs) (fun _ => h1) ?_
  refine Fits.except (r := c) hc ?_
  refine Fits.except (r := fun _ => domain) (fun _ => h3) ?_
  refine Fits.except (r := fun r => s1.view r) hv ?_
  simp only [SampleSet.checkNumLocalAll, bind_eq_ok, pure_eq_ok] at h5
  obtain ⟨l, h5, -⟩ := h5
  rw [range_ofFn] at h5
  obtain ⟨b, -, hb⟩ := mapM_ofFn_ok h5
  refine Fits.except (r := b) (fun r => ?_) ?_
  · exact (view_checkNumLocal { s1 with domain := some domain } r).trans (hb r)
  refine Fits.bind (fits_checkNum h6) ?_
  refine Fits.bind fits_barrier ?_
  exact hf

theorem fits_lhs {cube : List (List K)} {g : Bool} {s t : SampleSet K}
    (hs : SpreadSet n s) (h : lhsA n cube g s = (.ok (), t)) :
    SpreadSet n t ∧
    Fits (fun r : Fin n => (s.view r).procLhs r n cube g) (fun r => .ok (t.view r)) := by
  unfold lhsA at h
  replace h := bind_ok.1 h
  obtain ⟨_, _, h1, h⟩ := h
  obtain rfl := change_ok.1 h1
  replace h := bind_ok.1 h
  obtain ⟨_, s1, h2, h⟩ := h
  replace h2 := attempt_ok.1 h2
  replace h := bind_ok.1 h
  obtain ⟨_, s2, h3, h⟩ := h
  replace h3 := attempt_ok.1 h3
  obtain rfl := change_ok.1 h
  have e1 : SpreadSet n s1 ∧ ∀ r : Fin n,
      SampleSet.updateBounds { s.view r with domain := some (domainOrUnit s) } cube.length =
        .ok (s1.view r) := by
    simp only [SampleSet.updateBounds, orErr_some, ok_bind, pure_eq_ok] at h2
    subst h2
    exact ⟨hs, fun r => rfl⟩
  rw [arraySplit_ofFn] at h3
  obtain ⟨hs2, hv⟩ := spread_setValuesLocal e1.1 h3
  obtain ⟨hs3, hf⟩ := fits_globalizeIf hs2 g
  refine ⟨hs3, ?_⟩
  unfold SampleSet.procLhs
  refine Fits.except (r := fun r => s1.view r) e1.2 ?_
  refine Fits.except (r := fun r => s2.view r) hv ?_
  refine Fits.bind fits_barrier ?_
  exact hf

theorem fits_regular {nums : GridNums} {s t : SampleSet K}
    (hs : SpreadSet n s) (h : regularSampleSet n (.set s) nums = .ok t) :
    SpreadSet n t ∧
    Fits (fun r : Fin n => (s.view r).procRegular r n nums) (fun r => .ok (t.view r)) := by
  simp only [regularSampleSet, InputObj.toSet, ok_bind, bind_eq_ok] at h
  obtain ⟨_, h1, v, h2, s1, h3, h4⟩ := h
  have e1 : SpreadSet n s1 ∧ ∀ r : Fin n, SampleSet.setValues { s.view r with domain := some (domainOrUnit s) } v =
      .ok (s1.view r) := by
    unfold SampleSet.setValues at h3 ⊢
    split at h3
    · case isTrue hc =>
      cases h3
      exact ⟨hs, fun r => if_pos hc⟩
    · cases h3
  refine ⟨spread_globalToLocal e1.1 h4, ?_⟩
  unfold SampleSet.procRegular
  refine fits_raiseIf h1 ?_
  refine Fits.except (r := fun _ => v) (fun _ => h2) ?_
  refine Fits.except (r := fun r => s1.view r) e1.2 ?_
  exact fits_globalToLocal h4

theorem spread_withErrors {flag : Bool} {p : Fin n → Option (List (List K))} {s t : SampleSet K}
    (hs : SpreadSet n s) (h : withErrors flag (List.ofFn p) s = .ok t) :
    SpreadSet n t ∧ ∀ r : Fin n, withErrors flag [p r] (s.view r) = .ok (t.view r) := by
  cases flag with
  | false => cases h; exact ⟨hs, fun _ => rfl⟩
  | true =>
    simp only [withErrors, if_true, bind_eq_ok, pure_eq_ok] at h
    obtain ⟨l, h1, rfl⟩ := h
    obtain ⟨c, rfl, hc⟩ := mapM_ofFn_ok h1
    obtain ⟨⟨a1, a2, a3, a4, a5, a6, a7, a8, a9, a10, a11, a12, a13, a14⟩, hi⟩ := hs
    refine ⟨⟨⟨a1, a2, a3, a4, a5, spread_some c, a7, a8, a9, a10, a11, a12, a13, a14⟩, hi⟩, ?_⟩
    intro r
    simp only [withErrors, if_true, List.mapM_cons, List.mapM_nil, hc r, ok_bind, SampleSet.view,
      Arrays.map, oneOf_ofFn]
    rfl

theorem spread_withJacobians {flag : Bool} {p : Fin n → Option (List (List (List K)))}
    {s t : SampleSet K} (hs : SpreadSet n s) (h : withJacobians flag (List.ofFn p) s = .ok t) :
    SpreadSet n t ∧ ∀ r : Fin n, withJacobians flag [p r] (s.view r) = .ok (t.view r) := by
  cases flag with
  | false => cases h; exact ⟨hs, fun _ => rfl⟩
  | true =>
    simp only [withJacobians, if_true, bind_eq_ok, pure_eq_ok] at h
    obtain ⟨l, h1, rfl⟩ := h
    obtain ⟨c, rfl, hc⟩ := mapM_ofFn_ok h1
    obtain ⟨⟨a1, a2, a3, a4, a5, a6, a7, a8, a9, a10, a11, a12, a13, a14⟩, hi⟩ := hs
    refine ⟨⟨⟨a1, a2, a3, a4, spread_some c, a6, a7, a8, a9, a10, a11, a12, a13, a14⟩, hi⟩, ?_⟩
    intro r
    simp only [withJacobians, if_true, List.mapM_cons, List.mapM_nil, hc r, ok_bind, SampleSet.view,
      Arrays.map, oneOf_ofFn]
    rfl

theorem spread_new (d : Nat) : SpreadSet n ({ dim := d } : SampleSet K) := by
  simp [SpreadSet, Arrays.All, Spread]

theorem fits_compute {S : SamplerModel K} (hS : S.size = n) {B : Breakdown K} {g : Bool}
    {s t out : SampleSet K} (hs : SpreadSet n s) (h : computeSetA S B g s = (.ok out, t)) :
    SpreadSet n t ∧ SpreadSet n out ∧
    Fits (fun r : Fin n => (s.view r).procCompute S B r g) (fun r => .ok (t.view r, out.view r)) := by
  obtain ⟨s1, vals, outs, o1, q, o2, s2, d, h1, h2, h3, h4, h5, h6, h7, rfl, rfl, h8⟩ :=
    computeSetA_ok.1 h
  subst hS
  have hs1 := spread_localized hs h1
  obtain ⟨v, rfl, hv⟩ := localArr hs1.1.1 (e := .attributeError) ((orErr_eq_ok _ _ _).2 h2)
  rw [zipIdx_ofFn] at h3
  obtain ⟨o, rfl, ho⟩ := mapM_ofFn_ok h3
  rw [List.map_ofFn] at h4 h6 h7
  obtain ⟨hso1, hv1⟩ := spread_setValuesLocal (spread_new _) h4
  have hso1' : SpreadSet S.size { o1 with referenceValue := q } := hso1
  obtain ⟨hso2, hv2⟩ := spread_withErrors hso1' h6
  obtain ⟨hs2, hv3⟩ := spread_withJacobians hs1 h7
  obtain ⟨ht, hf1⟩ := fits_globalizeIf hs2 g
  obtain ⟨hout, hf2⟩ := fits_ifGlobal hso2 g
  refine ⟨ht, hout, ?_⟩
  unfold SampleSet.procCompute
  refine Fits.bind (fits_localized h1) ?_
  refine Fits.except (r := fun r => [v r]) hv ?_
  simp only [List.flatten_cons, List.flatten_nil, List.append_nil]
  refine Fits.except (r := o) ho ?_
  refine Fits.except (r := fun r => o1.view r) hv1 ?_
  refine Fits.except (r := fun _ => q) (fun _ => h5) ?_
  refine Fits.except (r := fun r => o2.view r) hv2 ?_
  refine Fits.except (r := fun r => s2.view r) hv3 ?_
  refine Fits.bind hf1 ?_
  refine Fits.bind hf2 ?_
  refine Fits.bind fits_barrier ?_
  refine Fits.bind (fits_discNew h8).2 ?_
  refine Fits.bind fits_barrier ?_
  refine Fits.bind fits_barrier ?_
  exact Fits.ret _

/-! ### The sampler -/

theorem spread_heap {m : SamplerState K} (hm : SpreadState n m) {a : Nat} {s : SampleSet K}
    (h : m.heap[a]? = some s) : SpreadSet n s := hm s (List.mem_of_getElem? h)

theorem view_heap {m : SamplerState K} {a : Nat} {s : SampleSet K} (h : m.heap[a]? = some s) (r : Nat) :
    (m.view r).heap[a]? = some (s.view r) := by
  simp [SamplerState.view, h]

theorem spread_set {m : SamplerState K} (hm : SpreadState n m) {s : SampleSet K} (hs : SpreadSet n s)
    (a : Nat) : ∀ t ∈ m.heap.set a s, SpreadSet n t := by
  intro t ht
  rcases List.mem_or_eq_of_mem_set ht with h | rfl
  · exact hm t h
  · exact hs

theorem spread_append {l : List (SampleSet K)} (hl : ∀ t ∈ l, SpreadSet n t) {s : SampleSet K}
    (hs : SpreadSet n s) : ∀ t ∈ l ++ [s], SpreadSet n t := by
  intro t ht
  rcases List.mem_append.1 ht with h | h
  · exact hl t h
  · obtain rfl := List.mem_singleton.1 h
    exact hs

theorem spread_put {m : SamplerState K} (hm : SpreadState n m) {s : SampleSet K} (hs : SpreadSet n s)
    (obj : ObjRef K) : SpreadState n (m.put s obj) := by
  cases obj with
  | ref a => exact spread_set hm hs a
  | dim d => exact spread_append hm hs
  | domain d => exact spread_append hm hs
  | other => exact spread_append hm hs

theorem view_put (m : SamplerState K) (s : SampleSet K) (obj : ObjRef K) (r : Nat) :
    (m.view r).put (s.view r) obj = (m.put s obj).view r := by
  cases obj <;> simp [SamplerState.view, SamplerState.put, List.map_set]

/-- The set that is sampled into, with parts for all processes. -/
theorem view_resolve {m : SamplerState K} (hm : SpreadState n m) {obj : ObjRef K} {o : InputObj K}
    {e : Err} {s : SampleSet K} (h : m.resolve obj = .ok o) (hs : o.toSet e = .ok s) :
    SpreadSet n s ∧ ∃ v : Nat → InputObj K, (∀ r, (m.view r).resolve obj = .ok (v r)) ∧
      ∀ r, (v r).toSet e = .ok (s.view r) := by
  cases obj with
  | ref a =>
    simp only [SamplerState.resolve, bind_eq_ok, pure_eq_ok] at h
    obtain ⟨s', h1, rfl⟩ := h
    obtain rfl := Except.ok.inj hs
    replace h1 := (getIdx_eq_ok _ _ _).1 h1
    refine ⟨spread_heap hm h1, fun r => .set (s'.view r), fun r => ?_, fun r => rfl⟩
    simp only [SamplerState.resolve, (getIdx_eq_ok _ _ _).2 (view_heap h1 r), ok_bind]
    rfl
  | dim d =>
    cases h; cases hs
    exact ⟨spread_new d, fun _ => .dim d, fun _ => rfl, fun _ => rfl⟩
  | domain d =>
    cases h; cases hs
    exact ⟨spread_new d.length, fun _ => .domain d, fun _ => rfl, fun _ => rfl⟩
  | other => cases h; cases hs

theorem fits_globalizeAt {m : SamplerState K} (hm : SpreadState n m) (a : Nat) :
    SpreadState n (m.globalizeAt a) ∧
    Fits (fun r : Fin n => (m.view r).procGlobalizeAt a) (fun r => .ok ((m.globalizeAt a).view r)) := by
  unfold SamplerState.procGlobalizeAt SamplerState.globalizeAt
  cases h : m.heap[a]? with
  | none =>
    have h' : ∀ r : Nat, (m.view r).heap[a]? = none := fun r => by simp [SamplerState.view, h]
    have e : m.heap.modify a SampleSet.localToGlobal = m.heap := by
      apply List.ext_getElem?
      intro k
      rw [List.getElem?_modify]
      split
      · case isTrue hk => subst hk; simp [h]
      · simp
    simp only [h', e]
    exact ⟨hm, Fits.ret _⟩
  | some s =>
    have h' : ∀ r : Nat, (m.view r).heap[a]? = some (s.view r) := fun r => view_heap h r
    have e : m.heap.modify a SampleSet.localToGlobal = m.heap.set a s.localToGlobal := by
      apply List.ext_getElem?
      intro k
      rw [List.getElem?_modify, List.getElem?_set]
      split
      · case isTrue hk =>
        subst hk
        obtain ⟨h1, rfl⟩ := List.getElem?_eq_some_iff.1 h
        simp [h1]
      · simp
    simp only [h', e]
    have hs := spread_heap hm h
    refine ⟨spread_set hm (spread_localToGlobal hs) a, ?_⟩
    refine Fits.bind (fits_localToGlobal hs) ?_
    have : ∀ r : Nat, (m.view r).heap.set a (s.localToGlobal.view r) =
        (m.heap.set a s.localToGlobal).map (SampleSet.view r) := fun r => by
      simp [SamplerState.view, List.map_set]
    simp only [this]
    exact Fits.ret _

theorem fits_globalizeCurrent {m : SamplerState K} (hm : SpreadState n m) :
    SpreadState n m.globalizeCurrent ∧
    Fits (fun r : Fin n => (m.view r).procGlobalizeCurrent) (fun r => .ok (m.globalizeCurrent.view r)) := by
  have e : ∀ r : Nat, (m.view r).current = m.current := fun _ => rfl
  unfold SamplerState.procGlobalizeCurrent SamplerState.globalizeCurrent
  simp only [e]
  cases m.current with
  | none => exact ⟨hm, Fits.ret _⟩
  | some a => exact fits_globalizeAt hm a

theorem fits_globalizeDisc {m : SamplerState K} (hm : SpreadState n m) :
    SpreadState n m.globalizeDisc ∧
    Fits (fun r : Fin n => (m.view r).procGlobalizeDisc) (fun r => .ok (m.globalizeDisc.view r)) := by
  have e : ∀ r : Nat, (m.view r).discs = m.discs := fun _ => rfl
  unfold SamplerState.procGlobalizeDisc SamplerState.globalizeDisc
  simp only [e]
  cases m.discs.getLast? with
  | none => exact ⟨hm, Fits.ret _⟩
  | some d =>
    obtain ⟨h1, h2⟩ := fits_globalizeAt hm d.1
    obtain ⟨h3, h4⟩ := fits_globalizeAt h1 d.2
    exact ⟨h3, Fits.bind h2 h4⟩

theorem fits_exec {S : SamplerModel K} (hS : S.size = n) {B : Breakdown K} {c : SamplerCall K}
    {m m' : SamplerState K} (hm : SpreadState n m) (hc : SpreadCall n c)
    (h : m.execA S B c = (.ok (), m')) :
    SpreadState n m' ∧
    Fits (fun r : Fin n => (m.view r).procExec S B r c) (fun r => .ok (m'.view r)) := by
  subst hS
  cases c with
  | newSet s =>
    cases h
    refine ⟨spread_append hm hc, ?_⟩
    have : ∀ r : Nat, ({ m.view r with heap := (m.view r).heap ++ [s.view r] } : SamplerState K) =
        SamplerState.view r { m with heap := m.heap ++ [s] } := fun r => by
      simp [SamplerState.view]
    simp only [SamplerState.procExec, this]
    exact Fits.ret _
  | random st rv obj k g =>
    obtain ⟨s, t, o, h1, h2, h3, rfl⟩ := into_ok h
    obtain ⟨hs, v, hv1, hv2⟩ := view_resolve hm h1 h2
    obtain ⟨ht, hf⟩ := fits_random hs (randomA_ok h3 (.set s) _ rfl rfl)
    refine ⟨spread_put hm ht obj, ?_⟩
    refine Fits.except (r := fun r => v r) (fun r => hv1 r) ?_
    refine Fits.except (r := fun r => s.view r) (fun r => hv2 r) ?_
    refine Fits.bind hf ?_
    simp only [view_put]
    exact Fits.ret _
  | lhs obj cube g =>
    obtain ⟨s, t, o, h1, h2, h3, rfl⟩ := into_ok h
    obtain ⟨hs, v, hv1, hv2⟩ := view_resolve hm h1 h2
    obtain ⟨ht, hf⟩ := fits_lhs hs h3
    refine ⟨spread_put hm ht obj, ?_⟩
    refine Fits.except (r := fun r => v r) (fun r => hv1 r) ?_
    refine Fits.except (r := fun r => s.view r) (fun r => hv2 r) ?_
    refine Fits.bind hf ?_
    simp only [view_put]
    exact Fits.ret _
  | regular obj nums =>
    have h0 := attempt_ok (f := fun m : SamplerState K => m.exec S (.regular obj nums)).1 h
    simp only [SamplerState.exec, bind_eq_ok, pure_eq_ok] at h0
    obtain ⟨o, h1, t, h2, rfl⟩ := h0
    obtain ⟨s, h3, h4⟩ : ∃ s, o.toSet .badObject = .ok s ∧
        regularSampleSet S.size (.set s) nums = .ok t := by
      unfold regularSampleSet at h2
      rw [bind_eq_ok] at h2
      obtain ⟨s, h3, h4⟩ := h2
      exact ⟨s, h3, h4⟩
    obtain ⟨hs, v, hv1, hv2⟩ := view_resolve hm h1 h3
    obtain ⟨ht, hf⟩ := fits_regular hs h4
    refine ⟨spread_put hm ht .other, ?_⟩
    refine Fits.except (r := fun r => v r) (fun r => hv1 r) ?_
    refine Fits.except (r := fun r => s.view r) (fun r => hv2 r) ?_
    refine Fits.bind hf ?_
    simp only [view_put]
    exact Fits.ret _
  | compute input g =>
    obtain ⟨a, s, t, out, h1, h2, h3, rfl⟩ := computeA_ok.1 h
    obtain ⟨ht, hout, hf⟩ := fits_compute rfl (spread_heap hm h2) h3
    refine ⟨spread_append (spread_set hm ht a) hout, ?_⟩
    refine Fits.except (r := fun _ => a) (fun r => (orErr_eq_ok _ _ _).2 h1) ?_
    refine Fits.except (r := fun r => s.view r) (fun r => (getIdx_eq_ok _ _ _).2 (view_heap h2 r)) ?_
    refine Fits.bind hf ?_
    have : ∀ r : Nat, (⟨(m.view r).heap.set a (t.view r) ++ [out.view r], some a,
        (m.view r).discs ++ [(a, (m.view r).heap.length)]⟩ : SamplerState K) =
        SamplerState.view r ⟨m.heap.set a t ++ [out], some a, m.discs ++ [(a, m.heap.length)]⟩ :=
      fun r => by simp [SamplerState.view, List.map_set]
    simp only [this]
    exact Fits.ret _
  | localToGlobal =>
    cases h
    obtain ⟨h1, h2⟩ := fits_globalizeCurrent hm
    obtain ⟨h3, h4⟩ := fits_globalizeDisc h1
    exact ⟨h3, Fits.bind h2 h4⟩

theorem fits_program {S : SamplerModel K} (hS : S.size = n) {cs : List (SamplerCall K × Breakdown K)}
    {m : SamplerState K} (hm : SpreadState n m) (hc : ∀ c ∈ cs, SpreadCall n c.1)
    (h : AllReturn S m cs) :
    SpreadState n (m.runCaught S cs) ∧
    Fits (fun r : Fin n => (m.view r).procRun S r cs) (fun r => .ok ((m.runCaught S cs).view r)) := by
  induction cs generalizing m with
  | nil => exact ⟨hm, Fits.ret _⟩
  | cons c cs ih =>
    obtain ⟨h1, h2⟩ := h
    obtain ⟨h3, h4⟩ := fits_exec (B := c.2) (c := c.1) (m' := (m.execA S c.2 c.1).2) hS hm (hc c (by simp))
      (Prod.ext h1 rfl)
    obtain ⟨h5, h6⟩ := ih h3 (fun b hb => hc b (by simp [hb])) h2
    refine ⟨h5, ?_⟩
    exact Fits.bind h4 h6

/-- The model raises on process `j` while it returns on process `i`. -/
theorem apart_compute {T : Type} {S : SamplerModel K} (hS : S.size = n) {B B' : Breakdown K} {g : Bool}
    {s t out : SampleSet K} (hs : SpreadSet n s) (h : computeSetA S B' g s = (.ok out, t)) {i j : Fin n}
    (hi : ∀ x, B.fails i x = B'.fails i x) (href : B.ref = B'.ref) {e : Err}
    (hj : ∀ x, B.fails j x = some e) {f : Fin n → SampleSet K × SampleSet K → Proc (Msg K) T} :
    ComeApart j i fun r => (s.view r).procCompute S B r g >>= f r := by
  obtain ⟨s1, vals, outs, o1, q, o2, s2, d, h1, h2, h3, h4, h5, h6, h7, rfl, rfl, h8⟩ :=
    computeSetA_ok.1 h
  subst hS
  have hs1 := spread_localized hs h1
  obtain ⟨v, rfl, hv⟩ := localArr hs1.1.1 (e := .attributeError) ((orErr_eq_ok _ _ _).2 h2)
  rw [zipIdx_ofFn] at h3
  obtain ⟨o, rfl, ho⟩ := mapM_ofFn_ok h3
  rw [List.map_ofFn] at h4 h6 h7
  obtain ⟨hso1, hv1⟩ := spread_setValuesLocal (spread_new _) h4
  have hso1' : SpreadSet S.size { o1 with referenceValue := q } := hso1
  obtain ⟨hso2, hv2⟩ := spread_withErrors hso1' h6
  obtain ⟨hs2, hv3⟩ := spread_withJacobians hs1 h7
  have hval : (s2.view i).loc.values = some [v i] := by
    have : (s2.view i).loc.values = (s1.view i).loc.values := by
      have := hv3 i
      unfold withJacobians at this
      split at this
      · rw [bind_eq_ok] at this
        obtain ⟨j, -, this⟩ := this
        rw [← Except.ok.inj this]
      · rw [← Except.ok.inj this]
    rw [this]
    exact (orErr_eq_ok _ _ _).1 (hv i)
  simp only [SampleSet.procCompute, bind_assoc]
  refine Fits.apart (fits_localized h1) ?_
  refine Fits.apart (r := fun r => [v r]) (Fits.of_except hv) ?_
  simp only [List.flatten_cons, List.flatten_nil, List.append_nil]
  refine .left (r0 := .error e) ?_ ?_
  · simp only [modelReply, hj]
    rfl
  · have e1 : modelReply S B i (v i) = .ok (o i) := by
      rw [← ho i]
      simp only [modelReply, hi]
    have e2 : (SampleSet.view i s1).referenceValue = s1.referenceValue := rfl
    rw [e1]
    show Proc.result (Proc.ofExcept (({ dim := S.outDim } : SampleSet K).setValuesLocal [(o i).1]) >>= _) = none
    rw [show ({ dim := S.outDim } : SampleSet K).setValuesLocal [(o i).1] = .ok (o1.view i) from hv1 i]
    show Proc.result (Proc.ofExcept (mapReference B.ref S.outDim s1.referenceValue) >>= _) = none
    rw [href, h5]
    show Proc.result (Proc.ofExcept (withErrors S.ee [(o i).2.1]
      (SampleSet.view i { o1 with referenceValue := q })) >>= _) = none
    rw [show withErrors S.ee [(o i).2.1] (SampleSet.view i { o1 with referenceValue := q }) =
      .ok (o2.view i) from hv2 i]
    show Proc.result (Proc.ofExcept (withJacobians S.jac [(o i).2.2] (SampleSet.view i s1)) >>= _) = none
    rw [show withJacobians S.jac [(o i).2.2] (SampleSet.view i s1) = .ok (s2.view i) from hv3 i]
    show Proc.result ((s2.view i).procGlobalizeIf g >>= _) = none
    cases g with
    | false => rfl
    | true =>
      simp only [SampleSet.procGlobalizeIf, if_true, SampleSet.procLocalToGlobal, hval]
      rfl

theorem procRun_append (S : SamplerModel K) (r : Nat) (m : SamplerState K)
    (cs ds : List (SamplerCall K × Breakdown K)) :
    m.procRun S r (cs ++ ds) = m.procRun S r cs >>= fun m => m.procRun S r ds := by
  simp [SamplerState.procRun]

/-! ### C125 -/

/-- **C125.** A program of calls on a sampler (random samples, Latin hypercubes, grids, evaluations of the
model, gathering) each of which returns when the processes go in step: processes that each run the program
at their own speed all come to its end, under every schedule, and each has its parts of the sets (and the
same global arrays) that the processes in step have. -/
theorem C125_program {S : SamplerModel K} (hpos : 0 < S.size) {cs : List (SamplerCall K × Breakdown K)}
    {m : SamplerState K} (hm : SpreadState S.size m) (hc : ∀ c ∈ cs, SpreadCall S.size c.1)
    (h : AllReturn S m cs) :
    SpreadState S.size (m.runCaught S cs) ∧
    RunsTo (fun r : Fin S.size => (m.view r).procRun S r cs)
      (fun r => .ok ((m.runCaught S cs).view r)) :=
  let h0 := fits_program rfl hm hc h; ⟨h0.1, h0.2.runs hpos⟩

/-- **C125 (pairs).** For a model that works row by row, and careful calls: under every schedule every
process comes to its end, and on each of them every discretization that was returned pairs each input with
its output. -/
theorem C125_pairs {S : SamplerModel K} (hpos : 0 < S.size) {f e : List K → List K}
    {j : List K → List (List K)} (hm : RowWise S.model S.ee S.jac f e j)
    (hf : ∀ row, (f row).length = S.outDim) {cs : List (SamplerCall K × Breakdown K)}
    (hc : ∀ c ∈ cs, SpreadCall S.size c.1) (hcare : CarefulRun S {} cs) (h : AllReturn S {} cs) :
    ∃ ms : Fin S.size → SamplerState K,
      (∀ r, (ms r).discs = (SamplerState.runCaught S {} cs).discs ∧
        ∀ d ∈ (ms r).discs, PairedBy f (ms r) d) ∧
      RunsTo (fun r : Fin S.size => SamplerState.procRun S r {} cs) (fun r => .ok (ms r)) := by
  have h1 : SpreadState S.size ({} : SamplerState K) := by simp [SpreadState]
  refine ⟨fun r => (SamplerState.runCaught S {} cs).view r, fun r => ⟨rfl, ?_⟩,
    (C125_program hpos h1 hc h).2⟩
  intro d hd
  obtain ⟨i, o, v, e1, e2, e3, e4⟩ := C123_pairs hpos hm hf hcare d hd
  exact ⟨i.view r, o.view r, v, view_heap e1 r, view_heap e2 r, e3, e4⟩

/-- **C125, negation.** After calls that return, the model raises on process `j` in an evaluation that
would return otherwise (`B'`), and does not raise on process `i`: process `i` never comes to the end of the
program, whatever the schedule, with or without `globalize`. (With the processes in step the call raises,
C123.) -/
theorem C125_negation_model {S : SamplerModel K} {pre post : List (SamplerCall K × Breakdown K)}
    {m : SamplerState K} (hm : SpreadState S.size m) (hc : ∀ c ∈ pre, SpreadCall S.size c.1)
    (h : AllReturn S m pre) {B B' : Breakdown K} {input : Option Nat} {g : Bool}
    (hok : ((m.runCaught S pre).execA S B' (.compute input g)).1 = .ok ()) {i j : Fin S.size}
    (hi : ∀ x, B.fails i x = B'.fails i x) (href : B.ref = B'.ref) {e : Err}
    (hj : ∀ x, B.fails j x = some e) (sched : List (Fin S.size)) :
    (((Sys.start fun r : Fin S.size =>
      (m.view r).procRun S r (pre ++ (.compute input g, B) :: post)).run sched) i).1.result = none := by
  refine C114_negation_apart (i := j) ?_ sched
  obtain ⟨h1, h2⟩ := fits_program rfl hm hc h
  obtain ⟨a, s, t, out, e1, e2, e3, -⟩ := computeA_ok.1
    (show SamplerState.computeA S B' input g (m.runCaught S pre) = (.ok (), _) from Prod.ext hok rfl)
  simp only [procRun_append]
  refine Fits.apart h2 ?_
  simp only [SamplerState.procRun, List.foldlM_cons, SamplerState.procExec, bind_assoc]
  refine Fits.apart (r := fun _ => a) (Fits.of_except fun r => (orErr_eq_ok _ _ _).2 e1) ?_
  refine Fits.apart (r := fun r => s.view r)
    (Fits.of_except fun r => (getIdx_eq_ok _ _ _).2 (view_heap e2 r)) ?_
  exact apart_compute rfl (spread_heap h1 e2) e3 hi href hj

end

namespace Ex

/-- The calls of `caughtCalls` that return: random samples, the model, other samples, the model again,
gathering; a Latin hypercube and a grid. -/
def spmdCalls : List (SamplerCall ℚ × Breakdown ℚ) :=
  [(.random (smpStats 1) (.str "uniform") (.dim 1) 3 true, brkNone), (.compute none true, brkNone),
   (.random (smpStats 5) (.str "uniform") (.dim 1) 2 false, brkNone), (.compute none false, brkNone),
   (.localToGlobal, brkNone), (.lhs (.domain [(2, 6)]) [[3 / 4], [1 / 4]] true, brkNone),
   (.compute none true, brkNone), (.regular (.domain [(0, 3)]) (.scalar 2), brkNone),
   (.compute none true, brkNone)]

theorem allReturn_of (S : SamplerModel ℚ) (m : SamplerState ℚ) (cs : List (SamplerCall ℚ × Breakdown ℚ))
    (h : ∀ k < cs.length, (((m.runCaught S (cs.take k)).execA S (cs[k]?.getD (.localToGlobal, brkNone)).2
      (cs[k]?.getD (.localToGlobal, brkNone)).1).1.toOption.isSome = true)) : Spec.AllReturn S m cs := by
  induction cs generalizing m with
  | nil => trivial
  | cons c cs ih =>
    refine ⟨?_, ih _ fun k hk => ?_⟩
    · have := h 0 (by simp)
      simp only [List.take_zero, List.getElem?_cons_zero, Option.getD_some] at this
      generalize hx : ((m.runCaught S []).execA S c.2 c.1).1 = x at this
      have hx' : (m.execA S c.2 c.1).1 = x := hx
      rw [hx']
      cases x with
      | ok u => rfl
      | error e => cases this
    · have := h (k + 1) (by simpa using hk)
      simpa [SamplerState.runCaught] using this

/-- Hypotheses of `C125_program`: two processes, all calls return, four discretizations
are made. -/
theorem spmdCalls_return : Spec.AllReturn smpModel {} spmdCalls := by
  apply allReturn_of
  decide +kernel

example : (fun m : SamplerState ℚ => (m.discs, m.heap.map fun s => s.glob.values))
    (SamplerState.runCaught smpModel {} spmdCalls) =
    ([(0, 1), (2, 3), (4, 5), (6, 7)],
      [some [[1], [2], [2]], some [[2], [4], [4]], some [[5], [6]], some [[10], [12]],
       some [[5], [3]], some [[10], [6]], some [[3 / 4], [9 / 4]], some [[3 / 2], [9 / 2]]]) := by
  decide +kernel

example : ∀ c ∈ spmdCalls, Spec.SpreadCall smpModel.size c.1 := by
  simp [spmdCalls, Spec.SpreadCall]

/-- Hypotheses of `C125_pairs`: the calls that gather what they compute. -/
example : Spec.AllReturn smpModel {} (spmdCalls.take 2 ++ spmdCalls.drop 5) ∧
    Spec.CarefulRun smpModel {} (spmdCalls.take 2 ++ spmdCalls.drop 5) ∧
    ∀ c ∈ spmdCalls.take 2 ++ spmdCalls.drop 5, Spec.SpreadCall smpModel.size c.1 := by
  refine ⟨?_, ?_, ?_⟩
  · apply allReturn_of
    decide +kernel
  · simp [spmdCalls, Spec.CarefulRun, Spec.Careful]
  · simp [spmdCalls, Spec.SpreadCall]

/-- Hypotheses of `C125_negation_model`: the model raises on the second process. -/
example (sched : List (Fin smpModel.size)) (g : Bool) :
    (((Sys.start fun r : Fin smpModel.size => SamplerState.procRun smpModel r {}
      (spmdCalls.take 1 ++ [(.compute none g, brkSecond)])).run sched) ⟨0, by decide⟩).1.result = none := by
  refine C125_negation_model (pre := spmdCalls.take 1) (post := []) (B := brkSecond) (B' := brkNone)
    (j := ⟨1, by decide⟩) (e := .valueError) (m := {})
    (by simp [Spec.SpreadState]) (by simp [spmdCalls, Spec.SpreadCall]) ?_ ?_ (fun _ => rfl) rfl
    (fun _ => rfl) sched
  · exact ⟨spmdCalls_return.1, trivial⟩
  · have h : (((SamplerState.runCaught smpModel {} (spmdCalls.take 1)).execA smpModel brkNone
        (.compute none g)).1.toOption.isSome = true) := by
      cases g <;> decide +kernel
    generalize ((SamplerState.runCaught smpModel {} (spmdCalls.take 1)).execA smpModel brkNone
        (.compute none g)).1 = x at h
    cases x with
    | ok u => rfl
    | error e => cases h

end Ex

end BET
