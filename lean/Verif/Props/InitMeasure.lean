import Verif.Model.InitMeasure
import Verif.Props.SamplerCaught
import Verif.Props.Pdf

/-!
# The initial measure of sampled sets (C127)
-/

set_option autoImplicit false
set_option linter.unusedSectionVars false
set_option linter.unusedSimpArgs false

namespace BET

open Spec Act

section
variable {K : Type} [Field K]

/-! ## Specification -/

namespace Spec

/-- The distributions that a call of `random_sample_set` with the first argument `rv` stands for, for a set of
dimension `dim` that had the domain `D` (`"r"` and `"random"` are other names of `"uniform"`). -/
def StandsFor (dim : Nat) (rv : RvArg K) (specs : List (RvSpec K)) : Prop :=
  ∃ D, Distributions dim D rv.long specs

/-- The domain, if there is one, has an interval for each direction (`set_domain` refuses others). -/
def BoxOk (s : SampleSet K) : Prop := ∀ D, s.domain = some D → D.length = s.dim

/-- What the record of a set says is true, and was brought about by one of the calls `cs`: the samples of every
process are the ones it drew from the recorded distributions, and the domain consists of their ranges; or they are
those of a Latin hypercube or of a regular grid. -/
def Truthful (size : Nat) (cs : List (TrackedCall K)) (t : TrackedSet K) : Prop :=
  match t.init with
  | .none => True
  | .rv specs => ∃ st rv obj n g centred chunks dom, TrackedCall.random st rv obj n g centred ∈ cs ∧
      StandsFor t.set.dim rv specs ∧ specs.length = t.set.dim ∧ Drawn st specs n size chunks ∧
      t.set.loc.values = some chunks ∧ t.set.domain = some dom ∧
      List.Forall₂ (fun sp ab => st.interval sp = .ok ab) specs dom
  | .lhs criterion => ∃ obj cube g D chunks, (TrackedCall.lhs obj criterion cube g ∈ cs ∨ criterion = "center" ∧
      ∃ st n, TrackedCall.random st (.str "lhs") obj n g cube ∈ cs) ∧
      t.set.domain = some D ∧ t.set.loc.values = some chunks ∧
      chunks.flatten = cube.map fun u => List.zipWith (fun ab x => (ab.2 - ab.1) * x + ab.1) D u
  | .grid nums => ∃ obj D chunks, TrackedCall.regular obj nums ∈ cs ∧
      t.set.domain = some D ∧ t.set.loc.values = some chunks ∧
      ((nums.perDim t.set.dim).length = t.set.dim → chunks.flatten.length = (nums.perDim t.set.dim).prod ∧
        ∀ idx, InShape (nums.perDim t.set.dim) idx →
          chunks.flatten[ravel (nums.perDim t.set.dim) idx]? =
            some (List.zipWith (fun abn k => cellCentre abn.1 abn.2 k)
              (List.zip D (nums.perDim t.set.dim)) idx))

end Spec

/-! ## Records do not change what the calls do -/

/-- `x` does to the set what `y` does. -/
def SimSet {α : Type} (x : Act (TrackedSet K) α) (y : Act (SampleSet K) α) : Prop :=
  ∀ t, (x t).1 = (y t.set).1 ∧ (x t).2.set = (y t.set).2

theorem SimSet.arrays {α : Type} (y : Act (SampleSet K) α) : SimSet (onArrays y) y := fun _ => ⟨rfl, rfl⟩

theorem SimSet.bind {α β : Type} {x : Act (TrackedSet K) α} {y : Act (SampleSet K) α}
    {f : α → Act (TrackedSet K) β} {g : α → Act (SampleSet K) β} (h : SimSet x y)
    (hf : ∀ a, SimSet (f a) (g a)) : SimSet (x >>= f) (y >>= g) := by
  intro t
  obtain ⟨h1, h2⟩ := h t
  show (Act.bind x f t).1 = (Act.bind y g t.set).1 ∧ (Act.bind x f t).2.set = (Act.bind y g t.set).2
  unfold Act.bind
  rcases hx : x t with ⟨e | a, t'⟩ <;> rcases hy : y t.set with ⟨e' | a', s'⟩ <;>
    rw [hx, hy] at h1 <;> rw [hx, hy] at h2 <;> simp only at h1 h2
  · cases h1; exact ⟨rfl, h2⟩
  · cases h1
  · cases h1
  · cases h1
    subst h2
    exact hf a t'

theorem SimSet.skip {α : Type} {f : TrackedSet K → TrackedSet K} (hf : ∀ t, (f t).set = t.set)
    {x : Act (TrackedSet K) α} {y : Act (SampleSet K) α} (h : SimSet x y) :
    SimSet (change f >>= fun _ => x) y := by
  intro t
  have := h (f t)
  rw [hf] at this
  exact this

theorem SimSet.skipLast {f : TrackedSet K → TrackedSet K} (hf : ∀ t, (f t).set = t.set)
    {x : Act (TrackedSet K) Unit} {y : Act (SampleSet K) Unit} (h : SimSet x y) :
    SimSet (x >>= fun _ => change f) y := by
  intro t
  obtain ⟨h1, h2⟩ := h t
  show (Act.bind x (fun _ => change f) t).1 = _ ∧ (Act.bind x (fun _ => change f) t).2.set = _
  unfold Act.bind
  rcases hx : x t with ⟨e | a, t'⟩ <;> rw [hx] at h1 h2 <;> simp only at h1 h2
  · exact ⟨h1, h2⟩
  · exact ⟨h1, (hf t').trans h2⟩

theorem simRandom (st : Stats K) (size : Nat) (rv : RvArg K) (n : Nat) (g : Bool) :
    SimSet (randomT st size rv n g) (randomA st size rv n g) := by
  unfold randomT randomA
  refine (SimSet.arrays _).bind fun specs => ?_
  refine (SimSet.arrays _).bind fun chunks => ?_
  refine (SimSet.arrays _).bind fun domain => ?_
  refine (SimSet.arrays _).bind fun _ => ?_
  refine (SimSet.arrays _).bind fun _ => ?_
  refine SimSet.skip (K := K) (f := fun t => { t with init := .rv specs }) (fun _ => rfl) ?_
  refine (SimSet.arrays _).bind fun _ => ?_
  refine (SimSet.arrays _).bind fun _ => ?_
  exact SimSet.arrays _

theorem simLhs (size : Nat) (c : String) (cube : List (List K)) (g : Bool) :
    SimSet (lhsT size c cube g) (lhsA size cube g) := by
  unfold lhsT
  exact SimSet.skipLast (K := K) (f := fun t => { t with init := .lhs c }) (fun _ => rfl) (SimSet.arrays _)

/-- `x` does to the state what `y` does. -/
def SimState {α : Type} (x : Act (TrackedState K) α) (y : Act (SamplerState K) α) : Prop :=
  ∀ m, (x m).1 = (y m.forget).1 ∧ (x m).2.forget = (y m.forget).2

theorem SimState.bind {α β : Type} {x : Act (TrackedState K) α} {y : Act (SamplerState K) α}
    {f : α → Act (TrackedState K) β} {g : α → Act (SamplerState K) β} (h : SimState x y)
    (hf : ∀ a, SimState (f a) (g a)) : SimState (x >>= f) (y >>= g) := by
  intro t
  obtain ⟨h1, h2⟩ := h t
  show (Act.bind x f t).1 = (Act.bind y g t.forget).1 ∧
    (Act.bind x f t).2.forget = (Act.bind y g t.forget).2
  unfold Act.bind
  rcases hx : x t with ⟨e | a, t'⟩ <;> rcases hy : y t.forget with ⟨e' | a', s'⟩ <;>
    rw [hx, hy] at h1 <;> rw [hx, hy] at h2 <;> simp only at h1 h2
  · cases h1; exact ⟨rfl, h2⟩
  · cases h1
  · cases h1
  · cases h1
    subst h2
    exact hf a t'

theorem simOnSet {α : Type} {x : Act (TrackedSet K) α} {y : Act (SampleSet K) α} (h : SimSet x y) (a : Nat) :
    SimState (TrackedState.onSet a x) (SamplerState.onSet a y) := by
  intro m
  unfold TrackedState.onSet SamplerState.onSet
  have e : m.forget.heap[a]? = m.heap[a]?.map fun t => t.set := by
    simp [TrackedState.forget]
  rw [e]
  cases m.heap[a]? with
  | none => exact ⟨rfl, rfl⟩
  | some t =>
    obtain ⟨h1, h2⟩ := h t
    refine ⟨h1, ?_⟩
    simp only [TrackedState.forget, Option.map_some, List.map_set, h2]

theorem simOnNew {x : Act (TrackedSet K) Unit} {y : Act (SampleSet K) Unit} (h : SimSet x y) (s : SampleSet K) :
    SimState (TrackedState.onNew s x) (SamplerState.onNew s y) := by
  intro m
  obtain ⟨h1, h2⟩ := h { set := s }
  unfold TrackedState.onNew SamplerState.onNew
  rcases hx : x { set := s } with ⟨e | a, t'⟩ <;> rcases hy : y s with ⟨e' | a', s'⟩ <;>
    simp only [hx, hy] at h1 h2
  · cases h1; exact ⟨rfl, rfl⟩
  · cases h1
  · cases h1
  · subst h2
    refine ⟨rfl, ?_⟩
    simp [TrackedState.forget, TrackedState.put, SamplerState.put]

theorem simInto {x : Act (TrackedSet K) Unit} {y : Act (SampleSet K) Unit} (h : SimSet x y) (e : Err)
    (obj : ObjRef K) : SimState (TrackedState.into e x obj) (SamplerState.into e y obj) := by
  cases obj with
  | ref a => exact (simOnSet h a).bind fun _ m => ⟨rfl, rfl⟩
  | dim d => exact simOnNew h _
  | domain d => exact simOnNew h _
  | other => exact fun m => ⟨rfl, rfl⟩

theorem forget_globalizeAt (m : TrackedState K) (a : Nat) :
    (m.globalizeAt a).forget = m.forget.globalizeAt a := by
  simp only [TrackedState.forget, TrackedState.globalizeAt, SamplerState.globalizeAt]
  congr 1
  apply List.ext_getElem?
  intro k
  simp only [List.getElem?_map, List.getElem?_modify]
  split <;> cases m.heap[k]? <;> rfl

theorem forget_globalizeCurrent (m : TrackedState K) :
    m.globalizeCurrent.forget = m.forget.globalizeCurrent := by
  unfold TrackedState.globalizeCurrent SamplerState.globalizeCurrent
  have : m.forget.current = m.current := rfl
  rw [this]
  cases m.current with
  | none => rfl
  | some a => exact forget_globalizeAt m a

theorem forget_globalizeDisc (m : TrackedState K) : m.globalizeDisc.forget = m.forget.globalizeDisc := by
  unfold TrackedState.globalizeDisc SamplerState.globalizeDisc
  have : m.forget.discs = m.discs := rfl
  rw [this]
  cases m.discs.getLast? with
  | none => rfl
  | some d => simp only [forget_globalizeAt]

theorem simCompute (S : SamplerModel K) (B : Breakdown K) (input : Option Nat) (g : Bool) :
    SimState (TrackedState.compute S B input g) (SamplerState.computeA S B input g) := by
  unfold TrackedState.compute SamplerState.computeA
  refine SimState.bind (fun m => ⟨rfl, rfl⟩) fun _ => ?_
  refine SimState.bind (fun m => ⟨rfl, rfl⟩) fun a => ?_
  refine SimState.bind (simOnSet (SimSet.arrays _) a) fun out => ?_
  intro m
  refine ⟨rfl, ?_⟩
  simp [change, TrackedState.forget]

theorem simRegular (S : SamplerModel K) (obj : ObjRef K) (nums : GridNums) :
    SimState (attempt (TrackedState.regular S obj nums))
      (attempt fun m : SamplerState K => m.exec S (.regular obj nums)) := by
  intro m
  have e : m.forget.exec S (.regular obj nums) =
      (TrackedState.regular S obj nums m).map TrackedState.forget := by
    unfold TrackedState.regular SamplerState.exec
    dsimp only
    cases m.forget.resolve obj with
    | error e => rfl
    | ok x =>
      simp only [ok_bind]
      cases regularSampleSet S.size x nums with
      | error e => rfl
      | ok s =>
        simp only [ok_bind]
        refine congrArg Except.ok ?_
        simp [TrackedState.forget, TrackedState.put, SamplerState.put]
  unfold attempt
  dsimp only
  rw [e]
  cases TrackedState.regular S obj nums m <;> exact ⟨rfl, rfl⟩

/-- **C127 (abbreviations, records).** The records do not change what the calls do to the sets, and
`random_sample_set` with `"r"` or `"random"` is the call with `"uniform"`, with `"lhs"` the call of
`lhs_sample_set`. -/
theorem C127_refines (S : SamplerModel K) (B : Breakdown K) (c : TrackedCall K) (m : TrackedState K) :
    (TrackedState.exec S B c m).1 = (SamplerState.execA S B c.plain m.forget).1 ∧
    (TrackedState.exec S B c m).2.forget = (SamplerState.execA S B c.plain m.forget).2 := by
  have : SimState (TrackedState.exec S B c) (SamplerState.execA S B c.plain) := by
    cases c with
    | newSet s =>
      intro m
      refine ⟨rfl, ?_⟩
      simp [TrackedCall.plain, TrackedState.exec, SamplerState.execA, change, TrackedState.forget]
    | random st rv obj n g centred =>
      simp only [TrackedState.exec, TrackedState.random, TrackedCall.plain]
      cases rv.isLhs with
      | true => exact simInto (simLhs _ _ _ _) _ _
      | false => exact simInto (simRandom _ _ _ _ _) _ _
    | lhs obj c cube g => exact simInto (simLhs _ _ _ _) _ _
    | regular obj nums => exact simRegular S obj nums
    | compute input g => exact simCompute S B input g
    | localToGlobal =>
      intro m
      refine ⟨rfl, ?_⟩
      show (m.globalizeCurrent.globalizeDisc).forget = m.forget.globalizeCurrent.globalizeDisc
      rw [forget_globalizeDisc, forget_globalizeCurrent]
  exact this m

/-- **C127.** The same for programs. -/
theorem C127_program (S : SamplerModel K) (cs : List (TrackedCall K × Breakdown K)) (m : TrackedState K) :
    (m.run S cs).forget = m.forget.runCaught S (cs.map fun c => (c.1.plain, c.2)) := by
  induction cs generalizing m with
  | nil => rfl
  | cons c cs ih =>
    show (TrackedState.run S (TrackedState.exec S c.2 c.1 m).2 cs).forget = _
    rw [ih, (C127_refines S c.2 c.1 m).2]
    rfl

/-! ## The records are true -/

theorem after_bind {S α β : Type} {x : Act S α} {f : α → Act S β} {s : S} {Q : S → Prop}
    (he : ∀ e u, x s = (.error e, u) → Q u) (ho : ∀ a u, x s = (.ok a, u) → Q (f a u).2) :
    Q ((x >>= f) s).2 := by
  show Q (Act.bind x f s).2
  unfold Act.bind
  rcases hx : x s with ⟨e | a, u⟩
  · exact he e u hx
  · exact ho a u hx

theorem onArrays_look_error {α : Type} {f : SampleSet K → Except Err α} {t u : TrackedSet K} {e : Err}
    (h : onArrays (look f) t = (.error e, u)) : u = t := by
  obtain ⟨-, rfl⟩ := Prod.mk.inj h
  rfl

theorem onArrays_look_ok {α : Type} {f : SampleSet K → Except Err α} {t u : TrackedSet K} {a : α}
    (h : onArrays (look f) t = (.ok a, u)) : f t.set = .ok a ∧ u = t := by
  obtain ⟨h', rfl⟩ := Prod.mk.inj h
  exact ⟨h', rfl⟩

/-- What a call of `random_sample_set` leaves: the set as it was, or the samples with the domain and the record. -/
def RandomLeft (st : Stats K) (size : Nat) (rv : RvArg K) (n : Nat) (t t' : TrackedSet K) : Prop :=
  ∃ specs chunks dom, Distributions t.set.dim t.set.domain rv specs ∧ Drawn st specs n size chunks ∧
    List.Forall₂ (fun sp ab => st.interval sp = .ok ab) specs dom ∧ t'.init = .rv specs ∧
    t'.set.dim = t.set.dim ∧ t'.set.loc.values = some chunks ∧ t'.set.domain = some dom

theorem randomT_left (st : Stats K) (size : Nat) (rv : RvArg K) (n : Nat) (g : Bool) (t : TrackedSet K) :
    (randomT st size rv n g t).2 = t ∨ RandomLeft st size rv n t (randomT st size rv n g t).2 := by
  unfold randomT
  refine after_bind (Q := fun u => u = t ∨ RandomLeft st size rv n t u)
    (fun e u h => .inl (onArrays_look_error h)) fun specs u h => ?_
  obtain ⟨h1, rfl⟩ := onArrays_look_ok h
  refine after_bind (Q := fun v => v = u ∨ RandomLeft st size rv n u v)
    (fun e v h => .inl (onArrays_look_error h)) fun chunks v h => ?_
  obtain ⟨h2, rfl⟩ := onArrays_look_ok h
  refine after_bind (Q := fun w => w = v ∨ RandomLeft st size rv n v w)
    (fun e w h => .inl (onArrays_look_error h)) fun dom w h => ?_
  obtain ⟨h3, rfl⟩ := onArrays_look_ok h
  refine after_bind (Q := fun u => u = w ∨ RandomLeft st size rv n w u) (fun e u h => .inl ?_) fun _ u h => ?_
  · obtain ⟨h', rfl⟩ := Prod.mk.inj h
    have : attempt (fun s : SampleSet K => s.setValuesLocal chunks) w.set =
      (.error e, (attempt (fun s : SampleSet K => s.setValuesLocal chunks) w.set).2) := Prod.ext h' rfl
    rw [(attempt_error.1 this).2]
  obtain ⟨h', rfl⟩ := Prod.mk.inj h
  have : attempt (fun s : SampleSet K => s.setValuesLocal chunks) w.set =
    (.ok (), (attempt (fun s : SampleSet K => s.setValuesLocal chunks) w.set).2) := Prod.ext h' rfl
  obtain ⟨h4, -⟩ := setValuesLocal_eq_ok (attempt_ok.1 this)
  rw [h4]
  clear this h h' h4
  right
  have key : ∀ t' : TrackedSet K, t'.init = .rv specs → t'.set.dim = w.set.dim →
      t'.set.loc.values = some chunks → t'.set.domain = some dom → RandomLeft st size rv n w t' :=
    fun t' a b c d => ⟨specs, chunks, dom, perDim_eq_ok h1, drawn_of_mapM h2, (mapM_eq_ok _ _ _).1 h3, a, b, c, d⟩
  refine after_bind (Q := RandomLeft st size rv n w) (fun e u h => by cases h) fun _ u h => ?_
  obtain ⟨-, rfl⟩ := Prod.mk.inj h
  refine after_bind (Q := RandomLeft st size rv n w) (fun e u h => by cases h) fun _ u h => ?_
  obtain ⟨-, rfl⟩ := Prod.mk.inj h
  refine after_bind (Q := RandomLeft st size rv n w) (fun e u h => ?_) fun _ u h => ?_
  · rw [onArrays_look_error h]; exact key _ rfl rfl rfl rfl
  obtain ⟨-, rfl⟩ := onArrays_look_ok h
  refine after_bind (Q := RandomLeft st size rv n w) (fun e u h => ?_) fun _ u h => ?_
  · rw [onArrays_look_error h]; exact key _ rfl rfl rfl rfl
  obtain ⟨-, rfl⟩ := onArrays_look_ok h
  cases g <;> exact key _ rfl rfl rfl rfl

/-- A set that passed through a call which leaves samples, dimension, domain and record alone. -/
def Untouched (t t' : TrackedSet K) : Prop :=
  t'.init = t.init ∧ t'.set.dim = t.set.dim ∧ t'.set.domain = t.set.domain ∧
    (t.set.loc.values.isSome → t'.set.loc.values = t.set.loc.values)

theorem lhsT_left (size : Nat) (c : String) (cube : List (List K)) (g : Bool) (t : TrackedSet K) :
    (lhsT size c cube g t).2.set.dim = t.set.dim ∧
    ((lhsT size c cube g t).2.set.domain = t.set.domain ∨
      (lhsT size c cube g t).2.set.domain = some (domainOrUnit t.set)) ∧
    (((lhsT size c cube g t).2.init = t.init ∧
        (lhsT size c cube g t).2.set.loc.values = t.set.loc.values ∧ ∃ e, (lhsT size c cube g t).1 = .error e) ∨
      ((lhsT size c cube g t).2.init = .lhs c ∧ ∃ u, lhsSampleSet size (.set t.set) cube g = .ok u ∧
        (lhsT size c cube g t).2.set = u)) := by
  unfold lhsT
  rcases hl : lhsA size cube g t.set with ⟨e | a, u⟩
  · have e1 : (onArrays (lhsA size cube g) >>= fun _ => change fun t => { t with init := .lhs c }) t =
        (.error e, { t with set := u }) := by
      show Act.bind _ _ t = _
      simp only [Act.bind, onArrays, hl]
    rw [e1]
    unfold lhsA at hl
    replace hl := bind_error.1 hl
    rcases hl with hl | ⟨_, _, h1, hl⟩
    · exact absurd hl change_error
    obtain rfl := change_ok.1 h1
    replace hl := bind_error.1 hl
    rcases hl with hl | ⟨_, s1, h2, hl⟩
    · obtain ⟨-, rfl⟩ := attempt_error.1 hl
      exact ⟨rfl, .inr rfl, .inl ⟨rfl, rfl, e, rfl⟩⟩
    replace h2 := attempt_ok.1 h2
    simp only [SampleSet.updateBounds, orErr_some, ok_bind, pure_eq_ok] at h2
    subst h2
    replace hl := bind_error.1 hl
    rcases hl with hl | ⟨_, s2, h3, hl⟩
    · obtain ⟨-, rfl⟩ := attempt_error.1 hl
      exact ⟨rfl, .inr rfl, .inl ⟨rfl, rfl, e, rfl⟩⟩
    exact absurd hl change_error
  · have e1 : (onArrays (lhsA size cube g) >>= fun _ => change fun t => { t with init := .lhs c }) t =
        (.ok (), { set := u, init := .lhs c }) := by
      show Act.bind _ _ t = _
      simp only [Act.bind, onArrays, hl, change]
    rw [e1]
    have h := lhsA_ok hl (.set t.set) .unboundLocal rfl rfl
    refine ⟨?_, ?_, .inr ⟨rfl, u, h, rfl⟩⟩ <;>
      simp only [lhsSampleSet, InputObj.toSet, ok_bind, bind_eq_ok, pure_eq_ok, SampleSet.updateBounds,
        orErr_some] at h <;>
      obtain ⟨s1, rfl, s2, h3, rfl⟩ := h <;>
      obtain ⟨rfl, -⟩ := setValuesLocal_eq_ok h3
    · cases g <;> rfl
    · right; cases g <;> rfl

/-! ### One set -/

theorem compute_untouched {S : SamplerModel K} {B : Breakdown K} {g : Bool} (t : TrackedSet K) :
    Untouched t (onArrays (computeSetA S B g) t).2 := by
  have base : ∀ s1 : SampleSet K, t.set.localized S.size = .ok s1 → s1.dim = t.set.dim ∧ s1.domain = t.set.domain ∧
      (t.set.loc.values.isSome → s1.loc.values = t.set.loc.values) := by
    intro s1 h1
    have ha := (localized_reference h1).1
    refine ⟨by rw [ha], by rw [ha], fun hv => ?_⟩
    obtain ⟨v, hv⟩ := Option.isSome_iff_exists.1 hv
    rw [SampleSet.localized_some _ hv] at h1
    rw [← Except.ok.inj h1]
  show t.init = t.init ∧ (computeSetA S B g t.set).2.dim = _ ∧ (computeSetA S B g t.set).2.domain = _ ∧
    (_ → (computeSetA S B g t.set).2.loc.values = _)
  rcases hc : computeSetA S B g t.set with ⟨e | out, u⟩
  · rcases computeSetA_error hc with rfl | h1 | ⟨s1, vals, J, h1, hv, rfl, -⟩
    · exact ⟨rfl, rfl, rfl, fun _ => rfl⟩
    · exact ⟨rfl, base u h1⟩
    · refine ⟨rfl, ?_⟩
      have := base s1 h1
      cases g <;> exact this
  · obtain ⟨s1, vals, outs, o1, q, o2, s2, d, h1, -, -, -, -, -, h7, rfl, -, -⟩ := computeSetA_ok.1 hc
    obtain ⟨J, rfl, -⟩ := withJacobians_ok h7
    refine ⟨rfl, ?_⟩
    have := base s1 h1
    cases g <;> exact this

/-- The box of the set is well formed, the record is true, and there are samples if there is a record. -/
def Fine (size : Nat) (cs : List (TrackedCall K)) (t : TrackedSet K) : Prop :=
  BoxOk t.set ∧ Truthful size cs t ∧ (t.init = .none ∨ t.set.loc.values.isSome ∧ t.set.domain.isSome)

theorem fine_none {size : Nat} {cs : List (TrackedCall K)} {s : SampleSet K} (h : BoxOk s) :
    Fine size cs { set := s } := ⟨h, trivial, .inl rfl⟩

theorem fine_congr {size : Nat} {cs : List (TrackedCall K)} {t t' : TrackedSet K} (hi : t'.init = t.init)
    (hd : t'.set.dim = t.set.dim) (hD : t'.set.domain = t.set.domain)
    (hv : t.set.loc.values.isSome → t'.set.loc.values = t.set.loc.values) (h : Fine size cs t) :
    Fine size cs t' := by
  obtain ⟨h1, h2, h3⟩ := h
  refine ⟨fun D h => ?_, ?_, ?_⟩
  · rw [hd]; exact h1 D (hD ▸ h)
  · rcases h3 with h3 | h3
    · simp only [Truthful, hi, h3]
    · have hv := hv h3.1
      simp only [Truthful, hi, hd, hD, hv]
      exact h2
  · rcases h3 with h3 | h3
    · exact .inl (hi.trans h3)
    · right; rw [hv h3.1, hD]; exact h3

theorem distributions_dim {D : Option (List (K × K))} {dim : Nat} {rv : RvArg K} {specs : List (RvSpec K)}
    (hb : ∀ D', D = some D' → D'.length = dim) (h : Distributions dim D rv specs) : specs.length = dim := by
  cases h with
  | default name => simp
  | fitted name D => simpa using hb D rfl
  | same D r => simp
  | each D rs h => exact h

theorem fine_random {size : Nat} {cs : List (TrackedCall K)} {t : TrackedSet K} {st : Stats K} {rv : RvArg K}
    {obj : ObjRef K} {n : Nat} {g : Bool} {centred : List (List K)} (hm : .random st rv obj n g centred ∈ cs)
    (h : Fine size cs t) : Fine size cs (randomT st size rv.long n g t).2 := by
  rcases randomT_left st size rv.long n g t with hl | ⟨specs, chunks, dom, h1, h2, h3, h4, h5, h6, h7⟩
  · rw [hl]; exact h
  · have hl := distributions_dim h.1 h1
    refine ⟨fun D hD => ?_, ?_, .inr ⟨by rw [h6]; rfl, by rw [h7]; rfl⟩⟩
    · rw [h7] at hD
      obtain rfl := Option.some.inj hD
      rw [h5, ← hl]
      exact h3.length_eq.symm
    · simp only [Truthful, h4]
      exact ⟨st, rv, obj, n, g, centred, chunks, dom, hm, ⟨t.set.domain, h5 ▸ h1⟩, hl.trans h5.symm, h2, h6, h7, h3⟩

theorem fine_lhs {size : Nat} (hsize : 0 < size) {cs : List (TrackedCall K)} {t : TrackedSet K} {obj : ObjRef K} {c : String}
    {cube : List (List K)} {g : Bool} (hm : TrackedCall.lhs obj c cube g ∈ cs ∨ c = "center" ∧
      ∃ st n, TrackedCall.random st (.str "lhs") obj n g cube ∈ cs)
    (h : Fine size cs t) : Fine size cs (lhsT size c cube g t).2 := by
  obtain ⟨hd, hD, hl⟩ := lhsT_left size c cube g t
  have hbox : BoxOk (lhsT size c cube g t).2.set := by
    intro D e
    rw [hd]
    rcases hD with hD | hD
    · exact h.1 D (hD ▸ e)
    · rw [hD] at e
      obtain rfl := Option.some.inj e
      unfold domainOrUnit
      cases hs : t.set.domain with
      | none => simp
      | some D => exact h.1 D hs
  rcases hl with ⟨hi, hv, -⟩ | ⟨hi, u, hu, hv⟩
  · rcases h.2.2 with h3 | h3
    · exact ⟨hbox, by simp only [Truthful, hi, h3], .inl (hi.trans h3)⟩
    · refine fine_congr hi hd ?_ (fun _ => hv) h
      rcases hD with hD | hD
      · exact hD
      · obtain ⟨D, e⟩ := Option.isSome_iff_exists.1 h3.2
        rw [hD, domainOrUnit, e]
        rfl
  · simp only [lhsSampleSet, InputObj.toSet, ok_bind, bind_eq_ok, pure_eq_ok, SampleSet.updateBounds,
      orErr_some] at hu
    obtain ⟨s1, rfl, s2, h3, rfl⟩ := hu
    obtain ⟨rfl, -⟩ := setValuesLocal_eq_ok h3
    have e1 : (lhsT size c cube g t).2.set.loc.values = some (arraySplit size (lhsValues cube t.set)) := by
      rw [hv]; cases g <;> rfl
    have e2 : (lhsT size c cube g t).2.set.domain = some (domainOrUnit t.set) := by
      rw [hv]; cases g <;> rfl
    refine ⟨hbox, ?_, .inr ⟨by rw [e1]; rfl, by rw [e2]; rfl⟩⟩
    simp only [Truthful, hi]
    exact ⟨obj, cube, g, _, _, hm, e2, e1, flatten_arraySplit _ _ hsize⟩

/-! ### All sets -/

/-- Every set of the state is fine. -/
def AllFine (size : Nat) (cs : List (TrackedCall K)) (m : TrackedState K) : Prop := ∀ t ∈ m.heap, Fine size cs t

theorem allFine_set {size : Nat} {cs : List (TrackedCall K)} {m : TrackedState K} {t : TrackedSet K} {a : Nat}
    (h : AllFine size cs m) (ht : Fine size cs t) : AllFine size cs { m with heap := m.heap.set a t } := by
  intro u hu
  rcases List.mem_or_eq_of_mem_set hu with hu | rfl
  · exact h u hu
  · exact ht

theorem allFine_onSet {α : Type} {size : Nat} {cs : List (TrackedCall K)} {m : TrackedState K}
    {x : Act (TrackedSet K) α} (h : AllFine size cs m) (hx : ∀ t, Fine size cs t → Fine size cs (x t).2)
    (a : Nat) : AllFine size cs (TrackedState.onSet a x m).2 := by
  unfold TrackedState.onSet
  cases ha : m.heap[a]? with
  | none => exact h
  | some t => exact allFine_set h (hx t (h t (List.mem_of_getElem? ha)))

theorem allFine_append {size : Nat} {cs : List (TrackedCall K)} {m : TrackedState K} {t : TrackedSet K}
    (h : AllFine size cs m) (ht : Fine size cs t) : ∀ u ∈ m.heap ++ [t], Fine size cs u := by
  intro u hu
  rcases List.mem_append.1 hu with hu | hu
  · exact h u hu
  · rw [List.mem_singleton.1 hu]; exact ht

theorem allFine_onNew {size : Nat} {cs : List (TrackedCall K)} {m : TrackedState K} {s : SampleSet K}
    {x : Act (TrackedSet K) Unit} (h : AllFine size cs m) (hx : ∀ t, Fine size cs t → Fine size cs (x t).2)
    (hs : BoxOk s) : AllFine size cs (TrackedState.onNew s x m).2 := by
  unfold TrackedState.onNew
  have := hx _ (fine_none hs)
  rcases hr : x { set := s } with ⟨e | a, t⟩
  · exact h
  · rw [hr] at this
    exact allFine_append h this

theorem allFine_into {size : Nat} {cs : List (TrackedCall K)} {m : TrackedState K} {e : Err}
    {x : Act (TrackedSet K) Unit} (h : AllFine size cs m) (hx : ∀ t, Fine size cs t → Fine size cs (x t).2)
    (obj : ObjRef K) : AllFine size cs (TrackedState.into e x obj m).2 := by
  cases obj with
  | ref a =>
    have := allFine_onSet h hx a
    refine after_bind (Q := AllFine size cs) (fun e u hu => ?_) fun _ u hu => ?_ <;>
    · rw [hu] at this
      exact this
  | dim d => exact allFine_onNew h hx fun D hD => by cases hD
  | domain D => exact allFine_onNew h hx fun D' hD => by obtain rfl := Option.some.inj hD; rfl
  | other => exact h

theorem allFine_globalizeAt {size : Nat} {cs : List (TrackedCall K)} {m : TrackedState K}
    (h : AllFine size cs m) (a : Nat) : AllFine size cs (m.globalizeAt a) := by
  intro t ht
  obtain ⟨k, hk⟩ := List.mem_iff_getElem?.1 ht
  simp only [TrackedState.globalizeAt, List.getElem?_modify] at hk
  cases hu : m.heap[k]? with
  | none => rw [hu] at hk; cases hk
  | some u =>
    have := h u (List.mem_of_getElem? hu)
    rw [hu] at hk
    obtain rfl := Option.some.inj hk
    split
    · exact fine_congr rfl rfl rfl (fun _ => rfl) this
    · exact this

theorem allFine_exec [LinearOrder K] [IsStrictOrderedRing K] {S : SamplerModel K} (hsize : 0 < S.size) {cs : List (TrackedCall K)} {m : TrackedState K} {c : TrackedCall K}
    {B : Breakdown K} (hnew : ∀ s, TrackedCall.newSet s ∈ cs → BoxOk s) (hc : c ∈ cs) (h : AllFine S.size cs m) :
    AllFine S.size cs (TrackedState.exec S B c m).2 := by
  cases c with
  | newSet s => exact allFine_append h (fine_none (hnew s hc))
  | random st rv obj n g centred =>
    simp only [TrackedState.exec, TrackedState.random]
    cases hl : rv.isLhs with
    | false => exact allFine_into h (fun t ht => fine_random hc ht) obj
    | true =>
      refine allFine_into h (fun t ht => fine_lhs hsize (obj := obj) (.inr ⟨rfl, st, n, ?_⟩) ht) obj
      cases rv with
      | str name =>
        have : name = "lhs" := by simpa [RvArg.isLhs] using hl
        subst this
        exact hc
      | pair r => cases hl
      | list rs => cases hl
      | other => cases hl
  | lhs obj c cube g => exact allFine_into h (fun t ht => fine_lhs hsize (.inl hc) ht) obj
  | regular obj nums =>
    simp only [TrackedState.exec]
    rcases hr : attempt (TrackedState.regular S obj nums) m with ⟨e | _, m'⟩
    · obtain ⟨-, rfl⟩ := attempt_error.1 hr; exact h
    · replace hr := attempt_ok.1 hr
      simp only [TrackedState.regular, bind_eq_ok, pure_eq_ok] at hr
      obtain ⟨x, hx, s, hs, rfl⟩ := hr
      refine allFine_append h ?_
      have hbox : ∀ s0, x.toSet .badObject = .ok s0 → BoxOk s0 := by
        intro s0 h0
        cases obj with
        | ref a =>
          simp only [SamplerState.resolve, bind_eq_ok, pure_eq_ok, getIdx_eq_ok] at hx
          obtain ⟨s', hs', rfl⟩ := hx
          obtain rfl := Except.ok.inj h0
          simp only [TrackedState.forget, List.getElem?_map, Option.map_eq_some_iff] at hs'
          obtain ⟨t, ht, rfl⟩ := hs'
          exact (h t (List.mem_of_getElem? ht)).1
        | dim d =>
          obtain rfl := Except.ok.inj hx
          obtain rfl := Except.ok.inj h0
          intro D e; cases e
        | domain D =>
          obtain rfl := Except.ok.inj hx
          obtain rfl := Except.ok.inj h0
          intro D' e
          obtain rfl := Option.some.inj e
          rfl
        | other =>
          obtain rfl := Except.ok.inj hx
          cases h0
      have hg := hs
      simp only [regularSampleSet, bind_eq_ok, raiseIf_eq_ok, SampleSet.globalToLocal, pure_eq_ok] at hs
      obtain ⟨s0, h0, -, -, v0, -, s1, h1, num, -, rfl⟩ := hs
      have hb := hbox s0 h0
      have hdl : (domainOrUnit s0).length = s0.dim := by
        unfold domainOrUnit
        cases e : s0.domain with
        | none => simp
        | some D => exact hb D e
      unfold SampleSet.setValues at h1
      split at h1
      swap
      · cases h1
      obtain rfl := Except.ok.inj h1
      refine ⟨fun D e => ?_, ?_, .inr ⟨rfl, rfl⟩⟩
      · obtain rfl := Option.some.inj e
        exact hdl
      · refine ⟨obj, _, _, hc, rfl, rfl, fun hn => ?_⟩
        obtain ⟨v, hv, -, h2, h3, -⟩ := C45_midpoints h0 hn hdl hg
        obtain rfl := Option.some.inj hv
        rw [flatten_arraySplit _ _ hsize]
        exact ⟨h2, h3⟩
  | compute input g =>
    refine after_bind (Q := AllFine S.size cs) (fun e u hu => by cases hu) fun _ u hu => ?_
    obtain ⟨-, rfl⟩ := Prod.mk.inj hu
    refine after_bind (Q := AllFine S.size cs) (fun e u hu => ?_) fun a u hu => ?_
    · obtain ⟨-, rfl⟩ := look_error.1 hu; exact h
    obtain ⟨-, rfl⟩ := look_ok.1 hu
    have key := allFine_onSet (m := { m with current := input.or m.current }) (x := onArrays (computeSetA S B g)) h
      (fun t ht => by
        obtain ⟨h1, h2, h3, h4⟩ := compute_untouched (S := S) (B := B) (g := g) t
        exact fine_congr h1 h2 h3 h4 ht) a
    refine after_bind (Q := AllFine S.size cs) (fun e u hu => ?_) fun out u hu => ?_
    · rw [hu] at key; exact key
    · have hbox : BoxOk out := by
        unfold TrackedState.onSet at hu
        split at hu
        · cases hu
        · rename_i t _
          obtain ⟨hu', -⟩ := Prod.mk.inj hu
          have : computeSetA S B g t.set = (.ok out, (computeSetA S B g t.set).2) := Prod.ext hu' rfl
          obtain ⟨s1, vals, outs, o1, q, o2, s2, d, -, -, -, k4, -, k6, -, -, rfl, -⟩ := computeSetA_ok.1 this
          obtain ⟨rfl, -⟩ := setValuesLocal_eq_ok k4
          have : o2.domain = none := by
            unfold withErrors at k6
            split at k6
            · simp only [bind_eq_ok, pure_eq_ok] at k6
              obtain ⟨e, -, rfl⟩ := k6
              rfl
            · obtain rfl := Except.ok.inj k6
              rfl
          intro D hD
          have e : (gatherIf g o2).domain = o2.domain := by cases g <;> rfl
          rw [e, this] at hD
          cases hD
      rw [hu] at key
      exact allFine_append key (fine_none hbox)
  | localToGlobal =>
    show AllFine S.size cs m.globalizeCurrent.globalizeDisc
    have h1 : AllFine S.size cs m.globalizeCurrent := by
      unfold TrackedState.globalizeCurrent
      cases m.current with
      | none => exact h
      | some a => exact allFine_globalizeAt h a
    unfold TrackedState.globalizeDisc
    cases m.globalizeCurrent.discs.getLast? with
    | none => exact h1
    | some d => exact allFine_globalizeAt (allFine_globalizeAt h1 _) _

/-- **C127 (records).** After any program of calls, of which any number may have raised, the record of every set is
true. -/
theorem C127_record [LinearOrder K] [IsStrictOrderedRing K] (S : SamplerModel K) (hsize : 0 < S.size) (cs : List (TrackedCall K × Breakdown K))
    (hnew : ∀ s, TrackedCall.newSet s ∈ cs.map Prod.fst → BoxOk s) :
    ∀ t ∈ (TrackedState.run S {} cs).heap, Truthful S.size (cs.map Prod.fst) t := by
  have key : ∀ (cs' : List (TrackedCall K × Breakdown K)), (∀ c ∈ cs', c.1 ∈ cs.map Prod.fst) →
      ∀ m : TrackedState K, AllFine S.size (cs.map Prod.fst) m →
        AllFine S.size (cs.map Prod.fst) (TrackedState.run S m cs') := by
    intro cs' h
    induction cs' with
    | nil => exact fun m hm => hm
    | cons c cs' ih =>
      intro m hm
      exact ih (fun c' hc' => h c' (List.mem_cons_of_mem _ hc')) _
        (allFine_exec hsize hnew (h c List.mem_cons_self) hm)
  intro t ht
  exact (key cs (fun c hc => List.mem_map_of_mem hc) {} (by intro t ht; cases ht) t ht).2.1

/-! ## When there is a record -/

theorem into_current {e : Err} {x : Act (TrackedSet K) Unit} {obj : ObjRef K} {m m' : TrackedState K} {u : Unit}
    (h : TrackedState.into e x obj m = (.ok u, m')) :
    ∃ a t t', (m.forget.resolve obj).bind (InputObj.toSet e) = .ok t.set ∧ x t = (.ok (), t') ∧
      m'.current = some a ∧ m'.heap[a]? = some t' := by
  have new : ∀ s : SampleSet K, TrackedState.onNew s x m = (.ok u, m') →
      ∃ a t', x { set := s } = (.ok (), t') ∧ m'.current = some a ∧ m'.heap[a]? = some t' := by
    intro s h
    unfold TrackedState.onNew at h
    rcases hx : x { set := s } with ⟨e' | _, t'⟩ <;> rw [hx] at h <;> cases h
    exact ⟨m.heap.length, t', rfl, rfl, by simp [TrackedState.put]⟩
  cases obj with
  | ref a =>
    replace h := bind_ok.1 h
    obtain ⟨_, m1, h1, h⟩ := h
    obtain rfl := change_ok.1 h
    unfold TrackedState.onSet at h1
    cases ha : m.heap[a]? with
    | none => rw [ha] at h1; cases h1
    | some t =>
      rw [ha] at h1
      obtain ⟨h2, rfl⟩ := Prod.mk.inj h1
      refine ⟨a, t, (x t).2, ?_, Prod.ext h2 rfl, rfl, ?_⟩
      · simp [SamplerState.resolve, TrackedState.forget, getIdx, ha, Except.bind, InputObj.toSet]
      · obtain ⟨hl, -⟩ := List.getElem?_eq_some_iff.1 ha
        simp [hl]
  | dim d =>
    obtain ⟨a, t', h⟩ := new _ h
    exact ⟨a, _, t', rfl, h⟩
  | domain D =>
    obtain ⟨a, t', h⟩ := new _ h
    exact ⟨a, _, t', rfl, h⟩
  | other => cases h

theorem randomT_ok_init {st : Stats K} {size : Nat} {rv : RvArg K} {n : Nat} {g : Bool} {t t' : TrackedSet K}
    {u : Unit} (h : randomT st size rv n g t = (.ok u, t')) :
    ∃ specs, Distributions t.set.dim t.set.domain rv specs ∧ t'.init = .rv specs := by
  unfold randomT at h
  replace h := bind_ok.1 h
  obtain ⟨specs, u1, k1, h⟩ := h
  obtain ⟨k1, rfl⟩ := onArrays_look_ok k1
  refine ⟨specs, perDim_eq_ok k1, ?_⟩
  replace h := bind_ok.1 h
  obtain ⟨_, u2, k2, h⟩ := h
  obtain ⟨-, rfl⟩ := onArrays_look_ok k2
  replace h := bind_ok.1 h
  obtain ⟨_, u3, k3, h⟩ := h
  obtain ⟨-, rfl⟩ := onArrays_look_ok k3
  replace h := bind_ok.1 h
  obtain ⟨_, u4, k4, h⟩ := h
  replace h := bind_ok.1 h
  obtain ⟨_, u5, k5, h⟩ := h
  replace h := bind_ok.1 h
  obtain ⟨_, u6, k6, h⟩ := h
  obtain rfl := change_ok.1 k6
  replace h := bind_ok.1 h
  obtain ⟨_, u7, k7, h⟩ := h
  obtain ⟨-, rfl⟩ := onArrays_look_ok k7
  replace h := bind_ok.1 h
  obtain ⟨_, u8, k8, h⟩ := h
  obtain ⟨-, rfl⟩ := onArrays_look_ok k8
  obtain ⟨-, rfl⟩ := Prod.mk.inj h
  rfl

/-- **C127.** When `random_sample_set` returns, the current set of the sampler has the record of the distributions the
first argument stands for, for the dimension and the domain that the object had before. -/
theorem C127_random {S : SamplerModel K} {B : Breakdown K} {st : Stats K} {rv : RvArg K} {obj : ObjRef K} {n : Nat}
    {g : Bool} {centred : List (List K)} {m m' : TrackedState K} {u : Unit} (hrv : rv.isLhs = false)
    (h : TrackedState.exec S B (.random st rv obj n g centred) m = (.ok u, m')) :
    ∃ a s t specs, (m.forget.resolve obj).bind (InputObj.toSet .wrongInput) = .ok s ∧ m'.current = some a ∧
      m'.heap[a]? = some t ∧ Distributions s.dim s.domain rv.long specs ∧ t.init = .rv specs := by
  simp only [TrackedState.exec, TrackedState.random, hrv, Bool.false_eq_true, if_false] at h
  obtain ⟨a, t, t', h1, h2, h3, h4⟩ := into_current h
  refine ⟨a, t.set, t', ?_⟩
  obtain ⟨specs, k1, k2⟩ := randomT_ok_init h2
  exact ⟨specs, h1, h3, h4, k1, k2⟩

/-- **C127.** The same for Latin hypercubes (also under the name `"lhs"` of `random_sample_set`) and regular grids. -/
theorem C127_others {S : SamplerModel K} {B : Breakdown K} {m m' : TrackedState K} {u : Unit} :
    (∀ obj criterion cube g, TrackedState.exec S B (.lhs obj criterion cube g) m = (.ok u, m') →
      ∃ a t, m'.current = some a ∧ m'.heap[a]? = some t ∧ t.init = .lhs criterion) ∧
    (∀ st obj n g cube, TrackedState.exec S B (.random st (.str "lhs") obj n g cube) m =
      TrackedState.exec S B (.lhs obj "center" cube g) m) ∧
    (∀ obj nums, TrackedState.exec S B (.regular obj nums) m = (.ok u, m') →
      ∃ a t, m'.current = some a ∧ m'.heap[a]? = some t ∧ t.init = .grid nums) := by
  refine ⟨fun obj criterion cube g h => ?_, fun st obj n g cube => rfl, fun obj nums h => ?_⟩
  · obtain ⟨a, t, t', -, h2, h3, h4⟩ := into_current h
    refine ⟨a, t', h3, h4, ?_⟩
    rcases (lhsT_left S.size criterion cube g t).2.2 with ⟨-, -, e, he⟩ | ⟨hi, -⟩
    · rw [h2] at he; cases he
    · rw [h2] at hi; exact hi
  · replace h := attempt_ok.1 h
    simp only [TrackedState.regular, bind_eq_ok, pure_eq_ok] at h
    obtain ⟨x, -, s, -, rfl⟩ := h
    exact ⟨m.heap.length, ⟨s, .grid nums⟩, rfl, by simp [TrackedState.put], rfl⟩

/-- **C127.** `"r"` and `"random"` are `"uniform"`; every other first argument stands for itself. -/
theorem C127_names {S : SamplerModel K} {B : Breakdown K} {st : Stats K} {obj : ObjRef K} {n : Nat} {g : Bool}
    {centred : List (List K)} (m : TrackedState K) :
    (∀ name ∈ ["r", "random"], TrackedState.exec S B (.random st (.str name) obj n g centred) m =
      TrackedState.exec S B (.random st (.str "uniform") obj n g centred) m) ∧
    ∀ rv : RvArg K, rv.long ≠ rv → rv = .str "r" ∨ rv = .str "random" := by
  refine ⟨fun name hn => ?_, fun rv h => ?_⟩
  · simp only [List.mem_cons, List.not_mem_nil, or_false] at hn
    rcases hn with rfl | rfl <;>
      simp [TrackedState.exec, TrackedState.random, RvArg.isLhs, RvArg.long]
  · cases rv with
    | str name =>
      by_cases hn : name = "r" ∨ name = "random"
      · rcases hn with rfl | rfl
        · exact .inl rfl
        · exact .inr rfl
      · exact absurd (by simp only [RvArg.long, if_neg hn]) h
    | pair r => exact absurd rfl h
    | list rs => exact absurd rfl h
    | other => exact absurd rfl h

/-- **C127.** Evaluating the model and gathering leave the records of all sets as they are, whether the call returns
or raises. -/
theorem C127_kept {S : SamplerModel K} {B : Breakdown K} {m : TrackedState K} {c : TrackedCall K}
    (hc : (∃ i g, c = .compute i g) ∨ c = .localToGlobal ∨ ∃ s, c = .newSet s) {a : Nat} {t : TrackedSet K}
    (h : m.heap[a]? = some t) :
    ∃ t', (TrackedState.exec S B c m).2.heap[a]? = some t' ∧ t'.init = t.init := by
  obtain ⟨ha, ht⟩ := List.getElem?_eq_some_iff.1 h
  have append : ∀ (l : List (TrackedSet K)) (x t' : TrackedSet K), l[a]? = some t' → (l ++ [x])[a]? = some t' := by
    intro l x t' h
    obtain ⟨ha, ht⟩ := List.getElem?_eq_some_iff.1 h
    rw [List.getElem?_append_left ha, h]
  rcases hc with ⟨i, g, rfl⟩ | rfl | ⟨s, rfl⟩
  · have hset : ∀ (b : Nat) (m1 : TrackedState K), m1.heap = m.heap →
        ∃ t', (TrackedState.onSet b (onArrays (computeSetA S B g)) m1).2.heap[a]? = some t' ∧ t'.init = t.init := by
      intro b m1 e
      unfold TrackedState.onSet
      rw [e]
      cases hb : m.heap[b]? with
      | none => exact ⟨t, by rw [← e] at h; exact h, rfl⟩
      | some tb =>
        show ∃ t', (m.heap.set b _)[a]? = some t' ∧ _
        rw [List.getElem?_set]
        by_cases hab : b = a
        · subst hab
          rw [h] at hb
          obtain rfl := Option.some.inj hb
          exact ⟨(onArrays (computeSetA S B g) t).2, by simp [ha], rfl⟩
        · exact ⟨t, by simp [hab, h], rfl⟩
    refine after_bind (Q := fun u : TrackedState K => ∃ t', u.heap[a]? = some t' ∧ t'.init = t.init)
      (fun e u hu => by cases hu) fun _ u hu => ?_
    obtain ⟨-, rfl⟩ := Prod.mk.inj hu
    refine after_bind (Q := fun u : TrackedState K => ∃ t', u.heap[a]? = some t' ∧ t'.init = t.init)
      (fun e u hu => ?_) fun b u hu => ?_
    · obtain ⟨-, rfl⟩ := look_error.1 hu; exact ⟨t, h, rfl⟩
    obtain ⟨-, rfl⟩ := look_ok.1 hu
    have key := hset b { m with current := i.or m.current } rfl
    refine after_bind (Q := fun u : TrackedState K => ∃ t', u.heap[a]? = some t' ∧ t'.init = t.init)
      (fun e u hu => ?_) fun out u hu => ?_
    · rw [hu] at key; exact key
    · rw [hu] at key
      obtain ⟨t', k1, k2⟩ := key
      exact ⟨t', append _ _ _ k1, k2⟩
  · have glob : ∀ (m1 : TrackedState K) (b : Nat), (∃ t', m1.heap[a]? = some t' ∧ t'.init = t.init) →
        ∃ t', (m1.globalizeAt b).heap[a]? = some t' ∧ t'.init = t.init := by
      rintro m1 b ⟨t', h1, h2⟩
      simp only [TrackedState.globalizeAt, List.getElem?_modify, h1]
      by_cases hab : b = a
      · exact ⟨{ t' with set := t'.set.localToGlobal }, by simp [hab], h2⟩
      · exact ⟨t', by simp [hab], h2⟩
    show ∃ t', m.globalizeCurrent.globalizeDisc.heap[a]? = some t' ∧ t'.init = t.init
    have h1 : ∃ t', m.globalizeCurrent.heap[a]? = some t' ∧ t'.init = t.init := by
      unfold TrackedState.globalizeCurrent
      cases m.current with
      | none => exact ⟨t, h, rfl⟩
      | some b => exact glob m b ⟨t, h, rfl⟩
    unfold TrackedState.globalizeDisc
    cases m.globalizeCurrent.discs.getLast? with
    | none => exact h1
    | some d => exact glob _ _ (glob _ _ h1)
  · exact ⟨t, append _ _ _ h, rfl⟩

/-! ## What `pdf_init` makes of a record -/

/-- **C127.** The density of the initial measure is not available after `lhs_sample_set` and `regular_sample_set`, nor
before any sampling. -/
theorem C127_refused (P : Pdfs K) (t : TrackedSet K) (h : ∀ specs, t.init ≠ .rv specs) :
    (∀ rows, t.pdfInit P (.mat t.set.dim rows) = .error .wrongInput) ∧
    (∀ xs i, t.marginalInit P (.vec xs) i = .error .wrongInput) ∧
    (∀ vals, ∃ e, t.pdfInit P vals = .error e) ∧ ∀ vals i, ∃ e, t.marginalInit P vals i = .error e := by
  have hf : t.init.fitted = .other := by
    cases hi : t.init with
    | rv specs => exact absurd hi (h specs)
    | _ => rfl
  refine ⟨fun rows => ?_, fun xs i => ?_, fun vals => ?_, fun vals i => ?_⟩
  · simp [TrackedSet.pdfInit, hf, pdfOf, Vals.toMat, raiseIf, evaluatePdf]
  · simp [TrackedSet.marginalInit, hf, marginalPdfInit, evaluatePdfMarginal, marginalArg, marginalDensity]
  · simp only [TrackedSet.pdfInit, hf, pdfOf, evaluatePdf]
    cases raiseIf (vals.toMat.1 ≠ t.set.dim) .dimNotMatching with
    | error e => exact ⟨e, rfl⟩
    | ok _ => exact ⟨_, rfl⟩
  · simp only [TrackedSet.marginalInit, hf, marginalPdfInit, evaluatePdfMarginal, marginalDensity]
    cases marginalArg i vals with
    | error e => exact ⟨e, rfl⟩
    | ok _ => exact ⟨_, rfl⟩

/-- **C127.** `sample_from_updated` gives a set whose initial density (and each marginal of it) is the updated
density of the old set. -/
theorem C127_updated {st : Stats K} {rs : Resampler K} {rnd : K → Nat} {size dim : Nat} {m : FittedMeasure K} {n : Nat}
    {g : Bool} {s : SampleSet K} {m' : FittedMeasure K} (h : resampleT st rs rnd size dim m n g = .ok (s, m'))
    (P : Pdfs K) :
    sampleFromUpdated st rs rnd size dim m.updated n g = .ok s ∧
    (∀ vals, pdfOf P s.dim m' vals = pdfOf P dim m vals) ∧
    ∀ vals i, marginalPdfInit P m' vals i = marginalPdf P true m vals i := by
  simp only [resampleT, bind_eq_ok, pure_eq_ok, Prod.mk.injEq] at h
  obtain ⟨s', h1, rfl, rfl⟩ := h
  have hd : s'.dim = dim := by
    have hres : ∀ chunks, resampled dim chunks g = .ok s' → s'.dim = dim := by
      intro chunks h
      simp only [resampled, bind_eq_ok, pure_eq_ok] at h
      obtain ⟨s1, h3, rfl⟩ := h
      obtain ⟨rfl, -⟩ := setValuesLocal_eq_ok h3
      cases g <;> rfl
    cases m with
    | rv specs =>
      simp only [sampleFromUpdated, FittedMeasure.updated, randomSampleSet, InputObj.toSet, ok_bind, bind_eq_ok,
        pure_eq_ok] at h1
      obtain ⟨_, -, _, -, _, -, s2, h5, -, -, -, -, rfl⟩ := h1
      obtain ⟨rfl, -⟩ := setValuesLocal_eq_ok h5
      cases g <;> rfl
    | kde ms ws =>
      simp only [sampleFromUpdated, FittedMeasure.updated, bind_eq_ok] at h1
      obtain ⟨chunks, -, h⟩ := h1
      exact hres _ h
    | gmm ds means vars ws =>
      simp only [sampleFromUpdated, FittedMeasure.updated, bind_eq_ok] at h1
      obtain ⟨chunks, -, h⟩ := h1
      exact hres _ h
    | voronoi ms => cases h1
    | other => cases h1
  refine ⟨h1, fun vals => by rw [hd], fun vals i => ?_⟩
  cases m with
  | voronoi ms => cases h1
  | _ => rfl

/-! ## Sampling again -/

theorem again_step {st : Stats K} {size : Nat} {name : String} {n : Nat} {g : Bool} {t t' : TrackedSet K}
    {D D' : List (K × K)} (hD : t.set.domain = some D)
    (hi : D.mapM (fun ab => st.interval ⟨name, [("loc", ab.1), ("scale", ab.2 - ab.1)]⟩) = .ok D')
    (h : randomT st size (.str name) n g t = (.ok (), t')) :
    t'.set.domain = some D' ∧
      t'.init = .rv (D.map fun ab => ⟨name, [("loc", ab.1), ("scale", ab.2 - ab.1)]⟩) := by
  have hs := simRandom st size (.str name) n g t
  rw [h] at hs
  have hr := randomA_ok (t := t'.set) (Prod.ext hs.1.symm hs.2.symm) (.set t.set) .wrongInput rfl rfl
  simp only [randomSampleSet, InputObj.toSet, ok_bind, RvArg.perDim, hD, bind_eq_ok, pure_eq_ok] at hr
  obtain ⟨chunks, -, dom, h4, s2, h5, -, -, -, -, h6⟩ := hr
  obtain ⟨rfl, -⟩ := setValuesLocal_eq_ok h5
  have e : (D.map fun ab => (⟨name, [("loc", ab.1), ("scale", ab.2 - ab.1)]⟩ : RvSpec K)).mapM st.interval = .ok D' := by
    rw [List.mapM_map]
    exact hi
  rw [e] at h4
  obtain rfl := Except.ok.inj h4
  have hdom : t'.set.domain = some D' := by rw [← h6]; cases g <;> rfl
  refine ⟨hdom, ?_⟩
  obtain ⟨specs, k1, k4⟩ := randomT_ok_init h
  rw [hD] at k1
  cases k1
  exact k4

/-- **C127.** Sampling into the same set any number of times with the name of a family whose range, with location `a`
and scale `b - a`, is `[a, b]` (as for `"uniform"` and `"beta"`): each time the distributions are those that the
domain had asked for at first. -/
theorem C127_again {st : Stats K} {size : Nat} {name : String} {D : List (K × K)}
    (hi : ∀ ab ∈ D, st.interval ⟨name, [("loc", ab.1), ("scale", ab.2 - ab.1)]⟩ = .ok ab)
    (calls : List (Nat × Bool)) {t t' : TrackedSet K} (hD : t.set.domain = some D)
    (h : (calls.forM fun c => randomT st size (.str name) c.1 c.2) t = (.ok (), t')) :
    t'.set.domain = some D ∧ (calls ≠ [] →
      t'.init = .rv (D.map fun ab => ⟨name, [("loc", ab.1), ("scale", ab.2 - ab.1)]⟩)) := by
  have hm : D.mapM (fun ab => st.interval ⟨name, [("loc", ab.1), ("scale", ab.2 - ab.1)]⟩) = .ok D := by
    rw [mapM_eq_ok]
    exact List.forall₂_same.2 hi
  induction calls generalizing t with
  | nil => cases h; exact ⟨hD, fun h => absurd rfl h⟩
  | cons c calls ih =>
    replace h := bind_ok.1 h
    obtain ⟨_, t1, h1, h⟩ := h
    obtain ⟨k1, k2⟩ := again_step hD hm h1
    obtain ⟨k3, k4⟩ := ih k1 h
    refine ⟨k3, fun _ => ?_⟩
    cases calls with
    | nil => cases h; exact k2
    | cons c' calls => exact k4 (by simp)

/-- **C127 (negation).** For a family whose range is `[loc - scale, loc + scale]` (as `"semicircular"` and
`"anglit"`, up to a factor) each call doubles the box: after `k` calls it is `[b - 2 ^ k (b - a), b]`, and the record
is about distributions on that box. -/
theorem C127_negation_again {st : Stats K} {size : Nat} {name : String}
    (hi : ∀ a w, st.interval ⟨name, [("loc", a), ("scale", w)]⟩ = .ok (a - w, a + w))
    (calls : List (Nat × Bool)) {D : List (K × K)} {t t' : TrackedSet K} (hD : t.set.domain = some D)
    (h : (calls.forM fun c => randomT st size (.str name) c.1 c.2) t = (.ok (), t')) :
    t'.set.domain = some (D.map fun ab => (ab.2 - 2 ^ calls.length * (ab.2 - ab.1), ab.2)) := by
  induction calls generalizing t D with
  | nil =>
    cases h
    rw [hD]
    simp
  | cons c calls ih =>
    replace h := bind_ok.1 h
    obtain ⟨_, t1, h1, h⟩ := h
    have hm : D.mapM (fun ab => st.interval ⟨name, [("loc", ab.1), ("scale", ab.2 - ab.1)]⟩) =
        .ok (D.map fun ab => (ab.1 - (ab.2 - ab.1), ab.2)) := by
      rw [mapM_eq_ok, List.forall₂_map_right_iff]
      refine List.forall₂_same.2 fun ab _ => ?_
      rw [hi]
      congr 2
      ring
    obtain ⟨k1, -⟩ := again_step hD hm h1
    rw [ih k1 h, List.map_map]
    congr 1
    refine List.map_congr_left fun ab _ => ?_
    simp only [Function.comp, List.length_cons, Prod.mk.injEq, and_true]
    ring

end

/-- **C127 (density).** After any program, of which any number of calls may have raised: for a set with the record of
distributions that have densities, `pdf_init` evaluates the product of these densities, `marginal_pdf_init` evaluates
each of them, and the samples that the processes hold were drawn from them. -/
theorem C127_density (S : SamplerModel ℝ) (hsize : 0 < S.size) (cs : List (TrackedCall ℝ × Breakdown ℝ))
    (hnew : ∀ s, TrackedCall.newSet s ∈ cs.map Prod.fst → BoxOk s) (P : Pdfs ℝ) {t : TrackedSet ℝ}
    (ht : t ∈ (TrackedState.run S {} cs).heap) {specs : List (RvSpec ℝ)} (hi : t.init = .rv specs)
    (hf : ∀ sp ∈ specs, Spec.IsDensity (P.rv sp)) :
    ∃ (hd : specs.length = t.set.dim) (ρ : (Fin t.set.dim → ℝ) → ℝ),
      (∀ pts : List (Fin t.set.dim → ℝ), t.pdfInit P (.mat t.set.dim (pts.map List.ofFn)) = .ok (pts.map ρ)) ∧
      (∀ (i : Fin t.set.dim) (ts : List ℝ), t.marginalInit P (.vec ts) i = .ok (ts.map (P.rv specs[i]))) ∧
      Spec.IsDensity ρ ∧ (∀ i : Fin t.set.dim, Spec.IsMarginal ρ i (P.rv specs[i])) ∧
      (∀ x, ρ x = ∏ i : Fin t.set.dim, P.rv specs[i] (x i)) ∧
      ∃ st n chunks, t.set.loc.values = some chunks ∧ Drawn st specs n S.size chunks := by
  have h := C127_record S hsize cs hnew t ht
  simp only [Truthful, hi] at h
  obtain ⟨st, rv, obj, n, g, centred, chunks, dom, -, -, hd, hdr, hv, -⟩ := h
  obtain ⟨ρ, h1, h2, h3, h4, h5⟩ := C89_rv P t.set.dim specs hd hf
  refine ⟨hd, ρ, fun pts => ?_, fun i ts => ?_, h3, h4, h5, st, n, chunks, hv, hdr⟩
  · simp only [TrackedSet.pdfInit, hi, InitMeasure.fitted]
    exact h1 pts
  · simp only [TrackedSet.marginalInit, hi, InitMeasure.fitted]
    exact (h2 i).1 ts

namespace Ex

/-- Two processes; the draws are `seed + 0`, `seed + 1`, …; the range is `[loc, loc + scale]` or, without parameters,
`[0, 1]`; `"semicircular"` has the range `[loc - scale, loc + scale]`. -/
def rvStats (seed : ℚ) : Stats ℚ where
  rvs r i _ n := .ok ((List.range n).map fun k => seed + (k : ℚ) + 10 * r + 100 * i)
  interval sp :=
    match sp.args with
    | [("loc", a), ("scale", w)] => .ok (if sp.name = "semicircular" then (a - w, a + w) else (a, a + w))
    | _ => .ok (0, 1)

/-- A sampler program: names, abbreviations, a Latin hypercube, a grid, and a call that raises (`rv` has two entries
for a set of dimension one). -/
def recCalls : List (TrackedCall ℚ × Breakdown ℚ) :=
  [(.newSet { dim := 1, domain := some [(2, 6)] }, brkNone),
   (.random (rvStats 3) (.str "r") (.ref 0) 3 true [], brkNone),
   (.compute none true, brkNone),
   (.random (rvStats 3) (.list [⟨"uniform", []⟩, ⟨"beta", []⟩]) (.ref 0) 3 true [], brkNone),
   (.random (rvStats 3) (.str "lhs") (.domain [(0, 4)]) 2 true [[3 / 4], [1 / 4]], brkNone),
   (.regular (.ref 0) (.scalar 2), brkNone),
   (.localToGlobal, brkNone)]

/-- The records as data. -/
def recView (t : TrackedSet ℚ) :
    String × List (String × List (String × ℚ)) × Option (List (List (List ℚ))) × Option (List (ℚ × ℚ)) :=
  (match t.init with
    | .none => "none"
    | .rv _ => "rv"
    | .lhs c => "lhs " ++ c
    | .grid _ => "grid",
   match t.init with
    | .rv specs => specs.map fun sp => (sp.name, sp.args)
    | _ => [],
   t.set.loc.values, t.set.domain)

set_option synthInstance.maxSize 2000 in
/-- What the program leaves: the set 0 was sampled with `"r"`, which is `"uniform"` on its domain; set 1 has the
outputs; set 2 the Latin hypercube, set 3 the grid. -/
theorem recCalls_left : (TrackedState.run smpModel {} recCalls).heap.map recView =
    [("rv", [("uniform", [("loc", 2), ("scale", 4)])], some [[[3], [4]], [[13]]], some [(2, 6)]),
     ("none", [], some [[[6], [8]], [[26]]], none),
     ("lhs center", [], some [[[3]], [[1]]], some [(0, 4)]),
     ("grid", [], some [[[3]], [[5]]], some [(2, 6)])] := by
  decide +kernel

/-- Hypotheses of `C127_record`. -/
example : 0 < smpModel.size ∧ ∀ s, TrackedCall.newSet s ∈ recCalls.map Prod.fst → Spec.BoxOk s := by
  refine ⟨by decide, fun s h => ?_⟩
  simp only [recCalls, List.map_cons, List.map_nil, List.mem_cons, List.not_mem_nil, or_false, reduceCtorEq,
    TrackedCall.newSet.injEq] at h
  subst h
  intro D hD
  obtain rfl := Option.some.inj hD
  rfl

/-- Hypotheses of `C127_random`: the second call of the program returns. -/
example : ((TrackedState.exec smpModel brkNone (.random (rvStats 3) (.str "r") (.ref 0) 3 true [])
    (TrackedState.run smpModel {} (recCalls.take 1))).1.toOption.isSome = true) ∧
    (RvArg.str "r" : RvArg ℚ).isLhs = false := by
  refine ⟨?_, ?_⟩ <;> decide +kernel

/-- Hypotheses of `C127_others`. -/
example : ((TrackedState.exec smpModel brkNone (.random (rvStats 3) (.str "lhs") (.domain [(0, 4)]) 2 true
    [[3 / 4], [1 / 4]]) {}).1.toOption.isSome = true) ∧
    ((TrackedState.exec smpModel brkNone (.regular (.domain [(0, 4)]) (.scalar 2)) {}).1.toOption.isSome = true) := by
  refine ⟨?_, ?_⟩ <;> decide +kernel

/-- The set of `C127_again` and `C127_negation_again`. -/
def againSet : TrackedSet ℚ := { set := { dim := 1, domain := some [(2, 6)] } }

/-- Hypotheses of `C127_again`: three calls that return. -/
example : (∀ ab ∈ [((2 : ℚ), (6 : ℚ))], (rvStats 3).interval
      ⟨"uniform", [("loc", ab.1), ("scale", ab.2 - ab.1)]⟩ = .ok ab) ∧
    ((([(3, true), (5, false), (5, true)].forM fun c : Nat × Bool =>
      randomT (rvStats 3) 2 (.str "uniform") c.1 c.2) againSet).1.toOption.isSome = true) := by
  refine ⟨?_, by decide +kernel⟩
  intro ab h
  obtain rfl := List.mem_singleton.1 h
  simp [rvStats]

/-- Hypotheses of `C127_negation_again`: after three calls the box `[2, 6]` has become `[-26, 6]`. -/
example : (∀ a w, (rvStats 3).interval ⟨"semicircular", [("loc", a), ("scale", w)]⟩ = .ok (a - w, a + w)) ∧
    ((([(3, true), (3, false), (5, true)].forM fun c : Nat × Bool =>
      randomT (rvStats 3) 2 (.str "semicircular") c.1 c.2) againSet).1.toOption.isSome = true) ∧
    ((([(3, true), (3, false), (5, true)].forM fun c : Nat × Bool =>
      randomT (rvStats 3) 2 (.str "semicircular") c.1 c.2) againSet).2.set.domain = some [(-26, 6)]) := by
  refine ⟨fun a w => by simp [rvStats], ?_, ?_⟩ <;> decide +kernel

/-- `C127_refused` is about sets that occur. -/
example : ∀ specs, (⟨{ dim := 1 }, .grid (.scalar 2)⟩ : TrackedSet ℚ).init ≠ .rv specs := by
  intro specs h
  cases h

/-- Hypotheses of `C127_updated`. -/
example : (resampleT (rvStats 3) ⟨fun _ _ _ n => List.replicate n 0, fun _ _ n => List.replicate n [0]⟩
    (fun _ => 2) 2 1 (.rv [⟨"uniform", []⟩]) 3 true).toOption.isSome = true := by
  decide +kernel

/-- Hypotheses of `C127_density`: one call, after which there is a set with such a record. -/
example : let st : Stats ℝ := ⟨fun _ _ _ n => .ok (List.replicate n 0), fun _ => .ok (0, 1)⟩
    let S : SamplerModel ℝ := ⟨1, fun _ x => .array x, 1, false, false⟩
    ∃ t ∈ (TrackedState.run S {} [(.random st (.str "uniform") (.dim 1) 1 true [],
        ⟨fun _ _ => none, fun _ => .ok .tuple⟩)]).heap,
      t.init = .rv [⟨"uniform", []⟩] ∧ ∀ sp ∈ [(⟨"uniform", []⟩ : RvSpec ℝ)], Spec.IsDensity (unifPdfs.rv sp) := by
  intro st S
  have h : ((TrackedState.run S {} [(.random st (.str "uniform") (.dim 1) 1 true [],
      ⟨fun _ _ => none, fun _ => .ok .tuple⟩)]).heap.map fun t => t.init) = [.rv [⟨"uniform", []⟩]] := by
    with_unfolding_all rfl
  have hm : InitMeasure.rv [⟨"uniform", []⟩] ∈ ((TrackedState.run S {} [(.random st (.str "uniform") (.dim 1) 1 true [],
      ⟨fun _ _ => none, fun _ => .ok .tuple⟩)]).heap.map fun t => t.init) := by
    rw [h]; exact List.mem_singleton.2 rfl
  obtain ⟨t, ht, hi⟩ := List.mem_map.1 hm
  exact ⟨t, ht, hi, fun _ _ => unif_density 0⟩

end Ex

end BET
