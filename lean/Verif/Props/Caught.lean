import Verif.Model.Caught
import Verif.Props.DiscHistory
import Verif.Props.ProbEmulated

/-!
# What is left when a call raises (C118)
-/

set_option linter.unusedSectionVars false
set_option linter.unusedSimpArgs false

set_option autoImplicit false

namespace BET

open Spec

/-! ## Specification -/

/-- The set `t` is what is left of `s`: only what can be computed again may have been added or
changed, namely a search tree if there was none, and the parts of the processes if there were none.
`vols` allows new volumes and `locs` new parts. -/
structure Spec.Kept {K : Type} (vols locs : Prop) (s t : SampleSet K) : Prop where
  rest : t = { s with
    glob := { s.glob with kdtreeValues := t.glob.kdtreeValues, volumes := t.glob.volumes }
    kdtree := t.kdtree
    loc := t.loc
    localIndex := t.localIndex }
  tree : s.kdtree ≠ none → t.kdtree = s.kdtree ∧ t.glob.kdtreeValues = s.glob.kdtreeValues
  volumes : ¬ vols → t.glob.volumes = s.glob.volumes
  parts : ¬ locs → s.loc.values ≠ none → t.loc = s.loc ∧ t.localIndex = s.localIndex

/-- The discretization `e` is what is left of `d`: the same sets are there, with what they had, and
the pointers that were there. -/
structure Spec.Left {K : Type} [Field K] [LinearOrder K] (vols locs : SetName → Prop) (d e : Disc K) :
    Prop where
  none_iff : ∀ k, d.slot k = none ↔ e.slot k = none
  sets : ∀ k s t, d.slot k = some s → e.slot k = some t → Kept (vols k) (locs k) s t
  pointers : ∀ k, pointerLocal k d ≠ none →
    pointerLocal k e = pointerLocal k d ∧ pointer k e = pointer k d

/-- The same calls in the models of `Model.DiscHistory` and `Model.CalculateP`, which give the state
after a call that returns. -/
def Spec.returning {K : Type} [Field K] [LinearOrder K] (G : Geometry K) (size : Nat) (d : Disc K) :
    DiscCall K → Except Err (Disc K)
  | .op o => d.step G size o
  | .prob g => BET.prob G size d g
  | .probOnEmulated g => BET.probOnEmulated G size d g
  | .probWithEmulated => BET.probWithEmulatedVolumes G size d

/-- The calls that compute something; they are given no data. -/
def Spec.Computes {K : Type} : DiscCall K → Prop
  | .op (.setPtr _ _) => True
  | .op .globalizePtrs => True
  | .op .estimateInput => True
  | .op .estimateOutput => True
  | .op .globalToLocal => True
  | .op _ => False
  | .prob _ => True
  | .probOnEmulated _ => True
  | .probWithEmulated => True

/-- The data of a discretization: which sets it has, their points, dimensions, domains and reference
points, and the probabilities of all sets but the input set, whose probabilities are computed.  The
emulated input set is left out. -/
def Spec.SameData {K : Type} (d e : Disc K) : Prop :=
  ∀ k, k ≠ SetName.emInput → (d.slot k = none ↔ e.slot k = none) ∧
    ∀ s t, d.slot k = some s → e.slot k = some t →
      t.glob.values = s.glob.values ∧ t.dim = s.dim ∧ t.domain = s.domain ∧
      t.referenceValue = s.referenceValue ∧
      (k ≠ .input → t.glob.probabilities = s.glob.probabilities)

/-! ## Statements in sequence -/

namespace Act

variable {S α β : Type}

theorem bind_ok {m : Act S α} {f : α → Act S β} {s t : S} {b : β} :
    (m >>= f) s = (.ok b, t) ↔ ∃ a u, m s = (.ok a, u) ∧ f a u = (.ok b, t) := by
  show Act.bind m f s = _ ↔ _
  unfold Act.bind
  rcases m s with ⟨_ | a, u⟩
  · constructor
    · intro h; cases h
    · rintro ⟨a, u, h, -⟩; cases h
  · constructor
    · intro h; exact ⟨a, u, rfl, h⟩
    · rintro ⟨a, u, h, h'⟩; cases h; exact h'

theorem bind_error {m : Act S α} {f : α → Act S β} {s t : S} {e : Err} :
    (m >>= f) s = (.error e, t) ↔
      m s = (.error e, t) ∨ ∃ a u, m s = (.ok a, u) ∧ f a u = (.error e, t) := by
  show Act.bind m f s = _ ↔ _
  unfold Act.bind
  rcases m s with ⟨e' | a, u⟩
  · constructor
    · intro h; exact Or.inl (by cases h; rfl)
    · rintro (h | ⟨a, u, h, -⟩)
      · cases h; rfl
      · cases h
  · constructor
    · intro h; exact Or.inr ⟨a, u, rfl, h⟩
    · rintro (h | ⟨a, u, h, h'⟩)
      · cases h
      · cases h; exact h'

theorem look_ok {f : S → Except Err α} {s t : S} {a : α} :
    look f s = (.ok a, t) ↔ f s = .ok a ∧ t = s := by
  simp only [look, Prod.mk.injEq, eq_comm (a := s)]

theorem look_error {f : S → Except Err α} {s t : S} {e : Err} :
    look f s = (.error e, t) ↔ f s = .error e ∧ t = s := by
  simp only [look, Prod.mk.injEq, eq_comm (a := s)]

theorem change_ok {f : S → S} {s t : S} {u : Unit} : change f s = (.ok u, t) ↔ t = f s := by
  simp only [change, Prod.mk.injEq, true_and, eq_comm (a := f s)]

theorem change_error {f : S → S} {s t : S} {e : Err} : ¬ change f s = (.error e, t) := by
  simp [change]

theorem whenever_ok {c : S → Bool} {m : Act S Unit} {s t : S} {u : Unit} :
    whenever c m s = (.ok u, t) ↔ (c s = true ∧ m s = (.ok u, t)) ∨ (c s = false ∧ t = s) := by
  unfold whenever
  cases c s <;> simp [eq_comm]

theorem whenever_error {c : S → Bool} {m : Act S Unit} {s t : S} {e : Err} :
    whenever c m s = (.error e, t) ↔ c s = true ∧ m s = (.error e, t) := by
  unfold whenever
  cases c s <;> simp

/-- Whatever the outcome, `R` holds between the state before and the state after. -/
def Pres (R : S → S → Prop) (m : Act S α) : Prop := ∀ s, R s (m s).2

/-- When the call raises, `R` holds between the state before and the state after. -/
def PresErr (R : S → S → Prop) (m : Act S α) : Prop :=
  ∀ s t e, m s = (.error e, t) → R s t

theorem Pres.err {R : S → S → Prop} {m : Act S α} (h : Pres R m) : PresErr R m :=
  fun s t e he => by have := h s; rw [he] at this; exact this

theorem pres_bind {R : S → S → Prop} (htrans : ∀ s t u, R s t → R t u → R s u) {m : Act S α}
    {f : α → Act S β} (hm : Pres R m) (hf : ∀ a, Pres R (f a)) : Pres R (m >>= f) := by
  intro s
  show R s (Act.bind m f s).2
  have h1 := hm s
  unfold Act.bind
  rcases hms : m s with ⟨e | a, u⟩
  · rw [hms] at h1; exact h1
  · rw [hms] at h1; exact htrans _ _ _ h1 (hf a u)

theorem presErr_bind {R : S → S → Prop} (htrans : ∀ s t u, R s t → R t u → R s u) {m : Act S α}
    {f : α → Act S β} (hm : Pres R m) (hf : ∀ a, PresErr R (f a)) : PresErr R (m >>= f) := by
  intro s t e h
  have h1 := hm s
  rcases bind_error.1 h with h | ⟨a, u, h, h'⟩
  · rw [h] at h1; exact h1
  · rw [h] at h1; exact htrans _ _ _ h1 (hf a u t e h')

theorem presErr_bind' {R : S → S → Prop} {m : Act S α}
    {f : α → Act S β} (hm : PresErr R m) (hf : ∀ a s t e, f a s ≠ (.error e, t)) :
    PresErr R (m >>= f) := by
  intro s t e h
  rcases bind_error.1 h with h | ⟨a, u, _, h'⟩
  · exact hm s t e h
  · exact absurd h' (hf a u t e)

theorem pres_look {R : S → S → Prop} (hr : ∀ s, R s s) (f : S → Except Err α) : Pres R (look f) :=
  fun s => hr s

theorem pres_whenever {R : S → S → Prop} (hr : ∀ s, R s s) {c : S → Bool} {m : Act S Unit}
    (h : ∀ s, c s = true → R s (m s).2) : Pres R (whenever c m) := by
  intro s
  unfold whenever
  by_cases hc : c s = true
  · rw [if_pos hc]; exact h s hc
  · rw [if_neg hc]; exact hr s

end Act

open Act

/-! ## One set -/

section
variable {K : Type} {vols locs : Prop}

theorem kept_refl (s : SampleSet K) : Kept vols locs s s :=
  ⟨rfl, fun _ => ⟨rfl, rfl⟩, fun _ => rfl, fun _ _ => ⟨rfl, rfl⟩⟩

theorem kept_trans {s t u : SampleSet K} (h : Kept vols locs s t) (h' : Kept vols locs t u) :
    Kept vols locs s u := by
  refine ⟨?_, ?_, ?_, ?_⟩
  · rw [h'.rest, h.rest]
  · intro hs
    obtain ⟨a, b⟩ := h.tree hs
    obtain ⟨a', b'⟩ := h'.tree (by rw [a]; exact hs)
    exact ⟨a'.trans a, b'.trans b⟩
  · exact fun hv => (h'.volumes hv).trans (h.volumes hv)
  · intro hl hs
    obtain ⟨a, b⟩ := h.parts hl hs
    obtain ⟨a', b'⟩ := h'.parts hl (by rw [a]; exact hs)
    exact ⟨a'.trans a, b'.trans b⟩

theorem globalToLocalA_eq (size : Nat) (s : SampleSet K) :
    SampleSet.globalToLocalA size s =
      match s.globalToLocal size with
      | .ok t => (.ok (), t)
      | .error e => (.error e, s) := by
  unfold SampleSet.globalToLocalA SampleSet.globalToLocal
  show Act.bind _ _ s = _
  unfold Act.bind look
  cases s.checkNum size <;> rfl

theorem globalToLocalA_ok {size : Nat} {s t : SampleSet K} {u : Unit} :
    SampleSet.globalToLocalA size s = (.ok u, t) ↔ s.globalToLocal size = .ok t := by
  rw [globalToLocalA_eq]
  cases s.globalToLocal size <;> simp

theorem globalToLocalA_error {size : Nat} {s t : SampleSet K} {e : Err} :
    SampleSet.globalToLocalA size s = (.error e, t) ↔ s.globalToLocal size = .error e ∧ t = s := by
  rw [globalToLocalA_eq]
  cases s.globalToLocal size <;> simp [eq_comm]

theorem globalToLocal_kept {size : Nat} {s t : SampleSet K} (h : s.globalToLocal size = .ok t) :
    Kept vols True s t := by
  unfold SampleSet.globalToLocal at h
  rw [bind_eq_ok] at h
  obtain ⟨n, _, h⟩ := h
  rw [pure_eq_ok] at h
  subst h
  exact ⟨rfl, fun _ => ⟨rfl, rfl⟩, fun _ => rfl, fun h => absurd trivial h⟩

theorem kept_weaken {s t : SampleSet K} {vols' locs' : Prop} (h : Kept vols locs s t)
    (hv : vols → vols') (hl : locs → locs') : Kept vols' locs' s t :=
  ⟨h.rest, h.tree, fun hn => h.volumes fun x => hn (hv x), fun hn => h.parts fun x => hn (hl x)⟩

theorem pres_globalToLocalA (size : Nat) (hl : locs) :
    Pres (Kept vols locs) (SampleSet.globalToLocalA (K := K) size) := by
  intro s
  rw [globalToLocalA_eq]
  cases h : s.globalToLocal size with
  | error e => exact kept_refl s
  | ok t => exact kept_weaken (globalToLocal_kept h) id fun _ => hl

theorem pres_localizedA (size : Nat) :
    Pres (Kept vols locs) (SampleSet.localizedA (K := K) size) := by
  refine pres_whenever kept_refl fun s hs => ?_
  have h := pres_globalToLocalA (vols := vols) (locs := True) size trivial s
  refine ⟨h.rest, h.tree, h.volumes, fun _ hne => ?_⟩
  exact absurd (Option.isNone_iff_eq_none.1 hs) hne

theorem localizedA_ok {size : Nat} {s t : SampleSet K} {u : Unit} :
    SampleSet.localizedA size s = (.ok u, t) ↔ s.localized size = .ok t := by
  unfold SampleSet.localizedA SampleSet.localized
  rw [whenever_ok, globalToLocalA_ok]
  cases s.loc.values.isNone <;> simp [eq_comm]

variable [Field K] [LinearOrder K]

theorem ensureTreeA_eq (size : Nat) (s : SampleSet K) :
    SampleSet.ensureTreeA size s =
      match s.ensureTree size with
      | .ok t => (.ok (), t)
      | .error e => (.error e, s) := by
  unfold SampleSet.ensureTreeA SampleSet.ensureTree
  rcases h : s.kdtree with _ | pts
  · simp only [Option.isNone_none, if_true]
    unfold SampleSet.setKdtreeA SampleSet.setKdtree
    show Act.bind _ _ s = _
    unfold Act.bind look
    dsimp only
    cases hv : s.glob.values
    · rfl
    · simp only [orErr_some, ok_bind, change, hv]
      rfl
  · simp only [Option.isNone_some, Bool.false_eq_true, if_false]
    cases s.checkNum size <;> rfl

theorem ensureTree_kept {size : Nat} {s t : SampleSet K} (h : s.ensureTree size = .ok t) :
    Kept vols locs s t := by
  unfold SampleSet.ensureTree at h
  split at h
  · rename_i hn
    simp only [SampleSet.setKdtree, bind_eq_ok, orErr_eq_ok, pure_eq_ok] at h
    obtain ⟨v, _, rfl⟩ := h
    exact ⟨rfl, fun hne => absurd hn hne, fun _ => rfl, fun _ _ => ⟨rfl, rfl⟩⟩
  · rw [bind_eq_ok] at h
    obtain ⟨_, _, h⟩ := h
    rw [pure_eq_ok] at h
    subst h
    exact kept_refl s

theorem pres_queryA (G : Geometry K) (size : Nat) (xs : Chunks (List K)) :
    Pres (Kept vols locs) (SampleSet.queryA G size xs) := by
  intro s
  unfold SampleSet.queryA
  split
  · refine pres_bind (R := Kept vols locs) (fun _ _ _ => kept_trans) (fun s => ?_)
      (fun _ => pres_look kept_refl _) s
    rw [ensureTreeA_eq]
    cases h : s.ensureTree size with
    | error e => exact kept_refl s
    | ok t => exact ensureTree_kept h
  · exact kept_refl s

theorem queryA_ok {G : Geometry K} {size : Nat} {xs : Chunks (List K)} {s t : SampleSet K}
    {p : Chunks Nat} (h : SampleSet.queryA G size xs s = (.ok p, t)) :
    s.query G size xs = .ok (t, p) := by
  unfold SampleSet.queryA at h
  unfold SampleSet.query
  split at h
  · rename_i hk
    obtain ⟨_, u, h1, h2⟩ := bind_ok.1 h
    rw [ensureTreeA_eq] at h1
    cases h3 : s.ensureTree size with
    | error e => rw [h3] at h1; cases h1
    | ok w =>
      rw [h3] at h1
      cases h1
      obtain ⟨h4, rfl⟩ := look_ok.1 h2
      unfold SampleSet.treeQuery at h4
      simp only [bind_eq_ok, orErr_eq_ok, raiseIf_eq_ok, pure_eq_ok] at h4
      obtain ⟨pts, hp, _, _, rfl⟩ := h4
      simp only [hk, ok_bind, hp, orErr_some]
      rfl
  · rename_i hk
    simp only [Prod.mk.injEq] at h
    obtain ⟨h, rfl⟩ := h
    unfold SampleSet.query at h
    split at h
    · rename_i hk'; exact absurd hk' hk
    · rename_i hk'
      cases h1 : s.checkNum size with
      | error e => rw [h1] at h; cases h
      | ok n =>
        rw [h1, ok_bind] at h
        cases h2 : (xs.mapM fun c => c.mapM fun x => do
            let row ← s.regionQuery G size 1 x
            pure (row.getD 0 (0, false)).1) with
        | error e => rw [h2] at h; cases h
        | ok ptr =>
          rw [h2, ok_bind] at h
          have : ptr = p := by
            simpa [Except.map, pure, Except.pure] using h
          subst this
          rfl

end

/-! ## The sets of a discretization -/

section
variable {K : Type} [Field K] [LinearOrder K]

theorem slot_putSlot (d : Disc K) (s : SampleSet K) (k : SetName) :
    (d.putSlot s k).slot k = some s := by cases k <;> rfl

theorem slot_putSlot_ne (d : Disc K) (s : SampleSet K) {k k' : SetName} (h : k' ≠ k) :
    (d.putSlot s k).slot k' = d.slot k' := by
  cases k <;> cases k' <;> first | rfl | exact absurd rfl h

theorem pointer_putSlot (d : Disc K) (s : SampleSet K) (k : SetName) (p : PtrKind) :
    pointerLocal p (d.putSlot s k) = pointerLocal p d ∧ pointer p (d.putSlot s k) = pointer p d := by
  cases k <;> cases p <;> exact ⟨rfl, rfl⟩

theorem on_ok {α : Type} {k : SetName} {m : Act (SampleSet K) α} {d e : Disc K} {a : α} :
    Disc.on k m d = (.ok a, e) ↔
      ∃ s t, d.slot k = some s ∧ m s = (.ok a, t) ∧ e = d.putSlot t k := by
  unfold Disc.on
  rcases d.slot k with _ | s
  · simp
  · simp only [Prod.mk.injEq, Option.some.injEq]
    constructor
    · rintro ⟨h1, h2⟩
      exact ⟨s, (m s).2, rfl, by rw [← h1], h2.symm⟩
    · rintro ⟨_, t, rfl, h2, h3⟩
      rw [h2]
      exact ⟨rfl, h3.symm⟩

theorem on_error {α : Type} {k : SetName} {m : Act (SampleSet K) α} {d e : Disc K} {err : Err} :
    Disc.on k m d = (.error err, e) ↔
      (d.slot k = none ∧ err = .attributeError ∧ e = d) ∨
      ∃ s t, d.slot k = some s ∧ m s = (.error err, t) ∧ e = d.putSlot t k := by
  unfold Disc.on
  rcases d.slot k with _ | s
  · simp [eq_comm]
  · simp only [Prod.mk.injEq, Option.some.injEq, reduceCtorEq, false_and, false_or]
    constructor
    · rintro ⟨h1, h2⟩
      exact ⟨s, (m s).2, rfl, by rw [← h1], h2.symm⟩
    · rintro ⟨_, t, rfl, h2, h3⟩
      rw [h2]
      exact ⟨rfl, h3.symm⟩

variable {vols locs : SetName → Prop}

theorem left_refl (d : Disc K) : Left vols locs d d :=
  ⟨fun _ => Iff.rfl, fun _ s t h h' => by rw [h] at h'; cases h'; exact kept_refl s,
    fun _ _ => ⟨rfl, rfl⟩⟩

theorem left_trans {d e f : Disc K} (h : Left vols locs d e) (h' : Left vols locs e f) :
    Left vols locs d f := by
  refine ⟨fun k => (h.none_iff k).trans (h'.none_iff k), ?_, ?_⟩
  · intro k s u hs hu
    cases ht : e.slot k with
    | none => rw [(h'.none_iff k).1 ht] at hu; cases hu
    | some t => exact kept_trans (h.sets k s t hs ht) (h'.sets k t u ht hu)
  · intro k hk
    obtain ⟨a, b⟩ := h.pointers k hk
    obtain ⟨a', b'⟩ := h'.pointers k (by rw [a]; exact hk)
    exact ⟨a'.trans a, b'.trans b⟩

theorem left_putSlot {d : Disc K} {k : SetName} {s t : SampleSet K} (hs : d.slot k = some s)
    (h : Kept (vols k) (locs k) s t) : Left vols locs d (d.putSlot t k) := by
  refine ⟨?_, ?_, ?_⟩
  · intro k'
    by_cases hk : k' = k
    · subst hk; rw [slot_putSlot, hs]; simp
    · rw [slot_putSlot_ne _ _ hk]
  · intro k' s' t' hs' ht'
    by_cases hk : k' = k
    · subst hk
      rw [slot_putSlot] at ht'
      rw [hs] at hs'
      cases hs'
      cases ht'
      exact h
    · rw [slot_putSlot_ne _ _ hk, hs'] at ht'
      cases ht'
      exact kept_refl _
  · intro p _
    exact pointer_putSlot d t k p

theorem pres_on {α : Type} {k : SetName} {m : Act (SampleSet K) α}
    (h : Pres (Kept (vols k) (locs k)) m) : Pres (Left vols locs) (Disc.on k m) := by
  intro d
  unfold Disc.on
  cases hs : d.slot k with
  | none => exact left_refl d
  | some s => exact left_putSlot hs (h s)

theorem pres_on_look {α : Type} {k : SetName} (f : SampleSet K → Except Err α) :
    Pres (Left vols locs) (Disc.on k (look f)) :=
  pres_on (pres_look kept_refl f)

theorem tr {d e f : Disc K} (h : Left vols locs d e) (h' : Left vols locs e f) :
    Left vols locs d f := left_trans h h'

/-- Up to the assignment of the pointer. -/
theorem setPtrA_error {G : Geometry K} {size : Nat} {k : PtrKind} {g : Bool} :
    PresErr (Left vols locs) (Disc.setPtrA (K := K) G size k g) := by
  unfold Disc.setPtrA
  refine presErr_bind (R := Left vols locs) (fun _ _ _ => left_trans) (pres_on (pres_localizedA size)) fun _ => ?_
  refine presErr_bind (R := Left vols locs) (fun _ _ _ => left_trans) (pres_look left_refl _) fun _ => ?_
  refine presErr_bind (R := Left vols locs) (fun _ _ _ => left_trans) (pres_on_look _) fun _ => ?_
  refine presErr_bind' (pres_on (pres_queryA _ _ _)).err fun ptr s t e h => ?_
  rcases bind_error.1 h with h | ⟨_, _, _, h⟩
  · exact change_error h
  · exact change_error (whenever_error.1 h).2

theorem left_putPtr {d : Disc K} {k : PtrKind} (h : pointerLocal k d = none) (p : Chunks Nat) :
    Left vols locs d (Disc.putPtrLocal k p d) := by
  refine ⟨?_, ?_, ?_⟩
  · intro k'; cases k <;> cases k' <;> exact Iff.rfl
  · intro k' s t hs ht
    have : (Disc.putPtrLocal k p d).slot k' = d.slot k' := by cases k <;> cases k' <;> rfl
    rw [this, hs] at ht
    cases ht
    exact kept_refl _
  · intro k' hk'
    cases k <;> cases k' <;> first | exact ⟨rfl, rfl⟩ | exact absurd h hk'

theorem left_put {d e : Disc K} {k : PtrKind} (h : pointerLocal k d = none)
    (hL : Left vols locs d e) (p : Chunks Nat) (o : Option (List Nat)) :
    Left vols locs d
      (match o with
        | none => Disc.putPtrLocal k p e
        | some q => Disc.putPtr k q (Disc.putPtrLocal k p e)) := by
  have hslot : ∀ k', (match o with
      | none => Disc.putPtrLocal k p e
      | some q => Disc.putPtr k q (Disc.putPtrLocal k p e)).slot k' = e.slot k' := by
    intro k'
    cases o <;> cases k <;> cases k' <;> rfl
  refine ⟨?_, ?_, ?_⟩
  · intro k'; rw [hslot]; exact hL.none_iff k'
  · intro k' s t hs ht; rw [hslot] at ht; exact hL.sets k' s t hs ht
  · intro k' hk'
    have := hL.pointers k' hk'
    cases o <;> cases k <;> cases k' <;> first | exact this | exact absurd h hk'

/-- A pointer that is not there is computed. -/
theorem setPtrA_left {G : Geometry K} {size : Nat} {k : PtrKind} {g : Bool} {d : Disc K}
    (h : pointerLocal k d = none) : Left vols locs d (Disc.setPtrA G size k g d).2 := by
  rcases hr : Disc.setPtrA G size k g d with ⟨e | u, d'⟩
  · exact setPtrA_error _ _ _ hr
  · unfold Disc.setPtrA at hr
    obtain ⟨_, d1, h1, hr⟩ := bind_ok.1 hr
    obtain ⟨_, d2, h2, hr⟩ := bind_ok.1 hr
    obtain ⟨x, d3, h3, hr⟩ := bind_ok.1 hr
    obtain ⟨ptr, d4, h4, hr⟩ := bind_ok.1 hr
    obtain ⟨_, d5, h5, hr⟩ := bind_ok.1 hr
    have e1 : Left vols locs d d1 := by
      have := pres_on (vols := vols) (locs := locs) (k := Disc.ptrPoints k) (pres_localizedA size) d
      rw [h1] at this; exact this
    have e2 : Left vols locs d1 d2 := by
      rw [(look_ok.1 h2).2]; exact left_refl _
    have e3 : Left vols locs d2 d3 := by
      have := pres_on_look (vols := vols) (locs := locs) (k := Disc.ptrPoints k)
        (fun s : SampleSet K => orErr .typeError s.loc.values) d2
      rw [h3] at this; exact this
    have e4 : Left vols locs d3 d4 := by
      have := pres_on (vols := vols) (locs := locs) (k := Disc.ptrCells k) (pres_queryA G size x) d3
      rw [h4] at this; exact this
    have e := left_trans (left_trans (left_trans e1 e2) e3) e4
    rw [change_ok] at h5
    subst h5
    rcases whenever_ok.1 hr with ⟨_, hr⟩ | ⟨_, rfl⟩
    · rw [change_ok] at hr
      subst hr
      exact left_put h e ptr (some _)
    · exact left_put h e ptr none

theorem pres_ensureIo (G : Geometry K) (size : Nat) (g : Bool) :
    Pres (Left vols locs) (Disc.ensureIoPtrA (K := K) G size g) :=
  pres_whenever left_refl fun d hd =>
    setPtrA_left (k := .io) (show d.ioPtrLocal = none from Option.isNone_iff_eq_none.1 hd)

theorem pres_ensureIi (G : Geometry K) (size : Nat) :
    Pres (Left vols locs) (Disc.ensureIiPtrA (K := K) G size) :=
  pres_whenever left_refl fun d hd =>
    setPtrA_left (k := .ii) (show d.iiPtrLocal = none from Option.isNone_iff_eq_none.1 hd)

theorem on_change_ok {k : SetName} {f : SampleSet K → SampleSet K} {d e : Disc K} {u : Unit}
    (h : Disc.on k (change f) d = (.ok u, e)) : ∃ s, d.slot k = some s ∧ e = d.putSlot (f s) k := by
  obtain ⟨s, t, h1, h2, h3⟩ := on_ok.1 h
  rw [change_ok] at h2
  subst h2
  exact ⟨s, h1, h3⟩

theorem on_change_error {k : SetName} {f : SampleSet K → SampleSet K} {d e : Disc K} {err : Err}
    (h : Disc.on k (change f) d = (.error err, e)) : d.slot k = none ∧ e = d := by
  rcases on_error.1 h with ⟨h1, _, h2⟩ | ⟨s, t, _, h2, _⟩
  · exact ⟨h1, h2⟩
  · exact absurd h2 change_error

theorem probA_error {G : Geometry K} {size : Nat} {g : Bool} :
    PresErr (Left vols locs) (Disc.probA (K := K) G size g) := by
  unfold Disc.probA
  refine presErr_bind (R := Left vols locs) (fun _ _ _ => left_trans) (pres_look left_refl _)
    fun _ => ?_
  refine presErr_bind (R := Left vols locs) (fun _ _ _ => left_trans) (pres_on_look _) fun _ => ?_
  refine presErr_bind (R := Left vols locs) (fun _ _ _ => left_trans) (pres_ensureIo _ _ _)
    fun _ => ?_
  refine presErr_bind (R := Left vols locs) (fun _ _ _ => left_trans)
    (pres_on (pres_localizedA size)) fun _ => ?_
  refine presErr_bind (R := Left vols locs) (fun _ _ _ => left_trans) (pres_look left_refl _)
    fun P => ?_
  intro d d' e h
  rcases bind_error.1 h with h | ⟨_, d1, h1, h⟩
  · rw [(on_change_error (whenever_error.1 h).2).2]; exact left_refl d
  · obtain ⟨h2, rfl⟩ := on_change_error h
    rcases whenever_ok.1 h1 with ⟨_, h1⟩ | ⟨_, rfl⟩
    · obtain ⟨s, _, rfl⟩ := on_change_ok h1
      rw [slot_putSlot] at h2
      cases h2
    · exact left_refl _

theorem probOnEmulatedA_error {G : Geometry K} {size : Nat} {g : Bool} :
    PresErr (Left vols locs) (Disc.probOnEmulatedA (K := K) G size g) := by
  unfold Disc.probOnEmulatedA
  refine presErr_bind (R := Left vols locs) (fun _ _ _ => left_trans) (pres_look left_refl _)
    fun _ => ?_
  refine presErr_bind (R := Left vols locs) (fun _ _ _ => left_trans) (pres_on_look _) fun _ => ?_
  refine presErr_bind (R := Left vols locs) (fun _ _ _ => left_trans) (pres_on_look _) fun _ => ?_
  refine presErr_bind (R := Left vols locs) (fun _ _ _ => left_trans) (pres_ensureIo _ _ _)
    fun _ => ?_
  refine presErr_bind (R := Left vols locs) (fun _ _ _ => left_trans) (pres_ensureIi _ _)
    fun _ => ?_
  refine presErr_bind (R := Left vols locs) (fun _ _ _ => left_trans) (pres_look left_refl _)
    fun P => ?_
  intro d d' e h
  rcases bind_error.1 h with h | ⟨_, d1, h1, h⟩
  · rw [(on_change_error h).2]; exact left_refl d
  · obtain ⟨s, _, rfl⟩ := on_change_ok h1
    have h2 := (on_change_error (whenever_error.1 h).2).1
    rw [slot_putSlot] at h2
    cases h2

theorem putSlot_same {d : Disc K} {k : SetName} {s : SampleSet K} (h : d.slot k = some s) :
    d.putSlot s k = d := by
  obtain ⟨i, o, p, ei, eo, io, iol, ii, iil, oo, ool⟩ := d
  cases k <;> (simp only [Disc.slot] at h; subst h; rfl)

theorem on_look_ok {α : Type} {k : SetName} {f : SampleSet K → Except Err α} {d e : Disc K} {a : α}
    (h : Disc.on k (look f) d = (.ok a, e)) : ∃ s, d.slot k = some s ∧ f s = .ok a ∧ e = d := by
  obtain ⟨s, t, h1, h2, h3⟩ := on_ok.1 h
  obtain ⟨h2, rfl⟩ := look_ok.1 h2
  exact ⟨t, h1, h2, h3.trans (putSlot_same h1)⟩

theorem queryA_state {G : Geometry K} {size : Nat} {xs : Chunks (List K)} {s t : SampleSet K}
    {r : Except Err (Chunks Nat)} (h : SampleSet.queryA G size xs s = (r, t)) :
    t = s ∨ ∃ v, s.glob.values = some v ∧
      t = { s with kdtree := some v, glob := { s.glob with kdtreeValues := some v } } := by
  unfold SampleSet.queryA at h
  split at h
  · have ht : t = (SampleSet.ensureTreeA size s).2 := by
      have h' : (Act.bind (SampleSet.ensureTreeA size)
        fun _ => look (SampleSet.treeQuery G xs)) s = (r, t) := h
      rcases hm : SampleSet.ensureTreeA size s with ⟨e | a, u⟩
      · simp only [Act.bind, hm, Prod.mk.injEq] at h'
        exact h'.2.symm
      · simp only [Act.bind, hm, look, Prod.mk.injEq] at h'
        exact h'.2.symm
    rw [ensureTreeA_eq] at ht
    cases h3 : s.ensureTree size with
    | error e => rw [h3] at ht; exact Or.inl ht
    | ok w =>
      rw [h3] at ht
      simp only at ht
      subst ht
      unfold SampleSet.ensureTree at h3
      split at h3
      · simp only [SampleSet.setKdtree, bind_eq_ok, orErr_eq_ok, pure_eq_ok] at h3
        obtain ⟨v, hv, rfl⟩ := h3
        exact Or.inr ⟨v, hv, rfl⟩
      · rw [bind_eq_ok] at h3
        obtain ⟨_, _, h3⟩ := h3
        rw [pure_eq_ok] at h3
        exact Or.inl h3.symm
  · cases h
    exact Or.inl rfl

/-- New volumes for all cells keep the set countable. -/
theorem volumes_count {G : Geometry K} {size num : Nat} {xs : Chunks (List K)} {s t : SampleSet K}
    {r : Except Err (Chunks Nat)} (hn : s.checkNum size = .ok num)
    (h : SampleSet.queryA G size xs s = (r, t)) {w : List K} (hw : w.length = num) :
    ({ t with glob := { t.glob with volumes := some w } } : SampleSet K).checkNum size = .ok num := by
  have ha := SampleSet.checkNum_allLength hn
  have hc : HasCols s.dim s.glob.values := by
    rcases SampleSet.checkNum_ok hn with h | h
    · exact h.2.2
    · intro v hv; rw [h.values] at hv; cases hv
  apply SampleSet.checkNum_consistent
  rcases queryA_state h with rfl | ⟨v, hv, rfl⟩
  · refine ⟨?_, fun hne => (by have := hne.volumes; cases this), hc⟩
    exact { ha with volumes := fun v hv => by cases hv; exact hw }
  · refine ⟨?_, fun hne => (by have := hne.volumes; cases this), hc⟩
    exact { ha with
      volumes := fun v hv => by cases hv; exact hw
      kdtreeValues := fun v' hv' => by cases hv'; exact ha.values _ hv }

theorem globalToLocalA_never {size num : Nat} {s t : SampleSet K} {e : Err}
    (h : s.checkNum size = .ok num) : SampleSet.globalToLocalA size s ≠ (.error e, t) := by
  intro he
  have := (globalToLocalA_error.1 he).1
  simp only [SampleSet.globalToLocal, h, ok_bind] at this
  cases this

theorem estimateA_error {G : Geometry K} {size : Nat} {cells pts : SetName} (hne : cells ≠ pts) :
    PresErr (Left vols locs) (Disc.estimateA (K := K) G size cells pts) := by
  intro d d' e h
  unfold Disc.estimateA at h
  replace h := bind_error.1 h
  rcases h with h | ⟨_, d1, h1, h⟩
  · rw [(look_error.1 h).2]; exact left_refl d
  obtain ⟨_, h1⟩ := look_ok.1 h1
  subst h1
  replace h := bind_error.1 h
  rcases h with h | ⟨num, d2, h2, h⟩
  · exact (pres_on_look _).err _ _ _ h
  obtain ⟨s, hs, hnum, rfl⟩ := on_look_ok h2
  replace h := bind_error.1 h
  rcases h with h | ⟨_, d3, h3, h⟩
  · exact (pres_on (pres_localizedA size)).err _ _ _ h
  have e3 : Left vols locs d2 d3 := by
    have := pres_on (vols := vols) (locs := locs) (k := pts) (pres_localizedA size) d2
    rw [h3] at this; exact this
  obtain ⟨p, p', hp, _, rfl⟩ := on_ok.1 h3
  replace h := bind_error.1 h
  rcases h with h | ⟨x, d4, h4, h⟩
  · exact left_trans e3 ((pres_on_look _).err _ _ _ h)
  obtain ⟨_, _, _, rfl⟩ := on_look_ok h4
  replace h := bind_error.1 h
  rcases h with h | ⟨ptr, d5, h5, h⟩
  · exact left_trans e3 ((pres_on (pres_queryA _ _ _)).err _ _ _ h)
  have e5 : Left vols locs (d2.putSlot p' pts) d5 := by
    have := pres_on (vols := vols) (locs := locs) (k := cells) (pres_queryA G size x)
      (d2.putSlot p' pts)
    rw [h5] at this; exact this
  obtain ⟨s', t, hs', hq, rfl⟩ := on_ok.1 h5
  rw [slot_putSlot_ne _ _ hne, hs] at hs'
  cases hs'
  replace h := bind_error.1 h
  rcases h with h | ⟨_, d6, h6, h⟩
  · rw [(look_error.1 h).2]; exact left_trans e3 e5
  obtain ⟨_, rfl⟩ := look_ok.1 h6
  exfalso
  replace h := bind_error.1 h
  rcases h with h | ⟨_, d7, h7, h⟩
  · have := (on_change_error h).1
    rw [slot_putSlot] at this
    cases this
  · obtain ⟨t', ht', rfl⟩ := on_change_ok h7
    rw [slot_putSlot] at ht'
    cases ht'
    replace h := on_error.1 h
    rcases h with ⟨h8, _⟩ | ⟨u, _, hu, hg, _⟩
    · rw [slot_putSlot] at h8; cases h8
    · rw [slot_putSlot] at hu
      cases hu
      exact globalToLocalA_never (volumes_count hnum hq (by simp)) hg

/-! ## The calls that return -/

theorem setPtrA_ok {G : Geometry K} {size : Nat} {k : PtrKind} {g : Bool} {d d' : Disc K} {u : Unit}
    (h : Disc.setPtrA G size k g d = (.ok u, d')) : d.setPtr G size k g = .ok d' := by
  unfold Disc.setPtrA at h
  replace h := bind_ok.1 h
  obtain ⟨_, d1, h1, h⟩ := h
  replace h := bind_ok.1 h
  obtain ⟨c, d2, h2, h⟩ := h
  replace h := bind_ok.1 h
  obtain ⟨x, d3, h3, h⟩ := h
  replace h := bind_ok.1 h
  obtain ⟨ptr, d4, h4, h⟩ := h
  replace h := bind_ok.1 h
  obtain ⟨_, d5, h5, h⟩ := h
  replace h1 := on_ok.1 h1
  obtain ⟨s, t, hs, h1, e1⟩ := h1
  rw [localizedA_ok] at h1
  replace h2 := look_ok.1 h2
  obtain ⟨hc, e2⟩ := h2
  replace h3 := on_look_ok h3
  obtain ⟨t', ht, hx, e3⟩ := h3
  replace h4 := on_ok.1 h4
  obtain ⟨r, r', hr, hq, e4⟩ := h4
  replace hq := queryA_ok hq
  rw [change_ok] at h5
  subst e3 e2 e1
  rw [slot_putSlot] at ht
  obtain rfl : t = t' := Option.some.inj ht
  have hne : Disc.ptrCells k ≠ Disc.ptrPoints k := by cases k <;> nofun
  rw [slot_putSlot_ne _ _ hne] at hr
  rw [orErr_eq_ok] at hx
  have hx : orErr Err.typeError t.loc.values = Except.ok x := by rw [hx]; rfl
  have hd : d' = (if g then Disc.putPtr k (getGlobalValues ptr) d5 else d5) := by
    rcases whenever_ok.1 h with ⟨hg, h⟩ | ⟨hg, h⟩
    · rw [change_ok] at h
      rw [h, if_pos hg]
    · have hg : g = false := hg
      rw [h, hg]; rfl
  subst hd h5 e4
  cases k
  · have hs : d.output = some s := hs
    have hr : d.outputProb = some r := hr
    simp only [Disc.setPtr, Disc.setIoPtr, hs, hr, orErr_some, ok_bind, h1, hx, hq]
    cases g <;> rfl
  · have hs : d.emInput = some s := hs
    have hr : d.input = some r := hr
    simp only [Disc.setPtr, Disc.setIiPtr, hs, hr, orErr_some, ok_bind, h1, hx, hq]
    cases g <;> rfl
  · have hs : d.emOutput = some s := hs
    have hr : d.outputProb = some r := hr
    simp only [Disc.setPtr, Disc.setOoPtr, hs, hr, orErr_some, ok_bind, h1, hx, hq]
    cases g <;> rfl

theorem setProbSetA_ok {G : Geometry K} {size : Nat} {ps : SampleSet K} {d d' : Disc K} {u : Unit}
    (h : Disc.setProbSetA G size ps d = (.ok u, d')) :
    d.setOutputProbabilitySet G size ps = .ok d' := by
  unfold Disc.setProbSetA at h
  replace h := bind_ok.1 h
  obtain ⟨_, d1, h1, h⟩ := h
  replace h := bind_ok.1 h
  obtain ⟨_, d2, h2, h⟩ := h
  replace h := bind_ok.1 h
  obtain ⟨out, d3, h3, h⟩ := h
  replace h1 := look_ok.1 h1
  obtain ⟨h1, e1⟩ := h1
  rw [raiseIf_eq_ok, Bool.not_eq_false] at h1
  rw [change_ok] at h2
  replace h3 := look_ok.1 h3
  obtain ⟨h3, e3⟩ := h3
  subst e1 e3 h2
  have h3' : orErr Err.attributeError d1.output = Except.ok out := h3
  have h3e := h3'
  rw [orErr_eq_ok] at h3'
  unfold Disc.setOutputProbabilitySet
  unfold Disc.dimsAgree at h1
  rw [h3'] at h1
  have hd : ∀ (a : Disc K → Except Err (Disc K)),
      (do
        let okOut := match d1.output with
          | some o => o.dim == ps.dim
          | none => true
        let okEm := match d1.emOutput with
          | some o => o.dim == ps.dim
          | none => true
        if okOut && okEm then a d1 else throw Err.dimNotMatching) = a d1 := by
    intro a
    rw [h3']
    cases he : d1.emOutput with
    | none => rw [he] at h1; exact if_pos h1
    | some o => rw [he] at h1; exact if_pos h1
  refine (hd fun d => do
    let d := { d with outputProb := some ps }
    let out ← orErr .attributeError d.output
    if out.loc.values.isSome && ps.glob.values.isSome then d.setIoPtr G size false
    else pure d).trans ?_
  dsimp only
  rw [h3e, ok_bind]
  rcases whenever_ok.1 h with ⟨hg, h⟩ | ⟨hg, h⟩
  · rw [if_pos hg]
    exact setPtrA_ok h
  · rw [if_neg (by rw [hg]; simp), h]
    rfl

theorem estimateA_ok {G : Geometry K} {size : Nat} {cells pts : SetName} (hne : cells ≠ pts)
    {d d' : Disc K} {u : Unit} (h : Disc.estimateA G size cells pts d = (.ok u, d')) :
    ∃ s p q, d.slot cells = some s ∧ d.slot pts = some p ∧
      s.estimateVolumeEmulated G size p = .ok q ∧
      d' = (d.putSlot q.2 pts).putSlot q.1 cells := by
  unfold Disc.estimateA at h
  replace h := bind_ok.1 h
  obtain ⟨_, d1, h1, h⟩ := h
  replace h := bind_ok.1 h
  obtain ⟨num, d2, h2, h⟩ := h
  replace h := bind_ok.1 h
  obtain ⟨_, d3, h3, h⟩ := h
  replace h := bind_ok.1 h
  obtain ⟨x, d4, h4, h⟩ := h
  replace h := bind_ok.1 h
  obtain ⟨ptr, d5, h5, h⟩ := h
  replace h := bind_ok.1 h
  obtain ⟨_, d6, h6, h⟩ := h
  replace h := bind_ok.1 h
  obtain ⟨_, d7, h7, h⟩ := h
  replace h1 := look_ok.1 h1
  obtain ⟨_, e1⟩ := h1
  replace h2 := on_look_ok h2
  obtain ⟨s, hs, hnum, e2⟩ := h2
  replace h3 := on_ok.1 h3
  obtain ⟨p, p', hp, hl, e3⟩ := h3
  rw [localizedA_ok] at hl
  replace h4 := on_look_ok h4
  obtain ⟨p'', hp', hx, e4⟩ := h4
  replace h5 := on_ok.1 h5
  obtain ⟨s', t, hs', hq, e5⟩ := h5
  replace hq := queryA_ok hq
  replace h6 := look_ok.1 h6
  obtain ⟨hz, e6⟩ := h6
  replace h7 := on_change_ok h7
  obtain ⟨t', ht', e7⟩ := h7
  replace h := on_ok.1 h
  obtain ⟨w, w', hw, hg, e8⟩ := h
  rw [globalToLocalA_ok] at hg
  subst e8 e7 e6 e5 e4 e3 e2 e1
  rw [slot_putSlot] at hp' ht' hw
  rw [slot_putSlot_ne _ _ hne] at hs'
  obtain rfl := Option.some.inj (hs.symm.trans hs')
  obtain rfl := Option.some.inj hp'
  obtain rfl := Option.some.inj ht'
  obtain rfl := Option.some.inj hw
  refine ⟨s, p, (w', p'), hs, hp, ?_, ?_⟩
  · unfold SampleSet.estimateVolumeEmulated
    simp only [hnum, hl, hx, hq, hz, hg, ok_bind]
    rfl
  · cases cells <;> cases pts <;> rfl

theorem localizeIf_ok {size : Nat} {k : SetName} {d d' : Disc K} {u : Unit}
    (h : Disc.localizeIf size k d = (.ok u, d')) :
    ∃ o, Disc.localizeOpt size (d.slot k) = .ok o ∧
      ((o = none ∧ d' = d ∧ d.slot k = none) ∨ ∃ s, o = some s ∧ d' = d.putSlot s k) := by
  rcases whenever_ok.1 h with ⟨hg, h⟩ | ⟨hg, h⟩
  · replace h := on_ok.1 h
    obtain ⟨s, t, hs, ht, e⟩ := h
    rw [globalToLocalA_ok] at ht
    refine ⟨some t, ?_, Or.inr ⟨t, rfl, e⟩⟩
    simp only [Disc.localizeOpt, hs, ht, ok_bind]
    rfl
  · have : d.slot k = none := Option.isSome_eq_false_iff.1 hg |> Option.isNone_iff_eq_none.1
    exact ⟨none, by rw [this]; rfl, Or.inl ⟨rfl, h, this⟩⟩

theorem globalToLocalA_ok' {size : Nat} {d d' : Disc K} {u : Unit}
    (h : Disc.globalToLocalA size d = (.ok u, d')) : d.globalToLocal size = .ok d' := by
  unfold Disc.globalToLocalA at h
  replace h := bind_ok.1 h
  obtain ⟨_, d1, h1, h⟩ := h
  replace h := bind_ok.1 h
  obtain ⟨_, d2, h2, h⟩ := h
  replace h := bind_ok.1 h
  obtain ⟨_, d3, h3, h4⟩ := h
  replace h1 := localizeIf_ok h1
  obtain ⟨o1, g1, h1⟩ := h1
  replace h2 := localizeIf_ok h2
  obtain ⟨o2, g2, h2⟩ := h2
  replace h3 := localizeIf_ok h3
  obtain ⟨o3, g3, h3⟩ := h3
  replace h4 := localizeIf_ok h4
  obtain ⟨o4, g4, h4⟩ := h4
  have r1 : d1 = { d with input := o1 } := by
    rcases h1 with ⟨rfl, rfl, h⟩ | ⟨s, rfl, rfl⟩
    · rw [← show d1.input = none from h]
    · rfl
  subst r1
  have r2 : d2 = { d with input := o1, output := o2 } := by
    rcases h2 with ⟨rfl, rfl, h⟩ | ⟨s, rfl, rfl⟩
    · rw [← show d.output = none from h]
    · rfl
  subst r2
  have r3 : d3 = { d with input := o1, output := o2, outputProb := o3 } := by
    rcases h3 with ⟨rfl, rfl, h⟩ | ⟨s, rfl, rfl⟩
    · rw [← show d.outputProb = none from h]
    · rfl
  subst r3
  have r4 : d' = { d with input := o1, output := o2, outputProb := o3, emInput := o4 } := by
    rcases h4 with ⟨rfl, rfl, h⟩ | ⟨s, rfl, rfl⟩
    · rw [← show d.emInput = none from h]
    · rfl
  subst r4
  simp only [Disc.slot] at g1 g2 g3 g4
  simp only [Disc.globalToLocal, g1, g2, g3, g4, ok_bind]
  rfl

theorem ensureIo_ok {G : Geometry K} {size : Nat} {g : Bool} {d d' : Disc K} {u : Unit}
    (h : Disc.ensureIoPtrA G size g d = (.ok u, d')) : d.ensureIoPtr G size g = .ok d' := by
  unfold Disc.ensureIoPtr
  rcases whenever_ok.1 h with ⟨hc, h⟩ | ⟨hc, h⟩
  · rw [if_pos hc]; exact setPtrA_ok h
  · rw [if_neg (by rw [hc]; simp), h]

theorem ensureIi_ok {G : Geometry K} {size : Nat} {d d' : Disc K} {u : Unit}
    (h : Disc.ensureIiPtrA G size d = (.ok u, d')) : d.ensureIiPtr G size = .ok d' := by
  unfold Disc.ensureIiPtr
  rcases whenever_ok.1 h with ⟨hc, h⟩ | ⟨hc, h⟩
  · rw [if_pos hc]; exact setPtrA_ok h
  · rw [if_neg (by rw [hc]; simp), h]

theorem probA_ok {G : Geometry K} {size : Nat} {g : Bool} {d d' : Disc K} {u : Unit}
    (h : Disc.probA G size g d = (.ok u, d')) : prob G size d g = .ok d' := by
  unfold Disc.probA at h
  replace h := bind_ok.1 h
  obtain ⟨c, d1, h1, h⟩ := h
  replace h := bind_ok.1 h
  obtain ⟨num, d2, h2, h⟩ := h
  replace h := bind_ok.1 h
  obtain ⟨_, d3, h3, h⟩ := h
  replace h := bind_ok.1 h
  obtain ⟨_, d4, h4, h⟩ := h
  replace h := bind_ok.1 h
  obtain ⟨P, d5, h5, h⟩ := h
  replace h := bind_ok.1 h
  obtain ⟨_, d6, h6, h⟩ := h
  replace h1 := look_ok.1 h1
  obtain ⟨hc, e1⟩ := h1
  replace h2 := on_look_ok h2
  obtain ⟨ops, hops, hnum, e2⟩ := h2
  replace h3 := ensureIo_ok h3
  replace h4 := on_ok.1 h4
  obtain ⟨i, i', hi, hl, e4⟩ := h4
  rw [localizedA_ok] at hl
  replace h5 := look_ok.1 h5
  obtain ⟨hP, e5⟩ := h5
  replace h := on_change_ok h
  obtain ⟨j, hj, e7⟩ := h
  subst e5 e4 e2 e1
  have hops : Disc.outputProb _ = some ops := hops
  have hi : Disc.input _ = some i := hi
  have hP : (do
      let ptr ← orErr .typeError d3.ioPtrLocal
      let ops ← orErr .attributeError d3.outputProb
      probLoop num ops.glob.probabilities ptr i'.loc.volumes) = Except.ok P := hP
  simp only [bind_eq_ok] at hP
  obtain ⟨ptr, hptr, ops', hops', hP⟩ := hP
  unfold prob
  simp only [hc, ok_bind, hops, orErr_some, hnum, h3, hi, hl, hptr, hops', hP]
  rcases whenever_ok.1 h6 with ⟨hg, h6⟩ | ⟨hg, h6⟩
  · replace h6 := on_change_ok h6
    obtain ⟨a, ha, e6⟩ := h6
    rw [slot_putSlot] at ha
    obtain rfl := Option.some.inj ha
    subst e6
    rw [slot_putSlot] at hj
    obtain rfl := Option.some.inj hj
    subst e7
    obtain rfl : g = true := hg
    rfl
  · subst h6
    rw [slot_putSlot] at hj
    obtain rfl := Option.some.inj hj
    subst e7
    obtain rfl : g = false := hg
    rfl

theorem probOnEmulatedA_ok {G : Geometry K} {size : Nat} {g : Bool} {d d' : Disc K} {u : Unit}
    (h : Disc.probOnEmulatedA G size g d = (.ok u, d')) : probOnEmulated G size d g = .ok d' := by
  unfold Disc.probOnEmulatedA at h
  replace h := bind_ok.1 h
  obtain ⟨c, d1, h1, h⟩ := h
  replace h := bind_ok.1 h
  obtain ⟨num, d2, h2, h⟩ := h
  replace h := bind_ok.1 h
  obtain ⟨num', d3, h3, h⟩ := h
  replace h := bind_ok.1 h
  obtain ⟨_, d4, h4, h⟩ := h
  replace h := bind_ok.1 h
  obtain ⟨_, d5, h5, h⟩ := h
  replace h := bind_ok.1 h
  obtain ⟨P, d6, h6, h⟩ := h
  replace h := bind_ok.1 h
  obtain ⟨_, d7, h7, h⟩ := h
  replace h1 := look_ok.1 h1
  obtain ⟨hc, e1⟩ := h1
  replace h2 := on_look_ok h2
  obtain ⟨ops, hops, hnum, e2⟩ := h2
  replace h3 := on_look_ok h3
  obtain ⟨em, hem, hnum', e3⟩ := h3
  replace h4 := ensureIo_ok h4
  replace h5 := ensureIi_ok h5
  replace h6 := look_ok.1 h6
  obtain ⟨hP, e6⟩ := h6
  replace h7 := on_change_ok h7
  obtain ⟨j, hj, e7⟩ := h7
  subst e7 e6 e3 e2 e1
  have hops : Disc.outputProb _ = some ops := hops
  have hem : Disc.emInput _ = some em := hem
  have hj : Disc.emInput _ = some j := hj
  unfold Disc.probEmValues at hP
  simp only [bind_eq_ok] at hP
  obtain ⟨j', hj', vs, hvs, io, hio, ii, hii, ptr, hptr, ops', hops', hP⟩ := hP
  rw [hj, orErr_some] at hj'
  obtain rfl := Except.ok.inj hj'
  unfold probOnEmulated
  simp only [hc, ok_bind, hops, orErr_some, hnum, hem, hnum', h4, h5, hj, hvs, hio, hii, hptr,
    hops', hP]
  rcases whenever_ok.1 h with ⟨hg, h⟩ | ⟨hg, h⟩
  · replace h := on_change_ok h
    obtain ⟨a, ha, e8⟩ := h
    rw [slot_putSlot] at ha
    obtain rfl := Option.some.inj ha
    subst e8
    obtain rfl : g = true := hg
    rfl
  · subst h
    obtain rfl : g = false := hg
    rfl

theorem estimateInput_ok {G : Geometry K} {size : Nat} {d d' : Disc K} {u : Unit}
    (h : Disc.estimateA G size .input .emInput d = (.ok u, d')) :
    d.estimateInputVolumeEmulated G size = .ok d' := by
  obtain ⟨s, p, q, hs, hp, hq, e⟩ := estimateA_ok (by nofun) h
  have hs : d.input = some s := hs
  have hp : d.emInput = some p := hp
  unfold Disc.estimateInputVolumeEmulated
  simp only [hs, hp, orErr_some, ok_bind, hq, e]
  rfl

theorem estimateOutput_ok {G : Geometry K} {size : Nat} {d d' : Disc K} {u : Unit}
    (h : Disc.estimateA G size .output .emOutput d = (.ok u, d')) :
    d.estimateOutputVolumeEmulated G size = .ok d' := by
  obtain ⟨s, p, q, hs, hp, hq, e⟩ := estimateA_ok (by nofun) h
  have hs : d.output = some s := hs
  have hp : d.emOutput = some p := hp
  unfold Disc.estimateOutputVolumeEmulated
  simp only [hs, hp, orErr_some, ok_bind, hq, e]
  rfl

theorem probWithEmulatedA_ok {G : Geometry K} {size : Nat} {d d' : Disc K} {u : Unit}
    (h : Disc.probWithEmulatedA G size d = (.ok u, d')) :
    probWithEmulatedVolumes G size d = .ok d' := by
  unfold Disc.probWithEmulatedA at h
  replace h := bind_ok.1 h
  obtain ⟨c, d1, h1, h⟩ := h
  replace h := bind_ok.1 h
  obtain ⟨num, d2, h2, h⟩ := h
  replace h := bind_ok.1 h
  obtain ⟨_, d3, h3, h⟩ := h
  replace h := bind_ok.1 h
  obtain ⟨_, d4, h4, h⟩ := h
  replace h1 := look_ok.1 h1
  obtain ⟨hc, e1⟩ := h1
  replace h2 := on_look_ok h2
  obtain ⟨ops, hops, hnum, e2⟩ := h2
  replace h3 := on_ok.1 h3
  obtain ⟨p, p', hp, hl, e3⟩ := h3
  rw [localizedA_ok] at hl
  subst e3 e2 e1
  obtain rfl := Option.some.inj (hp.symm.trans hops)
  have hp : Disc.outputProb _ = some p := hp
  unfold probWithEmulatedVolumes
  simp only [hc, ok_bind, hp, orErr_some, hnum, hl]
  have h4' := estimateInput_ok h4
  simp only [Disc.putSlot] at h4'
  rw [h4', ok_bind]
  exact probA_ok h

/-- **C118** (a call that returns): the models that give the state after a call that returns say
what the statements leave, one after the other. -/
theorem C118_returns {G : Geometry K} {size : Nat} {c : DiscCall K} {d d' : Disc K} {u : Unit}
    (h : c.exec G size d = (.ok u, d')) : returning G size d c = .ok d' := by
  rcases c with o | g | g | _
  · cases o with
    | setInput s => cases h; rfl
    | setOutput s => cases h; rfl
    | setProb s => exact setProbSetA_ok h
    | setEmOutput s =>
      simp only [DiscCall.exec] at h
      show d.setEmulatedOutput s = _
      cases h1 : d.setEmulatedOutput s <;> rw [h1] at h <;> cases h
      rfl
    | setEmInput s =>
      simp only [DiscCall.exec] at h
      show d.setEmulatedInput s = _
      cases h1 : d.setEmulatedInput s <;> rw [h1] at h <;> cases h
      rfl
    | setPtr k g => exact setPtrA_ok h
    | globalizePtrs => rw [show d' = d.globalizePtrs from change_ok.1 h]; rfl
    | estimateInput => exact estimateInput_ok h
    | estimateOutput => exact estimateOutput_ok h
    | localToGlobal => rw [show d' = d.localToGlobal from change_ok.1 h]; rfl
    | globalToLocal => exact globalToLocalA_ok' h
  · exact probA_ok h
  · exact probOnEmulatedA_ok h
  · exact probWithEmulatedA_ok h

/-! ## The calls that raise -/

theorem pres_localizeIf {size : Nat} {k : SetName} (hl : locs k) :
    Pres (Left vols locs) (Disc.localizeIf (K := K) size k) :=
  pres_whenever left_refl fun d _ => pres_on (pres_globalToLocalA size hl) d

theorem pres_globalToLocal (size : Nat) (hl : ∀ k, locs k) :
    Pres (Left vols locs) (Disc.globalToLocalA (K := K) size) := by
  unfold Disc.globalToLocalA
  refine pres_bind (R := Left vols locs) (fun _ _ _ => left_trans) (pres_localizeIf (hl _))
    fun _ => ?_
  refine pres_bind (R := Left vols locs) (fun _ _ _ => left_trans) (pres_localizeIf (hl _))
    fun _ => ?_
  refine pres_bind (R := Left vols locs) (fun _ _ _ => left_trans) (pres_localizeIf (hl _))
    fun _ => ?_
  exact pres_localizeIf (hl _)

theorem pres_on_volumes {k : SetName} (hv : vols k) (w : List K) :
    Pres (Left vols locs) (Disc.on k (change fun s : SampleSet K =>
      { s with glob := { s.glob with volumes := some w } })) :=
  pres_on fun _ => ⟨rfl, fun _ => ⟨rfl, rfl⟩, fun h => absurd hv h, fun _ _ => ⟨rfl, rfl⟩⟩

theorem pres_estimateA {G : Geometry K} {size : Nat} {cells pts : SetName} (hv : vols cells)
    (hl : locs cells) : Pres (Left vols locs) (Disc.estimateA (K := K) G size cells pts) := by
  unfold Disc.estimateA
  refine pres_bind (R := Left vols locs) (fun _ _ _ => left_trans) (pres_look left_refl _)
    fun _ => ?_
  refine pres_bind (R := Left vols locs) (fun _ _ _ => left_trans) (pres_on_look _) fun _ => ?_
  refine pres_bind (R := Left vols locs) (fun _ _ _ => left_trans)
    (pres_on (pres_localizedA size)) fun _ => ?_
  refine pres_bind (R := Left vols locs) (fun _ _ _ => left_trans) (pres_on_look _) fun _ => ?_
  refine pres_bind (R := Left vols locs) (fun _ _ _ => left_trans)
    (pres_on (pres_queryA _ _ _)) fun _ => ?_
  refine pres_bind (R := Left vols locs) (fun _ _ _ => left_trans) (pres_look left_refl _)
    fun _ => ?_
  refine pres_bind (R := Left vols locs) (fun _ _ _ => left_trans) (pres_on_volumes hv _)
    fun _ => ?_
  exact pres_on (pres_globalToLocalA size hl)

/-- **C118** (a call that raises): whatever the call, all sets, values, domains, probabilities,
search trees, parts and pointers that were there are still there.  The exceptions:
`set_output_probability_set` (next theorem), `prob_with_emulated_volumes`, which may have replaced
the volumes of the input set and so its parts, and `global_to_local`, which may have computed the
parts of some sets. -/
theorem C118_raises {G : Geometry K} {size : Nat} {c : DiscCall K} {d d' : Disc K} {e : Err}
    (hc : ∀ ps, c ≠ .op (.setProb ps)) (h : c.exec G size d = (.error e, d')) :
    Left (fun k => c = .probWithEmulated ∧ k = .input)
      (fun k => c = .op .globalToLocal ∨ (c = .probWithEmulated ∧ k = .input)) d d' := by
  rcases c with o | g | g | _
  · cases o with
    | setInput s => cases h
    | setOutput s => cases h
    | setProb s => exact absurd rfl (hc s)
    | setEmOutput s =>
      simp only [DiscCall.exec] at h
      cases h1 : d.setEmulatedOutput s <;> rw [h1] at h <;> cases h
      exact left_refl d
    | setEmInput s =>
      simp only [DiscCall.exec] at h
      cases h1 : d.setEmulatedInput s <;> rw [h1] at h <;> cases h
      exact left_refl d
    | setPtr k g => exact setPtrA_error _ _ _ h
    | globalizePtrs => exact absurd h change_error
    | estimateInput => exact estimateA_error (by nofun) _ _ _ h
    | estimateOutput => exact estimateA_error (by nofun) _ _ _ h
    | localToGlobal => exact absurd h change_error
    | globalToLocal => exact (pres_globalToLocal size fun _ => Or.inl rfl).err _ _ _ h
  · exact probA_error _ _ _ h
  · exact probOnEmulatedA_error _ _ _ h
  · refine (?_ : PresErr (Left _ _) (Disc.probWithEmulatedA G size)) _ _ _ h
    generalize hv : (fun k : SetName => (DiscCall.probWithEmulated : DiscCall K) =
      .probWithEmulated ∧ k = .input) = vols
    generalize hl : (fun k : SetName => (DiscCall.probWithEmulated : DiscCall K) = .op .globalToLocal ∨
      ((DiscCall.probWithEmulated : DiscCall K) = .probWithEmulated ∧ k = .input)) = locs
    have hv' : vols .input := by rw [← hv]; exact ⟨rfl, rfl⟩
    have hl' : locs .input := by rw [← hl]; exact Or.inr ⟨rfl, rfl⟩
    unfold Disc.probWithEmulatedA
    refine presErr_bind (R := Left vols locs) (fun _ _ _ => left_trans) (pres_look left_refl _)
      fun _ => ?_
    refine presErr_bind (R := Left vols locs) (fun _ _ _ => left_trans) (pres_on_look _)
      fun _ => ?_
    refine presErr_bind (R := Left vols locs) (fun _ _ _ => left_trans)
      (pres_on (pres_localizedA size)) fun _ => ?_
    refine presErr_bind (R := Left vols locs) (fun _ _ _ => left_trans)
      (pres_estimateA hv' hl') fun _ => ?_
    exact probA_error

/-- **C118** (`set_output_probability_set`): when it raises because of the dimensions nothing has
changed, but when it raises afterwards the new set is already in place. -/
theorem C118_set_prob_raises {G : Geometry K} {size : Nat} {ps : SampleSet K} {d d' : Disc K}
    {e : Err} (h : (DiscCall.op (.setProb ps)).exec G size d = (.error e, d')) :
    (e = .dimNotMatching ∧ d' = d) ∨
      Left (fun _ => False) (fun _ => False) { d with outputProb := some ps } d' := by
  have h : Disc.setProbSetA G size ps d = (.error e, d') := h
  unfold Disc.setProbSetA at h
  rcases bind_error.1 h with h | ⟨_, d1, h1, h⟩
  · replace h := look_error.1 h
    obtain ⟨h, rfl⟩ := h
    left
    refine ⟨?_, rfl⟩
    unfold raiseIf at h
    split at h <;> cases h
    rfl
  · right
    replace h1 := look_ok.1 h1
    obtain ⟨_, e1⟩ := h1
    rcases bind_error.1 h with h | ⟨_, d2, h2, h⟩
    · exact absurd h change_error
    · rw [change_ok] at h2
      rcases bind_error.1 h with h | ⟨_, d3, h3, h⟩
      · rw [(look_error.1 h).2, h2, e1]; exact left_refl _
      · replace h3 := look_ok.1 h3
        obtain ⟨_, e3⟩ := h3
        have := setPtrA_error (vols := fun _ => False) (locs := fun _ => False) _ _ _
          (whenever_error.1 h).2
        rw [e3, h2, e1] at this
        exact this

/-! ## Histories -/

theorem same_refl (d : Disc K) : SameData d d := by
  refine fun k _ => ⟨Iff.rfl, fun s t hs ht => ?_⟩
  obtain rfl := Option.some.inj (hs.symm.trans ht)
  exact ⟨rfl, rfl, rfl, rfl, fun _ => rfl⟩

theorem same_trans {d e f : Disc K} (h : SameData d e) (h' : SameData e f) : SameData d f := by
  intro k hk
  refine ⟨(h k hk).1.trans (h' k hk).1, fun s u hs hu => ?_⟩
  cases ht : e.slot k with
  | none => exact absurd ((h k hk).1.2 ht) (by rw [hs]; nofun)
  | some t =>
    obtain ⟨a1, a2, a3, a4, a5⟩ := (h k hk).2 s t hs ht
    obtain ⟨b1, b2, b3, b4, b5⟩ := (h' k hk).2 t u ht hu
    exact ⟨b1.trans a1, b2.trans a2, b3.trans a3, b4.trans a4, fun hi => (b5 hi).trans (a5 hi)⟩

theorem same_of_left {d e : Disc K} (h : Left vols locs d e) : SameData d e := by
  refine fun k _ => ⟨h.none_iff k, fun s t hs ht => ?_⟩
  rw [(h.sets k s t hs ht).rest]
  exact ⟨rfl, rfl, rfl, rfl, fun _ => rfl⟩

theorem same_of_slots {d e : Disc K} (h : ∀ k, k ≠ SetName.emInput → e.slot k = d.slot k) :
    SameData d e := by
  refine fun k hk => ⟨by rw [h k hk], fun s t hs ht => ?_⟩
  rw [h k hk] at ht
  obtain rfl := Option.some.inj (hs.symm.trans ht)
  exact ⟨rfl, rfl, rfl, rfl, fun _ => rfl⟩

theorem pres_same {α : Type} {m : Act (Disc K) α}
    (h : Pres (Left (fun _ => True) (fun _ => True)) m) : Pres SameData m :=
  fun d => same_of_left (h d)

theorem pres_on_emInput {α : Type} (m : Act (SampleSet K) α) :
    Pres SameData (Disc.on SetName.emInput m) := by
  intro d
  unfold Disc.on
  split
  · exact same_refl d
  · exact same_of_slots fun k hk => slot_putSlot_ne _ _ hk

/-- The assignment of the probabilities of the input set. -/
theorem pres_on_input {f : SampleSet K → SampleSet K}
    (h : ∀ s, (f s).glob.values = s.glob.values ∧ (f s).dim = s.dim ∧ (f s).domain = s.domain ∧
      (f s).referenceValue = s.referenceValue) :
    Pres SameData (Disc.on SetName.input (change f)) := by
  intro d
  unfold Disc.on
  split
  · exact same_refl d
  · rename_i s hs
    intro k _
    by_cases hk : k = .input
    · subst hk
      rw [slot_putSlot]
      refine ⟨by rw [hs]; simp, fun s' t hs' ht => ?_⟩
      obtain rfl := Option.some.inj (hs.symm.trans hs')
      obtain rfl := Option.some.inj ht
      exact ⟨(h s).1, (h s).2.1, (h s).2.2.1, (h s).2.2.2, fun h => absurd rfl h⟩
    · rw [slot_putSlot_ne _ _ hk]
      refine ⟨Iff.rfl, fun s' t hs' ht => ?_⟩
      obtain rfl := Option.some.inj (hs'.symm.trans ht)
      exact ⟨rfl, rfl, rfl, rfl, fun _ => rfl⟩

theorem pres_setPtrA (G : Geometry K) (size : Nat) (k : PtrKind) (g : Bool) :
    Pres SameData (Disc.setPtrA G size k g) := by
  unfold Disc.setPtrA
  refine pres_bind (R := SameData) (fun _ _ _ => same_trans)
    (pres_same (pres_on (pres_localizedA size))) fun _ => ?_
  refine pres_bind (R := SameData) (fun _ _ _ => same_trans) (pres_look same_refl _) fun _ => ?_
  refine pres_bind (R := SameData) (fun _ _ _ => same_trans) (pres_same (pres_on_look _))
    fun _ => ?_
  refine pres_bind (R := SameData) (fun _ _ _ => same_trans)
    (pres_same (pres_on (pres_queryA _ _ _))) fun _ => ?_
  refine pres_bind (R := SameData) (fun _ _ _ => same_trans)
    (fun d => same_of_slots fun k' _ => by cases k <;> cases k' <;> rfl) fun _ => ?_
  exact pres_whenever same_refl fun d _ =>
    same_of_slots fun k' _ => by cases k <;> cases k' <;> rfl

theorem pres_probA (G : Geometry K) (size : Nat) (g : Bool) :
    Pres SameData (Disc.probA G size g) := by
  unfold Disc.probA
  refine pres_bind (R := SameData) (fun _ _ _ => same_trans) (pres_look same_refl _) fun _ => ?_
  refine pres_bind (R := SameData) (fun _ _ _ => same_trans) (pres_same (pres_on_look _))
    fun _ => ?_
  refine pres_bind (R := SameData) (fun _ _ _ => same_trans) (pres_same (pres_ensureIo _ _ _))
    fun _ => ?_
  refine pres_bind (R := SameData) (fun _ _ _ => same_trans)
    (pres_same (pres_on (pres_localizedA size))) fun _ => ?_
  refine pres_bind (R := SameData) (fun _ _ _ => same_trans) (pres_look same_refl _) fun _ => ?_
  refine pres_bind (R := SameData) (fun _ _ _ => same_trans)
    (pres_whenever same_refl fun d _ => by
      refine pres_on_input (fun s => ?_) d
      exact ⟨rfl, rfl, rfl, rfl⟩)
    fun _ => ?_
  exact pres_on_input fun _ => ⟨rfl, rfl, rfl, rfl⟩

theorem pres_probOnEmulatedA (G : Geometry K) (size : Nat) (g : Bool) :
    Pres SameData (Disc.probOnEmulatedA G size g) := by
  unfold Disc.probOnEmulatedA
  refine pres_bind (R := SameData) (fun _ _ _ => same_trans) (pres_look same_refl _) fun _ => ?_
  refine pres_bind (R := SameData) (fun _ _ _ => same_trans) (pres_same (pres_on_look _))
    fun _ => ?_
  refine pres_bind (R := SameData) (fun _ _ _ => same_trans) (pres_same (pres_on_look _))
    fun _ => ?_
  refine pres_bind (R := SameData) (fun _ _ _ => same_trans) (pres_same (pres_ensureIo _ _ _))
    fun _ => ?_
  refine pres_bind (R := SameData) (fun _ _ _ => same_trans) (pres_same (pres_ensureIi _ _))
    fun _ => ?_
  refine pres_bind (R := SameData) (fun _ _ _ => same_trans) (pres_look same_refl _) fun _ => ?_
  refine pres_bind (R := SameData) (fun _ _ _ => same_trans) (pres_on_emInput _) fun _ => ?_
  exact pres_whenever same_refl fun d _ => pres_on_emInput _ d

theorem slot_globalizePtrs (d : Disc K) (k : SetName) : d.globalizePtrs.slot k = d.slot k := by
  unfold Disc.globalizePtrs
  dsimp only
  split <;> split <;> split <;> cases k <;> rfl

theorem pres_exec (G : Geometry K) (size : Nat) {c : DiscCall K} (hc : Computes c) :
    Pres SameData (c.exec G size) := by
  rcases c with o | g | g | _
  · cases o with
    | setInput s => exact hc.elim
    | setOutput s => exact hc.elim
    | setProb s => exact hc.elim
    | setEmOutput s => exact hc.elim
    | setEmInput s => exact hc.elim
    | setPtr k g => exact pres_setPtrA G size k g
    | globalizePtrs => exact fun d => same_of_slots fun k _ => slot_globalizePtrs d k
    | estimateInput => exact pres_same (pres_estimateA trivial trivial)
    | estimateOutput => exact pres_same (pres_estimateA trivial trivial)
    | localToGlobal => exact hc.elim
    | globalToLocal => exact pres_same (pres_globalToLocal size fun _ => trivial)
  · exact pres_probA G size g
  · exact pres_probOnEmulatedA G size g
  · show Pres SameData (Disc.probWithEmulatedA G size)
    unfold Disc.probWithEmulatedA
    refine pres_bind (R := SameData) (fun _ _ _ => same_trans) (pres_look same_refl _) fun _ => ?_
    refine pres_bind (R := SameData) (fun _ _ _ => same_trans) (pres_same (pres_on_look _))
      fun _ => ?_
    refine pres_bind (R := SameData) (fun _ _ _ => same_trans)
      (pres_same (pres_on (pres_localizedA size))) fun _ => ?_
    refine pres_bind (R := SameData) (fun _ _ _ => same_trans)
      (pres_same (pres_estimateA trivial trivial)) fun _ => ?_
    exact pres_probA G size true

/-- **C118** (a history with caught exceptions): however many computing calls are made, whichever of
them raise, and wherever they raise, the data are what they were. -/
theorem C118_history (G : Geometry K) (size : Nat) {cs : List (DiscCall K)}
    (hc : ∀ c ∈ cs, Computes c) (d : Disc K) : SameData d (runCaught G size d cs) := by
  unfold runCaught
  induction cs generalizing d with
  | nil => exact same_refl d
  | cons c cs ih =>
    exact same_trans (pres_exec G size (hc c (by simp)) d)
      (ih (fun c' h => hc c' (by simp [h])) _)

/-! ## What does change -/

/-- **C118, negation.** Without an output set `set_output_probability_set` raises, but the set is in
place afterwards. -/
theorem C118_negation_set_prob (G : Geometry K) (size : Nat) {d : Disc K} {ps : SampleSet K}
    (ho : d.output = none) (he : ∀ o, d.emOutput = some o → o.dim = ps.dim) :
    (DiscCall.op (.setProb ps)).exec G size d =
      (.error .attributeError, { d with outputProb := some ps }) := by
  show Disc.setProbSetA G size ps d = _
  have h1 : d.dimsAgree ps = true := by
    unfold Disc.dimsAgree
    rw [ho]
    cases h : d.emOutput with
    | none => rfl
    | some o => simp [he o h]
  unfold Disc.setProbSetA
  rw [bind_error]
  right
  refine ⟨(), d, look_ok.2 ⟨raiseIf_eq_ok.2 (by rw [h1]; simp), rfl⟩, ?_⟩
  rw [bind_error]
  right
  refine ⟨(), _, change_ok.2 rfl, ?_⟩
  rw [bind_error]
  left
  exact look_error.2 ⟨by show orErr _ d.output = _; rw [ho]; rfl, rfl⟩

/-- **C118, negation.** `global_to_local` that fails on the output set has already replaced the
parts of the input set. -/
theorem C118_negation_global_to_local (G : Geometry K) (size : Nat) {d : Disc K}
    {s t o : SampleSet K} {e : Err} (hs : d.input = some s) (ht : s.globalToLocal size = .ok t)
    (ho : d.output = some o) (he : o.globalToLocal size = .error e) :
    (DiscCall.op .globalToLocal).exec G size d = (.error e, { d with input := some t }) := by
  show Disc.globalToLocalA size d = _
  unfold Disc.globalToLocalA
  rw [bind_error]
  right
  refine ⟨(), { d with input := some t }, ?_, ?_⟩
  · refine whenever_ok.2 (Or.inl ⟨?_, on_ok.2 ⟨s, t, hs, globalToLocalA_ok.2 ht, rfl⟩⟩)
    show d.input.isSome = true
    rw [hs]; rfl
  · rw [bind_error]
    left
    refine whenever_error.2 ⟨?_, on_error.2 (Or.inr ⟨o, o, ho, globalToLocalA_error.2 ⟨he, rfl⟩, ?_⟩)⟩
    · show d.output.isSome = true
      rw [ho]; rfl
    · exact (putSlot_same (d := { d with input := some t }) (k := .output) ho).symm

end

end BET

namespace BET.Ex

open BET.Spec Act

/-- `probEmDisc` whose output cells have no probabilities. -/
def noProbs : Disc ℚ :=
  { probEmDisc with outputProb := some { dim := 1, glob := { values := some [[0], [1], [7]] } } }

/-- **C118, negation.** `prob_with_emulated_volumes` raises because the output cells have no
probabilities, but the volumes the user had given are gone. -/
theorem C118_negation_volumes :
    ((DiscCall.probWithEmulated.exec G 2 noProbs).1.toOption = none) ∧
      (noProbs.input.bind (·.glob.volumes)) = some [1/8, 3/8, 1/4, 1/4] ∧
      ((DiscCall.probWithEmulated.exec G 2 noProbs).2.input.bind (·.glob.volumes)) =
        some [2/5, 1/5, 1/5, 1/5] := by
  refine ⟨?_, ?_, ?_⟩ <;> decide +kernel

/-- The output points have two coordinates, the output cells one. -/
def wideOut : Disc ℚ :=
  { probDisc with output := some { dim := 2, glob := { values := some [[0, 0], [1, 0], [2, 0], [3, 0]] } } }

/-- **C118, negation.** `set_io_ptr` raises because the points have the wrong number of coordinates,
but it leaves a search tree behind; after other values are given the tree still answers for the old
ones (the nearest of 7, 1 and 0 to the point 0 is the last). -/
theorem C118_negation_tree :
    ((DiscCall.op (.setPtr .io false)).exec G 1 wideOut).1.toOption = none ∧
      (wideOut.outputProb.bind fun s =>
        (({ s with glob := { s.glob with values := some [[7], [1], [0]] } } : SampleSet ℚ).query G 1
          [[[0]]]).toOption.map Prod.snd) = some [[2]] ∧
      (((DiscCall.op (.setPtr .io false)).exec G 1 wideOut).2.outputProb.bind fun s =>
        (({ s with glob := { s.glob with values := some [[7], [1], [0]] } } : SampleSet ℚ).query G 1
          [[[0]]]).toOption.map Prod.snd) = some [[0]] := by
  refine ⟨?_, ?_, ?_⟩ <;> decide +kernel

/-- C118: calls of all kinds that raise … -/
example : ((DiscCall.prob true).exec G 2 noProbs).1.toOption = none ∧
    ((DiscCall.probOnEmulated true).exec G 2 noProbs).1.toOption = none ∧
    ((DiscCall.op (.setPtr .oo true)).exec G 2 noProbs).1.toOption = none ∧
    ((DiscCall.op .estimateOutput).exec G 2 noProbs).1.toOption = none ∧
    ((DiscCall.op (.setProb em1)).exec G 2 { probDisc with output := none }).1.toOption = none := by
  refine ⟨?_, ?_, ?_, ?_, ?_⟩ <;> decide +kernel

/-- … and calls that return, in one history: what is computed by the last call is not affected by
the calls that raised. -/
example : ((runCaught G 2 probEmDisc [.op (.setPtr .oo true), .op .estimateOutput,
      .op (.setPtr .ii true), .prob true]).input.bind (·.glob.probabilities)) =
    some [1/8, 3/8, 1/8, 1/8] ∧
    ((DiscCall.prob true).exec G 2 probEmDisc).1.toOption = some () := by
  refine ⟨?_, ?_⟩ <;> decide +kernel

example : ∀ c ∈ ([.op (.setPtr .oo true), .op .estimateOutput, .op (.setPtr .ii true),
    .prob true] : List (DiscCall ℚ)), Computes c := by
  intro c h
  simp only [List.mem_cons, List.not_mem_nil, or_false] at h
  rcases h with rfl | rfl | rfl | rfl <;> trivial

/-- The hypotheses of `C118_negation_global_to_local` are met. -/
example : ∃ s t o : SampleSet ℚ, probDisc.input = some s ∧ s.globalToLocal 2 = .ok t ∧
    ({ probDisc with output := some { dim := 1, glob :=
      { values := some [[0], [1]], volumes := some [1] } } } : Disc ℚ).output = some o ∧
    (o.globalToLocal 2).toOption = none :=
  ⟨_, _, _, rfl, rfl, rfl, by decide +kernel⟩

end BET.Ex
