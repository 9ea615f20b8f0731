import Verif.Model.Copies
import Verif.Props.Choose
import Mathlib.Data.List.Dedup
import Mathlib.Data.List.Forall2

/-!
# References and copies (C115)
-/

set_option autoImplicit false
set_option linter.unusedSectionVars false
set_option linter.unusedSimpArgs false

namespace BET

namespace Spec

variable {K : Type}

/-- The sample set that a user sees in a slot of discretization `d`. -/
def slotView (w : World K) (d : Nat) (slot : Slot) : Option (SampleSet K) := do
  let o ← w.discs[d]?
  let a ← o slot
  w.sets[a]?

/-- Discretization `d` refers to object `a`. -/
def Refers (w : World K) (d a : Nat) : Prop := ∃ (o : DiscRefs) (slot : Slot), w.discs[d]? = some o ∧
  o slot = some a

/-- The call changes one of the discretizations `D` or one of the sets `S`, or makes a discretization
refer to one of the sets `S`.  Reading and copying are not meant. -/
def Uses (D S : Nat → Prop) : ObjCall K → Prop
  | .newSet _ => False
  | .newDisc refs => ∃ slot a, refs slot = some a ∧ S a
  | .setSlot d _ a => D d ∨ ∃ b, a = some b ∧ S b
  | .change a _ => S a
  | .changeIn d _ _ => D d
  | .copySet _ => False
  | .copyDisc _ => False

end Spec

open Spec

variable {K : Type}

theorem mem_reached {o : DiscRefs} {a : Nat} : a ∈ World.reached o ↔ ∃ slot, o slot = some a := by
  simp only [World.reached, List.mem_dedup, List.mem_filterMap]
  constructor
  · rintro ⟨slot, _, h⟩
    exact ⟨slot, h⟩
  · rintro ⟨slot, h⟩
    exact ⟨slot, by cases slot <;> simp [Slot.all], h⟩

theorem modify_inv {w w' : World K} {a : Nat} {f : SampleSet K → SampleSet K}
    (h : w.modify a f = .ok w') :
    ∃ s, w.sets[a]? = some s ∧ w' = { w with sets := w.sets.set a (f s) } := by
  simp only [World.modify, bind_eq_ok, getIdx_eq_ok, pure_eq_ok] at h
  obtain ⟨s, hs, h⟩ := h
  exact ⟨s, hs, h.symm⟩

theorem copyDisc_inv {w w' : World K} {o : DiscRefs} (h : w.copyDisc o = .ok w') :
    ∃ copies, List.Forall₂ (fun a s => w.sets[a]? = some s) (World.reached o) copies ∧
      w' = { sets := w.sets ++ copies
             discs := w.discs ++ [fun slot => (o slot).map fun a =>
               w.sets.length + (World.reached o).idxOf a] } := by
  simp only [World.copyDisc, bind_eq_ok, mapM_eq_ok, getIdx_eq_ok, pure_eq_ok] at h
  obtain ⟨c, hc, h⟩ := h
  exact ⟨c, hc, h.symm⟩

theorem forall₂_mem_left {α β : Type} {R : α → β → Prop} {l : List α} {m : List β}
    (h : List.Forall₂ R l m) {a : α} (ha : a ∈ l) : ∃ b, b ∈ m ∧ R a b := by
  induction h with
  | nil => simp at ha
  | cons hr _ ih =>
    rcases List.mem_cons.mp ha with rfl | ha
    · exact ⟨_, by simp, hr⟩
    · obtain ⟨b, hb, hr'⟩ := ih ha
      exact ⟨b, by simp [hb], hr'⟩

/-! ### Nothing dangles -/

/-- Every reference leads to an object. -/
def Closed (w : World K) : Prop := ∀ d a, Refers w d a → a < w.sets.length

theorem step_closed {w w' : World K} (hw : Closed w) {c : ObjCall K} (h : w.step c = .ok w') :
    Closed w' ∧ w.sets.length ≤ w'.sets.length ∧ w.discs.length ≤ w'.discs.length := by
  cases c with
  | newSet s =>
    simp only [World.step, pure_eq_ok] at h
    subst h
    refine ⟨fun d a ha => ?_, by simp, by simp⟩
    have := hw d a ha
    simp
    omega
  | newDisc refs =>
    simp only [World.step, bind_eq_ok, mapM_eq_ok, getIdx_eq_ok, pure_eq_ok] at h
    obtain ⟨l, hl, h⟩ := h
    subst h
    refine ⟨?_, by simp, by simp⟩
    rintro d a ⟨o, slot, ho, ha⟩
    by_cases hd : d < w.discs.length
    · rw [List.getElem?_append_left hd] at ho
      exact hw d a ⟨o, slot, ho, ha⟩
    · rw [List.getElem?_append_right (by omega)] at ho
      have hz : d - w.discs.length = 0 := by
        by_contra hne
        rw [List.getElem?_eq_none (by simp; omega)] at ho
        simp at ho
      rw [hz] at ho
      simp only [List.getElem?_cons_zero, Option.some.injEq] at ho
      subst ho
      have hmem := mem_reached.mpr ⟨slot, ha⟩
      obtain ⟨s, _, hs⟩ := forall₂_mem_left hl hmem
      exact (List.getElem?_eq_some_iff.mp hs).1
  | setSlot d slot a =>
    simp only [World.step, bind_eq_ok, getIdx_eq_ok, orErr_eq_ok, pure_eq_ok] at h
    obtain ⟨o, ho, b, rfl, s, hs, _, _, h⟩ := h
    subst h
    refine ⟨?_, by simp, by simp⟩
    rintro d' a' ⟨o', slot', ho', ha'⟩
    by_cases hd : d = d'
    · subst hd
      have hlt := (List.getElem?_eq_some_iff.mp ho).1
      simp only [List.getElem?_set_self hlt, Option.some.injEq] at ho'
      subst ho'
      by_cases hslot : slot' = slot
      · subst hslot
        simp only [Function.update_self, Option.some.injEq] at ha'
        subst ha'
        exact (List.getElem?_eq_some_iff.mp hs).1
      · rw [Function.update_of_ne hslot] at ha'
        exact hw d a' ⟨o, slot', ho, ha'⟩
    · simp only [List.getElem?_set_ne hd] at ho'
      exact hw d' a' ⟨o', slot', ho', ha'⟩
  | change a f =>
    obtain ⟨s, hs, rfl⟩ := modify_inv h
    refine ⟨fun d b hb => ?_, by simp, by simp⟩
    have := hw d b hb
    simpa using this
  | changeIn d slot f =>
    simp only [World.step, bind_eq_ok, getIdx_eq_ok, orErr_eq_ok] at h
    obtain ⟨o, ho, a, ha, h⟩ := h
    obtain ⟨s, hs, rfl⟩ := modify_inv h
    refine ⟨fun d b hb => ?_, by simp, by simp⟩
    have := hw d b hb
    simpa using this
  | copySet a =>
    simp only [World.step, bind_eq_ok, getIdx_eq_ok, pure_eq_ok] at h
    obtain ⟨s, hs, h⟩ := h
    subst h
    refine ⟨fun d b hb => ?_, by simp, by simp⟩
    have := hw d b hb
    simp
    omega
  | copyDisc d =>
    simp only [World.step, bind_eq_ok, getIdx_eq_ok] at h
    obtain ⟨o, ho, h⟩ := h
    obtain ⟨copies, hc, rfl⟩ := copyDisc_inv h
    refine ⟨?_, by simp, by simp⟩
    rintro d' a ⟨o', slot, ho', ha⟩
    by_cases hd : d' < w.discs.length
    · rw [List.getElem?_append_left hd] at ho'
      have := hw d' a ⟨o', slot, ho', ha⟩
      simp
      omega
    · rw [List.getElem?_append_right (by omega)] at ho'
      have hz : d' - w.discs.length = 0 := by
        by_contra hne
        rw [List.getElem?_eq_none (by simp; omega)] at ho'
        simp at ho'
      rw [hz] at ho'
      simp only [List.getElem?_cons_zero, Option.some.injEq] at ho'
      subst ho'
      rw [Option.map_eq_some_iff] at ha
      obtain ⟨b, hb, rfl⟩ := ha
      have hmem := mem_reached.mpr ⟨slot, hb⟩
      have := List.idxOf_lt_length_iff.mpr hmem
      rw [List.length_append, ← hc.length_eq]
      omega

theorem run_closed {cs : List (ObjCall K)} {w w' : World K} (hw : Closed w)
    (h : w.run cs = .ok w') : Closed w' := by
  induction cs generalizing w with
  | nil =>
    simp only [World.run, List.foldlM_nil, pure_eq_ok] at h
    subst h
    exact hw
  | cons c cs ih =>
    simp only [World.run, List.foldlM_cons, bind_eq_ok] at h
    obtain ⟨w1, h1, h⟩ := h
    exact ih (step_closed hw h1).1 h

theorem closed_empty : Closed ({} : World K) := by
  rintro d a ⟨o, slot, ho, _⟩
  simp at ho

/-! ### What is left alone stays -/

/-- The discretizations `D` and the sets `S` are as in `w0`, and only the discretizations `D` refer to
the sets `S`. -/
structure Apart (D S : Nat → Prop) (w0 w : World K) : Prop where
  discs : ∀ d, D d → w.discs[d]? = w0.discs[d]? ∧ d < w.discs.length
  sets : ∀ a, S a → w.sets[a]? = w0.sets[a]? ∧ a < w.sets.length
  only : ∀ d a, Refers w d a → S a → D d

theorem step_apart {D S : Nat → Prop} {w0 w w' : World K} (hw : Apart D S w0 w)
    {c : ObjCall K} (hc : ¬ Uses D S c) (h : w.step c = .ok w') : Apart D S w0 w' := by
  have hchange : ∀ a f, ¬ S a → w.modify a f = .ok w' → Apart D S w0 w' := by
    intro a f ha h
    obtain ⟨s, hs, rfl⟩ := modify_inv h
    refine ⟨hw.discs, fun b hb => ?_, hw.only⟩
    obtain ⟨h1, h2⟩ := hw.sets b hb
    refine ⟨?_, by simpa using h2⟩
    have : a ≠ b := fun e => ha (e ▸ hb)
    simp only [List.getElem?_set_ne this]
    exact h1
  have hgrow : ∀ l : List (SampleSet K), Apart D S w0 { w with sets := w.sets ++ l } := by
    intro l
    refine ⟨hw.discs, fun b hb => ?_, hw.only⟩
    obtain ⟨h1, h2⟩ := hw.sets b hb
    refine ⟨?_, by simp; omega⟩
    simp only [List.getElem?_append_left h2]
    exact h1
  have hnew : ∀ (w1 : World K) (o : DiscRefs), Apart D S w0 w1 →
      (∀ slot a, o slot = some a → ¬ S a) →
      Apart D S w0 { w1 with discs := w1.discs ++ [o] } := by
    intro w1 o hw1 ho
    refine ⟨fun d hd => ?_, hw1.sets, ?_⟩
    · obtain ⟨h1, h2⟩ := hw1.discs d hd
      refine ⟨?_, by simp; omega⟩
      simp only [List.getElem?_append_left h2]
      exact h1
    · rintro d a ⟨o', slot, ho', ha⟩ hS
      by_cases hd : d < w1.discs.length
      · simp only [List.getElem?_append_left hd] at ho'
        exact hw1.only d a ⟨o', slot, ho', ha⟩ hS
      · simp only [List.getElem?_append_right (by omega : w1.discs.length ≤ d)] at ho'
        have hz : d - w1.discs.length = 0 := by
          by_contra hne
          rw [List.getElem?_eq_none (by simp; omega)] at ho'
          simp at ho'
        rw [hz] at ho'
        simp only [List.getElem?_cons_zero, Option.some.injEq] at ho'
        subst ho'
        exact absurd hS (ho slot a ha)
  cases c with
  | newSet s =>
    simp only [World.step, pure_eq_ok] at h
    subst h
    exact hgrow _
  | newDisc refs =>
    simp only [World.step, bind_eq_ok, mapM_eq_ok, getIdx_eq_ok, pure_eq_ok] at h
    obtain ⟨l, hl, h⟩ := h
    subst h
    refine hnew w refs hw fun slot a ha hS => hc ⟨slot, a, ha, hS⟩
  | setSlot d slot a =>
    simp only [World.step, bind_eq_ok, getIdx_eq_ok, orErr_eq_ok, pure_eq_ok] at h
    obtain ⟨o, ho, b, rfl, s, hs, _, _, h⟩ := h
    subst h
    simp only [Uses, not_or, not_exists, not_and] at hc
    obtain ⟨hD, hS⟩ := hc
    have hb : ¬ S b := hS b rfl
    refine ⟨fun d' hd' => ?_, hw.sets, ?_⟩
    · obtain ⟨h1, h2⟩ := hw.discs d' hd'
      have : d ≠ d' := fun e => hD (e ▸ hd')
      refine ⟨?_, by simpa using h2⟩
      simp only [List.getElem?_set_ne this]
      exact h1
    · rintro d' a' ⟨o', slot', ho', ha'⟩ hSa
      by_cases hd : d = d'
      · subst hd
        have hlt := (List.getElem?_eq_some_iff.mp ho).1
        simp only [List.getElem?_set_self hlt, Option.some.injEq] at ho'
        subst ho'
        by_cases hslot : slot' = slot
        · subst hslot
          simp only [Function.update_self, Option.some.injEq] at ha'
          subst ha'
          exact absurd hSa hb
        · rw [Function.update_of_ne hslot] at ha'
          exact hw.only d a' ⟨o, slot', ho, ha'⟩ hSa
      · simp only [List.getElem?_set_ne hd] at ho'
        exact hw.only d' a' ⟨o', slot', ho', ha'⟩ hSa
  | change a f => exact hchange a f hc h
  | changeIn d slot f =>
    simp only [World.step, bind_eq_ok, getIdx_eq_ok, orErr_eq_ok] at h
    obtain ⟨o, ho, a, ha, h⟩ := h
    exact hchange a f (fun hS => hc (hw.only d a ⟨o, slot, ho, ha⟩ hS)) h
  | copySet a =>
    simp only [World.step, bind_eq_ok, getIdx_eq_ok, pure_eq_ok] at h
    obtain ⟨s, hs, h⟩ := h
    subst h
    exact hgrow _
  | copyDisc d =>
    simp only [World.step, bind_eq_ok, getIdx_eq_ok] at h
    obtain ⟨o, ho, h⟩ := h
    obtain ⟨copies, hcp, rfl⟩ := copyDisc_inv h
    refine hnew { w with sets := w.sets ++ copies } _ (hgrow copies) fun slot a ha hS => ?_
    rw [Option.map_eq_some_iff] at ha
    obtain ⟨b, hb, rfl⟩ := ha
    have := (hw.sets _ hS).2
    omega

theorem run_apart {D S : Nat → Prop} {cs : List (ObjCall K)} {w0 w w' : World K}
    (hw : Apart D S w0 w) (hc : ∀ c ∈ cs, ¬ Uses D S c)
    (h : w.run cs = .ok w') : Apart D S w0 w' := by
  induction cs generalizing w with
  | nil =>
    simp only [World.run, List.foldlM_nil, pure_eq_ok] at h
    subst h
    exact hw
  | cons c cs ih =>
    simp only [World.run, List.foldlM_cons, bind_eq_ok] at h
    obtain ⟨w1, h1, h⟩ := h
    exact ih (step_apart hw (hc c (by simp)) h1)
      (fun c hc' => hc c (by simp [hc'])) h

/-! ### Copies -/

/-- What `copy` of a discretization does. -/
theorem copyDisc_spec {w w1 : World K} {d : Nat} (h : w.step (.copyDisc d) = .ok w1) :
    ∃ (o : DiscRefs) (copies : List (SampleSet K)), w.discs[d]? = some o ∧
      w1.sets = w.sets ++ copies ∧
      w1.discs = w.discs ++ [fun slot => (o slot).map fun a =>
        w.sets.length + (World.reached o).idxOf a] ∧
      copies.length = (World.reached o).length ∧
      ∀ a, a ∈ World.reached o → copies[(World.reached o).idxOf a]? = w.sets[a]? := by
  simp only [World.step, bind_eq_ok, getIdx_eq_ok] at h
  obtain ⟨o, ho, h⟩ := h
  obtain ⟨copies, hc, rfl⟩ := copyDisc_inv h
  refine ⟨o, copies, ho, rfl, rfl, hc.length_eq.symm, fun a ha => ?_⟩
  have hlt := List.idxOf_lt_length_iff.mpr ha
  have hlt' : (World.reached o).idxOf a < copies.length := by rw [← hc.length_eq]; exact hlt
  have := hc.get hlt hlt'
  simp only [List.get_eq_getElem, List.getElem_idxOf] at this
  rw [this, List.getElem?_eq_getElem hlt']

/-- **C115.** `copy` of a discretization: a new discretization with the same sample sets, slot by
slot; nothing that was there is changed; and two slots of the copy hold one object exactly when they
do in the original. -/
theorem C115_copy_equal {cs : List (ObjCall K)} {w w1 : World K} (hw : World.run {} cs = .ok w)
    {d : Nat} (h : w.step (.copyDisc d) = .ok w1) :
    w1.discs.length = w.discs.length + 1 ∧
    (∀ slot, slotView w1 w.discs.length slot = slotView w d slot) ∧
    (∀ d' slot, d' < w.discs.length → slotView w1 d' slot = slotView w d' slot) ∧
    (∀ a, a < w.sets.length → w1.sets[a]? = w.sets[a]?) ∧
    ∀ o o' : DiscRefs, w.discs[d]? = some o → w1.discs[w.discs.length]? = some o' →
      ∀ x y, o' x = o' y ↔ o x = o y := by
  have hcl := run_closed closed_empty hw
  obtain ⟨o, copies, ho, hs, hd, hlen, hcp⟩ := copyDisc_spec h
  have hold : ∀ a, a < w.sets.length → w1.sets[a]? = w.sets[a]? := fun a ha => by
    rw [hs, List.getElem?_append_left ha]
  refine ⟨by rw [hd]; simp, fun slot => ?_, fun d' slot hd' => ?_, hold, ?_⟩
  · simp only [slotView, hd, ho, List.getElem?_append_right (Nat.le_refl _), Nat.sub_self,
      List.getElem?_cons_zero, Option.bind_eq_bind, Option.bind_some]
    cases ha : o slot with
    | none => rfl
    | some a =>
      simp only [Option.map_some, Option.bind_some, hs]
      rw [List.getElem?_append_right (by omega), Nat.add_sub_cancel_left]
      exact hcp a (mem_reached.mpr ⟨slot, ha⟩)
  · simp only [slotView, hd, List.getElem?_append_left hd', Option.bind_eq_bind]
    cases ho' : w.discs[d']? with
    | none => rfl
    | some o' =>
      simp only [Option.bind_some]
      cases ha : o' slot with
      | none => rfl
      | some a => exact hold a (hcl d' a ⟨o', slot, ho', ha⟩)
  · intro p p' hp hp' x y
    rw [ho, Option.some.injEq] at hp
    subst hp
    rw [hd, List.getElem?_append_right (Nat.le_refl _), Nat.sub_self, List.getElem?_cons_zero,
      Option.some.injEq] at hp'
    subst hp'
    cases hx : o x with
    | none => cases hy : o y <;> simp [hx, hy]
    | some a =>
      cases hy : o y with
      | none => simp [hx, hy]
      | some b =>
        simp only [Option.map_some, Option.some.injEq, Nat.add_left_cancel_iff, hx, hy]
        constructor
        · intro e
          have h1 := List.getElem?_idxOf (mem_reached.mpr ⟨x, hx⟩)
          have h2 := List.getElem?_idxOf (mem_reached.mpr ⟨y, hy⟩)
          rw [e, h2, Option.some.injEq] at h1
          exact h1.symm
        · intro e
          rw [e]

/-- **C115.** A copy is independent of the original: whatever is done afterwards with the original,
its sets and everything else (including copying the copy), the copy shows the sets that the original
had at the time, as long as no call is made on the copy or on one of its sets. -/
theorem C115_copy_isolated {cs cs' : List (ObjCall K)} {w w1 w2 : World K}
    (hw : World.run {} cs = .ok w) {d : Nat} (h : w.step (.copyDisc d) = .ok w1)
    (h2 : w1.run cs' = .ok w2)
    (hcs : ∀ c ∈ cs', ¬ Uses (· = w.discs.length) (Refers w1 w.discs.length) c) (slot : Slot) :
    slotView w2 w.discs.length slot = slotView w d slot := by
  have hcl := run_closed closed_empty hw
  have hcl1 := (step_closed hcl h).1
  obtain ⟨hlen, hview, -, -, -⟩ := C115_copy_equal hw h
  obtain ⟨o, copies, ho, hs, hd, -, -⟩ := copyDisc_spec h
  have hlast : w1.discs[w.discs.length]? = some fun slot => (o slot).map fun a =>
      w.sets.length + (World.reached o).idxOf a := by
    rw [hd, List.getElem?_append_right (Nat.le_refl _), Nat.sub_self, List.getElem?_cons_zero]
  have hap : Apart (· = w.discs.length) (Refers w1 w.discs.length) w1 w1 := by
    refine ⟨fun d' hd' => ⟨rfl, by omega⟩, fun a ha => ⟨rfl, hcl1 _ a ha⟩, ?_⟩
    rintro d' a ⟨p, slot, hp, ha⟩ ⟨p', slot', hp', ha'⟩
    rw [hlast, Option.some.injEq] at hp'
    subst hp'
    rw [Option.map_eq_some_iff] at ha'
    obtain ⟨b, hb, rfl⟩ := ha'
    by_contra hne
    have hlt := (List.getElem?_eq_some_iff.mp hp).1
    have hp'' : w.discs[d']? = some p := by
      rw [hd, List.getElem?_append_left (by omega)] at hp
      exact hp
    have := hcl d' _ ⟨p, slot, hp'', ha⟩
    omega
  have hap2 := run_apart hap hcs h2
  rw [← hview slot]
  simp only [slotView]
  rw [(hap2.discs _ rfl).1, hlast]
  simp only [Option.bind_eq_bind, Option.bind_some]
  cases ha : (o slot).map fun a => w.sets.length + (World.reached o).idxOf a with
  | none => rfl
  | some a => exact (hap2.sets a ⟨_, slot, hlast, ha⟩).1

/-- **C115.** And the original is independent of the copy: whatever is done with the copy and with
objects made later, all discretizations and sets that were there before stay as they were. -/
theorem C115_original_isolated {cs cs' : List (ObjCall K)} {w w1 w2 : World K}
    (hw : World.run {} cs = .ok w) {d : Nat} (h : w.step (.copyDisc d) = .ok w1)
    (h2 : w1.run cs' = .ok w2)
    (hcs : ∀ c ∈ cs', ¬ Uses (· < w.discs.length) (· < w.sets.length) c) :
    (∀ d' slot, d' < w.discs.length → slotView w2 d' slot = slotView w d' slot) ∧
    ∀ a, a < w.sets.length → w2.sets[a]? = w.sets[a]? := by
  have hcl := run_closed closed_empty hw
  have hcl1 := (step_closed hcl h).1
  obtain ⟨hlen, -, hold, hsets, -⟩ := C115_copy_equal hw h
  obtain ⟨o, copies, ho, hs, hd, -, -⟩ := copyDisc_spec h
  have hap : Apart (· < w.discs.length) (· < w.sets.length) w1 w1 := by
    refine ⟨fun d' hd' => ⟨rfl, by omega⟩, fun a ha => ⟨rfl, by rw [hs]; simp; omega⟩, ?_⟩
    rintro d' a ⟨p, slot, hp, ha⟩ hS
    by_contra hne
    have hlt := (List.getElem?_eq_some_iff.mp hp).1
    have hz : d' = w.discs.length := by omega
    rw [hz, hd, List.getElem?_append_right (Nat.le_refl _), Nat.sub_self, List.getElem?_cons_zero,
      Option.some.injEq] at hp
    subst hp
    rw [Option.map_eq_some_iff] at ha
    obtain ⟨b, hb, rfl⟩ := ha
    omega
  have hap2 := run_apart hap hcs h2
  refine ⟨fun d' slot hd' => ?_, fun a ha => ?_⟩
  · rw [← hold d' slot hd']
    simp only [slotView]
    rw [(hap2.discs d' hd').1]
    have hd'' : w1.discs[d']? = w.discs[d']? := by rw [hd, List.getElem?_append_left hd']
    rw [hd'']
    cases ho' : w.discs[d']? with
    | none => rfl
    | some o' =>
      simp only [Option.bind_eq_bind, Option.bind_some]
      cases ha : o' slot with
      | none => rfl
      | some a => exact (hap2.sets a (hcl d' a ⟨o', slot, ho', ha⟩)).1
  · rw [(hap2.sets a ha).1]
    exact hsets a ha

/-- **C115.** A copy of a sample set: a new object with the same content, which keeps it whatever is
done with the original, as long as no call is made on the copy. -/
theorem C115_set_copy {cs cs' : List (ObjCall K)} {w w1 w2 : World K}
    (hw : World.run {} cs = .ok w) {a : Nat} (h : w.step (.copySet a) = .ok w1)
    (h2 : w1.run cs' = .ok w2)
    (hcs : ∀ c ∈ cs', ¬ Uses (fun _ => False) (· = w.sets.length) c) :
    ∃ s, w.sets[a]? = some s ∧ w2.sets[w.sets.length]? = some s ∧ w1.discs = w.discs ∧
      ∀ b, b < w.sets.length → w1.sets[b]? = w.sets[b]? := by
  have hcl := run_closed closed_empty hw
  simp only [World.step, bind_eq_ok, getIdx_eq_ok, pure_eq_ok] at h
  obtain ⟨s, hs, h⟩ := h
  subst h
  refine ⟨s, hs, ?_, rfl, fun b hb => List.getElem?_append_left hb⟩
  have hap : Apart (fun _ => False) (· = w.sets.length) { w with sets := w.sets ++ [s] }
      { w with sets := w.sets ++ [s] } := by
    refine ⟨fun d hd => absurd hd id, fun b hb => ⟨rfl, by simp; omega⟩, fun d b hb he => ?_⟩
    have := hcl d b hb
    omega
  rw [((run_apart hap hcs h2).sets _ rfl).1]
  simp

/-- **C115.** A set that is stored in a discretization is not copied: a later change of the set by
the user shows in the discretization, and a change that a method of one discretization makes shows in
every discretization, and every slot, that holds the set. -/
theorem C115_shared {w w' : World K} {d d' a : Nat} {slot slot' : Slot} {o o' : DiscRefs}
    (ho : w.discs[d]? = some o) (ha : o slot = some a) (ho' : w.discs[d']? = some o')
    (ha' : o' slot' = some a) {f : SampleSet K → SampleSet K}
    (h : w.step (.changeIn d slot f) = .ok w' ∨ w.step (.change a f) = .ok w') :
    slotView w' d' slot' = (slotView w d' slot').map f := by
  have hm : w.modify a f = .ok w' := by
    rcases h with h | h
    · simp only [World.step, bind_eq_ok, getIdx_eq_ok, orErr_eq_ok] at h
      obtain ⟨p, hp, b, hb, h⟩ := h
      rw [ho, Option.some.injEq] at hp
      subst hp
      rw [ha, Option.some.injEq] at hb
      subst hb
      exact h
    · exact h
  obtain ⟨s, hs, rfl⟩ := modify_inv hm
  have hlt := (List.getElem?_eq_some_iff.mp hs).1
  simp [slotView, ho', ha', hs, List.getElem?_set_self hlt]

/-- **C115.** `set_...` stores the object itself, and nothing else changes: afterwards the slot shows
the set, and the getter hands out the same object. -/
theorem C115_set_get {w w' : World K} {d a : Nat} {slot : Slot}
    (h : w.step (.setSlot d slot (some a)) = .ok w') :
    w'.getSlot d slot = .ok (some a) ∧ slotView w' d slot = w.sets[a]? ∧ w'.sets = w.sets ∧
    ∀ d' slot', (d', slot') ≠ (d, slot) → slotView w' d' slot' = slotView w d' slot' := by
  simp only [World.step, bind_eq_ok, getIdx_eq_ok, orErr_eq_ok, pure_eq_ok] at h
  obtain ⟨o, ho, b, hb, s, hs, _, _, h⟩ := h
  simp only [Option.some.injEq] at hb
  subst hb
  subst h
  have hlt := (List.getElem?_eq_some_iff.mp ho).1
  refine ⟨?_, ?_, rfl, fun d' slot' hne => ?_⟩
  · simp [World.getSlot, getIdx, List.getElem?_set_self hlt, bind, Except.bind, pure, Except.pure]
  · simp [slotView, List.getElem?_set_self hlt]
  · by_cases hd : d = d'
    · subst hd
      have hslot : slot' ≠ slot := fun e => hne (by rw [e])
      simp [slotView, List.getElem?_set_self hlt, Function.update_of_ne hslot, ho]
    · simp [slotView, List.getElem?_set_ne hd]

/-- The sets of the two slots of a discretization must have the same dimension: the input and the emulated input; the
output, the output probabilities and the emulated output. The observed output is free. -/
inductive Spec.SameSide : Slot → Slot → Prop
  | emIn : SameSide .emInput .input
  | prob : SameSide .outputProb .output
  | probEm : SameSide .outputProb .emOutput
  | emOut : SameSide .emOutput .output
  | emProb : SameSide .emOutput .outputProb

/-- **C115.** After any history, a setter refuses a set exactly when a set that the discretization shows on the same
side has another dimension, and it then raises `dim_not_matching`. (`set_input_sample_set` and
`set_output_sample_set` never do.) -/
theorem C115_set_dims {cs : List (ObjCall K)} {w : World K} (hw : World.run {} cs = .ok w) {d a : Nat} {slot : Slot}
    (hd : d < w.discs.length) {s : SampleSet K} (hs : w.sets[a]? = some s) :
    ((∃ w', w.step (.setSlot d slot (some a)) = .ok w') ↔
      ∀ slot' t, Spec.SameSide slot slot' → slotView w d slot' = some t → t.dim = s.dim) ∧
    ((∀ w', w.step (.setSlot d slot (some a)) ≠ .ok w') →
      w.step (.setSlot d slot (some a)) = .error .dimNotMatching) := by
  have hcl := run_closed closed_empty hw
  have ho := List.getElem?_eq_getElem hd
  set o := w.discs[d] with hodef
  have hlt : ∀ x b, o x = some b → b < w.sets.length := fun x b h => hcl d b ⟨o, x, ho, h⟩
  have hview : ∀ x t, slotView w d x = some t ↔ ∃ b, o x = some b ∧ w.sets[b]? = some t := by
    intro x t
    unfold slotView
    rw [ho]
    simp only [Option.bind_eq_bind, Option.bind_some, Option.bind_eq_some_iff]
  have hside : ∀ x, Spec.SameSide slot x ↔ x ∈ World.peers slot := by
    intro x
    constructor
    · rintro (_ | _ | _ | _ | _) <;> simp [World.peers]
    · cases slot <;> simp only [World.peers, List.not_mem_nil, List.mem_cons, or_false, false_imp_iff]
      · rintro rfl; exact .emIn
      · rintro (rfl | rfl)
        · exact .emOut
        · exact .emProb
      · rintro (rfl | rfl)
        · exact .prob
        · exact .probEm
  obtain ⟨others, hoth⟩ : ∃ others, ((World.peers slot).filterMap o).mapM (fun a => getIdx w.sets a) = .ok others := by
    have key : ∀ l : List Nat, (∀ b ∈ l, b < w.sets.length) → ∃ r, l.mapM (fun a => getIdx w.sets a) = .ok r := by
      intro l hl
      refine ⟨l.pmap (fun b hb => w.sets[b]) hl, ?_⟩
      rw [mapM_eq_ok]
      induction l with
      | nil => exact .nil
      | cons b l ih =>
        refine .cons ?_ (ih fun b hb => hl b (List.mem_cons_of_mem _ hb))
        rw [getIdx_eq_ok]
        exact List.getElem?_eq_getElem _
    refine key _ fun b hb => ?_
    obtain ⟨x, -, hx⟩ := List.mem_filterMap.1 hb
    exact hlt x b hx
  have hmem : ∀ t, t ∈ others ↔ ∃ x ∈ World.peers slot, slotView w d x = some t := by
    intro t
    rw [mapM_eq_ok] at hoth
    constructor
    · intro ht
      obtain ⟨i, hi, rfl⟩ := List.getElem_of_mem ht
      have hi' := hoth.length_eq ▸ hi
      have h := (List.forall₂_iff_get.1 hoth).2 i hi' hi
      rw [getIdx_eq_ok] at h
      obtain ⟨x, hx, hx'⟩ := List.mem_filterMap.1 (List.getElem_mem hi')
      exact ⟨x, hx, (hview x _).2 ⟨_, hx', h⟩⟩
    · rintro ⟨x, hx, hx'⟩
      obtain ⟨b, hb, hb'⟩ := (hview x t).1 hx'
      obtain ⟨i, hi, hib⟩ := List.getElem_of_mem (List.mem_filterMap.2 ⟨x, hx, hb⟩)
      have hi' := hoth.length_eq ▸ hi
      have h := (List.forall₂_iff_get.1 hoth).2 i hi hi'
      rw [getIdx_eq_ok] at h
      simp only [List.get_eq_getElem, hib, hb', Option.some.injEq] at h
      rw [h]
      exact List.getElem_mem _
  have hgo : getIdx w.discs d = .ok o := (getIdx_eq_ok _ _ _).2 ho
  have hgs : getIdx w.sets a = .ok s := (getIdx_eq_ok _ _ _).2 hs
  have hstep : w.step (.setSlot d slot (some a)) =
      if others.any fun t => t.dim ≠ s.dim then .error .dimNotMatching
      else .ok { w with discs := w.discs.set d (Function.update o slot (some a)) } := by
    simp only [World.step, World.checkDims, hgo, hgs, hoth, orErr_some, ok_bind, raiseIf]
    split <;> rfl
  have hany : (others.any fun t => t.dim ≠ s.dim) = true ↔
      ¬ ∀ slot' t, Spec.SameSide slot slot' → slotView w d slot' = some t → t.dim = s.dim := by
    simp only [List.any_eq_true, decide_eq_true_eq, hside]
    constructor
    · rintro ⟨t, ht, hne⟩ h
      obtain ⟨x, hx, hx'⟩ := (hmem t).1 ht
      exact hne (h x t hx hx')
    · intro h
      push Not at h
      obtain ⟨x, t, hx, hx', hne⟩ := h
      exact ⟨t, (hmem t).2 ⟨x, hx, hx'⟩, hne⟩
  rw [hstep]
  by_cases h : (others.any fun t => t.dim ≠ s.dim) = true
  · rw [if_pos h]
    exact ⟨Iff.intro (fun ⟨_, h'⟩ => nomatch h') (fun h' => absurd h' (hany.1 h)), fun _ => rfl⟩
  · rw [if_neg h]
    refine ⟨⟨fun _ => ?_, fun _ => ⟨_, rfl⟩⟩, fun h' => absurd rfl (h' _)⟩
    by_contra hn
    exact h (hany.2 hn)

namespace Ex

def copyRefs : DiscRefs
  | .input => some 0
  | .output => some 1
  | .outputProb => some 1
  | _ => none

/-- Two sets, a discretization that holds the second one in two slots, and a copy of it. -/
def copyCalls : List (ObjCall ℚ) :=
  [.newSet { dim := 1 }, .newSet { dim := 2 }, .newDisc copyRefs]

def copyLater : List (ObjCall ℚ) :=
  [.changeIn 0 .output fun s => { s with dim := 7 }, .change 0 fun s => { s with dim := 8 },
   .copyDisc 1, .setSlot 0 .outputObserved (some 0), .changeIn 2 .input fun s => { s with dim := 9 }]

def dims (w : World ℚ) (d : Nat) : List (Option Nat) :=
  Slot.all.map fun slot => (slotView w d slot).map (·.dim)

example : ((World.run {} copyCalls).toOption.bind fun w => (w.step (.copyDisc 0)).toOption.bind
    fun w1 => (w1.run copyLater).toOption.map fun w2 => (dims w2 0, dims w2 1, dims w2 2)) =
    some ([some 8, some 7, none, none, some 7, some 8], [some 1, some 2, none, none, some 2, none],
      [some 9, some 2, none, none, some 2, none]) := by decide +kernel

example : ∀ c ∈ copyLater, ¬ Uses (· = 1) (fun a => a = 2 ∨ a = 3) c := by
  intro c hc
  simp only [copyLater, List.mem_cons, List.not_mem_nil, or_false] at hc
  rcases hc with rfl | rfl | rfl | rfl | rfl <;> simp [Uses]

/-- The emulated input must have the dimension of the input, the observed output is free. -/
example : ((World.run {} copyCalls).toOption.map fun w => [(Slot.emInput, 1), (.emInput, 0), (.emOutput, 0),
    (.emOutput, 1), (.outputObserved, 0), (.input, 1)].map fun c =>
      (w.step (.setSlot 0 c.1 (some c.2))).toOption.isSome) =
    some [false, true, false, true, true, true] := by decide +kernel

/-- **C115, negation.** A discretization made of the sets of another one is not a copy: a change
through one shows in the other. -/
theorem C115_negation_alias :
    ((World.run {} (copyCalls ++ [.newDisc copyRefs,
      .changeIn 1 .input fun s => { s with dim := 5 }])).toOption.map fun w => dims w 0) =
      some [some 5, some 2, none, none, some 2, none] := by decide +kernel

end Ex

end BET
