import Verif.Model.Normalize
import Verif.Props.Equality
import Mathlib.Tactic.FieldSimp

/-!
# C16: normalising a domain and undoing it
-/

set_option autoImplicit false
set_option linter.unusedSectionVars false
set_option linter.unusedSimpArgs false

namespace BET

namespace Spec

variable {K : Type} [Field K]

/-- The affine map of the domain onto the unit cube. -/
def toUnit (D : List (K × K)) (row : List K) : List K :=
  List.zipWith (fun v d => (v - d.1) / (d.2 - d.1)) row D

/-- The chain rule for a derivative row under `toUnit`. -/
def scaleDerivative (D : List (K × K)) (row : List K) : List K :=
  List.zipWith (fun v d => v * (d.2 - d.1)) row D

/-- No attribute shares memory with another one. -/
def NoSharing (s : NState K) : Prop :=
  ∀ f g r r', f ≠ g → s.attr f = some r → s.attr g = some r' → ∀ a ∈ r, a ∉ r'

/-- Attributes point to allocated memory. -/
def Allocated (s : NState K) : Prop :=
  ∀ f r, s.attr f = some r → ∀ a ∈ r, a < s.next

/-- Every row of every attribute has one entry per dimension. -/
def RowsFit (s : NState K) (d : Nat) : Prop :=
  ∀ f rows, s.read f = some rows → ∀ row ∈ rows, row.length = d

end Spec

open Spec

section c16

variable {K : Type} [Field K]

open NState

theorem read_inPlace_self (op : List K → List K) {s : NState K} {f : NField} {r : List Nat}
    (h : s.attr f = some r) : (s.inPlace op r).read f = (s.read f).map (List.map op) := by
  simp only [NState.read, inPlace, h, Option.map_some, List.map_map, Option.some.injEq]
  apply List.map_congr_left
  intro a ha
  simp [ha]

theorem read_inPlace_other (op : List K → List K) {s : NState K} {r : List Nat} {g : NField}
    (h : ∀ r', s.attr g = some r' → ∀ a ∈ r, a ∉ r') : (s.inPlace op r).read g = s.read g := by
  cases hg : s.attr g with
  | none => simp [NState.read, inPlace, hg]
  | some r' =>
    simp only [NState.read, inPlace, hg, Option.map_some, Option.some.injEq]
    apply List.map_congr_left
    intro a ha
    rw [if_neg fun h' => h r' hg a h' ha]

theorem read_assignNew_self (op : List K → List K) {s : NState K} {f : NField} {r : List Nat}
    (h : s.attr f = some r) : (s.assignNew op f r).read f = (s.read f).map (List.map op) := by
  simp only [NState.read, assignNew, h, Option.map_some, if_true, List.map_map, Option.some.injEq]
  apply List.ext_getElem
  · simp
  · intro i h1 h2
    simp only [List.length_map, List.length_range] at h1
    simp [h1]

theorem read_assignNew_other (op : List K → List K) {s : NState K} {f g : NField} {r : List Nat}
    (hs : Allocated s) (hg : g ≠ f) : (s.assignNew op f r).read g = s.read g := by
  cases hg' : s.attr g with
  | none => simp [NState.read, assignNew, hg, hg']
  | some r' =>
    simp only [NState.read, assignNew, hg, hg', if_false, Option.map_some, Option.some.injEq]
    apply List.map_congr_left
    intro a ha
    rw [if_pos (hs g r' hg' a ha)]

theorem allocated_inPlace (op : List K → List K) {s : NState K} (r : List Nat)
    (hs : Allocated s) : Allocated (s.inPlace op r) := hs

theorem noSharing_inPlace (op : List K → List K) {s : NState K} (r : List Nat)
    (hs : NoSharing s) : NoSharing (s.inPlace op r) := hs

theorem allocated_assignNew (op : List K → List K) {s : NState K} (f : NField) (r : List Nat)
    (hs : Allocated s) : Allocated (s.assignNew op f r) := by
  intro g r' hg a ha
  simp only [assignNew] at hg ⊢
  split at hg
  · cases hg
    simp only [List.mem_map, List.mem_range] at ha
    omega
  · have := hs g r' hg a ha
    omega

theorem noSharing_assignNew (op : List K → List K) {s : NState K} (f : NField) (r : List Nat)
    (ha : Allocated s) (hs : NoSharing s) : NoSharing (s.assignNew op f r) := by
  intro g g' r1 r2 hne h1 h2 a ha1 ha2
  simp only [assignNew] at h1 h2
  split at h1 <;> split at h2
  · rename_i e1 e2; exact hne (e1.trans e2.symm)
  · cases h1
    simp only [List.mem_map, List.mem_range] at ha1
    have := ha _ _ h2 a ha2
    omega
  · cases h2
    simp only [List.mem_map, List.mem_range] at ha2
    have := ha _ _ h1 a ha1
    omega
  · exact hs _ _ _ _ hne h1 h2 a ha1 ha2

/-- A loop over attributes in which every round changes just its attribute. -/
theorem read_foldl {P : NState K → Prop} {step : NState K → NField → NState K}
    {op : List K → List K}
    (hP : ∀ s f, P s → P (step s f))
    (hself : ∀ s f, P s → (step s f).read f = (s.read f).map (List.map op))
    (hother : ∀ s f g, P s → g ≠ f → (step s f).read g = s.read g)
    (l : List NField) (hl : l.Nodup) (s : NState K) (hs : P s) :
    P (l.foldl step s) ∧ ∀ g, (l.foldl step s).read g =
      if g ∈ l then (s.read g).map (List.map op) else s.read g := by
  induction l generalizing s with
  | nil => exact ⟨hs, by simp⟩
  | cons f l ih =>
    rw [List.nodup_cons] at hl
    obtain ⟨h1, h2⟩ := ih hl.2 (step s f) (hP s f hs)
    refine ⟨h1, fun g => ?_⟩
    rw [List.foldl_cons, h2 g]
    by_cases hg : g = f
    · subst hg
      simp [hl.1, hself s g hs]
    · simp [hg, hother s f g hs hg]

theorem foldl_normScale {D : List (K × K)} {s : NState K} (ha : Allocated s) (hn : NoSharing s) :
    (Allocated (rescaleList.foldl (normScaleStep D) s) ∧
      NoSharing (rescaleList.foldl (normScaleStep D) s)) ∧
    ∀ g, (rescaleList.foldl (normScaleStep D) s).read g =
      if g ∈ rescaleList then (s.read g).map (List.map (mulWidth D)) else s.read g := by
  apply read_foldl (P := fun s => Allocated s ∧ NoSharing s) _ _ _ _ (by decide) _ ⟨ha, hn⟩
  · rintro s f ⟨h1, h2⟩
    unfold normScaleStep
    split
    · exact ⟨h1, h2⟩
    · exact ⟨allocated_inPlace _ _ h1, noSharing_inPlace _ _ h2⟩
  · rintro s f -
    unfold normScaleStep
    split
    · rename_i h; simp [NState.read, h]
    · rename_i r h; exact read_inPlace_self _ h
  · rintro s f g ⟨_, h2⟩ hg
    unfold normScaleStep
    split
    · rfl
    · rename_i r h
      exact read_inPlace_other _ fun r' hr' => h2 _ _ _ _ (Ne.symm hg) h hr'

theorem foldl_normShift {D : List (K × K)} {s : NState K} (ha : Allocated s) (hn : NoSharing s) :
    (Allocated (shiftList.foldl (normShiftStep D) s) ∧
      NoSharing (shiftList.foldl (normShiftStep D) s)) ∧
    ∀ g, (shiftList.foldl (normShiftStep D) s).read g =
      if g ∈ shiftList then (s.read g).map (List.map fun r => divWidth D (subLeft D r))
      else s.read g := by
  apply read_foldl (P := fun s => Allocated s ∧ NoSharing s) _ _ _ _ (by decide) _ ⟨ha, hn⟩
  · rintro s f ⟨h1, h2⟩
    unfold normShiftStep
    split
    · exact ⟨h1, h2⟩
    · exact ⟨allocated_assignNew _ _ _ (allocated_inPlace _ _ h1),
        noSharing_assignNew _ _ _ (allocated_inPlace _ _ h1) (noSharing_inPlace _ _ h2)⟩
  · rintro s f -
    unfold normShiftStep
    split
    · rename_i h; simp [NState.read, h]
    · rename_i r h
      rw [read_assignNew_self _ (by exact h), read_inPlace_self _ h, Option.map_map]
      congr 1
      funext x
      simp
  · rintro s f g ⟨h1, h2⟩ hg
    unfold normShiftStep
    split
    · rfl
    · rename_i r h
      rw [read_assignNew_other _ (allocated_inPlace _ _ h1) hg]
      exact read_inPlace_other _ fun r' hr' => h2 _ _ _ _ (Ne.symm hg) h hr'

theorem foldl_undoScale {D : List (K × K)} {s : NState K} (ha : Allocated s) :
    Allocated (rescaleList.foldl (undoScaleStep D) s) ∧
    ∀ g, (rescaleList.foldl (undoScaleStep D) s).read g =
      if g ∈ rescaleList then (s.read g).map (List.map (divWidth D)) else s.read g := by
  apply read_foldl (P := Allocated) _ _ _ _ (by decide) _ ha
  · intro s f h1
    unfold undoScaleStep
    split
    · exact h1
    · exact allocated_assignNew _ _ _ h1
  · rintro s f -
    unfold undoScaleStep
    split
    · rename_i h; simp [NState.read, h]
    · rename_i r h; exact read_assignNew_self _ h
  · intro s f g h1 hg
    unfold undoScaleStep
    split
    · rfl
    · exact read_assignNew_other _ h1 hg

theorem foldl_undoShift {D : List (K × K)} {s : NState K} (ha : Allocated s) :
    Allocated (shiftList.foldl (undoShiftStep D) s) ∧
    ∀ g, (shiftList.foldl (undoShiftStep D) s).read g =
      if g ∈ shiftList then (s.read g).map (List.map fun r => addLeft D (mulWidth D r))
      else s.read g := by
  apply read_foldl (P := Allocated) _ _ _ _ (by decide) _ ha
  · intro s f h1
    unfold undoShiftStep
    split
    · exact h1
    · exact allocated_assignNew _ _ _ h1
  · rintro s f -
    unfold undoShiftStep
    split
    · rename_i h; simp [NState.read, h]
    · rename_i r h; exact read_assignNew_self _ h
  · intro s f g h1 hg
    unfold undoShiftStep
    split
    · rfl
    · exact read_assignNew_other _ h1 hg

theorem mem_lists (f : NField) : f ∈ shiftList ↔ f ∉ rescaleList := by
  cases f <;> decide

theorem divWidth_subLeft (D : List (K × K)) (r : List K) :
    divWidth D (subLeft D r) = toUnit D r := by
  induction D generalizing r with
  | nil => simp [divWidth, subLeft, toUnit]
  | cons d D ih =>
    cases r with
    | nil => simp [divWidth, subLeft, toUnit]
    | cons v r =>
      have := ih r
      simp only [divWidth, subLeft, toUnit, List.zipWith_cons_cons] at this ⊢
      rw [this]

theorem addLeft_mulWidth (D : List (K × K)) (r : List K) :
    addLeft D (mulWidth D r) = List.zipWith (fun v d => v * (d.2 - d.1) + d.1) r D := by
  induction D generalizing r with
  | nil => simp [addLeft, mulWidth]
  | cons d D ih =>
    cases r with
    | nil => simp [addLeft, mulWidth]
    | cons v r =>
      have := ih r
      simp only [addLeft, mulWidth, List.zipWith_cons_cons] at this ⊢
      rw [this]

/-- **C16 (part).** If no attribute shares memory with another one, `normalize_domain` maps
the domain to the unit cube, every value, error estimate, corner and the reference value by
the affine map, and scales the Jacobians by the widths; attributes that are `None` stay
`None`.  Missing: shared memory, for which it is false (`C16_negation_shared`). -/
theorem C16_normalize_partial {s : NState K} {D : List (K × K)} (hD : s.domain = some D)
    (ha : Allocated s) (hn : NoSharing s) :
    s.normalize.domain = some (List.replicate s.dim (0, 1)) ∧
    s.normalize.domainOriginal = some D ∧
    (∀ f ∈ rescaleList, s.normalize.read f = (s.read f).map (List.map (scaleDerivative D))) ∧
    (∀ f ∈ shiftList, s.normalize.read f = (s.read f).map (List.map (toUnit D))) ∧
    Allocated s.normalize ∧ NoSharing s.normalize := by
  obtain ⟨⟨a1, n1⟩, r1⟩ := foldl_normScale (D := D) ha hn
  obtain ⟨⟨a2, n2⟩, r2⟩ := foldl_normShift (D := D) a1 n1
  simp only [NState.normalize, hD]
  refine ⟨trivial, trivial, fun f hf => ?_, fun f hf => ?_, a2, n2⟩
  · have := r2 f
    rw [if_neg (fun h => (mem_lists f).mp h hf), r1 f, if_pos hf] at this
    exact this
  · have := r2 f
    rw [if_pos hf, r1 f, if_neg ((mem_lists f).mp hf)] at this
    refine this.trans ?_
    congr 2
    funext r
    exact divWidth_subLeft D r

/-- **C16.** `undo_normalize_domain` maps every value back by the inverse affine map,
whatever memory is shared. -/
theorem C16_undo {s : NState K} {D D' : List (K × K)} (hD' : s.domain = some D')
    (hD : s.domainOriginal = some D) (ha : Allocated s) :
    s.undoNormalize.domain = some D ∧ s.undoNormalize.domainOriginal = none ∧
    (∀ f ∈ rescaleList, s.undoNormalize.read f =
      (s.read f).map (List.map fun row => List.zipWith (fun v d => v / (d.2 - d.1)) row D)) ∧
    (∀ f ∈ shiftList, s.undoNormalize.read f = (s.read f).map (List.map fun row =>
      List.zipWith (fun v d => v * (d.2 - d.1) + d.1) row D)) := by
  obtain ⟨a1, r1⟩ := foldl_undoScale (D := D) ha
  obtain ⟨a2, r2⟩ := foldl_undoShift (D := D) a1
  simp only [NState.undoNormalize, hD', hD]
  refine ⟨trivial, trivial, fun f hf => ?_, fun f hf => ?_⟩
  · have := r2 f
    rw [if_neg (fun h => (mem_lists f).mp h hf), r1 f, if_pos hf] at this
    exact this
  · have := r2 f
    rw [if_pos hf, r1 f, if_neg ((mem_lists f).mp hf)] at this
    refine this.trans ?_
    congr 2
    funext r
    exact addLeft_mulWidth D r

theorem zipWith_inverse {D : List (K × K)} {f g : K → K × K → K}
    (h : ∀ d ∈ D, ∀ v, g (f v d) d = v) {row : List K} (hr : row.length = D.length) :
    List.zipWith g (List.zipWith f row D) D = row := by
  induction D generalizing row with
  | nil => simpa using (List.length_eq_zero_iff.mp hr).symm
  | cons d D ih =>
    cases row with
    | nil => simp at hr
    | cons v row =>
      simp only [List.zipWith_cons_cons]
      rw [h d (by simp), ih (fun d hd => h d (by simp [hd])) (by simpa using hr)]

/-- **C16 (part).** Normalising and undoing it gives back the domain and every attribute, if
no attribute shares memory with another one and the domain has no width zero. -/
theorem C16_round_trip_partial {s : NState K} {D : List (K × K)} (hD : s.domain = some D)
    (hw : ∀ d ∈ D, d.1 ≠ d.2) (ha : Allocated s) (hn : NoSharing s)
    (hrows : RowsFit s D.length) :
    s.normalize.undoNormalize.domain = s.domain ∧
    ∀ f, s.normalize.undoNormalize.read f = s.read f := by
  obtain ⟨h1, h2, h3, h4, h5, -⟩ := C16_normalize_partial hD ha hn
  obtain ⟨k1, -, k3, k4⟩ := C16_undo h1 h2 h5
  refine ⟨k1.trans hD.symm, fun f => ?_⟩
  have hw' : ∀ d ∈ D, d.2 - d.1 ≠ 0 := fun d hd h => hw d hd (sub_eq_zero.mp h).symm
  have key : ∀ {g k : K → K × K → K}, (∀ d ∈ D, ∀ v, k (g v d) d = v) →
      ((s.read f).map (List.map fun row => List.zipWith g row D)).map
        (List.map fun row => List.zipWith k row D) = s.read f := by
    intro g k hgk
    cases hr : s.read f with
    | none => rfl
    | some rows =>
      simp only [Option.map_some, List.map_map, Option.some.injEq]
      conv_rhs => rw [← List.map_id rows]
      apply List.map_congr_left
      intro row hrow
      exact zipWith_inverse hgk (hrows f rows hr row hrow)
  by_cases hf : f ∈ rescaleList
  · rw [k3 f hf, h3 f hf]
    apply key
    intro d hd v
    have := hw' d hd
    field_simp
  · have hf := (mem_lists f).mpr hf
    rw [k4 f hf, h4 f hf]
    apply key
    intro d hd v
    have := hw' d hd
    field_simp
    ring

end c16

/-! ### Concrete cases -/

namespace Ex

/-- A two-dimensional set with two samples, Jacobians of one output and a reference value. -/
def nset : NState ℚ where
  heap a := [[2, 10], [3, 20], [5, 7], [6, 8], [1, 15]].getD a []
  next := 5
  attr f := match f with
    | .values => some [0, 1]
    | .jacobians => some [2, 3]
    | .referenceValue => some [4]
    | _ => none
  domain := some [(1, 3), (10, 20)]
  domainOriginal := none
  dim := 2

/-- C16: the hypotheses are met. -/
example : nset.domain = some [(1, 3), (10, 20)] ∧ (∀ d ∈ [((1 : ℚ), (3 : ℚ)), (10, 20)], d.1 ≠ d.2) ∧
    Allocated nset ∧ NoSharing nset ∧ RowsFit nset 2 := by
  refine ⟨rfl, by decide +kernel, ?_, ?_, ?_⟩
  · intro f r h
    cases f <;> simp only [nset, reduceCtorEq, Option.some.injEq] at h <;> subst h <;> decide
  · intro f g r r' hne h h'
    cases f <;> cases g <;> simp only [nset, reduceCtorEq, Option.some.injEq] at h h' <;>
      first
      | exact absurd rfl hne
      | (subst h; subst h'; decide)
  · intro f rows h
    cases f <;> simp only [NState.read, nset, Option.map_none, Option.map_some, reduceCtorEq,
      Option.some.injEq] at h <;> subst h <;> decide +kernel

example : nset.normalize.read .values = some [[1 / 2, 0], [1, 1]] ∧
    nset.normalize.read .jacobians = some [[10, 70], [12, 80]] ∧
    nset.normalize.read .referenceValue = some [[0, 1 / 2]] := by decide +kernel

/-- A one-dimensional set with one sample after `global_to_local` by one process. -/
def nshared : NState ℚ := NState.globalToLocal 1 0
  { heap := fun a => [[2]].getD a []
    next := 1
    attr := fun f => match f with
      | .values => some [0]
      | _ => none
    domain := some [(1, 3)]
    domainOriginal := none
    dim := 1 }

/-- **C16, negation.** When the local values are a view of the global ones, as after
`global_to_local`, normalising moves them twice, so they differ from the global ones, and
undoing does not restore them. -/
theorem C16_negation_shared :
    nshared.read .valuesLocal = some [[2]] ∧
    nshared.normalize.read .values = some [[1 / 2]] ∧
    nshared.normalize.read .valuesLocal = some [[0]] ∧
    nshared.normalize.undoNormalize.read .values = some [[2]] ∧
    nshared.normalize.undoNormalize.read .valuesLocal = some [[1]] := by decide +kernel

/-- **C16, negation.** The array that the user passed to `set_values` (address 0) is
changed by `normalize_domain`, and `undo_normalize_domain` does not change it back. -/
theorem C16_negation_caller_array :
    nset.heap 0 = [2, 10] ∧ nset.normalize.heap 0 = [1, 0] ∧
    nset.normalize.undoNormalize.heap 0 = [1, 0] := by decide +kernel

end Ex

end BET
