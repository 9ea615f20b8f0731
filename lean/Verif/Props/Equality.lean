import Verif.Props.Densities
import Verif.Model.Equality

/-!
# C27: equality
-/

set_option linter.unusedSectionVars false
set_option linter.unusedSimpArgs false
set_option autoImplicit false

namespace BET

open Spec

section c27
variable {K : Type}

/-- An index inside the array. -/
def Spec.ValidIdx (rshape idx : List Nat) : Prop := List.Forall₂ (fun n i => i < n) rshape idx

/-- The arrays have the same shape and the same entries. -/
def Spec.NdAgree (a b : Nd K) : Prop :=
  a.rshape = b.rshape ∧ ∀ i, ValidIdx a.rshape i → a.entry i = b.entry i

/-- No entry is `nan`. -/
def Spec.NoNan (a : Nd K) : Prop := ∀ i, ValidIdx a.rshape i → a.entry i ≠ none

/-- The two fields have the same content. -/
def Spec.FieldAgree : PyVal K → PyVal K → Prop
  | .none, .none => True
  | .atom m, .atom n => m = n
  | .arr a, .arr b => NdAgree a b
  | .labels l, .labels l' => l = l'
  | .maps l, .maps l' => List.Forall₂ NdAgree l l'
  | _, _ => False

/-- The two fields have the same form: both are `None`, both numbers or strings, both arrays
of the same shape, both lists of labels, both lists of equally many cluster maps. -/
def Spec.SameForm : PyVal K → PyVal K → Prop
  | .none, .none => True
  | .atom _, .atom _ => True
  | .arr a, .arr b => a.rshape = b.rshape
  | .labels _, .labels _ => True
  | .maps l, .maps l' => l.length = l'.length
  | _, _ => False

/-- No array in the field has a `nan`. -/
def Spec.FieldNoNan : PyVal K → Prop
  | .arr a => NoNan a
  | .maps l => ∀ a ∈ l, NoNan a
  | _ => True

theorem mem_allIdx (sh idx : List Nat) : idx ∈ allIdx sh ↔ ValidIdx sh idx := by
  unfold ValidIdx
  induction sh generalizing idx with
  | nil => simp [allIdx]
  | cons n ns ih =>
    simp only [allIdx, List.mem_flatMap, List.mem_map, List.mem_range]
    constructor
    · rintro ⟨t, ht, i, hi, rfl⟩
      exact .cons hi ((ih t).mp ht)
    · intro h
      cases h with
      | cons hi ht => exact ⟨_, (ih _).mpr ht, _, hi, rfl⟩

theorem bshape_self (sh : List Nat) : bshape sh sh = some sh := by
  induction sh with
  | nil => rfl
  | cons n ns ih => simp [bshape, ih]

theorem bidx_self {sh idx : List Nat} (h : ValidIdx sh idx) : bidx sh idx = idx := by
  unfold bidx
  induction h with
  | nil => rfl
  | cons hi _ ih =>
    rw [List.zipWith_cons_cons, ih]
    split
    · congr 1; omega
    · rfl

theorem bshape_comm (a b : List Nat) : bshape a b = bshape b a := by
  induction a generalizing b with
  | nil => cases b <;> rfl
  | cons m ms ih =>
    cases b with
    | nil => rfl
    | cons n ns =>
      simp only [bshape, ih ns]
      by_cases h1 : m = n
      · subst h1; simp
      · have h1' : ¬ n = m := fun h => h1 h.symm
        simp only [h1, h1', if_false]
        by_cases h2 : m = 1
        · have : ¬ n = 1 := fun h => h1 (h2.trans h.symm)
          simp [h2, this]
        · simp [h2]

variable [DecidableEq K]

theorem entryNe_comm (x y : Option K) : Nd.entryNe x y = Nd.entryNe y x := by
  cases x <;> cases y <;> simp [Nd.entryNe, bne, Bool.beq_comm, eq_comm]

theorem entryNe_false {x y : Option K} : Nd.entryNe x y = false ↔ x = y ∧ x ≠ none := by
  cases x <;> cases y <;> simp [Nd.entryNe]

theorem neAny_comm (a b : Nd K) : a.neAny b = b.neAny a := by
  unfold Nd.neAny
  rw [bshape_comm]
  split
  · rfl
  · simp only [entryNe_comm]

theorem neAny_same {a b : Nd K} (h : a.rshape = b.rshape) :
    ∃ r, a.neAny b = .ok r ∧ (r = false ↔ NdAgree a b ∧ NoNan a) := by
  unfold Nd.neAny
  rw [← h, bshape_self]
  refine ⟨_, rfl, ?_⟩
  rw [List.any_eq_false]
  constructor
  · intro hall
    have : ∀ i, ValidIdx a.rshape i → a.entry i = b.entry i ∧ a.entry i ≠ none := by
      intro i hi
      have := hall i ((mem_allIdx _ _).mpr hi)
      rw [bidx_self hi] at this
      exact entryNe_false.mp (by simpa using this)
    exact ⟨⟨h, fun i hi => (this i hi).1⟩, fun i hi => (this i hi).2⟩
  · rintro ⟨⟨_, h1⟩, h2⟩ i hi
    have hi := (mem_allIdx _ _).mp hi
    rw [bidx_self hi, entryNe_false.mpr ⟨h1 i hi, h2 i hi⟩]
    simp

theorem arrayEqual_iff {a b : Nd K} : a.arrayEqual b = true ↔ NdAgree a b ∧ NoNan a := by
  unfold Nd.arrayEqual
  by_cases h : a.rshape = b.rshape
  · rw [if_pos h]
    simp only [Bool.not_eq_true', List.any_eq_false]
    constructor
    · intro hall
      have : ∀ i, ValidIdx a.rshape i → a.entry i = b.entry i ∧ a.entry i ≠ none := fun i hi =>
        entryNe_false.mp (by simpa using hall i ((mem_allIdx _ _).mpr hi))
      exact ⟨⟨h, fun i hi => (this i hi).1⟩, fun i hi => (this i hi).2⟩
    · rintro ⟨⟨_, h1⟩, h2⟩ i hi
      have hi := (mem_allIdx _ _).mp hi
      rw [entryNe_false.mpr ⟨h1 i hi, h2 i hi⟩]
      simp
  · rw [if_neg h]
    simp [NdAgree, h]

theorem mapsEq_same {l l' : List (Nd K)} (h : l.length = l'.length) :
    ∃ r, PyVal.mapsEq l l' = .ok r ∧ (r = true ↔ List.Forall₂ NdAgree l l' ∧ ∀ a ∈ l, NoNan a) := by
  induction l generalizing l' with
  | nil =>
    cases l' with
    | nil => exact ⟨true, rfl, by simp⟩
    | cons _ _ => simp at h
  | cons a l ih =>
    cases l' with
    | nil => simp at h
    | cons b l' =>
      obtain ⟨r, h1, h2⟩ := ih (by simpa using h)
      unfold PyVal.mapsEq
      by_cases hab : a.arrayEqual b = true
      · rw [if_pos hab]
        refine ⟨r, h1, ?_⟩
        rw [h2]
        have := arrayEqual_iff.mp hab
        simp [this.1, this.2]
      · rw [if_neg hab]
        refine ⟨false, rfl, ?_⟩
        simp only [Bool.false_eq_true, false_iff]
        rintro ⟨h3, h4⟩
        cases h3 with
        | cons h3 _ => exact hab (arrayEqual_iff.mpr ⟨h3, h4 a (by simp)⟩)

theorem eqField_same {x y : PyVal K} (h : SameForm x y) :
    ∃ r, x.eqField y = .ok r ∧ (r = true ↔ FieldAgree x y ∧ FieldNoNan x) := by
  cases x <;> cases y <;> first | exact False.elim h | skip
  · exact ⟨true, rfl, by simp [FieldAgree, FieldNoNan]⟩
  · exact ⟨_, rfl, by simp [FieldAgree, FieldNoNan]⟩
  · obtain ⟨r, h1, h2⟩ := neAny_same h
    refine ⟨!r, by simp [PyVal.eqField, h1, Except.map], ?_⟩
    simpa [FieldAgree, FieldNoNan] using h2
  · exact ⟨_, rfl, by simp [FieldAgree, FieldNoNan]⟩
  · exact mapsEq_same h

theorem eqFields_same {xs ys : List (PyVal K)} (h : List.Forall₂ SameForm xs ys) :
    ∃ r, SetObj.eqFields xs ys = .ok r ∧
      (r = true ↔ List.Forall₂ FieldAgree xs ys ∧ ∀ x ∈ xs, FieldNoNan x) := by
  induction h with
  | nil => exact ⟨true, rfl, by simp⟩
  | cons hxy _ ih =>
    obtain ⟨r, h1, h2⟩ := eqField_same hxy
    obtain ⟨r', h3, h4⟩ := ih
    simp only [SetObj.eqFields, h1, ok_bind]
    cases r with
    | true =>
      refine ⟨r', by simpa using h3, ?_⟩
      rw [h4]
      have := h2.mp rfl
      simp [this.1, this.2]
    | false =>
      refine ⟨false, rfl, ?_⟩
      simp only [Bool.false_eq_true, false_iff] at h2 ⊢
      rintro ⟨h5, h6⟩
      cases h5 with
      | cons h5 _ => exact h2 ⟨h5, h6 _ (by simp)⟩

/-- **C27 (part).** Two sets of the same class whose fields have the same form compare equal
exactly when all fields have the same content and none of them contains a `nan`.  So on
sets of one form without `nan`, `==` is an equivalence and means equality of every array
and parameter.  Missing: fields of different forms and `nan`; see the negations. -/
theorem C27_iff_partial {a b : SetObj K} (hcls : a.cls = b.cls)
    (hform : List.Forall₂ SameForm a.fields b.fields) :
    ∃ r, a.eq b = .ok r ∧
      (r = true ↔ List.Forall₂ FieldAgree a.fields b.fields ∧ ∀ x ∈ a.fields, FieldNoNan x) := by
  unfold SetObj.eq
  rw [if_pos hcls]
  exact eqFields_same hform

theorem sameForm_refl (x : PyVal K) : SameForm x x := by
  cases x <;> simp [SameForm]

theorem fieldAgree_refl (x : PyVal K) : FieldAgree x x := by
  cases x <;> simp [FieldAgree, NdAgree]

theorem NdAgree.symm {a b : Nd K} (h : NdAgree a b) : NdAgree b a :=
  ⟨h.1.symm, fun i hi => (h.2 i (h.1 ▸ hi)).symm⟩

/-- **C27 (part).** A set without `nan` equals itself. -/
theorem C27_refl_partial (a : SetObj K) (h : ∀ x ∈ a.fields, FieldNoNan x) :
    a.eq a = .ok true := by
  obtain ⟨r, h1, h2⟩ := C27_iff_partial (a := a) rfl
    (List.forall₂_same.mpr fun x _ => sameForm_refl x)
  rw [h1, h2.mpr ⟨List.forall₂_same.mpr fun x _ => fieldAgree_refl x, h⟩]

/-- As many cluster maps on both sides, if both have some. -/
def Spec.SameMapCount : PyVal K → PyVal K → Prop
  | .maps l, .maps l' => l.length = l'.length
  | _, _ => True

theorem eqField_symm {x y : PyVal K} (hm : SameMapCount x y) (h : x.eqField y = .ok true) :
    y.eqField x = .ok true := by
  cases x <;> cases y <;> simp only [PyVal.eqField, Except.ok.injEq, Bool.false_eq_true] at h ⊢
  · split at h
    · rename_i h0; simp [h0]
    · split at h <;> cases h
  · simp only [beq_iff_eq] at h ⊢; exact h.symm
  · simp only [beq_iff_eq] at h; simp [h]
  · rw [neAny_comm]; exact h
  · simp only [beq_iff_eq] at h ⊢; exact h.symm
  · obtain ⟨r, h1, h2⟩ := mapsEq_same hm
    rw [h1] at h
    cases h
    obtain ⟨h3, h4⟩ := h2.mp rfl
    obtain ⟨r', h5, h6⟩ := mapsEq_same (l := _) (l' := _) (Eq.symm hm)
    rw [h5, h6.mpr ⟨?_, ?_⟩]
    · exact List.Forall₂.flip (h3.imp fun a b hab => NdAgree.symm hab)
    · intro b hb
      obtain ⟨i, hi, rfl⟩ := List.mem_iff_getElem.mp hb
      rw [List.forall₂_iff_get] at h3
      have hi' : i < _ := h3.1 ▸ hi
      have hab := h3.2 i hi' hi
      simp only [List.get_eq_getElem] at hab
      intro j hj
      have hj' := hj
      rw [← hab.1] at hj'
      have := h4 _ (List.getElem_mem hi') j hj'
      rw [← hab.2 j hj']
      exact this

/-- **C27 (part).** If `a == b` is `True` then so is `b == a`.  Missing: cluster maps of
different number (`C27_negation_maps`); an answer `False` or an exception need not be
symmetric (`C27_negation_none`). -/
theorem C27_symm_partial {a b : SetObj K}
    (hm : List.Forall₂ SameMapCount a.fields b.fields) (h : a.eq b = .ok true) :
    b.eq a = .ok true := by
  unfold SetObj.eq at h ⊢
  split at h
  · rename_i hcls
    rw [if_pos hcls.symm]
    clear hcls
    generalize a.fields = xs at h hm
    generalize b.fields = ys at h hm
    induction hm with
    | nil => rfl
    | cons hxy _ ih =>
      simp only [SetObj.eqFields, bind_eq_ok] at h ⊢
      obtain ⟨go, h1, h2⟩ := h
      cases go with
      | false => exact absurd h2 (by simp [pure, Except.pure])
      | true => exact ⟨true, eqField_symm hxy h1, by simpa using ih (by simpa using h2)⟩
  · cases h

/-- The same for a set that may be missing. -/
def Spec.SetForm : Option (SetObj K) → Option (SetObj K) → Prop
  | none, none => True
  | some a, some b => a.cls = b.cls ∧ List.Forall₂ SameForm a.fields b.fields
  | _, _ => False

/-- The same for a set that may be missing. -/
def Spec.SetAgree : Option (SetObj K) → Option (SetObj K) → Prop
  | none, none => True
  | some a, some b => List.Forall₂ FieldAgree a.fields b.fields ∧ ∀ x ∈ a.fields, FieldNoNan x
  | _, _ => False

/-- **C27 (part).** Likewise for discretizations. -/
theorem C27_disc_iff_partial {a b : DiscObj K} (hs : List.Forall₂ SetForm a.sets b.sets)
    (hv : List.Forall₂ SameForm a.vectors b.vectors) :
    ∃ r, a.eq b = .ok r ∧
      (r = true ↔ List.Forall₂ SetAgree a.sets b.sets ∧
        List.Forall₂ FieldAgree a.vectors b.vectors ∧ ∀ x ∈ a.vectors, FieldNoNan x) := by
  have key : ∃ r, DiscObj.eqSets a.sets b.sets = .ok r ∧
      (r = true ↔ List.Forall₂ SetAgree a.sets b.sets) := by
    generalize a.sets = xs at hs
    generalize b.sets = ys at hs
    induction hs with
    | nil => exact ⟨true, rfl, by simp⟩
    | @cons x y xs ys hxy _ ih =>
      obtain ⟨r', h3, h4⟩ := ih
      have hx : ∃ r, DiscObj.eqSet x y = .ok r ∧ (r = true ↔ SetAgree x y) := by
        cases x <;> cases y <;> first | exact False.elim hxy | skip
        · exact ⟨true, rfl, by simp [SetAgree]⟩
        · exact C27_iff_partial hxy.1 hxy.2
      obtain ⟨r, h1, h2⟩ := hx
      simp only [DiscObj.eqSets, h1, ok_bind]
      cases r with
      | true => exact ⟨r', by simpa using h3, by rw [h4]; simp [h2.mp rfl]⟩
      | false =>
        refine ⟨false, rfl, ?_⟩
        simp only [Bool.false_eq_true, false_iff] at h2 ⊢
        intro h5
        cases h5 with
        | cons h5 _ => exact h2 h5
  obtain ⟨r, h1, h2⟩ := key
  obtain ⟨r', h3, h4⟩ := eqFields_same hv
  simp only [DiscObj.eq, h1, ok_bind]
  cases r with
  | true => exact ⟨r', by simpa using h3, by rw [h4]; simp [h2.mp rfl]⟩
  | false =>
    refine ⟨false, rfl, ?_⟩
    simp only [Bool.false_eq_true, false_iff] at h2 ⊢
    rintro ⟨h5, _⟩
    exact h2 h5

end c27

/-! ### Concrete cases -/

namespace Ex

/-- A column of numbers. -/
def column (l : List (Option ℚ)) : Nd ℚ :=
  { rshape := [1, l.length], entry := fun i => (l.getD (i.getD 1 0) none) }

/-- C27: two sets of one form. -/
example : ∃ r, (SetObj.mk 0 [.arr (column [some 1, some 2]), .none]).eq
    ⟨0, [.arr (column [some 1, some 3]), .none]⟩ = .ok r ∧ r = false := ⟨_, rfl, by decide +kernel⟩

/-- **C27, negation.** A set of two equal samples compares equal to the set with one of them:
the arrays are broadcast. -/
theorem C27_negation_broadcast :
    ((SetObj.mk 0 [.arr (column [some 1, some 1])]).eq ⟨0, [.arr (column [some 1])]⟩).toOption =
      some true ∧
    ¬ List.Forall₂ FieldAgree [.arr (column [some 1, some 1])] [.arr (column [some 1])] := by
  refine ⟨by decide +kernel, fun h => ?_⟩
  cases h with
  | cons h _ => exact absurd h.1 (by decide)

/-- **C27, negation.** A set with a `nan`, as every ball sample set has in its last value
(/repo/bet/sample.py:2046), does not equal itself. -/
theorem C27_negation_nan :
    ((SetObj.mk 2 [.arr (column [some 1, none])]).eq
      ⟨2, [.arr (column [some 1, none])]⟩).toOption = some false := by decide +kernel

/-- **C27, negation.** Comparing a set that has an array with one that has not gives `False`
one way round and raises the other way round. -/
theorem C27_negation_none :
    ((SetObj.mk 0 [.arr (column [some 1, some 2])]).eq ⟨0, [.none]⟩).toOption = some false ∧
    errOf ((SetObj.mk 0 [PyVal.none]).eq ⟨0, [.arr (column [some 1, some 2])]⟩) =
      some .valueError := by decide +kernel

/-- **C27, negation.** With fewer cluster maps on the left, `a == b` although `b == a` raises. -/
theorem C27_negation_maps :
    ((SetObj.mk 0 [.maps [column [some 1]]]).eq
      ⟨0, [.maps [column [some 1], column [some 2]]]⟩).toOption = some true ∧
    errOf ((SetObj.mk 0 [.maps [column [some 1], column [some 2]]]).eq
      ⟨0, [.maps [column [some 1]]]⟩) = some .indexError := by decide +kernel

/-- **C27, negation.** Comparing a discretization that has an emulated set with one that has
none raises instead of giving `False`. -/
theorem C27_negation_missing_set :
    errOf ((DiscObj.mk [some (SetObj.mk 0 [.none])] []).eq
      (⟨[none], []⟩ : DiscObj ℚ)) = some .typeError ∧
    errOf ((DiscObj.mk [none] []).eq
      (⟨[some (SetObj.mk 0 [.none])], []⟩ : DiscObj ℚ)) = some .typeError := by decide +kernel

end Ex

end BET
