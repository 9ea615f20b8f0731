import Verif.Model.Accessors
import Verif.Props.Util
import Verif.Props.CalculateR

/-!
# C104: setters, getters and appenders of sample sets
-/

set_option autoImplicit false
set_option linter.unusedSectionVars false
set_option linter.unusedSimpArgs false

namespace BET

section
variable {K T : Type}

/-! ## Specification -/

/-- The call is one of `set_X` or `append_X`, and the getter is `get_X`. -/
def Spec.Concerns : AttrCall K T → Getter → Prop
  | .set f _, g => g = .plain f
  | .setReference _, g => g = .referenceValue
  | .setDomain _, g => g = .domain
  | .setValues _, g => g = .values
  | .setValuesLocal _, g => g = .valuesLocal
  | .setDensities _, g => g = .densities
  | .setDensitiesLocal _, g => g = .densitiesLocal
  | .appendValues _, g => g = .values
  | .appendValuesLocal _, g => g = .valuesLocal
  | .appendJacobians _, g => g = .plain .jacobians
  | .appendErrorEstimates _, g => g = .plain .errorEstimates
  | .setBoundingBox, _ => False
  | .getBoundingBox, _ => False
  | .updateBounds _, _ => False
  | .updateBoundsLocal _, _ => False

/-- `a` has the form of values: a matrix with `dim` columns. -/
def Spec.ValueArray (dim : Nat) (a : NdArr K) : Prop := IsArray a ∧ ∃ n, a.shape = [n, dim]

/-- `x` arranged in rows of `dim` numbers is `a`: the matrix itself if it has `dim` columns, its transpose if only
the number of rows is `dim`, one row for a vector of `dim` numbers, one column for any vector if `dim = 1`. -/
def Spec.Arranged (dim : Nat) (x : ArrayLike K) (a : NdArr K) : Prop :=
  ValueArray dim a ∧
    (∀ n, (toArr x).shape = [n, dim] → a = toArr x) ∧
    (∀ n, dim ≠ n → (toArr x).shape = [dim, n] → a = (toArr x).transpose) ∧
    ((toArr x).shape.length = 1 → a.data = (toArr x).data)

/-- Entry `(i, j)` of a matrix with `m` columns. -/
def Spec.matEntry (a : NdArr K) (m i j : Nat) : Option K := a.data[i * m + j]?

open Spec

/-! ## Lemmas -/

def allGetters : List Getter :=
  [.plain .pNorm, .plain .clusterMaps, .plain .label, .plain .labels, .plain .weights, .plain .weightsInit,
    .plain .probTypeInit, .plain .probParametersInit, .plain .probType, .plain .probParameters, .plain .region,
    .plain .regionLocal, .plain .errorId, .plain .errorIdLocal, .plain .volumes, .plain .probabilities,
    .plain .jacobians, .plain .errorEstimates, .plain .volumesLocal, .plain .probabilitiesLocal,
    .plain .jacobiansLocal, .plain .errorEstimatesLocal, .referenceValue, .domain, .values, .valuesLocal,
    .densities, .densitiesLocal]

def parseAttr (n : String) : Option Getter :=
  (allGetters.map fun g => (n == g.returned, g)).lookup true

theorem parse_returned (g : Getter) : parseAttr g.returned = some g := by
  cases g with
  | plain f => cases f <;> decide +kernel
  | _ => decide +kernel

theorem parse_assigned (f : PlainAttr) (h : f ≠ .errorIdLocal) : parseAttr f.assigned = some (.plain f) := by
  cases f <;> first | exact absurd rfl h | decide +kernel

theorem parse_error_local : parseAttr "_error_local" = none := by decide +kernel

theorem get_put_ne (o : AttrObj K T) {n : String} (v : AttrVal K T) {g : Getter} (h : parseAttr n ≠ some g) :
    (o.put n v).get g = o.get g := by
  unfold AttrObj.get AttrObj.put
  simp only
  rw [if_neg]
  intro e
  exact h (by rw [← e, parse_returned])

theorem get_put_eq (o : AttrObj K T) (v : AttrVal K T) (g : Getter) : (o.put g.returned v).get g = v := by
  simp [AttrObj.get, AttrObj.put]

theorem appendTo_frame (o : AttrObj K T) (n : String) (b : NdArr K) {g : Getter} (h : parseAttr n ≠ some g) :
    ((o.appendTo n b).2).get g = o.get g := by
  unfold AttrObj.appendTo
  split
  · rfl
  · exact get_put_ne o _ h

theorem appendFixed_frame (o : AttrObj K T) (n : String) (x : ArrayLike K) {g : Getter}
    (h : parseAttr n ≠ some g) : ((o.appendFixed n x).2).get g = o.get g := by
  unfold AttrObj.appendFixed
  split
  · rfl
  · exact appendTo_frame o n _ h

variable [Min K] [Max K] [Sub K]

theorem box_frame (o : AttrObj K T) (g : Getter) : (o.setBoundingBox.2).get g = o.get g := by
  unfold AttrObj.setBoundingBox
  split
  · split
    · rfl
    · exact get_put_ne o _ (by rw [show parseAttr "_bounding_box" = none by decide +kernel]; simp)
  · rfl

theorem bounds_frame (o : AttrObj K T) {l r w : String} (num : Nat) (g : Getter) (hl : parseAttr l = none)
    (hr : parseAttr r = none) (hw : parseAttr w = none) : ((o.bounds l r w num).2).get g = o.get g := by
  unfold AttrObj.bounds
  split
  · rfl
  · split
    · exact get_put_ne o _ (by simp [hl])
    · rw [get_put_ne _ _ (by simp [hw]), get_put_ne _ _ (by simp [hr]), get_put_ne _ _ (by simp [hl])]

/-- C104: a call changes the result of no getter but that of the attribute it is called for. -/
theorem C104_frame (o : AttrObj K T) (c : AttrCall K T) (g : Getter) (h : ¬ Concerns c g) :
    ((c.exec o).2).get g = o.get g := by
  have hv : parseAttr "_values" = some .values := by decide +kernel
  have hvl : parseAttr "_values_local" = some .valuesLocal := by decide +kernel
  cases c with
  | set f v =>
    refine get_put_ne o _ ?_
    by_cases hf : f = .errorIdLocal
    · subst hf
      rw [show PlainAttr.assigned .errorIdLocal = "_error_local" from rfl, parse_error_local]
      simp
    · rw [parse_assigned f hf]
      intro e
      exact h (Option.some.inj e).symm
  | setReference a =>
    simp only [AttrCall.exec, AttrObj.setReference]
    split
    · rfl
    · refine get_put_ne o _ ?_
      rw [show parseAttr "_reference_value" = some .referenceValue by decide +kernel]
      exact fun e => h (Option.some.inj e).symm
  | setDomain a =>
    simp only [AttrCall.exec, AttrObj.setDomain]
    split
    · rfl
    · split
      · rfl
      · refine get_put_ne o _ ?_
        rw [show parseAttr "_domain" = some .domain by decide +kernel]
        exact fun e => h (Option.some.inj e).symm
  | setValues x =>
    simp only [AttrCall.exec, AttrObj.setValues]
    split
    · rfl
    · refine get_put_ne o _ ?_
      rw [hv]
      exact fun e => h (Option.some.inj e).symm
  | setValuesLocal x =>
    simp only [AttrCall.exec, AttrObj.setValuesLocal]
    split
    · rfl
    · refine get_put_ne o _ ?_
      rw [hvl]
      exact fun e => h (Option.some.inj e).symm
  | setDensities a =>
    refine get_put_ne o _ ?_
    rw [show parseAttr "_densities" = some .densities by decide +kernel]
    exact fun e => h (Option.some.inj e).symm
  | setDensitiesLocal a =>
    refine get_put_ne o _ ?_
    rw [show parseAttr "_densities_local" = some .densitiesLocal by decide +kernel]
    exact fun e => h (Option.some.inj e).symm
  | appendValues x =>
    refine appendFixed_frame o _ x ?_
    rw [hv]
    exact fun e => h (Option.some.inj e).symm
  | appendValuesLocal x =>
    refine appendFixed_frame o _ x ?_
    rw [hvl]
    exact fun e => h (Option.some.inj e).symm
  | appendJacobians a =>
    refine appendTo_frame o _ a ?_
    rw [show parseAttr "_jacobians" = some (.plain .jacobians) by decide +kernel]
    exact fun e => h (Option.some.inj e).symm
  | appendErrorEstimates a =>
    refine appendTo_frame o _ a ?_
    rw [show parseAttr "_error_estimates" = some (.plain .errorEstimates) by decide +kernel]
    exact fun e => h (Option.some.inj e).symm
  | setBoundingBox => exact box_frame o g
  | getBoundingBox =>
    simp only [AttrCall.exec, AttrObj.ensureBox]
    split
    · exact box_frame o g
    · rfl
  | updateBounds num =>
    simp only [AttrCall.exec, AttrObj.updateBounds]
    split
    · rfl
    · exact bounds_frame o _ g (by decide +kernel) (by decide +kernel) (by decide +kernel)
  | updateBoundsLocal num =>
    simp only [AttrCall.exec, AttrObj.updateBoundsLocal]
    split
    · rfl
    · exact bounds_frame o _ g (by decide +kernel) (by decide +kernel) (by decide +kernel)

theorem put_dim (o : AttrObj K T) (n : String) (v : AttrVal K T) : (o.put n v).dim = o.dim := rfl

theorem exec_dim (o : AttrObj K T) (c : AttrCall K T) : ((c.exec o).2).dim = o.dim := by
  cases c <;> simp only [AttrCall.exec, AttrObj.setReference, AttrObj.setDomain, AttrObj.setValues,
    AttrObj.setValuesLocal, AttrObj.appendFixed, AttrObj.appendTo, AttrObj.setBoundingBox, AttrObj.ensureBox,
    AttrObj.updateBounds, AttrObj.updateBoundsLocal, AttrObj.bounds] <;> (repeat' split) <;> rfl

theorem attr_run_append (o : AttrObj K T) (h₁ h₂ : List (AttrCall K T)) : o.run (h₁ ++ h₂) = (o.run h₁).run h₂ := by
  simp [AttrObj.run]

theorem attr_run_cons (o : AttrObj K T) (c : AttrCall K T) (h : List (AttrCall K T)) :
    o.run (c :: h) = ((c.exec o).2).run h := rfl

theorem attr_run_dim (o : AttrObj K T) (h : List (AttrCall K T)) : (o.run h).dim = o.dim := by
  induction h generalizing o with
  | nil => rfl
  | cons c h ih => rw [attr_run_cons, ih, exec_dim]

/-- C104: whatever is called, a getter keeps its result as long as no call concerns its attribute, and the
dimension never changes. -/
theorem C104_unchanged (o : AttrObj K T) (h : List (AttrCall K T)) (g : Getter)
    (hg : ∀ c ∈ h, ¬ Concerns c g) : (o.run h).get g = o.get g ∧ (o.run h).dim = o.dim := by
  refine ⟨?_, attr_run_dim o h⟩
  induction h generalizing o with
  | nil => rfl
  | cons c h ih =>
    rw [attr_run_cons, ih _ fun c' hc => hg c' (by simp [hc]), C104_frame o c g (hg c (by simp))]

/-- C104: in every history a getter returns what its setter was last given, for every attribute but the local
error identifiers. -/
theorem C104_last_set (o : AttrObj K T) (h₁ h₂ : List (AttrCall K T)) (f : PlainAttr) (v : AttrVal K T)
    (hf : f ≠ .errorIdLocal) (h : ∀ c ∈ h₂, ¬ Concerns c (.plain f)) :
    (o.run (h₁ ++ .set f v :: h₂)).get (.plain f) = v := by
  rw [attr_run_append, attr_run_cons, (C104_unchanged _ h₂ _ h).1]
  have : f.assigned = (Getter.plain f).returned := by
    cases f <;> first | exact absurd rfl hf | rfl
  simp only [AttrCall.exec]
  rw [this, get_put_eq]

/-- C104, negation: `get_error_id_local` never returns what `set_error_id_local` was given: from a new object it
returns `None` after every history. -/
theorem C104_negation_error_id_local (dim : Nat) (two : T) (h : List (AttrCall K T)) :
    ((AttrObj.init dim two : AttrObj K T).run h).get (.plain .errorIdLocal) = .none := by
  have key : ∀ (o : AttrObj K T) (c : AttrCall K T),
      ((c.exec o).2).get (.plain .errorIdLocal) = o.get (.plain .errorIdLocal) := by
    intro o c
    by_cases hc : ∃ v, c = .set .errorIdLocal v
    · obtain ⟨v, rfl⟩ := hc
      refine get_put_ne o _ ?_
      rw [show PlainAttr.assigned .errorIdLocal = "_error_local" from rfl, parse_error_local]
      simp
    · refine C104_frame o c _ fun hcon => ?_
      cases c <;> simp only [Concerns, Getter.plain.injEq, reduceCtorEq] at hcon
      exact hc ⟨_, by rw [hcon]⟩
  have : ∀ (o : AttrObj K T), (o.run h).get (.plain .errorIdLocal) = o.get (.plain .errorIdLocal) := by
    induction h with
    | nil => intro o; rfl
    | cons c h ih => intro o; rw [attr_run_cons, ih, key]
  rw [this]
  rfl

/-- C104: the reference value is the last one of the right shape `(dim,)`; others are refused with
`dim_not_matching` and change nothing. -/
theorem C104_reference (o : AttrObj K T) (h₁ h₂ : List (AttrCall K T)) (a : NdArr K)
    (h : ∀ c ∈ h₂, ¬ Concerns c .referenceValue) :
    ((a.shape = [o.dim]) → ((AttrCall.setReference a).exec (o.run h₁)).1 = .ok () ∧
      (o.run (h₁ ++ .setReference a :: h₂)).get .referenceValue = .arr a) ∧
    ((a.shape ≠ [o.dim]) → (AttrCall.setReference a).exec (o.run h₁) = (.error .dimNotMatching, o.run h₁) ∧
      (o.run (h₁ ++ .setReference a :: h₂)).get .referenceValue = (o.run h₁).get .referenceValue) := by
  rw [attr_run_append, attr_run_cons, (C104_unchanged _ h₂ _ h).1]
  constructor
  · intro ha
    simp only [AttrCall.exec, AttrObj.setReference, attr_run_dim, ha, ne_eq, not_true_eq_false, if_false]
    exact ⟨trivial, get_put_eq _ _ .referenceValue⟩
  · intro ha
    simp only [AttrCall.exec, AttrObj.setReference, attr_run_dim, ha, ne_eq, not_false_eq_true, if_true, and_self]

/-- C104: the domain is the last one with `dim` rows; arrays with another number of rows are refused and change
nothing. -/
theorem C104_domain (o : AttrObj K T) (h₁ h₂ : List (AttrCall K T)) (a : NdArr K) (n : Nat) (ns : List Nat)
    (ha : a.shape = n :: ns) (h : ∀ c ∈ h₂, ¬ Concerns c .domain) :
    (n = o.dim → ((AttrCall.setDomain a).exec (o.run h₁)).1 = .ok () ∧
      (o.run (h₁ ++ .setDomain a :: h₂)).get .domain = .arr a) ∧
    (n ≠ o.dim → (AttrCall.setDomain a).exec (o.run h₁) = (.error .dimNotMatching, o.run h₁) ∧
      (o.run (h₁ ++ .setDomain a :: h₂)).get .domain = (o.run h₁).get .domain) := by
  rw [attr_run_append, attr_run_cons, (C104_unchanged _ h₂ _ h).1]
  constructor
  · intro hn
    simp only [AttrCall.exec, AttrObj.setDomain, attr_run_dim, ha, hn, ne_eq, not_true_eq_false, if_false]
    exact ⟨trivial, get_put_eq _ _ .domain⟩
  · intro hn
    simp only [AttrCall.exec, AttrObj.setDomain, attr_run_dim, ha, hn, ne_eq, not_false_eq_true, if_true, and_self]

/-- C104, negation: only the number of rows of a domain is checked: a vector of `dim` numbers, and matrices with
any number of columns, are accepted. -/
theorem C104_negation_domain (o : AttrObj K T) (a : NdArr K) (ns : List Nat) (ha : a.shape = o.dim :: ns) :
    ((AttrCall.setDomain a).exec o).1 = .ok () := by
  simp [AttrCall.exec, AttrObj.setDomain, ha]

/-- C104: densities that are given are returned. -/
theorem C104_densities (o : AttrObj K T) (h₁ h₂ : List (AttrCall K T)) (a : NdArr K) :
    ((∀ c ∈ h₂, ¬ Concerns c .densities) →
      (o.run (h₁ ++ .setDensities a :: h₂)).get .densities = .arr a) ∧
    ((∀ c ∈ h₂, ¬ Concerns c .densitiesLocal) →
      (o.run (h₁ ++ .setDensitiesLocal a :: h₂)).get .densitiesLocal = .arr a) := by
  constructor
  · intro h
    rw [attr_run_append, attr_run_cons, (C104_unchanged _ h₂ _ h).1]
    exact get_put_eq _ _ .densities
  · intro h
    rw [attr_run_append, attr_run_cons, (C104_unchanged _ h₂ _ h).1]
    exact get_put_eq _ _ .densitiesLocal

/-! ### Values -/

theorem fix_arranged [Inhabited K] {dim : Nat} {x : ArrayLike K} (hx : IsArray (toArr x))
    (hf : Arrangeable dim (toArr x)) : ∃ a, fixData x (some dim) = .ok a ∧ Arranged dim x a := by
  obtain ⟨a, h1, h2, h3, -, h4, h5, h6, -⟩ := C62_data_dim_partial x hx dim hf
  exact ⟨a, h1, ⟨h2, h3⟩, h4, h5, fun h => (h6 h).1⟩

theorem cols_value {dim : Nat} {a : NdArr K} (h : ValueArray dim a) : cols a = some dim := by
  obtain ⟨-, n, hn⟩ := h
  simp [cols, hn]

theorem concat_value {dim : Nat} {a b : NdArr K} (ha : ValueArray dim a) (hb : ValueArray dim b) :
    ∃ c, concat0 (.arr a : AttrVal K T) b = .ok c ∧ ValueArray dim c ∧ c.data = a.data ++ b.data := by
  obtain ⟨ha, n, hn⟩ := ha
  obtain ⟨hb, m, hm⟩ := hb
  refine ⟨⟨[n + m, dim], a.data ++ b.data⟩, by simp [concat0, hn, hm], ⟨?_, n + m, rfl⟩, rfl⟩
  unfold IsArray at ha hb ⊢
  rw [hn] at ha
  rw [hm] at hb
  simp only [List.length_append, ha, hb, List.prod_cons, List.prod_nil, mul_one]
  ring

/-- C104: `set_values` accepts numbers, vectors and matrices that can be arranged in rows of `dim` numbers, and
`get_values` returns them so arranged until the next call that concerns the values; and the same for the local
values. -/
theorem C104_values [Inhabited K] (o : AttrObj K T) (h₁ h₂ : List (AttrCall K T)) (x : ArrayLike K)
    (hx : IsArray (toArr x)) (hf : Arrangeable o.dim (toArr x)) :
    ∃ a, Arranged o.dim x a ∧
      (((AttrCall.setValues x).exec (o.run h₁)).1 = .ok () ∧
        ((∀ c ∈ h₂, ¬ Concerns c .values) →
          (o.run (h₁ ++ .setValues x :: h₂)).get .values = .arr a)) ∧
      ((AttrCall.setValuesLocal x).exec (o.run h₁)).1 = .ok () ∧
        ((∀ c ∈ h₂, ¬ Concerns c .valuesLocal) →
          (o.run (h₁ ++ .setValuesLocal x :: h₂)).get .valuesLocal = .arr a) := by
  obtain ⟨a, ha, har⟩ := fix_arranged hx hf
  have hc := cols_value har.1
  refine ⟨a, har, ⟨?_, fun h => ?_⟩, ?_, fun h => ?_⟩
  · simp [AttrCall.exec, AttrObj.setValues, attr_run_dim, ha, hc]
  · rw [attr_run_append, attr_run_cons, (C104_unchanged _ h₂ _ h).1]
    simp only [AttrCall.exec, AttrObj.setValues, attr_run_dim, ha]
    exact get_put_eq _ _ .values
  · simp [AttrCall.exec, AttrObj.setValuesLocal, attr_run_dim, ha, hc]
  · rw [attr_run_append, attr_run_cons, (C104_unchanged _ h₂ _ h).1]
    simp only [AttrCall.exec, AttrObj.setValuesLocal, attr_run_dim, ha]
    exact get_put_eq _ _ .valuesLocal

/-- C104, negation: `set_values` of a matrix that does not fit raises `dim_not_matching`, but the values are lost:
`get_values` returns the transpose of the refused matrix. -/
theorem C104_negation_set_values (o : AttrObj K T) (a : NdArr K) (n m : Nat) (ha : a.shape = [n, m])
    (hn : n ≠ o.dim) (hm : m ≠ o.dim) :
    ((AttrCall.setValues (.arr a)).exec o).1 = .error .dimNotMatching ∧
      ((AttrCall.setValues (.arr a)).exec o).2.get .values = .arr a.transpose := by
  have h1 : fixVector2d (.arr a) = .ok a := by simp [fixVector2d, toArr, ha]
  have h2 : fixData (.arr a) (some o.dim) = .ok a.transpose := by
    simp only [fixData, h1, ok_bind]
    rw [if_pos (by simp [cols, ha, hm])]
    rfl
  have h3 : cols a.transpose ≠ some o.dim := by simp [cols, NdArr.transpose, ha, hn]
  simp only [AttrCall.exec, AttrObj.setValues, h2, h3, ne_eq, not_false_eq_true, if_true, true_and]
  exact get_put_eq _ _ .values

/-- The parts of a history that append to the values. -/
def Spec.appendedValues : AttrCall K T → Option (ArrayLike K)
  | .appendValues x => some x
  | _ => none

/-- C104: after a history without `set_values` the values are the old ones followed by those that were appended,
in the order of the calls. -/
theorem C104_append [Inhabited K] (o : AttrObj K T) (h : List (AttrCall K T)) (a : NdArr K)
    (ho : o.get .values = .arr a) (ha : ValueArray o.dim a) (hset : ∀ x, AttrCall.setValues x ∉ h)
    (hx : ∀ x, AttrCall.appendValues x ∈ h → IsArray (toArr x) ∧ Arrangeable o.dim (toArr x)) :
    ∃ c bs, (o.run h).get .values = .arr c ∧ ValueArray o.dim c ∧ c.data = a.data ++ bs.flatMap (fun b => b.data) ∧
      List.Forall₂ (Arranged o.dim) (h.filterMap appendedValues) bs := by
  induction h generalizing o a with
  | nil => exact ⟨a, [], ho, ha, by simp, .nil⟩
  | cons call h ih =>
    have hset' : ∀ x, AttrCall.setValues x ∉ h := fun x hm => hset x (by simp [hm])
    have hx' : ∀ x, AttrCall.appendValues x ∈ h →
        IsArray (toArr x) ∧ Arrangeable ((call.exec o).2).dim (toArr x) := by
      intro x hm
      rw [exec_dim]
      exact hx x (by simp [hm])
    by_cases hc : ∃ x, call = .appendValues x
    · obtain ⟨x, rfl⟩ := hc
      obtain ⟨h1, h2⟩ := hx x (by simp)
      obtain ⟨b, hb, hbr⟩ := fix_arranged h1 h2
      obtain ⟨c, hc, hcv, hcd⟩ := concat_value (T := T) ha hbr.1
      have hrun : ((AttrCall.appendValues x).exec o).2 = o.put "_values" (.arr c) := by
        have ho' : o.attrs "_values" = .arr a := ho
        simp [AttrCall.exec, AttrObj.appendFixed, hb, AttrObj.appendTo, ho', hc]
      obtain ⟨d, bs, h3, h4, h5, h6⟩ := ih ((AttrCall.appendValues x).exec o).2 c
        (by rw [hrun]; exact get_put_eq _ _ .values) (by rw [exec_dim]; exact hcv) hset' hx'
      rw [exec_dim] at h4 h6
      refine ⟨d, b :: bs, h3, h4, by rw [h5, hcd]; simp, ?_⟩
      exact .cons hbr h6
    · have hframe : ¬ Concerns call .values := by
        intro hcon
        cases call <;> simp only [Concerns, reduceCtorEq] at hcon
        · exact hset _ List.mem_cons_self
        · exact hc ⟨_, rfl⟩
      have hnone : appendedValues call = none := by
        cases call <;> first | rfl | exact absurd ⟨_, rfl⟩ hc
      obtain ⟨d, bs, h3, h4, h5, h6⟩ := ih (call.exec o).2 a
        (by rw [C104_frame o call _ hframe]; exact ho) (by rw [exec_dim]; exact ha) hset' hx'
      rw [exec_dim] at h4 h6
      refine ⟨d, bs, h3, h4, h5, ?_⟩
      rw [List.filterMap_cons, hnone]
      exact h6

/-- C104: `append_jacobians` and `append_error_estimates` put the new entries after the old ones if the other axes
agree; otherwise, and if there are no old ones, they raise and change nothing. -/
theorem C104_append_plain (o : AttrObj K T) (b : NdArr K) :
    ∀ fc ∈ [(PlainAttr.jacobians, AttrCall.appendJacobians b), (.errorEstimates, .appendErrorEstimates b)],
      (∀ (a : NdArr K) (n m : Nat) (ns : List Nat), o.get (.plain fc.1) = .arr a → a.shape = n :: ns →
        b.shape = m :: ns → (fc.2.exec o).1 = .ok () ∧
          ((fc.2.exec o).2).get (.plain fc.1) = .arr ⟨(n + m) :: ns, a.data ++ b.data⟩) ∧
      (o.get (.plain fc.1) = .none → fc.2.exec o = (.error .valueError, o)) ∧
      ∀ (a : NdArr K), o.get (.plain fc.1) = .arr a → a.shape.tail ≠ b.shape.tail →
        fc.2.exec o = (.error .valueError, o) := by
  have key : ∀ (g : Getter),
      (∀ (a : NdArr K) (n m : Nat) (ns : List Nat), o.get g = .arr a → a.shape = n :: ns → b.shape = m :: ns →
        (o.appendTo g.returned b).1 = .ok () ∧
          ((o.appendTo g.returned b).2).get g = .arr ⟨(n + m) :: ns, a.data ++ b.data⟩) ∧
      (o.get g = .none → o.appendTo g.returned b = (.error .valueError, o)) ∧
      ∀ (a : NdArr K), o.get g = .arr a → a.shape.tail ≠ b.shape.tail →
        o.appendTo g.returned b = (.error .valueError, o) := by
    intro g
    refine ⟨fun a n m ns h1 h2 h3 => ?_, fun h1 => ?_, fun a h1 h2 => ?_⟩
    · have h1 : o.attrs g.returned = .arr a := h1
      have hc : concat0 (o.attrs g.returned) b = .ok ⟨(n + m) :: ns, a.data ++ b.data⟩ := by
        simp [concat0, h1, h2, h3]
      simp only [AttrObj.appendTo, hc, true_and]
      exact get_put_eq _ _ g
    · have h1 : o.attrs g.returned = .none := h1
      simp [AttrObj.appendTo, h1, concat0]
    · have h1 : o.attrs g.returned = .arr a := h1
      have hc : concat0 (o.attrs g.returned) b = .error .valueError := by
        simp only [concat0, h1]
        cases ha : a.shape with
        | nil => rfl
        | cons n ns =>
          cases hb : b.shape with
          | nil => rfl
          | cons m ms =>
            rw [ha, hb] at h2
            simp only [List.tail_cons] at h2
            simp [h2]
      simp only [AttrObj.appendTo, hc]
  intro fc hfc
  rcases List.mem_cons.mp hfc with rfl | hfc
  · exact key (.plain .jacobians)
  · cases List.mem_singleton.mp hfc
    exact key (.plain .errorEstimates)

/-! ### Bounding box and bounds -/

theorem mem_ndColumn (a : NdArr K) (n m j : Nat) (x : K) :
    x ∈ ndColumn a n m j ↔ ∃ i, i < n ∧ matEntry a m i j = some x := by
  simp [ndColumn, matEntry, List.mem_filterMap]

theorem put_attrs_ne (o : AttrObj K T) {n k : String} (v : AttrVal K T) (h : k ≠ n) :
    (o.put n v).attrs k = o.attrs k := by
  simp [AttrObj.put, h]

theorem put_attrs_eq (o : AttrObj K T) (n : String) (v : AttrVal K T) : (o.put n v).attrs n = v := by
  simp [AttrObj.put]

/-- C104, negation: once it has been computed, `get_bounding_box` returns the same box in every history without
`set_bounding_box`, whatever values are set or appended. -/
theorem C104_negation_box (o : AttrObj K T) (b : NdArr K) (h : List (AttrCall K T))
    (ho : o.getBoundingBox = .ok (.arr b)) (hh : .setBoundingBox ∉ h) :
    ((o.run (.getBoundingBox :: h)).getBoundingBox) = .ok (.arr b) := by
  have key : ∀ (o : AttrObj K T) (c : AttrCall K T), o.attrs "_bounding_box" = .arr b → c ≠ .setBoundingBox →
      ((c.exec o).2).attrs "_bounding_box" = .arr b := by
    intro o c ho hc
    have hto : ∀ n y, n ≠ "_bounding_box" → ((o.appendTo n y).2).attrs "_bounding_box" = .arr b := by
      intro n y hn
      unfold AttrObj.appendTo
      split
      · exact ho
      · rw [put_attrs_ne _ _ (Ne.symm hn)]; exact ho
    have hfix : ∀ n x, n ≠ "_bounding_box" → ((o.appendFixed n x).2).attrs "_bounding_box" = .arr b := by
      intro n x hn
      unfold AttrObj.appendFixed
      split
      · exact ho
      · exact hto n _ hn
    have hbd : ∀ l r w n, l ≠ "_bounding_box" → r ≠ "_bounding_box" → w ≠ "_bounding_box" →
        ((o.bounds l r w n).2).attrs "_bounding_box" = .arr b := by
      intro l r w n hl hr hw
      unfold AttrObj.bounds
      split
      · exact ho
      · split
        · rw [put_attrs_ne _ _ (Ne.symm hl)]; exact ho
        · rw [put_attrs_ne _ _ (Ne.symm hw), put_attrs_ne _ _ (Ne.symm hr), put_attrs_ne _ _ (Ne.symm hl)]
          exact ho
    cases c with
    | set f v =>
      simp only [AttrCall.exec]
      rw [put_attrs_ne _ _ (by cases f <;> decide)]
      exact ho
    | setReference a =>
      simp only [AttrCall.exec, AttrObj.setReference]
      split
      · exact ho
      · rw [put_attrs_ne _ _ (by decide)]; exact ho
    | setDomain a =>
      simp only [AttrCall.exec, AttrObj.setDomain]
      split
      · exact ho
      · split
        · exact ho
        · rw [put_attrs_ne _ _ (by decide)]; exact ho
    | setValues x =>
      simp only [AttrCall.exec, AttrObj.setValues]
      split
      · exact ho
      · rw [put_attrs_ne _ _ (by decide)]; exact ho
    | setValuesLocal x =>
      simp only [AttrCall.exec, AttrObj.setValuesLocal]
      split
      · exact ho
      · rw [put_attrs_ne _ _ (by decide)]; exact ho
    | setDensities a =>
      simp only [AttrCall.exec]
      rw [put_attrs_ne _ _ (by decide)]; exact ho
    | setDensitiesLocal a =>
      simp only [AttrCall.exec]
      rw [put_attrs_ne _ _ (by decide)]; exact ho
    | appendValues x => exact hfix _ _ (by decide)
    | appendValuesLocal x => exact hfix _ _ (by decide)
    | appendJacobians a => exact hto _ _ (by decide)
    | appendErrorEstimates a => exact hto _ _ (by decide)
    | setBoundingBox => exact absurd rfl hc
    | getBoundingBox =>
      simp only [AttrCall.exec, AttrObj.ensureBox, ho]
    | updateBounds num =>
      simp only [AttrCall.exec, AttrObj.updateBounds]
      split
      · exact ho
      · exact hbd _ _ _ _ (by decide) (by decide) (by decide)
    | updateBoundsLocal num =>
      simp only [AttrCall.exec, AttrObj.updateBoundsLocal]
      split
      · exact ho
      · exact hbd _ _ _ _ (by decide) (by decide) (by decide)
  have hrun : ∀ (o : AttrObj K T), o.attrs "_bounding_box" = .arr b →
      (o.run h).attrs "_bounding_box" = .arr b := by
    induction h with
    | nil => exact fun _ h => h
    | cons c h ih =>
      intro o ho'
      rw [attr_run_cons]
      exact ih (fun hm => hh (by simp [hm])) _ (key o c ho' fun e => hh (by simp [e]))
  have h0 : ((AttrCall.getBoundingBox.exec o).2).attrs "_bounding_box" = .arr b := by
    unfold AttrObj.getBoundingBox at ho
    simp only [AttrCall.exec]
    split at ho
    · rename_i o' heq
      rw [heq]
      exact Except.ok.inj ho
    · cases ho
  rw [attr_run_cons]
  have h1 := hrun _ h0
  unfold AttrObj.getBoundingBox AttrObj.ensureBox
  rw [h1]
  simp only [h1]

omit [Min K] [Max K] [Sub K] in
theorem flatten_rows {m : Nat} (rows : List (List K)) (h : ∀ r ∈ rows, r.length = m) (j k : Nat) (hk : k < m) :
    rows.flatten[j * m + k]? = (rows[j]?).bind fun r => r[k]? := by
  induction rows generalizing j with
  | nil => simp
  | cons r rows ih =>
    have hr := h r (by simp)
    cases j with
    | zero =>
      rw [List.flatten_cons, List.getElem?_append_left (by omega)]
      simp
    | succ j =>
      rw [List.flatten_cons, List.getElem?_append_right (by rw [Nat.succ_mul]; omega), hr,
        show (j + 1) * m + k - m = j * m + k by rw [Nat.succ_mul]; omega, ih (fun q hq => h q (by simp [hq]))]
      simp

theorem repeatRow_entry (l : List K) (num i j : Nat) (hi : i < num) (hj : j < l.length) :
    matEntry (repeatRow l num) l.length i j = l[j]? := by
  unfold matEntry repeatRow
  simp only
  rw [flatten_rows _ (fun r hr => by rw [List.eq_of_mem_replicate hr]) i j hj, List.getElem?_replicate, if_pos hi]
  rfl

theorem filterMap_total {α β : Type} (f : α → Option β) (l : List α) (h : ∀ x ∈ l, ∃ y, f x = some y) :
    (l.filterMap f).length = l.length ∧ ∀ k : Nat, (l.filterMap f)[k]? = (l[k]?).bind f := by
  induction l with
  | nil => simp
  | cons x l ih =>
    obtain ⟨y, hy⟩ := h x (by simp)
    obtain ⟨h1, h2⟩ := ih fun z hz => h z (by simp [hz])
    rw [List.filterMap_cons, hy]
    refine ⟨by simp [h1], fun k => ?_⟩
    cases k with
    | zero => simp [hy]
    | succ k => simpa using h2 k

theorem ndColumn_get (a : NdArr K) (n m j : Nat) (ha : a.data.length = n * m) (hj : j < m) :
    (ndColumn a n m j).length = n ∧ ∀ k, k < n → (ndColumn a n m j)[k]? = matEntry a m k j := by
  have hlt : ∀ i, i < n → i * m + j < a.data.length := by
    intro i hi
    rw [ha]
    calc i * m + j < i * m + m := by omega
      _ = (i + 1) * m := by ring
      _ ≤ n * m := Nat.mul_le_mul_right _ hi
  obtain ⟨h1, h2⟩ := filterMap_total (fun i => a.data[i * m + j]?) (List.range n) (fun i hi =>
    ⟨_, List.getElem?_eq_getElem (hlt i (List.mem_range.mp hi))⟩)
  refine ⟨by unfold ndColumn; rw [h1, List.length_range], fun k hk => ?_⟩
  unfold ndColumn
  rw [h2, List.getElem?_range hk]
  rfl

theorem bounds_inv (o : AttrObj K T) (D : NdArr K) (N : Nat) (hD : o.get .domain = .arr D)
    (ha : IsArray D) (hs : D.shape = [o.dim, 2]) {ln rn wn : String} (h1 : ln ≠ rn) (h2 : ln ≠ wn) (h3 : rn ≠ wn) :
    (o.bounds ln rn wn N).1 = .ok () ∧ ∃ l r w : NdArr K,
      ((o.bounds ln rn wn N).2).attrs ln = .arr l ∧ ((o.bounds ln rn wn N).2).attrs rn = .arr r ∧
      ((o.bounds ln rn wn N).2).attrs wn = .arr w ∧
      l.shape = [N, o.dim] ∧ r.shape = [N, o.dim] ∧ w.shape = [N, o.dim] ∧
      ∀ i j, i < N → j < o.dim → ∃ lo hi, matEntry D 2 j 0 = some lo ∧ matEntry D 2 j 1 = some hi ∧
        matEntry l o.dim i j = some lo ∧ matEntry r o.dim i j = some hi ∧
        matEntry w o.dim i j = some (hi - lo) := by
  have hD' : o.attrs "_domain" = .arr D := hD
  have hlen : D.data.length = o.dim * 2 := by simpa [IsArray, hs] using ha
  have hc : ∀ k, k < 2 → domainColumn (o.attrs "_domain") k = .ok (ndColumn D o.dim 2 k) := by
    intro k hk
    simp [domainColumn, hD', hs, hk]
  obtain ⟨c0, g0⟩ := ndColumn_get D o.dim 2 0 hlen (by omega)
  obtain ⟨c1, g1⟩ := ndColumn_get D o.dim 2 1 hlen (by omega)
  unfold AttrObj.bounds
  simp only [hc 0 (by omega), hc 1 (by omega), true_and]
  refine ⟨_, _, _, by rw [put_attrs_ne _ _ h2, put_attrs_ne _ _ h1, put_attrs_eq],
    by rw [put_attrs_ne _ _ h3, put_attrs_eq], put_attrs_eq _ _ _, ?_, ?_, ?_, ?_⟩
  · simp [repeatRow, c0]
  · simp [repeatRow, c1]
  · simp [c1]
  · intro i j hi hj
    have hl0 := repeatRow_entry (ndColumn D o.dim 2 0) N i j hi (by rw [c0]; exact hj)
    have hl1 := repeatRow_entry (ndColumn D o.dim 2 1) N i j hi (by rw [c1]; exact hj)
    rw [c0, g0 j hj] at hl0
    rw [c1, g1 j hj] at hl1
    have e0 : matEntry D 2 j 0 = some (D.data[j * 2 + 0]'(by omega)) := List.getElem?_eq_getElem _
    have e1 : matEntry D 2 j 1 = some (D.data[j * 2 + 1]'(by omega)) := List.getElem?_eq_getElem _
    rw [e0] at hl0
    rw [e1] at hl1
    refine ⟨_, _, e0, e1, hl0, hl1, ?_⟩
    unfold matEntry at hl0 hl1 ⊢
    simp only [List.getElem?_zipWith, hl0, hl1]

/-- C104: `update_bounds` and `update_bounds_local` give every row the bounds of the domain and their differences;
the number of rows is that given or that of the (local) values. -/
theorem C104_bounds (o : AttrObj K T) (D : NdArr K) (num : Option Nat) (N : Nat) (hD : o.get .domain = .arr D)
    (ha : IsArray D) (hs : D.shape = [o.dim, 2]) :
    ∀ lrw ∈ [("_values", "_left", "_right", "_width", AttrCall.updateBounds num),
      ("_values_local", "_left_local", "_right_local", "_width_local", .updateBoundsLocal num)],
      (num = some N ∨ num = none ∧ ∃ a ns, o.attrs lrw.1 = .arr a ∧ a.shape = N :: ns) →
      (lrw.2.2.2.2.exec o).1 = .ok () ∧ ∃ l r w : NdArr K,
        ((lrw.2.2.2.2.exec o).2).attrs lrw.2.1 = .arr l ∧ ((lrw.2.2.2.2.exec o).2).attrs lrw.2.2.1 = .arr r ∧
        ((lrw.2.2.2.2.exec o).2).attrs lrw.2.2.2.1 = .arr w ∧
        l.shape = [N, o.dim] ∧ r.shape = [N, o.dim] ∧ w.shape = [N, o.dim] ∧
        ∀ i j, i < N → j < o.dim → ∃ lo hi, matEntry D 2 j 0 = some lo ∧ matEntry D 2 j 1 = some hi ∧
          matEntry l o.dim i j = some lo ∧ matEntry r o.dim i j = some hi ∧
          matEntry w o.dim i j = some (hi - lo) := by
  have hnum : ∀ n : String, (num = some N ∨ num = none ∧ ∃ a ns, o.attrs n = .arr a ∧ a.shape = N :: ns) →
      o.boundsNum n num = .ok N := by
    rintro n (rfl | ⟨rfl, a, ns, h1, h2⟩)
    · rfl
    · simp [AttrObj.boundsNum, lenOf, h1, h2, orErr_some]
  intro lrw hl hN
  rcases List.mem_cons.mp hl with rfl | hl
  · simp only [AttrCall.exec, AttrObj.updateBounds, hnum _ hN]
    exact bounds_inv o D N hD ha hs (by decide) (by decide) (by decide)
  · cases List.mem_singleton.mp hl
    simp only [AttrCall.exec, AttrObj.updateBoundsLocal, hnum _ hN]
    exact bounds_inv o D N hD ha hs (by decide) (by decide) (by decide)

end

section
variable {K T : Type} [Field K] [LinearOrder K] [IsStrictOrderedRing K]

open Spec

/-- C104: `set_bounding_box` followed by `get_bounding_box` returns for each coordinate the least and the greatest
value; and `get_bounding_box` does so on an object without a box. -/
theorem C104_box (o : AttrObj K T) (a : NdArr K) (n : Nat) (ho : o.get .values = .arr a)
    (ha : IsArray a) (hs : a.shape = [n + 1, o.dim]) :
    ∃ b, ((AttrCall.setBoundingBox.exec o).2).getBoundingBox = .ok (.arr b) ∧
      (o.attrs "_bounding_box" = .none → o.getBoundingBox = .ok (.arr b)) ∧ b.shape = [o.dim, 2] ∧
      ∀ j, j < o.dim → ∃ lo hi, matEntry b 2 j 0 = some lo ∧ matEntry b 2 j 1 = some hi ∧
        IsLeast {x | ∃ i, i < n + 1 ∧ matEntry a o.dim i j = some x} lo ∧
        IsGreatest {x | ∃ i, i < n + 1 ∧ matEntry a o.dim i j = some x} hi := by
  have hne : ∀ j, j < o.dim → ndColumn a (n + 1) o.dim j ≠ [] := by
    intro j hj he
    have hlt : 0 * o.dim + j < a.data.length := by
      have : a.data.length = (n + 1) * o.dim := by simpa [IsArray, hs] using ha
      rw [this]
      nlinarith
    have := (mem_ndColumn a (n + 1) o.dim j (a.data[0 * o.dim + j]'hlt)).mpr
      ⟨0, by omega, List.getElem?_eq_getElem hlt⟩
    rw [he] at this
    cases this
  have hmin : ∀ l : List K, l ≠ [] → ∃ x, npMin l = .ok x := by
    intro l hl
    cases l with
    | nil => exact absurd rfl hl
    | cons x l => exact ⟨_, rfl⟩
  have hmax : ∀ l : List K, l ≠ [] → ∃ x, npMax l = .ok x := by
    intro l hl
    cases l with
    | nil => exact absurd rfl hl
    | cons x l => exact ⟨_, rfl⟩
  obtain ⟨rows, hrows⟩ := mapM_total (l := List.range o.dim)
    (f := fun j => do
        let lo ← npMin (ndColumn a (n + 1) o.dim j)
        let hi ← npMax (ndColumn a (n + 1) o.dim j)
        pure [lo, hi]) (by
      intro j hj
      rw [List.mem_range] at hj
      obtain ⟨lo, hlo⟩ := hmin _ (hne j hj)
      obtain ⟨hi, hhi⟩ := hmax _ (hne j hj)
      exact ⟨[lo, hi], by simp only [hlo, hhi, ok_bind]; rfl⟩)
  have hF := (mapM_eq_ok _ _ _).mp hrows
  have hrow : ∀ j (hj : j < o.dim), ∃ lo hi, npMin (ndColumn a (n + 1) o.dim j) = .ok lo ∧
      npMax (ndColumn a (n + 1) o.dim j) = .ok hi ∧ rows[j]? = some [lo, hi] := by
    intro j hj
    have hl : rows.length = o.dim := by rw [← hF.length_eq]; simp
    have h1 := List.Forall₂.get hF (i := j) (by simpa using hj) (by omega)
    simp only [List.get_eq_getElem, List.getElem_range, bind_eq_ok] at h1
    obtain ⟨lo, hlo, hi, hhi, h1⟩ := h1
    have h1 := (pure_eq_ok _ _).mp h1
    exact ⟨lo, hi, hlo, hhi, by rw [List.getElem?_eq_getElem (by omega), ← h1]⟩
  have hbox : boundingBox a = .ok ⟨[o.dim, 2], rows.flatten⟩ := by
    simp only [boundingBox, hs, hrows, ok_bind]
    rfl
  have ho' : o.attrs "_values" = .arr a := ho
  have hset : o.setBoundingBox = (.ok (), o.put "_bounding_box" (.arr ⟨[o.dim, 2], rows.flatten⟩)) := by
    simp only [AttrObj.setBoundingBox, ho', hbox]
  have hlen2 : ∀ r ∈ rows, r.length = 2 := by
    intro r hr
    obtain ⟨j, hj, rfl⟩ := List.mem_iff_getElem.mp hr
    have hl : rows.length = o.dim := by rw [← hF.length_eq]; simp
    obtain ⟨lo, hi, -, -, h⟩ := hrow j (by omega)
    rw [List.getElem?_eq_getElem hj] at h
    rw [Option.some.inj h]
    rfl
  refine ⟨⟨[o.dim, 2], rows.flatten⟩, ?_, ?_, rfl, ?_⟩
  · have h1 : ((AttrCall.setBoundingBox.exec o).2).attrs "_bounding_box" =
        .arr ⟨[o.dim, 2], rows.flatten⟩ := by
      simp only [AttrCall.exec, hset]
      exact put_attrs_eq _ _ _
    simp only [AttrObj.getBoundingBox, AttrObj.ensureBox, h1]
  · intro hnone
    simp only [AttrObj.getBoundingBox, AttrObj.ensureBox, hnone, hset]
    rw [put_attrs_eq]
  · intro j hj
    obtain ⟨lo, hi, hlo, hhi, hr⟩ := hrow j hj
    have hset' : {x | ∃ i, i < n + 1 ∧ matEntry a o.dim i j = some x} =
        {x | x ∈ ndColumn a (n + 1) o.dim j} := by
      ext x
      exact (mem_ndColumn a (n + 1) o.dim j x).symm
    refine ⟨lo, hi, ?_, ?_, ?_, ?_⟩
    · show rows.flatten[j * 2 + 0]? = _
      rw [flatten_rows rows hlen2 j 0 (by omega), hr]
      rfl
    · show rows.flatten[j * 2 + 1]? = _
      rw [flatten_rows rows hlen2 j 1 (by omega), hr]
      rfl
    · rw [hset']
      exact npMin_isLeast hlo
    · rw [hset']
      exact npMax_isGreatest hhi

end

/-! ### Examples -/

namespace Ex

def acc0 : AttrObj ℚ Unit := AttrObj.init 2 ()

def accV : NdArr ℚ := ⟨[2, 2], [1, 2, 3, 0]⟩

/-- A history that meets the hypotheses of `C104_last_set`, `C104_unchanged`, `C104_values` and `C104_append`. -/
example :
    let o := acc0.run [.set .weights (.arr ⟨[2], [1, 1]⟩), .setValues (.arr accV), .appendValues (.seq ⟨[2], [7, 8]⟩),
      .set .volumes (.arr ⟨[3], [1, 2, 3]⟩), .getBoundingBox, .set .weights (.arr ⟨[3], [5, 6, 7]⟩),
      .setReference (.mk [2] [1, 1])]
    o.get (.plain .weights) = .arr ⟨[3], [5, 6, 7]⟩ ∧ o.get .values = .arr ⟨[3, 2], [1, 2, 3, 0, 7, 8]⟩ ∧
      o.get .referenceValue = .arr ⟨[2], [1, 1]⟩ ∧
      o.getBoundingBox.toOption = some (.arr ⟨[2, 2], [1, 7, 0, 8]⟩) := by
  decide +kernel

/-- Hypotheses of `C104_values`, `C104_append`, `C104_box`. -/
example : Spec.IsArray accV ∧ Spec.Arrangeable 2 accV ∧ accV.shape = [1 + 1, acc0.dim] :=
  ⟨rfl, Or.inr ⟨2, 2, rfl, Or.inl rfl⟩, rfl⟩

/-- The box of the first values is still returned after others are set (`C104_negation_box`). -/
example :
    let o := acc0.run [.setValues (.arr accV)]
    o.getBoundingBox.toOption = some (.arr ⟨[2, 2], [1, 3, 0, 2]⟩) ∧
      (o.run [.getBoundingBox, .setValues (.arr ⟨[1, 2], [50, 60]⟩)]).getBoundingBox.toOption =
        some (.arr ⟨[2, 2], [1, 3, 0, 2]⟩) := by
  decide +kernel

/-- Local error identifiers are lost (`C104_negation_error_id_local`). -/
example : (acc0.run [.set .errorIdLocal (.arr ⟨[1], [4]⟩)]).get (.plain .errorIdLocal) = .none := by
  decide +kernel

/-- Hypotheses of `C104_bounds`. -/
example :
    let o := acc0.run [.setDomain ⟨[2, 2], [0, 1, 2, 5]⟩]
    o.get .domain = .arr ⟨[2, 2], [0, 1, 2, 5]⟩ ∧
      (o.run [.updateBoundsLocal (some 2)]).attrs "_width_local" = .arr ⟨[2, 2], [1, 3, 1, 3]⟩ := by
  decide +kernel

/-- Hypotheses of `C104_negation_set_values`. -/
example : ((AttrCall.setValues (.arr ⟨[3, 1], [1, 2, 3]⟩)).exec acc0).2.get .values =
    .arr ⟨[1, 3], [(1 : ℚ), 2, 3]⟩ := by
  decide +kernel

/-- Hypotheses of `C104_append_plain`. -/
example : (acc0.run [.set .jacobians (.arr ⟨[1, 1, 2], [1, 2]⟩), .appendJacobians ⟨[1, 1, 2], [3, 4]⟩]).get
    (.plain .jacobians) = .arr ⟨[2, 1, 2], [1, 2, 3, 4]⟩ := by
  decide +kernel

end Ex

end BET
