import Verif.Model.Measures
import Verif.Lemmas.Basic
import Verif.Lemmas.Svd
import Verif.Spec.Measures
import Verif.Props.Transport
import Verif.Props.Choose
import Mathlib.MeasureTheory.Measure.Lebesgue.EqHaar

/-!
# C81: the measure of the inverse image of a box (`calculate_avg_measure`)
-/

set_option autoImplicit false
set_option linter.unusedSectionVars false
set_option linter.unusedSimpArgs false

namespace BET

open Spec Matrix

/-! ### Choosing QoIs -/

theorem chosen_shape {G : List (List (List ℝ))} {c n : Nat} {q : Option (List Nat)}
    (h : Choice G c n q) : ∀ A ∈ G, IsMat (count c q) n (chosen q A) := by
  intro A hA
  have hs := h.shape A hA
  rcases q with _ | l
  · exact hs
  · refine ⟨by simp [chosen, count], ?_⟩
    intro r hr
    obtain ⟨i, hi, rfl⟩ := List.mem_map.mp hr
    have hlt := h.valid l rfl i hi
    rw [← hs.1] at hlt
    apply hs.2
    rw [List.getD_eq_getElem?_getD, List.getElem?_eq_getElem hlt]
    exact List.getElem_mem hlt

theorem selectQois_ok {G : List (List (List ℝ))} {c n : Nat} {q : Option (List Nat)}
    (h : Choice G c n q) : selectQois G q = .ok (G.map (chosen q)) := by
  rcases q with _ | l
  · exact congrArg Except.ok (List.map_id G).symm
  · refine mapM_ok _ _ _ ?_
    intro A hA
    refine mapM_ok _ _ _ ?_
    intro i hi
    have hlt := h.valid l rfl i hi
    rw [← (h.shape A hA).1] at hlt
    rw [getIdx_eq_ok, List.getD_eq_getElem?_getD, List.getElem?_eq_getElem hlt]
    rfl

theorem few_ok {G : List (List (List ℝ))} {c n : Nat} {q : Option (List Nat)}
    (h : Choice G c n q) :
    ¬ ((G.map (chosen q)).any fun m => m.any fun v => decide (v.length < m.length)) = true := by
  simp only [List.any_eq_true, List.mem_map, decide_eq_true_eq]
  rintro ⟨_, ⟨A, hA, rfl⟩, v, hv, hlt⟩
  have hs := chosen_shape h A hA
  rw [hs.1, hs.2 v hv] at hlt
  have := h.few
  omega

theorem spanned_pos_iff {c n : Nat} {q : Option (List Nat)} {A : List (List ℝ)} :
    0 < spanned c n q A ↔ Indep c n q A := by
  rw [spanned, Real.sqrt_pos, Indep, li_iff]
  exact ⟨fun h => h.ne', fun h => lt_of_le_of_ne (gram_det_nonneg _ _ _) (Ne.symm h)⟩

theorem spanned_nonneg (c n : Nat) (q : Option (List Nat)) (A : List (List ℝ)) :
    0 ≤ spanned c n q A := Real.sqrt_nonneg _

/-! ### The average measure -/

variable {svd : List (List ℝ) → List ℝ} {G : List (List (List ℝ))} {c n : Nat}
  {q : Option (List Nat)}

theorem avgMeasure_eq (hs : IsSvd svd) (h : Choice G c n q) (bin : Option ℝ) :
    avgMeasure svd (some G) q bin =
      .ok (if (G.map (spanned c n q)).sum / (G.length : ℝ) = 0 then ⊤
        else ((bin.getD 1 / ((G.map (spanned c n q)).sum / (G.length : ℝ)) : ℝ) : WithTop ℝ),
        G.map fun A => svd (chosen q A)) := by
  have hp : ((G.map (chosen q)).map svd).map List.prod = G.map (spanned c n q) := by
    simp only [List.map_map]
    exact List.map_congr_left fun A hA => svd_prod hs h.few (chosen_shape h A hA)
  simp only [avgMeasure, orErr_some, ok_bind, selectQois_ok h, raiseIf_false (few_ok h), hp,
    List.length_map]
  simp only [List.map_map]
  rfl

theorem sum_eq_zero_iff_all {f : List (List ℝ) → ℝ} (hf : ∀ A, 0 ≤ f A)
    (G : List (List (List ℝ))) : (G.map f).sum = 0 ↔ ∀ A ∈ G, f A = 0 := by
  induction G with
  | nil => simp
  | cons A G ih =>
    have h0 : 0 ≤ (G.map f).sum := List.sum_nonneg (by
      intro x hx
      obtain ⟨y, -, rfl⟩ := List.mem_map.mp hx
      exact hf y)
    rw [List.map_cons, List.sum_cons, List.forall_mem_cons, ← ih]
    constructor
    · intro h
      have := hf A
      constructor <;> linarith
    · rintro ⟨h1, h2⟩
      rw [h1, h2, add_zero]

/-- **C81.** With Jacobians of existing QoIs, no more of them than inputs, the average measure is
defined. It is the measure of the box divided by the mean, over the centres, of the volume that the
chosen gradients span; it is infinite exactly when the gradients are dependent at every centre. The
singular values of every centre come with it. -/
theorem C81_value (hs : IsSvd svd) (h : Choice G c n q) (bin : Option ℝ) :
    ∃ v, avgMeasure svd (some G) q bin = .ok (v, G.map fun A => svd (chosen q A)) ∧
      (v = ⊤ ↔ ∀ A ∈ G, ¬ Indep c n q A) ∧
      ∀ w : ℝ, v = (w : WithTop ℝ) →
        w * ((G.map (spanned c n q)).sum / (G.length : ℝ)) = bin.getD 1 := by
  refine ⟨_, avgMeasure_eq hs h bin, ?_, ?_⟩
  · have hl : (G.length : ℝ) ≠ 0 := by
      have := List.length_pos_of_ne_nil h.centres
      positivity
    have h1 : (G.map (spanned c n q)).sum / (G.length : ℝ) = 0 ↔ ∀ A ∈ G, ¬ Indep c n q A := by
      rw [div_eq_zero_iff, or_iff_left hl, sum_eq_zero_iff_all (spanned_nonneg c n q)]
      refine forall₂_congr fun A _ => ?_
      rw [← spanned_pos_iff, not_lt]
      exact ⟨fun h => h.le, fun h => le_antisymm h (spanned_nonneg _ _ _ _)⟩
    rw [← h1]
    constructor
    · intro e
      by_contra hne
      rw [if_neg hne] at e
      exact WithTop.coe_ne_top e
    · intro e
      rw [if_pos e]
  · intro w hw
    by_cases h0 : (G.map (spanned c n q)).sum / (G.length : ℝ) = 0
    · rw [if_pos h0] at hw
      exact absurd hw.symm (WithTop.coe_ne_top)
    · rw [if_neg h0] at hw
      rw [← WithTop.coe_inj.mp hw, div_mul_cancel₀ _ h0]

theorem tooMany {G : List (List (List ℝ))} {c n : Nat} {q : Option (List Nat)} (hG : G ≠ [])
    (hsh : ∀ A ∈ G, IsMat c n A) (hv : ∀ l, q = some l → ∀ i ∈ l, i < c) (hlt : n < count c q) :
    selectQois G q = .ok (G.map (chosen q)) ∧
      ((G.map (chosen q)).any fun m => m.any fun v => decide (v.length < m.length)) = true := by
  constructor
  · rcases q with _ | l
    · exact congrArg Except.ok (List.map_id G).symm
    · refine mapM_ok _ _ _ ?_
      intro A hA
      refine mapM_ok _ _ _ ?_
      intro i hi
      have hlt := hv l rfl i hi
      rw [← (hsh A hA).1] at hlt
      rw [getIdx_eq_ok, List.getD_eq_getElem?_getD, List.getElem?_eq_getElem hlt]
      rfl
  · obtain ⟨A, hA⟩ := List.exists_mem_of_ne_nil G hG
    simp only [List.any_eq_true, List.mem_map, decide_eq_true_eq]
    refine ⟨chosen q A, ⟨A, hA, rfl⟩, ?_⟩
    have hs := hsh A hA
    rcases q with _ | l
    · simp only [count] at hlt
      simp only [chosen, hs.1]
      have : A ≠ [] := by
        rintro rfl
        have := hs.1
        simp at this
        omega
      obtain ⟨r, hr⟩ := List.exists_mem_of_ne_nil A this
      exact ⟨r, hr, by rw [hs.2 r hr]; exact hlt⟩
    · simp only [count] at hlt
      simp only [chosen, List.length_map]
      have : l ≠ [] := by
        rintro rfl
        simp at hlt
      obtain ⟨i, hi⟩ := List.exists_mem_of_ne_nil l this
      have hic := hv l rfl i hi
      rw [← hs.1] at hic
      refine ⟨A.getD i [], List.mem_map.mpr ⟨i, hi, rfl⟩, ?_⟩
      rw [List.getD_eq_getElem?_getD, List.getElem?_eq_getElem hic]
      simp only [Option.getD_some]
      rw [hs.2 _ (List.getElem_mem hic)]
      exact hlt

/-- **C81.** Without Jacobians, with a QoI that does not exist, or with more QoIs than inputs, there is
an error and no value. -/
theorem C81_errors (svd : List (List ℝ) → List ℝ) (bin : Option ℝ) :
    (∀ q, avgMeasure svd none q bin = .error .valueError) ∧
    (∀ (G : List (List (List ℝ))) (c n : Nat) (l : List Nat), G ≠ [] → (∀ A ∈ G, IsMat c n A) →
      (∃ i ∈ l, c ≤ i) → ∀ r, avgMeasure svd (some G) (some l) bin ≠ .ok r) ∧
    (∀ (G : List (List (List ℝ))) (c n : Nat) (q : Option (List Nat)), G ≠ [] →
      (∀ A ∈ G, IsMat c n A) → (∀ l, q = some l → ∀ i ∈ l, i < c) → n < count c q →
      avgMeasure svd (some G) q bin = .error .valueError) := by
  refine ⟨fun q => rfl, ?_, ?_⟩
  · intro G c n l hG hsh hi r hr
    obtain ⟨i, hil, hci⟩ := hi
    simp only [avgMeasure, bind_eq_ok, orErr_some, Except.ok.injEq] at hr
    obtain ⟨G0, rfl, G1, hsel, -⟩ := hr
    obtain ⟨A, hA⟩ := List.exists_mem_of_ne_nil G hG
    obtain ⟨B, hB⟩ := mapM_ok_mem _ _ _ hsel A hA
    obtain ⟨x, hx⟩ := mapM_ok_mem _ _ _ hB i hil
    rw [getIdx_eq_ok] at hx
    obtain ⟨hlt, -⟩ := List.getElem?_eq_some_iff.mp hx
    rw [(hsh A hA).1] at hlt
    omega
  · intro G c n q hG hsh hv hlt
    obtain ⟨hsel, hany⟩ := tooMany hG hsh hv hlt
    simp only [avgMeasure, orErr_some, ok_bind, hsel, raiseIf, hany, if_true]
    rfl

/-- **C81.** The order in which the QoIs are listed makes no difference. -/
theorem C81_order (hs : IsSvd svd) {l l' : List Nat} (h : Choice G c n (some l)) (hp : l.Perm l')
    (bin : Option ℝ) : avgMeasure svd (some G) (some l') bin = avgMeasure svd (some G) (some l) bin := by
  have h' : Choice G c n (some l') := by
    refine ⟨h.centres, h.shape, ?_, ?_⟩
    · rintro _ ⟨⟩ i hi
      exact h.valid l rfl i (hp.mem_iff.mpr hi)
    · have := h.few
      simp only [count] at this ⊢
      rw [← hp.length_eq]
      exact this
  rw [avgMeasure_eq hs h', avgMeasure_eq hs h]
  have hc : ∀ A, (chosen (some l) A).Perm (chosen (some l') A) := fun A => hp.map _
  have h1 : G.map (spanned c n (some l')) = G.map (spanned c n (some l)) := by
    refine List.map_congr_left fun A hA => ?_
    have hcount : count c (some l') = count c (some l) := hp.length_eq.symm
    simp only [spanned]
    rw [hcount, gram_det_perm (chosen_shape h A hA).1 (hc A)]
  have h2 : (G.map fun A => svd (chosen (some l') A)) = G.map fun A => svd (chosen (some l) A) :=
    List.map_congr_left fun A hA => (svd_perm hs h.few (chosen_shape h A hA) (hc A)).symm
  rw [h1, h2]

/-- **C81.** For a map that is linear, with as many QoIs as inputs and independent gradients, the
value is the volume of the inverse image: of every set of outputs with finite volume, not only of a box. -/
theorem C81_linear_map (hs : IsSvd svd) {A : List (List ℝ)} (hA : IsMat n n A)
    (hi : LinearIndependent ℝ (rowVec n n A)) (S : Set (Fin n → ℝ))
    (hS : MeasureTheory.volume S ≠ ⊤) :
    ∃ w : ℝ, avgMeasure svd (some [A]) none (some (MeasureTheory.volume S).toReal) =
        .ok ((w : WithTop ℝ), [svd A]) ∧ 0 ≤ w ∧
      MeasureTheory.volume {x | matOf n n A *ᵥ x ∈ S} = ENNReal.ofReal w := by
  have h : Choice [A] n n none :=
    ⟨by simp, by simpa using hA, by simp, le_refl _⟩
  have hd : (gram n n A).det = (matOf n n A).det ^ 2 := by
    rw [gram, Matrix.det_mul, Matrix.det_transpose, sq]
  have hne : (matOf n n A).det ≠ 0 := by
    have := (li_iff n n A).mp hi
    rw [hd] at this
    exact fun e => this (by rw [e]; simp)
  have hsp : spanned n n none A = |(matOf n n A).det| := by
    show Real.sqrt (gram n n A).det = _
    rw [hd, Real.sqrt_sq_eq_abs]
  refine ⟨(MeasureTheory.volume S).toReal / |(matOf n n A).det|, ?_, by positivity, ?_⟩
  · rw [avgMeasure_eq hs h]
    have h0 : |(matOf n n A).det| ≠ 0 := abs_ne_zero.mpr hne
    simp only [List.map_cons, List.map_nil, List.sum_cons, List.sum_nil, add_zero, hsp,
      List.length_cons, List.length_nil, Nat.cast_one, zero_add, div_one, if_neg h0,
      Option.getD_some, chosen]
  · have hl : LinearMap.det (Matrix.toLin' (matOf n n A)) ≠ 0 := by
      rw [LinearMap.det_toLin']
      exact hne
    have := MeasureTheory.Measure.addHaar_preimage_linearMap MeasureTheory.volume hl S
    have e : {x | matOf n n A *ᵥ x ∈ S} = (Matrix.toLin' (matOf n n A)) ⁻¹' S := by
      ext x
      simp
    rw [e, this, LinearMap.det_toLin', div_eq_inv_mul, ENNReal.ofReal_mul (by positivity), abs_inv,
      ENNReal.ofReal_toReal hS]

theorem harmonic_aux (ps : List ℝ) (h : ∀ p ∈ ps, 0 < p) :
    (ps.length : ℝ) ^ 2 ≤ ps.sum * (ps.map fun p => 1 / p).sum := by
  induction ps with
  | nil => simp
  | cons p ps ih =>
    have hp := h p List.mem_cons_self
    have ih := ih fun x hx => h x (List.mem_cons_of_mem _ hx)
    have hS : 0 ≤ ps.sum := List.sum_nonneg fun x hx => (h x (List.mem_cons_of_mem _ hx)).le
    have hT : 0 ≤ (ps.map fun p => 1 / p).sum := List.sum_nonneg (by
      intro x hx
      obtain ⟨y, hy, rfl⟩ := List.mem_map.mp hx
      have := h y (List.mem_cons_of_mem _ hy)
      positivity)
    simp only [List.length_cons, List.sum_cons, List.map_cons]
    push_cast
    set S := ps.sum
    set T := (ps.map fun p => 1 / p).sum
    have h1 : 2 * (ps.length : ℝ) ≤ p * T + S * (1 / p) := by
      have h2 : 4 * (ps.length : ℝ) ^ 2 ≤ (p * T + S * (1 / p)) ^ 2 := by
        have h3 : (p * T + S * (1 / p)) ^ 2 = (p * T - S * (1 / p)) ^ 2 + 4 * (S * T) * (p * (1 / p)) := by
          ring
        rw [h3, mul_one_div_cancel hp.ne', mul_one]
        nlinarith [sq_nonneg (p * T - S * (1 / p))]
      have h4 : (2 * (ps.length : ℝ)) ^ 2 ≤ (p * T + S * (1 / p)) ^ 2 := by nlinarith
      exact le_of_sq_le_sq h4 (by positivity)
    have h5 : (p + S) * (1 / p + T) = p * (1 / p) + p * T + S * (1 / p) + S * T := by ring
    rw [h5, mul_one_div_cancel hp.ne']
    nlinarith

/-- **C81 (part).** The documentation promises the expected measure of the inverse image. The value is
never more than that mean over the centres. Equality holds with one centre and fails in general
(`C81_negation_expected`). -/
theorem C81_expected_partial (hs : IsSvd svd) (h : Choice G c n q) (hi : ∀ A ∈ G, Indep c n q A)
    {b : ℝ} (hb : 0 ≤ b) :
    ∃ w : ℝ, avgMeasure svd (some G) q (some b) = .ok ((w : WithTop ℝ), G.map fun A => svd (chosen q A)) ∧
      w ≤ (G.map fun A => b / spanned c n q A).sum / (G.length : ℝ) ∧
      (G.length = 1 → w = (G.map fun A => b / spanned c n q A).sum / (G.length : ℝ)) := by
  have hl : 0 < (G.length : ℝ) := by
    have := List.length_pos_of_ne_nil h.centres
    positivity
  have hpos : 0 < (G.map (spanned c n q)).sum := by
    obtain ⟨A, G', rfl⟩ := List.exists_cons_of_ne_nil h.centres
    rw [List.map_cons, List.sum_cons]
    have h1 := spanned_pos_iff.mpr (hi A List.mem_cons_self)
    have h2 : 0 ≤ (G'.map (spanned c n q)).sum := List.sum_nonneg (by
      intro x hx
      obtain ⟨y, -, rfl⟩ := List.mem_map.mp hx
      exact spanned_nonneg _ _ _ _)
    linarith
  have h0 : (G.map (spanned c n q)).sum / (G.length : ℝ) ≠ 0 := (div_pos hpos hl).ne'
  refine ⟨b / ((G.map (spanned c n q)).sum / (G.length : ℝ)), ?_, ?_, ?_⟩
  · rw [avgMeasure_eq hs h, if_neg h0]
    rfl
  · have h1 := harmonic_aux (G.map (spanned c n q)) (by
      intro p hp
      obtain ⟨A, hA, rfl⟩ := List.mem_map.mp hp
      exact spanned_pos_iff.mpr (hi A hA))
    rw [List.length_map, List.map_map] at h1
    have e : (G.map fun A => b / spanned c n q A).sum =
        b * (G.map ((fun p => 1 / p) ∘ spanned c n q)).sum := by
      rw [← List.sum_map_mul_left]
      congr 1
      exact List.map_congr_left fun A _ => by simp [div_eq_mul_inv]
    rw [e, div_div_eq_mul_div, div_le_div_iff₀ hpos hl]
    nlinarith [mul_le_mul_of_nonneg_left h1 hb]
  · intro h1
    obtain ⟨A, rfl⟩ := List.length_eq_one_iff.mp h1
    simp

/-- **C81 (negation).** With two centres of one input and one QoI, with derivatives 1 and 2, the
intervals of length 1 have inverse images of length 1 and 1/2. The expected measure is 3/4, the value
2/3. -/
theorem C81_negation_expected (hs : IsSvd svd) :
    Choice [[[1]], [[2]]] 1 1 none ∧
    avgMeasure svd (some [[[1]], [[2]]]) none (some 1) =
      .ok (((2 / 3 : ℝ) : WithTop ℝ), [svd [[1]], svd [[2]]]) ∧
    ([[[1]], [[2]]].map fun A => 1 / spanned 1 1 none A).sum / 2 = 3 / 4 := by
  have hc : Choice [[[1]], [[2]]] 1 1 none :=
    ⟨by simp, by intro A hA; simp at hA; rcases hA with rfl | rfl <;> simp [IsMat], by simp, le_refl _⟩
  have hsp : ∀ x : ℝ, 0 ≤ x → spanned 1 1 none [[x]] = x := by
    intro x hx
    show Real.sqrt (gram 1 1 [[x]]).det = x
    have : (gram 1 1 [[x]]).det = x ^ 2 := by
      simp [gram, matOf, Matrix.mul_apply, sq]
    rw [this, Real.sqrt_sq hx]
  refine ⟨hc, ?_, ?_⟩
  · rw [avgMeasure_eq hs hc]
    simp only [List.map_cons, List.map_nil, List.sum_cons, List.sum_nil, hsp 1 (by norm_num),
      hsp 2 (by norm_num), List.length_cons, List.length_nil, chosen]
    norm_num
  · simp only [List.map_cons, List.map_nil, List.sum_cons, List.sum_nil, hsp 1 (by norm_num),
      hsp 2 (by norm_num)]
    norm_num

/-! ### The hypotheses are met -/

namespace Ex

/-- Two centres, three QoIs, two inputs; the first and the last QoI are chosen. -/
noncomputable def jacs : List (List (List ℝ)) :=
  [[[1, 0], [1, 1], [1, 2]], [[2, 0], [3, 1], [0, 1]]]

theorem jacs_choice : Choice jacs 3 2 (some [0, 2]) :=
  ⟨by simp [jacs], by
    intro A hA
    simp only [jacs, List.mem_cons, List.not_mem_nil, or_false] at hA
    rcases hA with rfl | rfl <;> simp [IsMat], by
    rintro l ⟨⟩ i hi
    simp at hi
    omega, by simp [count]⟩

theorem det2 (a b c d : ℝ) : (gram 2 2 [[a, b], [c, d]]).det = (a * d - b * c) ^ 2 := by
  rw [Matrix.det_fin_two]
  simp only [gram, Matrix.mul_apply, Matrix.transpose_apply, matOf, Fin.sum_univ_two]
  simp
  ring

theorem jacs_indep : ∀ A ∈ jacs, Indep 3 2 (some [0, 2]) A := by
  intro A hA
  simp only [jacs, List.mem_cons, List.not_mem_nil, or_false] at hA
  rcases hA with rfl | rfl
  · refine (li_iff 2 2 [[1, 0], [1, 2]]).mpr ?_
    rw [det2]
    norm_num
  · refine (li_iff 2 2 [[2, 0], [0, 1]]).mpr ?_
    rw [det2]
    norm_num

/-- `np.linalg.svd` can behave as assumed. -/
example : IsSvd svdOf := isSvd_svdOf

example : ∃ w : ℝ, avgMeasure svdOf (some jacs) (some [0, 2]) (some 1) =
      .ok ((w : WithTop ℝ), jacs.map fun A => svdOf (Spec.chosen (some [0, 2]) A)) ∧
      w ≤ (jacs.map fun A => 1 / spanned 3 2 (some [0, 2]) A).sum / (jacs.length : ℝ) ∧
      (jacs.length = 1 → w = (jacs.map fun A => 1 / spanned 3 2 (some [0, 2]) A).sum /
        (jacs.length : ℝ)) :=
  C81_expected_partial isSvd_svdOf jacs_choice jacs_indep zero_le_one

example : avgMeasure svdOf (some jacs) (some [2, 0]) none =
    avgMeasure svdOf (some jacs) (some [0, 2]) none :=
  C81_order isSvd_svdOf jacs_choice (List.Perm.swap 2 0 []) none

example : LinearIndependent ℝ (rowVec 2 2 [[1, 1], [0, 3]]) :=
  (li_iff 2 2 _).mpr (by rw [det2]; norm_num)

end Ex

end BET
