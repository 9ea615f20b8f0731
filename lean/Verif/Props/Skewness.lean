import Verif.Props.Measures

/-!
# C82, C83: skewness and condition number of a set of QoIs
-/

set_option autoImplicit false
set_option linter.unusedSectionVars false
set_option linter.unusedSimpArgs false

namespace BET

open Spec Matrix

variable {svd : List (List ℝ) → List ℝ} {G : List (List (List ℝ))} {c n : Nat}
  {q : Option (List Nat)}

/-! ### One centre -/

theorem len_eq_norm2 {m n : Nat} {A : List (List ℝ)} (h : IsMat m n A) (i : Fin m) :
    len (A.getD i []) = Spec.norm2 (rowVec m n A i) := by
  have h1 : rowVec m n A i ⬝ᵥ rowVec m n A i = len (A.getD i []) ^ 2 := (gram_diag h i).symm ▸ rfl
  rw [Spec.norm2, h1]
  exact (Real.sqrt_sq (Real.sqrt_nonneg _)).symm

theorem skewEntry_indep (hs : IsSvd svd) {m n : Nat} {A : List (List ℝ)} (hmn : m ≤ n)
    (hA : IsMat m n A) (hi : LinearIndependent ℝ (rowVec m n A)) (i : Fin m) :
    ∃ (x : ℝ) (r : Fin n → ℝ),
      skewEntry (len (A.getD i [])) (Num.div (svd A).prod (svd (withoutRow A i)).prod) = .fin x ∧
      IsPerp m n A i r ∧ 0 < Spec.norm2 r ∧ x = Spec.norm2 (rowVec m n A i) / Spec.norm2 r ∧
      1 ≤ x ∧ (x = 1 ↔ ∀ j, j ≠ i → rowVec m n A i ⬝ᵥ rowVec m n A j = 0) := by
  rcases m with _ | m
  · exact i.elim0
  have hd := (li_iff (m + 1) n A).mp hi
  obtain ⟨cf, r, hdec, hperp, hdet⟩ := perp_exists i hd
  have hE := hasShape_erase hA i
  have hD0 : (gram m n (A.eraseIdx i)).det ≠ 0 := fun e => hd (by rw [hdet, e, mul_zero])
  have hDpos : 0 < (gram m n (A.eraseIdx i)).det :=
    lt_of_le_of_ne (gram_det_nonneg _ _ _) (Ne.symm hD0)
  have hr0 : 0 ≤ r ⬝ᵥ r := by
    have := dotProduct_star_self_nonneg r
    simpa using this
  have hrne : r ⬝ᵥ r ≠ 0 := fun e => hd (by rw [hdet, e, zero_mul])
  have hrpos : 0 < Spec.norm2 r := Real.sqrt_pos.mpr (lt_of_le_of_ne hr0 (Ne.symm hrne))
  have hIP : IsPerp (m + 1) n A i r := by
    refine ⟨?_, ?_⟩
    · intro j hj
      obtain ⟨k, rfl⟩ := Fin.exists_succAbove_eq hj
      exact hperp k
    · rw [hdec, add_sub_cancel_left]
      refine Submodule.sum_mem _ fun k _ => Submodule.smul_mem _ _ (Submodule.subset_span ?_)
      exact ⟨i.succAbove k, Fin.succAbove_ne i k, rfl⟩
  -- Pythagoras
  set s : Fin n → ℝ := ∑ j, cf j • rowVec (m + 1) n A (i.succAbove j) with hsd
  have hrs : r ⬝ᵥ s = 0 := by
    rw [hsd, dotProduct_sum]
    refine Finset.sum_eq_zero fun j _ => ?_
    rw [dotProduct_smul, hperp j, smul_zero]
  have hpyth : rowVec (m + 1) n A i ⬝ᵥ rowVec (m + 1) n A i = r ⬝ᵥ r + s ⬝ᵥ s := by
    rw [hdec]
    simp only [add_dotProduct, dotProduct_add]
    rw [dotProduct_comm s r, hrs]
    ring
  have hs0 : 0 ≤ s ⬝ᵥ s := by
    have := dotProduct_star_self_nonneg s
    simpa using this
  have hle : Spec.norm2 r ≤ Spec.norm2 (rowVec (m + 1) n A i) :=
    Real.sqrt_le_sqrt (by rw [hpyth]; linarith)
  refine ⟨Spec.norm2 (rowVec (m + 1) n A i) / Spec.norm2 r, r, ?_, hIP, hrpos, rfl,
    (one_le_div hrpos).mpr hle, ?_⟩
  · rw [svd_prod hs hmn hA, withoutRow, svd_prod hs (by omega) hE, hdet]
    have hne : Real.sqrt (gram m n (A.eraseIdx i)).det ≠ 0 := (Real.sqrt_pos.mpr hDpos).ne'
    rw [Num.div, if_neg hne, Real.sqrt_mul hr0, mul_div_cancel_right₀ _ hne, len_eq_norm2 hA]
    exact if_neg hrpos.ne'
  · rw [div_eq_one_iff_eq hrpos.ne']
    constructor
    · intro e j hj
      obtain ⟨k, rfl⟩ := Fin.exists_succAbove_eq hj
      have h1 : rowVec (m + 1) n A i ⬝ᵥ rowVec (m + 1) n A i = r ⬝ᵥ r := by
        have := congrArg (· ^ 2) e
        simp only [Spec.norm2] at this
        rwa [Real.sq_sqrt (by rw [hpyth]; linarith), Real.sq_sqrt hr0] at this
      have h2 : s = 0 := dotProduct_self_eq_zero.mp (by linarith)
      rw [hdec, h2, add_zero]
      exact hperp k
    · intro horth
      have h3 : rowVec (m + 1) n A i ⬝ᵥ s = 0 := by
        rw [hsd, dotProduct_sum]
        refine Finset.sum_eq_zero fun j _ => ?_
        rw [dotProduct_smul, horth _ (Fin.succAbove_ne i j), smul_zero]
      have h4 : s ⬝ᵥ s = 0 := by
        rw [hdec, add_dotProduct, hrs, zero_add] at h3
        exact h3
      rw [Spec.norm2, Spec.norm2, hpyth, h4, add_zero]

theorem skewEntry_dep (hs : IsSvd svd) {m n : Nat} {A : List (List ℝ)} (hmn : m ≤ n)
    (hA : IsMat m n A) (hi : ¬ LinearIndependent ℝ (rowVec m n A)) (v y : ℝ) (x : ℝ) :
    skewEntry v (Num.div (svd A).prod y) ≠ .fin x := by
  have h0 : (gram m n A).det = 0 := by
    rw [li_iff, not_not] at hi
    exact hi
  rw [svd_prod hs hmn hA, h0, Real.sqrt_zero, Num.div]
  by_cases hy : y = 0
  · rw [if_pos hy, if_pos rfl]
    exact fun e => (by cases e)
  · rw [if_neg hy, zero_div]
    simp only [skewEntry, if_true]
    exact fun e => (by cases e)

theorem worse_fold (l : List ℝ) (a : ℝ) :
    (l.map Num.fin).foldl Num.worse (Num.fin a) = Num.fin (l.foldl max a) := by
  induction l generalizing a with
  | nil => rfl
  | cons b l ih => exact ih (max a b)

theorem worse_inf (l : List (Num ℝ)) : l.foldl Num.worse (.inf true) = .inf true := by
  induction l with
  | nil => rfl
  | cons b l ih => exact ih

theorem worse_notfin (l : List (Num ℝ)) (a : Num ℝ) (h : ∃ e ∈ l, ∀ x, e ≠ .fin x) :
    l.foldl Num.worse a = .inf true := by
  induction l generalizing a with
  | nil => simp at h
  | cons b l ih =>
    obtain ⟨e, he, hx⟩ := h
    rcases List.mem_cons.mp he with rfl | he
    · have : Num.worse a e = .inf true := by
        rcases a with y | _ | _ <;> rcases e with z | _ | _ <;> first | rfl | exact absurd rfl (hx z)
      rw [List.foldl_cons, this, worse_inf]
    · exact ih _ ⟨e, he, hx⟩

theorem foldl_max (l : List ℝ) (a : ℝ) :
    IsGreatest {y | y = a ∨ y ∈ l} (l.foldl max a) := by
  induction l generalizing a with
  | nil => simp [IsGreatest, upperBounds]
  | cons b l ih =>
    obtain ⟨h1, h2⟩ := ih (max a b)
    refine ⟨?_, ?_⟩
    · show l.foldl max (max a b) = a ∨ l.foldl max (max a b) ∈ b :: l
      rcases h1 with h1 | h1
      · rcases max_choice a b with h | h
        · left; rw [h1, h]
        · right; rw [h1, h]; exact List.mem_cons_self
      · right; exact List.mem_cons_of_mem _ h1
    · rintro y (rfl | hy)
      · exact le_trans (le_max_left _ _) (h2 (Or.inl rfl))
      · rcases List.mem_cons.mp hy with rfl | hy
        · exact le_trans (le_max_right _ _) (h2 (Or.inl rfl))
        · exact h2 (Or.inr hy)

/-- The largest of finite skewnesses. -/
theorem skewMax_fin {l : List (Num ℝ)} (hne : l ≠ []) (h : ∀ e ∈ l, ∃ x, e = .fin x) :
    ∃ x, skewMax l = .ok (.fin x) ∧ IsGreatest {y | Num.fin y ∈ l} x := by
  have : ∃ xs : List ℝ, l = xs.map Num.fin := by
    clear hne
    induction l with
    | nil => exact ⟨[], rfl⟩
    | cons e l ih =>
      obtain ⟨x, rfl⟩ := h e List.mem_cons_self
      obtain ⟨xs, rfl⟩ := ih fun e he => h e (List.mem_cons_of_mem _ he)
      exact ⟨x :: xs, rfl⟩
  obtain ⟨xs, rfl⟩ := this
  rcases xs with _ | ⟨a, xs⟩
  · exact absurd rfl hne
  · refine ⟨(a :: xs).foldl max a, ?_, ?_⟩
    · simp only [List.map_cons, skewMax]
      rw [← List.map_cons, worse_fold]
    · have := foldl_max (a :: xs) a
      have e : {y | y = a ∨ y ∈ a :: xs} = {y | Num.fin y ∈ (a :: xs).map Num.fin} := by
        ext y
        simp only [Set.mem_ofPred_eq, List.mem_map, Num.fin.injEq, exists_eq_right, List.mem_cons]
        tauto
      rwa [e] at this

theorem skewMax_notfin {l : List (Num ℝ)} (h : ∃ e ∈ l, ∀ x, e ≠ .fin x) :
    skewMax l = .ok (.inf true) := by
  rcases l with _ | ⟨a, l⟩
  · simp at h
  · exact congrArg Except.ok (worse_notfin (a :: l) a h)

theorem skewRow_length (A : List (List ℝ)) (nm : List ℝ → ℝ) :
    (skewRow svd nm A).length = A.length := by
  simp [skewRow]

theorem skewRow_getElem (A : List (List ℝ)) (nm : List ℝ → ℝ) {i : Nat} (h : i < A.length) :
    (skewRow svd nm A)[i]? =
      some (skewEntry (nm (A.getD i [])) (Num.div (svd A).prod (svd (withoutRow A i)).prod)) := by
  simp [skewRow, h]

/-! ### Harmonic mean -/

theorem hmean_num {s : List (Num ℝ)} (hl : s ≠ []) (h : ∀ e ∈ s, 0 ≤ e.recip) :
    (hmean s = .inf true ↔ ∀ e ∈ s, e.recip = 0) ∧
    (∀ x, hmean s = .fin x → IsHarmonicMean x (s.map Num.recip)) ∧
    (hmean s = .inf true ∨ ∃ x, hmean s = .fin x) := by
  have hpos : 0 < (s.length : ℝ) := by
    have := List.length_pos_of_ne_nil hl
    positivity
  have hz : (s.map Num.recip).sum = 0 ↔ ∀ e ∈ s, e.recip = 0 := by
    clear hl hpos
    induction s with
    | nil => simp
    | cons a s ih =>
      have h1 := h a List.mem_cons_self
      have ih := ih fun e he => h e (List.mem_cons_of_mem _ he)
      have h2 : 0 ≤ (s.map Num.recip).sum := List.sum_nonneg (by
        intro x hx
        obtain ⟨y, hy, rfl⟩ := List.mem_map.mp hx
        exact h y (List.mem_cons_of_mem _ hy))
      rw [List.map_cons, List.sum_cons, List.forall_mem_cons, ← ih]
      constructor
      · intro e
        constructor <;> linarith
      · rintro ⟨e1, e2⟩
        rw [e1, e2, add_zero]
  by_cases h0 : (s.map Num.recip).sum = 0
  · have e : hmean s = .inf true := by
      simp only [hmean, Num.div, h0, if_true, if_neg hpos.ne', hpos, decide_true]
    refine ⟨?_, ?_, Or.inl e⟩
    · rw [e, ← hz]
      exact ⟨fun _ => h0, fun _ => rfl⟩
    · intro x hx
      rw [e] at hx
      cases hx
  · have e : hmean s = .fin ((s.length : ℝ) / (s.map Num.recip).sum) := by
      simp only [hmean, Num.div, h0, if_false]
    refine ⟨?_, ?_, Or.inr ⟨_, e⟩⟩
    · rw [e, ← hz]
      exact ⟨fun h => (by cases h), fun h => absurd h h0⟩
    · intro x hx
      rw [e] at hx
      injection hx with hx
      rw [IsHarmonicMean, ← hx, div_mul_cancel₀ _ h0, List.length_map]

theorem sum_le_length {s : List ℝ} (h : ∀ x ∈ s, x ≤ 1) : s.sum ≤ s.length := by
  induction s with
  | nil => simp
  | cons a s ih =>
    have := ih fun x hx => h x (List.mem_cons_of_mem _ hx)
    have h1 := h a List.mem_cons_self
    simp only [List.sum_cons, List.length_cons, Nat.cast_add, Nat.cast_one]
    linarith

theorem one_le_hmean {x : ℝ} {s : List ℝ} (h : IsHarmonicMean x s) (hs : s ≠ [])
    (h0 : ∀ y ∈ s, 0 ≤ y) (h1 : ∀ y ∈ s, y ≤ 1) : 1 ≤ x := by
  have hle := sum_le_length h1
  have hnn : 0 ≤ s.sum := List.sum_nonneg h0
  have hpos : 0 < (s.length : ℝ) := by
    have := List.length_pos_of_ne_nil hs
    positivity
  unfold IsHarmonicMean at h
  have hne : s.sum ≠ 0 := fun e => by rw [e, mul_zero] at h; linarith
  have hp : 0 < s.sum := lt_of_le_of_ne hnn (Ne.symm hne)
  by_contra hlt
  push Not at hlt
  nlinarith

/-! ### The skewness -/

/-- The largest skewness of the centres. -/
theorem worst_ok (hs : IsSvd svd) (h : Choice G c n q) (hq : count c q ≠ 0) :
    ∃ w : List (Num ℝ), (G.map fun A => skewRow svd len (chosen q A)).mapM skewMax = .ok w ∧
      List.Forall₂ (fun A e => (Indep c n q A → ∃ x, e = .fin x ∧
          IsGreatest {y | Num.fin y ∈ skewRow svd len (chosen q A)} x) ∧
        (¬ Indep c n q A → e = .inf true)) G w := by
  have hsh := chosen_shape h
  have hfew := h.few
  clear h
  induction G with
  | nil => exact ⟨[], rfl, .nil⟩
  | cons A G ih =>
    obtain ⟨w, hw, hf⟩ := ih fun B hB => hsh B (List.mem_cons_of_mem _ hB)
    have hA := hsh A List.mem_cons_self
    have hmem : ∀ e ∈ skewRow svd len (chosen q A), ∃ i : Fin (count c q),
        e = skewEntry (len ((chosen q A).getD i []))
          (Num.div (svd (chosen q A)).prod (svd (withoutRow (chosen q A) i)).prod) := by
      intro e he
      obtain ⟨i, hi⟩ := List.mem_iff_getElem?.mp he
      obtain ⟨hlt, -⟩ := List.getElem?_eq_some_iff.mp hi
      rw [skewRow_length] at hlt
      rw [skewRow_getElem _ _ hlt] at hi
      exact ⟨⟨i, hA.1 ▸ hlt⟩, (Option.some.inj hi).symm⟩
    have hne : skewRow svd len (chosen q A) ≠ [] := by
      intro e
      have := skewRow_length (svd := svd) (chosen q A) len
      rw [e, hA.1] at this
      exact hq this.symm
    by_cases hi : Indep c n q A
    · obtain ⟨x, hx, hg⟩ := skewMax_fin hne (by
        intro e he
        obtain ⟨i, rfl⟩ := hmem e he
        obtain ⟨x, r, hx, -⟩ := skewEntry_indep hs hfew hA hi i
        exact ⟨x, hx⟩)
      refine ⟨.fin x :: w, ?_, .cons ⟨fun _ => ⟨x, rfl, hg⟩, fun h => absurd hi h⟩ hf⟩
      rw [List.map_cons, List.mapM_cons, hx, ok_bind, hw, ok_bind]
      rfl
    · have hx : skewMax (skewRow svd len (chosen q A)) = .ok (.inf true) := by
        obtain ⟨e, he⟩ := List.exists_mem_of_ne_nil _ hne
        refine skewMax_notfin ⟨e, he, fun x => ?_⟩
        obtain ⟨i, rfl⟩ := hmem e he
        exact skewEntry_dep hs hfew hA hi _ _ x
      refine ⟨.inf true :: w, ?_, .cons ⟨fun h => absurd h hi, fun _ => rfl⟩ hf⟩
      rw [List.map_cons, List.mapM_cons, hx, ok_bind, hw, ok_bind]
      rfl

theorem avgSkewness_eq (hs : IsSvd svd) (h : Choice G c n q) (hq : count c q ≠ 0) :
    ∃ w : List (Num ℝ), avgSkewness svd len (some G) q =
        .ok (hmean w, G.map fun A => skewRow svd len (chosen q A)) ∧
      List.Forall₂ (fun A e => (Indep c n q A → ∃ x, e = .fin x ∧
          IsGreatest {y | Num.fin y ∈ skewRow svd len (chosen q A)} x) ∧
        (¬ Indep c n q A → e = .inf true)) G w := by
  obtain ⟨w, hw, hf⟩ := worst_ok hs h hq
  refine ⟨w, ?_, hf⟩
  have e : (G.map (chosen q)).map (skewRow svd len) = G.map fun A => skewRow svd len (chosen q A) := by
    rw [List.map_map]
    rfl
  simp only [avgSkewness, orErr_some, ok_bind, selectQois_ok h, raiseIf_false (few_ok h), e, hw]
  rfl

theorem skew_one_le (hs : IsSvd svd) (h : Choice G c n q) {A : List (List ℝ)} (hA : A ∈ G)
    (hi : Indep c n q A) {y : ℝ} (hy : Num.fin y ∈ skewRow svd len (chosen q A)) : 1 ≤ y := by
  obtain ⟨i, hi'⟩ := List.mem_iff_getElem?.mp hy
  obtain ⟨hlt, -⟩ := List.getElem?_eq_some_iff.mp hi'
  rw [skewRow_length] at hlt
  rw [skewRow_getElem _ _ hlt] at hi'
  have hsh := chosen_shape h A hA
  obtain ⟨x, r, hx, -, -, -, h1, -⟩ := skewEntry_indep hs h.few hsh hi ⟨i, hsh.1 ▸ hlt⟩
  have hx' := (Option.some.inj hi').symm.trans hx
  injection hx' with hx
  rw [hx]
  exact h1

/-- **C82.** The skewness of each QoI at each centre: where the gradients are independent it is the
length of the gradient divided by the length of its part perpendicular to the other gradients; it is at
least 1, and 1 exactly if the gradient is perpendicular to the others. Where the gradients are dependent
it is not finite. -/
theorem C82_entries (hs : IsSvd svd) (h : Choice G c n q) (hq : count c q ≠ 0) :
    ∃ m skew, avgSkewness svd len (some G) q = .ok (m, skew) ∧ skew.length = G.length ∧
      ∀ (k : Nat) (A : List (List ℝ)) (row : List (Num ℝ)), G[k]? = some A → skew[k]? = some row →
        row.length = count c q ∧
        (Indep c n q A → ∀ i : Fin (count c q), ∃ (x : ℝ) (r : Fin n → ℝ),
          row[(i : Nat)]? = some (.fin x) ∧ IsPerp (count c q) n (chosen q A) i r ∧
          0 < Spec.norm2 r ∧ x = Spec.norm2 (rowVec (count c q) n (chosen q A) i) / Spec.norm2 r ∧
          1 ≤ x ∧ (x = 1 ↔ ∀ j, j ≠ i → rowVec (count c q) n (chosen q A) i ⬝ᵥ
            rowVec (count c q) n (chosen q A) j = 0)) ∧
        (¬ Indep c n q A → ∀ e ∈ row, ∀ x, e ≠ .fin x) := by
  obtain ⟨w, hw, -⟩ := avgSkewness_eq hs h hq
  refine ⟨_, _, hw, by simp, ?_⟩
  intro k A row hA hrow
  rw [List.getElem?_map, hA] at hrow
  have hrow := Option.some.inj hrow
  subst hrow
  have hmem := List.mem_of_getElem? hA
  have hsh := chosen_shape h A hmem
  refine ⟨by rw [skewRow_length, hsh.1], ?_, ?_⟩
  · intro hi i
    obtain ⟨x, r, hx, h2⟩ := skewEntry_indep hs h.few hsh hi i
    refine ⟨x, r, ?_, h2⟩
    rw [skewRow_getElem _ _ (by rw [hsh.1]; exact i.2), hx]
  · intro hi e he x
    obtain ⟨i, hi'⟩ := List.mem_iff_getElem?.mp he
    obtain ⟨hlt, -⟩ := List.getElem?_eq_some_iff.mp hi'
    rw [skewRow_length] at hlt
    rw [skewRow_getElem _ _ hlt] at hi'
    rw [← Option.some.inj hi']
    exact skewEntry_dep hs h.few hsh hi _ _ x

/-- **C82.** The value is the harmonic mean over the centres of the largest skewness there, where
dependent gradients count as infinite. It is infinite exactly when the gradients are dependent at every
centre; otherwise it is a number not below 1. -/
theorem C82_mean (hs : IsSvd svd) (h : Choice G c n q) (hq : count c q ≠ 0) :
    ∃ m skew, avgSkewness svd len (some G) q = .ok (m, skew) ∧
      (m = .inf true ↔ ∀ A ∈ G, ¬ Indep c n q A) ∧
      (m ≠ .inf true → ∃ (x : ℝ) (s : List ℝ), m = .fin x ∧ 1 ≤ x ∧ IsHarmonicMean x s ∧
        s.length = G.length ∧
        ∀ (k : Nat) (A : List (List ℝ)) (row : List (Num ℝ)), G[k]? = some A → skew[k]? = some row →
          (¬ Indep c n q A → s[k]? = some 0) ∧
          (Indep c n q A → ∃ y, s[k]? = some (1 / y) ∧ IsGreatest {z | Num.fin z ∈ row} y)) := by
  obtain ⟨w, hw, hf⟩ := avgSkewness_eq hs h hq
  have hlen := hf.length_eq
  have hwne : w ≠ [] := by
    intro e
    rw [e] at hlen
    exact h.centres (List.eq_nil_of_length_eq_zero hlen)
  have hrec : ∀ (k : Nat) (A : List (List ℝ)) (e : Num ℝ), G[k]? = some A → w[k]? = some e →
      (¬ Indep c n q A → e.recip = 0) ∧
      (Indep c n q A → ∃ y, 1 ≤ y ∧ e.recip = 1 / y ∧
        IsGreatest {z | Num.fin z ∈ skewRow svd len (chosen q A)} y) := by
    intro k A e hA he
    obtain ⟨hi1, hi2⟩ := List.forall₂_iff_get.mp hf |>.2 k
      (List.getElem?_eq_some_iff.mp hA).1 (List.getElem?_eq_some_iff.mp he).1
    simp only [List.get_eq_getElem, (List.getElem?_eq_some_iff.mp hA).2,
      (List.getElem?_eq_some_iff.mp he).2] at hi1 hi2
    refine ⟨fun hn => by rw [hi2 hn]; rfl, fun hi => ?_⟩
    obtain ⟨x, rfl, hg⟩ := hi1 hi
    exact ⟨x, skew_one_le hs h (List.mem_of_getElem? hA) hi hg.1, rfl, hg⟩
  have hall : ∀ e ∈ w, 0 ≤ e.recip ∧ e.recip ≤ 1 := by
    intro e he
    obtain ⟨k, hk⟩ := List.mem_iff_getElem?.mp he
    have hk' : k < G.length := hlen ▸ (List.getElem?_eq_some_iff.mp hk).1
    obtain ⟨h1, h2⟩ := hrec k G[k] e (List.getElem?_eq_getElem hk') hk
    by_cases hi : Indep c n q G[k]
    · obtain ⟨y, hy, e1, -⟩ := h2 hi
      rw [e1]
      refine ⟨by positivity, (div_le_one (by linarith)).mpr hy⟩
    · rw [h1 hi]
      exact ⟨le_refl _, zero_le_one⟩
  obtain ⟨hm1, hm2, hm3⟩ := hmean_num hwne fun e he => (hall e he).1
  refine ⟨_, _, hw, ?_, ?_⟩
  · rw [hm1]
    constructor
    · intro h0 A hA hi
      obtain ⟨k, hk⟩ := List.mem_iff_getElem?.mp hA
      have hk' : k < w.length := hlen ▸ (List.getElem?_eq_some_iff.mp hk).1
      obtain ⟨y, hy, e1, -⟩ := (hrec k A w[k] hk (List.getElem?_eq_getElem hk')).2 hi
      rw [h0 _ (List.getElem_mem hk')] at e1
      have : 0 < 1 / y := by positivity
      linarith
    · intro hn e he
      obtain ⟨k, hk⟩ := List.mem_iff_getElem?.mp he
      have hk' : k < G.length := hlen ▸ (List.getElem?_eq_some_iff.mp hk).1
      exact (hrec k G[k] e (List.getElem?_eq_getElem hk') hk).1 (hn _ (List.getElem_mem hk'))
  · intro hne
    obtain ⟨x, hx⟩ := hm3.resolve_left hne
    have hh := hm2 x hx
    refine ⟨x, w.map Num.recip, hx, ?_, hh, by rw [List.length_map, hlen], ?_⟩
    · refine one_le_hmean hh (by simpa using hwne) ?_ ?_
      · intro y hy
        obtain ⟨e, he, rfl⟩ := List.mem_map.mp hy
        exact (hall e he).1
      · intro y hy
        obtain ⟨e, he, rfl⟩ := List.mem_map.mp hy
        exact (hall e he).2
    · intro k A row hA hrow
      rw [List.getElem?_map, hA] at hrow
      have hrow := Option.some.inj hrow
      subst hrow
      have hk' : k < w.length := hlen ▸ (List.getElem?_eq_some_iff.mp hA).1
      obtain ⟨h1, h2⟩ := hrec k A w[k] hA (List.getElem?_eq_getElem hk')
      rw [List.getElem?_map, List.getElem?_eq_getElem hk']
      refine ⟨fun hn => by rw [Option.map_some, h1 hn], fun hi => ?_⟩
      obtain ⟨y, -, e1, hg⟩ := h2 hi
      exact ⟨y, by rw [Option.map_some, e1], hg⟩

/-- Reordered gradients have the same skewnesses. -/
theorem skewRow_perm_sub (hs : IsSvd svd) {m n : Nat} (hmn : m ≤ n) {A B : List (List ℝ)}
    (hA : IsMat m n A) (h : A.Perm B) : ∀ e ∈ skewRow svd len A, e ∈ skewRow svd len B := by
  intro e he
  obtain ⟨i, hi⟩ := List.mem_iff_getElem?.mp he
  obtain ⟨hlt, -⟩ := List.getElem?_eq_some_iff.mp hi
  rw [skewRow_length] at hlt
  rw [skewRow_getElem _ _ hlt] at hi
  obtain ⟨σ, hσ⟩ := perm_equiv h
  have hj := (σ ⟨i, hlt⟩).2
  refine List.mem_iff_getElem?.mpr ⟨(σ ⟨i, hlt⟩ : Fin B.length), ?_⟩
  rw [skewRow_getElem _ _ hj, ← hi]
  have h1 : B[((σ ⟨i, hlt⟩ : Fin B.length) : Nat)] = A[i] := hσ ⟨i, hlt⟩
  have h2 : B.getD (σ ⟨i, hlt⟩ : Fin B.length) [] = A.getD i [] := by
    rw [List.getD_eq_getElem?_getD, List.getD_eq_getElem?_getD, List.getElem?_eq_getElem hj,
      List.getElem?_eq_getElem hlt, h1]
  have h3 : (withoutRow A i).Perm (withoutRow B (σ ⟨i, hlt⟩ : Fin B.length)) := by
    have p1 := List.getElem_cons_eraseIdx_perm hlt
    have p2 := List.getElem_cons_eraseIdx_perm hj
    rw [h1] at p2
    exact List.Perm.cons_inv (p1.trans (h.trans p2.symm))
  have hshape : ∃ k, k ≤ n ∧ IsMat k n (withoutRow A i) := by
    rcases m with _ | m
    · rw [hA.1] at hlt
      omega
    · exact ⟨m, by omega, hasShape_erase hA ⟨i, hA.1 ▸ hlt⟩⟩
  obtain ⟨k, hk, hE⟩ := hshape
  rw [h2, svd_perm hs hmn hA h, svd_perm hs hk hE h3]

/-- **C82.** The order in which the QoIs are listed makes no difference to the value. -/
theorem C82_order (hs : IsSvd svd) {l l' : List Nat} (h : Choice G c n (some l)) (hl : l ≠ [])
    (hp : l.Perm l') : ∃ m skew skew', avgSkewness svd len (some G) (some l) = .ok (m, skew) ∧
      avgSkewness svd len (some G) (some l') = .ok (m, skew') := by
  have h' : Choice G c n (some l') := by
    refine ⟨h.centres, h.shape, ?_, ?_⟩
    · rintro _ ⟨⟩ i hi
      exact h.valid l rfl i (hp.mem_iff.mpr hi)
    · have := h.few
      simp only [count] at this ⊢
      rw [← hp.length_eq]
      exact this
  have hcount : count c (some l') = count c (some l) := hp.length_eq.symm
  have h0 : count c (some l) ≠ 0 := by simpa [count] using hl
  obtain ⟨w, hw, hf⟩ := avgSkewness_eq hs h h0
  obtain ⟨w', hw', hf'⟩ := avgSkewness_eq hs h' (hcount ▸ h0)
  refine ⟨_, _, G.map fun A => skewRow svd len (chosen (some l') A), hw, ?_⟩
  rw [hw']
  have hc : ∀ A, (chosen (some l) A).Perm (chosen (some l') A) := fun A => hp.map _
  have hsub : ∀ A ∈ G, ∀ e, e ∈ skewRow svd len (chosen (some l) A) ↔
      e ∈ skewRow svd len (chosen (some l') A) := fun A hA e =>
    ⟨skewRow_perm_sub hs h.few (chosen_shape h A hA) (hc A) e,
      skewRow_perm_sub hs h'.few (chosen_shape h' A hA) (hc A).symm e⟩
  have hind : ∀ A ∈ G, (Indep c n (some l') A ↔ Indep c n (some l) A) := by
    intro A hA
    rw [← spanned_pos_iff, ← spanned_pos_iff, spanned, spanned, hcount,
      gram_det_perm (chosen_shape h A hA).1 (hc A)]
  have hww : w' = w := by
    clear hw hw'
    clear h h'
    induction G generalizing w w' with
    | nil => cases hf; cases hf'; rfl
    | cons A G ih =>
      rcases hf with _ | ⟨ha, hf⟩
      rcases hf' with _ | ⟨ha', hf'⟩
      rename_i e w e' w'
      have htail := ih _ hf _ hf' (fun A hA => hsub A (List.mem_cons_of_mem _ hA))
        (fun A hA => hind A (List.mem_cons_of_mem _ hA))
      rw [htail]
      congr 1
      have hiA := hind A List.mem_cons_self
      by_cases hi : Indep c n (some l) A
      · obtain ⟨x, rfl, hx⟩ := ha.1 hi
        obtain ⟨x', rfl, hx'⟩ := ha'.1 (hiA.mpr hi)
        have e1 : {y | Num.fin y ∈ skewRow svd len (chosen (some l') A)} =
            {y | Num.fin y ∈ skewRow svd len (chosen (some l) A)} := by
          ext y
          exact (hsub A List.mem_cons_self (.fin y)).symm
        rw [e1] at hx'
        rw [hx'.unique hx]
      · rw [ha.2 hi, ha'.2 fun h => hi (hiA.mp h)]
  rw [hww]

/-! ### The condition number -/

/-- The last singular value is zero exactly when the gradients are dependent. -/
theorem last_zero_iff (hs : IsSvd svd) {m n : Nat} {A : List (List ℝ)} (hmn : m ≤ n) (hm : m ≠ 0)
    (hA : IsMat m n A) :
    (svd A).getLast? = some 0 ↔ ¬ LinearIndependent ℝ (rowVec m n A) := by
  rw [li_iff, not_not, ← svd_prod_sq hs hmn hA, sq_eq_zero_iff]
  have hsort := hs.sorted m n A hmn hA
  have hnn := hs.nonneg m n A hmn hA
  have hne : svd A ≠ [] := by
    intro e
    have := hs.length m n A hmn hA
    rw [e] at this
    exact hm this.symm
  obtain ⟨s, z, hz⟩ : ∃ s z, svd A = s ++ [z] :=
    ⟨_, _, (List.dropLast_append_getLast hne).symm⟩
  rw [hz] at hsort hnn ⊢
  rw [List.getLast?_append]
  simp only [List.getLast?_singleton, Option.some_or, Option.some.injEq, List.prod_append,
    List.prod_singleton, mul_eq_zero]
  constructor
  · exact fun e => Or.inr e
  · rintro (h | h)
    · obtain ⟨y, hy, rfl⟩ : ∃ y ∈ s, y = 0 := by
        have := List.prod_eq_zero_iff.mp h
        exact ⟨0, this, rfl⟩
      have h1 := (List.pairwise_append.mp hsort).2.2 0 hy z (by simp)
      exact le_antisymm h1 (hnn z (by simp))
    · exact h

/-- What the condition number of a centre is: the largest singular value divided by the least, infinite
when the least is zero. -/
noncomputable def condOf (s : List ℝ) : Num ℝ :=
  if s.getLast? = some 0 then .inf true else .fin (s.headD 0 / s.getLastD 0)

theorem condRow_num {s : List ℝ} (hs : 2 ≤ s.length ∨ s.length = 1 ∧ s.getLast? ≠ some 0) :
    ∃ row, condRow s = .ok row ∧ condNum row = .ok (condOf s) ∧
      (s.getLast? ≠ some 0 → row = s.map Num.fin) := by
  have hne : s ≠ [] := by
    rintro rfl
    simp at hs
  obtain ⟨t, z, rfl⟩ : ∃ t z, s = t ++ [z] := ⟨_, _, (List.dropLast_append_getLast hne).symm⟩
  have hlast : (t ++ [z]).getLast? = some z := by simp
  by_cases hz : z = 0
  · subst hz
    have ht : t ≠ [] := by
      rintro rfl
      simp at hs
    obtain ⟨a, t, rfl⟩ := List.exists_cons_of_ne_nil ht
    refine ⟨_, by simp only [condRow, hlast, orErr_some, ok_bind]; rfl, ?_, ?_⟩
    · simp only [if_true, condOf, hlast, List.cons_append, List.map_cons, List.map_append,
        List.map_nil, List.set_cons_zero, List.length_cons, List.length_append, List.length_nil,
        zero_add]
      have e : ∀ (u v : Num ℝ), (u :: (t.map Num.fin ++ [v])).set (t.length + 1 + 1 - 1) (Num.fin 1) =
          u :: (t.map Num.fin ++ [Num.fin 1]) := by
        intro u v
        simp [List.set_append]
      rw [e]
      simp only [condNum, List.head?_cons]
      have : (Num.inf true :: (t.map Num.fin ++ [Num.fin (1 : ℝ)])).getLast? = some (Num.fin 1) := by
        rw [← List.cons_append, List.getLast?_append]
        simp
      rw [this, if_pos (show (a :: (t ++ [0])).getLast? = some 0 from hlast)]
    · intro h
      exact absurd hlast h
  · refine ⟨_, by simp only [condRow, hlast, orErr_some, ok_bind]; rfl, ?_, ?_⟩
    · simp only [if_neg hz]
      have h1 : (t ++ [z]).getLast? ≠ some 0 := by rw [hlast]; simpa using hz
      rw [condOf, if_neg h1]
      have h2 : ((t ++ [z]).map Num.fin).getLast? = some (Num.fin z) := by simp
      have h3 : ((t ++ [z]).map Num.fin).head? = some (Num.fin ((t ++ [z]).headD 0)) := by
        cases t <;> rfl
      have h4 : (t ++ [z]).getLastD 0 = z := by simp
      simp only [condNum, h2, h3, h4, Num.div, if_neg hz]
    · intro _
      rw [if_neg hz]

theorem condMean_eq {svs : List (List ℝ)}
    (hs : ∀ s ∈ svs, 2 ≤ s.length ∨ s.length = 1 ∧ s.getLast? ≠ some 0) :
    ∃ rows, condMean svs = .ok (hmean (svs.map condOf), rows) ∧
      List.Forall₂ (fun s row => condRow s = .ok row) svs rows := by
  have : ∃ rows, svs.mapM condRow = .ok rows ∧ rows.mapM condNum = .ok (svs.map condOf) ∧
      List.Forall₂ (fun s row => condRow s = .ok row) svs rows := by
    induction svs with
    | nil => exact ⟨[], rfl, rfl, .nil⟩
    | cons s svs ih =>
      obtain ⟨rows, h1, h2, h3⟩ := ih fun s h => hs s (List.mem_cons_of_mem _ h)
      obtain ⟨row, e1, e2, -⟩ := condRow_num (hs s List.mem_cons_self)
      refine ⟨row :: rows, ?_, ?_, .cons e1 h3⟩
      · rw [List.mapM_cons, e1, ok_bind, h1, ok_bind]; rfl
      · rw [List.mapM_cons, e2, ok_bind, h2, ok_bind]; rfl
  obtain ⟨rows, h1, h2, h3⟩ := this
  refine ⟨rows, ?_, h3⟩
  simp only [condMean, h1, ok_bind, h2]
  rfl

theorem condOf_recip (hs : IsSvd svd) {m n : Nat} {A : List (List ℝ)} (hmn : m ≤ n) (hm : m ≠ 0)
    (hA : IsMat m n A) :
    (¬ LinearIndependent ℝ (rowVec m n A) → (condOf (svd A)).recip = 0) ∧
    (LinearIndependent ℝ (rowVec m n A) → 0 < (svd A).getLastD 0 ∧ 
      (svd A).getLastD 0 ≤ (svd A).headD 0 ∧
      (condOf (svd A)).recip = (svd A).getLastD 0 / (svd A).headD 0) := by
  have hl := last_zero_iff hs hmn hm hA
  refine ⟨fun hi => by rw [condOf, if_pos (hl.mpr hi)]; rfl, fun hi => ?_⟩
  have hn : (svd A).getLast? ≠ some 0 := fun e => hl.mp e hi
  have hne : svd A ≠ [] := by
    intro e
    have := hs.length m n A hmn hA
    rw [e] at this
    exact hm this.symm
  have hlast : (svd A).getLastD 0 = (svd A).getLast hne := by
    rw [List.getLastD_eq_getLast?, List.getLast?_eq_some_getLast hne]; rfl
  have hmem : (svd A).getLast hne ∈ svd A := List.getLast_mem hne
  have hpos : 0 < (svd A).getLastD 0 := by
    refine lt_of_le_of_ne ?_ ?_
    · rw [hlast]; exact hs.nonneg m n A hmn hA _ hmem
    · intro e
      apply hn
      rw [List.getLast?_eq_some_getLast hne, ← hlast, ← e]
  have hle : (svd A).getLastD 0 ≤ (svd A).headD 0 := by
    rw [hlast]
    have hsort := hs.sorted m n A hmn hA
    clear hlast hpos hl hn
    generalize svd A = s at *
    rcases s with _ | ⟨a, s⟩
    · exact absurd rfl hne
    · rcases List.mem_cons.mp hmem with e | e
      · rw [e]; exact le_refl _
      · exact (List.pairwise_cons.mp hsort).1 _ e
  refine ⟨hpos, hle, ?_⟩
  rw [condOf, if_neg hn]
  simp only [Num.recip, one_div, inv_div]

open scoped Classical in
theorem avgCondnum_eq (hs : IsSvd svd) (h : Choice G c n q) (hq : count c q ≠ 0) :
    avgCondnum svd (some G) q =
      if (∀ A ∈ G, ¬ Indep c n q A) then
        .ok (.inf true, G.map fun A => (svd (chosen q A)).map Num.fin)
      else condMean (G.map fun A => svd (chosen q A)) := by
  have e : (G.map (chosen q)).map svd = G.map fun A => svd (chosen q A) := by
    rw [List.map_map]
    rfl
  simp only [avgCondnum, orErr_some, ok_bind, selectQois_ok h, raiseIf_false (few_ok h), e]
  have hall : ((G.map fun A => svd (chosen q A)).all fun s => decide (s.getLast? = some 0)) = true ↔
      ∀ A ∈ G, ¬ Indep c n q A := by
    simp only [List.all_eq_true, List.mem_map, forall_exists_index, and_imp,
      forall_apply_eq_imp_iff₂, decide_eq_true_eq]
    exact forall₂_congr fun A hA => last_zero_iff hs h.few hq (chosen_shape h A hA)
  by_cases h0 : ∀ A ∈ G, ¬ Indep c n q A
  · rw [if_pos h0, if_pos (hall.mpr h0), List.map_map]
    rfl
  · rw [if_neg h0, if_neg fun e => h0 (hall.mp e)]

/-- **C83 (part).** The value is the harmonic mean over the centres of the quotient of the largest and
the least singular value there, where dependent gradients count as infinite. It is infinite exactly when
the gradients are dependent at every centre; otherwise it is a number not below 1. This is proved for two
or more QoIs, and for one QoI whose gradient is nowhere zero. It fails for one QoI with a zero gradient at
some of the centres (`C83_negation_one`). -/
theorem C83_mean_partial (hs : IsSvd svd) (h : Choice G c n q)
    (hq : 2 ≤ count c q ∨ count c q = 1 ∧ ∀ A ∈ G, Indep c n q A) :
    ∃ m rows, avgCondnum svd (some G) q = .ok (m, rows) ∧
      (m = .inf true ↔ ∀ A ∈ G, ¬ Indep c n q A) ∧
      (m ≠ .inf true → ∃ (x : ℝ) (s : List ℝ), m = .fin x ∧ 1 ≤ x ∧ IsHarmonicMean x s ∧
        s.length = G.length ∧ ∀ (k : Nat) (A : List (List ℝ)), G[k]? = some A →
          (¬ Indep c n q A → s[k]? = some 0) ∧
          (Indep c n q A → s[k]? = some ((svd (chosen q A)).getLastD 0 / (svd (chosen q A)).headD 0) ∧
            0 < (svd (chosen q A)).getLastD 0)) := by
  have hq0 : count c q ≠ 0 := by omega
  have hsh := chosen_shape h
  rw [avgCondnum_eq hs h hq0]
  by_cases h0 : ∀ A ∈ G, ¬ Indep c n q A
  · rw [if_pos h0]
    exact ⟨_, _, rfl, ⟨fun _ => h0, fun _ => rfl⟩, fun hne => absurd rfl hne⟩
  · rw [if_neg h0]
    obtain ⟨rows, hr, -⟩ := condMean_eq (svs := G.map fun A => svd (chosen q A)) (by
      intro s hs'
      obtain ⟨A, hA, rfl⟩ := List.mem_map.mp hs'
      rw [hs.length _ _ _ h.few (hsh A hA)]
      rcases hq with hq | ⟨hq, hi⟩
      · exact Or.inl hq
      · exact Or.inr ⟨hq, fun e => (last_zero_iff hs h.few hq0 (hsh A hA)).mp e (hi A hA)⟩)
    have hrec : ∀ A ∈ G, (¬ Indep c n q A → (condOf (svd (chosen q A))).recip = 0) ∧
        (Indep c n q A → 0 < (svd (chosen q A)).getLastD 0 ∧
          (svd (chosen q A)).getLastD 0 ≤ (svd (chosen q A)).headD 0 ∧
          (condOf (svd (chosen q A))).recip =
            (svd (chosen q A)).getLastD 0 / (svd (chosen q A)).headD 0) := fun A hA =>
      condOf_recip hs h.few hq0 (hsh A hA)
    set w := (G.map fun A => svd (chosen q A)).map condOf with hwd
    have hw : w = G.map fun A => condOf (svd (chosen q A)) := by rw [hwd, List.map_map]; rfl
    have hwne : w ≠ [] := by
      rw [hw]
      simpa using h.centres
    have hall : ∀ e ∈ w, 0 ≤ e.recip ∧ e.recip ≤ 1 := by
      intro e he
      rw [hw] at he
      obtain ⟨A, hA, rfl⟩ := List.mem_map.mp he
      obtain ⟨h1, h2⟩ := hrec A hA
      by_cases hi : Indep c n q A
      · obtain ⟨p1, p2, e1⟩ := h2 hi
        rw [e1]
        exact ⟨div_nonneg p1.le (by linarith), (div_le_one (by linarith)).mpr p2⟩
      · rw [h1 hi]
        exact ⟨le_refl _, zero_le_one⟩
    obtain ⟨hm1, hm2, hm3⟩ := hmean_num hwne fun e he => (hall e he).1
    have hfin : hmean w ≠ .inf true := by
      intro e
      apply h0
      intro A hA hi
      have := hm1.mp e (condOf (svd (chosen q A))) (by rw [hw]; exact List.mem_map.mpr ⟨A, hA, rfl⟩)
      obtain ⟨p1, p2, e1⟩ := (hrec A hA).2 hi
      rw [e1] at this
      have : 0 < (svd (chosen q A)).getLastD 0 / (svd (chosen q A)).headD 0 :=
        div_pos p1 (by linarith)
      linarith
    refine ⟨_, rows, hr, ⟨fun e => absurd e hfin, fun e => absurd e h0⟩, fun hne => ?_⟩
    obtain ⟨x, hx⟩ := hm3.resolve_left hne
    have hh := hm2 x hx
    refine ⟨x, w.map Num.recip, hx, ?_, hh, by rw [List.length_map, hw, List.length_map], ?_⟩
    · refine one_le_hmean hh (by simpa using hwne) ?_ ?_
      · intro y hy
        obtain ⟨e, he, rfl⟩ := List.mem_map.mp hy
        exact (hall e he).1
      · intro y hy
        obtain ⟨e, he, rfl⟩ := List.mem_map.mp hy
        exact (hall e he).2
    · intro k A hA
      obtain ⟨h1, h2⟩ := hrec A (List.mem_of_getElem? hA)
      rw [List.getElem?_map, hw, List.getElem?_map, hA]
      refine ⟨fun hn => by simp only [Option.map_some, h1 hn], fun hi => ?_⟩
      obtain ⟨p1, p2, e1⟩ := h2 hi
      exact ⟨by simp only [Option.map_some, e1], p1⟩

/-- **C83.** The order in which the QoIs are listed makes no difference. -/
theorem C83_order (hs : IsSvd svd) {l l' : List Nat} (h : Choice G c n (some l)) (hp : l.Perm l') :
    avgCondnum svd (some G) (some l') = avgCondnum svd (some G) (some l) := by
  have h' : Choice G c n (some l') := by
    refine ⟨h.centres, h.shape, ?_, ?_⟩
    · rintro _ ⟨⟩ i hi
      exact h.valid l rfl i (hp.mem_iff.mpr hi)
    · have := h.few
      simp only [count] at this ⊢
      rw [← hp.length_eq]
      exact this
  have e : ∀ q', (G.map (chosen q')).map svd = G.map fun A => svd (chosen q' A) := by
    intro q'
    rw [List.map_map]
    rfl
  simp only [avgCondnum, orErr_some, ok_bind, selectQois_ok h, selectQois_ok h',
    raiseIf_false (few_ok h), raiseIf_false (few_ok h'), e]
  have h2 : (G.map fun A => svd (chosen (some l') A)) = G.map fun A => svd (chosen (some l) A) :=
    List.map_congr_left fun A hA =>
      (svd_perm hs h.few (chosen_shape h A hA) (hp.map _)).symm
  rw [h2]

theorem svd_one (hs : IsSvd svd) {x : ℝ} (hx : 0 ≤ x) : svd [[x]] = [x] := by
  have hA : IsMat 1 1 [[x]] := by simp [IsMat]
  have hl := hs.length 1 1 [[x]] le_rfl hA
  obtain ⟨s, hs1⟩ := List.length_eq_one_iff.mp hl
  have hp := svd_prod hs le_rfl hA
  have : (gram 1 1 [[x]]).det = x ^ 2 := by
    simp [gram, matOf, Matrix.mul_apply, sq]
  rw [this, Real.sqrt_sq hx, hs1] at hp
  rw [hs1]
  simpa using hp

/-- **C83 (negation).** One input and one QoI whose derivative is 0 at the first of two centres and 1 at
the second. At the first the condition number is infinite, so the harmonic mean of the two is 2; the value
is 1. -/
theorem C83_negation_one (hs : IsSvd svd) :
    Choice [[[0]], [[1]]] 1 1 none ∧ ¬ Indep 1 1 none [[0]] ∧ Indep 1 1 none [[1]] ∧
    avgCondnum svd (some [[[0]], [[1]]]) none = .ok (.fin 1, [[.fin 1], [.fin 1]]) := by
  have hc : Choice [[[0]], [[1]]] 1 1 none :=
    ⟨by simp, by intro A hA; simp at hA; rcases hA with rfl | rfl <;> simp [IsMat], by simp, le_refl _⟩
  have hdet : ∀ x : ℝ, (gram 1 1 [[x]]).det = x ^ 2 := by
    intro x
    simp [gram, matOf, Matrix.mul_apply, sq]
  have h0 : ¬ Indep 1 1 none [[0]] := by
    have : ¬ LinearIndependent ℝ (rowVec 1 1 [[0]]) := by
      rw [li_iff, hdet]; norm_num
    exact this
  have h1 : Indep 1 1 none [[1]] := by
    have : LinearIndependent ℝ (rowVec 1 1 [[1]]) := by
      rw [li_iff, hdet]; norm_num
    exact this
  refine ⟨hc, h0, h1, ?_⟩
  rw [avgCondnum_eq hs hc (by simp [count]), if_neg fun h => h [[1]] (by simp) h1]
  simp only [List.map_cons, List.map_nil, chosen, svd_one hs le_rfl, svd_one hs zero_le_one]
  simp [condMean, condRow, condNum, hmean, Num.recip, Num.div, orErr]
  norm_num

/-- **C83 (negation).** The singular values returned are not those of the centres: where the gradients
are dependent, but not at every centre, the first is replaced by infinity and the last by 1. -/
theorem C83_negation_singular_values (hs : IsSvd svd) (h : Choice G c n q) (hq : 2 ≤ count c q)
    (hsome : ∃ A ∈ G, Indep c n q A) :
    ∃ m rows, avgCondnum svd (some G) q = .ok (m, rows) ∧
      ∀ (k : Nat) (A : List (List ℝ)), G[k]? = some A →
        (Indep c n q A → rows[k]? = some ((svd (chosen q A)).map Num.fin)) ∧
        (¬ Indep c n q A → ∃ row, rows[k]? = some row ∧ row.head? = some (.inf true) ∧
          row.getLast? = some (.fin 1)) := by
  have hq0 : count c q ≠ 0 := by omega
  have hsh := chosen_shape h
  obtain ⟨A0, hA0, hi0⟩ := hsome
  rw [avgCondnum_eq hs h hq0, if_neg fun e => e A0 hA0 hi0]
  obtain ⟨rows, hr, hf⟩ := condMean_eq (svs := G.map fun A => svd (chosen q A)) (by
    intro s hs'
    obtain ⟨A, hA, rfl⟩ := List.mem_map.mp hs'
    rw [hs.length _ _ _ h.few (hsh A hA)]
    exact Or.inl hq)
  refine ⟨_, rows, hr, ?_⟩
  intro k A hA
  have hk := (List.getElem?_eq_some_iff.mp hA).1
  have hk' : k < rows.length := by
    rw [← hf.length_eq, List.length_map]
    exact hk
  have hrow := (List.forall₂_iff_get.mp hf).2 k (by rw [List.length_map]; exact hk) hk'
  simp only [List.get_eq_getElem, List.getElem_map, (List.getElem?_eq_some_iff.mp hA).2] at hrow
  have hmem := List.mem_of_getElem? hA
  have hl := hs.length _ _ _ h.few (hsh A hmem)
  have hz := last_zero_iff hs h.few hq0 (hsh A hmem)
  rw [List.getElem?_eq_getElem hk']
  refine ⟨fun hi => ?_, fun hi => ⟨_, rfl, ?_⟩⟩
  · obtain ⟨row, e1, -, e3⟩ := condRow_num (s := svd (chosen q A)) (Or.inl (by omega))
    rw [e1] at hrow
    rw [← Except.ok.inj hrow, e3 fun e => hz.mp e hi]
  · have h0 := hz.mpr hi
    have h2 : 2 ≤ (svd (chosen q A)).length := by omega
    simp only [condRow, h0, orErr_some, ok_bind, if_true] at hrow
    have hrow := Except.ok.inj hrow
    rw [← hrow]
    generalize svd (chosen q A) = s at h2
    rcases s with _ | ⟨a, _ | ⟨b, s⟩⟩
    · simp at h2
    · simp at h2
    · constructor
      · simp
      · rw [List.getLast?_eq_getElem?]
        simp

/-! ### Errors -/

/-- **C82.** Without Jacobians, or with more QoIs than inputs, there is an error. -/
theorem C82_errors (svd : List (List ℝ) → List ℝ) (nm : List ℝ → ℝ) :
    (∀ q, avgSkewness svd nm none q = .error .valueError) ∧
    (∀ (G : List (List (List ℝ))) (c n : Nat) (q : Option (List Nat)), G ≠ [] →
      (∀ A ∈ G, IsMat c n A) → (∀ l, q = some l → ∀ i ∈ l, i < c) → n < count c q →
      avgSkewness svd nm (some G) q = .error .valueError) := by
  refine ⟨fun q => rfl, ?_⟩
  intro G c n q hG hsh hv hlt
  obtain ⟨hsel, hany⟩ := tooMany hG hsh hv hlt
  simp only [avgSkewness, orErr_some, ok_bind, hsel, raiseIf, hany, if_true]
  rfl

/-- **C83.** Without Jacobians, or with more QoIs than inputs, there is an error. -/
theorem C83_errors (svd : List (List ℝ) → List ℝ) :
    (∀ q, avgCondnum svd none q = .error .valueError) ∧
    (∀ (G : List (List (List ℝ))) (c n : Nat) (q : Option (List Nat)), G ≠ [] →
      (∀ A ∈ G, IsMat c n A) → (∀ l, q = some l → ∀ i ∈ l, i < c) → n < count c q →
      avgCondnum svd (some G) q = .error .valueError) := by
  refine ⟨fun q => rfl, ?_⟩
  intro G c n q hG hsh hv hlt
  obtain ⟨hsel, hany⟩ := tooMany hG hsh hv hlt
  simp only [avgCondnum, orErr_some, ok_bind, hsel, raiseIf, hany, if_true]
  rfl

/-! ### The hypotheses are met -/

namespace Ex

example : ∃ m skew, avgSkewness svdOf len (some jacs) (some [0, 2]) = .ok (m, skew) ∧
    m ≠ .inf true := by
  obtain ⟨m, skew, h, h1, -⟩ := C82_mean isSvd_svdOf jacs_choice (by simp [count])
  refine ⟨m, skew, h, fun e => ?_⟩
  exact h1.mp e [[1, 0], [1, 1], [1, 2]] (by simp [jacs]) (jacs_indep _ (by simp [jacs]))

example : ∃ m rows, avgCondnum svdOf (some jacs) (some [0, 2]) = .ok (m, rows) ∧
    m ≠ .inf true := by
  obtain ⟨m, rows, h, h1, -⟩ := C83_mean_partial isSvd_svdOf jacs_choice (Or.inl (by simp [count]))
  refine ⟨m, rows, h, fun e => ?_⟩
  exact h1.mp e [[1, 0], [1, 1], [1, 2]] (by simp [jacs]) (jacs_indep _ (by simp [jacs]))

/-- Dependent gradients at the first of two centres. -/
noncomputable def jacs1 : List (List (List ℝ)) := [[[1, 0], [2, 0]], [[2, 0], [0, 1]]]

theorem jacs1_choice : Choice jacs1 2 2 none :=
  ⟨by simp [jacs1], by
    intro A hA
    simp only [jacs1, List.mem_cons, List.not_mem_nil, or_false] at hA
    rcases hA with rfl | rfl <;> simp [IsMat], by simp, by simp [count]⟩

theorem jacs1_dep : ¬ Indep 2 2 none [[1, 0], [2, 0]] := by
  have : ¬ LinearIndependent ℝ (rowVec 2 2 [[1, 0], [2, 0]]) := by
    rw [li_iff, det2]
    norm_num
  exact this

theorem jacs1_indep : Indep 2 2 none [[2, 0], [0, 1]] := by
  have : LinearIndependent ℝ (rowVec 2 2 [[2, 0], [0, 1]]) := by
    rw [li_iff, det2]
    norm_num
  exact this

example : ∃ m rows row, avgCondnum svdOf (some jacs1) none = .ok (m, rows) ∧
    rows[0]? = some row ∧ row.head? = some (.inf true) := by
  obtain ⟨m, rows, h, h1⟩ := C83_negation_singular_values isSvd_svdOf jacs1_choice (by simp [count])
    ⟨_, by simp [jacs1], jacs1_indep⟩
  obtain ⟨row, h2, h3, -⟩ := (h1 0 [[1, 0], [2, 0]] rfl).2 jacs1_dep
  exact ⟨m, rows, row, h, h2, h3⟩

end Ex

end BET
