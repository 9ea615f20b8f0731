import Verif.Props.Skewness
import Verif.Props.Gradients

/-!
# C164: the measures of a set of QoIs in other units
-/

set_option autoImplicit false
set_option linter.unusedSectionVars false
set_option linter.unusedSimpArgs false

namespace BET

open Spec Matrix

namespace Spec

/-- The Jacobian `B` is the Jacobian `A` in other units: QoI `i` is multiplied by `a i`, which is not
zero, and the inputs are given in the orthonormal coordinates `Q`. -/
structure Rescaled (c n : Nat) (a : Nat → ℝ) (Q : Matrix (Fin n) (Fin n) ℝ) (A B : List (List ℝ)) :
    Prop where
  factor : ∀ i, i < c → a i ≠ 0
  orthonormal : Q * Qᵀ = 1
  old : IsMat c n A
  new : IsMat c n B
  rows : ∀ i : Fin c, rowVec c n B i = a i • (rowVec c n A i ᵥ* Q)

/-- Every gradient of `H` is the gradient of `G` for the same centre and QoI times a positive number. -/
def SameDirections (G H : List (List (List ℝ))) : Prop :=
  List.Forall₂ (List.Forall₂ fun v w => ∃ r : ℝ, 0 < r ∧ w = v.map fun x => r * x) G H

/-- The product of the sizes of the factors of the chosen QoIs. -/
def allFactors (c : Nat) (q : Option (List Nat)) (a : Nat → ℝ) : ℝ :=
  ((q.getD (List.range c)).map fun i => |a i|).prod

end Spec

/-! ### One centre -/

variable {svd : List (List ℝ) → List ℝ} {G H : List (List (List ℝ))} {c n : Nat}
  {q : Option (List Nat)}

/-- The number of the `k`-th chosen QoI. -/
def qoiNumber (q : Option (List Nat)) (k : Nat) : Nat :=
  match q with
  | none => k
  | some l => l.getD k 0

theorem Rescaled.chosen {a : Nat → ℝ} {Q : Matrix (Fin n) (Fin n) ℝ} {A B : List (List ℝ)}
    (h : Rescaled c n a Q A B) (hv : ∀ l, q = some l → ∀ i ∈ l, i < c) :
    Rescaled (count c q) n (fun k => a (qoiNumber q k)) Q (chosen q A) (chosen q B) := by
  rcases q with _ | l
  · exact h
  · have hlt : ∀ k : Nat, k < l.length → l.getD k 0 < c := by
      intro k hk
      have : l.getD k 0 = l[k] := by simp [List.getD, List.getElem?_eq_getElem hk]
      rw [this]
      exact hv l rfl _ (List.getElem_mem hk)
    have hrow : ∀ (A : List (List ℝ)) (k : Fin l.length),
        rowVec l.length n (Spec.chosen (some l) A) k = rowVec c n A ⟨l.getD k 0, hlt k k.2⟩ := by
      intro A k
      funext j
      simp [rowVec, matOf, Spec.chosen, List.getD, List.getElem?_eq_getElem k.2]
    have hmat : ∀ A : List (List ℝ), IsMat c n A → IsMat l.length n (Spec.chosen (some l) A) := by
      intro A hA
      refine ⟨by simp [Spec.chosen], ?_⟩
      intro r hr
      obtain ⟨i, hi, rfl⟩ := List.mem_map.mp hr
      have hlt := hv l rfl i hi
      rw [← hA.1] at hlt
      apply hA.2
      rw [List.getD_eq_getElem?_getD, List.getElem?_eq_getElem hlt]
      exact List.getElem_mem hlt
    refine ⟨fun k hk => h.factor _ (hlt k hk), h.orthonormal, hmat A h.old, hmat B h.new, ?_⟩
    intro k
    have e1 := hrow B k
    have e2 := hrow A k
    show rowVec l.length n _ k = _ • (rowVec l.length n _ k ᵥ* Q)
    rw [e1, e2]
    exact h.rows ⟨l.getD k 0, hlt k k.2⟩

theorem Rescaled.gram_apply {m : Nat} {a : Nat → ℝ} {Q : Matrix (Fin n) (Fin n) ℝ}
    {A B : List (List ℝ)} (h : Rescaled m n a Q A B) (i j : Fin m) :
    gram m n B i j = a i * gram m n A i j * a j := by
  have e : ∀ (A : List (List ℝ)), gram m n A i j = rowVec m n A i ⬝ᵥ rowVec m n A j := fun A => rfl
  rw [e, e, h.rows i, h.rows j, smul_dotProduct, dotProduct_smul, ← dotProduct_mulVec,
    ← mulVec_transpose Q, mulVec_mulVec, h.orthonormal, one_mulVec]
  simp only [smul_eq_mul]
  ring

theorem Rescaled.det {m : Nat} {a : Nat → ℝ} {Q : Matrix (Fin n) (Fin n) ℝ}
    {A B : List (List ℝ)} (h : Rescaled m n a Q A B) :
    Real.sqrt (gram m n B).det = (∏ i : Fin m, |a i|) * Real.sqrt (gram m n A).det := by
  have e : gram m n B =
      Matrix.diagonal (fun i : Fin m => a i) * gram m n A * Matrix.diagonal (fun i : Fin m => a i) := by
    ext i j
    rw [Rescaled.gram_apply h, mul_diagonal, diagonal_mul]
  rw [e, det_mul, det_mul, det_diagonal]
  have e2 : ∀ x y : ℝ, x * y * x = x ^ 2 * y := fun x y => by ring
  rw [e2, Real.sqrt_mul (sq_nonneg _), Real.sqrt_sq_eq_abs, Finset.abs_prod]

theorem Rescaled.erase {m : Nat} {a : Nat → ℝ} {Q : Matrix (Fin n) (Fin n) ℝ}
    {A B : List (List ℝ)} (h : Rescaled (m + 1) n a Q A B) (i : Fin (m + 1)) :
    Rescaled m n (fun k => a (if h : k < m then (i.succAbove ⟨k, h⟩ : Nat) else 0)) Q (A.eraseIdx i)
      (B.eraseIdx i) := by
  have key : ∀ (A : List (List ℝ)) (j : Fin m),
      (A.eraseIdx i).getD j [] = A.getD (i.succAbove j) [] := by
    intro A j
    simp only [List.getD_eq_getElem?_getD, List.getElem?_eraseIdx, Fin.succAbove, Fin.lt_def,
      Fin.val_castSucc]
    by_cases h : (j : Nat) < i <;> simp [h]
  have hrow : ∀ (A : List (List ℝ)) (j : Fin m),
      rowVec m n (A.eraseIdx i) j = rowVec (m + 1) n A (i.succAbove j) := by
    intro A j
    funext k
    simp only [rowVec, matOf, key]
  refine ⟨?_, h.orthonormal, hasShape_erase h.old i, hasShape_erase h.new i, ?_⟩
  · intro k hk
    simp only [hk, dif_pos]
    exact h.factor _ (i.succAbove ⟨k, hk⟩).2
  · intro j
    rw [hrow, hrow, h.rows]
    simp only [j.2, dif_pos]

theorem len_nonneg' (v : List ℝ) : 0 ≤ len v := Real.sqrt_nonneg _

theorem Rescaled.len {m : Nat} {a : Nat → ℝ} {Q : Matrix (Fin n) (Fin n) ℝ}
    {A B : List (List ℝ)} (h : Rescaled m n a Q A B) (i : Fin m) :
    len (B.getD i []) = |a i| * len (A.getD i []) := by
  have e := Rescaled.gram_apply h i i
  rw [gram_diag h.new, gram_diag h.old] at e
  have e2 : Spec.len (B.getD i []) ^ 2 = (|a i| * Spec.len (A.getD i [])) ^ 2 := by
    rw [e, mul_pow, sq_abs]
    ring
  exact (pow_left_inj₀ (len_nonneg' _) (mul_nonneg (abs_nonneg _) (len_nonneg' _)) two_ne_zero).mp e2

theorem skewEntry_scale {r p : ℝ} (hr : 0 < r) (hp : 0 < p) (v x y : ℝ) :
    skewEntry (r * v) (Num.div (r * p * x) (p * y)) = skewEntry v (Num.div x y) := by
  by_cases hy : y = 0
  · by_cases hx : x = 0
    · simp [Num.div, hy, hx, skewEntry]
    · have : r * p * x ≠ 0 := by positivity
      simp [Num.div, hy, hx, this, hr.ne', hp.ne', skewEntry]
  · have h1 : p * y ≠ 0 := by positivity
    have h2 : r * p * x / (p * y) = r * (x / y) := by field_simp
    simp only [Num.div, if_neg hy, if_neg h1, skewEntry, h2]
    by_cases h3 : x / y = 0
    · simp [h3]
    · rw [if_neg h3, if_neg (mul_ne_zero hr.ne' h3), mul_div_mul_left _ _ hr.ne']

theorem Rescaled.skewRow (hs : IsSvd svd) {m : Nat} (hmn : m ≤ n) {a : Nat → ℝ}
    {Q : Matrix (Fin n) (Fin n) ℝ} {A B : List (List ℝ)} (h : Rescaled m n a Q A B) :
    skewRow svd Spec.len B = skewRow svd Spec.len A := by
  unfold BET.skewRow
  rw [h.old.1, h.new.1]
  refine List.map_congr_left fun i hi => ?_
  have hi := List.mem_range.mp hi
  rcases m with _ | m
  · omega
  have h1 := Rescaled.len h ⟨i, hi⟩
  have h2 := Rescaled.erase h ⟨i, hi⟩
  have hp : ∀ k : Fin (m + 1), 0 < |a k| := fun k => abs_pos.mpr (h.factor _ k.2)
  have h3 := Rescaled.det h2
  simp only [Fin.is_lt, dif_pos, Fin.eta] at h1 h2 h3
  rw [h1, withoutRow, withoutRow, svd_prod hs hmn h.new, svd_prod hs hmn h.old,
    svd_prod hs (by omega) h2.new, svd_prod hs (by omega) h2.old, Rescaled.det h, h3,
    Fin.prod_univ_succAbove _ ⟨i, hi⟩]
  exact skewEntry_scale (hp ⟨i, hi⟩) (Finset.prod_pos fun k _ => hp _) _ _ _

theorem prod_factors (a : Nat → ℝ) :
    ∏ k : Fin (count c q), |a (qoiNumber q k)| = allFactors c q a := by
  rw [← List.prod_ofFn, allFactors]
  congr 1
  rcases q with _ | l
  · refine List.ext_getElem (by simp [count]) fun k h1 h2 => ?_
    simp [qoiNumber]
  · refine List.ext_getElem (by simp [count]) fun k h1 h2 => ?_
    have hk : k < l.length := by simpa using h2
    simp [qoiNumber, List.getD, List.getElem?_eq_getElem hk]

theorem Rescaled.spanned {a : Nat → ℝ} {Q : Matrix (Fin n) (Fin n) ℝ} {A B : List (List ℝ)}
    (h : Rescaled c n a Q A B) (hv : ∀ l, q = some l → ∀ i ∈ l, i < c) :
    spanned c n q B = allFactors c q a * spanned c n q A := by
  rw [Spec.spanned, Rescaled.det (Rescaled.chosen h hv), prod_factors, Spec.spanned]

theorem Choice.rescaled (h : Choice G c n q) (hl : H.length = G.length) (hm : ∀ B ∈ H, IsMat c n B) :
    Choice H c n q := by
  refine ⟨fun e => h.centres ?_, hm, h.valid, h.few⟩
  rw [← List.length_eq_zero_iff, ← hl, e]
  rfl

theorem forall2_new {R : List (List ℝ) → List (List ℝ) → Prop} (h : List.Forall₂ R G H)
    (hR : ∀ A B, R A B → IsMat c n B) : ∀ B ∈ H, IsMat c n B := by
  induction h with
  | nil => simp
  | cons h1 _ ih => exact List.forall_mem_cons.mpr ⟨hR _ _ h1, ih⟩

theorem forall2_map {α : Type} {R : List (List ℝ) → List (List ℝ) → Prop} (h : List.Forall₂ R G H)
    {f g : List (List ℝ) → α} (hR : ∀ A B, R A B → g B = f A) : H.map g = G.map f := by
  induction h with
  | nil => rfl
  | cons h1 _ ih => rw [List.map_cons, List.map_cons, hR _ _ h1, ih]

/-! ### Skewness -/

/-- **C164.** The skewness of a set of QoIs, its value and its entries at every centre, does not change
when every gradient is multiplied by a number that is not zero, a number of its own for every QoI and
every centre, and when the inputs are given in other orthonormal coordinates. -/
theorem C164_skewness (hs : IsSvd svd) (h : Choice G c n q)
    (hr : List.Forall₂ (fun A B => ∃ a Q, Rescaled c n a Q A B) G H) :
    avgSkewness svd Spec.len (some H) q = avgSkewness svd Spec.len (some G) q := by
  have hH : Choice H c n q := Choice.rescaled h hr.length_eq.symm
    (forall2_new hr fun A B ⟨a, Q, hR⟩ => hR.new)
  have e : (H.map (chosen q)).map (skewRow svd Spec.len) =
      (G.map (chosen q)).map (skewRow svd Spec.len) := by
    rw [List.map_map, List.map_map]
    exact forall2_map hr fun A B ⟨a, Q, hR⟩ => Rescaled.skewRow hs h.few (Rescaled.chosen hR h.valid)
  simp only [avgSkewness, orErr_some, ok_bind, selectQois_ok h, selectQois_ok hH,
    raiseIf_false (few_ok h), raiseIf_false (few_ok hH), e]

theorem SameDirections.rescaled (hu : SameDirections G H) (hsh : ∀ A ∈ G, IsMat c n A) :
    List.Forall₂ (fun A B => ∃ a Q, Rescaled c n a Q A B) G H := by
  induction hu with
  | nil => exact .nil
  | @cons A B G H h1 h2 ih =>
    refine .cons ?_ (ih fun A hA => hsh A (List.mem_cons_of_mem _ hA))
    have hA := hsh A List.mem_cons_self
    have hlen := h1.length_eq
    have hrow : ∀ i : Nat, i < c → ∃ r : ℝ, r ≠ 0 ∧ B.getD i [] = (A.getD i []).map (r * ·) := by
      intro i hi
      have hiA : i < A.length := by rw [hA.1]; exact hi
      have hiB : i < B.length := by omega
      obtain ⟨r, hr, e⟩ := (List.forall₂_iff_get.mp h1).2 i hiA hiB
      simp only [List.get_eq_getElem] at e
      refine ⟨r, hr.ne', ?_⟩
      have e1 : A.getD i [] = A[i] := by simp [List.getD, List.getElem?_eq_getElem hiA]
      have e2 : B.getD i [] = B[i] := by simp [List.getD, List.getElem?_eq_getElem hiB]
      rw [e1, e2, e]
    choose! a ha hrow using hrow
    refine ⟨a, 1, ha, by simp, hA, ⟨by rw [← hlen]; exact hA.1, ?_⟩, ?_⟩
    · intro v hv
      obtain ⟨i, hi, rfl⟩ := List.mem_iff_getElem.mp hv
      have hiA : i < A.length := by omega
      have e2 : B.getD i [] = B[i] := by simp [List.getD, List.getElem?_eq_getElem hi]
      have e1 : A.getD i [] = A[i] := by simp [List.getD, List.getElem?_eq_getElem hiA]
      rw [← e2, hrow i (by rw [← hA.1]; exact hiA), List.length_map, e1]
      exact hA.2 _ (List.getElem_mem hiA)
    · intro i
      funext j
      simp only [rowVec, matOf, hrow i i.2, vecMul_one, Pi.smul_apply, smul_eq_mul]
      simp [List.getD]
      cases h : ((A[(i : Nat)]?).getD [])[(j : Nat)]? <;> simp

theorem UnitTable.sameDirections (hu : UnitTable G H) : SameDirections G H := by
  refine hu.imp fun A B h => h.imp fun v w hv => ?_
  obtain ⟨r, hr, e⟩ := hv.direction
  refine ⟨r⁻¹, inv_pos.mpr hr, ?_⟩
  rw [← e, List.map_map]
  conv_lhs => rw [← List.map_id w]
  refine List.map_congr_left fun x _ => ?_
  simp [hr.ne']

/-- **C164.** So it makes no difference for the skewness whether the gradients were normalised. -/
theorem C164_normalize (hs : IsSvd svd) (h : Choice G c n q) (hu : UnitTable G H) :
    avgSkewness svd Spec.len (some H) q = avgSkewness svd Spec.len (some G) q :=
  C164_skewness hs h (SameDirections.rescaled (UnitTable.sameDirections hu) h.shape)

/-- The Jacobians that a call of `calculate_gradients_*` returned. -/
def Spec.jacobiansOf (r : Except Err (Disc ℝ)) : Option (List (List (List ℝ))) :=
  (r.toOption.bind fun d => d.input).bind fun s => s.glob.jacobians

theorem skewness_of_unit (hs : IsSvd svd) {raw unit : Except Err (Disc ℝ)}
    (hu : UnitResult raw unit) (hG : jacobiansOf raw = some G) (h : Choice G c n q) :
    avgSkewness svd Spec.len (jacobiansOf unit) q = avgSkewness svd Spec.len (some G) q := by
  rcases hu with ⟨e, rfl, rfl⟩ | ⟨dimI, dimO, Di, Do, cs, J0, J, ys, rfl, rfl, ht⟩
  · cases hG
  · have e0 : jacobiansOf (.ok (centersDisc dimI dimO Di Do cs J0 ys)) = some J0 := rfl
    have e1 : jacobiansOf (.ok (centersDisc dimI dimO Di Do cs J ys)) = some J := rfl
    rw [e0] at hG
    cases hG
    rw [e1]
    exact C164_normalize hs h ht

/-- **C164.** For the Jacobians of forward and of central differences, with `normalize=True` the
skewness is what it is with `normalize=False`. -/
theorem C164_gradients (hs : IsSvd svd) (size : Nat) (d : Disc ℝ) :
    (∀ G c n q, jacobiansOf (gradientsFfd size d false) = some G → Choice G c n q →
      avgSkewness svd Spec.len (jacobiansOf (gradientsFfd size d true)) q =
        avgSkewness svd Spec.len (some G) q) ∧
    (∀ G c n q, jacobiansOf (gradientsCfd size d false) = some G → Choice G c n q →
      avgSkewness svd Spec.len (jacobiansOf (gradientsCfd size d true)) q =
        avgSkewness svd Spec.len (some G) q) :=
  ⟨fun _ _ _ _ hG h => skewness_of_unit hs (C52_ffd size d) hG h,
    fun _ _ _ _ hG h => skewness_of_unit hs (C52_cfd size d) hG h⟩

/-! ### The chosen QoIs -/

theorem selectQois_bad {l : List Nat} (hG : G ≠ []) (hsh : ∀ A ∈ G, IsMat c n A)
    (hl : ¬ ∀ i ∈ l, i < c) : selectQois G (some l) = .error .indexError := by
  obtain ⟨A, G', rfl⟩ := List.exists_cons_of_ne_nil hG
  have hA := (hsh A List.mem_cons_self).1
  have key : l.mapM (getIdx A) = .error .indexError := by
    clear hG hsh
    induction l with
    | nil => simp at hl
    | cons i l ih =>
      rw [List.mapM_cons]
      by_cases hi : i < c
      · have hl' : ¬ ∀ i ∈ l, i < c := fun h => hl (List.forall_mem_cons.mpr ⟨hi, h⟩)
        have : getIdx A i = .ok (A.getD i []) := by
          rw [getIdx_eq_ok, List.getD_eq_getElem?_getD, List.getElem?_eq_getElem (by omega)]
          rfl
        rw [this, ok_bind, ih hl']
        rfl
      · have : getIdx A i = .error .indexError := by
          simp [getIdx, List.getElem?_eq_none (show A.length ≤ i by omega)]
        rw [this]
        rfl
  show (A :: G').mapM (fun m => l.mapM (getIdx m)) = _
  rw [List.mapM_cons, key]
  rfl

/-- The skewness of any list of QoIs, whether it is defined or not. -/
theorem skewness_same (hs : IsSvd svd) (hsh : ∀ A ∈ G, IsMat c n A)
    (hr : List.Forall₂ (fun A B => ∃ a Q, Rescaled c n a Q A B) G H) (q : Option (List Nat)) :
    avgSkewness svd Spec.len (some H) q = avgSkewness svd Spec.len (some G) q := by
  have hshH : ∀ B ∈ H, IsMat c n B := forall2_new hr fun A B ⟨a, Q, hR⟩ => hR.new
  by_cases hG : G = []
  · subst hG
    cases hr
    rfl
  have hH : H ≠ [] := by
    intro e
    subst e
    cases hr
    exact hG rfl
  by_cases hv : ∀ l, q = some l → ∀ i ∈ l, i < c
  · by_cases hc : count c q ≤ n
    · exact C164_skewness hs ⟨hG, hsh, hv, hc⟩ hr
    · rw [(C82_errors svd Spec.len).2 G c n q hG hsh hv (by omega),
        (C82_errors svd Spec.len).2 H c n q hH hshH hv (by omega)]
  · rcases q with _ | l
    · exact absurd (by simp) hv
    · have hl : ¬ ∀ i ∈ l, i < c := fun h => hv fun l' e => by cases e; exact h
      simp only [avgSkewness, orErr_some, ok_bind, selectQois_bad hG hsh hl,
        selectQois_bad hH hshH hl]

theorem len_scaled {r : ℝ} (hr : 0 < r) (v : List ℝ) :
    Spec.len (v.map fun x => r * x) = r * Spec.len v := by
  have e : ((v.map fun x => r * x).map fun x => x ^ 2).sum = r ^ 2 * (v.map fun x => x ^ 2).sum := by
    rw [List.map_map, ← List.sum_map_mul_left]
    congr 1
    refine List.map_congr_left fun x _ => ?_
    simp [mul_pow]
  rw [Spec.len, e, Real.sqrt_mul (sq_nonneg r), Real.sqrt_sq hr.le, Spec.len]

theorem len_zero {v : List ℝ} (h : Spec.len v = 0) : ∀ x ∈ v, x = 0 := by
  have h0 : (v.map fun x => x ^ 2).sum = 0 := by
    refine le_antisymm (Real.sqrt_eq_zero'.mp h) (List.sum_nonneg ?_)
    intro y hy
    obtain ⟨x, -, rfl⟩ := List.mem_map.mp hy
    positivity
  clear h
  induction v with
  | nil => simp
  | cons a v ih =>
    have h1 : 0 ≤ (v.map fun x => x ^ 2).sum := List.sum_nonneg (by
      intro y hy
      obtain ⟨x, -, rfl⟩ := List.mem_map.mp hy
      positivity)
    rw [List.map_cons, List.sum_cons] at h0
    have h2 := sq_nonneg a
    refine List.forall_mem_cons.mpr ⟨by nlinarith, ih (by linarith)⟩

theorem unit_same {r : ℝ} (hr : 0 < r) (v : List ℝ) :
    ((v.map fun x => r * x).map fun x => x /
      (if Spec.len (v.map fun x => r * x) = 0 then 1 else Spec.len (v.map fun x => r * x))) =
    v.map fun x => x / (if Spec.len v = 0 then 1 else Spec.len v) := by
  rw [List.map_map, len_scaled hr]
  refine List.map_congr_left fun x hx => ?_
  by_cases h0 : Spec.len v = 0
  · simp [h0, len_zero h0 x hx]
  · rw [Function.comp, if_neg h0, if_neg (mul_ne_zero hr.ne' h0), mul_div_mul_left _ _ hr.ne']

theorem SameDirections.units (h : SameDirections G H) :
    unitGradients Spec.len H = unitGradients Spec.len G := by
  unfold unitGradients
  induction h with
  | nil => rfl
  | cons h1 _ ih =>
    rw [List.map_cons, List.map_cons, ih]
    congr 1
    clear ih
    induction h1 with
    | nil => rfl
    | cons h2 _ ih =>
      obtain ⟨r, hr, rfl⟩ := h2
      rw [List.map_cons, List.map_cons, ih, unit_same hr]

theorem SameDirections.zeros (h : SameDirections G H) :
    zeroQois Spec.len H = zeroQois Spec.len G := by
  have hh : (H.headD []).length = (G.headD []).length := by
    cases h with
    | nil => rfl
    | cons h1 _ => exact h1.length_eq.symm
  unfold zeroQois
  rw [hh]
  refine List.filter_congr fun i hi => ?_
  clear hh hi
  induction h with
  | nil => rfl
  | @cons A B _ _ h1 _ ih =>
    rw [List.any_cons, List.any_cons, ih]
    congr 1
    rw [decide_eq_decide]
    clear ih
    induction h1 generalizing i with
    | nil => rfl
    | cons h2 _ ih =>
      obtain ⟨r, hr, rfl⟩ := h2
      cases i with
      | zero =>
        simp only [List.map_cons, List.getD_cons_zero, len_scaled hr, mul_eq_zero, hr.ne', false_or]
      | succ i =>
        simp only [List.map_cons, List.getD_cons_succ]
        exact ih i

/-- **C164.** Which QoIs `find_unique_vecs` keeps does not change when every gradient is multiplied by a
positive number of its own. -/
theorem C164_unique (enum : List Nat → List Nat) (h : SameDirections G H) (tol : ℝ)
    (qois : Option (List Nat)) (rz : Bool) :
    uniqueVecs enum Spec.len (some H) tol qois rz = uniqueVecs enum Spec.len (some G) tol qois rz := by
  have hh : (H.headD []).length = (G.headD []).length := by
    cases h with
    | nil => rfl
    | cons h1 _ => exact h1.length_eq.symm
  simp only [uniqueVecs, orErr_some, ok_bind, SameDirections.units h, SameDirections.zeros h, hh]

/-- **C164.** The sets of QoIs that are chosen by their skewness (`measure=False`), their values and their
order are the same when every gradient is multiplied by a positive number of its own: the choice does not
depend on the units of the QoIs, or on whether gradients were normalised. `store` is how the value and the
skewnesses are stored. -/
theorem C164_choice {S : Type} [LinearOrder S] [OrderTop S] (hs : IsSvd svd)
    (hsh : ∀ A ∈ G, IsMat c n A) (h : SameDirections G H) (argsort : List S → List Nat)
    (enum : List Nat → List Nat) (store : Num ℝ × List (List (Num ℝ)) → S × List (List ℝ))
    (size dim : Nat) (qois : Option (List Nat)) (k num : Option Nat) (rz : Bool) :
    (∀ tol : ℝ,
      chooseOptVerbose argsort enum Spec.len
        (fun l => (avgSkewness svd Spec.len (some H) (some l)).map store) size dim (some H) qois k num
        tol rz =
      chooseOptVerbose argsort enum Spec.len
        (fun l => (avgSkewness svd Spec.len (some G) (some l)).map store) size dim (some G) qois k num
        tol rz) ∧
    (∀ (inner : Option ℝ) (tol : Option S),
      chooseOptLarge argsort enum Spec.len
        (fun l => (avgSkewness svd Spec.len (some H) (some l)).map store) size dim (some H) qois k num
        inner tol rz =
      chooseOptLarge argsort enum Spec.len
        (fun l => (avgSkewness svd Spec.len (some G) (some l)).map store) size dim (some G) qois k num
        inner tol rz) := by
  have e : (fun l => (avgSkewness svd Spec.len (some H) (some l)).map store) =
      fun l => (avgSkewness svd Spec.len (some G) (some l)).map store := by
    funext l
    rw [skewness_same hs hsh (SameDirections.rescaled h hsh)]
  have hl : H.length = G.length := h.length_eq.symm
  constructor
  · intro tol
    simp only [chooseOptVerbose, orErr_some, ok_bind, C164_unique enum h, e, hl]
  · intro inner tol
    simp only [chooseOptLarge, orErr_some, ok_bind, C164_unique enum h, e, hl]

/-! ### Measure -/

theorem allFactors_pos {a : Nat → ℝ} (ha : ∀ i, i < c → a i ≠ 0)
    (hv : ∀ l, q = some l → ∀ i ∈ l, i < c) : 0 < allFactors c q a := by
  refine List.prod_pos ?_
  intro x hx
  obtain ⟨i, hi, rfl⟩ := List.mem_map.mp hx
  refine abs_pos.mpr (ha i ?_)
  rcases q with _ | l
  · simpa using hi
  · exact hv l rfl i hi

/-- **C164.** When every QoI is multiplied by a number of its own, the same at all centres, the measure
is divided by the product of the sizes of the numbers of the chosen QoIs. It stays infinite if it was. Other
orthonormal coordinates of the inputs do not change it. -/
theorem C164_measure (hs : IsSvd svd) (h : Choice G c n q) {a : Nat → ℝ}
    (hr : List.Forall₂ (fun A B => ∃ Q, Rescaled c n a Q A B) G H) (bin : Option ℝ) :
    ∃ v w sv sw, avgMeasure svd (some G) q bin = .ok (v, sv) ∧
      avgMeasure svd (some H) q bin = .ok (w, sw) ∧
      ((v = ⊤ ∧ w = ⊤) ∨ ∃ x : ℝ, v = (x : WithTop ℝ) ∧
        w = ((x / allFactors c q a : ℝ) : WithTop ℝ)) := by
  have hH : Choice H c n q := Choice.rescaled h hr.length_eq.symm
    (forall2_new hr fun A B ⟨Q, hR⟩ => hR.new)
  have hpos : 0 < allFactors c q a := by
    obtain ⟨A, G', rfl⟩ := List.exists_cons_of_ne_nil h.centres
    cases hr with
    | cons h1 _ =>
      obtain ⟨Q, hR⟩ := h1
      exact allFactors_pos hR.factor h.valid
  have e : (H.map (spanned c n q)).sum = allFactors c q a * (G.map (spanned c n q)).sum := by
    rw [← List.sum_map_mul_left]
    congr 1
    exact forall2_map hr fun A B ⟨Q, hR⟩ => Rescaled.spanned hR h.valid
  refine ⟨_, _, _, _, avgMeasure_eq hs h bin, avgMeasure_eq hs hH bin, ?_⟩
  rw [e, ← hr.length_eq, mul_div_assoc]
  by_cases h0 : (G.map (spanned c n q)).sum / (G.length : ℝ) = 0
  · left
    rw [if_pos h0, if_pos (by rw [h0, mul_zero])]
    exact ⟨rfl, rfl⟩
  · right
    refine ⟨bin.getD 1 / ((G.map (spanned c n q)).sum / (G.length : ℝ)), by rw [if_neg h0], ?_⟩
    rw [if_neg (mul_ne_zero hpos.ne' h0), mul_comm (allFactors c q a), div_div]

/-! ### Condition number -/

open Polynomial in
theorem svd_scaled (hs : IsSvd svd) {m : Nat} (hmn : m ≤ n) {a : Nat → ℝ} {r : ℝ} (hr : r ≠ 0)
    (ha : ∀ i, i < m → a i = r)
    {Q : Matrix (Fin n) (Fin n) ℝ} {A B : List (List ℝ)} (h : Rescaled m n a Q A B) :
    svd B = (svd A).map fun s => |r| * s := by
  have hp : 0 < |r| := abs_pos.mpr hr
  refine svd_unique (hs.nonneg m n B hmn h.new) ?_ (hs.sorted m n B hmn h.new) ?_ ?_
  · intro x hx
    obtain ⟨y, hy, rfl⟩ := List.mem_map.mp hx
    exact mul_nonneg hp.le (hs.nonneg m n A hmn h.old y hy)
  · rw [List.pairwise_map]
    exact (hs.sorted m n A hmn h.old).imp fun hst => mul_le_mul_of_nonneg_left hst hp.le
  · rw [hs.eigen m n B hmn h.new]
    apply Polynomial.funext
    intro x
    have hg : gram m n B = (r ^ 2) • gram m n A := by
      ext i j
      rw [Rescaled.gram_apply h, ha _ i.2, ha _ j.2, Matrix.smul_apply, smul_eq_mul]
      ring
    have hr2 : r ^ 2 ≠ 0 := pow_ne_zero 2 hr
    have e1 : Matrix.scalar (Fin m) x - gram m n B =
        (r ^ 2) • (Matrix.scalar (Fin m) (x / r ^ 2) - gram m n A) := by
      rw [hg, smul_sub]
      congr 1
      ext i j
      simp only [Matrix.scalar_apply, Matrix.smul_apply, Matrix.diagonal_apply, smul_eq_mul]
      by_cases hij : i = j
      · simp only [hij, if_true]
        field_simp
      · simp [hij]
    rw [Matrix.eval_charpoly, e1, Matrix.det_smul, ← Matrix.eval_charpoly,
      ← hs.eigen m n A hmn h.old, Fintype.card_fin, List.map_map]
    have hl := hs.length m n A hmn h.old
    clear e1 hg
    rw [← hl]
    generalize svd A = s
    induction s with
    | nil => simp
    | cons y s ih =>
      simp only [List.length_cons, List.map_cons, List.prod_cons, eval_mul, pow_succ (r ^ 2)] at ih ⊢
      rw [← ih]
      simp only [Function.comp, eval_sub, eval_X, eval_C, mul_pow, sq_abs]
      field_simp

theorem condRow_scaled {r : ℝ} (hr : 0 < r) (s : List ℝ) :
    (∃ row row', condRow s = .ok row ∧ condRow (s.map fun x => r * x) = .ok row' ∧
      condNum row' = condNum row) ∨
    (condRow s = .error .indexError ∧ condRow (s.map fun x => r * x) = .error .indexError) := by
  rcases List.eq_nil_or_concat s with rfl | ⟨t, z, rfl⟩
  · right
    exact ⟨rfl, rfl⟩
  · left
    simp only [List.concat_eq_append]
    have h1 : (t ++ [z]).getLast? = some z := by simp
    have h2 : ((t ++ [z]).map fun x => r * x).getLast? = some (r * z) := by simp
    refine ⟨_, _, by simp only [condRow, h1, orErr_some, ok_bind]; rfl,
      by simp only [condRow, h2, orErr_some, ok_bind]; rfl, ?_⟩
    by_cases hz : z = 0
    · rw [if_pos hz, if_pos (by rw [hz, mul_zero])]
      rcases t with _ | ⟨y, t⟩
      · rfl
      · simp only [List.cons_append, List.map_cons, List.map_append, List.map_nil,
          List.set_cons_zero, List.length_cons, List.length_append, List.length_nil, zero_add,
          List.length_map]
        have e : ∀ (t : List ℝ) (u v : Num ℝ),
            (u :: (t.map Num.fin ++ [v])).set (t.length + 1 + 1 - 1) (Num.fin 1) =
            u :: (t.map Num.fin ++ [Num.fin 1]) := by
          intro t u v
          simp [List.set_append]
        have e' := e (t.map fun x => r * x) (.inf true) (.fin (r * z))
        rw [List.length_map] at e'
        rw [e, e']
        have : ∀ t : List ℝ, (Num.inf true :: (t.map Num.fin ++ [Num.fin (1 : ℝ)])).getLast? =
            some (Num.fin 1) := by
          intro t
          rw [← List.cons_append, List.getLast?_append]
          simp
        simp only [condNum, List.head?_cons, this]
    · rw [if_neg hz, if_neg (mul_ne_zero hr.ne' hz)]
      have h3 : ((t ++ [z]).map Num.fin).getLast? = some (Num.fin z) := by simp
      have h4 : (((t ++ [z]).map fun x => r * x).map Num.fin).getLast? = some (Num.fin (r * z)) := by
        simp
      have h5 : ∀ s : List ℝ, s ≠ [] → (s.map Num.fin).head? = some (Num.fin (s.headD 0)) := by
        intro s hs
        cases s with
        | nil => exact absurd rfl hs
        | cons => rfl
      have h6 : ((t ++ [z]).map fun x => r * x).headD 0 = r * (t ++ [z]).headD 0 := by
        cases t <;> rfl
      simp only [condNum, h3, h4, h5 _ (show t ++ [z] ≠ [] by simp),
        h5 _ (show ((t ++ [z]).map fun x => r * x) ≠ [] by simp), h6, Num.div, if_neg hz,
        if_neg (mul_ne_zero hr.ne' hz), mul_div_mul_left _ _ hr.ne']

theorem condMean_scaled {R : List ℝ → List ℝ → Prop} {s t : List (List ℝ)} (h : List.Forall₂ R s t)
    (hR : ∀ x y, R x y → ∃ r : ℝ, 0 < r ∧ y = x.map fun z => r * z) :
    (condMean t).map Prod.fst = (condMean s).map Prod.fst := by
  have key : (∃ rows rows', s.mapM condRow = .ok rows ∧ t.mapM condRow = .ok rows' ∧
        rows'.mapM condNum = rows.mapM condNum) ∨
      (s.mapM condRow = .error .indexError ∧ t.mapM condRow = .error .indexError) := by
    induction h with
    | nil => exact Or.inl ⟨[], [], rfl, rfl, rfl⟩
    | cons h1 _ ih =>
      obtain ⟨r, hr, rfl⟩ := hR _ _ h1
      rw [List.mapM_cons, List.mapM_cons]
      rcases condRow_scaled hr _ with ⟨row, row', e1, e2, e3⟩ | ⟨e1, e2⟩
      · rw [e1, e2, ok_bind, ok_bind]
        rcases ih with ⟨rows, rows', f1, f2, f3⟩ | ⟨f1, f2⟩
        · left
          rw [f1, f2]
          exact ⟨_, _, rfl, rfl, by rw [List.mapM_cons, List.mapM_cons, e3, f3]⟩
        · right
          rw [f1, f2]
          exact ⟨rfl, rfl⟩
      · right
        rw [e1, e2]
        exact ⟨rfl, rfl⟩
  unfold condMean
  rcases key with ⟨rows, rows', e1, e2, e3⟩ | ⟨e1, e2⟩
  · rw [e1, e2, ok_bind, ok_bind, e3]
    cases rows.mapM condNum <;> rfl
  · rw [e1, e2]

/-- **C164.** The condition number does not change when all QoIs are multiplied by the same number,
which may be another one at every centre, and when the inputs are given in other orthonormal coordinates;
the singular values are then multiplied by the size of the number. -/
theorem C164_condnum (hs : IsSvd svd) (h : Choice G c n q)
    (hr : List.Forall₂ (fun A B => ∃ r Q, r ≠ 0 ∧ Rescaled c n (fun _ => r) Q A B) G H) :
    (avgCondnum svd (some H) q).map Prod.fst = (avgCondnum svd (some G) q).map Prod.fst ∧
    List.Forall₂ (fun A B => ∃ r : ℝ, 0 < r ∧
      svd (chosen q B) = (svd (chosen q A)).map fun s => r * s) G H := by
  have hH : Choice H c n q := Choice.rescaled h hr.length_eq.symm
    (forall2_new hr fun A B ⟨r, Q, _, hR⟩ => hR.new)
  have hsv : List.Forall₂ (fun A B => ∃ r : ℝ, 0 < r ∧
      svd (chosen q B) = (svd (chosen q A)).map fun s => r * s) G H :=
    hr.imp fun A B ⟨r, Q, h0, hR⟩ => ⟨|r|, abs_pos.mpr h0,
      svd_scaled hs h.few h0 (fun _ _ => rfl) (Rescaled.chosen hR h.valid)⟩
  refine ⟨?_, hsv⟩
  have h2 : List.Forall₂ (fun s t : List ℝ => ∃ r : ℝ, 0 < r ∧ t = s.map fun z => r * z)
      ((G.map (chosen q)).map svd) ((H.map (chosen q)).map svd) := by
    simp only [List.map_map]
    rw [List.forall₂_map_left_iff, List.forall₂_map_right_iff]
    exact hsv
  simp only [avgCondnum, orErr_some, ok_bind, selectQois_ok h, selectQois_ok hH,
    raiseIf_false (few_ok h), raiseIf_false (few_ok hH)]
  have hall : (((H.map (chosen q)).map svd).all fun s => decide (s.getLast? = some 0)) =
      (((G.map (chosen q)).map svd).all fun s => decide (s.getLast? = some 0)) := by
    generalize (H.map (chosen q)).map svd = t at *
    generalize (G.map (chosen q)).map svd = s at *
    clear hsv hr h hH
    induction h2 with
    | nil => rfl
    | cons h1 _ ih =>
      obtain ⟨r, hr, rfl⟩ := h1
      rw [List.all_cons, List.all_cons, ih]
      congr 1
      rw [decide_eq_decide, List.getLast?_map, Option.map_eq_some_iff]
      constructor
      · rintro ⟨a, ha, h0⟩
        rw [ha, (mul_eq_zero.mp h0).resolve_left hr.ne']
      · intro e
        exact ⟨0, e, mul_zero _⟩
  rw [hall]
  split
  · rfl
  · exact condMean_scaled h2 fun x y h => h

/-! ### What does depend on the units -/

open Polynomial in
theorem svd_two (hs : IsSvd svd) {n : Nat} (hn : 2 ≤ n) {A : List (List ℝ)} (hA : IsMat 2 n A)
    {x y : ℝ} (hy : 0 ≤ y) (hxy : y ≤ x)
    (hg : gram 2 n A = Matrix.diagonal ![x ^ 2, y ^ 2] ∨ gram 2 n A = Matrix.diagonal ![y ^ 2, x ^ 2]) :
    svd A = [x, y] := by
  refine svd_unique (hs.nonneg 2 n A hn hA) ?_ (hs.sorted 2 n A hn hA) ?_ ?_
  · intro z hz
    simp only [List.mem_cons, List.not_mem_nil, or_false] at hz
    rcases hz with rfl | rfl
    · exact le_trans hy hxy
    · exact hy
  · simpa using hxy
  · rw [hs.eigen 2 n A hn hA]
    rcases hg with hg | hg <;> rw [hg, Matrix.charpoly_diagonal] <;>
      simp [Fin.prod_univ_two, mul_comm]

namespace Ex

/-- Three perpendicular gradients; the last two have the lengths `x` and 2. -/
noncomputable def axesJac (x : ℝ) : List (List ℝ) := [[1, 0, 0], [0, x, 0], [0, 0, 2]]

theorem axes_isMat (x : ℝ) : IsMat 3 3 (axesJac x) := by simp [IsMat, axesJac]

theorem axes_choice (x : ℝ) {l : List Nat} (h : ∀ i ∈ l, i < 3) (hl : l.length ≤ 3) :
    Choice [axesJac x] 3 3 (some l) :=
  ⟨by simp, by intro A hA; rw [List.mem_singleton.mp hA]; exact axes_isMat x,
    by rintro _ ⟨⟩; exact h, hl⟩

theorem axes_gram (x : ℝ) : gram 2 3 (Spec.chosen (some [0, 1]) (axesJac x)) = Matrix.diagonal ![1 ^ 2, x ^ 2] ∧
    gram 2 3 (Spec.chosen (some [0, 2]) (axesJac x)) = Matrix.diagonal ![1 ^ 2, 2 ^ 2] := by
  constructor <;> ext i j <;> fin_cases i <;> fin_cases j <;>
    simp [gram, matOf, Matrix.mul_apply, axesJac, Spec.chosen, Fin.sum_univ_three] <;> ring

/-- The second QoI times three. -/
theorem axes_rescaled : Rescaled 3 3 (fun i => if i = 1 then 3 else 1) 1 (axesJac 1) (axesJac 3) where
  factor i _ := by split <;> norm_num
  orthonormal := by simp
  old := axes_isMat 1
  new := axes_isMat 3
  rows i := by
    funext j
    fin_cases i <;> fin_cases j <;> simp [rowVec, matOf, axesJac]

end Ex

theorem condnum_single {A : List (List ℝ)} (h : Choice [A] c n q) {x y : ℝ}
    (hsv : svd (chosen q A) = [x, y]) (hy : y ≠ 0) (hx : x ≠ 0) :
    avgCondnum svd (some [A]) q = .ok (.fin (x / y), [[.fin x, .fin y]]) := by
  have h0 := few_ok h
  simp only [List.map_cons, List.map_nil] at h0
  simp only [avgCondnum, orErr_some, ok_bind, selectQois_ok h, List.map_cons, List.map_nil,
    raiseIf_false h0, hsv]
  have h1 : ([[x, y]].all fun s => decide (s.getLast? = some 0)) = false := by simp [hy]
  rw [h1]
  have h2 : condRow [x, y] = .ok [.fin x, .fin y] := by
    simp only [condRow, List.getLast?_cons_cons, List.getLast?_singleton, orErr_some, ok_bind,
      if_neg hy]
    rfl
  have h3 : condNum [Num.fin x, Num.fin y] = .ok (.fin (x / y)) := by
    simp [condNum, Num.div, hy]
  have h4 : hmean [Num.fin (x / y)] = .fin (x / y) := by
    have : 1 / (x / y) ≠ 0 := by
      simp [hx, hy]
    simp only [hmean, List.map_cons, List.map_nil, Num.recip, List.sum_cons, List.sum_nil, add_zero,
      List.length_cons, List.length_nil, zero_add, Nat.cast_one, Num.div, if_neg this, one_div_one_div]
  simp only [Bool.false_eq_true, if_false, condMean, List.mapM_cons, List.mapM_nil, h2, ok_bind, h3,
    pure_bind, h4]
  rfl

/-- **C164.** The condition number and the measure do depend on the units of a single QoI, and so does
what they prefer: of three perpendicular gradients the condition number prefers the first two, and the
measure the first and the last; with the second QoI in a unit a third as large it is the other way
round. -/
theorem C164_negation_units (hs : IsSvd svd) :
    Rescaled 3 3 (fun i => if i = 1 then 3 else 1) 1 (Ex.axesJac 1) (Ex.axesJac 3) ∧
    ((avgCondnum svd (some [Ex.axesJac 1]) (some [0, 1])).map Prod.fst = .ok (.fin 1) ∧
      (avgCondnum svd (some [Ex.axesJac 1]) (some [0, 2])).map Prod.fst = .ok (.fin 2) ∧
      (avgCondnum svd (some [Ex.axesJac 3]) (some [0, 1])).map Prod.fst = .ok (.fin 3) ∧
      (avgCondnum svd (some [Ex.axesJac 3]) (some [0, 2])).map Prod.fst = .ok (.fin 2)) ∧
    ((avgMeasure svd (some [Ex.axesJac 1]) (some [0, 1]) none).map Prod.fst = .ok ((1 : ℝ) : WithTop ℝ) ∧
      (avgMeasure svd (some [Ex.axesJac 1]) (some [0, 2]) none).map Prod.fst =
        .ok ((1 / 2 : ℝ) : WithTop ℝ) ∧
      (avgMeasure svd (some [Ex.axesJac 3]) (some [0, 1]) none).map Prod.fst =
        .ok ((1 / 3 : ℝ) : WithTop ℝ) ∧
      (avgMeasure svd (some [Ex.axesJac 3]) (some [0, 2]) none).map Prod.fst =
        .ok ((1 / 2 : ℝ) : WithTop ℝ)) := by
  have h01 : ∀ x : ℝ, Choice [Ex.axesJac x] 3 3 (some [0, 1]) := fun x =>
    Ex.axes_choice x (by decide) (by decide)
  have h02 : ∀ x : ℝ, Choice [Ex.axesJac x] 3 3 (some [0, 2]) := fun x =>
    Ex.axes_choice x (by decide) (by decide)
  have m01 : ∀ x : ℝ, IsMat 2 3 (chosen (some [0, 1]) (Ex.axesJac x)) := fun x =>
    chosen_shape (h01 x) _ List.mem_cons_self
  have m02 : ∀ x : ℝ, IsMat 2 3 (chosen (some [0, 2]) (Ex.axesJac x)) := fun x =>
    chosen_shape (h02 x) _ List.mem_cons_self
  have s1 : ∀ x : ℝ, 1 ≤ x → svd (chosen (some [0, 1]) (Ex.axesJac x)) = [x, 1] := fun x hx =>
    svd_two hs (by decide) (m01 x) zero_le_one hx (Or.inr (Ex.axes_gram x).1)
  have s2 : ∀ x : ℝ, svd (chosen (some [0, 2]) (Ex.axesJac x)) = [2, 1] := fun x =>
    svd_two hs (by decide) (m02 x) zero_le_one one_le_two (Or.inr (Ex.axes_gram x).2)
  have p1 : ∀ x : ℝ, 1 ≤ x → spanned 3 3 (some [0, 1]) (Ex.axesJac x) = x := by
    intro x hx
    have := svd_prod hs (by decide) (m01 x)
    rw [s1 x hx] at this
    show Real.sqrt (gram 2 3 (chosen (some [0, 1]) (Ex.axesJac x))).det = x
    rw [← this]
    simp
  have p2 : ∀ x : ℝ, spanned 3 3 (some [0, 2]) (Ex.axesJac x) = 2 := by
    intro x
    have := svd_prod hs (by decide) (m02 x)
    rw [s2 x] at this
    show Real.sqrt (gram 2 3 (chosen (some [0, 2]) (Ex.axesJac x))).det = 2
    rw [← this]
    simp
  have three : (1 : ℝ) ≤ 3 := by norm_num
  refine ⟨Ex.axes_rescaled, ⟨?_, ?_, ?_, ?_⟩, ?_, ?_, ?_, ?_⟩
  · rw [condnum_single (h01 1) (s1 1 le_rfl) one_ne_zero one_ne_zero, div_one]; rfl
  · rw [condnum_single (h02 1) (s2 1) one_ne_zero two_ne_zero, div_one]; rfl
  · rw [condnum_single (h01 3) (s1 3 three) one_ne_zero three_ne_zero, div_one]; rfl
  · rw [condnum_single (h02 3) (s2 3) one_ne_zero two_ne_zero, div_one]; rfl
  · rw [avgMeasure_eq hs (h01 1)]
    simp [p1 1 le_rfl, Except.map]
  · rw [avgMeasure_eq hs (h02 1)]
    simp [p2 1, Except.map]
  · rw [avgMeasure_eq hs (h01 3)]
    simp [p1 3 three, Except.map]
  · rw [avgMeasure_eq hs (h02 3)]
    simp [p2 3, Except.map]

namespace Ex

/-- The hypotheses are met: the skewness of the three gradients, and the measure. -/
example : avgSkewness svdOf Spec.len (some [axesJac 3]) (some [0, 1]) =
    avgSkewness svdOf Spec.len (some [axesJac 1]) (some [0, 1]) :=
  C164_skewness isSvd_svdOf (axes_choice 1 (by decide) (by decide))
    (.cons ⟨_, _, axes_rescaled⟩ .nil)

example : ∃ v w sv sw, avgMeasure svdOf (some [axesJac 1]) (some [0, 1]) none = .ok (v, sv) ∧
      avgMeasure svdOf (some [axesJac 3]) (some [0, 1]) none = .ok (w, sw) ∧
      ((v = ⊤ ∧ w = ⊤) ∨ ∃ x : ℝ, v = (x : WithTop ℝ) ∧
        w = ((x / allFactors 3 (some [0, 1]) (fun i => if i = 1 then 3 else 1) : ℝ) : WithTop ℝ)) :=
  C164_measure isSvd_svdOf (axes_choice 1 (by decide) (by decide))
    (.cons ⟨_, axes_rescaled⟩ .nil) none

/-- All QoIs times two. -/
example : (avgCondnum svdOf (some [(axesJac 3).map fun v => v.map fun x => 2 * x]) (some [0, 1])).map
    Prod.fst = (avgCondnum svdOf (some [axesJac 3]) (some [0, 1])).map Prod.fst :=
  (C164_condnum isSvd_svdOf (axes_choice 3 (by decide) (by decide))
    (.cons ⟨2, 1, two_ne_zero, ⟨fun _ _ => two_ne_zero, by simp, axes_isMat 3, by simp [IsMat, axesJac],
      fun i => by
        funext j
        fin_cases i <;> fin_cases j <;> simp [rowVec, matOf, axesJac]⟩⟩ .nil)).1

theorem axes_same : SameDirections [axesJac 1] [axesJac 3] :=
  .cons (.cons ⟨1, one_pos, by simp⟩ (.cons ⟨3, by norm_num, by simp⟩ (.cons ⟨1, one_pos, by simp⟩ .nil)))
    .nil

example (enum : List Nat → List Nat) : uniqueVecs enum Spec.len (some [axesJac 3]) 1 none true =
    uniqueVecs enum Spec.len (some [axesJac 1]) 1 none true :=
  C164_unique enum axes_same 1 none true

example (argsort : List (WithTop ℝ) → List Nat)
    (store : Num ℝ × List (List (Num ℝ)) → WithTop ℝ × List (List ℝ)) :
    chooseOptVerbose argsort id Spec.len
      (fun l => (avgSkewness svdOf Spec.len (some [axesJac 3]) (some l)).map store) 2 3
      (some [axesJac 3]) none (some 2) (some 1) 1 true =
    chooseOptVerbose argsort id Spec.len
      (fun l => (avgSkewness svdOf Spec.len (some [axesJac 1]) (some l)).map store) 2 3
      (some [axesJac 1]) none (some 2) (some 1) 1 true :=
  (C164_choice isSvd_svdOf (by intro A hA; rw [List.mem_singleton.mp hA]; exact axes_isMat 1) axes_same
    argsort id store 2 3 none (some 2) (some 1) true).1 1

/-- One centre on the line, and a point at the distance 1 from it. -/
noncomputable def lineGrad : Disc ℝ where
  input := some { dim := 1, glob := { values := some [[0], [1]] } }
  output := some { dim := 1, glob := { values := some [[0], [2]] } }

theorem lineGrad_jacobians : jacobiansOf (gradientsFfd 1 lineGrad false) = some [[[2]]] := by
  have hc : Centers ({ dim := 1, glob := { values := some [[0]] } } : SampleSet ℝ) [[0]] :=
    ⟨rfl, by simp, nofun⟩
  have hp : pickFfd ({ dim := 1, glob := { values := some [[0]] } } : SampleSet ℝ) [1] =
      .ok { dim := 1, glob := { values := some [[0], [1]] } } := by
    rw [C50_points hc rfl]
    simp [shift]
  have := C50_affine (out := { dim := 1, glob := { values := some [[0], [2]] } }) hc (by simp)
    (radii := [1]) rfl (by norm_num) (A := [[2]]) (b := [0]) rfl (by simp) rfl nofun hp
    (P := [[0], [1]]) rfl (by simp [affine, dot]) (consistent_values 1 none _ none (by simp) (by simp))
    (d := lineGrad) rfl rfl 1
  rw [this]
  rfl

example : avgSkewness svdOf Spec.len (jacobiansOf (gradientsFfd 1 lineGrad true)) none =
    avgSkewness svdOf Spec.len (some [[[2]]]) none :=
  (C164_gradients isSvd_svdOf 1 lineGrad).1 _ 1 1 none lineGrad_jacobians
    ⟨by simp, by simp [IsMat], by simp, le_refl _⟩

end Ex

end BET
