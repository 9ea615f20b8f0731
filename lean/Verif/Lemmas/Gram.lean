import Verif.Spec.Svd
import Mathlib.Analysis.Matrix.PosDef
import Mathlib.Analysis.Matrix.Order
import Mathlib.Algebra.Order.Star.Real
import Mathlib.LinearAlgebra.Matrix.Charpoly.Coeff
import Mathlib.LinearAlgebra.Matrix.SchurComplement

/-!
# Gram matrices and singular values
-/

set_option autoImplicit false
set_option linter.unusedSectionVars false
set_option linter.unusedSimpArgs false

namespace BET

open Spec Polynomial Matrix

theorem gram_posSemidef (m n : Nat) (A : List (List ℝ)) : (gram m n A).PosSemidef := by
  have h := Matrix.posSemidef_self_mul_conjTranspose (matOf m n A)
  rwa [Matrix.conjTranspose_eq_transpose_of_trivial] at h

theorem gram_det_nonneg (m n : Nat) (A : List (List ℝ)) : 0 ≤ (gram m n A).det :=
  (gram_posSemidef m n A).det_nonneg

theorem svd_prod_sq {svd : List (List ℝ) → List ℝ} (hs : IsSvd svd) {m n : Nat}
    {A : List (List ℝ)} (hmn : m ≤ n) (hA : IsMat m n A) :
    (svd A).prod ^ 2 = (gram m n A).det := by
  have h := hs.eigen m n A hmn hA
  have hl := hs.length m n A hmn hA
  have h0 := congrArg (Polynomial.eval 0) h
  have h1 : Polynomial.eval 0 (gram m n A).charpoly = (-1) ^ m * (gram m n A).det := by
    rw [Matrix.det_eq_sign_charpoly_coeff, ← Polynomial.coeff_zero_eq_eval_zero, ← mul_assoc,
      Fintype.card_fin, ← mul_pow]
    simp
  have h2 : ∀ l : List ℝ, Polynomial.eval 0 (l.map fun s => (X - C (s ^ 2) : ℝ[X])).prod =
      (-1) ^ l.length * l.prod ^ 2 := by
    intro l
    induction l with
    | nil => simp
    | cons a l ih =>
      rw [List.map_cons, List.prod_cons, Polynomial.eval_mul, ih]
      simp only [eval_sub, eval_X, eval_C, List.length_cons, List.prod_cons]
      ring
  rw [h2, h1, hl] at h0
  have : ((-1 : ℝ)) ^ m ≠ 0 := pow_ne_zero _ (by norm_num)
  exact mul_left_cancel₀ this h0

theorem svd_prod {svd : List (List ℝ) → List ℝ} (hs : IsSvd svd) {m n : Nat}
    {A : List (List ℝ)} (hmn : m ≤ n) (hA : IsMat m n A) :
    (svd A).prod = Real.sqrt (gram m n A).det := by
  rw [← svd_prod_sq hs hmn hA, Real.sqrt_sq]
  exact List.prod_nonneg (hs.nonneg m n A hmn hA)

/-! ### A row less -/

theorem det_block {m : Nat} {M : Matrix (Fin (m + 1)) (Fin (m + 1)) ℝ}
    (hM : M.PosSemidef) (i : Fin (m + 1))
    (h0 : (M.submatrix i.succAbove i.succAbove).det ≠ 0) :
    M.det = (M i i - (fun j => M (i.succAbove j) i) ⬝ᵥ
      ((M.submatrix i.succAbove i.succAbove)⁻¹ *ᵥ fun j => M (i.succAbove j) i)) *
      (M.submatrix i.succAbove i.succAbove).det := by
  set D := M.submatrix i.succAbove i.succAbove with hD
  let e : Fin (m + 1) ≃ Fin m ⊕ Unit := (finSuccEquiv' i).trans (Equiv.optionEquivSumPUnit (Fin m))
  have e1 : ∀ j, e.symm (Sum.inl j) = i.succAbove j := by intro j; simp [e]
  have e2 : e.symm (Sum.inr ()) = i := by simp [e]
  let B : Matrix (Fin m) Unit ℝ := fun j _ => M (i.succAbove j) i
  let a : Matrix Unit Unit ℝ := fun _ _ => M i i
  have hsym : ∀ x y, M x y = M y x := fun x y => by
    have := congrFun (congrFun hM.isHermitian.eq y) x
    simpa using this
  have hblock : M.submatrix e.symm e.symm = Matrix.fromBlocks D B B.transpose a := by
    ext x y
    rcases x with x | x <;> rcases y with y | y
    · simp [hD, e1]
    · simp only [Matrix.submatrix_apply, e1, Matrix.fromBlocks_apply₁₂]; rw [show y = () from rfl, e2]
    · simp only [Matrix.submatrix_apply, e1, Matrix.fromBlocks_apply₂₁]; rw [show x = () from rfl, e2]
      exact hsym _ _
    · simp only [Matrix.submatrix_apply, Matrix.fromBlocks_apply₂₂]
      rw [show x = () from rfl, show y = () from rfl, e2]
  have hdet : M.det = (Matrix.fromBlocks D B B.transpose a).det := by
    rw [← hblock, Matrix.det_submatrix_equiv_self]
  have hu : IsUnit D.det := isUnit_iff_ne_zero.mpr h0
  have := Matrix.invertibleOfIsUnitDet D hu
  rw [hdet, Matrix.det_fromBlocks₁₁, mul_comm]
  congr 1
  rw [Matrix.det_unique]
  simp only [Matrix.sub_apply]
  rw [Matrix.mul_assoc, Matrix.invOf_eq_nonsing_inv]
  rfl

theorem det_le_of_posSemidef {m : Nat} {M : Matrix (Fin (m + 1)) (Fin (m + 1)) ℝ}
    (hM : M.PosSemidef) (i : Fin (m + 1)) :
    M.det ≤ M i i * (M.submatrix i.succAbove i.succAbove).det := by
  by_cases h0 : (M.submatrix i.succAbove i.succAbove).det = 0
  · -- singular
    obtain ⟨v, hv, hDv⟩ := Matrix.exists_mulVec_eq_zero_iff.mpr h0
    have : M.det = 0 := by
      rw [← Matrix.exists_mulVec_eq_zero_iff]
      refine ⟨Fin.insertNth (α := fun _ => ℝ) i 0 v, fun h => hv ?_, ?_⟩
      · funext j
        have := congrFun h (i.succAbove j)
        simpa using this
      · rw [← hM.dotProduct_mulVec_zero_iff]
        have hDv' : ∀ j, ∑ k, M (i.succAbove j) (i.succAbove k) * v k = 0 := fun j => by
          have := congrFun hDv j
          simpa [Matrix.mulVec, dotProduct] using this
        simp [dotProduct, Matrix.mulVec, Fin.sum_univ_succAbove _ i, hDv']
    rw [this, h0, mul_zero]
  · rw [det_block hM i h0]
    have hDp : (M.submatrix i.succAbove i.succAbove).PosSemidef := hM.submatrix _
    refine mul_le_mul_of_nonneg_right ?_ hDp.det_nonneg
    have hq := hDp.inv.dotProduct_mulVec_nonneg (fun j => M (i.succAbove j) i)
    simp only [star_trivial] at hq
    linarith

/-- The Gram matrix without a row. -/
theorem gram_erase {m n : Nat} {A : List (List ℝ)} (i : Fin (m + 1)) :
    (gram (m + 1) n A).submatrix i.succAbove i.succAbove = gram m n (A.eraseIdx i) := by
  have key : ∀ (j : Fin m), (A.eraseIdx i).getD j [] = A.getD (i.succAbove j) [] := by
    intro j
    simp only [List.getD_eq_getElem?_getD, List.getElem?_eraseIdx, Fin.succAbove, Fin.lt_def,
      Fin.val_castSucc]
    by_cases h : (j : Nat) < i <;> simp [h]
  ext a b
  simp only [gram, Matrix.submatrix_apply, Matrix.mul_apply, Matrix.transpose_apply, matOf, key]

theorem hasShape_erase {m n : Nat} {A : List (List ℝ)} (h : IsMat (m + 1) n A)
    (i : Fin (m + 1)) : IsMat m n (A.eraseIdx i) := by
  refine ⟨?_, fun r hr => h.2 r (List.mem_of_mem_eraseIdx hr)⟩
  rw [List.length_eraseIdx, h.1, if_pos i.2]
  rfl

theorem sum_fin_getD (v : List ℝ) (f : ℝ → ℝ) :
    (∑ j : Fin v.length, f (v.getD j 0)) = (v.map f).sum := by
  induction v with
  | nil => simp
  | cons a v ih => simp [Fin.sum_univ_succ, ih]

theorem gram_diag {m n : Nat} {A : List (List ℝ)} (h : IsMat m n A) (i : Fin m) :
    gram m n A i i = len (A.getD i []) ^ 2 := by
  have hi : (i : Nat) < A.length := by rw [h.1]; exact i.2
  have hn : (A.getD i []).length = n := by
    apply h.2
    rw [List.getD_eq_getElem?_getD, List.getElem?_eq_getElem hi]
    exact List.getElem_mem hi
  rw [len, Real.sq_sqrt (List.sum_nonneg (by
    intro x hx
    obtain ⟨y, -, rfl⟩ := List.mem_map.mp hx
    exact sq_nonneg y))]
  rw [← sum_fin_getD]
  subst hn
  simp only [gram, Matrix.mul_apply, Matrix.transpose_apply, matOf]
  exact Finset.sum_congr rfl fun j _ => (sq _).symm

theorem li_iff (m n : Nat) (A : List (List ℝ)) :
    LinearIndependent ℝ (rowVec m n A) ↔ (gram m n A).det ≠ 0 := by
  rw [← not_iff_not, not_not]
  rw [← Matrix.exists_vecMul_eq_zero_iff, Fintype.not_linearIndependent_iff]
  have hv : ∀ g : Fin m → ℝ, (∑ i, g i • rowVec m n A i) = g ᵥ* matOf m n A := by
    intro g
    ext j
    simp [Matrix.vecMul, dotProduct, rowVec]
  constructor
  · rintro ⟨g, hg, i, hi⟩
    refine ⟨g, fun e => hi (by rw [e]; rfl), ?_⟩
    rw [gram, ← Matrix.vecMul_vecMul, ← hv, hg, Matrix.zero_vecMul]
  · rintro ⟨g, hg, h0⟩
    refine ⟨g, ?_, ?_⟩
    · rw [hv]
      have : (g ᵥ* matOf m n A) ⬝ᵥ (g ᵥ* matOf m n A) = 0 := by
        have h1 := congrArg (fun v => v ⬝ᵥ g) h0
        simp only [gram, ← Matrix.vecMul_vecMul, zero_dotProduct] at h1
        rw [← Matrix.dotProduct_mulVec, Matrix.mulVec_transpose] at h1
        exact h1
      exact dotProduct_self_eq_zero.mp this
    · by_contra hne
      push Not at hne
      exact hg (funext hne)

/-- The part of a row perpendicular to the other rows. -/
theorem perp_exists {m n : Nat} {A : List (List ℝ)} (i : Fin (m + 1))
    (hd : (gram (m + 1) n A).det ≠ 0) :
    ∃ (c : Fin m → ℝ) (r : Fin n → ℝ),
      rowVec (m + 1) n A i = r + ∑ j, c j • rowVec (m + 1) n A (i.succAbove j) ∧
      (∀ j, r ⬝ᵥ rowVec (m + 1) n A (i.succAbove j) = 0) ∧
      (gram (m + 1) n A).det = (r ⬝ᵥ r) * (gram m n (A.eraseIdx i)).det := by
  have hM := gram_posSemidef (m + 1) n A
  have hle := det_le_of_posSemidef hM i
  have hD : ((gram (m + 1) n A).submatrix i.succAbove i.succAbove).det ≠ 0 := by
    intro h0
    rw [h0, mul_zero] at hle
    exact hd (le_antisymm hle hM.det_nonneg)
  have hb := det_block hM i hD
  set M := gram (m + 1) n A with hMd
  set D := M.submatrix i.succAbove i.succAbove with hDd
  set b : Fin m → ℝ := fun j => M (i.succAbove j) i with hbd
  have hg : ∀ x y, M x y = rowVec (m + 1) n A x ⬝ᵥ rowVec (m + 1) n A y := fun x y => rfl
  let c := D⁻¹ *ᵥ b
  have hc : D *ᵥ c = b := by
    rw [Matrix.mulVec_mulVec, Matrix.mul_nonsing_inv _ (isUnit_iff_ne_zero.mpr hD), Matrix.one_mulVec]
  let r := rowVec (m + 1) n A i - ∑ j, c j • rowVec (m + 1) n A (i.succAbove j)
  have hperp : ∀ j, r ⬝ᵥ rowVec (m + 1) n A (i.succAbove j) = 0 := by
    intro j
    have hcj := congrFun hc j
    simp only [Matrix.mulVec, dotProduct] at hcj
    simp only [r, sub_dotProduct, sum_dotProduct, smul_dotProduct, ← hg]
    rw [hg i, dotProduct_comm, ← hg]
    have : ∀ k, M (i.succAbove k) (i.succAbove j) = D j k := fun k => by
      rw [hg, dotProduct_comm, ← hg]; rfl
    simp only [this, smul_eq_mul]
    rw [sub_eq_zero, show M (i.succAbove j) i = b j from rfl, ← hcj]
    exact Finset.sum_congr rfl fun k _ => mul_comm _ _
  refine ⟨c, r, by simp [r], hperp, ?_⟩
  rw [hb, ← gram_erase]
  congr 1
  have : r ⬝ᵥ r = r ⬝ᵥ rowVec (m + 1) n A i := by
    have h2 : r ⬝ᵥ (rowVec (m + 1) n A i - r) = 0 := by
      simp only [r, sub_sub_cancel]
      rw [dotProduct_sum]
      refine Finset.sum_eq_zero fun j _ => ?_
      rw [dotProduct_smul, hperp j, smul_zero]
    rw [dotProduct_sub] at h2
    linarith
  rw [this]
  simp only [r, sub_dotProduct, sum_dotProduct, smul_dotProduct, ← hg]
  congr 1
  simp only [dotProduct, smul_eq_mul]
  exact Finset.sum_congr rfl fun k _ => mul_comm _ _

end BET
