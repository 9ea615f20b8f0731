import Verif.Lemmas.Gram
import Mathlib.Analysis.Matrix.Spectrum

/-!
# Singular values exist, and do not depend on the order of the rows
-/

set_option autoImplicit false
set_option linter.unusedSectionVars false
set_option linter.unusedSimpArgs false

namespace BET

open Spec Polynomial Matrix

/-- A permutation of a list as a bijection of positions. -/
theorem perm_equiv {α : Type} {l l' : List α} (h : l.Perm l') :
    ∃ e : Fin l.length ≃ Fin l'.length, ∀ i, l'[e i] = l[i] := by
  induction h with
  | nil => exact ⟨Equiv.refl _, fun i => rfl⟩
  | @cons a l l' h ih =>
    obtain ⟨e, he⟩ := ih
    let f : Fin (l.length + 1) ≃ Fin (l'.length + 1) :=
      (finSuccEquiv l.length).trans ((Equiv.optionCongr e).trans (finSuccEquiv l'.length).symm)
    refine ⟨f, ?_⟩
    intro i
    refine Fin.cases ?_ (fun j => ?_) i
    · have : f 0 = 0 := by simp [f]
      show (a :: l')[f 0] = _
      rw [this]
      rfl
    · have : f j.succ = (e j).succ := by simp [f]
      show (a :: l')[f j.succ] = _
      rw [this]
      exact he j
  | @swap a b l =>
    refine ⟨Equiv.swap (0 : Fin (l.length + 2)) 1, ?_⟩
    intro i
    refine Fin.cases ?_ (fun j => Fin.cases ?_ (fun k => ?_) j) i
    · have : Equiv.swap (0 : Fin (l.length + 2)) 1 0 = 1 := Equiv.swap_apply_left _ _
      show (a :: b :: l)[Equiv.swap (0 : Fin (l.length + 2)) 1 0] = _
      rw [this]; rfl
    · have : Equiv.swap (0 : Fin (l.length + 2)) 1 (Fin.succ 0) = 0 := Equiv.swap_apply_right _ _
      show (a :: b :: l)[Equiv.swap (0 : Fin (l.length + 2)) 1 (Fin.succ 0)] = _
      rw [this]; rfl
    · have : Equiv.swap (0 : Fin (l.length + 2)) 1 k.succ.succ = k.succ.succ :=
        Equiv.swap_apply_of_ne_of_ne (Fin.succ_ne_zero _) (by
          intro h
          exact Fin.succ_ne_zero k (Fin.succ_injective _ h))
      show (a :: b :: l)[Equiv.swap (0 : Fin (l.length + 2)) 1 k.succ.succ] = _
      rw [this]; rfl
  | trans _ _ ih1 ih2 =>
    obtain ⟨e1, h1⟩ := ih1
    obtain ⟨e2, h2⟩ := ih2
    refine ⟨e1.trans e2, fun i => ?_⟩
    exact (h2 (e1 i)).trans (h1 i)

/-- Reordering rows reorders the Gram matrix. -/
theorem gram_perm {m n : Nat} {A B : List (List ℝ)} (hA : A.length = m) (h : A.Perm B) :
    ∃ e : Fin m ≃ Fin m, gram m n A = (gram m n B).submatrix e e := by
  subst hA
  obtain ⟨e, he⟩ := perm_equiv h
  have hl := h.length_eq
  refine ⟨e.trans (finCongr hl.symm), ?_⟩
  have key : ∀ i : Fin A.length,
      B.getD ((e.trans (finCongr hl.symm)) i : Fin A.length) [] = A.getD i [] := by
    intro i
    have := he i
    simp only [List.getD_eq_getElem?_getD, Equiv.trans_apply, finCongr_apply, Fin.val_cast]
    rw [List.getElem?_eq_getElem (e i).2, List.getElem?_eq_getElem i.2]
    exact congrArg some this |> Option.some.inj
  ext a b
  simp only [gram, Matrix.submatrix_apply, Matrix.mul_apply, Matrix.transpose_apply, matOf, key]

theorem gram_det_perm {m n : Nat} {A B : List (List ℝ)} (hA : A.length = m) (h : A.Perm B) :
    (gram m n A).det = (gram m n B).det := by
  obtain ⟨e, he⟩ := gram_perm (n := n) hA h
  rw [he, Matrix.det_submatrix_equiv_self]

theorem gram_charpoly_perm {m n : Nat} {A B : List (List ℝ)} (hA : A.length = m) (h : A.Perm B) :
    (gram m n A).charpoly = (gram m n B).charpoly := by
  obtain ⟨e, he⟩ := gram_perm (n := n) hA h
  rw [he]
  exact Matrix.charpoly_reindex e.symm (gram m n B)

/-- The singular values are determined by what is assumed of them. -/
theorem svd_unique {s t : List ℝ} (hs : ∀ x ∈ s, 0 ≤ x) (ht : ∀ x ∈ t, 0 ≤ x)
    (hss : s.Pairwise fun a b => b ≤ a) (hts : t.Pairwise fun a b => b ≤ a)
    (h : (s.map fun x => (X - C (x ^ 2) : ℝ[X])).prod =
      (t.map fun x => (X - C (x ^ 2) : ℝ[X])).prod) : s = t := by
  have key : ∀ l : List ℝ, (l.map fun x => (X - C (x ^ 2) : ℝ[X])).prod.roots =
      ((l.map fun x => x ^ 2 : List ℝ) : Multiset ℝ) := by
    intro l
    have := Polynomial.roots_multiset_prod_X_sub_C ((l.map fun x => x ^ 2 : List ℝ) : Multiset ℝ)
    rw [← this]
    simp [Function.comp_def]
  have h1 := congrArg Polynomial.roots h
  rw [key, key] at h1
  have hp : (s.map fun x => x ^ 2).Perm (t.map fun x => x ^ 2) := Multiset.coe_eq_coe.mp h1
  have hq := hp.map Real.sqrt
  have hr : ∀ l : List ℝ, (∀ x ∈ l, 0 ≤ x) → (l.map fun x => x ^ 2).map Real.sqrt = l := by
    intro l hl
    rw [List.map_map]
    conv_rhs => rw [← List.map_id l]
    exact List.map_congr_left fun x hx => Real.sqrt_sq (hl x hx)
  rw [hr s hs, hr t ht] at hq
  exact hq.eq_of_pairwise (fun a b _ _ h1 h2 => le_antisymm h2 h1) hss hts

theorem svd_perm {svd : List (List ℝ) → List ℝ} (hs : IsSvd svd) {m n : Nat} (hmn : m ≤ n)
    {A B : List (List ℝ)} (hA : IsMat m n A) (h : A.Perm B) : svd A = svd B := by
  have hB : IsMat m n B := ⟨h.length_eq ▸ hA.1, fun r hr => hA.2 r (h.mem_iff.mpr hr)⟩
  refine svd_unique (hs.nonneg m n A hmn hA) (hs.nonneg m n B hmn hB) (hs.sorted m n A hmn hA)
    (hs.sorted m n B hmn hB) ?_
  rw [hs.eigen m n A hmn hA, hs.eigen m n B hmn hB, gram_charpoly_perm hA.1 h]

/-- Some function gives singular values. -/
noncomputable def svdOf (A : List (List ℝ)) : List ℝ :=
  ((gram A.length (A.headD []).length A).charpoly.roots.sort (fun a b => b ≤ a)).map Real.sqrt

theorem svdOf_aux {m n : Nat} {A : List (List ℝ)} (hA : IsMat m n A) :
    svdOf A = ((gram m n A).charpoly.roots.sort (fun a b => b ≤ a)).map Real.sqrt := by
  obtain ⟨rfl, h⟩ := hA
  rcases A with _ | ⟨r, A⟩
  · have : gram ([] : List (List ℝ)).length n [] =
        gram ([] : List (List ℝ)).length (([] : List (List ℝ)).headD []).length [] := by
      ext i j
      exact i.elim0
    rw [svdOf, this]
  · rw [← h r List.mem_cons_self]
    rfl

theorem svdOf_roots {m n : Nat} {A : List (List ℝ)} :
    ∀ x ∈ (gram m n A).charpoly.roots, 0 ≤ x := by
  intro x hx
  have hp := gram_posSemidef m n A
  rw [hp.isHermitian.roots_charpoly_eq_eigenvalues] at hx
  obtain ⟨i, -, rfl⟩ := Multiset.mem_map.mp hx
  exact hp.eigenvalues_nonneg i

theorem isSvd_svdOf : IsSvd svdOf where
  length := by
    intro m n A _ hA
    rw [svdOf_aux hA, List.length_map, Multiset.length_sort,
      (gram_posSemidef m n A).isHermitian.roots_charpoly_eq_eigenvalues]
    simp
  nonneg := by
    intro m n A _ hA s hs
    rw [svdOf_aux hA] at hs
    obtain ⟨x, -, rfl⟩ := List.mem_map.mp hs
    exact Real.sqrt_nonneg x
  sorted := by
    intro m n A _ hA
    rw [svdOf_aux hA, List.pairwise_map]
    exact (Multiset.pairwise_sort _ _).imp fun h => Real.sqrt_le_sqrt h
  eigen := by
    intro m n A _ hA
    have hh := (gram_posSemidef m n A).isHermitian
    rw [svdOf_aux hA, List.map_map]
    have : ((gram m n A).charpoly.roots.sort (fun a b => b ≤ a)).map
        ((fun s => (X - C (s ^ 2) : ℝ[X])) ∘ Real.sqrt) =
        ((gram m n A).charpoly.roots.sort (fun a b => b ≤ a)).map fun x => (X - C x : ℝ[X]) := by
      refine List.map_congr_left fun x hx => ?_
      have := svdOf_roots x ((Multiset.mem_sort _).mp hx)
      simp only [Function.comp_apply, Real.sq_sqrt this]
    rw [this, ← Multiset.prod_coe, ← Multiset.map_coe, Multiset.sort_eq]
    exact (hh.splits_charpoly.eq_prod_roots_of_monic (Matrix.charpoly_monic _)).symm

end BET
