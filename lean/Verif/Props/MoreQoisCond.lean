import Verif.Props.MoreQois
import Mathlib.Analysis.Matrix.Spectrum
import Mathlib.LinearAlgebra.Matrix.Charpoly.Eigs
import Mathlib.Analysis.Matrix.PosDef

/-!
# C177: more QoIs are never better conditioned
-/

set_option autoImplicit false
set_option linter.unusedSectionVars false
set_option linter.unusedSimpArgs false

namespace BET

open Spec Matrix

variable {svd : List (List ℝ) → List ℝ} {G : List (List (List ℝ))} {c n : Nat}

/-! ### Singular values and quadratic forms -/

/-- A root of the characteristic polynomial is the square of a singular value. -/
theorem sv_of_eigen (hs : IsSvd svd) {m : Nat} {A : List (List ℝ)} (hmn : m ≤ n) (hA : IsMat m n A) {t : ℝ}
    {v : Fin m → ℝ} (hv : v ≠ 0) (h : gram m n A *ᵥ v = t • v) : ∃ s ∈ svd A, t = s ^ 2 := by
  have hdet : (Matrix.scalar (Fin m) t - gram m n A).det = 0 := by
    rw [← Matrix.exists_mulVec_eq_zero_iff]
    refine ⟨v, hv, ?_⟩
    rw [Matrix.sub_mulVec, h]
    simp
  rw [← Matrix.eval_charpoly, ← hs.eigen m n A hmn hA, Polynomial.eval_list_prod, List.map_map,
    List.prod_eq_zero_iff, List.mem_map] at hdet
  obtain ⟨s, hs', e⟩ := hdet
  refine ⟨s, hs', ?_⟩
  simp at e
  linarith

theorem eigen_of_sv (hs : IsSvd svd) {m : Nat} {A : List (List ℝ)} (hmn : m ≤ n) (hA : IsMat m n A) {s : ℝ}
    (h : s ∈ svd A) : ∃ v : Fin m → ℝ, v ≠ 0 ∧ gram m n A *ᵥ v = s ^ 2 • v := by
  have hdet : (Matrix.scalar (Fin m) (s ^ 2) - gram m n A).det = 0 := by
    rw [← Matrix.eval_charpoly, ← hs.eigen m n A hmn hA, Polynomial.eval_list_prod, List.map_map,
      List.prod_eq_zero_iff, List.mem_map]
    exact ⟨s, h, by simp⟩
  rw [← Matrix.exists_mulVec_eq_zero_iff] at hdet
  obtain ⟨v, hv, e⟩ := hdet
  refine ⟨v, hv, ?_⟩
  rw [Matrix.sub_mulVec] at e
  have e' := sub_eq_zero.1 e
  rw [← e']
  simp

theorem gram_hermitian (m n : Nat) (A : List (List ℝ)) : (gram m n A).IsHermitian := (gram_posSemidef m n A).1

/-- The quadratic form of the Gram matrix is between the squares of bounds of the singular values. -/
theorem form_le (hs : IsSvd svd) {m : Nat} {A : List (List ℝ)} (hmn : m ≤ n) (hA : IsMat m n A) {μ : ℝ}
    (hμ : ∀ s ∈ svd A, s ^ 2 ≤ μ) (v : Fin m → ℝ) : v ⬝ᵥ (gram m n A *ᵥ v) ≤ μ * (v ⬝ᵥ v) := by
  have hH : (μ • (1 : Matrix (Fin m) (Fin m) ℝ) - gram m n A).IsHermitian := by
    refine Matrix.IsHermitian.sub ?_ (gram_hermitian m n A)
    simp [Matrix.IsHermitian, Matrix.conjTranspose_smul]
  have hpos : (μ • (1 : Matrix (Fin m) (Fin m) ℝ) - gram m n A).PosSemidef := by
    rw [hH.posSemidef_iff_eigenvalues_nonneg]
    intro i
    have h1 := hH.mulVec_eigenvectorBasis i
    have hne : ((hH.eigenvectorBasis i : EuclideanSpace ℝ (Fin m)) : Fin m → ℝ) ≠ 0 := by
      intro e
      have := hH.eigenvectorBasis.orthonormal.ne_zero i
      apply this
      ext j
      exact congrFun e j
    rw [Matrix.sub_mulVec, Matrix.smul_mulVec, Matrix.one_mulVec] at h1
    have h2 : gram m n A *ᵥ ((hH.eigenvectorBasis i : EuclideanSpace ℝ (Fin m)) : Fin m → ℝ) =
        (μ - hH.eigenvalues i) • ((hH.eigenvectorBasis i : EuclideanSpace ℝ (Fin m)) : Fin m → ℝ) := by
      rw [sub_smul, ← h1]
      abel
    obtain ⟨s, hs', e⟩ := sv_of_eigen hs hmn hA hne h2
    have := hμ s hs'
    simp only [Pi.zero_apply]
    linarith
  have := hpos.dotProduct_mulVec_nonneg v
  simp only [Matrix.sub_mulVec, Matrix.smul_mulVec, Matrix.one_mulVec, dotProduct_sub, dotProduct_smul,
    star_trivial, smul_eq_mul] at this
  linarith

theorem form_ge (hs : IsSvd svd) {m : Nat} {A : List (List ℝ)} (hmn : m ≤ n) (hA : IsMat m n A) {μ : ℝ}
    (hμ : ∀ s ∈ svd A, μ ≤ s ^ 2) (v : Fin m → ℝ) : μ * (v ⬝ᵥ v) ≤ v ⬝ᵥ (gram m n A *ᵥ v) := by
  have hH : (gram m n A - μ • (1 : Matrix (Fin m) (Fin m) ℝ)).IsHermitian := by
    refine Matrix.IsHermitian.sub (gram_hermitian m n A) ?_
    simp [Matrix.IsHermitian, Matrix.conjTranspose_smul]
  have hpos : (gram m n A - μ • (1 : Matrix (Fin m) (Fin m) ℝ)).PosSemidef := by
    rw [hH.posSemidef_iff_eigenvalues_nonneg]
    intro i
    have h1 := hH.mulVec_eigenvectorBasis i
    have hne : ((hH.eigenvectorBasis i : EuclideanSpace ℝ (Fin m)) : Fin m → ℝ) ≠ 0 := by
      intro e
      have := hH.eigenvectorBasis.orthonormal.ne_zero i
      apply this
      ext j
      exact congrFun e j
    rw [Matrix.sub_mulVec, Matrix.smul_mulVec, Matrix.one_mulVec] at h1
    have h2 : gram m n A *ᵥ ((hH.eigenvectorBasis i : EuclideanSpace ℝ (Fin m)) : Fin m → ℝ) =
        (μ + hH.eigenvalues i) • ((hH.eigenvectorBasis i : EuclideanSpace ℝ (Fin m)) : Fin m → ℝ) := by
      rw [add_smul, ← h1]
      abel
    obtain ⟨s, hs', e⟩ := sv_of_eigen hs hmn hA hne h2
    have := hμ s hs'
    simp only [Pi.zero_apply]
    linarith
  have := hpos.dotProduct_mulVec_nonneg v
  simp only [Matrix.sub_mulVec, Matrix.smul_mulVec, Matrix.one_mulVec, dotProduct_sub, dotProduct_smul,
    star_trivial, smul_eq_mul] at this
  linarith

/-- A vector continued by zeros has the same quadratic form. -/
theorem form_extend {m k : Nat} {A B : List (List ℝ)} (hpre : ∀ i < m, B.getD i [] = A.getD i []) (v : Fin m → ℝ) :
    ∃ w : Fin (m + k) → ℝ, w ⬝ᵥ w = v ⬝ᵥ v ∧ w ⬝ᵥ (gram (m + k) n B *ᵥ w) = v ⬝ᵥ (gram m n A *ᵥ v) := by
  refine ⟨Fin.append v 0, ?_, ?_⟩
  · simp only [dotProduct, Fin.sum_univ_add, Fin.append_left, Fin.append_right]
    simp
  · have hrow : Fin.append v (0 : Fin k → ℝ) ᵥ* matOf (m + k) n B = v ᵥ* matOf m n A := by
      funext j
      simp only [Matrix.vecMul, dotProduct, Fin.sum_univ_add, Fin.append_left, Fin.append_right]
      simp only [Pi.zero_apply, zero_mul, Finset.sum_const_zero, add_zero]
      refine Finset.sum_congr rfl fun i _ => ?_
      simp only [matOf, Fin.val_castAdd]
      rw [hpre i i.2]
    have hform : ∀ (M : Nat) (C : List (List ℝ)) (u : Fin M → ℝ),
        u ⬝ᵥ (gram M n C *ᵥ u) = (u ᵥ* matOf M n C) ⬝ᵥ (u ᵥ* matOf M n C) := by
      intro M C u
      rw [gram, ← Matrix.mulVec_mulVec, Matrix.dotProduct_mulVec, Matrix.mulVec_transpose]
    rw [hform, hform, hrow]

theorem dot_self_pos {m : Nat} {v : Fin m → ℝ} (hv : v ≠ 0) : 0 < v ⬝ᵥ v :=
  lt_of_le_of_ne (dot_self_nonneg v) fun e => hv (dotProduct_self_eq_zero.1 e.symm)

/-- With more rows the singular values spread: those of the first rows lie between the least and the largest one. -/
theorem sv_between (hs : IsSvd svd) {m M : Nat} (hmM : m ≤ M) (hMn : M ≤ n) {A B : List (List ℝ)}
    (hA : IsMat m n A) (hB : IsMat M n B) (hpre : ∀ i < m, B.getD i [] = A.getD i []) {s : ℝ} (hsv : s ∈ svd A) :
    (svd B).getLastD 0 ≤ s ∧ s ≤ (svd B).headD 0 := by
  obtain ⟨k, rfl⟩ := Nat.exists_eq_add_of_le hmM
  have hlen := hs.length _ _ B hMn hB
  have hsort := hs.sorted _ _ B hMn hB
  have hnn := hs.nonneg _ _ B hMn hB
  have hs0 : 0 ≤ s := hs.nonneg _ _ A (hmM.trans hMn) hA s hsv
  have hm : 0 < m := by
    have := hs.length _ _ A (hmM.trans hMn) hA
    rw [← this]
    exact List.length_pos_of_mem hsv
  have hne : svd B ≠ [] := by
    intro e
    rw [e] at hlen
    simp at hlen
    omega
  obtain ⟨v, hv, he⟩ := eigen_of_sv hs (hmM.trans hMn) hA hsv
  obtain ⟨w, hw1, hw2⟩ := form_extend (n := n) (k := k) hpre v
  have hvv := dot_self_pos hv
  have hq : w ⬝ᵥ (gram (m + k) n B *ᵥ w) = s ^ 2 * (w ⬝ᵥ w) := by
    rw [hw2, he, dotProduct_smul, hw1]
    rfl
  have hhead : ∀ t ∈ svd B, t ≤ (svd B).headD 0 := by
    intro t ht
    cases hB' : svd B with
    | nil => exact absurd hB' hne
    | cons a L =>
      rw [hB'] at ht hsort
      rcases List.mem_cons.1 ht with rfl | ht
      · simp
      · simpa using (List.pairwise_cons.1 hsort).1 t ht
  have hlast : ∀ t ∈ svd B, (svd B).getLastD 0 ≤ t := by
    intro t ht
    rw [List.getLastD_eq_getLast?, List.getLast?_eq_some_getLast hne, Option.getD_some]
    rw [← List.dropLast_append_getLast hne] at hsort ht
    rcases List.mem_append.1 ht with h | h
    · exact (List.pairwise_append.1 hsort).2.2 t h _ (List.mem_singleton.2 rfl)
    · rw [List.mem_singleton.1 h]
  have hl0 : 0 ≤ (svd B).getLastD 0 := by
    rw [List.getLastD_eq_getLast?, List.getLast?_eq_some_getLast hne, Option.getD_some]
    exact hnn _ (List.getLast_mem hne)
  constructor
  · have h1 := form_ge hs hMn hB (μ := (svd B).getLastD 0 ^ 2)
      (fun t ht => pow_le_pow_left₀ hl0 (hlast t ht) 2) w
    rw [hq, hw1] at h1
    have h2 := le_of_mul_le_mul_right h1 hvv
    exact le_of_sq_le_sq h2 hs0
  · have h1 := form_le hs hMn hB (μ := (svd B).headD 0 ^ 2)
      (fun t ht => pow_le_pow_left₀ (hnn t ht) (hhead t ht) 2) w
    rw [hq, hw1] at h1
    have h2 := le_of_mul_le_mul_right h1 hvv
    have h3 : 0 ≤ (svd B).headD 0 := by
      obtain ⟨t, ht⟩ := List.exists_mem_of_ne_nil _ hne
      exact (hnn t ht).trans (hhead t ht)
    exact le_of_sq_le_sq h2 h3

/-! ### The condition number -/

theorem last_mem {s : List ℝ} (h : s ≠ []) : s.getLastD 0 ∈ s := by
  rw [List.getLastD_eq_getLast?, List.getLast?_eq_some_getLast h, Option.getD_some]
  exact List.getLast_mem h

theorem head_mem {s : List ℝ} (h : s ≠ []) : s.headD 0 ∈ s := by
  cases s with
  | nil => exact absurd rfl h
  | cons a s => simp

/-- **C177.** At each centre the singular values spread when QoIs are added: those of some of the QoIs lie between the
least and the largest one of all. -/
theorem C177_spread (hs : IsSvd svd) {l L : List Nat} (h : Choice G c n (some L)) (hsub : l.Subperm L)
    {A : List (List ℝ)} (hA : A ∈ G) {s : ℝ} (hsv : s ∈ svd (chosen (some l) A)) :
    (svd (chosen (some L) A)).getLastD 0 ≤ s ∧ s ≤ (svd (chosen (some L) A)).headD 0 := by
  obtain ⟨d, hd⟩ := subperm_append hsub
  have h' : Choice G c n (some (l ++ d)) := Choice.sub h hd.symm.subperm
  have h1 : Choice G c n (some l) := Choice.sub h hsub
  have e : svd (chosen (some L) A) = svd (chosen (some (l ++ d)) A) :=
    svd_perm hs h.few (chosen_shape h A hA) (hd.map _)
  rw [e]
  exact sv_between hs (by simp [count]) h'.few (chosen_shape h1 A hA) (chosen_shape h' A hA) (chosen_prefix l d A) hsv

theorem condnum_append (hs : IsSvd svd) {l d : List Nat} (h : Choice G c n (some (l ++ d))) (hl : 2 ≤ l.length) :
    ∃ m rows m' rows', avgCondnum svd (some G) (some l) = .ok (m, rows) ∧
      avgCondnum svd (some G) (some (l ++ d)) = .ok (m', rows') ∧ numTop m ≤ numTop m' := by
  have h1 : Choice G c n (some l) := Choice.sub h (List.sublist_append_left l d).subperm
  have hmM : count c (some l) ≤ count c (some (l ++ d)) := by simp [count]
  have hc1 : 2 ≤ count c (some l) := by simpa [count] using hl
  obtain ⟨m, rows, e1, i1, f1⟩ := C83_mean_partial hs h1 (Or.inl hc1)
  obtain ⟨m', rows', e2, i2, f2⟩ := C83_mean_partial hs h (Or.inl (hc1.trans hmM))
  refine ⟨m, rows, m', rows', e1, e2, ?_⟩
  by_cases hm' : m' = .inf true
  · rw [hm']
    exact le_top
  have hm : m ≠ .inf true := by
    intro e
    exact hm' (i2.2 fun A hA hi => i1.1 e A hA (indep_prefix hmM (chosen_prefix l d A) hi))
  obtain ⟨x, s, rfl, hx1, hx, hsl, hsA⟩ := f1 hm
  obtain ⟨x', s', rfl, hx1', hx', hsl', hsA'⟩ := f2 hm'
  refine WithTop.coe_le_coe.2 ?_
  have hle : s'.sum ≤ s.sum := by
    refine List.Forall₂.sum_le_sum ?_
    refine List.forall₂_iff_get.2 ⟨by rw [hsl, hsl'], ?_⟩
    intro k hk' hk
    have hkG : k < G.length := hsl ▸ hk
    have hGk : G[k]? = some G[k] := List.getElem?_eq_getElem hkG
    have hmem : G[k] ∈ G := List.getElem_mem hkG
    obtain ⟨a1, a2⟩ := hsA k _ hGk
    obtain ⟨b1, b2⟩ := hsA' k _ hGk
    rw [List.getElem?_eq_getElem hk] at a1 a2
    rw [List.getElem?_eq_getElem hk'] at b1 b2
    simp only [List.get_eq_getElem]
    have hne : svd (chosen (some l) G[k]) ≠ [] := by
      intro e
      have := hs.length _ _ _ h1.few (chosen_shape h1 _ hmem)
      rw [e] at this
      simp at this
      omega
    have hhd := C177_spread hs h (List.sublist_append_left l d).subperm hmem (head_mem hne)
    have hlt := C177_spread hs h (List.sublist_append_left l d).subperm hmem (last_mem hne)
    by_cases hi : Indep c n (some (l ++ d)) G[k]
    · have hi1 : Indep c n (some l) G[k] := indep_prefix hmM (chosen_prefix l d _) hi
      obtain ⟨p1, p2⟩ := a2 hi1
      obtain ⟨q1, q2⟩ := b2 hi
      injection p1 with p1
      injection q1 with q1
      rw [p1, q1]
      have := (condOf_recip hs h1.few (by omega) (chosen_shape h1 _ hmem)).2 hi1
      exact div_le_div₀ p2.le hlt.1 (by linarith [this.2.1]) hhd.2
    · have q := b1 hi
      injection q with q
      rw [q]
      by_cases hi1 : Indep c n (some l) G[k]
      · obtain ⟨p1, p2⟩ := a2 hi1
        injection p1 with p1
        rw [p1]
        have := (condOf_recip hs h1.few (by omega) (chosen_shape h1 _ hmem)).2 hi1
        exact div_nonneg p2.le (by linarith [this.2.1])
      · have p := a1 hi1
        injection p with p
        rw [p]
  unfold IsHarmonicMean at hx hx'
  have hN : (0 : ℝ) < G.length := by
    have := List.length_pos_of_ne_nil h.centres
    positivity
  rw [hsl] at hx
  rw [hsl'] at hx'
  have hS : 0 < s.sum := by
    by_contra hn
    have := mul_nonpos_of_nonneg_of_nonpos (by linarith : 0 ≤ x) (not_lt.1 hn)
    linarith
  have h3 : x' * s'.sum ≤ x' * s.sum := mul_le_mul_of_nonneg_left hle (by linarith)
  exact le_of_mul_le_mul_right (by linarith) hS

/-- One QoI has the condition number one, or an infinite one if its gradient is zero at every centre. -/
theorem condnum_one (hs : IsSvd svd) {i : Nat} (h : Choice G c n (some [i])) :
    ∃ m rows, avgCondnum svd (some G) (some [i]) = .ok (m, rows) ∧
      (m = .inf true ∧ (∀ A ∈ G, ¬ Indep c n (some [i]) A) ∨ m = .fin 1) := by
  have hc : count c (some [i]) ≠ 0 := by simp [count]
  rw [avgCondnum_eq hs h hc]
  by_cases h0 : ∀ A ∈ G, ¬ Indep c n (some [i]) A
  · rw [if_pos h0]
    exact ⟨_, _, rfl, Or.inl ⟨rfl, h0⟩⟩
  rw [if_neg h0]
  have hrow : ∀ s : List ℝ, s.length = 1 → ∃ row, condRow s = .ok row ∧ condNum row = .ok (.fin 1) := by
    intro s hl
    obtain ⟨z, rfl⟩ := List.length_eq_one_iff.1 hl
    by_cases hz : z = 0
    · exact ⟨[.fin 1], by simp [condRow, orErr, hz], by simp [condNum, Num.div]⟩
    · exact ⟨[.fin z], by simp [condRow, orErr, hz], by simp [condNum, Num.div, hz]⟩
  have hall : ∀ svs : List (List ℝ), (∀ s ∈ svs, s.length = 1) → ∃ rows, svs.mapM condRow = .ok rows ∧
      rows.mapM condNum = .ok (List.replicate svs.length (.fin 1)) := by
    intro svs hl
    induction svs with
    | nil => exact ⟨[], rfl, rfl⟩
    | cons s svs ih =>
      obtain ⟨rows, h1, h2⟩ := ih fun s h => hl s (List.mem_cons_of_mem _ h)
      obtain ⟨row, e1, e2⟩ := hrow s (hl s List.mem_cons_self)
      refine ⟨row :: rows, ?_, ?_⟩
      · rw [List.mapM_cons, e1, ok_bind, h1, ok_bind]; rfl
      · rw [List.mapM_cons, e2, ok_bind, h2, ok_bind]; rfl
  obtain ⟨rows, h1, h2⟩ := hall (G.map fun A => svd (chosen (some [i]) A)) (by
    intro s hs'
    obtain ⟨A, hA, rfl⟩ := List.mem_map.1 hs'
    exact hs.length _ _ _ h.few (chosen_shape h A hA))
  have hN : (G.length : ℝ) ≠ 0 := by
    have := List.length_pos_of_ne_nil h.centres
    positivity
  refine ⟨.fin 1, rows, ?_, Or.inr rfl⟩
  simp only [condMean, h1, ok_bind, h2]
  show Except.ok (hmean _, rows) = _
  simp [hmean, Num.recip, Num.div, hN]

/-- **C177.** Adding QoIs never makes the average condition number smaller. -/
theorem C177_condnum (hs : IsSvd svd) {l L : List Nat} (h : Choice G c n (some L)) (hl : l ≠ [])
    (hsub : l.Subperm L) :
    ∃ m rows m' rows', avgCondnum svd (some G) (some l) = .ok (m, rows) ∧
      avgCondnum svd (some G) (some L) = .ok (m', rows') ∧ numTop m ≤ numTop m' := by
  obtain ⟨d, hd⟩ := subperm_append hsub
  have h' : Choice G c n (some (l ++ d)) := Choice.sub h hd.symm.subperm
  rw [← C83_order hs h hd]
  match l, hl with
  | [i], _ =>
    have h1 : Choice G c n (some [i]) := Choice.sub h hsub
    obtain ⟨m, rows, e1, hm⟩ := condnum_one hs h1
    by_cases hd0 : d = []
    · subst hd0
      exact ⟨m, rows, m, rows, e1, e1, le_rfl⟩
    have hmM : count c (some [i]) ≤ count c (some ([i] ++ d)) := by simp [count]
    have hc2 : 2 ≤ count c (some ([i] ++ d)) := by
      have := List.length_pos_of_ne_nil hd0
      simp [count]
      omega
    obtain ⟨m', rows', e2, i2, f2⟩ := C83_mean_partial hs h' (Or.inl hc2)
    refine ⟨m, rows, m', rows', e1, e2, ?_⟩
    by_cases hm' : m' = .inf true
    · rw [hm']
      exact le_top
    rcases hm with ⟨rfl, h0⟩ | rfl
    · exact absurd (i2.2 fun A hA hi => h0 A hA (indep_prefix hmM (chosen_prefix [i] d A) hi)) hm'
    · obtain ⟨x', -, rfl, hx', -⟩ := f2 hm'
      exact WithTop.coe_le_coe.2 hx'
  | i :: j :: l, _ => exact condnum_append hs h' (by simp)

namespace Ex

example := C177_condnum isSvd_svdOf (l := [2, 0]) shortJac_choice (by decide) (by decide)

example {s : ℝ} := C177_spread isSvd_svdOf (l := [2, 0]) shortJac_choice (by decide) (List.mem_singleton.2 rfl) (s := s)

end Ex

end BET
