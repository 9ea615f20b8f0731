import Verif.Props.Skewness
import Verif.Props.GoodSets
import Mathlib.Data.List.GetD

/-!
# C176: more QoIs are never less skewed, so `chooseOptQoIs_large` misses no set
-/

set_option autoImplicit false
set_option linter.unusedSectionVars false
set_option linter.unusedSimpArgs false

namespace BET

open Spec Matrix

/-- The value of a number that may be infinite. -/
def Spec.numTop : Num ℝ → WithTop ℝ
  | .fin x => (x : WithTop ℝ)
  | _ => ⊤

/-- The average skewness of a set of QoIs, infinite if there is none. -/
noncomputable def Spec.skewOf (svd : List (List ℝ) → List ℝ) (G : List (List (List ℝ))) (l : List Nat) : WithTop ℝ :=
  match avgSkewness svd len (some G) (some l) with
  | .ok p => numTop p.1
  | .error _ => ⊤

/-- The average measure of a set of QoIs, infinite if there is none. -/
noncomputable def Spec.measureOf (svd : List (List ℝ) → List ℝ) (G : List (List (List ℝ))) (l : List Nat) : WithTop ℝ :=
  match avgMeasure svd (some G) (some l) none with
  | .ok p => p.1
  | .error _ => ⊤

variable {svd : List (List ℝ) → List ℝ} {G : List (List (List ℝ))} {c n : Nat}

/-! ### One centre -/

theorem rowVec_prefix {m M : Nat} (hmM : m ≤ M) {A B : List (List ℝ)} (hpre : ∀ i < m, B.getD i [] = A.getD i [])
    (i : Fin m) : rowVec M n B (Fin.castLE hmM i) = rowVec m n A i := by
  funext j
  simp only [rowVec, matOf, Fin.val_castLE]
  rw [hpre i i.2]

theorem indep_prefix {m M : Nat} (hmM : m ≤ M) {A B : List (List ℝ)} (hpre : ∀ i < m, B.getD i [] = A.getD i [])
    (hB : LinearIndependent ℝ (rowVec M n B)) : LinearIndependent ℝ (rowVec m n A) := by
  have h := hB.comp (Fin.castLE hmM) (Fin.castLE_injective hmM)
  have e : rowVec M n B ∘ Fin.castLE hmM = rowVec m n A := funext fun i => rowVec_prefix hmM hpre i
  rwa [e] at h

theorem dot_span {S : Set (Fin n → ℝ)} {r v : Fin n → ℝ} (h : ∀ w ∈ S, r ⬝ᵥ w = 0) (hv : v ∈ Submodule.span ℝ S) :
    r ⬝ᵥ v = 0 := by
  induction hv using Submodule.span_induction with
  | mem w hw => exact h w hw
  | zero => exact dotProduct_zero r
  | add u w _ _ hu hw => rw [dotProduct_add, hu, hw, add_zero]
  | smul a w _ hw => rw [dotProduct_smul, hw, smul_zero]

theorem dot_self_nonneg (v : Fin n → ℝ) : 0 ≤ v ⬝ᵥ v := by
  have := dotProduct_star_self_nonneg v
  simpa using this

/-- The part of a row perpendicular to more rows is shorter. -/
theorem perp_prefix {m M : Nat} (hmM : m ≤ M) {A B : List (List ℝ)} (hpre : ∀ i < m, B.getD i [] = A.getD i [])
    (i : Fin m) {r r' : Fin n → ℝ} (h : IsPerp m n A i r) (h' : IsPerp M n B (Fin.castLE hmM i) r') :
    Spec.norm2 r' ≤ Spec.norm2 r := by
  have hsub : Submodule.span ℝ {v | ∃ j, j ≠ i ∧ v = rowVec m n A j} ≤
      Submodule.span ℝ {v | ∃ j, j ≠ Fin.castLE hmM i ∧ v = rowVec M n B j} := by
    refine Submodule.span_mono ?_
    rintro v ⟨j, hj, rfl⟩
    exact ⟨Fin.castLE hmM j, fun e => hj (Fin.castLE_injective hmM e), (rowVec_prefix hmM hpre j).symm⟩
  have hmem : r - r' ∈ Submodule.span ℝ {v | ∃ j, j ≠ Fin.castLE hmM i ∧ v = rowVec M n B j} := by
    have h1 := Submodule.sub_mem _ h'.2 (hsub h.2)
    rw [rowVec_prefix hmM hpre i] at h1
    convert h1 using 1
    abel
  have h0 : r' ⬝ᵥ (r - r') = 0 := dot_span (by rintro w ⟨j, hj, rfl⟩; exact h'.1 j hj) hmem
  have hsq : r ⬝ᵥ r = r' ⬝ᵥ r' + (r - r') ⬝ᵥ (r - r') := by
    have e : r = r' + (r - r') := by abel
    conv_lhs => rw [e]
    rw [add_dotProduct, dotProduct_add, dotProduct_add, h0, dotProduct_comm (r - r') r', h0]
    ring
  refine Real.sqrt_le_sqrt ?_
  rw [hsq]
  have := dot_self_nonneg (r - r')
  linarith

theorem norm2_nonneg (v : Fin n → ℝ) : 0 ≤ Spec.norm2 v := Real.sqrt_nonneg _

/-- The largest skewness of more rows is larger. -/
theorem worst_prefix (hs : IsSvd svd) {m M : Nat} (hmM : m ≤ M) (hMn : M ≤ n) {A B : List (List ℝ)}
    (hA : IsMat m n A) (hB : IsMat M n B) (hpre : ∀ i < m, B.getD i [] = A.getD i [])
    (hi : LinearIndependent ℝ (rowVec M n B)) {x x' : ℝ} (hx : IsGreatest {y | Num.fin y ∈ skewRow svd len A} x)
    (hx' : IsGreatest {y | Num.fin y ∈ skewRow svd len B} x') : x ≤ x' := by
  obtain ⟨i, h1⟩ := List.mem_iff_getElem?.mp hx.1
  obtain ⟨hlt, -⟩ := List.getElem?_eq_some_iff.mp h1
  rw [skewRow_length] at hlt
  have him : i < m := hA.1 ▸ hlt
  rw [skewRow_getElem _ _ hlt] at h1
  obtain ⟨y, r, e1, p1, q1, f1, -, -⟩ := skewEntry_indep hs (hmM.trans hMn) hA (indep_prefix hmM hpre hi) ⟨i, him⟩
  obtain ⟨y', r', e2, p2, q2, f2, -, -⟩ := skewEntry_indep hs hMn hB hi (Fin.castLE hmM ⟨i, him⟩)
  have hxy : x = y := by
    have := (Option.some.inj h1).symm.trans e1
    injection this
  have hmem : Num.fin y' ∈ skewRow svd len B := by
    refine List.mem_iff_getElem?.mpr ⟨i, ?_⟩
    rw [skewRow_getElem _ _ (by rw [hB.1]; omega)]
    exact congrArg some e2
  refine le_trans ?_ (hx'.2 hmem)
  rw [hxy, f1, f2, rowVec_prefix hmM hpre ⟨i, him⟩]
  exact div_le_div_of_nonneg_left (norm2_nonneg _) q2 (perp_prefix hmM hpre _ p1 p2)

/-! ### The harmonic mean -/

theorem hmean_mono {w w' : List (Num ℝ)} (hne : w ≠ []) (hlen : w.length = w'.length) (h0 : ∀ e ∈ w', 0 ≤ e.recip)
    (hle : (w'.map Num.recip).sum ≤ (w.map Num.recip).sum) : numTop (hmean w) ≤ numTop (hmean w') := by
  have hpos : 0 < (w.length : ℝ) := by
    have := List.length_pos_of_ne_nil hne
    positivity
  have hs0 : 0 ≤ (w'.map Num.recip).sum := List.sum_nonneg (by
    intro x hx
    obtain ⟨e, he, rfl⟩ := List.mem_map.mp hx
    exact h0 e he)
  unfold hmean
  rw [← hlen]
  by_cases hz : (w'.map Num.recip).sum = 0
  · have : numTop (Num.div (w.length : ℝ) (w'.map Num.recip).sum) = ⊤ := by
      simp only [Num.div, hz, if_true, if_neg hpos.ne']
      rfl
    rw [this]
    exact le_top
  · have hp' : 0 < (w'.map Num.recip).sum := lt_of_le_of_ne hs0 (Ne.symm hz)
    have hp : (w.map Num.recip).sum ≠ 0 := (hp'.trans_le hle).ne'
    simp only [Num.div, if_neg hz, if_neg hp, numTop]
    exact WithTop.coe_le_coe.2 (div_le_div_of_nonneg_left hpos.le hp' hle)

/-! ### Choices -/

theorem Choice.sub {l L : List Nat} (h : Choice G c n (some L)) (hsub : l.Subperm L) : Choice G c n (some l) := by
  refine ⟨h.centres, h.shape, ?_, ?_⟩
  · rintro _ ⟨⟩ i hi
    exact h.valid L rfl i (hsub.subset hi)
  · have := h.few
    simp only [count] at this ⊢
    exact hsub.length_le.trans this

theorem chosen_prefix (l d : List Nat) (A : List (List ℝ)) :
    ∀ i < count c (some l), (chosen (some (l ++ d)) A).getD i [] = (chosen (some l) A).getD i [] := by
  intro i hi
  simp only [count] at hi
  simp [chosen, List.getD, List.getElem?_append_left hi, List.getElem?_append, hi]

theorem skewness_append (hs : IsSvd svd) {l d : List Nat} (h : Choice G c n (some (l ++ d))) (hl : l ≠ []) :
    ∃ m skew m' skew', avgSkewness svd len (some G) (some l) = .ok (m, skew) ∧
      avgSkewness svd len (some G) (some (l ++ d)) = .ok (m', skew') ∧ numTop m ≤ numTop m' := by
  have h1 : Choice G c n (some l) := Choice.sub h (List.sublist_append_left l d).subperm
  have hc1 : count c (some l) ≠ 0 := by simpa [count] using hl
  have hc2 : count c (some (l ++ d)) ≠ 0 := by simp [count, hl]
  have hmM : count c (some l) ≤ count c (some (l ++ d)) := by simp [count]
  obtain ⟨w, hw, hf⟩ := avgSkewness_eq hs h1 hc1
  obtain ⟨w', hw', hf'⟩ := avgSkewness_eq hs h hc2
  refine ⟨_, _, _, _, hw, hw', ?_⟩
  have key : List.Forall₂ (fun e e' : Num ℝ => 0 ≤ e'.recip ∧ e'.recip ≤ e.recip) w w' := by
    have hsh1 := chosen_shape h1
    have hsh2 := chosen_shape h
    have hone : ∀ A ∈ G, Indep c n (some (l ++ d)) A → ∀ y,
        Num.fin y ∈ skewRow svd len (chosen (some (l ++ d)) A) → 1 ≤ y := fun A hA hi y hy => skew_one_le hs h hA hi hy
    have hone1 : ∀ A ∈ G, Indep c n (some l) A → ∀ y,
        Num.fin y ∈ skewRow svd len (chosen (some l) A) → 1 ≤ y := fun A hA hi y hy => skew_one_le hs h1 hA hi hy
    have hfew := h.few
    clear h h1 hw hw'
    induction G generalizing w w' with
    | nil => cases hf; cases hf'; exact .nil
    | cons A G ih =>
      rcases hf with _ | ⟨ha, hf⟩
      rcases hf' with _ | ⟨ha', hf'⟩
      rename_i e w e' w'
      refine .cons ?_ (ih _ hf _ hf' (fun A hA => hsh1 A (List.mem_cons_of_mem _ hA))
        (fun A hA => hsh2 A (List.mem_cons_of_mem _ hA)) (fun A hA => hone A (List.mem_cons_of_mem _ hA))
        (fun A hA => hone1 A (List.mem_cons_of_mem _ hA)))
      have hA := hsh1 A List.mem_cons_self
      have hB := hsh2 A List.mem_cons_self
      by_cases hi : Indep c n (some (l ++ d)) A
      · obtain ⟨x', rfl, hx'⟩ := ha'.1 hi
        have hi1 : Indep c n (some l) A := indep_prefix hmM (chosen_prefix l d A) hi
        obtain ⟨x, rfl, hx⟩ := ha.1 hi1
        have hle := worst_prefix hs hmM hfew hA hB (chosen_prefix l d A) hi hx hx'
        have hx1 : 1 ≤ x := hone1 A List.mem_cons_self hi1 x hx.1
        refine ⟨?_, ?_⟩
        · show 0 ≤ 1 / x'
          have : 0 < x' := by linarith
          positivity
        · show 1 / x' ≤ 1 / x
          exact one_div_le_one_div_of_le (by linarith) hle
      · rw [ha'.2 hi]
        refine ⟨le_rfl, ?_⟩
        show (0 : ℝ) ≤ e.recip
        by_cases hi1 : Indep c n (some l) A
        · obtain ⟨x, rfl, hx⟩ := ha.1 hi1
          have hx1 : 1 ≤ x := hone1 A List.mem_cons_self hi1 x hx.1
          show 0 ≤ 1 / x
          have : 0 < x := by linarith
          positivity
        · rw [ha.2 hi1]
          exact le_rfl
  have hne : w ≠ [] := by
    intro e
    have := hf.length_eq
    rw [e] at this
    exact h.centres (List.eq_nil_of_length_eq_zero this)
  refine hmean_mono hne key.length_eq ?_ ?_
  · clear hw hw' hf hf' hne
    induction key with
    | nil => simp
    | cons h1 _ ih =>
      intro e he
      rcases List.mem_cons.1 he with rfl | he
      · exact h1.1
      · exact ih e he
  · clear hw hw' hf hf' hne
    induction key with
    | nil => simp
    | cons h1 _ ih =>
      simp only [List.map_cons, List.sum_cons]
      linarith [h1.2]

theorem subperm_append {l L : List Nat} (h : l.Subperm L) : ∃ d, L.Perm (l ++ d) := by
  obtain ⟨l', hp, hs⟩ := h
  obtain ⟨d, hd⟩ := hs.exists_perm_append
  exact ⟨d, hd.trans (hp.append_right d)⟩

/-- **C176.** Adding QoIs to a set never makes its average skewness smaller: it stays, grows, or becomes infinite. -/
theorem C176_skewness (hs : IsSvd svd) {l L : List Nat} (h : Choice G c n (some L)) (hl : l ≠ [])
    (hsub : l.Subperm L) :
    ∃ m skew m' skew', avgSkewness svd len (some G) (some l) = .ok (m, skew) ∧
      avgSkewness svd len (some G) (some L) = .ok (m', skew') ∧ numTop m ≤ numTop m' := by
  obtain ⟨d, hd⟩ := subperm_append hsub
  have h' : Choice G c n (some (l ++ d)) := Choice.sub h hd.symm.subperm
  obtain ⟨m, skew, m', skew', e1, e2, e3⟩ := skewness_append hs h' hl
  obtain ⟨m2, s2, s3, e4, e5⟩ := C82_order hs h (by
    rintro rfl
    exact hl (List.subperm_nil.1 hsub)) hd
  rw [e2] at e5
  have : m' = m2 := by
    injection e5 with e5
    exact congrArg Prod.fst e5
  exact ⟨m, skew, m2, s2, e1, e4, this ▸ e3⟩

theorem skewOf_eq {l : List Nat} {m : Num ℝ} {skew : List (List (Num ℝ))}
    (h : avgSkewness svd len (some G) (some l) = .ok (m, skew)) : skewOf svd G l = numTop m := by
  unfold skewOf
  rw [h]

/-! ### The greedy choice -/

/-- **C176.** `chooseOptQoIs_large` with `measure=False` extends only good sets, and misses none by that: for every
size up to the largest it chooses the best among all sets of unique QoIs of this size whose skewness is below the
tolerance. (`keep` is how the skewnesses of the single QoIs are stored.) -/
theorem C176_complete (hs : IsSvd svd) {argsort : List (WithTop ℝ) → List Nat} (hA : SortsWith argsort)
    {enum : List Nat → List Nat} (he : Enumerates enum) (hG : G ≠ []) (hsh : ∀ A ∈ G, IsMat c n A)
    (keep : List (List (Num ℝ)) → List (List ℝ)) (innerTol : Option ℝ) (tol : Option (WithTop ℝ))
    (qois : Option (List Nat)) (hq : ∀ i ∈ qois.getD (List.range c), i < c) (rz : Bool) (maxQois num : Option Nat)
    (hnum : 0 < num.getD 10) (hmax : 1 ≤ maxQois.getD n) (hmax' : maxQois.getD n ≤ n) {size : Nat} (hsize : 0 < size) :
    ∃ u bests, uniqueVecs enum len (some G) (innerTol.getD 1) qois rz = .ok u ∧ u.Nodup ∧
      chooseOptLarge argsort enum len
        (fun l => (avgSkewness svd len (some G) (some l)).map fun p => (numTop p.1, keep p.2)) size n (some G) qois
        maxQois num innerTol tol rz = .ok bests ∧ bests.length = maxQois.getD n - 1 ∧
      ∀ (j : Nat) (rows : List (WithTop ℝ × List Nat)), bests[j]? = some rows →
        ∃ good : List (List Nat), good.Nodup ∧
          (∀ l, l ∈ good ↔ l.length = j + 2 ∧ l.Pairwise (· < ·) ∧ (∀ i ∈ l, i ∈ u) ∧
            skewOf svd G l < tol.getD ⊤) ∧ BestOf (num.getD 10) (skewOf svd G) good rows := by
  have hch : ∀ l : List Nat, (∀ i ∈ l, i < c) → l.length ≤ n → Choice G c n (some l) := fun l h1 h2 =>
    ⟨hG, hsh, by rintro _ ⟨⟩; exact h1, h2⟩
  have hval : ∀ l : List Nat, (∀ i ∈ l, i < c) → l.length ≤ n → l ≠ [] → ∃ sk,
      avgSkewness svd len (some G) (some l) = .ok sk ∧ skewOf svd G l = numTop sk.1 := by
    intro l h1 h2 h3
    obtain ⟨w, hw, -⟩ := avgSkewness_eq hs (hch l h1 h2) (by simpa [count] using h3)
    exact ⟨_, hw, skewOf_eq hw⟩
  have hscore : ∀ l : List Nat, l.Pairwise (· < ·) → (∀ i ∈ l, i < c) → 2 ≤ l.length → l.length ≤ maxQois.getD n →
      (avgSkewness svd len (some G) (some l)).map (fun p => (numTop p.1, keep p.2)) =
        .ok (skewOf svd G l, match avgSkewness svd len (some G) (some l) with
          | .ok p => keep p.2
          | .error _ => []) := by
    intro l _ h2 h3 h4
    obtain ⟨sk, e1, e2⟩ := hval l h2 (h4.trans hmax') (by rintro rfl; simp at h3)
    rw [e1, e2]
    rfl
  obtain ⟨u, bests, h1, h2, h3, h4, h5⟩ := C55_large_partial hA he len
    (show HasQois G c from ⟨hG, fun A hA => (hsh A hA).1⟩) innerTol tol qois hq rz n maxQois num hnum hmax hsize hscore
  refine ⟨u, bests, h1, h2, h3, h4, fun j rows hj => ?_⟩
  obtain ⟨good, g1, g2, g3⟩ := h5 j rows hj
  refine ⟨good, g1, fun l => ?_, g3⟩
  have hjl : j < bests.length := (List.getElem?_eq_some_iff.mp hj).1
  obtain ⟨u', e', -, humem, -⟩ := C53_unique he len (show HasQois G c from ⟨hG, fun A hA => (hsh A hA).1⟩)
    (innerTol.getD 1) qois hq rz
  have huu : u' = u := by
    rw [h1] at e'
    injection e' with e'
    exact e'.symm
  rw [huu] at humem
  rw [g2]
  constructor
  · rintro ⟨a1, a2, a3, a4⟩
    refine ⟨a1, a2, a3, ?_⟩
    have := a4 (j + 2) (by omega) le_rfl
    rwa [List.take_of_length_le a1.le] at this
  · rintro ⟨a1, a2, a3, a4⟩
    refine ⟨a1, a2, a3, fun k hk2 hkj => ?_⟩
    have hlt : ∀ i ∈ l, i < c := fun i hi => hq i (humem i (a3 i hi)).1
    have hlen : l.length ≤ n := by omega
    obtain ⟨m, sk, m', sk', e1, e2, e3⟩ := C176_skewness hs (hch l hlt hlen) (l := l.take k) (by
      intro e
      have := congrArg List.length e
      rw [List.length_take, List.length_nil] at this
      omega) (List.take_sublist k l).subperm
    rw [skewOf_eq e1]
    rw [skewOf_eq e2] at a4
    exact e3.trans_lt a4

/-! ### The measure -/

theorem spanned_append_one (l : List Nat) (j : Nat) {A : List (List ℝ)} (hA : IsMat c n A)
    (hval : ∀ i ∈ l ++ [j], i < c) (hshort : ∀ v ∈ A, len v ≤ 1) :
    spanned c n (some (l ++ [j])) A ≤ spanned c n (some l) A := by
  unfold spanned
  have hcount : count c (some (l ++ [j])) = l.length + 1 := by simp [count]
  have hcount' : count c (some l) = l.length := rfl
  rw [hcount, hcount']
  have hB : IsMat (l.length + 1) n (chosen (some (l ++ [j])) A) := by
    refine ⟨by simp [chosen], ?_⟩
    intro r hr
    simp only [chosen, List.mem_map] at hr
    obtain ⟨i, hi, rfl⟩ := hr
    refine hA.2 _ ?_
    have hil : i < A.length := by rw [hA.1]; exact hval i hi
    rw [List.getD_eq_getElem _ _ hil]
    exact List.getElem_mem hil
  by_cases hd : (gram (l.length + 1) n (chosen (some (l ++ [j])) A)).det = 0
  · rw [hd, Real.sqrt_zero]
    exact Real.sqrt_nonneg _
  · obtain ⟨cf, r, hdec, hperp, hdet⟩ := perp_exists (Fin.last l.length) hd
    have herase : (chosen (some (l ++ [j])) A).eraseIdx ((Fin.last l.length : Fin (l.length + 1)) : Nat) =
        chosen (some l) A := by
      simp [chosen, List.eraseIdx_append_of_length_le]
    rw [herase] at hdet
    refine Real.sqrt_le_sqrt ?_
    rw [hdet]
    have hD := gram_det_nonneg l.length n (chosen (some l) A)
    set s : Fin n → ℝ := ∑ i, cf i • rowVec (l.length + 1) n (chosen (some (l ++ [j])) A) ((Fin.last _).succAbove i)
      with hsd
    have hrs : r ⬝ᵥ s = 0 := by
      rw [hsd, dotProduct_sum]
      refine Finset.sum_eq_zero fun i _ => ?_
      rw [dotProduct_smul, hperp i, smul_zero]
    have hg : gram (l.length + 1) n (chosen (some (l ++ [j])) A) (Fin.last _) (Fin.last _) = r ⬝ᵥ r + s ⬝ᵥ s := by
      show rowVec _ n _ (Fin.last _) ⬝ᵥ rowVec _ n _ (Fin.last _) = _
      rw [hdec]
      simp only [add_dotProduct, dotProduct_add]
      rw [dotProduct_comm s r, hrs]
      ring
    rw [gram_diag hB] at hg
    have hlen : len ((chosen (some (l ++ [j])) A).getD ((Fin.last l.length : Fin (l.length + 1)) : Nat) []) ≤ 1 := by
      have hj : j < A.length := by rw [hA.1]; exact hval j (by simp)
      have e : (chosen (some (l ++ [j])) A).getD ((Fin.last l.length : Fin (l.length + 1)) : Nat) [] = A.getD j [] := by
        simp [chosen, List.getD]
      rw [e, List.getD_eq_getElem _ _ hj]
      exact hshort _ (List.getElem_mem hj)
    have hlen0 : 0 ≤ len ((chosen (some (l ++ [j])) A).getD ((Fin.last l.length : Fin (l.length + 1)) : Nat) []) :=
      Real.sqrt_nonneg _
    have hrr : r ⬝ᵥ r ≤ 1 := by
      have := dot_self_nonneg s
      nlinarith
    nlinarith

theorem spanned_append (l d : List Nat) {A : List (List ℝ)} (hA : IsMat c n A)
    (hval : ∀ i ∈ l ++ d, i < c) (hshort : ∀ v ∈ A, len v ≤ 1) :
    spanned c n (some (l ++ d)) A ≤ spanned c n (some l) A := by
  induction d generalizing l with
  | nil => rw [List.append_nil]
  | cons j d ih =>
    have e : l ++ j :: d = (l ++ [j]) ++ d := by simp
    rw [e]
    rw [e] at hval
    exact (ih (l ++ [j]) hval).trans (spanned_append_one l j hA (fun i hi => hval i (List.mem_append_left _ hi)) hshort)

/-- **C176.** If no gradient is longer than one, as with `normalize=True`, adding QoIs never makes the average measure
smaller. -/
theorem C176_measure (hs : IsSvd svd) {l L : List Nat} (h : Choice G c n (some L)) (hsub : l.Subperm L)
    (hshort : ∀ A ∈ G, ∀ v ∈ A, len v ≤ 1) {bin : Option ℝ} (hbin : 0 ≤ bin.getD 1) :
    ∃ m sv m' sv', avgMeasure svd (some G) (some l) bin = .ok (m, sv) ∧
      avgMeasure svd (some G) (some L) bin = .ok (m', sv') ∧ m ≤ m' := by
  obtain ⟨d, hd⟩ := subperm_append hsub
  have h' : Choice G c n (some (l ++ d)) := Choice.sub h hd.symm.subperm
  refine ⟨_, _, _, _, avgMeasure_eq hs (Choice.sub h hsub) bin,
    (C81_order hs h hd bin).symm.trans (avgMeasure_eq hs h' bin), ?_⟩
  have hsum : (G.map (spanned c n (some (l ++ d)))).sum ≤ (G.map (spanned c n (some l))).sum :=
    List.sum_le_sum fun A hA => spanned_append l d (h.shape A hA) (h'.valid _ rfl) (hshort A hA)
  have h0 : 0 ≤ (G.map (spanned c n (some (l ++ d)))).sum := List.sum_nonneg (by
    intro x hx
    obtain ⟨A, -, rfl⟩ := List.mem_map.1 hx
    exact spanned_nonneg _ _ _ _)
  have hl : 0 < (G.length : ℝ) := by
    have := List.length_pos_of_ne_nil h.centres
    positivity
  by_cases hz : (G.map (spanned c n (some (l ++ d)))).sum / (G.length : ℝ) = 0
  · rw [if_pos hz]
    exact le_top
  · have hp : 0 < (G.map (spanned c n (some (l ++ d)))).sum / (G.length : ℝ) :=
      lt_of_le_of_ne (div_nonneg h0 hl.le) (Ne.symm hz)
    have hle : (G.map (spanned c n (some (l ++ d)))).sum / (G.length : ℝ) ≤
        (G.map (spanned c n (some l))).sum / (G.length : ℝ) := div_le_div_of_nonneg_right hsum hl.le
    rw [if_neg hz, if_neg (hp.trans_le hle).ne']
    exact WithTop.coe_le_coe.2 (div_le_div_of_nonneg_left hbin hp hle)

theorem sum_sq_le (v : List ℝ) : (v.map fun x => x ^ 2).sum ≤ (v.map fun x => |x|).sum ^ 2 := by
  induction v with
  | nil => simp
  | cons a v ih =>
    simp only [List.map_cons, List.sum_cons]
    have h0 : 0 ≤ (v.map fun x => |x|).sum := List.sum_nonneg (by
      intro x hx
      obtain ⟨y, -, rfl⟩ := List.mem_map.1 hx
      exact abs_nonneg y)
    have := mul_nonneg (abs_nonneg a) h0
    have h2 := sq_abs a
    nlinarith

/-- **C176.** Gradients with 1-norm at most one, such as `normalize=True` gives, are not longer than one. -/
theorem C176_normalized {v : List ℝ} (h : (v.map fun x => |x|).sum ≤ 1) : len v ≤ 1 := by
  have h0 : 0 ≤ (v.map fun x => |x|).sum := List.sum_nonneg (by
    intro x hx
    obtain ⟨y, -, rfl⟩ := List.mem_map.1 hx
    exact abs_nonneg y)
  rw [len, Real.sqrt_le_one]
  have := sum_sq_le v
  nlinarith

/-- **C176.** If no gradient is longer than one, `chooseOptQoIs_large` with `measure=True` misses no set either. -/
theorem C176_complete_measure (hs : IsSvd svd) {argsort : List (WithTop ℝ) → List Nat} (hA : SortsWith argsort)
    {enum : List Nat → List Nat} (he : Enumerates enum) (hG : G ≠ []) (hsh : ∀ A ∈ G, IsMat c n A)
    (hshort : ∀ A ∈ G, ∀ v ∈ A, len v ≤ 1) (innerTol : Option ℝ) (tol : Option (WithTop ℝ))
    (qois : Option (List Nat)) (hq : ∀ i ∈ qois.getD (List.range c), i < c) (rz : Bool) (maxQois num : Option Nat)
    (hnum : 0 < num.getD 10) (hmax : 1 ≤ maxQois.getD n) (hmax' : maxQois.getD n ≤ n) {size : Nat} (hsize : 0 < size) :
    ∃ u bests, uniqueVecs enum len (some G) (innerTol.getD 1) qois rz = .ok u ∧ u.Nodup ∧
      chooseOptLarge argsort enum len (fun l => avgMeasure svd (some G) (some l) none) size n (some G) qois
        maxQois num innerTol tol rz = .ok bests ∧ bests.length = maxQois.getD n - 1 ∧
      ∀ (j : Nat) (rows : List (WithTop ℝ × List Nat)), bests[j]? = some rows →
        ∃ good : List (List Nat), good.Nodup ∧
          (∀ l, l ∈ good ↔ l.length = j + 2 ∧ l.Pairwise (· < ·) ∧ (∀ i ∈ l, i ∈ u) ∧
            measureOf svd G l < tol.getD ⊤) ∧ BestOf (num.getD 10) (measureOf svd G) good rows := by
  have hch : ∀ l : List Nat, (∀ i ∈ l, i < c) → l.length ≤ n → Choice G c n (some l) := fun l h1 h2 =>
    ⟨hG, hsh, by rintro _ ⟨⟩; exact h1, h2⟩
  have hscore : ∀ l : List Nat, l.Pairwise (· < ·) → (∀ i ∈ l, i < c) → 2 ≤ l.length → l.length ≤ maxQois.getD n →
      avgMeasure svd (some G) (some l) none =
        .ok (measureOf svd G l, G.map fun A => svd (chosen (some l) A)) := by
    intro l _ h2 _ h4
    have := avgMeasure_eq hs (hch l h2 (h4.trans hmax')) none
    unfold measureOf
    rw [this]
  obtain ⟨u, bests, h1, h2, h3, h4, h5⟩ := C55_large_partial hA he len
    (show HasQois G c from ⟨hG, fun A hA => (hsh A hA).1⟩) innerTol tol qois hq rz n maxQois num hnum hmax hsize hscore
  refine ⟨u, bests, h1, h2, h3, h4, fun j rows hj => ?_⟩
  obtain ⟨good, g1, g2, g3⟩ := h5 j rows hj
  refine ⟨good, g1, fun l => ?_, g3⟩
  have hjl : j < bests.length := (List.getElem?_eq_some_iff.mp hj).1
  obtain ⟨u', e', -, humem, -⟩ := C53_unique he len (show HasQois G c from ⟨hG, fun A hA => (hsh A hA).1⟩)
    (innerTol.getD 1) qois hq rz
  have huu : u' = u := by
    rw [h1] at e'
    injection e' with e'
    exact e'.symm
  rw [huu] at humem
  rw [g2]
  constructor
  · rintro ⟨a1, a2, a3, a4⟩
    refine ⟨a1, a2, a3, ?_⟩
    have := a4 (j + 2) (by omega) le_rfl
    rwa [List.take_of_length_le a1.le] at this
  · rintro ⟨a1, a2, a3, a4⟩
    refine ⟨a1, a2, a3, fun k hk2 hkj => ?_⟩
    have hlt : ∀ i ∈ l, i < c := fun i hi => hq i (humem i (a3 i hi)).1
    have hlen : l.length ≤ n := by omega
    obtain ⟨m, sk, m', sk', e1, e2, e3⟩ := C176_measure hs (hch l hlt hlen) (l := l.take k)
      (List.take_sublist k l).subperm hshort (bin := none) (by norm_num)
    have f1 : measureOf svd G (l.take k) = m := by unfold measureOf; rw [e1]
    have f2 : measureOf svd G l = m' := by unfold measureOf; rw [e2]
    rw [f1]
    rw [f2] at a4
    exact e3.trans_lt a4

/-! ### Long gradients -/

namespace Ex

/-- Three perpendicular gradients of lengths 1, 1/10 and 100. -/
noncomputable def longJac : List (List ℝ) := [[1, 0, 0], [0, 1/10, 0], [0, 0, 100]]

theorem longJac_mat : IsMat 3 3 longJac := by
  refine ⟨rfl, ?_⟩
  intro r hr
  simp [longJac] at hr
  rcases hr with rfl | rfl | rfl <;> rfl

theorem longJac_choice (l : List Nat) (h : ∀ i ∈ l, i < 3) (hl : l.length ≤ 3) : Choice [longJac] 3 3 (some l) :=
  ⟨by simp, by simpa using longJac_mat, by rintro _ ⟨⟩; exact h, hl⟩

theorem longJac_01 : spanned 3 3 (some [0, 1]) longJac = 1/10 := by
  have : (gram 2 3 (Spec.chosen (some [0, 1]) longJac)).det = (1/10) ^ 2 := by
    rw [Matrix.det_fin_two]
    simp [gram, Matrix.mul_apply, Matrix.transpose_apply, matOf, Fin.sum_univ_three, Spec.chosen, longJac]
    norm_num
  show Real.sqrt (gram 2 3 (Spec.chosen (some [0, 1]) longJac)).det = 1/10
  rw [this, Real.sqrt_sq (by norm_num)]

theorem longJac_012 : spanned 3 3 (some [0, 1, 2]) longJac = 10 := by
  have : (gram 3 3 (Spec.chosen (some [0, 1, 2]) longJac)).det = 10 ^ 2 := by
    rw [Matrix.det_fin_three]
    simp [gram, Matrix.mul_apply, Matrix.transpose_apply, matOf, Fin.sum_univ_three, Spec.chosen, longJac]
    norm_num
  show Real.sqrt (gram 3 3 (Spec.chosen (some [0, 1, 2]) longJac)).det = 10
  rw [this, Real.sqrt_sq (by norm_num)]

theorem longJac_measure (hs : IsSvd svd) :
    measureOf svd [longJac] [0, 1] = ((10 : ℝ) : WithTop ℝ) ∧
    measureOf svd [longJac] [0, 1, 2] = ((1/10 : ℝ) : WithTop ℝ) := by
  have h1 := avgMeasure_eq hs (longJac_choice [0, 1] (by decide) (by decide)) none
  have h2 := avgMeasure_eq hs (longJac_choice [0, 1, 2] (by decide) (by decide)) none
  unfold measureOf
  rw [h1, h2]
  simp only [List.map_cons, List.map_nil, List.sum_cons, List.sum_nil, longJac_01, longJac_012]
  norm_num

end Ex

/-- **C176 fails for the measure of long gradients**: with the tolerance 5 nothing is chosen of size 3 (all rows are
infinite), although the three QoIs are unique and have the measure 1/10. The set of the first two has the measure 10
and is not extended. -/
theorem C176_negation_measure (hs : IsSvd svd) {argsort : List (WithTop ℝ) → List Nat} (hA : SortsWith argsort)
    {enum : List Nat → List Nat} (he : Enumerates enum) {size : Nat} (hsize : 0 < size) :
    measureOf svd [Ex.longJac] [0, 1, 2] = ((1/10 : ℝ) : WithTop ℝ) ∧
    ∃ u b2 b3, uniqueVecs enum len (some [Ex.longJac]) 1 none true = .ok u ∧ (∀ i < 3, i ∈ u) ∧
      chooseOptLarge argsort enum len (fun l => avgMeasure svd (some [Ex.longJac]) (some l) none) size 3
        (some [Ex.longJac]) none none none none (some ((5 : ℝ) : WithTop ℝ)) true = .ok [b2, b3] ∧
      ∀ r ∈ b3, r.1 = ⊤ := by
  refine ⟨(Ex.longJac_measure hs).2, ?_⟩
  have hH : HasQois [Ex.longJac] 3 := ⟨by simp, by simpa using Ex.longJac_mat.1⟩
  have hscore : ∀ l : List Nat, l.Pairwise (· < ·) → (∀ i ∈ l, i < 3) → 2 ≤ l.length →
      l.length ≤ (none : Option Nat).getD 3 →
      avgMeasure svd (some [Ex.longJac]) (some l) none = .ok (measureOf svd [Ex.longJac] l,
        [Ex.longJac].map fun A => svd (chosen (some l) A)) := by
    intro l _ h2 _ h4
    have := avgMeasure_eq hs (Ex.longJac_choice l h2 h4) none
    unfold measureOf
    rw [this]
  obtain ⟨u, bests, h1, h2, h3, h4, h5⟩ := C55_large_partial hA he len hH (none : Option ℝ)
    (some ((5 : ℝ) : WithTop ℝ)) none (by simp) true 3 none none (by decide) (by decide) hsize hscore
  obtain ⟨u', e', -, humem, -, hall⟩ := C53_unique he len hH (1 : ℝ) none (by simp) true
  have h1' : uniqueVecs enum len (some [Ex.longJac]) 1 none true = .ok u := h1
  have huu : u' = u := by
    rw [h1'] at e'
    injection e' with e'
    exact e'.symm
  rw [huu] at humem hall
  have hlen : bests.length = 2 := h4
  obtain ⟨b2, b3, rfl⟩ : ∃ b2 b3, bests = [b2, b3] := by
    match bests, hlen with
    | [x, y], _ => exact ⟨x, y, rfl⟩
  refine ⟨u, b2, b3, h1', ?_, h3, ?_⟩
  · intro i hi
    by_contra hni
    have hz : ¬ SomewhereZero len [Ex.longJac] i := by
      rintro ⟨k, hk, h0⟩
      obtain rfl : k = 0 := by simpa using hk
      interval_cases i <;> simp [grad, Ex.longJac, len] at h0
    rcases hall i (by simpa using hi) hni with ⟨-, h⟩ | ⟨j, hj, hji, hlt⟩
    · exact hz h
    · have hj3 : j < 3 := by simpa using (humem j hj).1
      interval_cases i <;> interval_cases j <;> first
        | exact hji rfl
        | (exfalso; revert hlt; simp [avgAlign, grad, direction, Ex.longJac, len])
  · intro r hr
    by_contra hne
    obtain ⟨good, -, g2, g3⟩ := h5 1 b3 rfl
    obtain ⟨hmem, -⟩ := g3.2.2.1 r hr hne
    obtain ⟨a1, a2, a3, a4⟩ := (g2 _).1 hmem
    have hlt : ∀ i ∈ r.2, i < 3 := fun i hi => by simpa using (humem i (a3 i hi)).1
    have hr2 : r.2 = [0, 1, 2] := by
      match hl : r.2, a1 with
      | [x, y, z], _ =>
        rw [hl] at a2 hlt
        simp at a2 hlt
        obtain ⟨⟨p1, p2⟩, p3⟩ := a2
        obtain ⟨q1, q2, q3⟩ := hlt
        have : x = 0 ∧ y = 1 ∧ z = 2 := by omega
        obtain ⟨rfl, rfl, rfl⟩ := this
        rfl
    have := a4 2 le_rfl (by norm_num)
    rw [hr2] at this
    simp only [List.take_succ_cons, List.take_zero] at this
    rw [(Ex.longJac_measure hs).1] at this
    have h10 := WithTop.coe_lt_coe.1 this
    norm_num at h10

namespace Ex

/-- Skewness grows from the first two QoIs to all three, none of which is longer than one. -/
noncomputable def shortJac : List (List ℝ) := [[1, 0, 0], [0, 1, 0], [0, 1/2, 1/2]]

theorem shortJac_choice : Choice [shortJac] 3 3 (some [0, 1, 2]) :=
  ⟨by simp, by
    intro A hA
    obtain rfl : A = shortJac := by simpa using hA
    refine ⟨rfl, ?_⟩
    intro r hr
    simp [shortJac] at hr
    rcases hr with rfl | rfl | rfl <;> rfl, by rintro _ ⟨⟩; decide, by decide⟩

example := C176_skewness isSvd_svdOf (l := [2, 0]) shortJac_choice (by decide) (by decide)

theorem shortJac_short : ∀ A ∈ [shortJac], ∀ v ∈ A, len v ≤ 1 := by
  intro A hA v hv
  obtain rfl : A = shortJac := by simpa using hA
  simp [shortJac] at hv
  rcases hv with rfl | rfl | rfl
  · simp [len]
  · simp [len]
  · rw [len, Real.sqrt_le_one]
    norm_num

example := C176_measure isSvd_svdOf (l := [2, 0]) (bin := none) shortJac_choice (by decide) shortJac_short (by norm_num)

example := C176_complete isSvd_svdOf argsortLe_sorts enumSorted_enumerates shortJac_choice.centres shortJac_choice.shape
  (fun _ => []) none (some ((3 : ℝ) : WithTop ℝ)) none (by simp) true none (some 2) (by decide) (by decide) (by decide)
  (size := 2) (by decide)

example := C176_complete_measure isSvd_svdOf argsortLe_sorts enumSorted_enumerates shortJac_choice.centres
  shortJac_choice.shape shortJac_short none (some ((3 : ℝ) : WithTop ℝ)) none (by simp) true none (some 2) (by decide)
  (by decide) (by decide) (size := 2) (by decide)

example := C176_negation_measure isSvd_svdOf argsortLe_sorts enumSorted_enumerates (size := 1) (by decide)

end Ex

end BET
