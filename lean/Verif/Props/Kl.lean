import Verif.Model.CompareKl
import Verif.Props.CompareLimit
import Verif.Props.GridCompare
import Mathlib.Analysis.SpecialFunctions.Log.NegMulLog

/-!
# C146: Kullback-Leibler distances
-/

set_option linter.unusedSectionVars false
set_option linter.unusedSimpArgs false
set_option autoImplicit false

namespace BET

open Spec MeasureTheory ProbabilityTheory Filter Topology

/-! ## Specification -/

namespace Spec

/-- The values of two densities at the same points: not negative, with positive sums, and the second is positive
where the first is. -/
structure KlPair (P Q : List ℝ) : Prop where
  length : P.length = Q.length
  left : ∀ x ∈ P, 0 ≤ x
  right : ∀ x ∈ Q, 0 ≤ x
  sumLeft : 0 < P.sum
  sumRight : 0 < Q.sum
  dominated : ∀ k, 0 < P.getD k 0 → 0 < Q.getD k 0

/-- Values divided by their sum. -/
noncomputable def shareOf (P : List ℝ) (k : Nat) : ℝ := P.getD k 0 / P.sum

/-- The relative entropy of the normalised values. -/
noncomputable def relativeEntropy (P Q : List ℝ) : ℝ :=
  ∑ k ∈ Finset.range P.length, shareOf P k * Real.log (shareOf P k / shareOf Q k)

/-- The call `c.distance('kl', normalize)` returns `d`. -/
def GivesKl (c : Compare ℝ) (normalize : Bool) (d : ℝ) : Prop :=
  ∃ c', c.distanceKl Real.log normalize = .ok (d, c')

end Spec

/-! ## Values -/

theorem KlPair.nonneg {P Q : List ℝ} (h : KlPair P Q) (k : Nat) : 0 ≤ P.getD k 0 ∧ 0 ≤ Q.getD k 0 := by
  have key : ∀ L : List ℝ, (∀ x ∈ L, 0 ≤ x) → 0 ≤ L.getD k 0 := by
    intro L hL
    rcases lt_or_ge k L.length with hk | hk
    · rw [List.getD_eq_getElem?_getD, List.getElem?_eq_getElem hk]
      exact hL _ (List.getElem_mem hk)
    · rw [List.getD_eq_getElem?_getD, List.getElem?_eq_none hk]
      exact le_rfl
  exact ⟨key P h.left, key Q h.right⟩

theorem sum_getD (P : List ℝ) : ∑ k ∈ Finset.range P.length, P.getD k 0 = P.sum := by
  induction P with
  | nil => rfl
  | cons a P ih =>
    rw [List.length_cons, Finset.sum_range_succ', List.sum_cons, ← ih, add_comm]
    rfl

theorem sum_shareOf {P : List ℝ} (h : P.sum ≠ 0) : ∑ k ∈ Finset.range P.length, shareOf P k = 1 := by
  simp only [shareOf]
  rw [← Finset.sum_div, sum_getD, div_self h]

theorem KlPair.share {P Q : List ℝ} (h : KlPair P Q) (k : Nat) :
    0 ≤ shareOf P k ∧ 0 ≤ shareOf Q k ∧ (0 < shareOf P k → 0 < shareOf Q k) := by
  obtain ⟨h1, h2⟩ := KlPair.nonneg h k
  refine ⟨div_nonneg h1 h.sumLeft.le, div_nonneg h2 h.sumRight.le, fun h3 => ?_⟩
  refine div_pos (h.dominated k ?_) h.sumRight
  by_contra h4
  have : P.getD k 0 = 0 := le_antisymm (not_lt.1 h4) h1
  rw [Spec.shareOf, this, zero_div] at h3
  exact lt_irrefl _ h3

theorem relEntr_ok {x y : ℝ} (hx : 0 ≤ x) (hy : 0 ≤ y) (h : 0 < x → 0 < y) :
    relEntr Real.log x y = .ok (x * Real.log (x / y)) := by
  rcases hx.eq_or_lt with rfl | hx'
  · simp [relEntr, hy]
  · simp [relEntr, hx', h hx']

theorem relEntr_inf {x y : ℝ} (hx : 0 < x) (hy : y ≤ 0) : relEntr Real.log x y = .error .zeroDivision := by
  simp [relEntr, hx, hx.ne', not_lt.2 hy]

theorem mapM_relEntr {p q : List ℝ} (hl : p.length = q.length)
    (h : ∀ k, 0 ≤ p.getD k 0 ∧ 0 ≤ q.getD k 0 ∧ (0 < p.getD k 0 → 0 < q.getD k 0)) :
    (p.zip q).mapM (fun z => relEntr Real.log z.1 z.2) = .ok (List.zipWith (fun x y => x * Real.log (x / y)) p q) := by
  induction p generalizing q with
  | nil => rfl
  | cons a p ih =>
    cases q with
    | nil => simp at hl
    | cons b q =>
      have h0 : 0 ≤ a ∧ 0 ≤ b ∧ (0 < a → 0 < b) := h 0
      have h1 := ih (q := q) (by simpa using hl) fun k => h (k + 1)
      rw [List.zip_cons_cons, List.mapM_cons]
      dsimp only
      rw [relEntr_ok h0.1 h0.2.1 h0.2.2, ok_bind, h1, ok_bind]
      rfl

theorem normalized_ok {P : List ℝ} (h : P.sum ≠ 0) : normalized P = .ok (P.map fun x => x / P.sum) := by
  simp [normalized, h, raiseIf_false, ok_bind]

theorem getD_shareOf (P : List ℝ) (k : Nat) : (P.map fun x => x / P.sum).getD k 0 = shareOf P k := by
  rw [shareOf, List.getD_eq_getElem?_getD, List.getD_eq_getElem?_getD, List.getElem?_map]
  cases P[k]? <;> simp

theorem klDiv_ok {P Q : List ℝ} (h : KlPair P Q) : klDiv Real.log P Q = .ok (relativeEntropy P Q) := by
  have e := mapM_relEntr (p := P.map fun x => x / P.sum) (q := Q.map fun x => x / Q.sum) (by simpa using h.length)
    (fun k => by rw [getD_shareOf, getD_shareOf]; exact KlPair.share h k)
  have h1 := h.length
  simp only [klDiv, normalized_ok h.sumLeft.ne', normalized_ok h.sumRight.ne', ok_bind, e]
  simp only [h1, ne_eq, not_true, decide_false, raiseIf_false, ok_bind]
  show Except.ok _ = _
  rw [sum_zipWith_getD _ (by simpa using h.length), relativeEntropy]
  simp only [getD_shareOf, List.length_map]

theorem KlPair.normalized {P Q : List ℝ} (h : KlPair P Q) (b : Bool) : KlPair (densN b P) (densN b Q) := by
  cases b with
  | false => exact h
  | true =>
    refine ⟨by simpa [densN] using h.length, densN_nonneg h.left, densN_nonneg h.right, ?_, ?_, ?_⟩
    · simp only [densN, if_true, sum_normalized h.sumLeft.ne', zero_lt_one]
    · simp only [densN, if_true, sum_normalized h.sumRight.ne', zero_lt_one]
    · intro k
      simp only [densN, if_true, getD_shareOf]
      exact (KlPair.share h k).2.2

theorem relativeEntropy_normalized {P Q : List ℝ} (h : KlPair P Q) (b : Bool) :
    relativeEntropy (densN b P) (densN b Q) = relativeEntropy P Q := by
  cases b with
  | false => rfl
  | true =>
    rw [relativeEntropy, relativeEntropy, length_densN]
    refine Finset.sum_congr rfl fun k _ => ?_
    have e : ∀ L : List ℝ, L.sum ≠ 0 → shareOf (densN true L) k = shareOf L k := by
      intro L hL
      rw [shareOf]
      simp only [densN, if_true, getD_shareOf, sum_normalized hL, div_one]
    rw [e P h.sumLeft.ne', e Q h.sumRight.ne']

/-! ## Single calls -/

/-- **C146.** `distance('kl')` is the relative entropy of the values divided by their sums, whether or not
`normalize` is set. -/
theorem C146_value {c : Compare ℝ} {P Q : List ℝ} (hc : Compares c P Q) (h : KlPair P Q) (normalize : Bool) :
    GivesKl c normalize (relativeEntropy P Q) := by
  have hl : P.length ≠ 0 := by
    intro h0
    have h1 := h.sumLeft
    rw [List.length_eq_zero_iff.1 h0] at h1
    exact lt_irrefl _ h1
  have hn : normFactor normalize P Q = .ok ((densN normalize P, densN normalize Q), facN normalize P) :=
    normFactor_eq_ok.2 ⟨fun _ => ⟨h.sumLeft.ne', h.sumRight.ne'⟩, fun _ => hl, rfl⟩
  refine ⟨{ c with pdfs1 := some (densN normalize P), pdfs2 := some (densN normalize Q) }, ?_⟩
  simp only [Compare.distanceKl, prepare_fresh hc, hn, Except.map, ok_bind, orErr_some,
    klDiv_ok (KlPair.normalized h normalize), relativeEntropy_normalized h normalize]
  rfl

/-- The terms of the relative entropy. -/
theorem rel_term {x y : ℝ} (hx : 0 ≤ x) (hy : 0 ≤ y) (h : 0 < x → 0 < y) :
    x - y ≤ x * Real.log (x / y) ∧ (x * Real.log (x / y) = x - y → x = y) ∧
      2 * x - 2 * (√x * √y) ≤ x * Real.log (x / y) := by
  rcases hx.eq_or_lt with rfl | hx'
  · refine ⟨by simpa using hy, fun e => ?_, by simp⟩
    simp at e
    exact e.symm
  · have hy' := h hx'
    have hl : Real.log (x / y) = -Real.log (y / x) := by rw [← Real.log_inv, inv_div]
    refine ⟨?_, fun e => ?_, ?_⟩
    · have := mul_le_mul_of_nonneg_left (Real.log_le_sub_one_of_pos (div_pos hy' hx')) hx
      rw [mul_sub, mul_div_cancel₀ _ hx'.ne'] at this
      rw [hl]
      linarith
    · by_contra hne
      have h1 : y / x ≠ 1 := fun h1 => hne ((div_eq_one_iff_eq hx'.ne').1 h1).symm
      have := mul_lt_mul_of_pos_left (Real.log_lt_sub_one_of_pos (div_pos hy' hx') h1) hx'
      rw [mul_sub, mul_div_cancel₀ _ hx'.ne'] at this
      rw [hl] at e
      linarith
    · have h1 : Real.log (y / x) = 2 * Real.log √(y / x) := by
        rw [Real.log_sqrt (div_nonneg hy hx)]
        ring
      have h2 : x * √(y / x) = √x * √y := by
        rw [Real.sqrt_div hy]
        have := Real.mul_self_sqrt hx
        have := (Real.sqrt_pos.2 hx').ne'
        field_simp
        exact (Real.sq_sqrt hx).symm
      have := mul_le_mul_of_nonneg_left (Real.log_le_sub_one_of_pos (Real.sqrt_pos.2 (div_pos hy' hx'))) hx
      rw [mul_sub, h2] at this
      rw [hl, h1]
      linarith

/-- **C146.** The Kullback-Leibler distance is not negative, and zero exactly for values that agree up to a
constant factor. -/
theorem C146_nonneg {P Q : List ℝ} (h : KlPair P Q) :
    0 ≤ relativeEntropy P Q ∧ (relativeEntropy P Q = 0 ↔ ∀ k, shareOf P k = shareOf Q k) := by
  have s1 := sum_shareOf h.sumLeft.ne'
  have s2 := sum_shareOf h.sumRight.ne'
  rw [← h.length] at s2
  have hs : ∑ k ∈ Finset.range P.length, (shareOf P k - shareOf Q k) = 0 := by
    rw [Finset.sum_sub_distrib, s1, s2, sub_self]
  have hle : ∀ k ∈ Finset.range P.length, shareOf P k - shareOf Q k ≤ shareOf P k * Real.log (shareOf P k / shareOf Q k) :=
    fun k _ => (rel_term (KlPair.share h k).1 (KlPair.share h k).2.1 (KlPair.share h k).2.2).1
  refine ⟨hs ▸ Finset.sum_le_sum hle, fun h0 k => ?_, fun h0 => ?_⟩
  · rcases lt_or_ge k P.length with hk | hk
    · have h1 : ∑ k ∈ Finset.range P.length, (shareOf P k - shareOf Q k) =
          ∑ k ∈ Finset.range P.length, shareOf P k * Real.log (shareOf P k / shareOf Q k) := hs.trans h0.symm
      have := (Finset.sum_eq_sum_iff_of_le hle).1 h1 k (Finset.mem_range.2 hk)
      exact (rel_term (KlPair.share h k).1 (KlPair.share h k).2.1 (KlPair.share h k).2.2).2.1 this.symm
    · rw [shareOf, shareOf, List.getD_eq_getElem?_getD, List.getElem?_eq_none hk, List.getD_eq_getElem?_getD,
        List.getElem?_eq_none (h.length ▸ hk)]
      simp
  · rw [relativeEntropy]
    refine Finset.sum_eq_zero fun k _ => ?_
    rw [h0 k]
    rcases eq_or_ne (shareOf Q k) 0 with h1 | h1
    · rw [h1, zero_mul]
    · rw [div_self h1, Real.log_one, mul_zero]

/-- **C146.** If the first density is positive at a comparison point where the second is zero, the distance is
infinite. -/
theorem C146_infinite {c : Compare ℝ} {P Q : List ℝ} (hc : Compares c P Q) (hl : P.length = Q.length)
    (hP : 0 < P.sum) (hQ : 0 < Q.sum) {k : Nat} (h1 : 0 < P.getD k 0) (h2 : Q.getD k 0 = 0) (normalize : Bool) :
    c.distanceKl Real.log normalize = .error .zeroDivision := by
  have inf : ∀ (p q : List ℝ) (k : Nat), p.length = q.length → 0 < p.getD k 0 → q.getD k 0 = 0 →
      (∀ r, (p.zip q).mapM (fun z => relEntr Real.log z.1 z.2) = .error r → r = .zeroDivision) ∧
      (p.zip q).mapM (fun z => relEntr Real.log z.1 z.2) = .error .zeroDivision := by
    have err : ∀ (l : List (ℝ × ℝ)) r, l.mapM (fun z => relEntr Real.log z.1 z.2) = .error r → r = .zeroDivision := by
      intro l
      induction l with
      | nil => intro r hr; cases hr
      | cons z l ih =>
        intro r hr
        rw [List.mapM_cons] at hr
        cases hz : relEntr Real.log z.1 z.2 with
        | error e =>
          rw [hz] at hr
          have he : e = .zeroDivision := by
            unfold relEntr at hz
            split at hz
            · cases hz
            · split at hz
              · cases hz
              · exact (Except.error.inj hz).symm
          exact (Except.error.inj hr).symm.trans he
        | ok v =>
          rw [hz, ok_bind] at hr
          cases hm : l.mapM (fun z => relEntr Real.log z.1 z.2) with
          | error e =>
            rw [hm] at hr
            exact (Except.error.inj hr) ▸ ih e hm
          | ok w =>
            rw [hm] at hr
            cases hr
    intro p q k hpq hp hq
    refine ⟨err _, ?_⟩
    induction p generalizing q k with
    | nil => simp at hp
    | cons a p ih =>
      cases q with
      | nil => simp at hpq
      | cons b q =>
        rw [List.zip_cons_cons, List.mapM_cons]
        cases k with
        | zero =>
          rw [relEntr_inf (by simpa using hp) (by simpa using hq.le)]
          rfl
        | succ k =>
          have := ih q k (by simpa using hpq) (by simpa using hp) (by simpa using hq)
          cases hz : relEntr Real.log a b with
          | error e =>
            refine congrArg Except.error (err [(a, b)] e ?_)
            rw [List.mapM_cons, hz]
            rfl
          | ok v =>
            rw [ok_bind, this]
            rfl
  have kl : ∀ P Q : List ℝ, P.length = Q.length → 0 < P.sum → 0 < Q.sum → 0 < P.getD k 0 → Q.getD k 0 = 0 →
      klDiv Real.log P Q = .error .zeroDivision := by
    intro P Q hl hP hQ h1 h2
    have := (inf (P.map fun x => x / P.sum) (Q.map fun x => x / Q.sum) k (by simpa using hl)
      (by rw [getD_shareOf]; exact div_pos h1 hP) (by rw [getD_shareOf, shareOf, h2, zero_div])).2
    simp only [klDiv, normalized_ok hP.ne', normalized_ok hQ.ne', ok_bind, this]
    simp [hl, raiseIf_false, ok_bind]
  have hl0 : P.length ≠ 0 := by
    intro h0
    rw [List.length_eq_zero_iff.1 h0] at hP
    exact lt_irrefl _ hP
  have hn : normFactor normalize P Q = .ok ((densN normalize P, densN normalize Q), facN normalize P) :=
    normFactor_eq_ok.2 ⟨fun _ => ⟨hP.ne', hQ.ne'⟩, fun _ => hl0, rfl⟩
  have hk : klDiv Real.log (densN normalize P) (densN normalize Q) = .error .zeroDivision := by
    cases normalize with
    | false => exact kl P Q hl hP hQ h1 h2
    | true =>
      refine kl _ _ (by simpa [densN] using hl) ?_ ?_ ?_ ?_
      · simp only [densN, if_true, sum_normalized hP.ne', zero_lt_one]
      · simp only [densN, if_true, sum_normalized hQ.ne', zero_lt_one]
      · simp only [densN, if_true, getD_shareOf]
        exact div_pos h1 hP
      · simp only [densN, if_true, getD_shareOf, shareOf, h2, zero_div]
  simp only [Compare.distanceKl, prepare_fresh hc, hn, Except.map, ok_bind, orErr_some, hk]
  rfl

/-- **C146.** The Kullback-Leibler distance bounds the normalised squared Hellinger and total variation
distances. -/
theorem C146_bounds {c : Compare ℝ} {P Q : List ℝ} (hc : Compares c P Q) (h : KlPair P Q) {s t : ℝ}
    (hs : Gives Real.sqrt c .sqhell true s) (ht : Gives Real.sqrt c .tv true t) :
    2 * s ≤ relativeEntropy P Q ∧ t ^ 2 ≤ relativeEntropy P Q := by
  obtain ⟨-, -, h3⟩ := (gives_iff hc (by nofun)).mp hs
  obtain ⟨-, -, h4⟩ := (gives_iff hc (by nofun)).mp ht
  have hl : (densN true P).length = (densN true Q).length := by rw [length_densN, length_densN, h.length]
  rw [(apply_ok hl).2.2.2] at h3
  rw [(apply_ok hl).1] at h4
  obtain rfl := (Except.ok.inj h3)
  obtain rfl := (Except.ok.inj h4)
  have s1 := sum_shareOf h.sumLeft.ne'
  have s2 := sum_shareOf h.sumRight.ne'
  rw [← h.length] at s2
  have e1 : sqDist ((densN true P).map Real.sqrt) ((densN true Q).map Real.sqrt) =
      ∑ k ∈ Finset.range P.length, (√(shareOf P k) - √(shareOf Q k)) ^ 2 := by
    rw [sqDist, List.zipWith_map, sum_zipWith_getD _ hl, length_densN]
    simp only [densN, if_true, getD_shareOf, sq]
  have e2 : halfAbs (densN true P) (densN true Q) = 1 / 2 * ∑ k ∈ Finset.range P.length, |shareOf P k - shareOf Q k| := by
    rw [halfAbs, sum_zipWith_getD _ hl, length_densN, Finset.mul_sum]
    simp only [densN, if_true, getD_shareOf]
    refine Finset.sum_congr rfl fun k _ => ?_
    ring
  have hq : ∀ k, √(shareOf P k) ^ 2 = shareOf P k ∧ √(shareOf Q k) ^ 2 = shareOf Q k := fun k =>
    ⟨Real.sq_sqrt (KlPair.share h k).1, Real.sq_sqrt (KlPair.share h k).2.1⟩
  have b1 : ∑ k ∈ Finset.range P.length, (√(shareOf P k) - √(shareOf Q k)) ^ 2 ≤ relativeEntropy P Q := by
    have e3 : ∑ k ∈ Finset.range P.length, (√(shareOf P k) - √(shareOf Q k)) ^ 2 =
        ∑ k ∈ Finset.range P.length, (2 * shareOf P k - 2 * (√(shareOf P k) * √(shareOf Q k))) := by
      have e4 : ∀ k, (√(shareOf P k) - √(shareOf Q k)) ^ 2 =
          (2 * shareOf P k - 2 * (√(shareOf P k) * √(shareOf Q k))) + (shareOf Q k - shareOf P k) := by
        intro k
        rw [sub_sq, (hq k).1, (hq k).2]
        ring
      simp only [e4]
      rw [Finset.sum_add_distrib, Finset.sum_sub_distrib (f := shareOf Q), s1, s2, sub_self, add_zero]
    rw [e3]
    exact Finset.sum_le_sum fun k _ =>
      (rel_term (KlPair.share h k).1 (KlPair.share h k).2.1 (KlPair.share h k).2.2).2.2
  have b2 : (∑ k ∈ Finset.range P.length, |shareOf P k - shareOf Q k|) ^ 2 ≤
      4 * ∑ k ∈ Finset.range P.length, (√(shareOf P k) - √(shareOf Q k)) ^ 2 := by
    have cs := Finset.sum_mul_sq_le_sq_mul_sq (Finset.range P.length)
      (fun k => |√(shareOf P k) - √(shareOf Q k)|) (fun k => √(shareOf P k) + √(shareOf Q k))
    have e5 : ∀ k, |√(shareOf P k) - √(shareOf Q k)| * (√(shareOf P k) + √(shareOf Q k)) = |shareOf P k - shareOf Q k| := by
      intro k
      have hn : 0 ≤ √(shareOf P k) + √(shareOf Q k) := add_nonneg (Real.sqrt_nonneg _) (Real.sqrt_nonneg _)
      rw [← abs_of_nonneg hn, ← abs_mul]
      congr 1
      linear_combination (hq k).1 - (hq k).2
    simp only [e5, sq_abs] at cs
    have e6 : ∑ k ∈ Finset.range P.length, (√(shareOf P k) + √(shareOf Q k)) ^ 2 ≤ 4 := by
      have : ∀ k ∈ Finset.range P.length, (√(shareOf P k) + √(shareOf Q k)) ^ 2 ≤ 2 * shareOf P k + 2 * shareOf Q k := by
        intro k _
        nlinarith [sq_nonneg (√(shareOf P k) - √(shareOf Q k)), (hq k).1, (hq k).2]
      refine (Finset.sum_le_sum this).trans ?_
      rw [Finset.sum_add_distrib, ← Finset.mul_sum, ← Finset.mul_sum, s1, s2]
      norm_num
    have e7 : 0 ≤ ∑ k ∈ Finset.range P.length, (√(shareOf P k) - √(shareOf Q k)) ^ 2 :=
      Finset.sum_nonneg fun _ _ => sq_nonneg _
    nlinarith
  rw [e1, e2]
  simp only [facN, if_true, one_mul]
  constructor
  · linarith
  · nlinarith

/-! ## Limits -/

theorem klPair_map {α : Type} {rows : List α} {f g : α → ℝ} (hf : ∀ y ∈ rows, 0 ≤ f y) (hg : ∀ y ∈ rows, 0 ≤ g y)
    (hd : ∀ y ∈ rows, 0 < f y → 0 < g y) (h1 : 0 < (rows.map f).sum) (h2 : 0 < (rows.map g).sum) :
    KlPair (rows.map f) (rows.map g) := by
  refine ⟨by simp, ?_, ?_, h1, h2, fun k hk => ?_⟩
  · intro x hx
    obtain ⟨y, hy, rfl⟩ := List.mem_map.1 hx
    exact hf y hy
  · intro x hx
    obtain ⟨y, hy, rfl⟩ := List.mem_map.1 hx
    exact hg y hy
  · rw [List.getD_eq_getElem?_getD, List.getElem?_map] at hk ⊢
    cases hr : rows[k]? with
    | none => rw [hr] at hk; exact absurd hk (lt_irrefl _)
    | some y =>
      rw [hr] at hk
      exact hd y (List.mem_of_getElem? hr) hk

theorem entropy_term {x y A B : ℝ} (n1 : 0 ≤ x) (n3 : 0 < x → 0 < y) (h1 : 0 < A) (h2 : 0 < B) :
    x / A * Real.log (x / A / (y / B)) = x * Real.log (x / y) / A + x / A * Real.log (B / A) := by
  rcases n1.eq_or_lt with rfl | hx
  · simp
  · have hy := n3 hx
    have e2 : x / A / (y / B) = x / y * (B / A) := by
      have := h1.ne'
      have := h2.ne'
      have := hy.ne'
      field_simp
    rw [e2, Real.log_mul (div_pos hx hy).ne' (div_pos h2 h1).ne']
    ring

theorem relativeEntropy_map {α : Type} {rows : List α} {f g : α → ℝ} (h : KlPair (rows.map f) (rows.map g)) :
    relativeEntropy (rows.map f) (rows.map g) =
      (rows.map fun y => f y * Real.log (f y / g y)).sum / (rows.map f).sum +
        Real.log ((rows.map g).sum / (rows.map f).sum) := by
  have h1 := h.sumLeft
  have h2 := h.sumRight
  have key : ∀ k, shareOf (rows.map f) k * Real.log (shareOf (rows.map f) k / shareOf (rows.map g) k) =
      (rows.map fun y => f y * Real.log (f y / g y)).getD k 0 / (rows.map f).sum +
        shareOf (rows.map f) k * Real.log ((rows.map g).sum / (rows.map f).sum) := by
    intro k
    have n1 := (KlPair.nonneg h k).1
    have n3 := h.dominated k
    have e : (rows.map fun y => f y * Real.log (f y / g y)).getD k 0 =
        (rows.map f).getD k 0 * Real.log ((rows.map f).getD k 0 / (rows.map g).getD k 0) := by
      simp only [List.getD_eq_getElem?_getD, List.getElem?_map]
      cases rows[k]? <;> simp
    rw [e, shareOf, shareOf]
    exact entropy_term n1 n3 h1 h2
  rw [relativeEntropy]
  simp only [key]
  rw [Finset.sum_add_distrib, ← Finset.sum_mul, sum_shareOf h1.ne', one_mul, ← Finset.sum_div]
  have e : ∑ k ∈ Finset.range (rows.map f).length, (rows.map fun y => f y * Real.log (f y / g y)).getD k 0 =
      (rows.map fun y => f y * Real.log (f y / g y)).sum := by
    have := sum_getD (rows.map fun y => f y * Real.log (f y / g y))
    rw [List.length_map] at this ⊢
    exact this
  rw [e]

namespace Spec

/-- The number that `distance('kl')` returns. -/
noncomputable def klOf (normalize : Bool) (c : Compare ℝ) : Option ℝ :=
  (c.distanceKl Real.log normalize).toOption.map Prod.fst

end Spec

section random
variable {Ω : Type} [MeasurableSpace Ω] {P : Measure Ω} {d : Nat} [IsProbabilityMeasure P] {μ : Measure (Fin d → ℝ)}
  {c : Compare ℝ} {p q : (Fin d → ℝ) → ℝ} {parts : Nat} {X : ℕ → ℕ → Ω → Fin d → ℝ} {C : ℕ → Ω → Compare ℝ}

/-- **C146.** At random comparison points `distance('kl')` tends with probability one to the relative entropy of the
densities divided by their means under the law of the points. -/
theorem C146_limit (hp : 0 < parts) (hX : RandomSamples P μ X) (hc : NewCompare c p q) (hC : ChosenPoints c parts X C)
    (h1 : Integrable p μ) (h2 : Integrable q μ) (h3 : Integrable (fun x => p x * Real.log (p x / q x)) μ)
    (hpn : ∀ x, 0 ≤ p x) (hqn : ∀ x, 0 ≤ q x) (hd : ∀ x, 0 < p x → 0 < q x) (hpp : 0 < ∫ x, p x ∂μ)
    (hqq : 0 < ∫ x, q x ∂μ) (normalize : Bool) :
    ∀ᵐ ω ∂P, (∀ᶠ n in atTop, (klOf normalize (C n ω)).isSome) ∧
      Tendsto (fun n => (klOf normalize (C n ω)).getD 0) atTop
        (𝓝 (∫ x, p x / (∫ y, p y ∂μ) * Real.log (p x / (∫ y, p y ∂μ) / (q x / ∫ y, q y ∂μ)) ∂μ)) := by
  have hint : (∫ x, p x / (∫ y, p y ∂μ) * Real.log (p x / (∫ y, p y ∂μ) / (q x / ∫ y, q y ∂μ)) ∂μ) =
      (∫ x, p x * Real.log (p x / q x) ∂μ) / (∫ y, p y ∂μ) + Real.log ((∫ y, q y ∂μ) / ∫ y, p y ∂μ) := by
    have e : ∀ x, p x / (∫ y, p y ∂μ) * Real.log (p x / (∫ y, p y ∂μ) / (q x / ∫ y, q y ∂μ)) =
        p x * Real.log (p x / q x) / (∫ y, p y ∂μ) +
          p x / (∫ y, p y ∂μ) * Real.log ((∫ y, q y ∂μ) / ∫ y, p y ∂μ) :=
      fun x => entropy_term (hpn x) (hd x) hpp hqq
    simp only [e]
    rw [integral_add (h3.div_const _) ((h1.div_const _).mul_const _), integral_div, integral_mul_const, integral_div,
      div_self hpp.ne', one_mul]
  rw [hint]
  filter_upwards [pointMean_tends hp hX h1, pointMean_tends hp hX h2, pointMean_tends hp hX h3] with ω e1 e2 e3
  have hval : ∀ᶠ n : ℕ in atTop, klOf normalize (C n ω) =
      some (pointMean parts n (fun r k => X r k ω) (fun y => p y * Real.log (p y / q y)) /
        pointMean parts n (fun r k => X r k ω) p +
          Real.log (pointMean parts n (fun r k => X r k ω) q / pointMean parts n (fun r k => X r k ω) p)) := by
    filter_upwards [sum_pos_eventually e1 hpp, sum_pos_eventually e2 hqq] with n g1 g2
    have hn : (0 : ℝ) < n := by exact_mod_cast g1.1
    have hk : KlPair (densAt parts n (fun r k => X r k ω) p) (densAt parts n (fun r k => X r k ω) q) :=
      klPair_map (fun _ _ => hpn _) (fun _ _ => hqn _) (fun _ _ => hd _)
        (by have := g1.2.2; rw [densAt] at this; rw [this]; exact mul_pos hn g1.2.1)
        (by have := g2.2.2; rw [densAt] at this; rw [this]; exact mul_pos hn g2.2.1)
    obtain ⟨c', hk'⟩ := C146_value (compares_chosen hc hC n ω) hk normalize
    rw [klOf, hk']
    show some _ = some _
    congr 1
    have e4 := relativeEntropy_map (rows := drawnRows parts n fun r k => X r k ω)
      (f := fun y => p fun j => y.getD j 0) (g := fun y => q fun j => y.getD j 0) hk
    have e5 : ((drawnRows parts n fun r k => X r k ω).map fun y => (p fun j => y.getD j 0) *
        Real.log ((p fun j => y.getD j 0) / q fun j => y.getD j 0)).sum =
        n * pointMean parts n (fun r k => X r k ω) fun y => p y * Real.log (p y / q y) := by
      rw [← sum_pointMean g1.1, sum_drawnRows]
      simp only [getD_ofFn]
    have e6 := g1.2.2
    have e7 := g2.2.2
    rw [densAt] at e6 e7
    rw [densAt, densAt, e4, e5, e6, e7, mul_div_mul_left _ _ hn.ne', mul_div_mul_left _ _ hn.ne']
  refine ⟨hval.mono fun n hn => by rw [hn]; rfl, ?_⟩
  have hlim := (e3.div e1 hpp.ne').add ((e2.div e1 hpp.ne').log (div_pos hqq hpp).ne')
  refine hlim.congr' ?_
  filter_upwards [hval] with n hn
  rw [hn]
  rfl

end random

section grid
variable {c : Compare ℝ} {i : Nat} {interval : Option (ℝ × ℝ)} {factor a b δ : ℝ} {g h : ℝ → ℝ}

/-- The function `g log (g / h)` on the interval. -/
theorem klIntegrand (hg : RiemannOn g a b) (hh : RiemannOn h a b) (hgn : ∀ x ∈ Set.Icc a b, 0 ≤ g x) (hδ : 0 < δ)
    (hhn : ∀ x ∈ Set.Icc a b, δ ≤ h x) : ∃ F, RiemannOn F a b ∧
      ∀ x ∈ Set.Icc a b, F x = g x * Real.log (g x / h x) := by
  refine ⟨_, RiemannOn.comp₂ hg hh (F := fun z => z.1 * Real.log z.1 - z.1 * Real.log (max z.2 δ)) ?_, fun x hx => ?_⟩
  · refine (Real.continuous_mul_log.comp continuous_fst).sub (continuous_fst.mul ?_)
    exact Continuous.log (by fun_prop) fun z => (lt_of_lt_of_le hδ (le_max_right _ _)).ne'
  · dsimp only
    rw [max_eq_left (hhn x hx)]
    rcases (hgn x hx).eq_or_lt with h0 | h0
    · rw [← h0]
      simp
    · rw [Real.log_div h0.ne' (lt_of_lt_of_le hδ (hhn x hx)).ne', mul_sub]

/-- **C146.** On equally spaced points `distance_marginal(..., functional='kl')` tends to the relative entropy of the
densities divided by their integrals over the interval. -/
theorem C146_marginal (hab : a < b) (hi : UsesInterval c i interval factor a b) (hm : HasMarginals c i g h)
    (hg : RiemannOn g a b) (hh : RiemannOn h a b) (hgn : ∀ x ∈ Set.Icc a b, 0 ≤ g x) (hδ : 0 < δ)
    (hhn : ∀ x ∈ Set.Icc a b, δ ≤ h x) (hgp : 0 < ∫ x in a..b, g x) (normalize : Bool) :
    (∀ᶠ num in atTop, (c.distanceMarginalKl Real.log i interval num factor normalize).toOption.isSome) ∧
    Tendsto (fun num => (c.distanceMarginalKl Real.log i interval num factor normalize).toOption.getD 0) atTop
      (𝓝 (∫ x in a..b, g x / (∫ y in a..b, g y) *
        Real.log (g x / (∫ y in a..b, g y) / (h x / ∫ y in a..b, h y)))) := by
  have hhp : 0 < ∫ x in a..b, h x := by
    have h1 := intervalIntegral.integral_mono_on hab.le (intervalIntegrable_const (c := δ)) (RiemannOn.integrable hab hh) hhn
    rw [intervalIntegral.integral_const, smul_eq_mul] at h1
    exact lt_of_lt_of_le (mul_pos (sub_pos.2 hab) hδ) h1
  obtain ⟨F, hF, hFe⟩ := klIntegrand hg hh hgn hδ hhn
  have hFint : (∫ x in a..b, g x / (∫ y in a..b, g y) *
        Real.log (g x / (∫ y in a..b, g y) / (h x / ∫ y in a..b, h y))) =
      (∫ x in a..b, F x) / (∫ y in a..b, g y) + Real.log ((∫ y in a..b, h y) / ∫ y in a..b, g y) := by
    have e : ∀ x ∈ Set.uIcc a b, g x / (∫ y in a..b, g y) *
        Real.log (g x / (∫ y in a..b, g y) / (h x / ∫ y in a..b, h y)) =
        F x / (∫ y in a..b, g y) +
          g x / (∫ y in a..b, g y) * Real.log ((∫ y in a..b, h y) / ∫ y in a..b, g y) := by
      intro x hx
      rw [Set.uIcc_of_le hab.le] at hx
      rw [hFe x hx]
      exact entropy_term (hgn x hx) (fun _ => lt_of_lt_of_le hδ (hhn x hx)) hgp hhp
    rw [intervalIntegral.integral_congr e, intervalIntegral.integral_add
      ((RiemannOn.integrable hab hF).div_const _) (((RiemannOn.integrable hab hg).div_const _).mul_const _),
      intervalIntegral.integral_div, intervalIntegral.integral_mul_const, intervalIntegral.integral_div,
      div_self hgp.ne', one_mul]
  rw [hFint]
  have hval : ∀ᶠ n : ℕ in atTop, c.distanceMarginalKl Real.log i interval n factor normalize =
      .ok (gridMean a b n F / gridMean a b n g + Real.log (gridMean a b n h / gridMean a b n g)) := by
    filter_upwards [grid_sum_pos hab hg hgp, grid_sum_pos hab hh hhp, eventually_gt_atTop 1] with n g1 g2 hn1
    have hn : (0 : ℝ) < n / (b - a) := div_pos (by exact_mod_cast g1.1) (sub_pos.2 hab)
    have hmem : ∀ y ∈ linspace a b n, y ∈ Set.Icc a b := by
      intro y hy
      rw [linspace] at hy
      obtain ⟨k, hk, rfl⟩ := List.mem_map.1 hy
      exact node_mem hab (List.mem_range.1 hk) hn1
    have hk : KlPair ((linspace a b n).map g) ((linspace a b n).map h) :=
      klPair_map (fun y hy => hgn y (hmem y hy)) (fun y hy => hδ.le.trans (hhn y (hmem y hy)))
        (fun y hy _ => lt_of_lt_of_le hδ (hhn y (hmem y hy)))
        (by rw [g1.2.2.1]; exact mul_pos hn g1.2.1) (by rw [g2.2.2.1]; exact mul_pos hn g2.2.1)
    have hfac : ∃ f, marginalFactor normalize (linspace a b n) ((linspace a b n).map g) ((linspace a b n).map h) =
        .ok ((densN normalize ((linspace a b n).map g), densN normalize ((linspace a b n).map h)), f) := by
      cases normalize with
      | true =>
        refine ⟨1, ?_⟩
        simp only [marginalFactor, if_true, normalized_ok hk.sumLeft.ne', normalized_ok hk.sumRight.ne', ok_bind, densN]
        rfl
      | false =>
        refine ⟨1 / (((linspace a b n).map g).length : ℝ) * ((linspace a b n).getLastD 0 - (linspace a b n).headD 0), ?_⟩
        have hl : ¬ ((linspace a b n).map g).length = 0 := by
          rw [List.length_map, length_linspace]
          omega
        simp only [marginalFactor, Bool.false_eq_true, if_false, densN]
        rw [List.length_map] at hl
        simp [hl, raiseIf_false, ok_bind]
    obtain ⟨f, hfac⟩ := hfac
    simp only [Compare.distanceMarginalKl, points_used hi, ok_bind, hm.1, hm.2, hfac,
      klDiv_ok (KlPair.normalized hk normalize), relativeEntropy_normalized hk normalize]
    congr 1
    rw [relativeEntropy_map hk, g1.2.2.1, g2.2.2.1]
    have e5 : ((linspace a b n).map fun y => g y * Real.log (g y / h y)).sum = n / (b - a) * gridMean a b n F := by
      rw [← sum_gridMean hab g1.1, ← sum_linspace]
      congr 1
      exact List.map_congr_left fun y hy => (hFe y (hmem y hy)).symm
    rw [e5, mul_div_mul_left _ _ hn.ne', mul_div_mul_left _ _ hn.ne']
  refine ⟨hval.mono fun n hn => by rw [hn]; rfl, ?_⟩
  have e1 := gridMean_tends hab hg
  have hlim := ((gridMean_tends hab hF).div e1 hgp.ne').add
    (((gridMean_tends hab hh).div e1 hgp.ne').log (div_pos hhp hgp).ne')
  refine hlim.congr' ?_
  filter_upwards [hval] with n hn
  rw [hn]
  rfl

/-- **C146.** If both densities have mass one in the interval, this is the number that `distance_marginal_quad`
computes. -/
theorem C146_quad {Q : Quad ℝ} (hQ : Integrates Q) (hab : a < b) (hm : HasMarginals c i g h)
    (hg : RiemannOn g a b) (hh : RiemannOn h a b) (hgn : ∀ x ∈ Set.Icc a b, 0 ≤ g x) (hδ : 0 < δ)
    (hhn : ∀ x ∈ Set.Icc a b, δ ≤ h x) (hg1 : ∫ x in a..b, g x = 1) (hh1 : ∫ x in a..b, h x = 1) (normalize : Bool) :
    ∃ v, c.distanceMarginalQuad Real.sqrt Real.log Q i (some (a, b)) factor .kl = .ok v ∧
      Tendsto (fun num => (c.distanceMarginalKl Real.log i (some (a, b)) num factor normalize).toOption.getD 0) atTop
        (𝓝 v) := by
  have key := (C146_marginal (factor := factor) hab (Or.inl rfl) hm hg hh hgn hδ hhn (by rw [hg1]; exact one_pos)
    normalize).2
  simp only [hg1, hh1, div_one] at key
  refine ⟨_, ?_, key⟩
  obtain ⟨F, hF, hFe⟩ := klIntegrand hg hh hgn hδ hhn
  have hI : IntervalIntegrable (fun x => g x * Real.log (g x / h x)) volume a b := by
    refine (RiemannOn.integrable hab hF).congr ?_
    intro x hx
    rw [Set.uIoc_of_le hab.le] at hx
    exact hFe x (Set.Ioc_subset_Icc_self hx)
  have := hQ _ _ a b (errorAt_ok hm fun x y => x * Real.log (x / y)) hI
  simp only [Compare.distanceMarginalQuad, Compare.quadInterval, ok_bind, Compare.quadValue, this]

/-- **C146 (negation).** In general the two functions disagree: for constant densities `s` and `t` the first tends to
zero and the second gives `(b - a) s log (s / t)`, which is negative for `s < t`. -/
theorem C146_negation_quad {Q : Quad ℝ} (hQ : Integrates Q) (hab : a < b) {s t : ℝ} (hs : 0 < s) (hst : s < t)
    (hm : HasMarginals c i (fun _ => s) fun _ => t) (normalize : Bool) :
    Tendsto (fun num => (c.distanceMarginalKl Real.log i (some (a, b)) num factor normalize).toOption.getD 0) atTop
      (𝓝 0) ∧
    ∃ v, c.distanceMarginalQuad Real.sqrt Real.log Q i (some (a, b)) factor .kl = .ok v ∧ v < 0 := by
  have hd := sub_pos.2 hab
  have ht := hs.trans hst
  constructor
  · have key := (C146_marginal (factor := factor) (δ := t) hab (Or.inl rfl) hm (RiemannOn.of_continuous continuous_const)
      (RiemannOn.of_continuous continuous_const) (fun _ _ => hs.le) ht (fun _ _ => le_rfl)
      (by rw [intervalIntegral.integral_const, smul_eq_mul]; exact mul_pos hd hs) normalize).2
    simp only [intervalIntegral.integral_const, smul_eq_mul] at key
    have e : s / ((b - a) * s) / (t / ((b - a) * t)) = 1 := by
      have := hd.ne'
      field_simp
    simpa [e] using key
  · have := hQ _ _ a b (errorAt_ok hm fun x y => x * Real.log (x / y)) intervalIntegrable_const
    refine ⟨(b - a) * (s * Real.log (s / t)), ?_, ?_⟩
    · simp only [Compare.distanceMarginalQuad, Compare.quadInterval, ok_bind, Compare.quadValue, this,
        intervalIntegral.integral_const, smul_eq_mul]
    · exact mul_neg_of_pos_of_neg hd (mul_neg_of_pos_of_neg hs (Real.log_neg (div_pos hs ht) ((div_lt_one ht).2 hst)))

end grid

/-! ## Examples -/

namespace Ex

theorem klPair_one : KlPair [1, 3] [2, 2] where
  length := rfl
  left := by simp
  right := by simp
  sumLeft := by norm_num
  sumRight := by norm_num
  dominated := by
    intro k
    match k with
    | 0 => simp
    | 1 => simp
    | k + 2 => simp

theorem klPair_two : KlPair [2, 2] [1, 3] where
  length := rfl
  left := by simp
  right := by simp
  sumLeft := by norm_num
  sumRight := by norm_num
  dominated := by
    intro k
    match k with
    | 0 => simp
    | 1 => simp
    | k + 2 => simp

end Ex

/-- **C146 (negation).** The Kullback-Leibler distance is not symmetric. -/
theorem C146_negation_symm : ∃ (c c' : Compare ℝ) (P Q : List ℝ) (x y : ℝ), Compares c P Q ∧ Compares c' Q P ∧
    GivesKl c false x ∧ GivesKl c' false y ∧ x ≠ y := by
  refine ⟨Ex.cmp [1, 3] [2, 2] [[0], [1]], Ex.cmp [2, 2] [1, 3] [[0], [1]], _, _, _, _, Ex.cmp_ok _ _ _, Ex.cmp_ok _ _ _,
    C146_value (Ex.cmp_ok _ _ _) Ex.klPair_one false, C146_value (Ex.cmp_ok _ _ _) Ex.klPair_two false, ?_⟩
  have e1 : relativeEntropy [1, 3] [2, 2] = 3 / 4 * Real.log 3 - Real.log 2 := by
    simp only [relativeEntropy, shareOf, List.length_cons, List.length_nil, Finset.sum_range_succ, Finset.sum_range_zero,
      List.getD_cons_zero, List.getD_cons_succ, List.sum_cons, List.sum_nil]
    rw [show (1 : ℝ) / (1 + (3 + 0)) / (2 / (2 + (2 + 0))) = 1 / 2 from by norm_num,
      show (3 : ℝ) / (1 + (3 + 0)) / (2 / (2 + (2 + 0))) = 3 / 2 from by norm_num,
      Real.log_div (by norm_num) (by norm_num), Real.log_div (by norm_num) (by norm_num), Real.log_one]
    ring
  have e2 : relativeEntropy [2, 2] [1, 3] = Real.log 2 - 1 / 2 * Real.log 3 := by
    simp only [relativeEntropy, shareOf, List.length_cons, List.length_nil, Finset.sum_range_succ, Finset.sum_range_zero,
      List.getD_cons_zero, List.getD_cons_succ, List.sum_cons, List.sum_nil]
    rw [show (2 : ℝ) / (2 + (2 + 0)) / (1 / (1 + (3 + 0))) = 2 from by norm_num,
      show (2 : ℝ) / (2 + (2 + 0)) / (3 / (1 + (3 + 0))) = 2 / 3 from by norm_num,
      Real.log_div (by norm_num) (by norm_num)]
    ring
  rw [e1, e2]
  intro h
  have h1 : Real.log (3 ^ 5) = Real.log (2 ^ 8) := by
    rw [Real.log_pow, Real.log_pow]
    push_cast
    linarith
  have h2 := Real.log_injOn_pos (Set.mem_Ioi.2 (by norm_num)) (Set.mem_Ioi.2 (by norm_num)) h1
  norm_num at h2

namespace Ex

/-- Two values: the distance is positive, and bounds the others. -/
example : GivesKl (cmp [1, 3] [2, 2] [[0], [1]]) true (relativeEntropy [1, 3] [2, 2]) ∧
    0 < relativeEntropy [1, 3] [2, 2] ∧ (1 / 4) ^ 2 ≤ relativeEntropy [1, 3] [2, 2] := by
  refine ⟨C146_value (cmp_ok _ _ _) klPair_one true, lt_of_le_of_ne (C146_nonneg klPair_one).1 fun h => ?_, ?_⟩
  · have := (C146_nonneg klPair_one).2.1 h.symm 0
    norm_num [shareOf] at this
  · have hl : ([1, 3] : List ℝ).length = ([2, 2] : List ℝ).length := rfl
    have hs : Gives Real.sqrt (cmp [1, 3] [2, 2] [[0], [1]]) .sqhell true _ :=
      (gives_iff (cmp_ok _ _ _) (by nofun)).2 ⟨fun _ => ⟨by norm_num, by norm_num⟩, nofun,
        (apply_ok (by rw [length_densN, length_densN, hl])).2.2.2⟩
    have ht : Gives Real.sqrt (cmp [1, 3] [2, 2] [[0], [1]]) .tv true (1 / 4) := by
      refine (gives_iff (cmp_ok _ _ _) (by nofun)).2 ⟨fun _ => ⟨by norm_num, by norm_num⟩, nofun,
        (apply_ok (by rw [length_densN, length_densN, hl])).1.trans ?_⟩
      congr 1
      norm_num [densN, facN, halfAbs]
    exact (C146_bounds (cmp_ok _ _ _) klPair_one hs ht).2

/-- A point where the second density is zero. -/
example : (cmp [1, 3] [2, 0] [[0], [1]]).distanceKl Real.log false = .error .zeroDivision :=
  C146_infinite (P := [1, 3]) (Q := [2, 0]) (cmp_ok _ _ _) rfl (by norm_num) (by norm_num) (k := 1) (by simp) rfl false

/-- The limit at random points, for the densities `1` and `1 + x²`. -/
example : ∃ (Ω : Type) (_ : MeasurableSpace Ω) (P : Measure Ω) (μ : Measure (Fin 1 → ℝ)) (C : ℕ → Ω → Compare ℝ) (L : ℝ),
    IsProbabilityMeasure P ∧ IsProbabilityMeasure μ ∧
      ∀ᵐ ω ∂P, (∀ᶠ n in atTop, (klOf false (C n ω)).isSome) ∧
        Tendsto (fun n => (klOf false (C n ω)).getD 0) atTop (𝓝 L) := by
  have hpr : IsProbabilityMeasure (uniformLaw ((0 : ℝ), 1)) := by
    constructor
    simp [uniformLaw]
  obtain ⟨Ω, i, P, Z, hP, hZ, -⟩ := randomNumbers fun (_ : ℕ) (_ : Fin 1) => uniformLaw ((0 : ℝ), 1)
  have hX := RandomNumbers.points (hZ 0)
  have hμ : Measure.pi (fun _ : Fin 1 => uniformLaw ((0 : ℝ), 1)) =
      volume.restrict (Set.univ.pi fun _ : Fin 1 => Set.Ico (0 : ℝ) 1) := by
    rw [volume_pi, Measure.restrict_pi_pi]
    congr 1
    funext _
    simp [uniformLaw]
  have hb := curve_bound
  rw [← hμ] at hb
  have hq1 : Integrable (fun x : Fin 1 → ℝ => 1 + x 0 ^ 2) (Measure.pi fun _ : Fin 1 => uniformLaw ((0 : ℝ), 1)) :=
    Integrable.of_bound curve_measurable.aestronglyMeasurable 2 hb
  have hp1 : Integrable (fun _ : Fin 1 → ℝ => (1 : ℝ)) (Measure.pi fun _ : Fin 1 => uniformLaw ((0 : ℝ), 1)) :=
    integrable_const 1
  have hpp : 0 < ∫ _ : Fin 1 → ℝ, (1 : ℝ) ∂Measure.pi fun _ : Fin 1 => uniformLaw ((0 : ℝ), 1) := by simp
  have hqq : 0 < ∫ x : Fin 1 → ℝ, (1 + x 0 ^ 2) ∂Measure.pi fun _ : Fin 1 => uniformLaw ((0 : ℝ), 1) :=
    hpp.trans_le (integral_mono hp1 hq1 fun x => by simp; positivity)
  have st : Stats ℝ := ⟨fun _ _ _ _ => .ok [], fun _ => .ok (0, 1)⟩
  obtain ⟨C, h1, hC⟩ := C144_array (c := cmpCurve) (X := fun r k ω i => Z r 0 i k ω) rfl st 1 2 0
  have hn : ∀ x : Fin 1 → ℝ, (0 : ℝ) < 1 + x 0 ^ 2 := fun x => by positivity
  have h3 : Integrable (fun x : Fin 1 → ℝ => (1 : ℝ) * Real.log (1 / (1 + x 0 ^ 2)))
      (Measure.pi fun _ : Fin 1 => uniformLaw ((0 : ℝ), 1)) := by
    refine Integrable.of_bound (Measurable.aestronglyMeasurable ?_) 1 ?_
    · exact ((measurable_const.div curve_measurable).log).const_mul 1
    · filter_upwards [hb] with x hx
      rw [Real.norm_eq_abs, abs_of_pos (hn x)] at hx
      rw [one_mul, one_div, Real.log_inv, norm_neg, Real.norm_eq_abs,
        abs_of_nonneg (Real.log_nonneg (by have := sq_nonneg (x 0); linarith))]
      have := Real.log_le_sub_one_of_pos (hn x)
      linarith
  exact ⟨Ω, i, P, Measure.pi fun _ : Fin 1 => uniformLaw ((0 : ℝ), 1), C, _, hP, inferInstance, C146_limit two_pos hX cmpCurve_new hC hp1 hq1 h3 (fun _ => zero_le_one)
    (fun x => (hn x).le) (fun x _ => hn x) hpp hqq false⟩

/-- The limit for marginals with the densities `2 · 1[x < 1/2]` and `1`, which have mass one: it agrees with
exact quadrature. -/
example : ∃ v, (cmpMarginals halfStep fun _ => 1).distanceMarginalQuad Real.sqrt Real.log exactQuad 0 (some (0, 1)) 0 .kl =
      .ok v ∧ Tendsto (fun num => ((cmpMarginals halfStep fun _ => 1).distanceMarginalKl Real.log 0 (some (0, 1)) num 0
        false).toOption.getD 0) atTop (𝓝 v) := by
  refine C146_quad exactQuad_integrates zero_lt_one (cmpMarginals_has _ _ 0) halfStep_riemann
    (RiemannOn.of_continuous continuous_const) (fun x _ => ?_) one_pos (fun _ _ => le_rfl) ?_ (by simp) false
  · unfold halfStep
    split <;> norm_num
  · have i1 : IntervalIntegrable halfStep volume 0 1 := RiemannOn.integrable one_pos halfStep_riemann
    rw [← intervalIntegral.integral_add_adjacent_intervals (b := 1 / 2)
      (i1.mono_set (by rw [Set.uIcc_of_le, Set.uIcc_of_le] <;> first | exact Set.Icc_subset_Icc le_rfl (by norm_num) | norm_num))
      (i1.mono_set (by rw [Set.uIcc_of_le, Set.uIcc_of_le] <;> first | exact Set.Icc_subset_Icc (by norm_num) le_rfl | norm_num))]
    have a1 : ∫ x in (0 : ℝ)..1 / 2, halfStep x = ∫ x in (0 : ℝ)..1 / 2, (2 : ℝ) := by
      refine intervalIntegral.integral_congr_ae ?_
      filter_upwards [Measure.ae_ne volume (1 / 2 : ℝ)] with x hx hm
      rw [Set.uIoc_of_le (by norm_num)] at hm
      exact if_pos (lt_of_le_of_ne hm.2 hx)
    have a2 : ∫ x in (1 / 2 : ℝ)..1, halfStep x = ∫ x in (1 / 2 : ℝ)..1, (0 : ℝ) := by
      refine intervalIntegral.integral_congr fun x hm => ?_
      rw [Set.uIcc_of_le (by norm_num)] at hm
      exact if_neg (not_lt.2 hm.1)
    rw [a1, a2]
    norm_num

/-- Constant densities `1` and `2`: no distance on equally spaced points, a negative one by quadrature. -/
example : ∃ v, (cmpMarginals (fun _ => 1) fun _ => 2).distanceMarginalQuad Real.sqrt Real.log exactQuad 0 (some (0, 1)) 0
      .kl = .ok v ∧ v < 0 :=
  (C146_negation_quad exactQuad_integrates zero_lt_one one_pos one_lt_two (cmpMarginals_has _ _ 0) false).2

end Ex

end BET
