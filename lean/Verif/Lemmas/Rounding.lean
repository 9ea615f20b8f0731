import Verif.Spec.Rounding
import Verif.Lemmas.ProbLoop
import Mathlib.Tactic.Linarith
import Mathlib.Tactic.Ring
import Mathlib.Tactic.GCongr
import Mathlib.Algebra.Order.BigOperators.Group.List

/-!
# The calculus of rounding errors
-/

set_option autoImplicit false
set_option linter.unusedSectionVars false
set_option linter.unusedSimpArgs false

namespace BET

open Spec

variable {K : Type} [Field K] [LinearOrder K] [IsStrictOrderedRing K]

section close
variable {u : K} (hu : 0 ≤ u) (hu1 : u < 1)
include hu hu1

theorem Close.pow_pos (k : Nat) : 0 < (1 - u) ^ k := _root_.pow_pos (by linarith) k

theorem Close.pow_le (k : Nat) : (1 - u) ^ k ≤ 1 := pow_le_one₀ (by linarith) (by linarith)

theorem Close.refl (k : Nat) {x : K} (hx : 0 ≤ x) : Close u k x x := by
  have := mul_le_of_le_one_left hx (Close.pow_le hu hu1 k)
  exact ⟨this, this⟩

theorem Close.symm {k : Nat} {x y : K} (h : Close u k x y) : Close u k y x := ⟨h.2, h.1⟩

theorem Close.nonneg {k : Nat} {x y : K} (h : Close u k x y) (hx : 0 ≤ x) : 0 ≤ y :=
  (mul_nonneg (Close.pow_pos hu hu1 k).le hx).trans h.1

theorem Close.pos {k : Nat} {x y : K} (h : Close u k x y) (hx : 0 < x) : 0 < y :=
  (mul_pos (Close.pow_pos hu hu1 k) hx).trans_le h.1

theorem Close.pos_iff {k : Nat} {x y : K} (h : Close u k x y) : 0 < x ↔ 0 < y :=
  ⟨Close.pos hu hu1 h, Close.pos hu hu1 (Close.symm hu hu1 h)⟩

theorem Close.zero_of {k : Nat} {y : K} (h : Close u k 0 y) : y = 0 := by
  have hp := Close.pow_pos hu hu1 k
  refine le_antisymm ?_ (by simpa using h.1)
  by_contra hy
  push Not at hy
  have := mul_pos hp hy
  linarith [h.2]

theorem Close.mono {k j : Nat} (hkj : k ≤ j) {x y : K} (hx : 0 ≤ x) (h : Close u k x y) : Close u j x y := by
  have hy := Close.nonneg hu hu1 h hx
  have hle : (1 - u) ^ j ≤ (1 - u) ^ k := pow_le_pow_of_le_one (by linarith) (by linarith) hkj
  exact ⟨(mul_le_mul_of_nonneg_right hle hx).trans h.1, (mul_le_mul_of_nonneg_right hle hy).trans h.2⟩

theorem Close.trans {k j : Nat} {x y z : K} (h : Close u k x y) (h' : Close u j y z) : Close u (k + j) x z := by
  have hk := (Close.pow_pos hu hu1 k).le
  have hj := (Close.pow_pos hu hu1 j).le
  constructor
  · calc (1 - u) ^ (k + j) * x = (1 - u) ^ j * ((1 - u) ^ k * x) := by ring
      _ ≤ (1 - u) ^ j * y := by gcongr; exact h.1
      _ ≤ z := h'.1
  · calc (1 - u) ^ (k + j) * z = (1 - u) ^ k * ((1 - u) ^ j * z) := by ring
      _ ≤ (1 - u) ^ k * y := by gcongr; exact h'.2
      _ ≤ x := h.2

theorem Close.mul {k j : Nat} {x y x' y' : K} (h : Close u k x y) (h' : Close u j x' y') (hx : 0 ≤ x) (hx' : 0 ≤ x') :
    Close u (k + j) (x * x') (y * y') := by
  have hy := Close.nonneg hu hu1 h hx
  have hy' := Close.nonneg hu hu1 h' hx'
  have hk := (Close.pow_pos hu hu1 k).le
  have hj := (Close.pow_pos hu hu1 j).le
  constructor
  · calc (1 - u) ^ (k + j) * (x * x') = ((1 - u) ^ k * x) * ((1 - u) ^ j * x') := by ring
      _ ≤ y * y' := mul_le_mul h.1 h'.1 (mul_nonneg hj hx') hy
  · calc (1 - u) ^ (k + j) * (y * y') = ((1 - u) ^ k * y) * ((1 - u) ^ j * y') := by ring
      _ ≤ x * x' := mul_le_mul h.2 h'.2 (mul_nonneg hj hy') hx

theorem Close.inv {k : Nat} {x y : K} (h : Close u k x y) (hx : 0 < x) : Close u k x⁻¹ y⁻¹ := by
  have hy := Close.pos hu hu1 h hx
  constructor
  · rw [← div_eq_mul_inv, div_le_iff₀ hx, ← div_eq_inv_mul, le_div_iff₀ hy]
    exact h.2
  · rw [← div_eq_mul_inv, div_le_iff₀ hy, ← div_eq_inv_mul, le_div_iff₀ hx]
    exact h.1

theorem Close.div {k j : Nat} {x y s t : K} (h : Close u k x y) (h' : Close u j s t) (hx : 0 ≤ x) (hs : 0 < s) :
    Close u (k + j) (x / s) (y / t) := by
  rw [div_eq_mul_inv, div_eq_mul_inv]
  exact Close.mul hu hu1 h (Close.inv hu hu1 h' hs) hx (inv_pos.2 hs).le

theorem Close.add {k : Nat} {x y x' y' : K} (h : Close u k x y) (h' : Close u k x' y') :
    Close u k (x + x') (y + y') := by
  constructor
  · rw [mul_add]; exact add_le_add h.1 h'.1
  · rw [mul_add]; exact add_le_add h.2 h'.2

theorem Close.of_abs {x z : K} (hx : 0 ≤ x) (h : |z - x| ≤ u * |x|) : Close u 1 x z := by
  rw [abs_of_nonneg hx, abs_le] at h
  constructor
  · rw [pow_one]; linarith [h.1]
  · rw [pow_one]
    calc (1 - u) * z ≤ (1 - u) * (x + u * x) := by
          have : 0 ≤ 1 - u := by linarith
          gcongr
          linarith [h.2]
      _ = x - u * u * x := by ring
      _ ≤ x := by have := mul_nonneg (mul_nonneg hu hu) hx; linarith

theorem AllClose.sum {k : Nat} {l m : List K} (h : AllClose u k l m) : Close u k l.sum m.sum := by
  induction h with
  | nil => exact Close.refl hu hu1 k (by simp)
  | cons h _ ih => rw [List.sum_cons, List.sum_cons]; exact Close.add hu hu1 h ih

theorem AllClose.nonneg {k : Nat} {l m : List K} (h : AllClose u k l m) (hl : ∀ x ∈ l, 0 ≤ x) : ∀ x ∈ m, 0 ≤ x := by
  induction h with
  | nil => simp
  | cons h _ ih =>
    simp only [List.mem_cons, forall_eq_or_imp] at hl ⊢
    exact ⟨Close.nonneg hu hu1 h hl.1, ih hl.2⟩

theorem AllClose.mono {k j : Nat} (hkj : k ≤ j) {l m : List K} (h : AllClose u k l m) (hl : ∀ x ∈ l, 0 ≤ x) :
    AllClose u j l m := by
  induction h with
  | nil => exact .nil
  | cons h _ ih =>
    simp only [List.mem_cons, forall_eq_or_imp] at hl
    exact .cons (Close.mono hu hu1 hkj hl.1 h) (ih hl.2)

theorem AllClose.trans {k j : Nat} {l m r : List K} (h : AllClose u k l m) (h' : AllClose u j m r) :
    AllClose u (k + j) l r := by
  induction h generalizing r with
  | nil => cases h'; exact .nil
  | cons h _ ih =>
    cases h' with
    | cons h1 h2 => exact .cons (Close.trans hu hu1 h h1) (ih h2)

theorem AllClose.refl (k : Nat) {l : List K} (hl : ∀ x ∈ l, 0 ≤ x) : AllClose u k l l := by
  induction l with
  | nil => exact .nil
  | cons a l ih =>
    simp only [List.mem_cons, forall_eq_or_imp] at hl
    exact .cons (Close.refl hu hu1 k hl.1) (ih hl.2)

end close

theorem AllClose.maskSel {u : K} {k : Nat} {l m : List K} (h : AllClose u k l m) (b : List Bool) :
    AllClose u k (maskSel l b) (maskSel m b) := by
  induction h generalizing b with
  | nil => cases b <;> exact .nil
  | cons h _ ih =>
    cases b with
    | nil => exact .nil
    | cons c b =>
      cases c
      · exact ih b
      · exact .cons h (ih b)

theorem AllClose.maskSet {u : K} {k : Nat} {l m v w : List K} (h : AllClose u k l m) (hv : AllClose u k v w)
    (b : List Bool) : AllClose u k (maskSet l b v) (maskSet m b w) := by
  induction h generalizing b v w with
  | nil => unfold BET.maskSet; exact .nil
  | cons h hs ih =>
    cases b with
    | nil => exact .cons h hs
    | cons c b =>
      cases c
      · exact .cons h (ih hv b)
      · cases hv with
        | nil => exact .cons h hs
        | cons h1 h2 => exact .cons h1 (ih h2 b)

theorem AllClose.maskFill {u : K} {k : Nat} {l m : List K} {v w : K} (h : AllClose u k l m) (hv : Close u k v w)
    (b : List Bool) : AllClose u k (maskFill l b v) (maskFill m b w) := by
  induction h generalizing b with
  | nil => unfold BET.maskFill; exact .nil
  | cons h hs ih =>
    cases b with
    | nil => exact .cons h hs
    | cons c b =>
      cases c
      · exact .cons h (ih b)
      · exact .cons hv (ih b)

theorem maskSel_sublist {α : Type} (l : List α) (b : List Bool) : (maskSel l b).Sublist l := by
  induction l generalizing b with
  | nil => simp [maskSel]
  | cons a l ih =>
    cases b with
    | nil => simp [maskSel]
    | cons c b =>
      cases c
      · exact (ih b).cons _
      · exact (ih b).cons_cons _

section rounds
variable {A : Arithmetic K} {u : K} (hA : Rounds A u)
include hA

theorem SumOf.close {h : Nat} {l : List K} {s : K} (hs : SumOf A.add h l s) (hl : ∀ x ∈ l, 0 ≤ x) :
    Close u h l.sum s := by
  induction hs with
  | nil h => exact Close.refl hA.nonneg hA.lt_one _ (by simp)
  | one h x => exact (List.sum_singleton (x := x)).symm ▸ Close.refl hA.nonneg hA.lt_one _ (hl x (by simp))
  | @add h l m a b _ _ ih1 ih2 =>
    have h1 := ih1 fun x hx => hl x (by simp [hx])
    have h2 := ih2 fun x hx => hl x (by simp [hx])
    have hn1 := Close.nonneg hA.nonneg hA.lt_one h1 (List.sum_nonneg fun x hx => hl x (by simp [hx]))
    have hn2 := Close.nonneg hA.nonneg hA.lt_one h2 (List.sum_nonneg fun x hx => hl x (by simp [hx]))
    rw [List.sum_append]
    exact Close.trans hA.nonneg hA.lt_one (Close.add hA.nonneg hA.lt_one h1 h2)
      (Close.of_abs hA.nonneg hA.lt_one (add_nonneg hn1 hn2) (hA.add a b))
  | perm hp _ ih =>
    rw [← hp.sum_eq]
    exact ih fun x hx => hl x (hp.subset hx)

theorem Rounds.div_close {j k : Nat} {x y s t : K} (h : Close u j x y) (h' : Close u k s t) (hx : 0 ≤ x) (hs : 0 < s) :
    Close u (j + k + 1) (x / s) (A.div y t) := by
  have ht := Close.pos hA.nonneg hA.lt_one h' hs
  have hy := Close.nonneg hA.nonneg hA.lt_one h hx
  exact Close.trans hA.nonneg hA.lt_one (Close.div hA.nonneg hA.lt_one h h' hx hs)
    (Close.of_abs hA.nonneg hA.lt_one (div_nonneg hy ht.le) (hA.div y t ht.ne'))

theorem Rounds.times {j k : Nat} {x y s t : K} (h : Close u j x y) (h' : Close u k s t) (hx : 0 ≤ x) (hs : 0 ≤ s) :
    Close u (j + k + 1) (x * s) (A.mul y t) :=
  Close.trans hA.nonneg hA.lt_one (Close.mul hA.nonneg hA.lt_one h h' hx hs)
    (Close.of_abs hA.nonneg hA.lt_one (mul_nonneg (Close.nonneg hA.nonneg hA.lt_one h hx)
      (Close.nonneg hA.nonneg hA.lt_one h' hs)) (hA.mul y t))

/-- The sum over the ranks of the sums of the selected entries. -/
theorem Rounds.cellSum {b N : Nat} {vs ws : Chunks K} (h : List.Forall₂ (AllClose u b) vs ws)
    (hv : ∀ c ∈ vs, ∀ x ∈ c, 0 ≤ x) (hN : ∀ c ∈ vs, c.length ≤ N) :
    Close u (b + N + vs.length) (allreduceSum (vs.map List.sum)) (A.reduceSum (ws.map A.npSum)) ∧
      0 ≤ allreduceSum (vs.map List.sum) := by
  have hnn : ∀ x ∈ vs.map List.sum, 0 ≤ x := by
    intro x hx
    obtain ⟨c, hc, rfl⟩ := List.mem_map.mp hx
    exact List.sum_nonneg (hv c hc)
  have hloc : AllClose u (b + N) (vs.map List.sum) (ws.map A.npSum) := by
    clear hnn
    induction h with
    | nil => exact .nil
    | @cons v w vs ws h _ ih =>
      simp only [List.mem_cons, forall_eq_or_imp] at hv hN
      refine .cons ?_ (ih hv.2 hN.2)
      have h1 := AllClose.sum hA.nonneg hA.lt_one h
      have hw := AllClose.nonneg hA.nonneg hA.lt_one h hv.1
      have h2 := SumOf.close hA (hA.npSum w) hw
      have h3 := Close.mono hA.nonneg hA.lt_one (show w.length ≤ N by rw [← h.length_eq]; exact hN.1)
        (List.sum_nonneg hw) h2
      exact Close.trans hA.nonneg hA.lt_one h1 h3
  have hw := AllClose.nonneg hA.nonneg hA.lt_one hloc hnn
  have h1 := AllClose.sum hA.nonneg hA.lt_one hloc
  have h2 := SumOf.close hA (hA.reduceSum _) hw
  rw [List.length_map, ← h.length_eq] at h2
  exact ⟨Close.trans hA.nonneg hA.lt_one h1 h2, List.sum_nonneg hnn⟩

theorem forall₂_zipWith {α β γ δ : Type} {R : α → β → Prop} {S : γ → δ → Prop} {ε : Type} {f : ε → α → γ} {g : ε → β → δ}
    {l : List α} {m : List β} (h : List.Forall₂ R l m) (hf : ∀ e a b, R a b → S (f e a) (g e b)) (c : List ε) :
    List.Forall₂ S (List.zipWith f c l) (List.zipWith g c m) := by
  clear hA
  induction h generalizing c with
  | nil => simp
  | cons h _ ih =>
    cases c with
    | nil => simp
    | cons e c => exact .cons (hf e _ _ h) (ih c)

end rounds

/-- The masks select the same entries. -/
theorem maskSelRanks_close {u : K} {b : Nat} {vs ws : Chunks K} (h : List.Forall₂ (AllClose u b) vs ws)
    {ms : Chunks Bool} {sel : Chunks K} (hs : maskSelRanks vs ms = .ok sel) :
    ∃ sel', maskSelRanks ws ms = .ok sel' ∧ List.Forall₂ (AllClose u b) sel sel' ∧
      ∀ c ∈ sel, ∃ v ∈ vs, c.Sublist v := by
  induction h generalizing ms sel with
  | nil =>
    simp only [maskSelRanks, List.zip_nil_left, List.mapM_nil, pure_eq_ok] at hs
    subst hs
    exact ⟨[], rfl, .nil, by simp⟩
  | @cons v w vs ws h _ ih =>
    cases ms with
    | nil =>
      simp only [maskSelRanks, List.zip_nil_right, List.mapM_nil, pure_eq_ok] at hs
      subst hs
      exact ⟨[], rfl, .nil, by simp⟩
    | cons m ms =>
      simp only [maskSelRanks, List.zip_cons_cons, List.mapM_cons, bind_eq_ok, pure_eq_ok] at hs
      obtain ⟨a, ha, r, hr, rfl⟩ := hs
      obtain ⟨r', hr', hcl, hsub⟩ := ih (show maskSelRanks vs ms = .ok r from hr)
      have ha' : a = maskSel v m ∧ v.length = m.length := by
        unfold maskSelE at ha
        split at ha
        · next hl => cases ha; exact ⟨rfl, hl⟩
        · cases ha
      obtain ⟨rfl, hl⟩ := ha'
      refine ⟨maskSel w m :: r', ?_, .cons (AllClose.maskSel h m) hcl, ?_⟩
      · have hw : maskSelE w m = .ok (maskSel w m) := by
          unfold maskSelE
          rw [if_pos (h.length_eq ▸ hl)]
        have : List.mapM (fun xm => maskSelE xm.1 xm.2) (List.zip ws ms) = Except.ok r' := hr'
        simp only [maskSelRanks, List.zip_cons_cons, List.mapM_cons, hw, this]
        rfl
      · intro c hc
        rcases List.mem_cons.mp hc with rfl | hc
        · exact ⟨v, by simp, maskSel_sublist v m⟩
        · obtain ⟨x, hx, hs⟩ := hsub c hc
          exact ⟨x, by simp [hx], hs⟩

theorem getIdx_close {u : K} {a : Nat} {ps qs : List K} (h : AllClose u a ps qs) {i : Nat} {p : K}
    (hp : getIdx ps i = .ok p) : ∃ q, getIdx qs i = .ok q ∧ Close u a p q := by
  induction h generalizing i with
  | nil => simp [getIdx] at hp
  | @cons x y ps qs h _ ih =>
    cases i with
    | zero =>
      simp only [getIdx, List.getElem?_cons_zero, Except.ok.injEq] at hp
      subst hp
      exact ⟨y, rfl, h⟩
    | succ i =>
      have : getIdx ps i = .ok p := by simpa [getIdx] using hp
      obtain ⟨q, hq, hc⟩ := ih this
      exact ⟨q, by simpa [getIdx] using hq, hc⟩

theorem maskSelRanks_length {α : Type} {vs : Chunks α} {ms : Chunks Bool} {sel : Chunks α}
    (hs : maskSelRanks vs ms = .ok sel) : sel.length ≤ vs.length := by
  induction vs generalizing ms sel with
  | nil =>
    simp only [maskSelRanks, List.zip_nil_left, List.mapM_nil, pure_eq_ok] at hs
    subst hs; simp
  | cons v vs ih =>
    cases ms with
    | nil =>
      simp only [maskSelRanks, List.zip_nil_right, List.mapM_nil, pure_eq_ok] at hs
      subst hs; simp
    | cons m ms =>
      simp only [maskSelRanks, List.zip_cons_cons, List.mapM_cons, bind_eq_ok, pure_eq_ok] at hs
      obtain ⟨a, ha, r, hr, rfl⟩ := hs
      have := ih (show maskSelRanks vs ms = .ok r from hr)
      simp; omega

/-- Closed form of the first loop of `prob_from_sample_set_with_emulated_volumes`. -/
theorem emLoopR_eq (A : Arithmetic K) (probs : List K) (ptr : Chunks Nat) (n : Nat) (hn : n ≤ probs.length) :
    (List.range n).foldlM (emBodyR A (some probs) ptr)
        (ptr.map (fun c => List.replicate c.length (0 : K)), false) =
      .ok (ptr.map fun c => c.map fun j =>
        if j < n ∧ probs.getD j 0 > 0 then A.add 0 (A.div (probs.getD j 0) (hits ptr.flatten j : K)) else 0,
        (List.range n).any fun i => decide (probs.getD i 0 > 0) && hits ptr.flatten i == 0) := by
  have h0 : (ptr.map fun c => List.replicate c.length (0 : K)) =
      ptr.map fun c => c.map fun _ => (0 : K) := by simp
  rw [h0]
  induction n with
  | zero => simp [pure, Except.pure]
  | succ n ih =>
    rw [List.range_succ, List.foldlM_append, ih (by omega), List.any_append]
    simp only [bind, Except.bind, List.foldlM_cons, List.foldlM_nil, List.any_cons, List.any_nil,
      Bool.or_false]
    have hg : probs.getD n 0 = probs[n] := by simp [List.getD, show n < probs.length by omega]
    have hget : getIdx probs n = .ok probs[n] := by
      simp [getIdx, show n < probs.length by omega]
    have hs : allreduceSum ((ptr.map fun c => npEqual c n).map fun m => m.count true) =
        hits ptr.flatten n := by
      rw [hits_flatten]
      simp [allreduceSum, Function.comp_def, count_npEqual]
    unfold emBodyR
    simp only [orErr, hget, bind, Except.bind, pure, Except.pure, hs, hg]
    by_cases hp : probs[n] > 0
    · simp only [hp, if_true]
      by_cases hm : hits ptr.flatten n > 0
      · have hm0 : (hits ptr.flatten n == 0) = false := by simpa using hm.ne'
        simp only [hm, if_true, hm0, Bool.and_false, Bool.or_false]
        congr 2
        rw [List.zipWith_map, List.zipWith_self]
        refine List.map_congr_left fun c _ => ?_
        have hz := maskSet_zipWith (α := K) c (c.map fun j => if j < n ∧ probs.getD j 0 > 0 then
          A.add 0 (A.div (probs.getD j 0) (hits ptr.flatten j : K)) else 0) (fun _ v => v)
          (fun x => A.add x (A.div probs[n] (hits ptr.flatten n : K))) n
        have hid : List.zipWith (fun (_ : Nat) (v : K) => v) c
            (c.map fun j => if j < n ∧ probs.getD j 0 > 0 then
              A.add 0 (A.div (probs.getD j 0) (hits ptr.flatten j : K)) else 0) =
            c.map fun j => if j < n ∧ probs.getD j 0 > 0 then
              A.add 0 (A.div (probs.getD j 0) (hits ptr.flatten j : K)) else 0 := by
          rw [List.zipWith_map_right, List.zipWith_self]
        rw [hid] at hz
        rw [hz, List.zipWith_map_right, List.zipWith_self]
        refine List.map_congr_left fun j _ => ?_
        by_cases hj : j = n
        · subst hj
          simp only [if_true, hg, hp, Nat.lt_succ_self, and_self, lt_irrefl, false_and, if_false]
        · have : j < n + 1 ↔ j < n := by omega
          simp only [hj, if_false, this]
      · have hm0 : (hits ptr.flatten n == 0) = true := by
          have : hits ptr.flatten n = 0 := by omega
          simp [this]
        simp only [hm, if_false, hm0]
        have hd : (decide (probs[n] > 0) && true) = true := by simp [hp]
        simp only [decide_true, Bool.and_true, Bool.or_true]
        congr 2
        refine List.map_congr_left fun c hc => List.map_congr_left fun j hj => ?_
        have hne : j ≠ n := by
          rintro rfl
          apply hm
          exact List.count_pos_iff.mpr (List.mem_flatten.mpr ⟨c, hc, hj⟩)
        have : j < n + 1 ↔ j < n := by omega
        simp only [this]
    · simp only [hp, if_false, decide_false, Bool.false_and, Bool.or_false]
      congr 2
      refine List.map_congr_left fun c _ => List.map_congr_left fun j _ => ?_
      by_cases hj : j = n
      · subst hj; simp only [hg, hp, and_false, if_false, lt_irrefl, false_and]
      · have : j < n + 1 ↔ j < n := by omega
        simp only [this]

section loops
variable {A : Arithmetic K} {u : K} (hA : Rounds A u)
include hA

theorem Rounds.selected {b N : Nat} {vs ws : Chunks K} (h : List.Forall₂ (AllClose u b) vs ws)
    (hv : ∀ c ∈ vs, ∀ x ∈ c, 0 ≤ x) (hN : ∀ c ∈ vs, c.length ≤ N) {ms : Chunks Bool} {sel : Chunks K}
    (hs : maskSelRanks vs ms = .ok sel) :
    ∃ sel', maskSelRanks ws ms = .ok sel' ∧ List.Forall₂ (AllClose u b) sel sel' ∧ (∀ c ∈ sel, ∀ x ∈ c, 0 ≤ x) ∧
      Close u (b + N + vs.length) (allreduceSum (sel.map List.sum)) (A.reduceSum (sel'.map A.npSum)) := by
  obtain ⟨sel', h1, h2, h3⟩ := maskSelRanks_close h hs
  have hnn : ∀ c ∈ sel, ∀ x ∈ c, 0 ≤ x := fun c hc x hx => by
    obtain ⟨v, hv1, hv2⟩ := h3 c hc
    exact hv v hv1 x (hv2.subset hx)
  refine ⟨sel', h1, h2, hnn, ?_⟩
  have := Rounds.cellSum hA (N := N) h2 hnn fun c hc => by
    obtain ⟨v, hv1, hv2⟩ := h3 c hc
    exact hv2.length_le.trans (hN v hv1)
  exact Close.mono hA.nonneg hA.lt_one (by have := maskSelRanks_length hs; omega) this.2 this.1

/-- One pass of the loop of `prob`. -/
theorem probBodyR_close {a b N k : Nat} {ps qs : List K} {ptr : Chunks Nat} {vs ws P Q : Chunks K}
    (hp : AllClose u a ps qs) (hvw : List.Forall₂ (AllClose u b) vs ws)
    (hv : ∀ c ∈ vs, ∀ x ∈ c, 0 ≤ x) (hN : ∀ c ∈ vs, c.length ≤ N) (hk : a + b + (b + N + vs.length) + 2 ≤ k)
    (hP : List.Forall₂ (AllClose u k) P Q) {i : Nat} {P' : Chunks K}
    (h : probBody (some ps) ptr (some vs) P i = .ok P') :
    ∃ Q', probBodyR A (some qs) ptr (some ws) Q i = .ok Q' ∧ List.Forall₂ (AllClose u k) P' Q' := by
  simp only [probBody, orErr_some, ok_bind, bind_eq_ok] at h
  obtain ⟨p, hpi, h⟩ := h
  obtain ⟨q, hqi, hpq⟩ := getIdx_close hp hpi
  simp only [probBodyR, orErr_some, ok_bind, hqi]
  have hpos := Close.pos_iff hA.nonneg hA.lt_one hpq
  split at h
  · next hp0 =>
    rw [if_pos (hpos.1 hp0)]
    simp only [bind_eq_ok] at h
    obtain ⟨sel, hsel, h⟩ := h
    obtain ⟨sel', h1, h2, h3, h4⟩ := Rounds.selected hA hvw hv hN hsel
    simp only [h1, ok_bind]
    have hspos := Close.pos_iff hA.nonneg hA.lt_one h4
    split at h
    · next hs0 =>
      rw [if_pos (hspos.1 hs0)]
      simp only [pure_eq_ok] at h ⊢
      subst h
      refine ⟨_, rfl, ?_⟩
      generalize ptr.map (fun c => npEqual c i) = mask
      generalize allreduceSum (sel.map List.sum) = s at *
      generalize A.reduceSum (sel'.map A.npSum) = t at *
      have hent : ∀ {l m : List K}, AllClose u b l m → (∀ x ∈ l, 0 ≤ x) →
          AllClose u k (l.map fun v => p * v / s) (m.map fun v => A.div (A.mul q v) t) := by
        intro l m hlm hl
        induction hlm with
        | nil => exact .nil
        | cons hx _ ih =>
          simp only [List.mem_cons, forall_eq_or_imp] at hl
          refine .cons ?_ (ih hl.2)
          have hm := Rounds.times hA hpq hx (le_of_lt hp0) hl.1
          have hn := mul_nonneg (le_of_lt hp0) hl.1
          exact Close.mono hA.nonneg hA.lt_one (by omega) (div_nonneg hn (le_of_lt hs0))
            (Rounds.div_close hA hm h4 hn hs0)
      clear h1 hsel h4 hspos hpi hqi
      induction hP generalizing mask sel sel' with
      | nil => simp
      | cons hPQ _ ih =>
        cases mask with
        | nil => simp
        | cons m mask =>
          cases h2 with
          | nil => simp
          | cons hx hxs =>
            simp only [List.mem_cons, forall_eq_or_imp] at h3
            exact .cons (AllClose.maskSet hPQ (hent hx h3.1) m) (ih _ _ hxs h3.2 _)
    · next hs0 =>
      rw [if_neg (fun h => hs0 (hspos.2 h))]
      simp only [pure_eq_ok] at h ⊢
      subst h
      exact ⟨Q, rfl, hP⟩
  · next hp0 =>
    rw [if_neg (fun h => hp0 (hpos.2 h))]
    simp only [pure_eq_ok] at h ⊢
    subst h
    exact ⟨Q, rfl, hP⟩

theorem zeros_close (k : Nat) (ptr : List (List Nat)) :
    List.Forall₂ (AllClose u k) (ptr.map fun c => List.replicate c.length (0 : K))
      (ptr.map fun c => List.replicate c.length (0 : K)) := by
  induction ptr with
  | nil => exact .nil
  | cons c ptr ih =>
    refine .cons (AllClose.refl hA.nonneg hA.lt_one k fun x hx => ?_) ih
    rw [(List.mem_replicate.mp hx).2]

/-- A loop that keeps the states close. -/
theorem foldlM_close {σ τ : Type} {R : σ → τ → Prop} {f : σ → Nat → Except Err σ} {g : τ → Nat → Except Err τ}
    (hfg : ∀ s t i s', R s t → f s i = .ok s' → ∃ t', g t i = .ok t' ∧ R s' t') (l : List Nat) {s s' : σ} {t : τ}
    (hst : R s t) (h : l.foldlM f s = .ok s') : ∃ t', l.foldlM g t = .ok t' ∧ R s' t' := by
  clear hA
  induction l generalizing s t with
  | nil =>
    simp only [List.foldlM_nil, pure_eq_ok] at h ⊢
    subst h
    exact ⟨t, rfl, hst⟩
  | cons i l ih =>
    rw [List.foldlM_cons, bind_eq_ok] at h
    obtain ⟨s₁, h1, h2⟩ := h
    obtain ⟨t₁, h3, h4⟩ := hfg s t i s₁ hst h1
    obtain ⟨t', h5, h6⟩ := ih h4 h2
    exact ⟨t', by rw [List.foldlM_cons, h3]; exact h5, h6⟩

/-- The loop of `prob`. -/
theorem probLoopR_close {a b N : Nat} {ps qs : List K} {ptr : Chunks Nat} {vs ws : Chunks K}
    (hp : AllClose u a ps qs) (hvw : List.Forall₂ (AllClose u b) vs ws)
    (hv : ∀ c ∈ vs, ∀ x ∈ c, 0 ≤ x) (hN : ∀ c ∈ vs, c.length ≤ N) {n : Nat} {P : Chunks K}
    (h : probLoop n (some ps) ptr (some vs) = .ok P) :
    ∃ Q, probLoopR A n (some qs) ptr (some ws) = .ok Q ∧
      List.Forall₂ (AllClose u (a + b + (b + N + vs.length) + 2)) P Q :=
  foldlM_close hA (R := List.Forall₂ (AllClose u (a + b + (b + N + vs.length) + 2)))
    (f := probBody (some ps) ptr (some vs)) (g := probBodyR A (some qs) ptr (some ws))
    (fun _ _ _ _ hPQ hb => probBodyR_close hA hp hvw hv hN le_rfl hPQ hb) _ (zeros_close hA _ ptr) h

/-- The gathering loops. -/
theorem gatherLoopR_close {b N : Nat} {ptr : Chunks Nat} {vs ws : Chunks K} (hvw : List.Forall₂ (AllClose u b) vs ws)
    (hv : ∀ c ∈ vs, ∀ x ∈ c, 0 ≤ x) (hN : ∀ c ∈ vs, c.length ≤ N) {n : Nat} {P : List K}
    (h : gatherLoop n ptr vs = .ok P) :
    ∃ Q, gatherLoopR A n ptr ws = .ok Q ∧ AllClose u (b + N + vs.length) P Q := by
  unfold gatherLoop at h
  unfold gatherLoopR
  generalize List.range n = l at h ⊢
  induction l generalizing P with
  | nil =>
    simp only [List.mapM_nil, pure_eq_ok] at h ⊢
    subst h
    exact ⟨[], rfl, .nil⟩
  | cons i l ih =>
    simp only [List.mapM_cons, bind_eq_ok, pure_eq_ok] at h
    obtain ⟨x, ⟨sel, hsel, rfl⟩, r, hr, rfl⟩ := h
    obtain ⟨Q, hQ, hc⟩ := ih (by simpa only [bind_eq_ok, pure_eq_ok] using hr)
    obtain ⟨sel', h1, -, -, h4⟩ := Rounds.selected hA hvw hv hN hsel
    refine ⟨A.reduceSum (sel'.map A.npSum) :: Q, ?_, .cons h4 hc⟩
    simp only [List.mapM_cons, h1, ok_bind, pure_bind, hQ]
    rfl

/-- One pass of the loop of `prob_on_emulated_samples`. -/
theorem probEmBodyR_close {a : Nat} {ps qs : List K} {ptr : Chunks Nat} {P Q : Chunks K}
    (hp : AllClose u a ps qs) (hP : List.Forall₂ (AllClose u (a + 1)) P Q) {i : Nat} {P' : Chunks K}
    (h : probEmBody (some ps) ptr P i = .ok P') :
    ∃ Q', probEmBodyR A (some qs) ptr Q i = .ok Q' ∧ List.Forall₂ (AllClose u (a + 1)) P' Q' := by
  simp only [probEmBody, orErr_some, ok_bind, bind_eq_ok] at h
  obtain ⟨p, hpi, h⟩ := h
  obtain ⟨q, hqi, hpq⟩ := getIdx_close hp hpi
  simp only [probEmBodyR, orErr_some, ok_bind, hqi]
  have hpos := Close.pos_iff hA.nonneg hA.lt_one hpq
  split at h
  · next hp0 =>
    rw [if_pos (hpos.1 hp0)]
    split at h
    · next hs0 =>
      rw [if_pos hs0]
      have hs1 : (0 : K) < ((allreduceSum ((ptr.map fun c => npEqual c i).map fun m => m.count true) : Nat) : K) :=
        Nat.cast_pos.2 hs0
      have hv : Close u (a + 1) (p / ((allreduceSum ((ptr.map fun c => npEqual c i).map fun m => m.count true) : Nat) : K))
          (A.div q ((allreduceSum ((ptr.map fun c => npEqual c i).map fun m => m.count true) : Nat) : K)) :=
        Rounds.div_close hA hpq (Close.refl hA.nonneg hA.lt_one 0 hs1.le) (le_of_lt hp0) hs1
      generalize ((allreduceSum ((ptr.map fun c => npEqual c i).map fun m => m.count true) : Nat) : K) = s at *
      generalize ptr.map (fun c => npEqual c i) = mask at *
      clear hs0 hpi hqi
      induction hP generalizing mask P' with
      | nil =>
        simp only [List.zip_nil_left, List.mapM_nil, pure_eq_ok] at h ⊢
        subst h
        exact ⟨[], rfl, .nil⟩
      | @cons x y P Q hPQ _ ih =>
        cases mask with
        | nil =>
          simp only [List.zip_nil_right, List.mapM_nil, pure_eq_ok] at h ⊢
          subst h
          exact ⟨[], rfl, .nil⟩
        | cons m mask =>
          simp only [List.zip_cons_cons, List.mapM_cons, bind_eq_ok, pure_eq_ok] at h
          obtain ⟨c, hc, r, hr, rfl⟩ := h
          obtain ⟨r', hr', hcl⟩ := ih _ hr
          have hl : c = maskFill x m (p / s) ∧ x.length = m.length := by
            unfold maskFillE at hc
            split at hc
            · next hl => cases hc; exact ⟨rfl, hl⟩
            · cases hc
          obtain ⟨rfl, hl⟩ := hl
          have hy : maskFillE y m (A.div q s) = .ok (maskFill y m (A.div q s)) := by
            unfold maskFillE
            rw [if_pos (hPQ.length_eq ▸ hl)]
          refine ⟨maskFill y m (A.div q s) :: r', ?_, .cons (AllClose.maskFill hPQ hv m) hcl⟩
          simp only [List.zip_cons_cons, List.mapM_cons, hy, hr', ok_bind]
          rfl
    · next hs0 =>
      rw [if_neg hs0]
      simp only [pure_eq_ok] at h ⊢
      subst h
      exact ⟨Q, rfl, hP⟩
  · next hp0 =>
    rw [if_neg (fun h => hp0 (hpos.2 h))]
    simp only [pure_eq_ok] at h ⊢
    subst h
    exact ⟨Q, rfl, hP⟩

/-- The loop of `prob_on_emulated_samples`. -/
theorem probEmLoopR_close {a : Nat} {ps qs : List K} {ptr : Chunks Nat} (hp : AllClose u a ps qs)
    {P₀ Q₀ : Chunks K} (h0 : List.Forall₂ (AllClose u (a + 1)) P₀ Q₀) {n : Nat} {P : Chunks K}
    (h : (List.range n).foldlM (probEmBody (some ps) ptr) P₀ = .ok P) :
    ∃ Q, (List.range n).foldlM (probEmBodyR A (some qs) ptr) Q₀ = .ok Q ∧ List.Forall₂ (AllClose u (a + 1)) P Q :=
  foldlM_close hA (R := List.Forall₂ (AllClose u (a + 1)))
    (f := probEmBody (some ps) ptr) (g := probEmBodyR A (some qs) ptr)
    (fun _ _ _ _ hPQ hb => probEmBodyR_close hA hp hPQ hb) _ h0 h

end loops

end BET
