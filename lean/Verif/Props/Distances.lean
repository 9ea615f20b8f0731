import Verif.Model.CompareP
import Verif.Lemmas.Basic
import Verif.Props.Choose
import Mathlib.Algebra.Order.Ring.Abs
import Mathlib.Algebra.Order.Chebyshev
import Mathlib.Analysis.Real.Sqrt
import Mathlib.Algebra.Order.BigOperators.Group.List
import Mathlib.Tactic.Ring
import Mathlib.Tactic.Linarith
import Mathlib.Tactic.FieldSimp

/-!
# C58, C80: statistical distances
-/

set_option linter.unusedSectionVars false
set_option linter.unusedSimpArgs false
set_option autoImplicit false

namespace BET

variable {K : Type} [Field K] [LinearOrder K]

/-! ### Specification -/

/-- `sqrt` is the square root on the non-negative numbers. -/
def Spec.IsSqrt (sqrt : K → K) : Prop := ∀ x, 0 ≤ x → 0 ≤ sqrt x ∧ sqrt x * sqrt x = x

/-- A comparison object on which no distance was computed yet, and whose two densities have the
values `P` and `Q` at the comparison points. -/
def Spec.Compares (c : Compare K) (P Q : List K) : Prop :=
  c.pdfs1 = none ∧ c.pdfs2 = none ∧
    ∃ v, c.vals = some v ∧ c.dens1.pdf v = .ok P ∧ c.dens2.pdf v = .ok Q

/-- The call `c.distance(fn, normalize)` returns `d`. -/
def Spec.Gives (sqrt : K → K) (c : Compare K) (fn : Functional K) (normalize : Bool) (d : K) : Prop :=
  ∃ c', c.distance sqrt fn normalize = .ok (d, c')

/-- The functionals of C58. -/
inductive Spec.Metric : Functional K → Prop
  | tv : Spec.Metric .tv
  | norm : Spec.Metric .norm
  | euclid : Spec.Metric .euclid

open Spec

/-! ### Lemmas -/

/-- The densities that are compared. -/
def densN (b : Bool) (P : List K) : List K := if b then P.map fun x => x / P.sum else P

/-- The factor. -/
def facN (b : Bool) (P : List K) : K := if b then 1 else 1 / (P.length : K)

theorem length_densN (b : Bool) (P : List K) : (densN b P).length = P.length := by
  cases b <;> simp [densN]

theorem normFactor_eq_ok {b : Bool} {P Q : List K} {r : (List K × List K) × K} :
    normFactor b P Q = .ok r ↔ (b = true → P.sum ≠ 0 ∧ Q.sum ≠ 0) ∧ (b = false → P.length ≠ 0) ∧
      r = ((densN b P, densN b Q), facN b P) := by
  cases b
  · simp only [normFactor, Bool.false_eq_true, if_false, bind_eq_ok, raiseIf_eq_ok, pure_eq_ok, densN, facN,
      decide_eq_true_eq, false_imp_iff, true_and, forall_const]
    constructor
    · rintro ⟨_, h, rfl⟩
      exact ⟨h, rfl⟩
    · rintro ⟨h, rfl⟩
      exact ⟨(), h, rfl⟩
  · simp only [normFactor, if_true, normalized, bind_eq_ok, raiseIf_eq_ok, pure_eq_ok, densN, facN,
      decide_eq_true_eq, forall_const, reduceCtorEq, false_imp_iff, true_and]
    constructor
    · rintro ⟨_, ⟨_, h, rfl⟩, _, ⟨_, h', rfl⟩, rfl⟩
      exact ⟨⟨h, h'⟩, rfl⟩
    · rintro ⟨h, rfl⟩
      exact ⟨_, ⟨(), h.1, rfl⟩, _, ⟨(), h.2, rfl⟩, rfl⟩

theorem prepare_fresh {c : Compare K} {P Q : List K} (h : Compares c P Q) (b : Bool) :
    c.prepare b = (normFactor b P Q).map fun r =>
      ({ c with pdfs1 := some r.1.1, pdfs2 := some r.1.2 }, r.2) := by
  obtain ⟨h1, h2, v, h3, h4, h5⟩ := h
  simp only [Compare.prepare, h3, Option.isNone_some, raiseIf_false, ok_bind, Compare.ensurePdfs, h1,
    h2, Option.isNone_none, Bool.or_self, if_true, Compare.evaluatePdfs, orErr_some, h4, h5,
    Bool.false_eq_true, pure_bind_ok]
  cases normFactor b P Q <;> rfl

theorem gives_iff {sqrt : K → K} {c : Compare K} {P Q : List K} (h : Compares c P Q)
    {fn : Functional K} (hf : fn ≠ .hell) {b : Bool} {d : K} :
    Gives sqrt c fn b d ↔ (b = true → P.sum ≠ 0 ∧ Q.sum ≠ 0) ∧ (b = false → P.length ≠ 0) ∧
      applyFn sqrt (facN b P) (densN b P) (densN b Q) fn = .ok d := by
  have e : ∀ a : Compare K × K, (match fn with
      | .hell => do
        let b ← a.1.prepare false
        let d ← b.1.value sqrt b.2 .sqhell
        pure (sqrt d, b.1)
      | f => do
        let d ← a.1.value sqrt a.2 f
        pure (d, a.1) : Except Err (K × Compare K)) = (do
        let d ← a.1.value sqrt a.2 fn
        pure (d, a.1)) := by
    intro a
    cases fn <;> first | rfl | exact (hf rfl).elim
  simp only [Gives, Compare.distance, e, prepare_fresh h]
  constructor
  · rintro ⟨c', hc⟩
    cases hn : normFactor b P Q with
    | error x => rw [hn] at hc; cases hc
    | ok r =>
      rw [hn] at hc
      obtain ⟨h1, h2, rfl⟩ := normFactor_eq_ok.mp hn
      simp only [Except.map, ok_bind, Compare.value, orErr_some, bind_eq_ok, pure_eq_ok] at hc
      obtain ⟨d', hd, he⟩ := hc
      cases he
      exact ⟨h1, h2, hd⟩
  · rintro ⟨h1, h2, hd⟩
    rw [normFactor_eq_ok.mpr ⟨h1, h2, rfl⟩]
    simp only [Except.map, ok_bind, Compare.value, orErr_some, hd]
    exact ⟨_, rfl⟩

section
variable [IsStrictOrderedRing K]

theorem facN_nonneg (b : Bool) (P : List K) : 0 ≤ facN b P := by
  cases b <;> simp [facN]

theorem facN_pos {b : Bool} {P : List K} (h : b = false → P.length ≠ 0) : 0 < facN b P := by
  cases b
  · simp only [facN, Bool.false_eq_true, if_false]
    have : 0 < P.length := Nat.pos_of_ne_zero (h rfl)
    positivity
  · simp [facN]

theorem halfAbs_nonneg (p q : List K) : 0 ≤ halfAbs p q := by
  unfold halfAbs
  refine List.sum_nonneg fun x hx => ?_
  obtain ⟨a, b, rfl⟩ : ∃ a b, x = |a - b| / 2 := by
    rw [List.mem_iff_getElem] at hx
    obtain ⟨i, hi, rfl⟩ := hx
    rw [List.getElem_zipWith]
    exact ⟨_, _, rfl⟩
  positivity

theorem sqDist_nonneg (p q : List K) : 0 ≤ sqDist p q := by
  unfold sqDist
  refine List.sum_nonneg fun x hx => ?_
  rw [List.mem_iff_getElem] at hx
  obtain ⟨i, hi, rfl⟩ := hx
  rw [List.getElem_zipWith]
  exact mul_self_nonneg _

theorem halfAbs_comm (p q : List K) : halfAbs p q = halfAbs q p := by
  unfold halfAbs
  rw [List.zipWith_comm]
  simp only [abs_sub_comm]

theorem sqDist_comm (p q : List K) : sqDist p q = sqDist q p := by
  unfold sqDist
  rw [List.zipWith_comm]
  congr 2
  funext x y
  ring

theorem halfAbs_self (p : List K) : halfAbs p p = 0 := by
  induction p with
  | nil => rfl
  | cons a p ih => simp only [halfAbs, List.zipWith_cons_cons, List.sum_cons] at ih ⊢; rw [ih]; simp

theorem sqDist_self (p : List K) : sqDist p p = 0 := by
  induction p with
  | nil => rfl
  | cons a p ih => simp only [sqDist, List.zipWith_cons_cons, List.sum_cons] at ih ⊢; rw [ih]; simp

theorem halfAbs_eq_zero {p q : List K} (hl : p.length = q.length) (h : halfAbs p q = 0) : p = q := by
  induction p generalizing q with
  | nil => cases q with
    | nil => rfl
    | cons => simp at hl
  | cons a p ih => cases q with
    | nil => simp at hl
    | cons b q =>
      have e : halfAbs (a :: p) (b :: q) = |a - b| / 2 + halfAbs p q := by simp [halfAbs]
      rw [e] at h
      have h1 := abs_nonneg (a - b)
      have h2 := halfAbs_nonneg p q
      have h3 : |a - b| = 0 := by linarith
      have h4 : halfAbs p q = 0 := by linarith
      rw [ih (by simpa using hl) h4, sub_eq_zero.mp (abs_eq_zero.mp h3)]

theorem halfAbs_triangle {p q r : List K} (h1 : p.length = q.length) (h2 : q.length = r.length) :
    halfAbs p r ≤ halfAbs p q + halfAbs q r := by
  induction p generalizing q r with
  | nil => simp [halfAbs, add_nonneg (halfAbs_nonneg [] q) (halfAbs_nonneg q r)]
           exact halfAbs_nonneg q r
  | cons a p ih =>
    cases q with
    | nil => simp at h1
    | cons b q =>
      cases r with
      | nil => simp at h2
      | cons c r =>
        have := ih (q := q) (r := r) (by simpa using h1) (by simpa using h2)
        simp only [halfAbs, List.zipWith_cons_cons, List.sum_cons] at this ⊢
        have h3 := abs_sub_le a b c
        linarith

theorem sum_zipWith_getD (f : K → K → K) {p q : List K} (h : p.length = q.length) :
    (List.zipWith f p q).sum = ∑ i ∈ Finset.range p.length, f (p.getD i 0) (q.getD i 0) := by
  induction p generalizing q with
  | nil => cases q with
    | nil => simp
    | cons => simp at h
  | cons a p ih => cases q with
    | nil => simp at h
    | cons b q =>
      rw [List.zipWith_cons_cons, List.sum_cons, ih (by simpa using h), List.length_cons,
        Finset.sum_range_succ', add_comm]
      rfl

theorem le_of_sq {x y : K} (hy : 0 ≤ y) (h : x * x ≤ y * y) : x ≤ y := by
  by_contra hc
  push Not at hc
  nlinarith

theorem sqrt_mono {sqrt : K → K} (hs : IsSqrt sqrt) {x y : K} (hx : 0 ≤ x) (h : x ≤ y) :
    sqrt x ≤ sqrt y := by
  refine le_of_sq (hs y (hx.trans h)).1 ?_
  rw [(hs x hx).2, (hs y (hx.trans h)).2]
  exact h

/-- Minkowski's inequality. -/
theorem sqDist_triangle {sqrt : K → K} (hs : IsSqrt sqrt) {p q r : List K}
    (h1 : p.length = q.length) (h2 : q.length = r.length) :
    sqrt (sqDist p r) ≤ sqrt (sqDist p q) + sqrt (sqDist q r) := by
  obtain ⟨ha, ha'⟩ := hs _ (sqDist_nonneg p q)
  obtain ⟨hb, hb'⟩ := hs _ (sqDist_nonneg q r)
  obtain ⟨hc, hc'⟩ := hs _ (sqDist_nonneg p r)
  set A := sqrt (sqDist p q)
  set B := sqrt (sqDist q r)
  refine le_of_sq (add_nonneg ha hb) ?_
  rw [hc']
  have e1 : sqDist p q = ∑ i ∈ Finset.range p.length, (p.getD i 0 - q.getD i 0) ^ 2 := by
    rw [sqDist, sum_zipWith_getD _ h1]; simp only [sq]
  have e2 : sqDist q r = ∑ i ∈ Finset.range p.length, (q.getD i 0 - r.getD i 0) ^ 2 := by
    rw [sqDist, sum_zipWith_getD _ h2, h1]; simp only [sq]
  have e3 : sqDist p r = sqDist p q + sqDist q r +
      2 * ∑ i ∈ Finset.range p.length, (p.getD i 0 - q.getD i 0) * (q.getD i 0 - r.getD i 0) := by
    rw [e1, e2, Finset.mul_sum, ← Finset.sum_add_distrib, ← Finset.sum_add_distrib, sqDist,
      sum_zipWith_getD _ (h1.trans h2)]
    refine Finset.sum_congr rfl fun i _ => ?_
    ring
  have cs := Finset.sum_mul_sq_le_sq_mul_sq (Finset.range p.length)
    (fun i => p.getD i 0 - q.getD i 0) (fun i => q.getD i 0 - r.getD i 0)
  rw [← e1, ← e2, ← ha', ← hb', sq] at cs
  have := le_of_sq (mul_nonneg ha hb) (cs.trans (le_of_eq (by ring)))
  rw [e3, ← ha', ← hb']
  linarith

theorem metric_ne {fn : Functional K} (h : Metric fn) : fn ≠ .hell := by
  cases h <;> nofun

/-- The functionals of C58 as functions of factor and densities. -/
theorem apply_metric {sqrt : K → K} {f : K} {p q : List K} {fn : Functional K} {d : K}
    (h : applyFn sqrt f p q fn = .ok d) (hm : Metric fn ∨ fn = .sqhell) : p.length = q.length := by
  rcases hm with hm | rfl
  · cases hm <;>
    · simp only [applyFn, bind_eq_ok, raiseIf_eq_ok, decide_eq_true_eq] at h
      obtain ⟨_, h, -⟩ := h
      simpa using h
  · simp only [applyFn, bind_eq_ok, raiseIf_eq_ok, decide_eq_true_eq] at h
    obtain ⟨_, h, -⟩ := h
    simpa using h

theorem apply_ok {sqrt : K → K} {f : K} {p q : List K} (hl : p.length = q.length) :
    applyFn sqrt f p q .tv = .ok (f * halfAbs p q) ∧
    applyFn sqrt f p q .norm = .ok (f * sqrt (sqDist p q)) ∧
    applyFn sqrt f p q .euclid = .ok (sqrt f * sqrt (sqDist p q)) ∧
    applyFn sqrt f p q .sqhell = .ok (f * sqDist (p.map sqrt) (q.map sqrt) / 2) := by
  simp [applyFn, hl, raiseIf_false, ok_bind]

/-! ### C58 -/

/-- C58: the distances are defined and non-negative. -/
theorem C58_nonneg {sqrt : K → K} (hs : IsSqrt sqrt) {c : Compare K} {P Q : List K}
    (h : Compares c P Q) (hl : P.length = Q.length) (hn : P ≠ []) {b : Bool}
    (hb : b = true → P.sum ≠ 0 ∧ Q.sum ≠ 0) {fn : Functional K} (hf : Metric fn ∨ fn = .sqhell) :
    ∃ d, Gives sqrt c fn b d ∧ 0 ≤ d := by
  have hne : fn ≠ .hell := by
    rcases hf with hf | rfl
    · exact metric_ne hf
    · nofun
  have hl' : (densN b P).length = (densN b Q).length := by rw [length_densN, length_densN, hl]
  obtain ⟨a1, a2, a3, a4⟩ := apply_ok (sqrt := sqrt) (f := facN b P) hl'
  have hlen : b = false → P.length ≠ 0 := fun _ => by simpa using hn
  have h0 := facN_nonneg b P
  have h1 := (hs _ (sqDist_nonneg (densN b P) (densN b Q))).1
  rcases hf with hf | rfl
  · cases hf
    · exact ⟨_, (gives_iff h hne).mpr ⟨hb, hlen, a1⟩, mul_nonneg h0 (halfAbs_nonneg _ _)⟩
    · exact ⟨_, (gives_iff h hne).mpr ⟨hb, hlen, a2⟩, mul_nonneg h0 h1⟩
    · exact ⟨_, (gives_iff h hne).mpr ⟨hb, hlen, a3⟩, mul_nonneg (hs _ h0).1 h1⟩
  · refine ⟨_, (gives_iff h hne).mpr ⟨hb, hlen, a4⟩, ?_⟩
    have := mul_nonneg h0 (sqDist_nonneg ((densN b P).map sqrt) ((densN b Q).map sqrt))
    linarith

/-- C58: comparing in the other order gives the same distance. -/
theorem C58_symm {sqrt : K → K} {c c' : Compare K} {P Q : List K}
    (h : Compares c P Q) (h' : Compares c' Q P) {b : Bool} {fn : Functional K}
    (hf : Metric fn ∨ fn = .sqhell) {d : K} (hd : Gives sqrt c fn b d) : Gives sqrt c' fn b d := by
  have hne : fn ≠ .hell := by
    rcases hf with hf | rfl
    · exact metric_ne hf
    · nofun
  obtain ⟨h1, h2, h3⟩ := (gives_iff h hne).mp hd
  have hl := apply_metric h3 hf
  have hl' : P.length = Q.length := by rwa [length_densN, length_densN] at hl
  have hF : facN b Q = facN b P := by unfold facN; rw [hl']
  refine (gives_iff h' hne).mpr ⟨fun hb => ⟨(h1 hb).2, (h1 hb).1⟩, fun hb => hl' ▸ h2 hb, ?_⟩
  rw [hF, ← h3]
  obtain ⟨a1, a2, a3, a4⟩ := apply_ok (sqrt := sqrt) (f := facN b P) hl
  obtain ⟨b1, b2, b3, b4⟩ := apply_ok (sqrt := sqrt) (f := facN b P) hl.symm
  rcases hf with hf | rfl
  · cases hf
    · rw [a1, b1, halfAbs_comm]
    · rw [a2, b2, sqDist_comm]
    · rw [a3, b3, sqDist_comm]
  · rw [a4, b4, sqDist_comm]

/-- C58: the distance of identical densities is zero. -/
theorem C58_self {sqrt : K → K} (hs : IsSqrt sqrt) {c : Compare K} {P : List K}
    (h : Compares c P P) {b : Bool} {fn : Functional K}
    (hf : Metric fn ∨ fn = .sqhell) {d : K} (hd : Gives sqrt c fn b d) : d = 0 := by
  have hne : fn ≠ .hell := by
    rcases hf with hf | rfl
    · exact metric_ne hf
    · nofun
  obtain ⟨h1, h2, h3⟩ := (gives_iff h hne).mp hd
  obtain ⟨a1, a2, a3, a4⟩ := apply_ok (sqrt := sqrt) (f := facN b P) (rfl : (densN b P).length = _)
  have h0 : sqrt (0 : K) = 0 := by
    have := (hs 0 le_rfl).2
    exact mul_self_eq_zero.mp this
  rcases hf with hf | rfl
  · cases hf
    · rw [a1, halfAbs_self] at h3; cases h3; simp
    · rw [a2, sqDist_self, h0] at h3; cases h3; simp
    · rw [a3, sqDist_self, h0] at h3; cases h3; simp
  · rw [a4, sqDist_self] at h3; cases h3; simp

/-- C58: conversely, densities at total variation distance zero agree at all comparison points (after
normalisation, if it was asked for). -/
theorem C58_tv_zero {sqrt : K → K} {c : Compare K} {P Q : List K}
    (h : Compares c P Q) {b : Bool} (hd : Gives sqrt c .tv b 0) :
    if b then (P.map fun x => x / P.sum) = Q.map fun x => x / Q.sum else P = Q := by
  obtain ⟨h1, h2, h3⟩ := (gives_iff h (by nofun)).mp hd
  have hl := apply_metric h3 (Or.inl .tv)
  rw [(apply_ok hl).1] at h3
  have h4 : facN b P * halfAbs (densN b P) (densN b Q) = 0 := (Except.ok.inj h3)
  have := halfAbs_eq_zero hl ((mul_eq_zero.mp h4).resolve_left (facN_pos h2).ne')
  cases b <;> simpa [densN] using this

/-- C58: the triangle inequality. -/
theorem C58_triangle {sqrt : K → K} (hs : IsSqrt sqrt) {c₁ c₂ c₃ : Compare K} {P Q R : List K}
    (h₁ : Compares c₁ P Q) (h₂ : Compares c₂ Q R) (h₃ : Compares c₃ P R) {b : Bool}
    {fn : Functional K} (hf : Metric fn) {d₁ d₂ d₃ : K} (hd₁ : Gives sqrt c₁ fn b d₁)
    (hd₂ : Gives sqrt c₂ fn b d₂) (hd₃ : Gives sqrt c₃ fn b d₃) : d₃ ≤ d₁ + d₂ := by
  obtain ⟨-, -, k₁⟩ := (gives_iff h₁ (metric_ne hf)).mp hd₁
  obtain ⟨-, -, k₂⟩ := (gives_iff h₂ (metric_ne hf)).mp hd₂
  obtain ⟨-, -, k₃⟩ := (gives_iff h₃ (metric_ne hf)).mp hd₃
  have l₁ := apply_metric k₁ (Or.inl hf)
  have l₂ := apply_metric k₂ (Or.inl hf)
  have hF : facN b Q = facN b P := by
    rw [length_densN, length_densN] at l₁
    unfold facN; rw [l₁]
  rw [hF] at k₂
  have t1 := halfAbs_triangle l₁ l₂
  have t2 := sqDist_triangle hs l₁ l₂
  obtain ⟨a1, a2, a3, -⟩ := apply_ok (sqrt := sqrt) (f := facN b P) l₁
  obtain ⟨b1, b2, b3, -⟩ := apply_ok (sqrt := sqrt) (f := facN b P) l₂
  obtain ⟨e1, e2, e3, -⟩ := apply_ok (sqrt := sqrt) (f := facN b P) (l₁.trans l₂)
  have f0 := facN_nonneg b P
  cases hf
  · rw [a1] at k₁; rw [b1] at k₂; rw [e1] at k₃
    cases k₁; cases k₂; cases k₃
    rw [← mul_add]
    exact mul_le_mul_of_nonneg_left t1 f0
  · rw [a2] at k₁; rw [b2] at k₂; rw [e2] at k₃
    cases k₁; cases k₂; cases k₃
    rw [← mul_add]
    exact mul_le_mul_of_nonneg_left t2 f0
  · rw [a3] at k₁; rw [b3] at k₂; rw [e3] at k₃
    cases k₁; cases k₂; cases k₃
    rw [← mul_add]
    exact mul_le_mul_of_nonneg_left t2 (hs _ f0).1

theorem halfAbs_le {p q : List K} (hp : ∀ x ∈ p, 0 ≤ x) (hq : ∀ x ∈ q, 0 ≤ x) :
    halfAbs p q ≤ (p.sum + q.sum) / 2 := by
  induction p generalizing q with
  | nil =>
    have := List.sum_nonneg hq
    simp [halfAbs]
    linarith
  | cons a p ih => cases q with
    | nil =>
      have := List.sum_nonneg hp
      simp only [halfAbs, List.zipWith_nil_right, List.sum_nil]
      linarith
    | cons b q =>
      have := ih (fun x hx => hp x (List.mem_cons_of_mem _ hx)) (q := q)
        (fun x hx => hq x (List.mem_cons_of_mem _ hx))
      have ha := hp a List.mem_cons_self
      have hb := hq b List.mem_cons_self
      have : |a - b| ≤ a + b := by
        rw [abs_le]; constructor <;> linarith
      simp only [halfAbs, List.zipWith_cons_cons, List.sum_cons] at *
      linarith

theorem sum_normalized {P : List K} (h : P.sum ≠ 0) : (P.map fun x => x / P.sum).sum = 1 := by
  simp only [div_eq_mul_inv]
  rw [List.sum_map_mul_right, List.map_id']
  exact mul_inv_cancel₀ h

theorem densN_nonneg {b : Bool} {P : List K} (h : ∀ x ∈ P, 0 ≤ x) : ∀ x ∈ densN b P, 0 ≤ x := by
  cases b
  · simpa [densN] using h
  · intro x hx
    simp only [densN, if_true, List.mem_map] at hx
    obtain ⟨y, hy, rfl⟩ := hx
    exact div_nonneg (h y hy) (List.sum_nonneg h)

/-- C58: with `normalize=True` the total variation distance is at most 1. -/
theorem C58_tv_le_one {sqrt : K → K} {c : Compare K} {P Q : List K} (h : Compares c P Q)
    (hP : ∀ x ∈ P, 0 ≤ x) (hQ : ∀ x ∈ Q, 0 ≤ x) {d : K} (hd : Gives sqrt c .tv true d) : d ≤ 1 := by
  obtain ⟨h1, h2, h3⟩ := (gives_iff h (by nofun)).mp hd
  rw [(apply_ok (apply_metric h3 (Or.inl .tv))).1] at h3
  cases h3
  have := halfAbs_le (densN_nonneg (b := true) hP) (densN_nonneg (b := true) hQ)
  have e1 := sum_normalized (h1 rfl).1
  have e2 := sum_normalized (h1 rfl).2
  simp only [densN, if_true, facN, one_mul] at this ⊢
  rw [e1, e2] at this
  linarith

theorem sqDist_sqrt_le {sqrt : K → K} (hs : IsSqrt sqrt) {p q : List K} (hp : ∀ x ∈ p, 0 ≤ x)
    (hq : ∀ x ∈ q, 0 ≤ x) : sqDist (p.map sqrt) (q.map sqrt) / 2 ≤ halfAbs p q := by
  induction p generalizing q with
  | nil => simp [sqDist, halfAbs]
  | cons a p ih => cases q with
    | nil => simp [sqDist, halfAbs]
    | cons b q =>
      have := ih (fun x hx => hp x (List.mem_cons_of_mem _ hx)) (q := q)
        (fun x hx => hq x (List.mem_cons_of_mem _ hx))
      obtain ⟨ha, ha'⟩ := hs a (hp a List.mem_cons_self)
      obtain ⟨hb, hb'⟩ := hs b (hq b List.mem_cons_self)
      have key : (sqrt a - sqrt b) * (sqrt a - sqrt b) ≤ |a - b| := by
        rcases le_total (sqrt a) (sqrt b) with hle | hle
        · refine le_trans ?_ (neg_le_abs (a - b))
          nlinarith
        · refine le_trans ?_ (le_abs_self (a - b))
          nlinarith
      simp only [sqDist, halfAbs, List.map_cons, List.zipWith_cons_cons, List.sum_cons] at *
      linarith

/-- C58: the squared Hellinger distance is at most the total variation distance. -/
theorem C58_hell_le_tv {sqrt : K → K} (hs : IsSqrt sqrt) {c : Compare K} {P Q : List K}
    (h : Compares c P Q) (hP : ∀ x ∈ P, 0 ≤ x) (hQ : ∀ x ∈ Q, 0 ≤ x) {b : Bool} {d d' : K}
    (hd : Gives sqrt c .sqhell b d) (hd' : Gives sqrt c .tv b d') : d ≤ d' := by
  obtain ⟨-, -, h3⟩ := (gives_iff h (by nofun)).mp hd
  obtain ⟨-, -, h4⟩ := (gives_iff h (by nofun)).mp hd'
  have hl := apply_metric h3 (Or.inr rfl)
  rw [(apply_ok hl).2.2.2] at h3
  rw [(apply_ok hl).1] at h4
  cases h3; cases h4
  have := mul_le_mul_of_nonneg_left (sqDist_sqrt_le hs (densN_nonneg (b := b) hP) (densN_nonneg (b := b) hQ))
    (facN_nonneg b P)
  rw [mul_div_assoc]
  exact this

/-! ### C80 -/

/-- What `distance('hell')` returns: always the root of a mean, whatever `normalize` is. -/
theorem gives_hell {sqrt : K → K} {c : Compare K} {P Q : List K} (h : Compares c P Q) {b : Bool}
    {d : K} : Gives sqrt c .hell b d ↔ (b = true → P.sum ≠ 0 ∧ Q.sum ≠ 0) ∧ P.length ≠ 0 ∧
      P.length = Q.length ∧
      d = sqrt (1 / (P.length : K) * sqDist ((densN b P).map sqrt) ((densN b Q).map sqrt) / 2) := by
  have e : Gives sqrt c .hell b d ↔ ∃ a b' d', c.prepare b = .ok a ∧ a.1.prepare false = .ok b' ∧
      b'.1.value sqrt b'.2 .sqhell = .ok d' ∧ d = sqrt d' := by
    simp only [Gives, Compare.distance, bind_eq_ok, pure_eq_ok]
    constructor
    · rintro ⟨c', a, h1, b', h2, d', h3, h4⟩
      cases h4
      exact ⟨a, b', d', h1, h2, h3, rfl⟩
    · rintro ⟨a, b', d', h1, h2, h3, rfl⟩
      exact ⟨_, a, h1, b', h2, d', h3, rfl⟩
  have hv : c.vals.isNone = false := by
    obtain ⟨-, -, v, h3, -⟩ := h
    simp [h3]
  have hp : ∀ p q : List K, ({ c with pdfs1 := some p, pdfs2 := some q } : Compare K).prepare false =
      (normFactor false p q).map fun r =>
        ({ c with pdfs1 := some r.1.1, pdfs2 := some r.1.2 }, r.2) := by
    intro p q
    simp only [Compare.prepare, hv, Compare.ensurePdfs, Option.isNone_some, Bool.or_self,
      Bool.false_eq_true, if_false, ok_bind, orErr_some, raiseIf_false]
    cases normFactor false p q <;> rfl
  rw [e, prepare_fresh h]
  constructor
  · rintro ⟨a, b', d', h1, h2, h3, rfl⟩
    cases hn : normFactor b P Q with
    | error x => rw [hn] at h1; cases h1
    | ok r =>
      rw [hn] at h1
      cases h1
      obtain ⟨k1, k2, rfl⟩ := normFactor_eq_ok.mp hn
      simp only [hp] at h2
      cases hn' : normFactor false (densN b P) (densN b Q) with
      | error x => rw [hn'] at h2; cases h2
      | ok r =>
        rw [hn'] at h2
        cases h2
        obtain ⟨-, k3, rfl⟩ := normFactor_eq_ok.mp hn'
        simp only [Compare.value, orErr_some, ok_bind] at h3
        have hl := apply_metric h3 (Or.inr rfl)
        rw [(apply_ok hl).2.2.2] at h3
        cases h3
        simp only [length_densN] at k3 hl
        refine ⟨k1, k3 trivial, hl, ?_⟩
        simp only [facN, Bool.false_eq_true, if_false, length_densN]
        rfl
  · rintro ⟨k1, k2, k3, rfl⟩
    have hl : (densN false (densN b P)).length = (densN false (densN b Q)).length := by simp only [length_densN, k3]
    refine ⟨_, ({ c with pdfs1 := some (densN b P), pdfs2 := some (densN b Q) }, 1 / (P.length : K)), _,
      by rw [normFactor_eq_ok.mpr ⟨k1, fun _ => k2, rfl⟩]; rfl, ?_, ?_, rfl⟩
    · have hk : normFactor false (densN b P) (densN b Q) = .ok ((densN b P, densN b Q), 1 / (P.length : K)) := by
        refine normFactor_eq_ok.mpr ⟨nofun, fun _ => by rw [length_densN]; exact k2, ?_⟩
        have : (1 : K) / (P.length : K) = facN false (densN b P) := by
          simp only [facN, Bool.false_eq_true, if_false, length_densN]
        rw [this]
        rfl
      rw [hp, hk]
      rfl
    · simp only [Compare.value, orErr_some, ok_bind]
      rw [(apply_ok (by simp only [length_densN, k3])).2.2.2]

/-- C80: without normalisation, `distance('hell')` is the square root of `distance('sqhell')`. -/
theorem C80_hell_partial {sqrt : K → K} {c : Compare K} {P Q : List K} (h : Compares c P Q) {d : K}
    (hd : Gives sqrt c .sqhell false d) : Gives sqrt c .hell false (sqrt d) := by
  obtain ⟨-, h2, h3⟩ := (gives_iff h (by nofun)).mp hd
  have hl := apply_metric h3 (Or.inr rfl)
  rw [(apply_ok hl).2.2.2] at h3
  cases h3
  rw [length_densN, length_densN] at hl
  exact (gives_hell h).mpr ⟨nofun, h2 rfl, hl, rfl⟩

/-- C80: with `normalize=True`, `distance('hell')` is the square root of `distance('sqhell')` divided by
the number of comparison points. -/
theorem C80_hell_normalized {sqrt : K → K} {c : Compare K} {P Q : List K} (h : Compares c P Q) {d : K}
    (hn : P ≠ []) (hd : Gives sqrt c .sqhell true d) :
    Gives sqrt c .hell true (sqrt (d / (P.length : K))) := by
  obtain ⟨h1, h2, h3⟩ := (gives_iff h (by nofun)).mp hd
  have hl := apply_metric h3 (Or.inr rfl)
  rw [(apply_ok hl).2.2.2] at h3
  cases h3
  rw [length_densN, length_densN] at hl
  refine (gives_hell h).mpr ⟨h1, by simpa using hn, hl, ?_⟩
  congr 1
  simp only [facN, if_true]
  ring

/-- C80 fails with `normalize=True`: for two or more comparison points `distance('hell')` is never the
square root of `distance('sqhell')` unless that is zero. -/
theorem C80_negation {sqrt : K → K} (hs : IsSqrt sqrt) {c : Compare K} {P Q : List K}
    (h : Compares c P Q) (hn : 2 ≤ P.length) {d d' : K} (hd : Gives sqrt c .sqhell true d)
    (hd' : Gives sqrt c .hell true d') (h0 : 0 < d) : d' < sqrt d := by
  have hne : P ≠ [] := by rintro rfl; simp at hn
  have e := C80_hell_normalized h hne hd
  obtain ⟨x, e⟩ := e
  obtain ⟨y, hd'⟩ := hd'
  rw [e] at hd'
  cases hd'
  have hN : (1 : K) < (P.length : K) := by exact_mod_cast hn
  have hlt : d / (P.length : K) < d := div_lt_self h0 hN
  have hq : 0 ≤ d / (P.length : K) := div_nonneg h0.le (by linarith)
  obtain ⟨a, a'⟩ := hs _ hq
  obtain ⟨b, b'⟩ := hs _ h0.le
  by_contra hc
  push Not at hc
  nlinarith

end

/-! ### Examples -/

namespace Ex

/-- An object that compares the densities `P` and `Q` at as many points. -/
def cmp {K : Type} (P Q : List K) (pts : List (List K)) : Compare K where
  set1 := { dim := 1 }
  set2 := { dim := 1 }
  dens1 := ⟨fun _ => .ok P, fun _ _ => .ok P⟩
  dens2 := ⟨fun _ => .ok Q, fun _ _ => .ok Q⟩
  vals := some pts

theorem cmp_ok {K : Type} [Field K] [LinearOrder K] (P Q : List K) (pts : List (List K)) :
    Compares (cmp P Q pts) P Q := ⟨rfl, rfl, pts, rfl, rfl, rfl⟩

theorem isSqrt_real : IsSqrt Real.sqrt := fun x hx => ⟨Real.sqrt_nonneg x, Real.mul_self_sqrt hx⟩

/-- Total variation of two densities at two points, normalised. -/
example : ((cmp (K := ℚ) [1, 3] [2, 2] [[0], [1]]).distance id .tv true).toOption.map Prod.fst =
    some (1/4) := by decide +kernel

example : ((cmp (K := ℚ) [1, 3] [2, 2] [[0], [1]]).distance id .tv false).toOption.map Prod.fst =
    some (1/2) := by decide +kernel

/-- The hypotheses of `C80_negation` are met: disjoint densities. -/
example : ∃ d d', Gives Real.sqrt (cmp [1, 0] [0, 1] [[0], [1]]) .sqhell true d ∧
    Gives Real.sqrt (cmp [1, 0] [0, 1] [[0], [1]]) .hell true d' ∧ 0 < d := by
  obtain ⟨d, hd, -⟩ := C58_nonneg isSqrt_real (cmp_ok [1, 0] [0, 1] [[0], [1]]) rfl (by simp)
    (b := true) (fun _ => by norm_num) (fn := .sqhell) (Or.inr rfl)
  refine ⟨d, _, hd, C80_hell_normalized (cmp_ok _ _ _) (by simp) hd, ?_⟩
  obtain ⟨-, -, h3⟩ := (gives_iff (cmp_ok _ _ _) (by nofun)).mp hd
  rw [(apply_ok (by simp [densN])).2.2.2] at h3
  cases h3
  norm_num [facN, densN, sqDist]

end Ex

end BET
