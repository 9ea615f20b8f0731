import Verif.Props.Stability
import Verif.Props.Convergence
import Mathlib.Analysis.SpecialFunctions.Log.Basic
import Mathlib.Analysis.SpecialFunctions.Sqrt

/-!
# C167: solving keeps, and moving does not increase, the divergence of probabilities
-/

set_option autoImplicit false
set_option linter.unusedSectionVars false
set_option linter.unusedSimpArgs false

namespace BET

open Spec

variable {K : Type} [Field K] [LinearOrder K]

namespace Spec

/-- The sum of `φ` over pairs of probabilities. -/
def divergence (φ : K → K → K) (p q : List K) : K := (List.zipWith φ p q).sum

/-- Multiplying both probabilities by a number multiplies `φ` by it. -/
def HomogeneousTerm (φ : K → K → K) : Prop :=
  ∀ c a b, 0 ≤ c → 0 ≤ a → 0 ≤ b → φ (c * a) (c * b) = c * φ a b

/-- Putting two pairs in `D` together gives a pair in `D` and does not increase the sum of `φ`. -/
structure SubadditiveTerm (D : K → K → Prop) (φ : K → K → K) : Prop where
  zero : D 0 0 ∧ φ 0 0 = 0
  add : ∀ a b a' b', D a b → D a' b' → D (a + a') (b + b') ∧ φ (a + a') (b + b') ≤ φ a b + φ a' b'

/-- Total variation. -/
def tvTerm (a b : K) : K := |a - b| / 2

/-- The chi-squared divergence. -/
def chiTerm (a b : K) : K := (a - b) ^ 2 / b

/-- Squared Hellinger distance. -/
noncomputable def hellingerTerm (a b : ℝ) : ℝ := (√a - √b) ^ 2 / 2

/-- Kullback-Leibler divergence. -/
noncomputable def klTerm (a b : ℝ) : ℝ := a * Real.log (a / b)

/-- Two probabilities that are not negative. -/
def NonnegPair (a b : K) : Prop := 0 ≤ a ∧ 0 ≤ b

/-- Two probabilities that are not negative; the first is zero if the second is. -/
def DominatedPair (a b : K) : Prop := 0 ≤ a ∧ 0 ≤ b ∧ (b = 0 → a = 0)

end Spec

section order
variable [IsStrictOrderedRing K]

theorem getD_nonneg {p : List K} (hp : ∀ x ∈ p, 0 ≤ x) (k : Nat) : 0 ≤ p.getD k 0 := by
  rw [List.getD_eq_getElem?_getD]
  cases h : p[k]? with
  | none => simp
  | some x => exact hp x (List.mem_of_getElem? h)

theorem divergence_getD {φ : K → K → K} {p q : List K} {m : Nat} (hp : p.length = m) (hq : q.length = m) :
    divergence φ p q = ((List.range m).map fun k => φ (p.getD k 0) (q.getD k 0)).sum := by
  unfold divergence
  congr 1
  apply List.ext_getElem
  · simp [hp, hq]
  · intro k h1 h2
    simp at h1 h2
    simp [List.getD_eq_getElem?_getD, h1.1, h1.2]

theorem divergence_weights {φ : K → K → K} (hφ : HomogeneousTerm φ) {c : List Nat} {s : List K}
    (hl : c.length = s.length) (hs : ∀ x ∈ s, 0 ≤ x) {m : Nat} (hc : ∀ k ∈ c, k < m) {p q : List K}
    (hp : ∀ x ∈ p, 0 ≤ x) (hq : ∀ x ∈ q, 0 ≤ x) :
    divergence φ (List.zipWith (fun k x => p.getD k 0 * x) c s) (List.zipWith (fun k x => q.getD k 0 * x) c s) =
      ((List.range m).map fun k => φ (p.getD k 0) (q.getD k 0) * mass c s k).sum := by
  have e : List.zipWith φ (List.zipWith (fun k x => p.getD k 0 * x) c s)
      (List.zipWith (fun k x => q.getD k 0 * x) c s) =
      List.zipWith (fun k x => φ (p.getD k 0) (q.getD k 0) * x) c s := by
    apply List.ext_getElem
    · simp
    · intro k h1 h2
      simp only [List.getElem_zipWith]
      rw [mul_comm (p.getD _ 0), mul_comm (q.getD _ 0),
        hφ _ _ _ (hs _ (List.getElem_mem _)) (getD_nonneg hp _) (getD_nonneg hq _), mul_comm]
  unfold divergence
  rw [e, ← sum_range_mass c _ m (by simp [hl]) hc]
  congr 1
  refine List.map_congr_left fun k _ => ?_
  rw [mass_map_zipWith, mass_map_mul]

theorem solved_divergence {φ : K → K → K} (hφ : HomogeneousTerm φ) {c : List Nat} {v : List K}
    (hl : c.length = v.length) (hv : ∀ x ∈ v, 0 ≤ x) {m : Nat}
    (hc : ∀ k ∈ c, k < m) {p q : List K} (hp : ∀ x ∈ p, 0 ≤ x) (hq : ∀ x ∈ q, 0 ≤ x) :
    divergence φ
      (List.zipWith (fun k x => if 0 < p.getD k 0 ∧ 0 < mass c v k then p.getD k 0 * x / mass c v k else 0) c v)
      (List.zipWith (fun k x => if 0 < q.getD k 0 ∧ 0 < mass c v k then q.getD k 0 * x / mass c v k else 0) c v) =
      ((List.range m).map fun k => if 0 < mass c v k then φ (p.getD k 0) (q.getD k 0) else 0).sum := by
  rw [solved_eq c v hp, solved_eq c v hq,
    divergence_weights hφ (shareIn_length hl).symm (shareIn_nonneg c hv) hc hp hq]
  congr 1
  refine List.map_congr_left fun k _ => ?_
  rw [mass_shareIn]
  split <;> simp

theorem HomogeneousTerm.zero {φ : K → K → K} (hφ : HomogeneousTerm φ) : φ 0 0 = 0 := by
  have := hφ 0 0 0 le_rfl le_rfl le_rfl
  simpa using this

theorem divergence_reached {φ : K → K → K} (hφ : HomogeneousTerm φ) {c : List Nat} {v : List K} {m : Nat}
    {p q : List K} (hpl : p.length = m) (hql : q.length = m)
    (hreach : ∀ k < m, p.getD k 0 ≠ 0 ∨ q.getD k 0 ≠ 0 → 0 < mass c v k) :
    ((List.range m).map fun k => if 0 < mass c v k then φ (p.getD k 0) (q.getD k 0) else 0).sum =
      divergence φ p q := by
  rw [divergence_getD hpl hql]
  congr 1
  refine List.map_congr_left fun k hk => ?_
  rw [List.mem_range] at hk
  by_cases h : p.getD k 0 ≠ 0 ∨ q.getD k 0 ≠ 0
  · rw [if_pos (hreach k hk h)]
  · push Not at h
    rw [h.1, h.2, HomogeneousTerm.zero hφ, ite_self]

/-! ## prob -/

/-- **C167.** Two problems with the same outputs, volumes and cells in the data space: every homogeneous divergence of
the solutions found by `prob` is the sum of the divergences of the cells that a sample of positive volume reaches. -/
theorem C167_prob {φ : K → K → K} (hφ : HomogeneousTerm φ) {G : Geometry K} (hG : Sound G) {size : Nat}
    (hsize : 0 < size) {d₁ d₂ : Disc K} {n m : Nat}
    {inp₁ out₁ ops₁ inp₂ out₂ ops₂ : SampleSet K} {y : List (List K)} {vols p q : List K}
    (f₁ : FreshDisc d₁ n m inp₁ out₁ ops₁ y vols p) (f₂ : FreshDisc d₂ n m inp₂ out₂ ops₂ y vols q)
    (hcells : EqualCells ops₁ ops₂) (hv : ∀ v ∈ vols, 0 ≤ v) (hp : ∀ x ∈ p, 0 ≤ x) (hq : ∀ x ∈ q, 0 ≤ x) :
    ∃ P Q, solution G size d₁ = some P ∧ solution G size d₂ = some Q ∧ P.length = n ∧ Q.length = n ∧
      divergence φ P Q = ((List.range m).map fun k =>
        if 0 < mass (y.map (ops₁.cell G)) vols k then φ (p.getD k 0) (q.getD k 0) else 0).sum := by
  obtain ⟨hy, hvl, -⟩ := FreshDisc.lengths f₁
  refine ⟨_, _, FreshDisc.solved f₁ hsize, FreshDisc.solved f₂ hsize, by simp [hy, hvl], by simp [hy, hvl], ?_⟩
  rw [← EqualCells.cell hcells G]
  refine solved_divergence hφ (by simp [hy, hvl]) hv ?_ hp hq
  intro k hk
  obtain ⟨x, -, rfl⟩ := List.mem_map.mp hk
  exact SampleSet.cell_lt hG f₁.hready x

/-- **C167.** If every cell of positive probability is reached, `prob` keeps every homogeneous divergence (total
variation, Hellinger distance, Kullback-Leibler divergence) exactly: no information is lost. -/
theorem C167_prob_reached {φ : K → K → K} (hφ : HomogeneousTerm φ) {G : Geometry K} (hG : Sound G) {size : Nat}
    (hsize : 0 < size) {d₁ d₂ : Disc K} {n m : Nat}
    {inp₁ out₁ ops₁ inp₂ out₂ ops₂ : SampleSet K} {y : List (List K)} {vols p q : List K}
    (f₁ : FreshDisc d₁ n m inp₁ out₁ ops₁ y vols p) (f₂ : FreshDisc d₂ n m inp₂ out₂ ops₂ y vols q)
    (hcells : EqualCells ops₁ ops₂) (hv : ∀ v ∈ vols, 0 ≤ v) (hp : ∀ x ∈ p, 0 ≤ x) (hq : ∀ x ∈ q, 0 ≤ x)
    (hreach : ∀ k < m, p.getD k 0 ≠ 0 ∨ q.getD k 0 ≠ 0 → 0 < mass (y.map (ops₁.cell G)) vols k) :
    ∃ P Q, solution G size d₁ = some P ∧ solution G size d₂ = some Q ∧ divergence φ P Q = divergence φ p q := by
  obtain ⟨P, Q, h1, h2, -, -, h5⟩ := C167_prob hφ hG hsize f₁ f₂ hcells hv hp hq
  exact ⟨P, Q, h1, h2, h5.trans
    (divergence_reached hφ (FreshDisc.lengths f₁).2.2 (FreshDisc.lengths f₂).2.2 hreach)⟩

/-! ## Emulated points -/

/-- **C167.** `prob_on_emulated_samples` keeps every homogeneous divergence too, if an emulated point is linked to
every cell of positive probability. -/
theorem C167_emulated {φ : K → K → K} (hφ : HomogeneousTerm φ) {G : Geometry K} (hG : Sound G) {size : Nat}
    (hsize : 0 < size) {d₁ d₂ : Disc K} {n m k : Nat}
    {inp out₁ ops₁ em₁ out₂ ops₂ em₂ : SampleSet K} {y z : List (List K)} {p q : List K}
    (f₁ : FreshEm d₁ n m k inp out₁ ops₁ em₁ y z p) (f₂ : FreshEm d₂ n m k inp out₂ ops₂ em₂ y z q)
    (hcells : EqualCells ops₁ ops₂) (hp : ∀ x ∈ p, 0 ≤ x) (hq : ∀ x ∈ q, 0 ≤ x)
    (hreach : ∀ j < m, p.getD j 0 ≠ 0 ∨ q.getD j 0 ≠ 0 →
      ∃ x ∈ z, ∃ w, y[inp.cell G x]? = some w ∧ ops₁.cell G w = j) :
    ∃ P Q, emulatedSolution G size d₁ = some P ∧ emulatedSolution G size d₂ = some Q ∧ P.length = k ∧
      Q.length = k ∧ divergence φ P Q = divergence φ p q := by
  have hz : z.length = k := f₁.hemC.1.values z f₁.hemVals
  have hy : y.length = n := f₁.houtputC.1.values y f₁.houtVals
  have hpl : p.length = m := f₁.hopsReady.consistent.1.probabilities p f₁.hprobs
  have hql : q.length = m := f₂.hopsReady.consistent.1.probabilities q f₂.hprobs
  refine ⟨_, _, FreshEm.solved hG f₁ hsize, FreshEm.solved hG f₂ hsize, by simp [hz], by simp [hz], ?_⟩
  rw [← EqualCells.cell hcells G]
  set c : List K → Nat := fun x => (y.map (ops₁.cell G)).getD (inp.cell G x) 0 with hcdef
  have hc : ∀ k ∈ z.map c, k < m := by
    intro k hk
    obtain ⟨x, -, rfl⟩ := List.mem_map.mp hk
    have h1 : inp.cell G x < (y.map (ops₁.cell G)).length := by
      rw [List.length_map, hy]; exact SampleSet.cell_lt hG f₁.hready x
    simp only [hcdef, List.getD_eq_getElem?_getD, List.getElem?_eq_getElem h1, Option.getD_some, List.getElem_map]
    exact SampleSet.cell_lt hG f₁.hopsReady _
  have e1 := emulated_as_solved (z := z) c p
  have e2 := emulated_as_solved (z := z) c q
  rw [show (z.map fun x => _) = _ from e1, show (z.map fun x => _) = _ from e2,
    solved_divergence hφ (by simp) (by simp) hc hp hq]
  refine divergence_reached hφ hpl hql fun j hj h => ?_
  obtain ⟨x, hx, w, hw, hcell⟩ := hreach j hj h
  have hcx : c x = j := by
    simp [hcdef, List.getD_eq_getElem?_getD, hw, hcell]
  rw [mass_map_self]
  have : 0 < hits (z.map c) j := List.count_pos_iff.mpr (List.mem_map.mpr ⟨x, hx, hcx⟩)
  rw [mul_one]
  exact_mod_cast this

/-! ## Transports -/

theorem mass_subadditive {D : K → K → Prop} {φ : K → K → K} (hφ : SubadditiveTerm D φ) (c : List Nat) {w w' : List K}
    (hD : List.Forall₂ D w w') (k : Nat) : D (mass c w k) (mass c w' k) ∧
      φ (mass c w k) (mass c w' k) ≤ mass c (List.zipWith φ w w') k := by
  induction c generalizing w w' with
  | nil => simpa using ⟨hφ.zero.1, hφ.zero.2.le⟩
  | cons a c ih =>
    cases hD with
    | nil => simpa using ⟨hφ.zero.1, hφ.zero.2.le⟩
    | @cons x x' w w' hx hw =>
      simp only [List.zipWith_cons_cons, mass_cons]
      have h := ih hw
      split
      · have := hφ.add _ _ _ _ hx h.1
        exact ⟨this.1, this.2.trans (by gcongr; exact h.2)⟩
      · simpa using h

/-- **C167.** `prob_from_sample_set` does not increase a divergence that is not increased by putting samples together
(total variation, Hellinger distance, Kullback-Leibler divergence). -/
theorem C167_transport {D : K → K → Prop} {φ : K → K → K} (hφ : SubadditiveTerm D φ) {G : Geometry K} (hG : Sound G)
    {size : Nat} (hsize : 0 < size) {old₁ old₂ new : SampleSet K}
    {n m : Nat} {x : List (List K)} {w w' : List K} (f₁ : FreshProb old₁ n x w) (f₂ : FreshProb old₂ n x w')
    (hr : Ready new m) (h₁ : old₁.dim = new.dim) (h₂ : old₂.dim = new.dim) (hD : List.Forall₂ D w w') :
    ∃ P Q, transported G size old₁ new = some P ∧ transported G size old₂ new = some Q ∧ P.length = m ∧
      Q.length = m ∧ List.Forall₂ D P Q ∧ divergence φ P Q ≤ divergence φ w w' := by
  obtain ⟨o, t, h, -⟩ := probFromSampleSet_fresh (G := G) f₁ hr h₁ size hsize
  obtain ⟨o', t', h', -⟩ := probFromSampleSet_fresh (G := G) f₂ hr h₂ size hsize
  have hx : x.length = n := f₁.hcons.1.values x f₁.hvals
  have hw : w.length = n := f₁.hcons.1.probabilities w f₁.hprobs
  have hw' : w'.length = n := f₂.hcons.1.probabilities w' f₂.hprobs
  refine ⟨_, _, by rw [transported, h]; rfl, by rw [transported, h']; rfl, by simp, by simp, ?_, ?_⟩
  · rw [List.forall₂_map_left_iff, List.forall₂_map_right_iff, List.forall₂_same]
    exact fun k _ => (mass_subadditive hφ _ hD k).1
  · have hc : ∀ k ∈ x.map (new.cell G), k < m := by
      intro k hk
      obtain ⟨x, -, rfl⟩ := List.mem_map.mp hk
      exact SampleSet.cell_lt hG hr x
    have hs := sum_range_mass (x.map (new.cell G)) (List.zipWith φ w w') m (by simp [hx, hw, hw']) hc
    rw [divergence_getD (m := m) (by simp) (by simp), divergence, ← hs]
    refine List.sum_le_sum fun k hk => ?_
    rw [List.mem_range] at hk
    simpa [List.getD_eq_getElem?_getD, hk] using (mass_subadditive hφ (x.map (new.cell G)) hD k).2

/-! ## Which divergences -/

/-- **C167.** Total variation meets both conditions. -/
theorem C167_tv : HomogeneousTerm (tvTerm (K := K)) ∧ SubadditiveTerm NonnegPair (tvTerm (K := K)) := by
  refine ⟨fun c a b hc _ _ => ?_, ⟨⟨le_rfl, le_rfl⟩, by simp [tvTerm]⟩, fun a b a' b' h h' => ⟨⟨add_nonneg h.1 h'.1,
    add_nonneg h.2 h'.2⟩, ?_⟩⟩
  · unfold tvTerm
    rw [← mul_sub, abs_mul, abs_of_nonneg hc, mul_div_assoc]
  · unfold tvTerm
    rw [← add_div]
    have e : a + a' - (b + b') = (a - b) + (a' - b') := by ring
    rw [e]
    gcongr
    exact abs_add_le _ _

/-- **C167.** So does the chi-squared divergence, where the first probability is zero wherever the second is. -/
theorem C167_chi : HomogeneousTerm (chiTerm (K := K)) ∧ SubadditiveTerm DominatedPair (chiTerm (K := K)) := by
  refine ⟨fun c a b hc _ _ => ?_, ⟨⟨le_rfl, le_rfl, fun _ => rfl⟩, by simp [chiTerm]⟩, fun a b a' b' h h' =>
    ⟨⟨add_nonneg h.1 h'.1, add_nonneg h.2.1 h'.2.1, fun e => ?_⟩, ?_⟩⟩
  · unfold chiTerm
    rcases hc.eq_or_lt with rfl | hc
    · simp
    · rw [← mul_sub, mul_pow, pow_two c, mul_assoc, mul_div_mul_left _ _ hc.ne', mul_div_assoc]
  · have e1 : b = 0 := by linarith [h.2.1, h'.2.1]
    have e2 : b' = 0 := by linarith [h.2.1, h'.2.1]
    rw [h.2.2 e1, h'.2.2 e2, add_zero]
  · unfold chiTerm
    rcases h.2.1.eq_or_lt with e | e
    · rw [h.2.2 e.symm, ← e]
      simp
    rcases h'.2.1.eq_or_lt with e' | e'
    · rw [h'.2.2 e'.symm, ← e']
      simp
    rw [div_add_div _ _ e.ne' e'.ne', div_le_div_iff₀ (add_pos e e') (mul_pos e e')]
    nlinarith [sq_nonneg ((a - b) * b' - (a' - b') * b)]

end order

/-- **C167.** So does the squared Hellinger distance. -/
theorem C167_hellinger : HomogeneousTerm hellingerTerm ∧ SubadditiveTerm NonnegPair hellingerTerm := by
  refine ⟨fun c a b hc ha hb => ?_, ⟨⟨le_rfl, le_rfl⟩, by simp [hellingerTerm]⟩, fun a b a' b' h h' =>
    ⟨⟨add_nonneg h.1 h'.1, add_nonneg h.2 h'.2⟩, ?_⟩⟩
  · unfold hellingerTerm
    rw [Real.sqrt_mul hc, Real.sqrt_mul hc, ← mul_sub, mul_pow, Real.sq_sqrt hc, mul_div_assoc]
  · unfold hellingerTerm
    have e1 := Real.sq_sqrt h.1
    have e2 := Real.sq_sqrt h.2
    have e3 := Real.sq_sqrt h'.1
    have e4 := Real.sq_sqrt h'.2
    have e5 := Real.sq_sqrt (add_nonneg h.1 h'.1)
    have e6 := Real.sq_sqrt (add_nonneg h.2 h'.2)
    have key : √a * √b + √a' * √b' ≤ √(a + a') * √(b + b') := by
      refine le_of_abs_le (abs_le_of_sq_le_sq ?_ (mul_nonneg (Real.sqrt_nonneg _) (Real.sqrt_nonneg _)))
      rw [mul_pow, e5, e6]
      nlinarith [sq_nonneg (√a * √b' - √a' * √b)]
    nlinarith

theorem klTerm_ge {a b s : ℝ} (h : DominatedPair a b) (hs : 0 < s) :
    a * Real.log s + a - b * s ≤ klTerm a b := by
  obtain ⟨ha, hb, hab⟩ := h
  unfold klTerm
  rcases ha.eq_or_lt with rfl | ha
  · simp only [zero_mul, zero_add, zero_sub]
    nlinarith
  · have hb' : 0 < b := lt_of_le_of_ne hb (fun e => ha.ne' (hab e.symm))
    have h1 := Real.log_le_sub_one_of_pos (show 0 < b * s / a by positivity)
    have h2 : Real.log (a / b) = Real.log s - Real.log (b * s / a) := by
      rw [← Real.log_div hs.ne' (by positivity)]
      congr 1
      field_simp
    rw [h2]
    have h3 : a * (b * s / a) = b * s := by field_simp
    nlinarith

/-- **C167.** So does the Kullback-Leibler divergence, where the first probability is zero wherever the second is. -/
theorem C167_kl : HomogeneousTerm klTerm ∧ SubadditiveTerm DominatedPair klTerm := by
  refine ⟨fun c a b hc _ _ => ?_, ⟨⟨le_rfl, le_rfl, fun _ => rfl⟩, by simp [klTerm]⟩, fun a b a' b' h h' => ⟨⟨add_nonneg h.1 h'.1,
    add_nonneg h.2.1 h'.2.1, fun e => ?_⟩, ?_⟩⟩
  · unfold klTerm
    rcases hc.eq_or_lt with rfl | hc
    · simp
    · rw [mul_div_mul_left _ _ hc.ne', mul_assoc]
  · have e1 : b = 0 := by linarith [h.2.1, h'.2.1]
    have e2 : b' = 0 := by linarith [h.2.1, h'.2.1]
    rw [h.2.2 e1, h'.2.2 e2, add_zero]
  · rcases (add_nonneg h.1 h'.1).eq_or_lt with e | e
    · have e1 : a = 0 := by linarith [h.1, h'.1]
      have e2 : a' = 0 := by linarith [h.1, h'.1]
      simp [klTerm, e1, e2]
    · have hb : 0 < b + b' := by
        refine lt_of_le_of_ne (add_nonneg h.2.1 h'.2.1) fun hb => e.ne' ?_
        have e1 : b = 0 := by linarith [h.2.1, h'.2.1]
        have e2 : b' = 0 := by linarith [h.2.1, h'.2.1]
        rw [h.2.2 e1, h'.2.2 e2, add_zero]
      have hs : 0 < (a + a') / (b + b') := div_pos e hb
      have k1 := klTerm_ge h hs
      have k2 := klTerm_ge h' hs
      have k3 : (b + b') * ((a + a') / (b + b')) = a + a' := by field_simp
      have k4 : klTerm (a + a') (b + b') = (a + a') * Real.log ((a + a') / (b + b')) := rfl
      rw [k4]
      nlinarith

end BET

namespace BET.Ex

open BET.Spec

/-- `C167_prob_reached` for two cells that are reached; the third has no probability. -/
example : ∃ P Q, solution G 2 (probDiscWith [1/8, 3/8, 1/4, 1/4] [1/2, 1/2, 0]) = some P ∧
    solution G 2 (probDiscWith [1/8, 3/8, 1/4, 1/4] [1/4, 3/4, 0]) = some Q ∧
    divergence chiTerm P Q = divergence chiTerm [1/2, 1/2, 0] [1/4, 3/4, 0] :=
  C167_prob_reached C167_chi.1 sound_G (by decide) (probDiscWith_fresh ..) (probDiscWith_fresh ..)
    ⟨rfl, rfl, rfl, rfl, rfl, rfl⟩ (by decide +kernel) (by decide +kernel) (by decide +kernel) (by decide +kernel)

/-- The third cell is not reached and its part of the divergence is lost. -/
example : (do
    let P ← solution G 2 (probDiscWith [1/8, 3/8, 1/4, 1/4] [1/2, 1/4, 1/4])
    let Q ← solution G 2 (probDiscWith [1/8, 3/8, 1/4, 1/4] [1/4, 1/4, 1/2])
    pure (divergence chiTerm P Q)) = some (1/4) ∧
    divergence chiTerm [1/2, 1/4, 1/4] [1/4, 1/4, (1/2 : ℚ)] = 3/8 := by decide +kernel

example : ∃ P Q, emulatedSolution G 2 (emDiscWith [1/2, 1/2, 0]) = some P ∧
    emulatedSolution G 2 (emDiscWith [1/4, 3/4, 0]) = some Q ∧ P.length = 5 ∧ Q.length = 5 ∧
    divergence tvTerm P Q = divergence tvTerm [1/2, 1/2, 0] [1/4, 3/4, 0] :=
  C167_emulated C167_tv.1 sound_G (by decide) (emDiscWith_fresh ..) (emDiscWith_fresh ..)
    ⟨rfl, rfl, rfl, rfl, rfl, rfl⟩ (by decide +kernel) (by decide +kernel) (by
      intro j hj h
      have hj' : j = 0 ∨ j = 1 ∨ j = 2 := by omega
      rcases hj' with rfl | rfl | rfl
      · exact ⟨[0], by decide, [0], by decide +kernel, by decide +kernel⟩
      · exact ⟨[3], by simp, [11/10], by decide +kernel, by decide +kernel⟩
      · exact absurd h (by decide +kernel))

/-- Real probabilities on the line. -/
noncomputable def realLine (p : Option (List ℝ)) : SampleSet ℝ :=
  { dim := 1, glob := { values := some [[0], [1], [2]], probabilities := p } }

noncomputable def realTwo : SampleSet ℝ := { dim := 1, glob := { values := some [[0], [1]] } }

theorem realLine_fresh (a b c : ℝ) : FreshProb (realLine (some [a, b, c])) 3 [[0], [1], [2]] [a, b, c] :=
  ⟨SampleSet.consistent_of_checkNum (size := 1) rfl rfl, rfl, rfl, rfl⟩

theorem realTwo_ready : Ready realTwo 2 :=
  ⟨SampleSet.consistent_of_checkNum (size := 1) rfl rfl, by decide, rfl, Or.inl rfl, nofun, nofun⟩

/-- `C167_transport` for the Kullback-Leibler divergence; the third cell has no probability. -/
example : ∃ P Q, transported euclid 2 (realLine (some [1/2, 1/2, 0])) realTwo = some P ∧
    transported euclid 2 (realLine (some [1/4, 1/4, 1/2])) realTwo = some Q ∧ P.length = 2 ∧ Q.length = 2 ∧
    List.Forall₂ DominatedPair P Q ∧
    divergence klTerm P Q ≤ divergence klTerm [1/2, 1/2, 0] [1/4, 1/4, 1/2] :=
  C167_transport C167_kl.2 euclid_sound (by decide) (realLine_fresh ..) (realLine_fresh ..) realTwo_ready rfl rfl
    (by refine .cons ?_ (.cons ?_ (.cons ?_ .nil)) <;> norm_num [DominatedPair])

end BET.Ex
