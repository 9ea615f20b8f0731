import Verif.Props.InTurn

/-!
# C181: when one inversion for each QoI is enough
-/

set_option autoImplicit false
set_option linter.unusedSectionVars false
set_option linter.unusedSimpArgs false

namespace BET

open Spec

variable {K : Type} [Field K] [LinearOrder K]

namespace Spec

/-- The weight of the samples that lie in cell `a` of the first problem and in cell `b` of the second. -/
def massBoth (c c' : List Nat) (w : List K) (a b : Nat) : K :=
  mass c (List.zipWith (fun k x => if k = b then x else 0) c' w) a

/-- The volumes, which add up to one, make two QoIs independent: the volume of two cells together is the product of the
volumes of both. -/
structure IndependentCells (c c' : List Nat) (m m' : Nat) (vols : List K) : Prop where
  total : vols.sum = 1
  product : ∀ a < m, ∀ b < m', massBoth c c' vols a b = mass c vols a * mass c' vols b

end Spec

section order
variable [IsStrictOrderedRing K]

theorem mass_zipWith_ite (c : List Nat) (w : List K) (k : Nat) :
    mass c w k = (List.zipWith (fun j x => if j = k then x else 0) c w).sum := by
  induction c generalizing w with
  | nil => simp
  | cons j c ih =>
    cases w with
    | nil => simp [mass]
    | cons x w => rw [mass_cons, ih]; simp

theorem massBoth_comm (c c' : List Nat) (w : List K) (a b : Nat) : massBoth c c' w a b = massBoth c' c w b a := by
  unfold massBoth
  rw [mass_zipWith_ite, mass_zipWith_ite]
  congr 1
  induction c generalizing c' w with
  | nil => cases c' <;> simp
  | cons j c ih =>
    cases c' with
    | nil => simp
    | cons j' c' =>
      cases w with
      | nil => simp
      | cons x w =>
        simp only [List.zipWith_cons_cons, ih]
        congr 1
        by_cases h1 : j = a <;> by_cases h2 : j' = b <;> simp [h1, h2]

theorem IndependentCells.symm {c c' : List Nat} {m m' : Nat} {v : List K} (h : IndependentCells c c' m m' v) :
    IndependentCells c' c m' m v :=
  ⟨h.total, fun b hb a ha => by rw [massBoth_comm, h.product a ha b hb, mul_comm]⟩

/-- An inversion for one QoI leaves the distribution of an independent one as it was. -/
theorem mass_solved_independent {c c' : List Nat} {m m' : Nat} {v p : List K} (hl : c.length = v.length)
    (hl' : c'.length = v.length) (hc : ∀ k ∈ c, k < m) (hpl : p.length = m) (hp : ∀ x ∈ p, 0 ≤ x) (hsum : p.sum = 1)
    (h : IndependentCells c c' m m' v) (hreach : ∀ k < m, 0 < p.getD k 0 → 0 < mass c v k) {b : Nat} (hb : b < m') :
    mass c' (solvedList c v p) b = mass c' v b := by
  set w := List.zipWith (fun k x => if k = b then x else 0) c' v with hw
  have hwl : w.length = v.length := by simp [hw, hl']
  set L : Nat → K := fun k => if 0 < p.getD k 0 ∧ 0 < mass c v k then p.getD k 0 / mass c v k else 0 with hL
  have h1 := sum_by_cells (w := w) (hl.trans hwl.symm) hc L
  have h2 : mass c' (solvedList c v p) b = ((List.range w.length).map fun i => L (c.getD i 0) * w.getD i 0).sum := by
    rw [mass_zipWith_ite]
    congr 1
    apply List.ext_getElem
    · simp [solvedList, hl, hl', hwl]
    · intro i h3 h4
      have hi : i < v.length := by simpa [hwl] using h4
      have hic : i < c.length := by omega
      have hic' : i < c'.length := by omega
      simp only [List.getElem_zipWith, List.getElem_map, List.getElem_range, solvedList, hw, hL]
      simp only [List.getD_eq_getElem?_getD, List.getElem?_eq_getElem hic, List.getElem?_zipWith,
        List.getElem?_eq_getElem hic', List.getElem?_eq_getElem hi, Option.getD_some]
      by_cases h5 : c'[i] = b
      · simp only [h5, if_true]
        split
        · rw [mul_div_right_comm]
        · rw [zero_mul]
      · simp [h5]
  rw [h2, h1]
  have h3 : ((List.range m).map fun k => L k * mass c w k) = (List.range m).map fun k => p.getD k 0 * mass c' v b := by
    refine List.map_congr_left fun k hk => ?_
    rw [List.mem_range] at hk
    rw [show mass c w k = massBoth c c' v k b from rfl, h.product k hk b hb]
    simp only [hL]
    by_cases h4 : 0 < p.getD k 0
    · have h5 := hreach k hk h4
      rw [if_pos ⟨h4, h5⟩]
      field_simp
    · have : p.getD k 0 = 0 := le_antisymm (not_lt.1 h4) (getD_nonneg_of hp k)
      rw [if_neg (fun h => h4 h.1), this]
      ring
  rw [h3, List.sum_map_mul_right, ← hpl]
  have h6 : ((List.range p.length).map fun k => p.getD k 0) = p := by
    apply List.ext_getElem
    · simp
    · intro i h7 h8
      simp [List.getD_eq_getElem?_getD, List.getElem?_eq_getElem h8]
  rw [h6, hsum, one_mul]

theorem mass_solvedList (c : List Nat) (v : List K) {p : List K} (hp : ∀ x ∈ p, 0 ≤ x) {k : Nat}
    (h : 0 < p.getD k 0 → 0 < mass c v k) : mass c (solvedList c v p) k = p.getD k 0 := by
  rw [solvedList, mass_solved_all hp]
  split
  · rfl
  · next h0 => exact le_antisymm (getD_nonneg_of hp k) (not_lt.1 fun h1 => h0 (h h1))

theorem solved_comm {c c' : List Nat} {m m' : Nat} {v p q : List K} (hl : c.length = v.length)
    (hl' : c'.length = v.length) (hc : ∀ k ∈ c, k < m) (hc' : ∀ k ∈ c', k < m') (hpl : p.length = m) (hql : q.length = m')
    (hp : ∀ x ∈ p, 0 ≤ x) (hq : ∀ x ∈ q, 0 ≤ x) (hps : p.sum = 1) (hqs : q.sum = 1) (h : IndependentCells c c' m m' v)
    (hreach : ∀ k < m, 0 < p.getD k 0 → 0 < mass c v k) (hreach' : ∀ k < m', 0 < q.getD k 0 → 0 < mass c' v k) :
    solvedList c' (solvedList c v p) q = solvedList c (solvedList c' v q) p := by
  have e1 := fun b (hb : b < m') => mass_solved_independent hl hl' hc hpl hp hps h hreach hb
  have e2 := fun a (ha : a < m) => mass_solved_independent hl' hl hc' hql hq hqs (IndependentCells.symm h) hreach' ha
  apply List.ext_getElem
  · simp [solvedList, hl, hl']
  · intro i h1 h2
    have hi : i < v.length := by simpa [solvedList, hl, hl'] using h1
    have hic : i < c.length := by omega
    have hic' : i < c'.length := by omega
    have ea : c[i] < m := hc _ (List.getElem_mem hic)
    have eb : c'[i] < m' := hc' _ (List.getElem_mem hic')
    have f1 := e1 _ eb
    have f2 := e2 _ ea
    have g1 : (solvedList c' (solvedList c v p) q)[i] = if 0 < q.getD c'[i] 0 ∧ 0 < mass c' (solvedList c v p) c'[i] then
        q.getD c'[i] 0 * (if 0 < p.getD c[i] 0 ∧ 0 < mass c v c[i] then p.getD c[i] 0 * v[i] / mass c v c[i] else 0) /
          mass c' (solvedList c v p) c'[i] else 0 := by
      simp [solvedList]
    have g2 : (solvedList c (solvedList c' v q) p)[i] = if 0 < p.getD c[i] 0 ∧ 0 < mass c (solvedList c' v q) c[i] then
        p.getD c[i] 0 * (if 0 < q.getD c'[i] 0 ∧ 0 < mass c' v c'[i] then q.getD c'[i] 0 * v[i] / mass c' v c'[i] else 0) /
          mass c (solvedList c' v q) c[i] else 0 := by
      simp [solvedList]
    rw [g1, g2, f1, f2]
    by_cases k1 : 0 < q.getD c'[i] 0 ∧ 0 < mass c' v c'[i] <;> by_cases k2 : 0 < p.getD c[i] 0 ∧ 0 < mass c v c[i]
    · rw [if_pos k1, if_pos k2, if_pos k2, if_pos k1]
      have := k1.2.ne'
      have := k2.2.ne'
      field_simp
    · rw [if_pos k1, if_neg k2, if_neg k2]; simp
    · rw [if_neg k1, if_pos k2, if_neg k1]; simp
    · rw [if_neg k1, if_neg k2]

/-- **C181.** If the volumes make two QoIs independent, one call of `prob` for each is enough: the probabilities found by
the second call, with those of the first as volumes, explain the data of both. The other order gives the same. -/
theorem C181_once {G : Geometry K} (hG : Sound G) {size : Nat} (hsize : 0 < size) {d₁ d₂ e₁ e₂ : Disc K} {n m m' : Nat}
    {i₁ o₁ i₂ o₂ i₃ o₃ i₄ o₄ ops ops' : SampleSet K} {y y' : List (List K)} {vols p q P Q : List K}
    (f₁ : FreshDisc d₁ n m i₁ o₁ ops y vols p) (hP : solution G size d₁ = some P)
    (f₂ : FreshDisc d₂ n m' i₂ o₂ ops' y' P q)
    (g₁ : FreshDisc e₁ n m' i₃ o₃ ops' y' vols q) (hQ : solution G size e₁ = some Q)
    (g₂ : FreshDisc e₂ n m i₄ o₄ ops y Q p)
    (hp : ∀ x ∈ p, 0 ≤ x) (hq : ∀ x ∈ q, 0 ≤ x) (hps : p.sum = 1) (hqs : q.sum = 1)
    (h : IndependentCells (y.map (ops.cell G)) (y'.map (ops'.cell G)) m m' vols)
    (hreach : ∀ k < m, 0 < p.getD k 0 → 0 < mass (y.map (ops.cell G)) vols k)
    (hreach' : ∀ k < m', 0 < q.getD k 0 → 0 < mass (y'.map (ops'.cell G)) vols k) :
    ∃ W, solution G size d₂ = some W ∧ solution G size e₂ = some W ∧
      (∀ k < m, mass (y.map (ops.cell G)) W k = p.getD k 0) ∧
      ∀ k < m', mass (y'.map (ops'.cell G)) W k = q.getD k 0 := by
  obtain ⟨a1, hl, hc⟩ := fresh_solved hG hsize f₁
  obtain ⟨b1, hl', hc'⟩ := fresh_solved hG hsize g₁
  obtain rfl := Option.some.inj (hP.symm.trans a1)
  obtain rfl := Option.some.inj (hQ.symm.trans b1)
  obtain ⟨a2, -, -⟩ := fresh_solved hG hsize f₂
  obtain ⟨b2, -, -⟩ := fresh_solved hG hsize g₂
  obtain ⟨-, -, hpl⟩ := FreshDisc.lengths f₁
  obtain ⟨-, -, hql⟩ := FreshDisc.lengths g₁
  have hcomm := solved_comm hl hl' hc hc' hpl hql hp hq hps hqs h hreach hreach'
  refine ⟨_, a2, by rw [b2, hcomm], fun k hk => ?_, fun k hk => ?_⟩
  · rw [hcomm]
    refine mass_solvedList _ _ hp fun h1 => ?_
    rw [mass_solved_independent hl' hl hc' hql hq hqs (IndependentCells.symm h) hreach' hk]
    exact hreach k hk h1
  · refine mass_solvedList _ _ hq fun h1 => ?_
    rw [mass_solved_independent hl hl' hc hpl hp hps h hreach hk]
    exact hreach' k hk h1

end order

end BET

namespace BET.Ex

open Spec

/-- Two QoIs in turn on four samples. -/
def gridDisc (y v p : List ℚ) : Disc ℚ :=
  splitDisc (y.map fun a => [a]) v [[0], [1]] p

theorem gridDisc_fresh (y₁ y₂ y₃ y₄ v₁ v₂ v₃ v₄ p₁ p₂ : ℚ) :
    FreshDisc (gridDisc [y₁, y₂, y₃, y₄] [v₁, v₂, v₃, v₄] [p₁, p₂]) 4 2
      { dim := 1, glob := { values := some [[0], [0], [0], [0]], volumes := some [v₁, v₂, v₃, v₄] } }
      { dim := 1, glob := { values := some [[y₁], [y₂], [y₃], [y₄]] } }
      { dim := 1, glob := { values := some [[0], [1]], probabilities := some [p₁, p₂] } }
      [[y₁], [y₂], [y₃], [y₄]] [v₁, v₂, v₃, v₄] [p₁, p₂] :=
  ⟨rfl, consistent_of _ _ rfl rfl, rfl, rfl, rfl, rfl, consistent_of _ _ rfl rfl, rfl, rfl, rfl,
    ⟨consistent_of _ _ rfl rfl, by decide, rfl, Or.inl rfl, nofun, nofun⟩, rfl, rfl⟩

/-- `C181_once` for volumes that are the products of `2/5, 3/5` and `1/4, 3/4`. -/
example : ∃ W, solution G 2 (gridDisc [0, 1, 0, 1] [1/16, 3/16, 3/16, 9/16] [1/3, 2/3]) = some W ∧
    solution G 2 (gridDisc [0, 0, 1, 1] [2/15, 4/15, 1/5, 2/5] [1/4, 3/4]) = some W ∧
    (∀ k < 2, mass ([[0], [0], [1], [1]].map (SampleSet.cell G
      { dim := 1, glob := { values := some [[0], [1]], probabilities := some [1/4, 3/4] } })) W k =
        ([1/4, 3/4] : List ℚ).getD k 0) ∧
    ∀ k < 2, mass ([[0], [1], [0], [1]].map (SampleSet.cell G
      { dim := 1, glob := { values := some [[0], [1]], probabilities := some [1/3, 2/3] } })) W k =
        ([1/3, 2/3] : List ℚ).getD k 0 :=
  C181_once sound_G (by decide) (vols := [1/10, 3/10, 3/20, 9/20])
    (gridDisc_fresh 0 0 1 1 (1/10) (3/10) (3/20) (9/20) (1/4) (3/4)) (P := [1/16, 3/16, 3/16, 9/16]) (by decide +kernel)
    (gridDisc_fresh 0 1 0 1 (1/16) (3/16) (3/16) (9/16) (1/3) (2/3))
    (gridDisc_fresh 0 1 0 1 (1/10) (3/10) (3/20) (9/20) (1/3) (2/3)) (Q := [2/15, 4/15, 1/5, 2/5]) (by decide +kernel)
    (gridDisc_fresh 0 0 1 1 (2/15) (4/15) (1/5) (2/5) (1/4) (3/4))
    (by decide +kernel) (by decide +kernel) (by decide +kernel) (by decide +kernel)
    ⟨by decide +kernel, by decide +kernel⟩ (by decide +kernel) (by decide +kernel)

end BET.Ex

namespace BET

open Spec

/-- **C181, negated.** Otherwise the order matters, and the second call can destroy the agreement with the data of the
first. -/
theorem C181_negation_order : ∃ (d₁ d₂ e₁ e₂ : Disc ℚ) (i₁ o₁ i₂ o₂ i₃ o₃ i₄ o₄ ops ops' : SampleSet ℚ) (y y' : List (List ℚ))
    (vols p q P Q W W' : List ℚ),
    FreshDisc d₁ 4 2 i₁ o₁ ops y vols p ∧ solution Ex.G 2 d₁ = some P ∧ FreshDisc d₂ 4 2 i₂ o₂ ops' y' P q ∧
    FreshDisc e₁ 4 2 i₃ o₃ ops' y' vols q ∧ solution Ex.G 2 e₁ = some Q ∧ FreshDisc e₂ 4 2 i₄ o₄ ops y Q p ∧
    (∀ x ∈ p, 0 < x) ∧ (∀ x ∈ q, 0 < x) ∧ p.sum = 1 ∧ q.sum = 1 ∧ (∀ x ∈ vols, 0 < x) ∧ vols.sum = 1 ∧
    solution Ex.G 2 d₂ = some W ∧ solution Ex.G 2 e₂ = some W' ∧ W ≠ W' ∧
    mass (y.map (ops.cell Ex.G)) W 0 ≠ p.getD 0 0 ∧ mass (y'.map (ops'.cell Ex.G)) W' 0 ≠ q.getD 0 0 :=
  ⟨_, _, _, _, _, _, _, _, _, _, _, _, _, _, _, _, [1/8, 3/8, 3/8, 1/8], [1/4, 3/4], [1/3, 2/3],
    [1/16, 3/16, 9/16, 3/16], [1/12, 1/2, 1/4, 1/6], [1/30, 1/3, 3/10, 1/3], [1/28, 3/14, 9/20, 3/10],
    Ex.gridDisc_fresh 0 0 1 1 (1/8) (3/8) (3/8) (1/8) (1/4) (3/4), by decide +kernel,
    Ex.gridDisc_fresh 0 1 0 1 (1/16) (3/16) (9/16) (3/16) (1/3) (2/3),
    Ex.gridDisc_fresh 0 1 0 1 (1/8) (3/8) (3/8) (1/8) (1/3) (2/3), by decide +kernel,
    Ex.gridDisc_fresh 0 0 1 1 (1/12) (1/2) (1/4) (1/6) (1/4) (3/4),
    by decide +kernel, by decide +kernel, by decide +kernel, by decide +kernel, by decide +kernel, by decide +kernel,
    by decide +kernel, by decide +kernel, by decide +kernel, by decide +kernel, by decide +kernel⟩

end BET

namespace BET

open Spec

variable {K : Type} [Field K] [LinearOrder K]

namespace Spec

/-- The cells `c` of a joint problem are the pairs of cells of two problems: cell `j` is the cell `σ j` of the first and
`τ j` of the second, and its probability `r j` is the product of theirs. -/
structure ProductProblem (c c₁ c₂ : List Nat) (M : Nat) (σ τ : Nat → Nat) (p q r : List K) : Prop where
  first : c₁ = c.map σ
  second : c₂ = c.map τ
  pairs : ∀ j < M, ∀ k < M, σ j = σ k → τ j = τ k → j = k
  product : ∀ j < M, r.getD j 0 = p.getD (σ j) 0 * q.getD (τ j) 0

end Spec

section order
variable [IsStrictOrderedRing K]

theorem mass_pairs {c : List Nat} {M : Nat} (hc : ∀ k ∈ c, k < M) {σ τ : Nat → Nat}
    (h : ∀ j < M, ∀ k < M, σ j = σ k → τ j = τ k → j = k) (w : List K) {j : Nat} (hj : j < M) :
    massBoth (c.map σ) (c.map τ) w (σ j) (τ j) = mass c w j := by
  unfold massBoth
  rw [mass_zipWith_ite, mass_zipWith_ite]
  congr 1
  induction c generalizing w with
  | nil => simp
  | cons k c ih =>
    cases w with
    | nil => simp
    | cons x w =>
      simp only [List.map_cons, List.zipWith_cons_cons]
      rw [ih fun k hk => hc k (List.mem_cons_of_mem _ hk)]
      congr 1
      by_cases h1 : k = j
      · simp [h1]
      · by_cases h2 : σ k = σ j
        · by_cases h3 : τ k = τ j
          · exact absurd (h k (hc k (by simp)) j hj h2 h3) h1
          · simp [h1, h2, h3]
        · simp [h1, h2]

/-- **C181.** It is also what one call of `prob` for both QoIs together finds, if the data of both together are the
products of the data of each. -/
theorem C181_joint {G : Geometry K} (hG : Sound G) {size : Nat} (hsize : 0 < size) {d₁ d₂ d : Disc K} {n m m' M : Nat}
    {i₁ o₁ i₂ o₂ i₃ o₃ ops ops' both : SampleSet K} {y y' z : List (List K)} {vols p q r P : List K}
    (f₁ : FreshDisc d₁ n m i₁ o₁ ops y vols p) (hP : solution G size d₁ = some P)
    (f₂ : FreshDisc d₂ n m' i₂ o₂ ops' y' P q) (f : FreshDisc d n M i₃ o₃ both z vols r)
    (hp : ∀ x ∈ p, 0 ≤ x) (hq : ∀ x ∈ q, 0 ≤ x) (hps : p.sum = 1) (hv : ∀ x ∈ vols, 0 ≤ x)
    (h : IndependentCells (y.map (ops.cell G)) (y'.map (ops'.cell G)) m m' vols)
    (hreach : ∀ k < m, 0 < p.getD k 0 → 0 < mass (y.map (ops.cell G)) vols k) {σ τ : Nat → Nat}
    (hprod : ProductProblem (z.map (both.cell G)) (y.map (ops.cell G)) (y'.map (ops'.cell G)) M σ τ p q r) :
    solution G size d₂ = solution G size d := by
  obtain ⟨a1, hl, hc⟩ := fresh_solved hG hsize f₁
  obtain rfl := Option.some.inj (hP.symm.trans a1)
  obtain ⟨a2, hl2, hc'⟩ := fresh_solved hG hsize f₂
  obtain ⟨a3, hl3, hc3⟩ := fresh_solved hG hsize f
  obtain ⟨-, -, hpl⟩ := FreshDisc.lengths f₁
  have hl' : (y'.map (ops'.cell G)).length = vols.length := by rw [hl2, solvedList_length hl]
  rw [a2, a3]
  congr 1
  have e1 := fun b (hb : b < m') => mass_solved_independent hl hl' hc hpl hp hps h hreach hb
  have e2 : ∀ j < M, σ j < m → τ j < m' → mass (z.map (both.cell G)) vols j =
      mass (y.map (ops.cell G)) vols (σ j) * mass (y'.map (ops'.cell G)) vols (τ j) := by
    intro j hj h1 h2
    rw [← h.product _ h1 _ h2, hprod.first, hprod.second, mass_pairs hc3 hprod.pairs vols hj]
  revert e1 e2 hc hc' hc3 hl hl' hl3
  have hfst := hprod.first
  have hsnd := hprod.second
  generalize y.map (ops.cell G) = c₁ at *
  generalize y'.map (ops'.cell G) = c₂ at *
  generalize z.map (both.cell G) = c at *
  intro hl hc hc' hl3 hc3 hl' e1 e2
  apply List.ext_getElem
  · simp [solvedList, hl, hl', hl3]
  · intro i h1 h2
    have hi : i < vols.length := by simpa [solvedList, hl, hl'] using h1
    have hi1 : i < c₁.length := by omega
    have hi2 : i < c₂.length := by omega
    have hi3 : i < c.length := by omega
    have ea : c₁[i] < m := hc _ (List.getElem_mem hi1)
    have eb : c₂[i] < m' := hc' _ (List.getElem_mem hi2)
    have ec : c[i] < M := hc3 _ (List.getElem_mem hi3)
    have s1 : c₁[i] = σ c[i] := by simp [hfst]
    have s2 : c₂[i] = τ c[i] := by simp [hsnd]
    have f1 := e1 _ eb
    have f2 := e2 _ ec (s1 ▸ ea) (s2 ▸ eb)
    have f3 := hprod.product _ ec
    rw [← s1, ← s2] at f2 f3
    have g1 : (solvedList c₂ (solvedList c₁ vols p) q)[i] = if 0 < q.getD c₂[i] 0 ∧ 0 < mass c₂ (solvedList c₁ vols p) c₂[i] then
        q.getD c₂[i] 0 * (if 0 < p.getD c₁[i] 0 ∧ 0 < mass c₁ vols c₁[i] then p.getD c₁[i] 0 * vols[i] / mass c₁ vols c₁[i] else 0) /
          mass c₂ (solvedList c₁ vols p) c₂[i] else 0 := by
      simp [solvedList]
    have g2 : (solvedList c vols r)[i] = if 0 < r.getD c[i] 0 ∧ 0 < mass c vols c[i] then
        r.getD c[i] 0 * vols[i] / mass c vols c[i] else 0 := by
      simp [solvedList]
    rw [g1, g2, f1, f2, f3]
    have n1 := getD_nonneg_of hp c₁[i]
    have n2 := getD_nonneg_of hq c₂[i]
    have n3 := mass_nonneg c₁ vols c₁[i] hv
    have n4 := mass_nonneg c₂ vols c₂[i] hv
    generalize p.getD c₁[i] 0 = a at *
    generalize q.getD c₂[i] 0 = b at *
    generalize mass c₁ vols c₁[i] = s at *
    generalize mass c₂ vols c₂[i] = t at *
    by_cases k1 : 0 < b ∧ 0 < t <;> by_cases k2 : 0 < a ∧ 0 < s
    · rw [if_pos k1, if_pos k2, if_pos ⟨mul_pos k2.1 k1.1, mul_pos k2.2 k1.2⟩]
      have := k1.2.ne'
      have := k2.2.ne'
      field_simp
    · rw [if_pos k1, if_neg k2, if_neg fun h => k2 ⟨lt_of_le_of_ne n1 fun e => by simp [← e] at h,
        lt_of_le_of_ne n3 fun e => by simp [← e] at h⟩]
      simp
    · rw [if_neg k1, if_neg fun h => k1 ⟨lt_of_le_of_ne n2 fun e => by simp [← e] at h,
        lt_of_le_of_ne n4 fun e => by simp [← e] at h⟩]
    · rw [if_neg k1, if_neg fun h => k1 ⟨lt_of_le_of_ne n2 fun e => by simp [← e] at h,
        lt_of_le_of_ne n4 fun e => by simp [← e] at h⟩]

end order

end BET

namespace BET.Ex

open Spec

/-- `C181_joint`: the four cells of both QoIs together. -/
example : solution G 2 (gridDisc [0, 1, 0, 1] [1/16, 3/16, 3/16, 9/16] [1/3, 2/3]) =
    solution G 2 (twoQoiDisc [[0, 0], [0, 1], [1, 0], [1, 1]] [1/10, 3/10, 3/20, 9/20] [[0, 0], [0, 1], [1, 0], [1, 1]]
      [1/12, 1/6, 1/4, 1/2]) :=
  C181_joint sound_G (by decide) (vols := [1/10, 3/10, 3/20, 9/20]) (M := 4) (σ := fun j => j / 2) (τ := fun j => j % 2)
    (gridDisc_fresh 0 0 1 1 (1/10) (3/10) (3/20) (9/20) (1/4) (3/4)) (P := [1/16, 3/16, 3/16, 9/16]) (by decide +kernel)
    (gridDisc_fresh 0 1 0 1 (1/16) (3/16) (3/16) (9/16) (1/3) (2/3))
    (both := { dim := 2, glob := { values := some [[0, 0], [0, 1], [1, 0], [1, 1]], probabilities := some [1/12, 1/6, 1/4, 1/2] } })
    (z := [[0, 0], [0, 1], [1, 0], [1, 1]]) (r := [1/12, 1/6, 1/4, 1/2])
    ⟨rfl, consistent_of _ _ rfl rfl, rfl, rfl, rfl, rfl, consistent_of _ _ rfl rfl, rfl, rfl, rfl,
      ⟨consistent_of _ _ rfl rfl, by decide, rfl, Or.inl rfl, nofun, nofun⟩, rfl, rfl⟩
    (by decide +kernel) (by decide +kernel) (by decide +kernel) (by decide +kernel)
    ⟨by decide +kernel, by decide +kernel⟩ (by decide +kernel)
    ⟨by decide +kernel, by decide +kernel, by decide, by decide +kernel⟩

end BET.Ex
