import Verif.Props.Nearest
import Verif.Props.Workflow

/-!
# C179: how much an inversion learns
-/

set_option autoImplicit false
set_option linter.unusedSectionVars false
set_option linter.unusedSimpArgs false

namespace BET

open Spec

variable {K : Type} [Field K] [LinearOrder K]

namespace Spec

/-- The volumes of the samples whose outputs lie in each of the `m` cells of the data space: what the data would be
if the inputs had the probabilities given by the volumes. -/
def pushedVolumes (cell : List Nat) (m : Nat) (vols : List K) : List K := (List.range m).map (mass cell vols)

/-- The problem with outputs `y'` and cells `fine` is a finer version of the one with outputs `y` and cells `coarse` (more
cells or more QoIs): of every sample, the cell `j` of `fine` that contains its output lies in the cell `σ j` of `coarse`.
The probabilities of the parts of a cell add up to its probability. -/
structure FinerProblem (G : Geometry K) (coarse fine : SampleSet K) (y y' : List (List K)) (σ : Nat → Nat) (p q : List K) :
    Prop where
  inside : List.Forall₂ (fun x x' => coarse.cell G x = σ (fine.cell G x')) y y'
  adds : ∀ k < p.length, p.getD k 0 = ((List.range q.length).map fun j => if σ j = k then q.getD j 0 else 0).sum

end Spec

section order
variable [IsStrictOrderedRing K]

theorem solved_gain {φ : K → K → K} (hφ : HomogeneousTerm φ) {c : List Nat} {v p : List K} {m : Nat}
    (hl : c.length = v.length) (hc : ∀ k ∈ c, k < m) (hpl : p.length = m) (hp : ∀ x ∈ p, 0 ≤ x) (hv : ∀ x ∈ v, 0 ≤ x)
    (hreach : ∀ k < m, 0 < p.getD k 0 → 0 < mass c v k) :
    divergence φ (solvedList c v p) v = divergence φ p (pushedVolumes c m v) := by
  have hVn : ∀ x ∈ pushedVolumes c m v, 0 ≤ x := by
    intro x hx
    obtain ⟨k, -, rfl⟩ := List.mem_map.mp hx
    exact mass_nonneg c v k hv
  have hV : ∀ k < m, (pushedVolumes c m v).getD k 0 = mass c v k := by
    intro k hk
    simp [pushedVolumes, List.getD_eq_getElem?_getD, hk]
  have e1 : v = List.zipWith (fun k x => if 0 < (pushedVolumes c m v).getD k 0 ∧ 0 < mass c v k then
      (pushedVolumes c m v).getD k 0 * x / mass c v k else 0) c v := by
    have := volumes_as_shares hl hv hc
    conv_lhs => rw [this]
    exact (solved_eq c v hVn).symm
  have h1 := solved_divergence hφ hl hv hc hp hVn
  rw [← e1] at h1
  refine h1.trans (divergence_reached hφ hpl (by simp [pushedVolumes]) ?_)
  intro k hk h
  rcases h with h | h
  · exact hreach k hk (lt_of_le_of_ne (getD_nonneg_of hp k) (Ne.symm h))
  · rw [hV k hk] at h
    exact lt_of_le_of_ne (mass_nonneg c v k hv) (Ne.symm h)

/-- **C179.** The divergence of the solution found by `prob` from the volumes is that of the given probabilities from what
the volumes predict, for every homogeneous divergence (chi-squared, Kullback-Leibler, Hellinger, total variation), if
every cell of positive probability is reached by a sample of positive volume. -/
theorem C179_gain {φ : K → K → K} (hφ : HomogeneousTerm φ) {G : Geometry K}
    (hG : Sound G) {size : Nat} (hsize : 0 < size) {d : Disc K} {n m : Nat}
    {inp out ops : SampleSet K} {y : List (List K)} {vols p : List K} (f : FreshDisc d n m inp out ops y vols p)
    (hp : ∀ x ∈ p, 0 ≤ x) (hv : ∀ x ∈ vols, 0 ≤ x)
    (hreach : ∀ k < m, 0 < p.getD k 0 → 0 < mass (y.map (ops.cell G)) vols k) :
    ∃ P, solution G size d = some P ∧
      divergence φ P vols = divergence φ p (pushedVolumes (y.map (ops.cell G)) m vols) := by
  obtain ⟨e, hl, hc⟩ := fresh_solved hG hsize f
  obtain ⟨-, -, hpl⟩ := FreshDisc.lengths f
  exact ⟨_, e, solved_gain hφ hl hc hpl hp hv hreach⟩

theorem zipWith_replicate_map {α β γ : Type} (g : α → β → γ) (c : List α) (b : β) :
    List.zipWith g c (List.replicate c.length b) = c.map fun k => g k b := by
  induction c with
  | nil => rfl
  | cons k c ih => simp [List.replicate_succ, ih]

/-- Equal volumes: how large they are does not matter. -/
theorem solved_scaled (c : List Nat) (p : List K) {a : K} (ha : 0 < a) :
    solvedList c (List.replicate c.length 1) p = solvedList c (List.replicate c.length a) p := by
  unfold solvedList
  rw [zipWith_replicate_map, zipWith_replicate_map]
  refine List.map_congr_left fun k _ => ?_
  rw [mass_replicate c _ rfl, mass_replicate c _ rfl, mul_one, mul_one]
  have h : 0 < (hits c k : K) * a ↔ 0 < (hits c k : K) := mul_pos_iff_of_pos_right ha
  simp only [h]
  split
  · rw [mul_div_mul_right _ _ ha.ne']
  · rfl

/-- **C179.** The same for `prob_on_emulated_samples`, where every emulated point weighs the same, `a`. -/
theorem C179_emulated {φ : K → K → K} (hφ : HomogeneousTerm φ) {G : Geometry K}
    (hG : Sound G) {size : Nat} (hsize : 0 < size) {d : Disc K} {n m k : Nat}
    {inp out ops em : SampleSet K} {y z : List (List K)} {p : List K}
    (f : FreshEm d n m k inp out ops em y z p) (hp : ∀ x ∈ p, 0 ≤ x) {cell : List Nat}
    (hcell : List.Forall₂ (fun x j => ∃ w, y[inp.cell G x]? = some w ∧ ops.cell G w = j) z cell)
    (hreach : ∀ j < m, 0 < p.getD j 0 → j ∈ cell) {a : K} (ha : 0 < a) :
    ∃ P, emulatedSolution G size d = some P ∧
      divergence φ P (List.replicate k a) = divergence φ p (pushedVolumes cell m (List.replicate k a)) := by
  have hz : z.length = k := f.hemC.1.values z f.hemVals
  set c : List K → Nat := fun x => (y.map (ops.cell G)).getD (inp.cell G x) 0 with hcdef
  have e0 : cell = z.map c := by
    have : List.Forall₂ (fun x j => c x = j) z cell := by
      refine hcell.imp ?_
      rintro x j ⟨w, h3, h4⟩
      simp [hcdef, List.getD_eq_getElem?_getD, h3, h4]
    rw [← List.forall₂_eq_eq_eq, List.forall₂_map_right_iff]
    exact this.flip.imp fun _ _ h => h.symm
  subst e0
  have hc : ∀ j ∈ z.map c, j < m := by
    intro j hj
    obtain ⟨x, -, rfl⟩ := List.mem_map.mp hj
    have h1 : inp.cell G x < (y.map (ops.cell G)).length := by
      rw [List.length_map, f.houtputC.1.values y f.houtVals]; exact SampleSet.cell_lt hG f.hready x
    simp only [hcdef, List.getD_eq_getElem?_getD, List.getElem?_eq_getElem h1, Option.getD_some, List.getElem_map]
    exact SampleSet.cell_lt hG f.hopsReady _
  have e1 : ((z.map c).map fun _ => (1 : K)) = List.replicate k 1 := by
    rw [List.map_const', List.length_map, hz]
  refine ⟨_, FreshEm.solved hG f hsize, ?_⟩
  have e2 := emulated_as_solved (z := z) c p
  rw [e1] at e2
  have e3 := solved_scaled (z.map c) p ha
  rw [List.length_map, hz] at e3
  rw [show (z.map fun x => _) = _ from e2, show List.zipWith _ _ _ = _ from e3]
  refine solved_gain hφ (by simp [hz]) hc (f.hopsReady.consistent.1.probabilities p f.hprobs) hp (fun x hx => ?_) fun j hj h => ?_
  · rw [List.eq_of_mem_replicate hx]; exact ha.le
  · rw [mass_replicate _ _ (by simp [hz])]
    exact mul_pos (by exact_mod_cast List.count_pos_iff.2 (hreach j hj h)) ha

theorem fine_explains {G : Geometry K} (hG : Sound G) {size : Nat} (hsize : 0 < size)
    {d₁ d₂ : Disc K} {n m m' : Nat} {inp₁ out₁ inp₂ out₂ coarse fine : SampleSet K} {y y' : List (List K)}
    {vols p q : List K} (f₁ : FreshDisc d₁ n m inp₁ out₁ coarse y vols p)
    (f₂ : FreshDisc d₂ n m' inp₂ out₂ fine y' vols q) {σ : Nat → Nat} (h : FinerProblem G coarse fine y y' σ p q)
    (hv : ∀ v ∈ vols, 0 ≤ v) (hq : ∀ x ∈ q, 0 ≤ x)
    (hreach : ∀ j < m', 0 < q.getD j 0 → 0 < mass (y'.map (fine.cell G)) vols j) :
    ∃ Q, solution G size d₂ = some Q ∧ Explains (y.map (coarse.cell G)) m vols p Q := by
  obtain ⟨Q, e, h1, -⟩ := C170_explains hG hsize f₂ hq hv
  have hQ := h1.2 hreach
  obtain ⟨-, hvl, hpl⟩ := FreshDisc.lengths f₁
  obtain ⟨hy', -, hql⟩ := FreshDisc.lengths f₂
  refine ⟨Q, e, hQ.dominated, fun k hk => ?_⟩
  have hcells : y.map (coarse.cell G) = (y'.map (fine.cell G)).map σ := by
    rw [List.map_map, ← List.forall₂_eq_eq_eq, List.forall₂_map_left_iff, List.forall₂_map_right_iff]
    exact h.inside
  have hlt : ∀ j ∈ y'.map (fine.cell G), j < m' := by
    intro j hj
    obtain ⟨x, -, rfl⟩ := List.mem_map.mp hj
    exact SampleSet.cell_lt hG f₂.hready x
  rw [hcells, mass_regroup _ _ (by rw [Explains.length hQ]; simp [hy', hvl]) σ hlt, h.adds k (hpl ▸ hk), hql]
  congr 1
  refine List.map_congr_left fun j hj => ?_
  rw [hQ.pushed j (List.mem_range.1 hj)]

/-- **C179.** A finer problem, with more cells in the data space or more QoIs, never teaches less: the divergence of its
solution from the volumes is at least that of the coarser problem. -/
theorem C179_finer {φ : K → K → K} (h1 : HomogeneousTerm φ) (h2 : SubadditiveTerm DominatedPair φ) {G : Geometry K}
    (hG : Sound G) {size size' : Nat} (hsize : 0 < size) (hsize' : 0 < size')
    {d₁ d₂ : Disc K} {n m m' : Nat} {inp₁ out₁ inp₂ out₂ coarse fine : SampleSet K} {y y' : List (List K)}
    {vols p q : List K} (f₁ : FreshDisc d₁ n m inp₁ out₁ coarse y vols p)
    (f₂ : FreshDisc d₂ n m' inp₂ out₂ fine y' vols q) {σ : Nat → Nat} (h : FinerProblem G coarse fine y y' σ p q)
    (hv : ∀ v ∈ vols, 0 ≤ v) (hp : ∀ x ∈ p, 0 ≤ x) (hq : ∀ x ∈ q, 0 ≤ x)
    (hreach : ∀ j < m', 0 < q.getD j 0 → 0 < mass (y'.map (fine.cell G)) vols j) :
    ∃ P Q, solution G size d₁ = some P ∧ solution G size' d₂ = some Q ∧ divergence φ P vols ≤ divergence φ Q vols := by
  obtain ⟨P, e1, hP⟩ := C170_nearest h1 h2 hG hsize f₁ hp
  obtain ⟨Q, e2, hQ⟩ := fine_explains hG hsize' f₁ f₂ h hv hq hreach
  exact ⟨P, Q, e1, e2, hP Q hQ⟩

/-- **C179.** How much more it teaches, in the chi-squared divergence: the sum of the squared differences of the two
solutions, each divided by the volume. So it teaches as much exactly if the solution is the same. -/
theorem C179_chi {G : Geometry K} (hG : Sound G) {size size' : Nat} (hsize : 0 < size) (hsize' : 0 < size')
    {d₁ d₂ : Disc K} {n m m' : Nat} {inp₁ out₁ inp₂ out₂ coarse fine : SampleSet K} {y y' : List (List K)}
    {vols p q : List K} (f₁ : FreshDisc d₁ n m inp₁ out₁ coarse y vols p)
    (f₂ : FreshDisc d₂ n m' inp₂ out₂ fine y' vols q) {σ : Nat → Nat} (h : FinerProblem G coarse fine y y' σ p q)
    (hv : ∀ v ∈ vols, 0 ≤ v) (hp : ∀ x ∈ p, 0 ≤ x) (hq : ∀ x ∈ q, 0 ≤ x)
    (hreach : ∀ j < m', 0 < q.getD j 0 → 0 < mass (y'.map (fine.cell G)) vols j) :
    ∃ P Q, solution G size d₁ = some P ∧ solution G size' d₂ = some Q ∧
      divergence chiTerm Q vols = ((List.range n).map fun i => (Q.getD i 0 - P.getD i 0) ^ 2 / vols.getD i 0).sum +
        divergence chiTerm P vols ∧
      (divergence chiTerm Q vols = divergence chiTerm P vols ↔ Q = P) := by
  obtain ⟨P, e1, hP⟩ := C170_chi hG hsize f₁ hp
  obtain ⟨Q, e2, hQ⟩ := fine_explains hG hsize' f₁ f₂ h hv hq hreach
  obtain ⟨a, b⟩ := hP Q hQ
  exact ⟨P, Q, e1, e2, a, fun e => b e.le, fun e => by rw [e]⟩

end order

/-- **C179.** In the Kullback-Leibler divergence it is the divergence of the finer solution from the coarser one. -/
theorem C179_kl {G : Geometry ℝ} (hG : Sound G) {size size' : Nat} (hsize : 0 < size) (hsize' : 0 < size')
    {d₁ d₂ : Disc ℝ} {n m m' : Nat} {inp₁ out₁ inp₂ out₂ coarse fine : SampleSet ℝ} {y y' : List (List ℝ)}
    {vols p q : List ℝ} (f₁ : FreshDisc d₁ n m inp₁ out₁ coarse y vols p)
    (f₂ : FreshDisc d₂ n m' inp₂ out₂ fine y' vols q) {σ : Nat → Nat} (h : FinerProblem G coarse fine y y' σ p q)
    (hv : ∀ v ∈ vols, 0 ≤ v) (hp : ∀ x ∈ p, 0 ≤ x) (hq : ∀ x ∈ q, 0 ≤ x)
    (hreach : ∀ j < m', 0 < q.getD j 0 → 0 < mass (y'.map (fine.cell G)) vols j) :
    ∃ P Q, solution G size d₁ = some P ∧ solution G size' d₂ = some Q ∧
      divergence klTerm Q vols = divergence klTerm Q P + divergence klTerm P vols ∧
      (divergence klTerm Q vols = divergence klTerm P vols ↔ Q = P) := by
  obtain ⟨P, e1, hP⟩ := C170_kl hG hsize f₁ hp
  obtain ⟨Q, e2, hQ⟩ := fine_explains hG hsize' f₁ f₂ h hv hq hreach
  obtain ⟨a, b⟩ := hP Q hQ
  exact ⟨P, Q, e1, e2, a, fun e => b e.le, fun e => by rw [e]⟩

end BET

namespace BET.Ex

open Spec

/-- What the volumes predict is `1/2, 1/2, 0`; the data are `1/4, 3/4, 0`. -/
example : ∃ P, solution G 2 (probDiscWith [1/8, 3/8, 1/4, 1/4] [1/4, 3/4, 0]) = some P ∧
    divergence chiTerm P [1/8, 3/8, 1/4, 1/4] = 1/4 := by
  obtain ⟨P, h1, h2⟩ := C179_gain C167_chi.1 sound_G (size := 2) (by decide)
    (probDiscWith_fresh (1/8) (3/8) (1/4) (1/4) (1/4) (3/4) 0) (by decide +kernel) (by decide +kernel) (by decide +kernel)
  refine ⟨P, h1, h2.trans ?_⟩
  decide +kernel

/-- Two of the five emulated points lie in the first cell, three in the second. -/
example : ∃ P, emulatedSolution G 2 (emDiscWith [1/2, 1/2, 0]) = some P ∧
    divergence chiTerm P (List.replicate 5 (1/5)) = 1/24 := by
  obtain ⟨P, h1, h2⟩ := C179_emulated C167_chi.1 sound_G (size := 2) (by decide)
    (emDiscWith_fresh (1/2) (1/2) 0) (by decide +kernel) (cell := [0, 0, 1, 1, 1])
    (.cons ⟨[0], by decide +kernel⟩ (.cons ⟨[0], by decide +kernel⟩ (.cons ⟨[1], by decide +kernel⟩
      (.cons ⟨[1], by decide +kernel⟩ (.cons ⟨[11/10], by decide +kernel⟩ .nil))))) (by decide +kernel)
    (a := 1/5) (by decide +kernel)
  refine ⟨P, h1, h2.trans ?_⟩
  decide +kernel

/-- Like `splitDisc`, with two QoIs. -/
def twoQoiDisc (y : List (List ℚ)) (v : List ℚ) (c : List (List ℚ)) (p : List ℚ) : Disc ℚ where
  input := some { dim := 1, glob := { values := some (y.map fun _ => [0]), volumes := some v } }
  output := some { dim := 2, glob := { values := some y } }
  outputProb := some { dim := 2, glob := { values := some c, probabilities := some p } }

theorem coarse_fresh (p₁ p₂ : ℚ) : FreshDisc (splitDisc [[1], [7], [5]] [1/2, 1/8, 3/8] [[0], [6]] [p₁, p₂]) 3 2
    { dim := 1, glob := { values := some [[0], [0], [0]], volumes := some [1/2, 1/8, 3/8] } }
    { dim := 1, glob := { values := some [[1], [7], [5]] } }
    { dim := 1, glob := { values := some [[0], [6]], probabilities := some [p₁, p₂] } }
    [[1], [7], [5]] [1/2, 1/8, 3/8] [p₁, p₂] :=
  ⟨rfl, consistent_of _ _ rfl rfl, rfl, rfl, rfl, rfl, consistent_of _ _ rfl rfl, rfl, rfl, rfl,
    ⟨consistent_of _ _ rfl rfl, by decide, rfl, Or.inl rfl, nofun, nofun⟩, rfl, rfl⟩

theorem fine_fresh : FreshDisc (twoQoiDisc [[1, 0], [7, 0], [5, 3]] [1/2, 1/8, 3/8] [[0, 0], [6, 0], [6, 3]]
      [2/5, 1/5, 2/5]) 3 3
    { dim := 1, glob := { values := some [[0], [0], [0]], volumes := some [1/2, 1/8, 3/8] } }
    { dim := 2, glob := { values := some [[1, 0], [7, 0], [5, 3]] } }
    { dim := 2, glob := { values := some [[0, 0], [6, 0], [6, 3]], probabilities := some [2/5, 1/5, 2/5] } }
    [[1, 0], [7, 0], [5, 3]] [1/2, 1/8, 3/8] [2/5, 1/5, 2/5] :=
  ⟨rfl, consistent_of _ _ rfl rfl, rfl, rfl, rfl, rfl, consistent_of _ _ rfl rfl, rfl, rfl, rfl,
    ⟨consistent_of _ _ rfl rfl, by decide, rfl, Or.inl rfl, nofun, nofun⟩, rfl, rfl⟩

/-- The second QoI divides the second cell. -/
theorem fine_finer : FinerProblem (K := ℚ) G
    { dim := 1, glob := { values := some [[0], [6]], probabilities := some [2/5, 3/5] } }
    { dim := 2, glob := { values := some [[0, 0], [6, 0], [6, 3]], probabilities := some [2/5, 1/5, 2/5] } }
    [[1], [7], [5]] [[1, 0], [7, 0], [5, 3]] (fun j => if j = 0 then 0 else 1) [2/5, 3/5] [2/5, 1/5, 2/5] :=
  ⟨.cons (by decide +kernel) (.cons (by decide +kernel) (.cons (by decide +kernel) .nil)), by decide +kernel⟩

example : ∃ P Q, solution G 2 (splitDisc [[1], [7], [5]] [1/2, 1/8, 3/8] [[0], [6]] [2/5, 3/5]) = some P ∧
    solution G 3 (twoQoiDisc [[1, 0], [7, 0], [5, 3]] [1/2, 1/8, 3/8] [[0, 0], [6, 0], [6, 3]] [2/5, 1/5, 2/5]) = some Q ∧
    divergence tvTerm P [1/2, 1/8, 3/8] ≤ divergence tvTerm Q [1/2, 1/8, 3/8] :=
  C179_finer C167_tv.1 (C170_dominated C167_tv.2) sound_G (by decide) (by decide) (coarse_fresh (2/5) (3/5)) fine_fresh
    fine_finer (by decide +kernel) (by decide +kernel) (by decide +kernel) (by decide +kernel)

example : ∃ P Q, solution G 2 (splitDisc [[1], [7], [5]] [1/2, 1/8, 3/8] [[0], [6]] [2/5, 3/5]) = some P ∧
    solution G 3 (twoQoiDisc [[1, 0], [7, 0], [5, 3]] [1/2, 1/8, 3/8] [[0, 0], [6, 0], [6, 3]] [2/5, 1/5, 2/5]) = some Q ∧
    divergence chiTerm Q [1/2, 1/8, 3/8] =
      ((List.range 3).map fun i => (Q.getD i 0 - P.getD i 0) ^ 2 / ([1/2, 1/8, 3/8] : List ℚ).getD i 0).sum +
        divergence chiTerm P [1/2, 1/8, 3/8] ∧
      (divergence chiTerm Q [1/2, 1/8, 3/8] = divergence chiTerm P [1/2, 1/8, 3/8] ↔ Q = P) :=
  C179_chi sound_G (by decide) (by decide) (coarse_fresh (2/5) (3/5)) fine_fresh
    fine_finer (by decide +kernel) (by decide +kernel) (by decide +kernel) (by decide +kernel)

/-- In numbers. -/
example : solution G 2 (splitDisc [[1], [7], [5]] [1/2, 1/8, 3/8] [[0], [6]] [2/5, 3/5]) = some [2/5, 3/20, 9/20] ∧
    solution G 3 (twoQoiDisc [[1, 0], [7, 0], [5, 3]] [1/2, 1/8, 3/8] [[0, 0], [6, 0], [6, 3]] [2/5, 1/5, 2/5]) =
      some [2/5, 1/5, 2/5] ∧
    divergence chiTerm [2/5, 3/20, 9/20] [1/2, 1/8, (3/8 : ℚ)] < divergence chiTerm [2/5, 1/5, 2/5] [1/2, 1/8, 3/8] := by
  decide +kernel

end BET.Ex

namespace BET

open Spec

/-- **C179, negated.** If a part of positive probability is reached by no sample, its probability is lost, and the finer
problem may teach less. -/
theorem C179_negation_unreached : ∃ (d₁ d₂ : Disc ℚ) (inp out coarse fine : SampleSet ℚ) (y : List (List ℚ))
    (vols p q : List ℚ) (σ : Nat → Nat) (P Q : List ℚ),
    FreshDisc d₁ 3 2 inp out coarse y vols p ∧ FreshDisc d₂ 3 3 inp out fine y vols q ∧
    FinerProblem Ex.G coarse fine y y σ p q ∧ (∀ v ∈ vols, 0 < v) ∧ (∀ x ∈ q, 0 < x) ∧
    solution Ex.G 2 d₁ = some P ∧ solution Ex.G 2 d₂ = some Q ∧
    divergence chiTerm Q vols < divergence chiTerm P vols :=
  ⟨_, Ex.splitDisc [[1], [7], [5]] [1/2, 1/8, 3/8] [[0], [6], [20]] [1/10, 1/2, 2/5], _, _, _,
    { dim := 1, glob := { values := some [[0], [6], [20]], probabilities := some [1/10, 1/2, 2/5] } }, _, _, _,
    [1/10, 1/2, 2/5], fun j => if j = 0 then 0 else 1, [1/10, 9/40, 27/40], [1/10, 1/8, 3/8],
    Ex.coarse_fresh (1/10) (9/10),
    ⟨rfl, Ex.consistent_of _ _ rfl rfl, rfl, rfl, rfl, rfl, Ex.consistent_of _ _ rfl rfl, rfl, rfl, rfl,
      ⟨Ex.consistent_of _ _ rfl rfl, by decide, rfl, Or.inl rfl, nofun, nofun⟩, rfl, rfl⟩,
    ⟨.cons (by decide +kernel) (.cons (by decide +kernel) (.cons (by decide +kernel) .nil)), by decide +kernel⟩,
    by decide +kernel, by decide +kernel, by decide +kernel, by decide +kernel, by decide +kernel⟩

end BET

namespace BET.Ex
open Spec

/-- One cell, and two. -/
noncomputable def realOneCell : SampleSet ℝ := { dim := 1, glob := { values := some [[0]], probabilities := some [1] } }

noncomputable def realTwoCell : SampleSet ℝ :=
  { dim := 1, glob := { values := some [[0], [1]], probabilities := some [1/4, 3/4] } }

noncomputable def realSplit (s : SampleSet ℝ) : Disc ℝ where
  input := some { dim := 1, glob := { values := some [[0], [0], [0]], volumes := some [1/4, 1/4, 1/2] } }
  output := some { dim := 1, glob := { values := some [[0], [0], [1]] } }
  outputProb := some s

theorem realOneCell_fresh : FreshDisc (realSplit realOneCell) 3 1
    { dim := 1, glob := { values := some [[0], [0], [0]], volumes := some [1/4, 1/4, 1/2] } }
    { dim := 1, glob := { values := some [[0], [0], [1]] } } realOneCell [[0], [0], [1]] [1/4, 1/4, 1/2] [1] :=
  ⟨rfl, SampleSet.consistent_of_checkNum (size := 1) rfl rfl, rfl, rfl, rfl, rfl,
    SampleSet.consistent_of_checkNum (size := 1) rfl rfl, rfl, rfl, rfl,
    ⟨SampleSet.consistent_of_checkNum (size := 1) rfl rfl, by decide, rfl, Or.inl rfl, nofun, nofun⟩, rfl, rfl⟩

theorem realTwoCell_fresh : FreshDisc (realSplit realTwoCell) 3 2
    { dim := 1, glob := { values := some [[0], [0], [0]], volumes := some [1/4, 1/4, 1/2] } }
    { dim := 1, glob := { values := some [[0], [0], [1]] } } realTwoCell [[0], [0], [1]] [1/4, 1/4, 1/2] [1/4, 3/4] :=
  ⟨rfl, SampleSet.consistent_of_checkNum (size := 1) rfl rfl, rfl, rfl, rfl, rfl,
    SampleSet.consistent_of_checkNum (size := 1) rfl rfl, rfl, rfl, rfl,
    ⟨SampleSet.consistent_of_checkNum (size := 1) rfl rfl, by decide, rfl, Or.inl rfl, nofun, nofun⟩, rfl, rfl⟩

theorem realTwoCell_zero : realTwoCell.cell euclid [0] = 0 := by
  have h := euclid_sound realTwoCell.pNorm [[0], [1]] [0] (by simp)
  obtain ⟨c, hc, hm⟩ := h
  have e : realTwoCell.cell euclid [0] = euclid.nn realTwoCell.pNorm [[0], [1]] [0] := rfl
  rw [e]
  have h0 := hm [0] (by simp)
  rcases h2 : euclid.nn realTwoCell.pNorm [[0], [1]] [0] with _ | _ | k
  · rfl
  · rw [h2] at hc
    obtain rfl : [1] = c := by simpa using hc
    norm_num [euclid] at h0
  · rw [h2] at hc
    simp at hc

theorem realTwoCell_one : realTwoCell.cell euclid [1] = 1 := by
  have h := euclid_sound realTwoCell.pNorm [[0], [1]] [1] (by simp)
  obtain ⟨c, hc, hm⟩ := h
  have e : realTwoCell.cell euclid [1] = euclid.nn realTwoCell.pNorm [[0], [1]] [1] := rfl
  rw [e]
  have h0 := hm [1] (by simp)
  rcases h2 : euclid.nn realTwoCell.pNorm [[0], [1]] [1] with _ | _ | k
  · rw [h2] at hc
    obtain rfl : [0] = c := by simpa using hc
    norm_num [euclid] at h0
  · rfl
  · rw [h2] at hc
    simp at hc

/-- `C179_kl` for one cell divided into two. -/
example : ∃ P Q, solution euclid 2 (realSplit realOneCell) = some P ∧ solution euclid 2 (realSplit realTwoCell) = some Q ∧
      divergence klTerm Q [1/4, 1/4, 1/2] = divergence klTerm Q P + divergence klTerm P [1/4, 1/4, 1/2] ∧
      (divergence klTerm Q [1/4, 1/4, 1/2] = divergence klTerm P [1/4, 1/4, 1/2] ↔ Q = P) := by
  have hz : ∀ x, realOneCell.cell euclid x = 0 := fun x =>
    Nat.lt_one_iff.1 (SampleSet.cell_lt euclid_sound realOneCell_fresh.hready x)
  refine C179_kl euclid_sound (by decide) (by decide) realOneCell_fresh realTwoCell_fresh (σ := fun _ => 0)
    ⟨.cons (hz _) (.cons (hz _) (.cons (hz _) .nil)), ?_⟩ (by norm_num) (by norm_num) (by norm_num) ?_
  · intro k hk
    obtain rfl : k = 0 := by simpa using hk
    norm_num [List.range_succ]
  · intro j hj _
    simp only [List.map_cons, List.map_nil, realTwoCell_zero, realTwoCell_one]
    interval_cases j <;> norm_num [mass]

end BET.Ex
