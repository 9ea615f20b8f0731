import Verif.Props.Stability

/-!
# C160: subdividing samples, and subdividing the cells of the data space
-/

set_option autoImplicit false
set_option linter.unusedSectionVars false
set_option linter.unusedSimpArgs false

namespace BET

open Spec

variable {K : Type} [Field K] [LinearOrder K]

namespace Spec

/-- Every sample, with output `y` and volume `v`, is divided into parts (a list of outputs and volumes): the outputs of
the parts lie in the cell of `y` in the data space, the volumes of the parts add up to `v`. -/
def Subdivided (G : Geometry K) (ops : SampleSet K) (samples : List (List K × K)) (parts : List (List (List K × K))) :
    Prop :=
  List.Forall₂ (fun s ps => (∀ q ∈ ps, ops.cell G q.1 = ops.cell G s.1) ∧ (ps.map Prod.snd).sum = s.2) samples parts

end Spec

/-! ## Lists -/

theorem mass_parts {α : Type} (f : α → Nat) (ps : List (α × K)) {c : Nat} (h : ∀ q ∈ ps, f q.1 = c) (k : Nat) :
    mass (ps.map fun q => f q.1) (ps.map Prod.snd) k = if c = k then (ps.map Prod.snd).sum else 0 := by
  induction ps with
  | nil => simp
  | cons q ps ih =>
    simp only [List.map_cons, mass_cons, List.sum_cons, ih fun x hx => h x (List.mem_cons_of_mem _ hx),
      h q List.mem_cons_self]
    split <;> simp

theorem Subdivided.mass {G : Geometry K} {ops : SampleSet K} {samples : List (List K × K)}
    {parts : List (List (List K × K))} (h : Subdivided G ops samples parts) (k : Nat) :
    Spec.mass (parts.flatten.map fun q => ops.cell G q.1) (parts.flatten.map Prod.snd) k =
      Spec.mass (samples.map fun q => ops.cell G q.1) (samples.map Prod.snd) k := by
  induction h with
  | nil => simp
  | @cons s ps samples parts hs _ ih =>
    rw [List.flatten_cons, List.map_append, List.map_append, mass_append _ _ _ _ _ (by simp), ih, List.map_cons,
      List.map_cons, mass_cons, mass_parts (ops.cell G) ps hs.1, hs.2]

theorem zipWith_parts {α γ : Type} (f : α → Nat) (g : Nat → K → γ) (ps : List (α × K)) :
    List.zipWith g (ps.map fun q => f q.1) (ps.map Prod.snd) = ps.map fun q => g (f q.1) q.2 := by
  induction ps with
  | nil => rfl
  | cons q ps ih => simp [ih]

theorem Subdivided.sums {G : Geometry K} {ops : SampleSet K} {samples : List (List K × K)}
    {parts : List (List (List K × K))} (h : Subdivided G ops samples parts) (g : Nat → K → K)
    (hg : ∀ (k : Nat) (l : List K), (l.map (g k)).sum = g k l.sum) :
    (parts.map fun ps => ps.map fun q => g (ops.cell G q.1) q.2).map List.sum =
      samples.map fun q => g (ops.cell G q.1) q.2 := by
  induction h with
  | nil => rfl
  | @cons s ps samples parts hs _ ih =>
    rw [List.map_cons, List.map_cons, List.map_cons, ih, ← hs.2, ← hg, List.map_map]
    congr 2
    exact List.map_congr_left fun q hq => by rw [hs.1 q hq]; rfl

section order
variable [IsStrictOrderedRing K]

/-- **C160.** Dividing samples into parts does not change what the method says about them: the probabilities that `prob`
gives to the parts of a sample add up to the probability that it gives to the undivided sample. -/
theorem C160_samples {G : Geometry K} {size size' : Nat} (hsize : 0 < size) (hsize' : 0 < size') {d₁ d₂ : Disc K}
    {n n' m : Nat} {inp₁ out₁ inp₂ out₂ ops : SampleSet K} {samples : List (List K × K)}
    {parts : List (List (List K × K))} {p : List K}
    (f₁ : FreshDisc d₁ n m inp₁ out₁ ops (samples.map Prod.fst) (samples.map Prod.snd) p)
    (f₂ : FreshDisc d₂ n' m inp₂ out₂ ops (parts.flatten.map Prod.fst) (parts.flatten.map Prod.snd) p)
    (h : Subdivided G ops samples parts) :
    ∃ Q : List (List K), solution G size' d₂ = some Q.flatten ∧
      List.Forall₂ (fun q ps => q.length = ps.length) Q parts ∧ solution G size d₁ = some (Q.map List.sum) := by
  rw [FreshDisc.solved f₁ hsize, FreshDisc.solved f₂ hsize']
  simp only [List.map_map, Function.comp_def, Subdivided.mass h]
  have hg : ∀ (k : Nat) (l : List K), (l.map fun v =>
      if 0 < p.getD k 0 ∧ 0 < Spec.mass (samples.map fun q => ops.cell G q.1) (samples.map Prod.snd) k then
        p.getD k 0 * v / Spec.mass (samples.map fun q => ops.cell G q.1) (samples.map Prod.snd) k else 0).sum =
      if 0 < p.getD k 0 ∧ 0 < Spec.mass (samples.map fun q => ops.cell G q.1) (samples.map Prod.snd) k then
        p.getD k 0 * l.sum / Spec.mass (samples.map fun q => ops.cell G q.1) (samples.map Prod.snd) k else 0 := by
    intro k l
    split
    · simp only [mul_div_right_comm]
      rw [List.sum_map_mul_left, List.map_id']
    · simp
  refine ⟨parts.map fun ps => ps.map fun q =>
    if 0 < p.getD (ops.cell G q.1) 0 ∧
        0 < Spec.mass (samples.map fun q => ops.cell G q.1) (samples.map Prod.snd) (ops.cell G q.1) then
      p.getD (ops.cell G q.1) 0 * q.2 /
        Spec.mass (samples.map fun q => ops.cell G q.1) (samples.map Prod.snd) (ops.cell G q.1) else 0, ?_, ?_, ?_⟩
  · rw [zipWith_parts (ops.cell G), List.map_flatten]
  · rw [List.forall₂_map_left_iff]
    exact List.forall₂_same.2 fun _ _ => by simp
  · rw [zipWith_parts (ops.cell G)]
    exact congrArg some (Subdivided.sums h (fun k v =>
      if 0 < p.getD k 0 ∧ 0 < Spec.mass (samples.map fun q => ops.cell G q.1) (samples.map Prod.snd) k then
        p.getD k 0 * v / Spec.mass (samples.map fun q => ops.cell G q.1) (samples.map Prod.snd) k else 0) hg).symm

/-! ## Cells of the data space -/

theorem mass_regroup (c : List Nat) (w : List K) (hl : c.length = w.length) (σ : Nat → Nat) {m : Nat}
    (h : ∀ j ∈ c, j < m) (k : Nat) :
    mass (c.map σ) w k = ((List.range m).map fun j => if σ j = k then mass c w j else 0).sum := by
  have h1 : mass (c.map σ) w k = (List.zipWith (fun j x => if σ j = k then x else 0) c w).sum := by
    clear hl h
    induction c generalizing w with
    | nil => simp
    | cons a c ih =>
      cases w with
      | nil => simp
      | cons x w => rw [List.map_cons, mass_cons, ih, List.zipWith_cons_cons, List.sum_cons]
  rw [h1, ← sum_range_mass c _ m (by simp [hl]) h]
  congr 1
  refine List.map_congr_left fun j _ => ?_
  rw [mass_map_zipWith]
  split
  · rw [List.map_id']
  · have : (fun _ : K => (0 : K)) = fun x => 0 * x := by funext x; simp
    rw [this, mass_map_mul, zero_mul]

theorem mass_positive {c : List Nat} {v : List K} (hv : ∀ x ∈ v, 0 ≤ x) {i : Nat} (hi : i < c.length)
    (hi' : i < v.length) (h : 0 < v[i]) : 0 < mass c v c[i] := by
  induction c generalizing v i with
  | nil => simp at hi
  | cons a c ih =>
    cases v with
    | nil => simp at hi'
    | cons x v =>
      have hv' : ∀ x ∈ v, 0 ≤ x := fun x hx => hv x (List.mem_cons_of_mem _ hx)
      rw [mass_cons]
      cases i with
      | zero =>
        simp only [List.getElem_cons_zero, if_true] at h ⊢
        exact add_pos_of_pos_of_nonneg h (mass_nonneg c v a hv')
      | succ i =>
        simp only [List.getElem_cons_succ] at h ⊢
        refine add_pos_of_nonneg_of_pos ?_ (ih hv' _ _ h)
        split
        · exact hv x List.mem_cons_self
        · exact le_rfl

theorem exists_of_mass_pos {c : List Nat} {v : List K} {k : Nat} (h : 0 < mass c v k) :
    ∃ (i : Nat) (hi : i < c.length) (hi' : i < v.length), c[i] = k ∧ 0 < v[i] := by
  induction c generalizing v with
  | nil => simp at h
  | cons a c ih =>
    cases v with
    | nil => simp at h
    | cons x v =>
      rw [mass_cons] at h
      by_cases h0 : 0 < mass c v k
      · obtain ⟨i, hi, hi', h1, h2⟩ := ih h0
        exact ⟨i + 1, by simpa using hi, by simpa using hi', by simpa using h1, by simpa using h2⟩
      · refine ⟨0, by simp, by simp, ?_⟩
        split at h
        · next hk => exact ⟨hk, by simp only [List.getElem_cons_zero]; linarith [not_lt.1 h0]⟩
        · exact absurd (by simpa using h) h0

theorem mass_solved_all {c : List Nat} {v p : List K} (hp : ∀ x ∈ p, 0 ≤ x) (k : Nat) :
    mass c (List.zipWith (fun k x => if 0 < p.getD k 0 ∧ 0 < mass c v k then p.getD k 0 * x / mass c v k else 0) c v) k =
      if 0 < mass c v k then p.getD k 0 else 0 := by
  rw [solved_eq c v hp, mass_map_zipWith, mass_map_mul, mass_shareIn]
  split <;> simp

theorem getD_nonneg_of {p : List K} (hp : ∀ x ∈ p, 0 ≤ x) (k : Nat) : 0 ≤ p.getD k 0 := by
  rw [List.getD_eq_getElem?_getD]
  cases h : p[k]? with
  | none => simp
  | some x => exact hp x (List.mem_of_getElem? h)

namespace Spec

/-- The cells of `fine` are parts of the cells of `coarse`, as far as the points of `y` show: the cell `j` of `fine` lies
in the cell `σ j` of `coarse`. The probabilities of the parts of a cell add up to its probability. -/
structure FinerData (G : Geometry K) (coarse fine : SampleSet K) (y : List (List K)) (σ : Nat → Nat) (p q : List K) :
    Prop where
  inside : ∀ x ∈ y, coarse.cell G x = σ (fine.cell G x)
  adds : ∀ k < p.length, p.getD k 0 = ((List.range q.length).map fun j => if σ j = k then q.getD j 0 else 0).sum

end Spec

/-- **C160.** Dividing the cells of the data space, and their probabilities, does not change the probability of the
samples that are mapped into one undivided cell, if every part with positive probability is reached. -/
theorem C160_cells {G : Geometry K} (hG : Sound G) {size size' : Nat} (hsize : 0 < size) (hsize' : 0 < size')
    {d₁ d₂ : Disc K} {n m m' : Nat} {inp₁ out₁ inp₂ out₂ coarse fine : SampleSet K} {y : List (List K)}
    {vols p q : List K} (f₁ : FreshDisc d₁ n m inp₁ out₁ coarse y vols p)
    (f₂ : FreshDisc d₂ n m' inp₂ out₂ fine y vols q) {σ : Nat → Nat} (h : FinerData G coarse fine y σ p q)
    (hv : ∀ v ∈ vols, 0 ≤ v) (hp : ∀ x ∈ p, 0 ≤ x) (hq : ∀ x ∈ q, 0 ≤ x)
    (hreach : ∀ j < m', 0 < q.getD j 0 → 0 < mass (y.map (fine.cell G)) vols j) :
    ∃ P Q, solution G size d₁ = some P ∧ solution G size' d₂ = some Q ∧ P.length = n ∧ Q.length = n ∧
      ∀ k < m, mass (y.map (coarse.cell G)) P k = mass (y.map (coarse.cell G)) Q k := by
  obtain ⟨hy, hvl, hpl⟩ := FreshDisc.lengths f₁
  obtain ⟨-, -, hql⟩ := FreshDisc.lengths f₂
  refine ⟨_, _, FreshDisc.solved f₁ hsize, FreshDisc.solved f₂ hsize', by simp [hy, hvl], by simp [hy, hvl], ?_⟩
  intro k hk
  have hlt : ∀ j ∈ y.map (fine.cell G), j < m' := by
    intro j hj
    obtain ⟨x, -, rfl⟩ := List.mem_map.mp hj
    exact SampleSet.cell_lt hG f₂.hready x
  have hcells : y.map (coarse.cell G) = (y.map (fine.cell G)).map σ := by
    rw [List.map_map]
    exact List.map_congr_left fun x hx => h.inside x hx
  have hQ : ∀ j < m', (if 0 < mass (y.map (fine.cell G)) vols j then q.getD j 0 else 0) = q.getD j 0 := by
    intro j hj
    split
    · rfl
    · next h0 => exact le_antisymm (getD_nonneg_of hq j) (not_lt.1 fun h1 => h0 (hreach j hj h1))
  rw [mass_solved_all hp]
  conv_rhs => rw [hcells, mass_regroup _ _ (by simp [hy, hvl]) σ hlt]
  simp only [mass_solved_all hq]
  have e : ((List.range m').map fun j => if σ j = k then
      (if 0 < mass (y.map (fine.cell G)) vols j then q.getD j 0 else 0) else 0).sum = p.getD k 0 := by
    rw [h.adds k (hpl ▸ hk), hql]
    congr 1
    refine List.map_congr_left fun j hj => ?_
    rw [hQ j (List.mem_range.1 hj)]
  rw [e]
  split
  · rfl
  · next h0 =>
    rw [← e]
    symm
    refine List.sum_eq_zero ?_
    intro x hx
    obtain ⟨j, hj, rfl⟩ := List.mem_map.mp hx
    split
    · next hs =>
      split
      · next h1 =>
        exfalso
        obtain ⟨i, hi, hi', h2, h3⟩ := exists_of_mass_pos h1
        refine h0 ?_
        have := mass_positive (c := y.map (coarse.cell G)) hv (by simpa using hi) hi' h3
        have h4 : (y.map (coarse.cell G))[i]'(by simpa using hi) = k := by
          simp only [hcells, List.getElem_map] at h2 ⊢
          rw [h2, hs]
        rwa [h4] at this
      · rfl
    · rfl

/-- **C160.** And it changes the probability of no sample exactly if, in every part that is reached by a sample of
positive volume, the ratio of probability to volume is that of the undivided cell. -/
theorem C160_cells_iff {G : Geometry K} {size size' : Nat} (hsize : 0 < size) (hsize' : 0 < size')
    {d₁ d₂ : Disc K} {n m m' : Nat} {inp₁ out₁ inp₂ out₂ coarse fine : SampleSet K} {y : List (List K)}
    {vols p q : List K} (f₁ : FreshDisc d₁ n m inp₁ out₁ coarse y vols p)
    (f₂ : FreshDisc d₂ n m' inp₂ out₂ fine y vols q) {σ : Nat → Nat}
    (h : ∀ x ∈ y, coarse.cell G x = σ (fine.cell G x))
    (hv : ∀ v ∈ vols, 0 ≤ v) (hp : ∀ x ∈ p, 0 ≤ x) (hq : ∀ x ∈ q, 0 ≤ x) :
    solution G size d₁ = solution G size' d₂ ↔ ∀ j, 0 < mass (y.map (fine.cell G)) vols j →
      p.getD (σ j) 0 / mass (y.map (coarse.cell G)) vols (σ j) = q.getD j 0 / mass (y.map (fine.cell G)) vols j := by
  obtain ⟨hy, hvl, -⟩ := FreshDisc.lengths f₁
  rw [FreshDisc.solved f₁ hsize, FreshDisc.solved f₂ hsize', Option.some_inj, solved_eq _ _ hp, solved_eq _ _ hq]
  have hmass : ∀ (i : Nat) (h1 : i < y.length) (h2 : i < vols.length), 0 < vols[i] →
      0 < mass (y.map (coarse.cell G)) vols (coarse.cell G y[i]) ∧
      0 < mass (y.map (fine.cell G)) vols (fine.cell G y[i]) := by
    intro i h1 h2 h3
    have a := mass_positive (c := y.map (coarse.cell G)) hv (by simpa using h1) h2 h3
    have b := mass_positive (c := y.map (fine.cell G)) hv (by simpa using h1) h2 h3
    simp only [List.getElem_map] at a b
    exact ⟨a, b⟩
  constructor
  · intro he j hj
    obtain ⟨i, hi, hi', h2, h3⟩ := exists_of_mass_pos hj
    have hi0 : i < y.length := by simpa using hi
    have := congrArg (fun l => l[i]?) he
    simp only [shareIn, List.getElem?_zipWith, List.getElem?_map, List.getElem?_eq_getElem hi0,
      List.getElem?_eq_getElem hi', Option.map_some, (hmass i hi0 hi' h3).1, (hmass i hi0 hi' h3).2, if_true,
      Option.some_inj] at this
    simp only [List.getElem_map] at h2
    rw [h _ (List.getElem_mem hi0), h2] at this
    have hne := h3.ne'
    have : p.getD (σ j) 0 / mass (y.map (coarse.cell G)) vols (σ j) * vols[i] =
        q.getD j 0 / mass (y.map (fine.cell G)) vols j * vols[i] := by
      rw [div_mul_eq_mul_div, div_mul_eq_mul_div, mul_div_assoc, mul_div_assoc]; exact this
    exact mul_right_cancel₀ hne this
  · intro hr
    apply List.ext_getElem
    · simp [shareIn]
    · intro i h1 h2
      have hi0 : i < y.length := by simp [shareIn] at h1; omega
      have hi' : i < vols.length := by simp [shareIn] at h1; omega
      simp only [shareIn, List.getElem_zipWith, List.getElem_map]
      rcases (hv _ (List.getElem_mem hi')).eq_or_lt with h0 | h0
      · simp [← h0]
      · rw [if_pos (hmass i hi0 hi' h0).1, if_pos (hmass i hi0 hi' h0).2]
        have := hr _ (hmass i hi0 hi' h0).2
        rw [← h _ (List.getElem_mem hi0)] at this
        rw [mul_div_assoc', mul_div_assoc', mul_div_right_comm, mul_div_right_comm, this]

/-- **C160.** For example, if the probability of a cell is divided in proportion to the volumes of the samples that are
mapped into the parts. -/
theorem C160_proportional {G : Geometry K} {size size' : Nat} (hsize : 0 < size) (hsize' : 0 < size')
    {d₁ d₂ : Disc K} {n m m' : Nat} {inp₁ out₁ inp₂ out₂ coarse fine : SampleSet K} {y : List (List K)}
    {vols p q : List K} (f₁ : FreshDisc d₁ n m inp₁ out₁ coarse y vols p)
    (f₂ : FreshDisc d₂ n m' inp₂ out₂ fine y vols q) {σ : Nat → Nat}
    (h : ∀ x ∈ y, coarse.cell G x = σ (fine.cell G x))
    (hv : ∀ v ∈ vols, 0 ≤ v) (hp : ∀ x ∈ p, 0 ≤ x) (hq : ∀ x ∈ q, 0 ≤ x)
    (hprop : ∀ j, q.getD j 0 = p.getD (σ j) 0 *
      (mass (y.map (fine.cell G)) vols j / mass (y.map (coarse.cell G)) vols (σ j))) :
    solution G size d₁ = solution G size' d₂ := by
  rw [C160_cells_iff hsize hsize' f₁ f₂ h hv hp hq]
  intro j hj
  rw [hprop, mul_div_assoc, div_div_cancel_left' hj.ne', div_eq_mul_inv]

end order

end BET

/-! ## Examples -/

namespace BET.Ex

open Spec

/-- Samples with outputs `y` and volumes `v`; cells around the points `c` with probabilities `p`. -/
def splitDisc (y : List (List ℚ)) (v : List ℚ) (c : List (List ℚ)) (p : List ℚ) : Disc ℚ where
  input := some { dim := 1, glob := { values := some (y.map fun _ => [0]), volumes := some v } }
  output := some { dim := 1, glob := { values := some y } }
  outputProb := some { dim := 1, glob := { values := some c, probabilities := some p } }

example : ∃ Q : List (List ℚ),
    solution G 3 (splitDisc [[0], [1/2], [6], [5]] [1/4, 1/4, 1/8, 3/8] [[0], [5]] [2/5, 3/5]) = some Q.flatten ∧
    List.Forall₂ (fun q (ps : List (List ℚ × ℚ)) => q.length = ps.length) Q
      [[([0], 1/4), ([1/2], 1/4)], [([6], 1/8)], [([5], 3/8)]] ∧
    solution G 2 (splitDisc [[1], [6], [5]] [1/2, 1/8, 3/8] [[0], [5]] [2/5, 3/5]) = some (Q.map List.sum) :=
  C160_samples (K := ℚ) (G := G) (size := 2) (size' := 3) (n := 3) (n' := 4) (m := 2) (p := [2/5, 3/5])
    (parts := [[([0], 1/4), ([1/2], 1/4)], [([6], 1/8)], [([5], 3/8)]])
    (ops := { dim := 1, glob := { values := some [[0], [5]], probabilities := some [2/5, 3/5] } })
    (samples := [([1], 1/2), ([6], 1/8), ([5], 3/8)]) (by decide) (by decide)
    ⟨rfl, consistent_of _ _ rfl rfl, rfl, rfl, rfl, rfl, consistent_of _ _ rfl rfl, rfl, rfl, rfl,
      ⟨consistent_of _ _ rfl rfl, by decide, rfl, Or.inl rfl, nofun, nofun⟩, rfl, rfl⟩
    ⟨rfl, consistent_of _ _ rfl rfl, rfl, rfl, rfl, rfl, consistent_of _ _ rfl rfl, rfl, rfl, rfl,
      ⟨consistent_of _ _ rfl rfl, by decide, rfl, Or.inl rfl, nofun, nofun⟩, rfl, rfl⟩
    (by
      refine .cons ⟨by decide +kernel, by decide +kernel⟩ (.cons ⟨by decide +kernel, by decide +kernel⟩
        (.cons ⟨by decide +kernel, by decide +kernel⟩ .nil)))

/-- The cell around 5 is divided into cells around 5 and 7. -/
example : ∃ P Q,
    solution G 2 (splitDisc [[1], [7], [5]] [1/2, 1/8, 3/8] [[0], [6]] [2/5, 3/5]) = some P ∧
    solution G 3 (splitDisc [[1], [7], [5]] [1/2, 1/8, 3/8] [[0], [5], [7]] [2/5, 1/5, 2/5]) = some Q ∧
    P.length = 3 ∧ Q.length = 3 ∧ ∀ k < 2,
      mass ([[1], [7], [5]].map (SampleSet.cell G
        { dim := 1, glob := { values := some [[0], [6]], probabilities := some [2/5, 3/5] } })) P k =
      mass ([[1], [7], [5]].map (SampleSet.cell G
        { dim := 1, glob := { values := some [[0], [6]], probabilities := some [2/5, 3/5] } })) Q k :=
  C160_cells (m := 2) (m' := 3) (p := [2/5, 3/5]) (q := [2/5, 1/5, 2/5]) (vols := [1/2, 1/8, 3/8])
    (y := [[1], [7], [5]]) (σ := fun j => if j = 0 then 0 else 1)
    (fine := { dim := 1, glob := { values := some [[0], [5], [7]], probabilities := some [2/5, 1/5, 2/5] } })
    sound_G (by decide) (by decide)
    ⟨rfl, consistent_of _ _ rfl rfl, rfl, rfl, rfl, rfl, consistent_of _ _ rfl rfl, rfl, rfl, rfl,
      ⟨consistent_of _ _ rfl rfl, by decide, rfl, Or.inl rfl, nofun, nofun⟩, rfl, rfl⟩
    ⟨rfl, consistent_of _ _ rfl rfl, rfl, rfl, rfl, rfl, consistent_of _ _ rfl rfl, rfl, rfl, rfl,
      ⟨consistent_of _ _ rfl rfl, by decide, rfl, Or.inl rfl, nofun, nofun⟩, rfl, rfl⟩
    ⟨by decide +kernel, by decide +kernel⟩ (by decide +kernel) (by decide +kernel) (by decide +kernel)
    (by decide +kernel)

/-- Divided in proportion to the volumes. -/
example : solution G 2 (splitDisc [[1], [7], [5]] [1/2, 1/8, 3/8] [[0], [6]] [2/5, 3/5]) =
    solution G 3 (splitDisc [[1], [7], [5]] [1/2, 1/8, 3/8] [[0], [5], [7]] [2/5, 9/20, 3/20]) :=
  C160_proportional (n := 3) (m := 2) (m' := 3) (p := [2/5, 3/5]) (q := [2/5, 9/20, 3/20]) (vols := [1/2, 1/8, 3/8])
    (y := [[1], [7], [5]]) (σ := fun j => if j = 0 then 0 else if j = 1 ∨ j = 2 then 1 else j)
    (coarse := { dim := 1, glob := { values := some [[0], [6]], probabilities := some [2/5, 3/5] } })
    (fine := { dim := 1, glob := { values := some [[0], [5], [7]], probabilities := some [2/5, 9/20, 3/20] } })
    (by decide) (by decide)
    ⟨rfl, consistent_of _ _ rfl rfl, rfl, rfl, rfl, rfl, consistent_of _ _ rfl rfl, rfl, rfl, rfl,
      ⟨consistent_of _ _ rfl rfl, by decide, rfl, Or.inl rfl, nofun, nofun⟩, rfl, rfl⟩
    ⟨rfl, consistent_of _ _ rfl rfl, rfl, rfl, rfl, rfl, consistent_of _ _ rfl rfl, rfl, rfl, rfl,
      ⟨consistent_of _ _ rfl rfl, by decide, rfl, Or.inl rfl, nofun, nofun⟩, rfl, rfl⟩
    (by decide +kernel) (by decide +kernel) (by decide +kernel) (by decide +kernel)
    (by
      intro j
      rcases j with _ | _ | _ | j
      · decide +kernel
      · decide +kernel
      · decide +kernel
      · simp)

/-- **C160, what is false.** Probabilities of parts that are not reached are lost. -/
theorem C160_negation_unreached :
    solution G 1 (splitDisc [[1], [7]] [1/2, 1/2] [[0], [6]] [2/5, 3/5]) = some [2/5, 3/5] ∧
    solution G 1 (splitDisc [[1], [7]] [1/2, 1/2] [[0], [5], [7]] [2/5, 1/5, 2/5]) = some [2/5, 2/5] :=
  ⟨by decide +kernel, by decide +kernel⟩

end BET.Ex
