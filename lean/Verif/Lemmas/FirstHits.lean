import Mathlib.Probability.ProductMeasure
import Mathlib.Probability.Independence.InfinitePi
import Mathlib.Probability.ConditionalProbability
import Mathlib.MeasureTheory.Constructions.Pi

/-!
# The first hits of random points in a set

Random points are drawn in batches until a batch has enough points in a set. The first of these points
are independent and have the conditional law.
-/

set_option autoImplicit false
set_option linter.unusedSectionVars false
set_option linter.unusedSimpArgs false

open MeasureTheory ProbabilityTheory Measure Filter Topology

namespace BET

open scoped ENNReal

section
variable {E : Type} [MeasurableSpace E] [Inhabited E] {Ω : Type} [MeasurableSpace Ω] {P : Measure Ω}

open Classical in
/-- The points in `A`. -/
noncomputable def hitsOf (A : Set E) (l : List E) : List E := l.filter fun x => decide (x ∈ A)

/-- There are `m` points in `A`, and point `k` is in `B k`. -/
def HitsIn (A : Set E) (m : ℕ) (B : ℕ → Set E) (l : List E) : Prop :=
  m ≤ (hitsOf A l).length ∧ ∀ k < m, (hitsOf A l).getD k default ∈ B k

theorem hitsOf_cons (A : Set E) (x : E) (l : List E) :
    (x ∈ A → hitsOf A (x :: l) = x :: hitsOf A l) ∧ (x ∉ A → hitsOf A (x :: l) = hitsOf A l) := by
  constructor <;> intro h <;> simp [hitsOf, h]

theorem hitsIn_zero (A : Set E) (B : ℕ → Set E) (l : List E) : HitsIn A 0 B l :=
  ⟨Nat.zero_le _, fun _ hk => absurd hk (Nat.not_lt_zero _)⟩

theorem hitsIn_nil (A : Set E) (m : ℕ) (B : ℕ → Set E) : ¬ HitsIn A (m + 1) B [] := by
  intro h
  have := h.1
  simp [hitsOf] at this

theorem hitsIn_cons (A : Set E) (m : ℕ) (B : ℕ → Set E) (x : E) (l : List E) :
    HitsIn A (m + 1) B (x :: l) ↔
      (x ∈ A ∩ B 0 ∧ HitsIn A m (fun k => B (k + 1)) l) ∨ (x ∈ Aᶜ ∧ HitsIn A (m + 1) B l) := by
  by_cases hx : x ∈ A
  · simp only [HitsIn, (hitsOf_cons A x l).1 hx, List.length_cons, Set.mem_inter_iff, hx, true_and,
      Set.mem_compl_iff, not_true, false_and, or_false]
    constructor
    · rintro ⟨h1, h2⟩
      exact ⟨by simpa using h2 0 (by omega), by omega, fun k hk => by simpa using h2 (k + 1) (by omega)⟩
    · rintro ⟨h1, h2, h3⟩
      refine ⟨by omega, fun k hk => ?_⟩
      rcases k with _ | k
      · simpa using h1
      · simpa using h3 k (by omega)
  · simp only [HitsIn, (hitsOf_cons A x l).2 hx, Set.mem_inter_iff, hx, false_and, false_or,
      Set.mem_compl_iff, not_false_iff, true_and]

theorem measurable_hitsIn {F : Type} [MeasurableSpace F] {A : Set E} (hA : MeasurableSet A) (l : List (F → E))
    (hl : ∀ f ∈ l, Measurable f) (m : ℕ) {B : ℕ → Set E} (hB : ∀ k, MeasurableSet (B k)) :
    MeasurableSet {x : F | HitsIn A m B (l.map fun f => f x)} := by
  induction l generalizing m B with
  | nil =>
    rcases m with _ | m
    · simp [hitsIn_zero]
    · simp [hitsIn_nil]
  | cons f l ih =>
    rcases m with _ | m
    · simp [hitsIn_zero]
    · simp only [List.map_cons, hitsIn_cons]
      have hf := hl f (by simp)
      have hl' : ∀ g ∈ l, Measurable g := fun g hg => hl g (by simp [hg])
      exact ((hf (hA.inter (hB 0))).inter (ih hl' m fun k => hB (k + 1))).union
        ((hf hA.compl).inter (ih hl' (m + 1) hB))

theorem measurable_hit {F : Type} [MeasurableSpace F] {A : Set E} (hA : MeasurableSet A) (l : List (F → E))
    (hl : ∀ f ∈ l, Measurable f) (k : ℕ) :
    Measurable fun x : F => (hitsOf A (l.map fun f => f x)).getD k default := by
  classical
  induction l generalizing k with
  | nil => simp [hitsOf]
  | cons f l ih =>
    have hf := hl f (by simp)
    have hl' : ∀ g ∈ l, Measurable g := fun g hg => hl g (by simp [hg])
    have e : (fun x : F => (hitsOf A ((f :: l).map fun f => f x)).getD k default) = fun x =>
        if f x ∈ A then (if k = 0 then f x else (hitsOf A (l.map fun f => f x)).getD (k - 1) default)
        else (hitsOf A (l.map fun f => f x)).getD k default := by
      funext x
      by_cases hx : f x ∈ A
      · rw [List.map_cons, (hitsOf_cons A (f x) _).1 hx, if_pos hx]
        rcases k with _ | k <;> simp
      · rw [List.map_cons, (hitsOf_cons A (f x) _).2 hx, if_neg hx]
    rw [e]
    refine Measurable.ite (hf hA) ?_ (ih hl' k)
    by_cases hk : k = 0
    · simpa [hk] using hf
    · simpa [hk] using ih hl' (k - 1)

/-! ### One batch -/

variable {μ : Measure E} [IsProbabilityMeasure μ]

theorem hits_succ {A : Set E} (hA : MeasurableSet A) (N m : ℕ) {B : ℕ → Set E} (hB : ∀ k, MeasurableSet (B k)) :
    (Measure.pi fun _ : Fin (N + 1) => μ) {x | HitsIn A (m + 1) B (List.ofFn x)} =
      μ (A ∩ B 0) * (Measure.pi fun _ : Fin N => μ) {x | HitsIn A m (fun k => B (k + 1)) (List.ofFn x)} +
        μ Aᶜ * (Measure.pi fun _ : Fin N => μ) {x | HitsIn A (m + 1) B (List.ofFn x)} := by
  have hmeas : ∀ (N m : ℕ) (B : ℕ → Set E), (∀ k, MeasurableSet (B k)) →
      MeasurableSet {x : Fin N → E | HitsIn A m B (List.ofFn x)} := by
    intro N m B hB
    have := measurable_hitsIn (F := Fin N → E) hA (List.ofFn fun i (x : Fin N → E) => x i)
      (by intro f hf; obtain ⟨i, rfl⟩ := (List.mem_ofFn' _ _).1 hf; exact measurable_pi_apply i) m hB
    simpa [List.map_ofFn, Function.comp_def] using this
  have hpre : {x : Fin (N + 1) → E | HitsIn A (m + 1) B (List.ofFn x)} =
      (MeasurableEquiv.piFinSuccAbove (fun _ => E) 0) ⁻¹'
        (((A ∩ B 0) ×ˢ {x | HitsIn A m (fun k => B (k + 1)) (List.ofFn x)}) ∪
          (Aᶜ ×ˢ {x | HitsIn A (m + 1) B (List.ofFn x)})) := by
    ext x
    have e1 : (MeasurableEquiv.piFinSuccAbove (fun _ => E) 0 x) = (x 0, fun i => x i.succ) := by
      refine Prod.ext rfl ?_
      funext i
      rfl
    simp only [Set.mem_ofPred_eq, Set.mem_preimage, e1, Set.mem_union, Set.mem_prod]
    rw [List.ofFn_succ, hitsIn_cons]
  rw [hpre, (measurePreserving_piFinSuccAbove (fun _ => μ) 0).measure_preimage
    (((hA.inter (hB 0)).prod (hmeas _ _ _ fun k => hB (k + 1))).union
      (hA.compl.prod (hmeas _ _ _ hB))).nullMeasurableSet,
    measure_union _ (hA.compl.prod (hmeas _ _ _ hB)), Measure.prod_prod, Measure.prod_prod]
  rw [Set.disjoint_left]
  rintro ⟨a, b⟩ h1 h2
  exact h2.1 h1.1.1

/-- The points are independent and have the conditional law, whatever the number of points in the set. -/
theorem hits_pi {A : Set E} (hA : MeasurableSet A) (hA0 : μ A ≠ 0) (N m : ℕ) {B : ℕ → Set E}
    (hB : ∀ k, MeasurableSet (B k)) :
    (Measure.pi fun _ : Fin N => μ) {x | HitsIn A m B (List.ofFn x)} =
      (∏ k ∈ Finset.range m, μ[|A] (B k)) *
        (Measure.pi fun _ : Fin N => μ) {x | HitsIn A m (fun _ => Set.univ) (List.ofFn x)} := by
  induction N generalizing m B with
  | zero =>
    rcases m with _ | m
    · simp [hitsIn_zero]
    · simp [hitsIn_nil]
  | succ N ih =>
    rcases m with _ | m
    · simp [hitsIn_zero]
    · rw [hits_succ hA N m hB, hits_succ hA N m fun _ => MeasurableSet.univ, ih m fun k => hB (k + 1),
        ih (m + 1) hB, Finset.prod_range_succ', Set.inter_univ]
      have h1 : μ (A ∩ B 0) = μ A * μ[|A] (B 0) := by
        rw [cond_apply hA, ← mul_assoc, ENNReal.mul_inv_cancel hA0 (measure_ne_top _ _), one_mul]
      rw [h1]
      ring

/-! ### Too few hits -/

/-- The probability of fewer than `m` hits among `N` points, each a hit with probability `q`. -/
noncomputable def fewHits (q : ℝ) : ℕ → ℕ → ℝ
  | _, 0 => 0
  | 0, _ + 1 => 1
  | N + 1, m + 1 => q * fewHits q N m + (1 - q) * fewHits q N (m + 1)

theorem fewHits_mem {q : ℝ} (h0 : 0 ≤ q) (h1 : q ≤ 1) (N m : ℕ) : 0 ≤ fewHits q N m ∧ fewHits q N m ≤ 1 := by
  induction N generalizing m with
  | zero => rcases m with _ | m <;> simp [fewHits]
  | succ N ih =>
    rcases m with _ | m
    · simp [fewHits]
    · rw [fewHits]
      have a := ih m
      have b := ih (m + 1)
      constructor
      · have := mul_nonneg h0 a.1
        have := mul_nonneg (sub_nonneg.2 h1) b.1
        linarith
      · have := mul_le_mul_of_nonneg_left a.2 h0
        have := mul_le_mul_of_nonneg_left b.2 (sub_nonneg.2 h1)
        linarith

theorem fewHits_mono {q : ℝ} (h0 : 0 ≤ q) (h1 : q ≤ 1) (N m : ℕ) : fewHits q N m ≤ fewHits q N (m + 1) := by
  induction N generalizing m with
  | zero => rcases m with _ | m <;> simp [fewHits]
  | succ N ih =>
    rcases m with _ | m
    · exact (by simp [fewHits] : fewHits q (N + 1) 0 = 0) ▸ (fewHits_mem h0 h1 _ _).1
    · rw [fewHits, fewHits]
      have := mul_le_mul_of_nonneg_left (ih m) h0
      have := mul_le_mul_of_nonneg_left (ih (m + 1)) (sub_nonneg.2 h1)
      linarith

theorem fewHits_anti {q : ℝ} (h0 : 0 ≤ q) (h1 : q ≤ 1) (N L m : ℕ) : fewHits q (L + N) m ≤ fewHits q N m := by
  induction L with
  | zero => simp
  | succ L ih =>
    refine le_trans ?_ ih
    rw [Nat.succ_add]
    rcases m with _ | m
    · simp [fewHits]
    · rw [fewHits]
      have := mul_le_mul_of_nonneg_left (fewHits_mono h0 h1 (L + N) m) h0
      linarith

theorem fewHits_block {q : ℝ} (h0 : 0 ≤ q) (h1 : q ≤ 1) (N L m : ℕ) :
    fewHits q (L + N) (m + 1) ≤ (1 - q) ^ L + fewHits q N m := by
  induction L with
  | zero =>
    have a := (fewHits_mem h0 h1 N m).1
    have b := (fewHits_mem h0 h1 N (m + 1)).2
    simp only [Nat.zero_add, pow_zero]
    linarith
  | succ L ih =>
    rw [Nat.succ_add, fewHits, pow_succ]
    have a := mul_le_mul_of_nonneg_left (fewHits_anti h0 h1 N L m) h0
    have b := mul_le_mul_of_nonneg_left ih (sub_nonneg.2 h1)
    nlinarith

/-- With `m` blocks of `L` points there are too few hits only if some block has none. -/
theorem fewHits_le {q : ℝ} (h0 : 0 ≤ q) (h1 : q ≤ 1) (L m : ℕ) : fewHits q (m * L) m ≤ m * (1 - q) ^ L := by
  induction m with
  | zero => simp [fewHits]
  | succ m ih =>
    have := fewHits_block h0 h1 (m * L) L m
    rw [Nat.succ_mul, Nat.add_comm]
    push_cast
    linarith

theorem few_pi {A : Set E} (hA : MeasurableSet A) (N m : ℕ) :
    (Measure.pi fun _ : Fin N => μ).real {x | HitsIn A m (fun _ => Set.univ) (List.ofFn x)} =
      1 - fewHits (μ.real A) N m := by
  induction N generalizing m with
  | zero =>
    rcases m with _ | m
    · simp [hitsIn_zero, fewHits]
    · simp [hitsIn_nil, fewHits]
  | succ N ih =>
    rcases m with _ | m
    · simp [hitsIn_zero, fewHits]
    · rw [measureReal_def, hits_succ hA N m fun _ => MeasurableSet.univ, Set.inter_univ, ENNReal.toReal_add
        (ENNReal.mul_ne_top (measure_ne_top _ _) (measure_ne_top _ _))
        (ENNReal.mul_ne_top (measure_ne_top _ _) (measure_ne_top _ _)), ENNReal.toReal_mul, ENNReal.toReal_mul,
        ← measureReal_def, ← measureReal_def, ← measureReal_def, ← measureReal_def, ih, ih, fewHits,
        probReal_compl_eq_one_sub hA]
      ring

/-! ### Batch after batch -/

/-- Independent families stay so when they are grouped. -/
theorem grouped {ι κ : Type} [Countable ι] [Countable κ] [IsProbabilityMeasure P] {X : ι → κ → Ω → E} (hm : ∀ i k, Measurable (X i k))
    (h : iIndepFun (fun p : ι × κ => X p.1 p.2) P) : iIndepFun (fun i ω k => X i k ω) P := by
  have hp : ∀ i k, IsProbabilityMeasure (P.map (X i k)) := fun i k => isProbabilityMeasure_map (hm i k).aemeasurable
  have hmi : ∀ i, Measurable fun ω k => X i k ω := fun i => measurable_pi_lambda _ fun k => hm i k
  have h1 := h.map_fun_eq_infinitePi_map fun p : ι × κ => hm p.1 p.2
  have h2 : ∀ i, P.map (fun ω k => X i k ω) = infinitePi fun k => P.map (X i k) := by
    intro i
    have hi : iIndepFun (X i) P := h.precomp (g := fun k => (i, k)) fun a b hab => (Prod.mk.inj hab).2
    exact hi.map_fun_eq_infinitePi_map (hm i)
  rw [iIndepFun_iff_map_fun_eq_infinitePi_map hmi]
  have h3 := congrArg (Measure.map (MeasurableEquiv.curry ι κ E)) h1
  rw [infinitePi_map_curry (fun i k => P.map (X i k)), Measure.map_map (MeasurableEquiv.measurable _)
    (measurable_pi_lambda _ fun p : ι × κ => hm p.1 p.2)] at h3
  simp only [h2]
  exact h3

variable {num : ℕ} {A : Set E}

/-- Batch `t` of the points. -/
def batch (num : ℕ) (x : ℕ → ℕ → E) (t : ℕ) : List E := (List.range (num * 10 ^ t)).map (x t)

/-- Batch `t` has enough hits. -/
def Enough (A : Set E) (num : ℕ) (x : ℕ → ℕ → E) (t : ℕ) : Prop := num ≤ (hitsOf A (batch num x t)).length

theorem exists_enough (A : Set E) (num : ℕ) (x : ℕ → ℕ → E) :
    ∃ t, Enough A num x t ∨ ∀ u, ¬ Enough A num x u := by
  by_cases h : ∃ t, Enough A num x t
  · exact ⟨h.choose, Or.inl h.choose_spec⟩
  · exact ⟨0, Or.inr fun u hu => h ⟨u, hu⟩⟩

open Classical in
/-- Hit `k` of the first batch with enough of them. -/
noncomputable def pickHit (A : Set E) (num k : ℕ) (x : ℕ → ℕ → E) : E :=
  (hitsOf A (batch num x (Nat.find (exists_enough A num x)))).getD k default

theorem pickHit_eq {x : ℕ → ℕ → E} {t : ℕ} (h : Enough A num x t) (hu : ∀ u < t, ¬ Enough A num x u) (k : ℕ) :
    pickHit A num k x = (hitsOf A (batch num x t)).getD k default := by
  classical
  have : Nat.find (exists_enough A num x) = t := by
    rw [Nat.find_eq_iff]
    refine ⟨Or.inl h, fun u hut => ?_⟩
    rintro (h1 | h1)
    · exact hu u hut h1
    · exact h1 t h
  rw [pickHit, this]

theorem batch_eq (num : ℕ) (x : ℕ → ℕ → E) (t : ℕ) :
    batch num x t = ((List.range (num * 10 ^ t)).map fun j (y : ℕ → ℕ → E) => y t j).map fun f => f x := by
  simp [batch, Function.comp_def]

theorem enough_iff (x : ℕ → ℕ → E) (t : ℕ) :
    Enough A num x t ↔ HitsIn A num (fun _ => Set.univ) (batch num x t) := by
  simp [Enough, HitsIn]

theorem measurable_entry (t j : ℕ) : Measurable fun y : ℕ → ℕ → E => y t j :=
  (measurable_pi_apply j).comp (measurable_pi_apply t)

theorem measurable_enough (hA : MeasurableSet A) (num t : ℕ) : MeasurableSet {x : ℕ → ℕ → E | Enough A num x t} := by
  simp only [enough_iff, batch_eq]
  refine measurable_hitsIn hA _ ?_ num fun _ => MeasurableSet.univ
  intro f hf
  obtain ⟨j, -, rfl⟩ := List.mem_map.1 hf
  exact measurable_entry t j

theorem measurable_pickHit (hA : MeasurableSet A) (num k : ℕ) : Measurable (pickHit (E := E) A num k) := by
  classical
  refine Measurable.find (f := fun t (x : ℕ → ℕ → E) => (hitsOf A (batch num x t)).getD k default)
    (p := fun t x => Enough A num x t ∨ ∀ u, ¬ Enough A num x u) (fun t => ?_) (fun t => ?_) (exists_enough A num)
  · simp only [batch_eq]
    refine measurable_hit hA _ ?_ k
    intro f hf
    obtain ⟨j, -, rfl⟩ := List.mem_map.1 hf
    exact measurable_entry t j
  · refine (measurable_enough hA num t).union ?_
    have : {x : ℕ → ℕ → E | ∀ u, ¬ Enough A num x u} = ⋂ u, {x | Enough A num x u}ᶜ := by ext; simp
    show MeasurableSet {x : ℕ → ℕ → E | ∀ u, ¬ Enough A num x u}
    rw [this]
    exact MeasurableSet.iInter fun u => (measurable_enough hA num u).compl

variable [IsProbabilityMeasure P] {V : ℕ → ℕ → Ω → E}

/-- The law of one batch. -/
theorem batch_law (hm : ∀ t k, Measurable (V t k)) (hi : iIndepFun (fun p : ℕ × ℕ => V p.1 p.2) P)
    (hl : ∀ t k, P.map (V t k) = μ) (hA : MeasurableSet A) (t m : ℕ) {B : ℕ → Set E} (hB : ∀ k, MeasurableSet (B k)) :
    P {ω | HitsIn A m B (batch num (fun t k => V t k ω) t)} =
      (Measure.pi fun _ : Fin (num * 10 ^ t) => μ) {x | HitsIn A m B (List.ofFn x)} := by
  have h1 : iIndepFun (fun k : Fin (num * 10 ^ t) => V t k) P := hi.precomp (g := fun k : Fin (num * 10 ^ t) => (t, (k : ℕ)))
    fun a b hab => Fin.ext (Prod.mk.inj hab).2
  have h2 := (iIndepFun_iff_map_fun_eq_pi_map fun k : Fin (num * 10 ^ t) => (hm t k).aemeasurable).1 h1
  simp only [hl] at h2
  rw [← h2, Measure.map_apply (measurable_pi_lambda _ fun k : Fin (num * 10 ^ t) => hm t k)]
  · congr 1
    ext ω
    simp only [Set.mem_ofPred_eq, Set.mem_preimage]
    have e : batch num (fun t k => V t k ω) t = List.ofFn fun k : Fin (num * 10 ^ t) => V t k ω := by
      refine List.ext_getElem (by simp [batch]) fun i h1 h2 => by simp [batch]
    rw [e]
  · have := measurable_hitsIn (F := Fin (num * 10 ^ t) → E) hA (List.ofFn fun i (x : Fin (num * 10 ^ t) → E) => x i)
      (by intro f hf; obtain ⟨i, rfl⟩ := (List.mem_ofFn' _ _).1 hf; exact measurable_pi_apply i) m hB
    simpa [List.map_ofFn, Function.comp_def] using this

/-- How improbable it is that a batch does not suffice. -/
theorem batch_fails (hm : ∀ t k, Measurable (V t k)) (hi : iIndepFun (fun p : ℕ × ℕ => V p.1 p.2) P)
    (hl : ∀ t k, P.map (V t k) = μ) (hA : MeasurableSet A) (t : ℕ) :
    P.real {ω | ¬ Enough A num (fun t k => V t k ω) t} ≤ num * (1 - μ.real A) ^ 10 ^ t := by
  have hms : MeasurableSet {ω | Enough A num (fun t k => V t k ω) t} :=
    (measurable_pi_lambda (fun ω t k => V t k ω) fun t => measurable_pi_lambda _ fun k => hm t k)
      (measurable_enough hA num t)
  have e : {ω | ¬ Enough A num (fun t k => V t k ω) t} = {ω | Enough A num (fun t k => V t k ω) t}ᶜ := rfl
  rw [e, probReal_compl_eq_one_sub hms]
  simp only [enough_iff]
  rw [measureReal_def, batch_law hm hi hl hA t num fun _ => MeasurableSet.univ, ← measureReal_def, few_pi hA]
  have := fewHits_le (q := μ.real A) measureReal_nonneg measureReal_le_one (10 ^ t) num
  linarith

theorem ends_ae (hm : ∀ t k, Measurable (V t k)) (hi : iIndepFun (fun p : ℕ × ℕ => V p.1 p.2) P)
    (hl : ∀ t k, P.map (V t k) = μ) (hA : MeasurableSet A) (hA0 : μ A ≠ 0) :
    ∀ᵐ ω ∂P, ∃ t, Enough A num (fun t k => V t k ω) t := by
  have hq0 : 0 < μ.real A := by
    rw [measureReal_def]
    exact ENNReal.toReal_pos hA0 (measure_ne_top _ _)
  have hq1 : μ.real A ≤ 1 := measureReal_le_one
  have h1 : Tendsto (fun t : ℕ => (num : ℝ) * (1 - μ.real A) ^ 10 ^ t) atTop (𝓝 0) := by
    rw [← mul_zero (num : ℝ)]
    refine ((tendsto_pow_atTop_nhds_zero_of_lt_one (by linarith) (by linarith)).comp ?_).const_mul _
    exact tendsto_pow_atTop_atTop_of_one_lt (by norm_num)
  have h2 : P.real {ω | ¬ ∃ t, Enough A num (fun t k => V t k ω) t} ≤ 0 := by
    refine ge_of_tendsto' h1 fun t => le_trans ?_ (batch_fails hm hi hl hA t)
    exact measureReal_mono (fun ω h hE => h ⟨t, hE⟩)
  rw [ae_iff]
  have := le_antisymm h2 measureReal_nonneg
  rwa [measureReal_eq_zero_iff] at this

/-- The picked points are independent and have the conditional law. -/
theorem pickHit_product (hm : ∀ t k, Measurable (V t k)) (hi : iIndepFun (fun p : ℕ × ℕ => V p.1 p.2) P)
    (hl : ∀ t k, P.map (V t k) = μ) (hA : MeasurableSet A) (hA0 : μ A ≠ 0) {B : ℕ → Set E}
    (hB : ∀ k, MeasurableSet (B k)) :
    P {ω | ∀ k < num, pickHit A num k (fun t k => V t k ω) ∈ B k} = ∏ k ∈ Finset.range num, μ[|A] (B k) := by
  classical
  let x : Ω → ℕ → ℕ → E := fun ω t k => V t k ω
  have hx : Measurable x := measurable_pi_lambda _ fun t => measurable_pi_lambda _ fun k => hm t k
  -- the first batch that suffices is batch `t`, and its points are in the sets
  let S : (ℕ → Set E) → ℕ → Set Ω := fun B t =>
    {ω | HitsIn A num B (batch num (x ω) t)} ∩ ⋂ u ∈ Finset.range t, {ω | ¬ Enough A num (x ω) u}
  have hgr : iIndepFun (fun t ω k => V t k ω) P := grouped hm hi
  let one : (ℕ → Set E) → ℕ → Set (ℕ → E) := fun B t =>
    {y | HitsIn A num B ((List.range (num * 10 ^ t)).map y)}
  have hone : ∀ B : ℕ → Set E, (∀ k, MeasurableSet (B k)) → ∀ t, MeasurableSet (one B t) := by
    intro B hB t
    have := measurable_hitsIn (F := ℕ → E) hA ((List.range (num * 10 ^ t)).map fun j (y : ℕ → E) => y j)
      (by intro f hf; obtain ⟨j, -, rfl⟩ := List.mem_map.1 hf; exact measurable_pi_apply j) num hB
    simp only [List.map_map, Function.comp_def] at this
    exact this
  have hS : ∀ B : ℕ → Set E, (∀ k, MeasurableSet (B k)) → ∀ t, P (S B t) =
      P {ω | HitsIn A num B (batch num (x ω) t)} * ∏ u ∈ Finset.range t, P {ω | ¬ Enough A num (x ω) u} := by
    intro B hB t
    have h1 := hgr.measure_inter_preimage_eq_mul (Finset.range (t + 1))
      (sets := fun u => if u = t then one B t else (one (fun _ => Set.univ) u)ᶜ) (by
        intro u _
        by_cases hu : u = t
        · simpa [hu] using hone B hB t
        · simpa [hu] using (hone _ (fun _ => MeasurableSet.univ) u).compl)
    rw [Finset.prod_range_succ, mul_comm] at h1
    have e1 : (⋂ u ∈ Finset.range (t + 1), (fun ω k => V u k ω) ⁻¹'
        (if u = t then one B t else (one (fun _ => Set.univ) u)ᶜ)) = S B t := by
      ext ω
      simp only [Set.mem_iInter, Finset.mem_range, S, Set.mem_inter_iff, Set.mem_ofPred_eq]
      constructor
      · intro h
        refine ⟨?_, fun u hu => ?_⟩
        · have := h t (by omega)
          rw [if_pos rfl] at this
          exact this
        have := h u (by omega)
        rw [if_neg (by omega)] at this
        rw [enough_iff]
        exact this
      · rintro ⟨h1, h2⟩ u hu
        by_cases hut : u = t
        · subst hut
          rw [if_pos rfl]
          exact h1
        · rw [if_neg hut]
          have := h2 u (by omega)
          rw [enough_iff] at this
          exact this
    rw [e1] at h1
    rw [h1, if_pos rfl]
    congr 1
    refine Finset.prod_congr rfl fun u hu => ?_
    rw [if_neg (by have := Finset.mem_range.1 hu; omega)]
    congr 1
    ext ω
    simp only [Set.mem_preimage, Set.mem_compl_iff, Set.mem_ofPred_eq, enough_iff]
    rfl
  have hSB : ∀ t, P (S B t) = (∏ k ∈ Finset.range num, μ[|A] (B k)) * P (S (fun _ => Set.univ) t) := by
    intro t
    rw [hS B hB t, hS _ (fun _ => MeasurableSet.univ) t, batch_law hm hi hl hA t num hB,
      batch_law hm hi hl hA t num fun _ => MeasurableSet.univ, hits_pi hA hA0 _ num hB, mul_assoc]
  have hmeasS : ∀ B : ℕ → Set E, (∀ k, MeasurableSet (B k)) → ∀ t, MeasurableSet (S B t) := by
    intro B hB t
    refine MeasurableSet.inter ?_ (MeasurableSet.biInter (Finset.countable_toSet _) fun u _ => ?_)
    · have := (measurable_pi_lambda (fun ω k => V t k ω) fun k => hm t k) (hone B hB t)
      exact this
    · exact (hx (measurable_enough hA num u)).compl
  have hdisj : ∀ B : ℕ → Set E, Pairwise fun t u => Disjoint (S B t) (S B u) := by
    intro B t u htu
    have key : ∀ a b, a < b → ∀ ω, ω ∈ S B a → ω ∉ S B b := by
      intro a b hab ω h1 h2
      have h3 := h2.2
      simp only [Set.mem_iInter, Finset.mem_range] at h3
      exact h3 a hab (h1.1.1)
    rw [Set.disjoint_left]
    intro ω h1 h2
    rcases Nat.lt_or_gt_of_ne htu with h | h
    · exact key t u h ω h1 h2
    · exact key u t h ω h2 h1
  have hfirst : ∀ ω, (∃ t, Enough A num (x ω) t) → ∃ t, Enough A num (x ω) t ∧ ∀ u < t, ¬ Enough A num (x ω) u :=
    fun ω h => ⟨Nat.find h, Nat.find_spec h, fun u hu => Nat.find_min h hu⟩
  have hends := ends_ae (num := num) hm hi hl hA hA0
  have hone' : ∑' t, P (S (fun _ => Set.univ) t) = 1 := by
    rw [← measure_iUnion (hdisj _) (hmeasS _ fun _ => MeasurableSet.univ)]
    have : (⋃ t, S (fun _ => Set.univ) t) =ᵐ[P] Set.univ := by
      rw [eventuallyEq_univ]
      filter_upwards [hends] with ω hω
      obtain ⟨t, h1, h2⟩ := hfirst ω hω
      refine Set.mem_iUnion.2 ⟨t, (enough_iff _ _).1 h1, ?_⟩
      simp only [Set.mem_iInter, Finset.mem_range]
      exact fun u hu => h2 u hu
    rw [measure_congr this, measure_univ]
  have hall : {ω | ∀ k < num, pickHit A num k (x ω) ∈ B k} =ᵐ[P] ⋃ t, S B t := by
    filter_upwards [hends] with ω hω
    obtain ⟨t, h1, h2⟩ := hfirst ω hω
    refine propext ?_
    have hiff : (∀ k < num, pickHit A num k (x ω) ∈ B k) ↔ ω ∈ ⋃ t, S B t := by
      constructor
      · intro h
        refine Set.mem_iUnion.2 ⟨t, ⟨h1, fun k hk => ?_⟩, ?_⟩
        · rw [← pickHit_eq h1 h2]
          exact h k hk
        · simp only [Set.mem_iInter, Finset.mem_range]
          exact fun u hu => h2 u hu
      · intro h k hk
        obtain ⟨u, hu⟩ := Set.mem_iUnion.1 h
        have hu2 := hu.2
        simp only [Set.mem_iInter, Finset.mem_range] at hu2
        rw [pickHit_eq hu.1.1 fun v hv => hu2 v hv]
        exact hu.1.2 k hk
    exact hiff
  rw [measure_congr hall, measure_iUnion (hdisj _) (hmeasS _ hB)]
  simp only [hSB]
  rw [ENNReal.tsum_mul_left, hone', mul_one]

theorem pickHit_law (hm : ∀ t k, Measurable (V t k)) (hi : iIndepFun (fun p : ℕ × ℕ => V p.1 p.2) P)
    (hl : ∀ t k, P.map (V t k) = μ) (hA : MeasurableSet A) (hA0 : μ A ≠ 0) (num : ℕ) :
    iIndepFun (fun (k : Fin num) ω => pickHit A num k (fun t k => V t k ω)) P ∧
      ∀ k : Fin num, P.map (fun ω => pickHit A num k (fun t k => V t k ω)) = μ[|A] := by
  have hx : Measurable fun ω t k => V t k ω := measurable_pi_lambda _ fun t => measurable_pi_lambda _ fun k => hm t k
  have hY : ∀ k : Fin num, Measurable fun ω => pickHit A num k (fun t k => V t k ω) := fun k =>
    (measurable_pickHit hA num k).comp hx
  have hν : IsProbabilityMeasure μ[|A] := cond_isProbabilityMeasure hA0
  have hjoint : P.map (fun ω (k : Fin num) => pickHit A num k (fun t k => V t k ω)) = Measure.pi fun _ : Fin num => μ[|A] := by
    symm
    refine Measure.pi_eq fun s hs => ?_
    rw [Measure.map_apply (measurable_pi_lambda _ hY) (MeasurableSet.univ_pi hs)]
    let B : ℕ → Set E := fun k => if h : k < num then s ⟨k, h⟩ else Set.univ
    have hB : ∀ k, MeasurableSet (B k) := by
      intro k
      by_cases h : k < num
      · simpa [B, h] using hs ⟨k, h⟩
      · simp [B, h]
    have h1 := pickHit_product (num := num) hm hi hl hA hA0 hB
    rw [Finset.prod_range] at h1
    have e1 : (fun ω (k : Fin num) => pickHit A num k (fun t k => V t k ω)) ⁻¹' Set.univ.pi s =
        {ω | ∀ k < num, pickHit A num k (fun t k => V t k ω) ∈ B k} := by
      ext ω
      simp only [Set.mem_preimage, Set.mem_pi, Set.mem_univ, true_imp_iff, Set.mem_ofPred_eq]
      constructor
      · intro h k hk
        simpa [B, hk] using h ⟨k, hk⟩
      · intro h k
        simpa [B, k.2] using h k k.2
    rw [e1, h1]
    refine Finset.prod_congr rfl fun k _ => ?_
    simp [B, k.2]
  have hk : ∀ k : Fin num, P.map (fun ω => pickHit A num k (fun t k => V t k ω)) = μ[|A] := by
    intro k
    have h1 := congrArg (Measure.map fun y : Fin num → E => y k) hjoint
    rw [Measure.map_map (measurable_pi_apply k) (measurable_pi_lambda _ hY)] at h1
    rw [(measurePreserving_eval (fun _ : Fin num => μ[|A]) k).map_eq] at h1
    exact h1
  refine ⟨?_, hk⟩
  rw [iIndepFun_iff_map_fun_eq_pi_map fun k => (hY k).aemeasurable, hjoint]
  simp only [hk]

end

end BET
