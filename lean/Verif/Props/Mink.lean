import Verif.Props.Kl
import Mathlib.Analysis.MeanInequalities
import Mathlib.Analysis.MeanInequalitiesPow

/-!
# C147: Minkowski distances
-/

set_option linter.unusedSectionVars false
set_option linter.unusedSimpArgs false
set_option autoImplicit false

namespace BET

open Spec MeasureTheory ProbabilityTheory Filter Topology

/-! ## Specification -/

namespace Spec

/-- The Minkowski distance of order `r` of the first `n` values. -/
noncomputable def minkDist (r : ℝ) (n : ℕ) (f g : ℕ → ℝ) : ℝ := (∑ k ∈ Finset.range n, |f k - g k| ^ r) ^ (1 / r)

/-- The call `c.distance('mink', normalize, p=r)` returns `d`. -/
def GivesMink (c : Compare ℝ) (r : ℝ) (normalize : Bool) (d : ℝ) : Prop :=
  ∃ c', c.distanceMink Real.rpow r normalize = .ok (d, c')

/-- The number that `distance('mink', normalize, p=r)` returns. -/
noncomputable def minkOf (r : ℝ) (normalize : Bool) (c : Compare ℝ) : Option ℝ :=
  (c.distanceMink Real.rpow r normalize).toOption.map Prod.fst

end Spec

/-! ## Values -/

theorem zip_getD (F : ℝ → ℝ → ℝ) : ∀ {P Q : List ℝ}, P.length = Q.length →
    (List.zipWith F P Q).sum = ∑ k ∈ Finset.range P.length, F (P.getD k 0) (Q.getD k 0)
  | [], [], _ => rfl
  | a :: P, b :: Q, h => by
    rw [List.zipWith_cons_cons, List.sum_cons, zip_getD F (Nat.succ.inj h), List.length_cons, Finset.sum_range_succ',
      add_comm]
    rfl

theorem minkowski_ok {r : ℝ} (hr : 0 < r) {P Q : List ℝ} (h : P.length = Q.length) :
    minkowski Real.rpow r P Q = .ok ((List.zipWith (fun x y => |x - y| ^ r) P Q).sum ^ (1 / r)) := by
  simp [minkowski, h, not_le.2 hr, raiseIf_false, ok_bind]

theorem mink_gives {c : Compare ℝ} {P Q : List ℝ} (hc : Compares c P Q) (hl : P.length = Q.length) {r : ℝ} (hr : 0 < r)
    {b : Bool} (h1 : b = true → P.sum ≠ 0 ∧ Q.sum ≠ 0) (h2 : b = false → P.length ≠ 0) :
    GivesMink c r b (facN b P * (List.zipWith (fun x y => |x - y| ^ r) (densN b P) (densN b Q)).sum ^ (1 / r)) := by
  have hn : normFactor b P Q = .ok ((densN b P, densN b Q), facN b P) := normFactor_eq_ok.2 ⟨h1, h2, rfl⟩
  refine ⟨{ c with pdfs1 := some (densN b P), pdfs2 := some (densN b Q) }, ?_⟩
  simp only [Compare.distanceMink, prepare_fresh hc, hn, Except.map, ok_bind, orErr_some,
    minkowski_ok hr (show (densN b P).length = (densN b Q).length by rw [length_densN, length_densN, hl])]
  rfl

theorem mink_gives_inv {c : Compare ℝ} {P Q : List ℝ} (hc : Compares c P Q) {r : ℝ} {b : Bool} {d : ℝ}
    (h : GivesMink c r b d) : P.length = Q.length ∧ 0 < r ∧ (b = true → P.sum ≠ 0 ∧ Q.sum ≠ 0) ∧
      (b = false → P.length ≠ 0) := by
  obtain ⟨c', h⟩ := h
  simp only [Compare.distanceMink, prepare_fresh hc, bind_eq_ok] at h
  obtain ⟨a, ha, x, hx, y, hy, z, hz, -⟩ := h
  cases hn : normFactor b P Q with
  | error e => rw [hn] at ha; cases ha
  | ok w =>
    rw [hn] at ha
    obtain ⟨h1, h2, rfl⟩ := normFactor_eq_ok.1 hn
    cases ha
    obtain rfl := Except.ok.inj hx
    obtain rfl := Except.ok.inj hy
    simp only [minkowski, bind_eq_ok, raiseIf_eq_ok] at hz
    obtain ⟨_, h3, _, h4, -⟩ := hz
    simp [length_densN] at h3 h4
    exact ⟨h3, h4, h1, h2⟩

/-- **C147.** `distance('mink', p=r)` is the Minkowski distance of order `r` of the two lists of densities, divided by
the number of points; with `normalize` it is the distance of the shares, without a factor. -/
theorem C147_value {c : Compare ℝ} {P Q : List ℝ} (hc : Compares c P Q) (hl : P.length = Q.length) {r : ℝ} (hr : 0 < r) :
    (P ≠ [] → GivesMink c r false (1 / P.length * minkDist r P.length (P.getD · 0) (Q.getD · 0))) ∧
    (P.sum ≠ 0 → Q.sum ≠ 0 → GivesMink c r true (minkDist r P.length (shareOf P) (shareOf Q))) := by
  constructor
  · intro h0
    have := mink_gives hc hl hr (b := false) nofun fun _ h => h0 (List.length_eq_zero_iff.1 h)
    simp only [facN, densN, Bool.false_eq_true, if_false, zip_getD _ hl] at this
    exact this
  · intro h1 h2
    have := mink_gives hc hl hr (b := true) (fun _ => ⟨h1, h2⟩) nofun
    have hl' : (densN true P).length = (densN true Q).length := by rw [length_densN, length_densN, hl]
    rw [zip_getD _ hl', length_densN] at this
    have e : ∀ (L : List ℝ) k, (densN true L).getD k 0 = shareOf L k := by
      intro L k
      simp only [densN, if_true, shareOf, List.getD_eq_getElem?_getD, List.getElem?_map]
      cases L[k]? <;> simp
    simp only [e, facN, if_true, one_mul] at this
    exact this

/-- **C147.** A call that returns has an order `r > 0`, lists of the same length and, with `normalize`, sums that are
not zero, otherwise at least one point. -/
theorem C147_defined {c : Compare ℝ} {P Q : List ℝ} (hc : Compares c P Q) {r : ℝ} {b : Bool} :
    (∃ d, GivesMink c r b d) ↔ P.length = Q.length ∧ 0 < r ∧ (b = true → P.sum ≠ 0 ∧ Q.sum ≠ 0) ∧
      (b = false → P ≠ []) := by
  constructor
  · rintro ⟨d, h⟩
    obtain ⟨h1, h2, h3, h4⟩ := mink_gives_inv hc h
    exact ⟨h1, h2, h3, fun hb h0 => h4 hb (by rw [h0]; rfl)⟩
  · rintro ⟨h1, h2, h3, h4⟩
    exact ⟨_, mink_gives hc h1 h2 h3 fun hb h => h4 hb (List.length_eq_zero_iff.1 h)⟩

/-! ## Orders one and two -/

theorem minkowski_two (p q : List ℝ) : minkowski Real.rpow 2 p q = (do
    raiseIf (p.length ≠ q.length) .valueError
    pure (Real.sqrt (sqDist p q))) := by
  have e : (fun x y : ℝ => Real.rpow |x - y| 2) = fun x y => (x - y) * (x - y) := by
    funext x y
    rw [Real.rpow_eq_pow, Real.rpow_two, sq_abs, sq]
  have h2 : raiseIf ((2 : ℝ) ≤ 0) .valueError = .ok () := raiseIf_eq_ok.2 (by norm_num)
  simp only [minkowski, e, h2, ok_bind]
  simp only [Real.rpow_eq_pow, ← Real.sqrt_eq_rpow, sqDist]

theorem minkowski_one (p q : List ℝ) : minkowski Real.rpow 1 p q = (do
    raiseIf (p.length ≠ q.length) .valueError
    pure (2 * halfAbs p q)) := by
  have e : (fun x y : ℝ => Real.rpow |x - y| 1) = fun x y => |x - y| := by
    funext x y
    rw [Real.rpow_eq_pow, Real.rpow_one]
  have h2 : raiseIf ((1 : ℝ) ≤ 0) .valueError = .ok () := raiseIf_eq_ok.2 (by norm_num)
  have e2 : 2 * halfAbs p q = (List.zipWith (fun x y => |x - y|) p q).sum := by
    rw [halfAbs]
    induction p generalizing q with
    | nil => simp
    | cons a p ih =>
      cases q with
      | nil => simp
      | cons b q =>
        simp only [List.zipWith_cons_cons, List.sum_cons, mul_add, ih]
        ring
  simp only [minkowski, e, h2, ok_bind, Real.rpow_eq_pow, e2, div_one, Real.rpow_one]

/-- **C147.** With the default order 2 the names `mink` and `norm` return the same number (or the same error) and leave
the same object, in `distance` and in `distance_marginal`. -/
theorem C147_two (c : Compare ℝ) (normalize : Bool) :
    c.distanceMink Real.rpow 2 normalize = c.distance Real.sqrt .norm normalize ∧
    ∀ i interval num factor, c.distanceMarginalMink Real.rpow 2 i interval num factor normalize =
      c.distanceMarginal Real.sqrt i interval num factor normalize .norm := by
  constructor
  · simp only [Compare.distanceMink, Compare.distance, Compare.value, applyFn, minkowski_two]
    cases c.prepare normalize with
    | error e => rfl
    | ok a =>
      simp only [ok_bind]
      cases orErr Err.typeError a.1.pdfs1 with
      | error e => rfl
      | ok p =>
        simp only [ok_bind]
        cases orErr Err.typeError a.1.pdfs2 with
        | error e => rfl
        | ok q =>
          simp only [ok_bind]
          cases raiseIf (p.length ≠ q.length) Err.valueError <;> rfl
  · intro i interval num factor
    simp only [Compare.distanceMarginalMink, Compare.distanceMarginal, applyMarginal, minkowski_two]

/-- **C147.** With order 1, `distance('mink')` is twice `distance('tv')`, and raises the same error. -/
theorem C147_one (c : Compare ℝ) (normalize : Bool) :
    c.distanceMink Real.rpow 1 normalize =
      (c.distance Real.sqrt .tv normalize).map fun z => (2 * z.1, z.2) := by
  simp only [Compare.distanceMink, Compare.distance, Compare.value, applyFn, minkowski_one]
  cases c.prepare normalize with
  | error e => rfl
  | ok a =>
    simp only [ok_bind]
    cases orErr Err.typeError a.1.pdfs1 with
    | error e => rfl
    | ok p =>
      simp only [ok_bind]
      cases orErr Err.typeError a.1.pdfs2 with
      | error e => rfl
      | ok q =>
        simp only [ok_bind]
        cases raiseIf (p.length ≠ q.length) Err.valueError with
        | error e => rfl
        | ok u =>
          show Except.ok _ = Except.ok _
          congr 2
          show a.2 * (2 * halfAbs p q) = 2 * (a.2 * halfAbs p q)
          ring

/-! ## Metric properties -/

theorem minkDist_nonneg (r : ℝ) (n : ℕ) (f g : ℕ → ℝ) : 0 ≤ minkDist r n f g :=
  Real.rpow_nonneg (Finset.sum_nonneg fun _ _ => Real.rpow_nonneg (abs_nonneg _) _) _

theorem minkDist_comm (r : ℝ) (n : ℕ) (f g : ℕ → ℝ) : minkDist r n f g = minkDist r n g f := by
  simp only [minkDist, abs_sub_comm]

theorem minkDist_triangle {r : ℝ} (hr : 1 ≤ r) (n : ℕ) (f g h : ℕ → ℝ) :
    minkDist r n f h ≤ minkDist r n f g + minkDist r n g h := by
  have := Real.Lp_add_le (Finset.range n) (fun k => f k - g k) (fun k => g k - h k) hr
  simp only [sub_add_sub_cancel] at this
  exact this

theorem minkDist_eq_zero {r : ℝ} (hr : 0 < r) (n : ℕ) (f g : ℕ → ℝ) :
    minkDist r n f g = 0 ↔ ∀ k < n, f k = g k := by
  have h0 : ∀ k ∈ Finset.range n, 0 ≤ |f k - g k| ^ r := fun _ _ => Real.rpow_nonneg (abs_nonneg _) _
  rw [minkDist, Real.rpow_eq_zero (Finset.sum_nonneg h0) (by positivity), Finset.sum_eq_zero_iff_of_nonneg h0]
  refine forall_congr' fun k => ?_
  rw [Finset.mem_range, Real.rpow_eq_zero (abs_nonneg _) hr.ne', abs_eq_zero, sub_eq_zero]

theorem minkDist_anti {r s : ℝ} (hr : 0 < r) (hrs : r ≤ s) (n : ℕ) (f g : ℕ → ℝ) :
    minkDist s n f g ≤ minkDist r n f g := by
  have hs := hr.trans_le hrs
  induction n with
  | zero => simp [minkDist, hr.ne', hs.ne']
  | succ n ih =>
    have hS : ∀ t : ℝ, 0 < t → minkDist t (n + 1) f g = (minkDist t n f g ^ t + |f n - g n| ^ t) ^ (1 / t) := by
      intro t ht
      rw [minkDist, minkDist, Finset.sum_range_succ, ← Real.rpow_mul
        (Finset.sum_nonneg fun _ _ => Real.rpow_nonneg (abs_nonneg _) _), one_div_mul_cancel ht.ne', Real.rpow_one]
    rw [hS s hs, hS r hr]
    refine (Real.rpow_add_rpow_le (minkDist_nonneg _ _ _ _) (abs_nonneg _) hr hrs).trans ?_
    refine Real.rpow_le_rpow (add_nonneg (Real.rpow_nonneg (minkDist_nonneg _ _ _ _) _)
      (Real.rpow_nonneg (abs_nonneg _) _)) ?_ (by positivity)
    exact add_le_add_left (Real.rpow_le_rpow (minkDist_nonneg _ _ _ _) ih hr.le) _

/-- What a call returns. -/
theorem mink_cases {c : Compare ℝ} {P Q : List ℝ} (hc : Compares c P Q) {r : ℝ} {b : Bool} {d : ℝ}
    (h : GivesMink c r b d) : P.length = Q.length ∧ 0 < r ∧ 0 < facN b P ∧
      d = facN b P * minkDist r P.length ((densN b P).getD · 0) ((densN b Q).getD · 0) := by
  obtain ⟨h1, h2, h3, h4⟩ := mink_gives_inv hc h
  obtain ⟨c1, h⟩ := h
  obtain ⟨c2, h'⟩ := mink_gives hc h1 h2 h3 h4
  rw [h] at h'
  have hl : (densN b P).length = (densN b Q).length := by rw [length_densN, length_densN, h1]
  refine ⟨h1, h2, ?_, ?_⟩
  · cases b with
    | true => simp [facN]
    | false =>
      have := Nat.pos_of_ne_zero (h4 rfl)
      simp only [facN, Bool.false_eq_true, if_false]
      positivity
  · rw [zip_getD _ hl, length_densN] at h'
    exact (Prod.mk.inj (Except.ok.inj h')).1

/-- **C147.** For an order of at least one, `distance('mink')` satisfies the triangle inequality for three lists of
densities at the same points, with and without `normalize`. -/
theorem C147_triangle {c₁ c₂ c₃ : Compare ℝ} {P Q R : List ℝ} (h₁ : Compares c₁ P Q) (h₂ : Compares c₂ Q R)
    (h₃ : Compares c₃ P R) {r : ℝ} (hr : 1 ≤ r) {b : Bool} {d₁ d₂ d₃ : ℝ} (g₁ : GivesMink c₁ r b d₁)
    (g₂ : GivesMink c₂ r b d₂) (g₃ : GivesMink c₃ r b d₃) : d₃ ≤ d₁ + d₂ := by
  obtain ⟨l1, -, f1, rfl⟩ := mink_cases h₁ g₁
  obtain ⟨l2, -, f2, rfl⟩ := mink_cases h₂ g₂
  obtain ⟨l3, -, f3, rfl⟩ := mink_cases h₃ g₃
  have e : facN b Q = facN b P := by rw [facN, facN, l1]
  rw [e, ← l1, ← mul_add]
  exact mul_le_mul_of_nonneg_left (minkDist_triangle hr _ _ _ _) f1.le

/-- **C147.** `distance('mink')` is not negative, is symmetric, does not grow with the order, and without `normalize` is
zero exactly when the densities agree at all points. -/
theorem C147_metric {c : Compare ℝ} {P Q : List ℝ} (h : Compares c P Q) {r : ℝ} {b : Bool} {d : ℝ}
    (g : GivesMink c r b d) :
    0 ≤ d ∧ (∀ {c' : Compare ℝ} {d' : ℝ}, Compares c' Q P → GivesMink c' r b d' → d' = d) ∧
    (∀ {s d' : ℝ}, r ≤ s → GivesMink c s b d' → d' ≤ d) ∧ (b = false → (d = 0 ↔ P = Q)) := by
  obtain ⟨l1, hr, f1, rfl⟩ := mink_cases h g
  refine ⟨mul_nonneg f1.le (minkDist_nonneg _ _ _ _), ?_, ?_, ?_⟩
  · intro c' d' h' g'
    obtain ⟨l2, -, f2, rfl⟩ := mink_cases h' g'
    rw [minkDist_comm, facN, facN, l1]
  · intro s d' hs g'
    obtain ⟨-, -, -, rfl⟩ := mink_cases h g'
    exact mul_le_mul_of_nonneg_left (minkDist_anti hr hs _ _ _) f1.le
  · rintro rfl
    rw [mul_eq_zero, or_iff_right f1.ne', minkDist_eq_zero hr]
    simp only [densN, Bool.false_eq_true, if_false]
    constructor
    · intro h
      refine List.ext_getElem l1 fun k h1 h2 => ?_
      have := h k h1
      rwa [List.getD_eq_getElem?_getD, List.getD_eq_getElem?_getD, List.getElem?_eq_getElem h1,
        List.getElem?_eq_getElem h2] at this
    · rintro rfl k _
      rfl

/-! ## Limits -/

section random
variable {Ω : Type} [MeasurableSpace Ω] {P : Measure Ω} {d : Nat} [IsProbabilityMeasure P] {μ : Measure (Fin d → ℝ)}
  {c : Compare ℝ} {p q : (Fin d → ℝ) → ℝ} {parts : Nat} {X : ℕ → ℕ → Ω → Fin d → ℝ} {C : ℕ → Ω → Compare ℝ}

theorem mink_value_chosen (hp : 0 < parts) (hc : NewCompare c p q) (hC : ChosenPoints c parts X C) {r : ℝ} (hr : 0 < r)
    {n : ℕ} (hn : 0 < n) (ω : Ω) : minkOf r false (C n ω) =
      some ((n : ℝ) ^ (1 / r - 1) * pointMean parts n (fun r k => X r k ω) (fun y => |p y - q y| ^ r) ^ (1 / r)) := by
  have hnn : (0 : ℝ) < n := by exact_mod_cast hn
  obtain ⟨c', h⟩ := mink_gives (compares_chosen hc hC n ω) (length_eq hp n _ p q) hr (b := false) nofun
    fun _ => by rw [length_densAt hp]; exact hn.ne'
  rw [minkOf, h]
  show some _ = some _
  congr 1
  simp only [facN, densN, Bool.false_eq_true, if_false, length_densAt hp]
  rw [zip_densAt, pointMean, Real.div_rpow (Finset.sum_nonneg fun _ _ => Real.rpow_nonneg (abs_nonneg _) _) hnn.le,
    Real.rpow_sub_one hnn.ne']
  have := (Real.rpow_pos_of_pos hnn (1 / r)).ne'
  field_simp

/-- **C147 (negation).** At random points `distance('mink', p=r)` with an order above one tends to zero whatever the
densities are; only for order one does it tend to a distance of the densities, the mean of `|p - q|`. -/
theorem C147_negation_limit (hp : 0 < parts) (hX : RandomSamples P μ X) (hc : NewCompare c p q)
    (hC : ChosenPoints c parts X C) {r : ℝ} (hr : 1 ≤ r) (h : Integrable (fun x => |p x - q x| ^ r) μ) :
    ∀ᵐ ω ∂P, (∀ n, 0 < n → (minkOf r false (C n ω)).isSome) ∧
      Tendsto (fun n => (minkOf r false (C n ω)).getD 0) atTop (𝓝 (if r = 1 then ∫ x, |p x - q x| ∂μ else 0)) := by
  have hr0 : 0 < r := zero_lt_one.trans_le hr
  filter_upwards [pointMean_tends hp hX h] with ω hω
  refine ⟨fun n hn => by rw [mink_value_chosen hp hc hC hr0 hn]; rfl, ?_⟩
  have key : Tendsto (fun n : ℕ => (n : ℝ) ^ (1 / r - 1) *
      pointMean parts n (fun r k => X r k ω) (fun y => |p y - q y| ^ r) ^ (1 / r)) atTop
      (𝓝 (if r = 1 then ∫ x, |p x - q x| ∂μ else 0)) := by
    split
    case isTrue h1 =>
      subst h1
      simpa using hω
    case isFalse h1 =>
      have h2 : 1 < r := lt_of_le_of_ne hr (Ne.symm h1)
      have h3 : Tendsto (fun n : ℕ => (n : ℝ) ^ (1 / r - 1)) atTop (𝓝 0) := by
        have h4 : 0 < 1 - 1 / r := by
          rw [sub_pos, div_lt_one hr0]
          exact h2
        have := (tendsto_rpow_neg_atTop h4).comp (tendsto_natCast_atTop_atTop (R := ℝ))
        simpa [Function.comp_def] using this
      simpa using h3.mul (hω.rpow_const (Or.inr (by positivity : 0 ≤ 1 / r)))
  refine key.congr' ?_
  filter_upwards [eventually_gt_atTop 0] with n hn
  rw [mink_value_chosen hp hc hC hr0 hn]
  rfl

end random

section grid
variable {c : Compare ℝ} {i : Nat} {interval : Option (ℝ × ℝ)} {factor a b : ℝ} {g h : ℝ → ℝ}

/-- **C147 (negation).** `distance_marginal` with `mink` (any order) grows without bound with the number of points
whenever the marginals differ. -/
theorem C147_negation_marginal (hab : a < b) (hi : UsesInterval c i interval factor a b) (hm : HasMarginals c i g h)
    (hg : RiemannOn g a b) (hh : RiemannOn h a b) {r : ℝ} (hr : 0 < r) (hne : 0 < ∫ x in a..b, |g x - h x| ^ r) :
    (∀ num, 1 < num → (c.distanceMarginalMink Real.rpow r i interval num factor false).toOption.isSome) ∧
    Tendsto (fun num => (c.distanceMarginalMink Real.rpow r i interval num factor false).toOption.getD 0) atTop
      atTop := by
  have hd := sub_pos.2 hab
  have e : ∀ n : ℕ, 1 < n → c.distanceMarginalMink Real.rpow r i interval n factor false =
      .ok ((n / (b - a) * gridMean a b n fun y => |g y - h y| ^ r) ^ (1 / r)) := by
    intro n hn
    have hl : ((linspace a b n).map g).length = n := by rw [List.length_map, length_linspace]
    have hne : ¬ n = 0 := by omega
    have hf : marginalFactor false (linspace a b n) ((linspace a b n).map g) ((linspace a b n).map h) =
        .ok (((linspace a b n).map g, (linspace a b n).map h), (b - a) / n) := by
      simp only [marginalFactor, Bool.false_eq_true, if_false, hl, linspace_width hn]
      simp [hne, raiseIf_false, ok_bind]
      rw [div_eq_inv_mul]
    simp only [Compare.distanceMarginalMink, points_used hi, ok_bind, hm.1, hm.2, hf, minkowski_ok hr (len_eq a b n g h)]
    rw [zip_linspace, sum_gridMean hab (by omega) fun y => |g y - h y| ^ r]
  refine ⟨fun n hn => by rw [e n hn]; rfl, ?_⟩
  have lim : Tendsto (fun n : ℕ => (n / (b - a) * gridMean a b n fun y => |g y - h y| ^ r) ^ (1 / r)) atTop atTop := by
    refine (tendsto_rpow_atTop (by positivity : 0 < 1 / r)).comp ?_
    exact ((tendsto_natCast_atTop_atTop).atTop_div_const hd).atTop_mul_pos hne
      (gridMean_tends hab (RiemannOn.comp₂ hg hh (F := fun z => |z.1 - z.2| ^ r)
        (Continuous.rpow_const (by fun_prop) fun _ => Or.inr hr.le)))
  refine lim.congr' ?_
  filter_upwards [eventually_gt_atTop 1] with n hn
  rw [e n hn]
  rfl

end grid

/-! ## Examples -/

/-- **C147 (negation).** For orders below one the triangle inequality fails. -/
theorem C147_negation_triangle : ∃ (c₁ c₂ c₃ : Compare ℝ) (P Q R : List ℝ) (d₁ d₂ d₃ : ℝ), Compares c₁ P Q ∧
    Compares c₂ Q R ∧ Compares c₃ P R ∧ GivesMink c₁ (1 / 2) false d₁ ∧ GivesMink c₂ (1 / 2) false d₂ ∧
    GivesMink c₃ (1 / 2) false d₃ ∧ d₁ + d₂ < d₃ := by
  have hr : (0 : ℝ) < 1 / 2 := by norm_num
  have v : ∀ P Q : List ℝ, P.length = Q.length → P ≠ [] → GivesMink (Ex.cmp P Q [[0], [1]]) (1 / 2) false
      (1 / P.length * minkDist (1 / 2) P.length (P.getD · 0) (Q.getD · 0)) :=
    fun P Q hl h => (C147_value (Ex.cmp_ok P Q _) hl hr).1 h
  refine ⟨Ex.cmp [1, 0] [0, 0] [[0], [1]], Ex.cmp [0, 0] [0, 1] [[0], [1]], Ex.cmp [1, 0] [0, 1] [[0], [1]], [1, 0], [0, 0],
    [0, 1], 1 / 2, 1 / 2, 2, Ex.cmp_ok _ _ _, Ex.cmp_ok _ _ _, Ex.cmp_ok _ _ _, ?_, ?_, ?_, by norm_num⟩
  · have e := v [1, 0] [0, 0] rfl (by simp)
    simp [minkDist, Finset.sum_range_succ] at e
    simpa using e
  · have e := v [0, 0] [0, 1] rfl (by simp)
    simp [minkDist, Finset.sum_range_succ] at e
    simpa using e
  · have e := v [1, 0] [0, 1] rfl (by simp)
    have e2 : (1 + 1 : ℝ) ^ (2 : ℝ) = 4 := by
      rw [Real.rpow_two]
      norm_num
    simp [minkDist, Finset.sum_range_succ, e2] at e
    norm_num at e ⊢
    exact e

namespace Ex

/-- Order 2: the distance of `[1, 3]` and `[4, 7]` is `5 / 2`. -/
example : GivesMink (cmp [1, 3] [4, 7] [[0], [1]]) 2 false (5 / 2) := by
  have := (C147_value (cmp_ok [1, 3] [4, 7] [[0], [1]]) rfl (r := 2) two_pos).1 (by simp)
  have e : minkDist 2 ([1, 3] : List ℝ).length (([1, 3] : List ℝ).getD · 0) (([4, 7] : List ℝ).getD · 0) = 5 := by
    rw [minkDist, ← Real.sqrt_eq_rpow]
    norm_num [Finset.sum_range_succ]
    rw [show (25 : ℝ) = 5 ^ 2 by norm_num, Real.sqrt_sq (by norm_num)]
  rw [e] at this
  norm_num at this
  exact this

example : ∃ d, GivesMink (cmp [1, 3] [4, 7] [[0], [1]]) 3 true d :=
  (C147_defined (cmp_ok _ _ _)).2 ⟨rfl, by norm_num, fun _ => ⟨by norm_num, by norm_num⟩, nofun⟩

/-- Marginals `1` and `2`. -/
example : Tendsto (fun num => ((cmpMarginals (fun _ => 1) fun _ => 2).distanceMarginalMink Real.rpow 3 0 none num 0
    false).toOption.getD 0) atTop atTop :=
  (C147_negation_marginal zero_lt_one (cmpMarginals_uses _ _) (cmpMarginals_has _ _ 0)
    (RiemannOn.of_continuous continuous_const) (RiemannOn.of_continuous continuous_const) three_pos (by norm_num)).2

/-- Random points, for the densities `1` and `1 + x²`. -/
example : ∃ (Ω : Type) (_ : MeasurableSpace Ω) (P : Measure Ω) (C : ℕ → Ω → Compare ℝ), IsProbabilityMeasure P ∧
    ∀ᵐ ω ∂P, Tendsto (fun n => (minkOf 2 false (C n ω)).getD 0) atTop (𝓝 0) := by
  have hpr : IsProbabilityMeasure (uniformLaw ((0 : ℝ), 1)) := by
    constructor
    simp [uniformLaw]
  obtain ⟨Ω, i, P, Z, hP, hZ, -⟩ := randomNumbers fun (_ : ℕ) (_ : Fin 1) => uniformLaw ((0 : ℝ), 1)
  have hX := RandomNumbers.points (hZ 0)
  have hμ : Measure.pi (fun _ : Fin 1 => uniformLaw ((0 : ℝ), 1)) =
      volume.restrict (Set.univ.pi fun _ : Fin 1 => Set.Ico (0 : ℝ) 1) := by
    rw [volume_pi, Measure.restrict_pi_pi]
    congr 1
    funext _
    simp [uniformLaw]
  have hb := curve_bound
  rw [← hμ] at hb
  have st : Stats ℝ := ⟨fun _ _ _ _ => .ok [], fun _ => .ok (0, 1)⟩
  obtain ⟨C, h1, hC⟩ := C144_array (c := cmpCurve) (X := fun r k ω i => Z r 0 i k ω) rfl st 1 2 0
  have h3 : Integrable (fun x : Fin 1 → ℝ => |1 - (1 + x 0 ^ 2)| ^ (2 : ℝ))
      (Measure.pi fun _ : Fin 1 => uniformLaw ((0 : ℝ), 1)) := by
    refine Integrable.of_bound (Measurable.aestronglyMeasurable ?_) 1 ?_
    · exact ((measurable_const.sub curve_measurable).abs).pow_const _
    · filter_upwards [hb] with x hx
      have hn : (0 : ℝ) < 1 + x 0 ^ 2 := by positivity
      rw [Real.norm_eq_abs, abs_of_pos hn] at hx
      have h4 := sq_nonneg (x 0)
      rw [Real.rpow_two, sq_abs, Real.norm_eq_abs, abs_of_nonneg (sq_nonneg _)]
      nlinarith
  refine ⟨Ω, i, P, C, hP, ?_⟩
  filter_upwards [C147_negation_limit two_pos hX cmpCurve_new hC one_le_two h3] with ω hω
  simpa using hω.2

end Ex

end BET
