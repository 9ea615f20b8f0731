import Verif.Props.Gradients
import Verif.Props.SolutionLimit
import Mathlib.Analysis.Calculus.MeanValue
import Mathlib.Analysis.Calculus.Deriv.Slope
import Mathlib.Analysis.Calculus.Deriv.Pow

/-!
# C141: finite difference gradients converge
-/

set_option linter.unusedSectionVars false
set_option linter.unusedSimpArgs false
set_option autoImplicit false

namespace BET

open Spec Filter Topology

variable {d e : Nat}

/-! ## Specification -/

namespace Spec

/-- The model on rows of numbers. -/
def onRow (Q : (Fin d → ℝ) → Fin e → ℝ) (row : List ℝ) : List ℝ := List.ofFn (Q fun i => row.getD i 0)

/-- The gradient of output `o` at centre `k` in what a gradient method returns. -/
def gradientVector (r : Except Err (Disc ℝ)) (k o : Nat) : Option (List ℝ) :=
  r.toOption.bind fun D => D.input.bind fun s => s.glob.jacobians.bind fun J => (J[k]?).bind fun M => M[o]?

/-- Its entry for direction `i`. -/
def gradientEntry (r : Except Err (Disc ℝ)) (k o i : Nat) : Option ℝ := (gradientVector r k o).bind fun v => v[i]?

/-- `D` holds the points that a method picked, and the outputs of the model there. -/
structure Evaluated (picked : Except Err (SampleSet ℝ)) (Q : (Fin d → ℝ) → Fin e → ℝ) (D : Disc ℝ) : Prop where
  run : ∃ p pts out, picked = .ok p ∧ p.glob.values = some pts ∧ D.input = some p ∧ D.output = some out ∧
    out.glob.values = some (pts.map (onRow Q)) ∧ Consistent out pts.length ∧ out.dim = e ∧
    ∀ B, out.domain = some B → B.length = e

/-- The centres `z`. -/
structure CentersAt (s : SampleSet ℝ) (z : List (Fin d → ℝ)) : Prop where
  centers : Centers s (z.map List.ofFn)
  dim : s.dim = d

/-- `g` is the partial derivative of output `o` in direction `i` at `x`. -/
def Partial (Q : (Fin d → ℝ) → Fin e → ℝ) (x : Fin d → ℝ) (o : Fin e) (i : Fin d) (g : ℝ) : Prop :=
  HasDerivAt (fun t => Q (Function.update x i t) o) g (x i)

end Spec

/-! ## The quotients -/

theorem shift_ofFn (x : Fin d → ℝ) (i : Fin d) (r : ℝ) :
    shift (List.ofFn x) i r = List.ofFn (Function.update x i (x i + r)) := by
  unfold shift
  refine List.ext_getElem (by simp) fun j hj hj' => ?_
  have hjd : j < d := by simpa using hj'
  rw [List.getElem_modify, List.getElem_ofFn, List.getElem_ofFn]
  by_cases hij : (i : ℕ) = j
  · have : i = ⟨j, hjd⟩ := Fin.ext hij
    subst this
    simp
  · rw [if_neg hij, Function.update_of_ne fun h => hij (by rw [← h])]

theorem onRow_ofFn (Q : (Fin d → ℝ) → Fin e → ℝ) (x : Fin d → ℝ) (o : Fin e) :
    comp (onRow Q (List.ofFn x)) o = Q x o := by
  unfold onRow comp
  rw [getD_ofFn]
  exact congrFun (getD_ofFn (Q x)) o

theorem getD_ofFn_radii (r : Fin d → ℝ) (i : Fin d) : (List.ofFn r).getD i 0 = r i := congrFun (getD_ofFn r) i

theorem table_vector {z : List (Fin d → ℝ)} {q : List ℝ → Nat → Nat → ℝ} {J : List (List (List ℝ))}
    (h : IsTable e d (z.map List.ofFn) q J) {k : Nat} {x : Fin d → ℝ} (hx : z[k]? = some x) (o : Fin e) :
    ((J[k]?).bind fun M => M[(o : ℕ)]?) = some (List.ofFn fun i : Fin d => q (List.ofFn x) o i) := by
  rw [h, List.getElem?_map, List.getElem?_map, hx]
  simp only [Option.map_some, Option.bind_some, List.getElem?_map, List.getElem?_range o.2]
  refine congrArg some (List.ext_getElem (by simp) fun i hi hi' => ?_)
  simp

theorem entry_of_vector {r : Except Err (Disc ℝ)} {k o : Nat} {a : Fin d → ℝ} (h : gradientVector r k o = some (List.ofFn a))
    (i : Fin d) : gradientEntry r k o i = some (a i) := by
  unfold gradientEntry
  rw [h]
  simp

theorem centers_ne {z : List (Fin d → ℝ)} {k : Nat} {x : Fin d → ℝ} (hx : z[k]? = some x) : z.map List.ofFn ≠ [] := by
  intro h
  rw [List.map_eq_nil_iff] at h
  rw [h] at hx
  simp at hx

theorem ffd_vector {s : SampleSet ℝ} {z : List (Fin d → ℝ)} (hs : CentersAt s z) {r : Fin d → ℝ} (hr : ∀ i, r i ≠ 0)
    {Q : (Fin d → ℝ) → Fin e → ℝ} {D : Disc ℝ} (hD : Evaluated (pickFfd s (List.ofFn r)) Q D) (size : Nat) {k : Nat}
    {x : Fin d → ℝ} (hx : z[k]? = some x) (o : Fin e) :
    gradientVector (gradientsFfd size D false) k o =
      some (List.ofFn fun i => (Q (Function.update x i (x i + r i)) o - Q x o) / r i) := by
  obtain ⟨p, pts, out, h1, h2, h3, h4, h5, h6, h7, h8⟩ := hD.run
  obtain ⟨hc, rfl⟩ := hs
  subst h7
  obtain ⟨J, hJ, hT⟩ := C50_quotients hc (centers_ne hx) (radii := List.ofFn r) (by simp)
    (by intro a ha; obtain ⟨i, rfl⟩ := (List.mem_ofFn' r a).1 ha; exact hr i) (Q := onRow Q)
    (fun _ _ => List.length_ofFn) h8 h1 h2 h5 h6 h3 h4 size
  unfold gradientVector
  rw [hJ]
  refine (table_vector hT hx o).trans (congrArg some (congrArg List.ofFn (funext fun i => ?_)))
  rw [getD_ofFn_radii, shift_ofFn, onRow_ofFn, onRow_ofFn]

theorem cfd_vector {s : SampleSet ℝ} {z : List (Fin d → ℝ)} (hs : CentersAt s z) {r : Fin d → ℝ} (hr : ∀ i, r i ≠ 0)
    {Q : (Fin d → ℝ) → Fin e → ℝ} {D : Disc ℝ} (hD : Evaluated (pickCfd s (List.ofFn r)) Q D) (size : Nat) {k : Nat}
    {x : Fin d → ℝ} (hx : z[k]? = some x) (hd : 0 < d) (o : Fin e) :
    gradientVector (gradientsCfd size D false) k o = some (List.ofFn fun i =>
      (Q (Function.update x i (x i + r i)) o - Q (Function.update x i (x i + -r i)) o) / (2 * r i)) := by
  obtain ⟨p, pts, out, h1, h2, h3, h4, h5, h6, h7, h8⟩ := hD.run
  obtain ⟨hc, rfl⟩ := hs
  subst h7
  obtain ⟨J, hJ, hT⟩ := C51_quotients_partial hc (centers_ne hx) (radii := List.ofFn r) (by simp)
    (by intro a ha; obtain ⟨i, rfl⟩ := (List.mem_ofFn' r a).1 ha; exact hr i) hd (Q := onRow Q)
    (fun _ _ => List.length_ofFn) h8 h1 h2 h5 h6 h3 h4 size
  unfold gradientVector
  rw [hJ]
  refine (table_vector hT hx o).trans (congrArg some (congrArg List.ofFn (funext fun i => ?_)))
  rw [getD_ofFn_radii, shift_ofFn, shift_ofFn, onRow_ofFn, onRow_ofFn]

/-! ## Limits -/

theorem forward_tendsto {f : ℝ → ℝ} {g a : ℝ} (hf : HasDerivAt f g a) {r : ℕ → ℝ} (hr : ∀ n, r n ≠ 0)
    (hr0 : Tendsto r atTop (𝓝 0)) : Tendsto (fun n => (f (a + r n) - f a) / r n) atTop (𝓝 g) := by
  have h := (hasDerivAt_iff_tendsto_slope_zero.1 hf).comp
    (tendsto_nhdsWithin_iff.2 ⟨hr0, Eventually.of_forall fun n => hr n⟩)
  refine h.congr fun n => ?_
  simp only [Function.comp_apply, smul_eq_mul]
  rw [div_eq_inv_mul]

theorem centred_tendsto {f : ℝ → ℝ} {g a : ℝ} (hf : HasDerivAt f g a) {r : ℕ → ℝ} (hr : ∀ n, r n ≠ 0)
    (hr0 : Tendsto r atTop (𝓝 0)) : Tendsto (fun n => (f (a + r n) - f (a + -r n)) / (2 * r n)) atTop (𝓝 g) := by
  have h1 := forward_tendsto hf hr hr0
  have h2 := forward_tendsto hf (r := fun n => -r n) (fun n => neg_ne_zero.2 (hr n)) (by simpa using hr0.neg)
  have h := (h1.add h2).div_const 2
  rw [add_self_div_two] at h
  refine h.congr fun n => ?_
  have := hr n
  field_simp
  ring

/-- **C141.** Forward differences converge: as the radii tend to zero, the gradients that `calculate_gradients_ffd` finds on
the points of `pick_ffd_points` tend to the partial derivatives of the model, for every centre, output and direction. -/
theorem C141_ffd {s : SampleSet ℝ} {z : List (Fin d → ℝ)} (hs : CentersAt s z) {r : ℕ → Fin d → ℝ} (hr : ∀ n i, r n i ≠ 0)
    (hr0 : ∀ i, Tendsto (fun n => r n i) atTop (𝓝 0)) {Q : (Fin d → ℝ) → Fin e → ℝ} {D : ℕ → Disc ℝ}
    (hD : ∀ n, Evaluated (pickFfd s (List.ofFn (r n))) Q (D n)) (size : Nat) {k : Nat} {x : Fin d → ℝ}
    (hx : z[k]? = some x) {o : Fin e} {i : Fin d} {g : ℝ} (hg : Partial Q x o i g) :
    (∀ n, (gradientEntry (gradientsFfd size (D n) false) k o i).isSome) ∧
    Tendsto (fun n => (gradientEntry (gradientsFfd size (D n) false) k o i).getD 0) atTop (𝓝 g) := by
  have h := fun n => entry_of_vector (ffd_vector hs (hr n) (hD n) size hx o) i
  refine ⟨fun n => by rw [h n]; rfl, ?_⟩
  simp only [h, Option.getD_some]
  have := forward_tendsto hg (r := fun n => r n i) (fun n => hr n i) (hr0 i)
  simpa only [Function.update_eq_self] using this

/-- **C141.** Centred differences converge in the same way. -/
theorem C141_cfd {s : SampleSet ℝ} {z : List (Fin d → ℝ)} (hs : CentersAt s z) {r : ℕ → Fin d → ℝ} (hr : ∀ n i, r n i ≠ 0)
    (hr0 : ∀ i, Tendsto (fun n => r n i) atTop (𝓝 0)) {Q : (Fin d → ℝ) → Fin e → ℝ} {D : ℕ → Disc ℝ}
    (hD : ∀ n, Evaluated (pickCfd s (List.ofFn (r n))) Q (D n)) (size : Nat) {k : Nat} {x : Fin d → ℝ}
    (hx : z[k]? = some x) {o : Fin e} {i : Fin d} {g : ℝ} (hg : Partial Q x o i g) :
    (∀ n, (gradientEntry (gradientsCfd size (D n) false) k o i).isSome) ∧
    Tendsto (fun n => (gradientEntry (gradientsCfd size (D n) false) k o i).getD 0) atTop (𝓝 g) := by
  have h := fun n => entry_of_vector (cfd_vector hs (hr n) (hD n) size hx (Fin.pos i) o) i
  refine ⟨fun n => by rw [h n]; rfl, ?_⟩
  simp only [h, Option.getD_some]
  exact centred_tendsto hg (r := fun n => r n i) (fun n => hr n i) (hr0 i)

/-! ## Errors -/

/-- A function that starts at zero and whose derivative is at most `c t ^ k`. -/
theorem grow {f f' : ℝ → ℝ} {c r : ℝ} {k : ℕ} (hr : 0 ≤ r) (h0 : f 0 = 0) (hf : ∀ t ∈ Set.Icc 0 r, HasDerivAt f (f' t) t)
    (hb : ∀ t ∈ Set.Icc 0 r, |f' t| ≤ c * t ^ k) : |f r| ≤ c * r ^ (k + 1) / (k + 1) := by
  have hB : ∀ t : ℝ, HasDerivAt (fun t : ℝ => c * t ^ (k + 1) / (k + 1)) (c * t ^ k) t := by
    intro t
    have := ((hasDerivAt_pow (k + 1) t).const_mul c).div_const ((k : ℝ) + 1)
    have hk : ((k : ℝ) + 1) ≠ 0 := by positivity
    have heq : c * (((k + 1 : ℕ) : ℝ) * t ^ (k + 1 - 1)) / ((k : ℝ) + 1) = c * t ^ k := by
      push_cast
      field_simp
    rwa [heq] at this
  have := image_norm_le_of_norm_deriv_right_le_deriv_boundary (f := f) (f' := f') (a := 0) (b := r)
    (fun t ht => (hf t ht).continuousAt.continuousWithinAt)
    (fun t ht => (hf t ⟨ht.1, ht.2.le⟩).hasDerivWithinAt) (by simp [h0]) hB
    (fun t ht => hb t ⟨ht.1, ht.2.le⟩) (x := r) ⟨hr, le_rfl⟩
  exact this


theorem forward_error {f f' : ℝ → ℝ} {a L r : ℝ} (hf : ∀ t, |t - a| ≤ |r| → HasDerivAt f (f' t) t)
    (hL : ∀ t, |t - a| ≤ |r| → |f' t - f' a| ≤ L * |t - a|) (hr : r ≠ 0) :
    |(f (a + r) - f a) / r - f' a| ≤ L * |r| / 2 := by
  have key : ∀ σ : ℝ, |σ| = 1 → r = σ * |r| → |f (a + r) - f a - f' a * r| ≤ L * |r| ^ 2 / 2 := by
    intro σ hσ hrσ
    have hta : ∀ t ∈ Set.Icc 0 |r|, |a + σ * t - a| = t := fun t ht => by
      rw [add_sub_cancel_left, abs_mul, hσ, one_mul, abs_of_nonneg ht.1]
    have := grow (f := fun t => f (a + σ * t) - f a - f' a * (σ * t)) (f' := fun t => f' (a + σ * t) * σ - f' a * σ)
      (c := L) (k := 1) (abs_nonneg r) (by simp) (fun t ht => ?_) (fun t ht => ?_)
    · rw [← hrσ] at this
      refine this.trans (le_of_eq ?_)
      push_cast
      ring
    · have h1 : HasDerivAt (fun t : ℝ => a + σ * t) σ t := by
        simpa using ((hasDerivAt_id t).const_mul σ).const_add a
      have h2 := (hf (a + σ * t) (by rw [hta t ht]; exact ht.2)).comp t h1
      have h3 : HasDerivAt (fun t : ℝ => f' a * (σ * t)) (f' a * σ) t := by
        simpa using ((hasDerivAt_id t).const_mul σ).const_mul (f' a)
      exact (h2.sub_const (f a)).sub h3
    · rw [← sub_mul, abs_mul, hσ, mul_one, pow_one]
      have := hL (a + σ * t) (by rw [hta t ht]; exact ht.2)
      rwa [hta t ht] at this
  have hkey : |f (a + r) - f a - f' a * r| ≤ L * |r| ^ 2 / 2 := by
    rcases lt_or_gt_of_ne hr with h | h
    · exact key (-1) (by simp) (by rw [abs_of_neg h]; ring)
    · exact key 1 (by simp) (by rw [abs_of_pos h]; ring)
  have h1 : (f (a + r) - f a) / r - f' a = (f (a + r) - f a - f' a * r) / r := by field_simp
  rw [h1, abs_div, div_le_iff₀ (abs_pos.2 hr)]
  calc _ ≤ _ := hkey
    _ = _ := by ring

theorem centred_error {f f' f'' : ℝ → ℝ} {a M r : ℝ} (hf : ∀ t, |t - a| ≤ |r| → HasDerivAt f (f' t) t)
    (hf' : ∀ t, |t - a| ≤ |r| → HasDerivAt f' (f'' t) t)
    (hM : ∀ t u, |t - a| ≤ |r| → |u - a| ≤ |r| → |f'' t - f'' u| ≤ M * |t - u|) (hr : r ≠ 0) :
    |(f (a + r) - f (a + -r)) / (2 * r) - f' a| ≤ M * |r| ^ 2 / 6 := by
  have hpos := abs_pos.2 hr
  have hin : ∀ t ∈ Set.Icc 0 |r|, |a + t - a| ≤ |r| ∧ |a + -t - a| ≤ |r| := fun t ht => by
    rw [add_sub_cancel_left, add_sub_cancel_left, abs_neg, abs_of_nonneg ht.1]
    exact ⟨ht.2, ht.2⟩
  have hp : ∀ t : ℝ, HasDerivAt (fun t : ℝ => a + t) 1 t := fun t => (hasDerivAt_id t).const_add a
  have hm : ∀ t : ℝ, HasDerivAt (fun t : ℝ => a + -t) (-1) t := fun t => by
    simpa using ((hasDerivAt_id t).neg).const_add a
  have h2 : ∀ q ∈ Set.Icc 0 |r|, |f' (a + q) + f' (a + -q) - 2 * f' a| ≤ M * q ^ 2 := by
    intro q hq
    have hsub : ∀ t ∈ Set.Icc 0 q, t ∈ Set.Icc 0 |r| := fun t ht => ⟨ht.1, ht.2.trans hq.2⟩
    have := grow (f := fun t => f' (a + t) + f' (a + -t) - 2 * f' a) (f' := fun t => f'' (a + t) * 1 + f'' (a + -t) * -1)
      (c := 2 * M) (k := 1) hq.1 (by simp; ring) (fun t ht => ?_) (fun t ht => ?_)
    · refine this.trans (le_of_eq ?_)
      push_cast
      ring
    · exact (((hf' _ (hin t (hsub t ht)).1).comp t (hp t)).add ((hf' _ (hin t (hsub t ht)).2).comp t (hm t))).sub_const _
    · have := hM _ _ (hin t (hsub t ht)).1 (hin t (hsub t ht)).2
      have h3 : |a + t - (a + -t)| = 2 * t := by
        rw [show a + t - (a + -t) = 2 * t by ring, abs_of_nonneg (by linarith [ht.1])]
      rw [h3] at this
      rw [show f'' (a + t) * 1 + f'' (a + -t) * -1 = f'' (a + t) - f'' (a + -t) by ring]
      refine this.trans (le_of_eq ?_)
      ring
  have h3 := grow (f := fun t => f (a + t) - f (a + -t) - 2 * f' a * t)
    (f' := fun t => f' (a + t) * 1 - f' (a + -t) * -1 - 2 * f' a) (c := M) (k := 2) (abs_nonneg r) (by simp)
    (fun t ht => ?_) (fun t ht => ?_)
  · have h4 : |f (a + r) - f (a + -r) - 2 * f' a * r| = |f (a + |r|) - f (a + -|r|) - 2 * f' a * (|r|)| := by
      rcases lt_or_gt_of_ne hr with h | h
      · rw [abs_of_neg h, ← abs_neg, neg_neg]
        congr 1
        ring
      · rw [abs_of_pos h]
    have h5 : (f (a + r) - f (a + -r)) / (2 * r) - f' a = (f (a + r) - f (a + -r) - 2 * f' a * r) / (2 * r) := by
      field_simp
    rw [h5, abs_div, abs_mul, abs_two, div_le_iff₀ (by positivity), h4]
    refine h3.trans (le_of_eq ?_)
    push_cast
    ring
  · have h6 : HasDerivAt (fun t : ℝ => 2 * f' a * t) (2 * f' a) t := by
      simpa using (hasDerivAt_id t).const_mul (2 * f' a)
    exact (((hf _ (hin t ht).1).comp t (hp t)).sub ((hf _ (hin t ht).2).comp t (hm t))).sub h6
  · rw [show f' (a + t) * 1 - f' (a + -t) * -1 - 2 * f' a = f' (a + t) + f' (a + -t) - 2 * f' a by ring]
    exact h2 t ht

/-- **C141.** The error of forward differences is at most half the radius times a Lipschitz constant of the derivative
along the direction. -/
theorem C141_ffd_error {s : SampleSet ℝ} {z : List (Fin d → ℝ)} (hs : CentersAt s z) {r : Fin d → ℝ} (hr : ∀ i, r i ≠ 0)
    {Q : (Fin d → ℝ) → Fin e → ℝ} {D : Disc ℝ} (hD : Evaluated (pickFfd s (List.ofFn r)) Q D) (size : Nat) {k : Nat}
    {x : Fin d → ℝ} (hx : z[k]? = some x) {o : Fin e} {i : Fin d} {g : ℝ → ℝ} {L : ℝ}
    (hg : ∀ t, |t - x i| ≤ |r i| → Partial Q (Function.update x i t) o i (g t))
    (hL : ∀ t, |t - x i| ≤ |r i| → |g t - g (x i)| ≤ L * |t - x i|) :
    ∃ v, gradientEntry (gradientsFfd size D false) k o i = some v ∧ |v - g (x i)| ≤ L * |r i| / 2 := by
  refine ⟨_, entry_of_vector (ffd_vector hs hr hD size hx o) i, ?_⟩
  have := forward_error (f := fun t => Q (Function.update x i t) o) (f' := g) (a := x i)
    (fun t ht => by simpa [Partial] using hg t ht) hL (hr i)
  simpa only [Function.update_eq_self] using this

/-- **C141.** The error of centred differences is at most a sixth of the square of the radius times a Lipschitz constant of
the second derivative along the direction. -/
theorem C141_cfd_error {s : SampleSet ℝ} {z : List (Fin d → ℝ)} (hs : CentersAt s z) {r : Fin d → ℝ} (hr : ∀ i, r i ≠ 0)
    {Q : (Fin d → ℝ) → Fin e → ℝ} {D : Disc ℝ} (hD : Evaluated (pickCfd s (List.ofFn r)) Q D) (size : Nat) {k : Nat}
    {x : Fin d → ℝ} (hx : z[k]? = some x) {o : Fin e} {i : Fin d} {g g' : ℝ → ℝ} {M : ℝ}
    (hg : ∀ t, |t - x i| ≤ |r i| → Partial Q (Function.update x i t) o i (g t))
    (hg' : ∀ t, |t - x i| ≤ |r i| → HasDerivAt g (g' t) t)
    (hM : ∀ t u, |t - x i| ≤ |r i| → |u - x i| ≤ |r i| → |g' t - g' u| ≤ M * |t - u|) :
    ∃ v, gradientEntry (gradientsCfd size D false) k o i = some v ∧ |v - g (x i)| ≤ M * |r i| ^ 2 / 6 := by
  refine ⟨_, entry_of_vector (cfd_vector hs hr hD size hx (Fin.pos i) o) i, ?_⟩
  exact centred_error (f := fun t => Q (Function.update x i t) o) (f' := g) (a := x i)
    (fun t ht => by simpa [Partial] using hg t ht) hg' hM (hr i)

/-! ## Normalised gradients -/

theorem unit_entry {raw unit : Except Err (Disc ℝ)} (h : UnitResult raw unit) {k o : Nat} {a : Fin d → ℝ}
    (hv : gradientVector raw k o = some (List.ofFn a)) (ha : ∑ j, |a j| ≠ 0) (i : Fin d) :
    gradientEntry unit k o i = some (a i / ∑ j, |a j|) := by
  rcases h with ⟨err, rfl, -⟩ | ⟨dimI, dimO, Di, Do, cs, J0, J, ys, rfl, rfl, hT⟩
  · simp [gradientVector, Except.toOption] at hv
  · have hv : ((J0[k]?).bind fun M => M[o]?) = some (List.ofFn a) := hv
    rw [Option.bind_eq_some_iff] at hv
    obtain ⟨M0, hM0, hv⟩ := hv
    obtain ⟨M, hM, hMM⟩ := forall₂_getElem? hT hM0
    obtain ⟨u, hu, huu⟩ := forall₂_getElem? hMM hv
    obtain ⟨c, hc, hcu⟩ := huu.direction
    have hone : oneNorm (List.ofFn a) = ∑ j, |a j| := by
      unfold oneNorm
      rw [List.map_ofFn, List.sum_ofFn]
      rfl
    have hu1 : oneNorm u = 1 := by
      rcases huu.norm with h1 | h1
      · exact h1
      · exact absurd ((oneNorm_eq_zero _).2 (huu.unit.1 h1)) (by rw [hone]; exact ha)
    have hcs : c = ∑ j, |a j| := by
      rw [← hone, ← hcu]
      have := oneNorm_div (u.map (c * ·)) hc
      rw [List.map_map] at this
      have h2 : (u.map ((fun x => x / c) ∘ fun x => c * x)) = u := by
        conv_rhs => rw [← List.map_id u]
        refine List.map_congr_left fun y _ => ?_
        simp only [Function.comp, id]
        field_simp
      rw [h2, hu1, eq_div_iff hc.ne', one_mul] at this
      exact this
    have hlen : u.length = d := by
      have := congrArg List.length hcu
      simpa using this
    unfold gradientEntry
    have hvec : gradientVector (.ok (centersDisc dimI dimO Di Do cs J ys)) k o = some u := by
      show ((J[k]?).bind fun M => M[o]?) = some u
      rw [hM]
      exact hu
    rw [hvec, Option.bind_some, List.getElem?_eq_getElem (by rw [hlen]; exact i.2)]
    have h3 : c * u[(i : ℕ)]'(by rw [hlen]; exact i.2) = a i := by
      have := congrArg (fun l => l[(i : ℕ)]?) hcu
      simp only [List.getElem?_map, List.getElem?_eq_getElem (l := u) (show (i : ℕ) < u.length by rw [hlen]; exact i.2),
        Option.map_some] at this
      simpa using this
    rw [← hcs, ← h3, mul_div_cancel_left₀ _ hc.ne']

theorem unit_tendsto {R U : ℕ → Except Err (Disc ℝ)} (h : ∀ n, UnitResult (R n) (U n)) {k o : Nat} {a : ℕ → Fin d → ℝ}
    (hv : ∀ n, gradientVector (R n) k o = some (List.ofFn (a n))) {g : Fin d → ℝ}
    (hg : ∀ j, Tendsto (fun n => a n j) atTop (𝓝 (g j))) (hne : g ≠ 0) (i : Fin d) :
    Tendsto (fun n => (gradientEntry (U n) k o i).getD 0) atTop (𝓝 (g i / ∑ j, |g j|)) := by
  have hpos : 0 < ∑ j, |g j| := by
    obtain ⟨j, hj⟩ := Function.ne_iff.1 hne
    exact Finset.sum_pos' (fun j _ => abs_nonneg _) ⟨j, Finset.mem_univ j, abs_pos.2 hj⟩
  have hsum : Tendsto (fun n => ∑ j, |a n j|) atTop (𝓝 (∑ j, |g j|)) := tendsto_finsetSum _ fun j _ => (hg j).abs
  have hev : ∀ᶠ n in atTop, ∑ j, |a n j| ≠ 0 := by
    filter_upwards [(tendsto_order.1 hsum).1 0 hpos] with n hn using hn.ne'
  refine ((hg i).div hsum hpos.ne').congr' ?_
  filter_upwards [hev] with n hn
  rw [unit_entry (h n) (hv n) hn i]
  rfl

/-- **C141.** Normalised forward differences tend to the gradient divided by its 1-norm, wherever the gradient is not
zero. -/
theorem C141_ffd_unit {s : SampleSet ℝ} {z : List (Fin d → ℝ)} (hs : CentersAt s z) {r : ℕ → Fin d → ℝ}
    (hr : ∀ n i, r n i ≠ 0) (hr0 : ∀ i, Tendsto (fun n => r n i) atTop (𝓝 0)) {Q : (Fin d → ℝ) → Fin e → ℝ}
    {D : ℕ → Disc ℝ} (hD : ∀ n, Evaluated (pickFfd s (List.ofFn (r n))) Q (D n)) (size : Nat) {k : Nat} {x : Fin d → ℝ}
    (hx : z[k]? = some x) {o : Fin e} {g : Fin d → ℝ} (hg : ∀ i, Partial Q x o i (g i)) (hne : g ≠ 0) (i : Fin d) :
    Tendsto (fun n => (gradientEntry (gradientsFfd size (D n) true) k o i).getD 0) atTop (𝓝 (g i / ∑ j, |g j|)) := by
  refine unit_tendsto (fun n => C52_ffd size (D n)) (fun n => ffd_vector hs (hr n) (hD n) size hx o) (fun j => ?_) hne i
  have := forward_tendsto (hg j) (r := fun n => r n j) (fun n => hr n j) (hr0 j)
  simpa only [Function.update_eq_self] using this

/-- **C141.** The same for normalised centred differences. -/
theorem C141_cfd_unit {s : SampleSet ℝ} {z : List (Fin d → ℝ)} (hs : CentersAt s z) {r : ℕ → Fin d → ℝ}
    (hr : ∀ n i, r n i ≠ 0) (hr0 : ∀ i, Tendsto (fun n => r n i) atTop (𝓝 0)) {Q : (Fin d → ℝ) → Fin e → ℝ}
    {D : ℕ → Disc ℝ} (hD : ∀ n, Evaluated (pickCfd s (List.ofFn (r n))) Q (D n)) (size : Nat) {k : Nat} {x : Fin d → ℝ}
    (hx : z[k]? = some x) {o : Fin e} {g : Fin d → ℝ} (hg : ∀ i, Partial Q x o i (g i)) (hne : g ≠ 0) (i : Fin d) :
    Tendsto (fun n => (gradientEntry (gradientsCfd size (D n) true) k o i).getD 0) atTop (𝓝 (g i / ∑ j, |g j|)) := by
  refine unit_tendsto (fun n => C52_cfd size (D n)) (fun n => cfd_vector hs (hr n) (hD n) size hx (Fin.pos i) o)
    (fun j => ?_) hne i
  exact centred_tendsto (hg j) (r := fun n => r n j) (fun n => hr n j) (hr0 j)

namespace Ex

/-- The points and the outputs of the model there. -/
noncomputable def evaluatedDisc (Q : (Fin d → ℝ) → Fin e → ℝ) (p : SampleSet ℝ) (pts : List (List ℝ)) : Disc ℝ :=
  { input := some p, output := some { dim := e, glob := { values := some (pts.map (onRow Q)) } } }

/-- Every model can be evaluated at the points that are picked. -/
theorem evaluated_of {Q : (Fin d → ℝ) → Fin e → ℝ} {picked : Except Err (SampleSet ℝ)} {p : SampleSet ℝ}
    {pts : List (List ℝ)} (hp : picked = .ok p) (hv : p.glob.values = some pts) :
    Evaluated picked Q (evaluatedDisc Q p pts) := by
  refine ⟨⟨p, pts, _, hp, hv, rfl, rfl, rfl, ?_, rfl, nofun⟩⟩
  have := consistent_values e none (pts.map (onRow Q)) none nofun (by
    intro c hc
    obtain ⟨y, -, rfl⟩ := List.mem_map.1 hc
    exact List.length_ofFn)
  rwa [List.length_map] at this

/-- Two centres in the plane. -/
noncomputable def twoCenters : SampleSet ℝ :=
  { dim := 2, domain := some [(0, 4), (0, 4)], glob := { values := some [[1, 2], [3, 0]] } }

theorem two_centers : CentersAt twoCenters [![1, 2], ![3, 0]] :=
  ⟨⟨by simp [twoCenters], by simp [twoCenters], by intro D h; obtain rfl := Option.some.inj h; rfl⟩, rfl⟩

/-- The model `(x, y) ↦ (x ^ 3 y, x + y)`. -/
noncomputable def cubeModel (x : Fin 2 → ℝ) : Fin 2 → ℝ := ![x 0 ^ 3 * x 1, x 0 + x 1]

theorem cube_partial (x : Fin 2 → ℝ) : Partial cubeModel x 0 0 (3 * x 0 ^ 2 * x 1) ∧ Partial cubeModel x 0 1 (x 0 ^ 3) := by
  unfold Partial cubeModel
  constructor
  · have h : HasDerivAt (fun t : ℝ => t ^ 3 * x 1) (((3 : ℕ) : ℝ) * x 0 ^ (3 - 1) * x 1) (x 0) := (hasDerivAt_pow 3 (x 0)).mul_const _
    simpa using h
  · have h : HasDerivAt (fun t : ℝ => x 0 ^ 3 * t) (x 0 ^ 3 * 1) (x 1) := (hasDerivAt_id (x 1)).const_mul _
    simpa using h

theorem radii_zero : ∀ i : Fin 2, Tendsto (fun n : ℕ => (fun _ : Fin 2 => 1 / ((n : ℝ) + 1)) i) atTop (𝓝 0) :=
  fun _ => tendsto_one_div_add_atTop_nhds_zero_nat

theorem radii_ne (n : ℕ) (i : Fin 2) : (fun _ : Fin 2 => 1 / ((n : ℝ) + 1)) i ≠ 0 := by
  have : ((n : ℝ) + 1) ≠ 0 := by positivity
  simpa using this

theorem ffd_evaluated (r : ℕ → Fin 2 → ℝ) : ∃ D : ℕ → Disc ℝ, ∀ n, Evaluated (pickFfd twoCenters (List.ofFn (r n))) cubeModel (D n) :=
  ⟨_, fun n => evaluated_of (C50_points two_centers.centers (radii := List.ofFn (r n)) (by simp [twoCenters])) rfl⟩

theorem cfd_evaluated (r : ℕ → Fin 2 → ℝ) : ∃ D : ℕ → Disc ℝ, ∀ n, Evaluated (pickCfd twoCenters (List.ofFn (r n))) cubeModel (D n) :=
  ⟨_, fun n => evaluated_of (C51_points two_centers.centers (radii := List.ofFn (r n)) (by simp [twoCenters])) rfl⟩

/-- The hypotheses of `C141_ffd` and `C141_ffd_unit` hold, at the first centre: the derivative of `x ^ 3 y` in the first
direction at `(1, 2)` is 6, in the second 1, and the normalised entry is 6 / 7. -/
example : ∃ D : ℕ → Disc ℝ,
    Tendsto (fun n => (gradientEntry (gradientsFfd 3 (D n) false) 0 0 0).getD 0) atTop (𝓝 6) ∧
    Tendsto (fun n => (gradientEntry (gradientsFfd 3 (D n) true) 0 0 0).getD 0) atTop (𝓝 (6 / 7)) := by
  obtain ⟨D, hD⟩ := ffd_evaluated fun n _ => 1 / ((n : ℝ) + 1)
  have h := cube_partial ![1, 2]
  norm_num at h
  have hg : ∀ i, Partial cubeModel ![1, 2] 0 i (![(6 : ℝ), 1] i) := by
    intro i
    fin_cases i
    · exact h.1
    · exact h.2
  refine ⟨D, (C141_ffd two_centers radii_ne radii_zero hD 3 (k := 0) rfl (o := 0) (i := 0) (hg 0)).2, ?_⟩
  have := C141_ffd_unit two_centers radii_ne radii_zero hD 3 (k := 0) rfl hg
    (fun h0 => by have := congrFun h0 0; norm_num at this) 0
  norm_num [Fin.sum_univ_two] at this
  exact this

/-- The hypotheses of `C141_cfd` and `C141_cfd_unit` hold. -/
example : ∃ D : ℕ → Disc ℝ,
    Tendsto (fun n => (gradientEntry (gradientsCfd 3 (D n) false) 0 0 0).getD 0) atTop (𝓝 6) ∧
    Tendsto (fun n => (gradientEntry (gradientsCfd 3 (D n) true) 0 0 0).getD 0) atTop (𝓝 (6 / 7)) := by
  obtain ⟨D, hD⟩ := cfd_evaluated fun n _ => 1 / ((n : ℝ) + 1)
  have h := cube_partial ![1, 2]
  norm_num at h
  have hg : ∀ i, Partial cubeModel ![1, 2] 0 i (![(6 : ℝ), 1] i) := by
    intro i
    fin_cases i
    · exact h.1
    · exact h.2
  refine ⟨D, (C141_cfd two_centers radii_ne radii_zero hD 3 (k := 0) rfl (o := 0) (i := 0) (hg 0)).2, ?_⟩
  have := C141_cfd_unit two_centers radii_ne radii_zero hD 3 (k := 0) rfl hg
    (fun h0 => by have := congrFun h0 0; norm_num at this) 0
  norm_num [Fin.sum_univ_two] at this
  exact this

/-- The hypotheses of `C141_cfd_error` hold: the second derivative `12 x` along the first direction at `(1, 2)` has the
Lipschitz constant 12, and the error for the radius 1/10 is at most `12 / 600`. -/
example : ∃ D : Disc ℝ, ∃ v, gradientEntry (gradientsCfd 3 D false) 0 0 0 = some v ∧ |v - 6| ≤ 12 * |1 / 10| ^ 2 / 6 := by
  obtain ⟨D, hD⟩ := cfd_evaluated fun _ _ => 1 / 10
  refine ⟨D 0, ?_⟩
  have h := C141_cfd_error two_centers (fun _ => by norm_num) (hD 0) 3 (k := 0) rfl (o := 0) (i := 0)
    (g := fun t => 3 * t ^ 2 * 2) (g' := fun t => 12 * t) (M := 12) (fun t _ => ?_) (fun t _ => ?_) (fun t u _ _ => ?_)
  · norm_num at h ⊢
    exact h
  · simpa using (cube_partial (Function.update ![1, 2] 0 t)).1
  · have := ((hasDerivAt_pow 2 t).const_mul 3).mul_const 2
    have heq : 3 * (((2 : ℕ) : ℝ) * t ^ (2 - 1)) * 2 = 12 * t := by norm_num; ring
    rwa [heq] at this
  · rw [← mul_sub, abs_mul]
    norm_num

/-- The hypotheses of `C141_ffd_error` hold: in the second direction the derivative is constant, so the error is zero. -/
example : ∃ D : Disc ℝ, ∃ v, gradientEntry (gradientsFfd 3 D false) 1 0 1 = some v ∧ |v - 27| ≤ 0 * |1 / 10| / 2 := by
  obtain ⟨D, hD⟩ := ffd_evaluated fun _ _ => 1 / 10
  refine ⟨D 0, ?_⟩
  have h := C141_ffd_error two_centers (fun _ => by norm_num) (hD 0) 3 (k := 1) rfl (o := 0) (i := 1)
    (g := fun _ => 27) (L := 0) (fun t _ => ?_) (fun t _ => by simp)
  · exact h
  · have := (cube_partial (Function.update ![3, 0] 1 t)).2
    norm_num at this
    exact this

end Ex

end BET
