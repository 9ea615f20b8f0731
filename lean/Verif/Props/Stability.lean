import Verif.Props.Prob
import Verif.Props.ProbEmulated
import Verif.Props.Transport
import Mathlib.Tactic.GCongr
import Mathlib.Tactic.Linarith

/-!
# C152: how solutions depend on the probabilities of the data and on the volumes
-/

set_option autoImplicit false
set_option linter.unusedSectionVars false
set_option linter.unusedSimpArgs false

namespace BET

open Spec

variable {K : Type} [Field K] [LinearOrder K]

namespace Spec

/-- The distance of two lists of probabilities: the sum of the absolute differences (twice the total variation). -/
def l1 (p q : List K) : K := (List.zipWith (fun a b => |a - b|) p q).sum

/-- `a` times the first list plus `b` times the second. -/
def mix (a b : K) (p q : List K) : List K := List.zipWith (fun x y => a * x + b * y) p q

/-- Two sets divide their space in the same way; their probabilities may differ. -/
structure EqualCells (s t : SampleSet K) : Prop where
  kind : s.kind = t.kind
  pNorm : s.pNorm = t.pNorm
  values : s.glob.values = t.glob.values
  left : s.glob.left = t.glob.left
  right : s.glob.right = t.glob.right
  radii : s.glob.radii = t.glob.radii

/-- The probabilities of the input samples after `prob`. -/
def solution (G : Geometry K) (size : Nat) (d : Disc K) : Option (List K) :=
  ((prob G size d true).toOption.bind (·.input)).bind (·.glob.probabilities)

/-- The probabilities of the emulated points after `prob_on_emulated_samples`. -/
def emulatedSolution (G : Geometry K) (size : Nat) (d : Disc K) : Option (List K) :=
  ((probOnEmulated G size d true).toOption.bind (·.emInput)).bind (·.glob.probabilities)

/-- The probabilities that `prob_from_sample_set` returns. -/
def transported (G : Geometry K) (size : Nat) (old new : SampleSet K) : Option (List K) :=
  (probFromSampleSet G size old new).toOption.map (·.1)

/-- The probabilities that `prob_from_sample_set_with_emulated_volumes` returns. -/
def transportedEmulated (G : Geometry K) (size : Nat) (old new em : SampleSet K) : Option (List K) :=
  (probFromSampleSetWithEmulatedVolumes G size old new (some em)).toOption.map (·.1)

end Spec

theorem EqualCells.cell {s t : SampleSet K} (h : EqualCells s t) (G : Geometry K) : s.cell G = t.cell G := by
  funext x
  unfold SampleSet.cell
  rw [h.kind, h.pNorm, h.values, h.left, h.right, h.radii]

/-! ## Lists -/

section lists
variable [IsStrictOrderedRing K]

theorem l1_getD {p q : List K} {m : Nat} (hp : p.length = m) (hq : q.length = m) :
    l1 p q = ((List.range m).map fun k => |p.getD k 0 - q.getD k 0|).sum := by
  unfold l1
  congr 1
  apply List.ext_getElem
  · simp [hp, hq]
  · intro k h1 h2
    simp at h1 h2
    simp [List.getD_eq_getElem?_getD, h1.1, h1.2]

theorem l1_nonneg (p q : List K) : 0 ≤ l1 p q := by
  refine List.sum_nonneg fun x hx => ?_
  obtain ⟨k, hk, rfl⟩ := List.mem_iff_getElem.mp hx
  rw [List.getElem_zipWith]
  exact abs_nonneg _

/-- The share of each sample in the volume of its cell. -/
def shareIn (c : List Nat) (v : List K) : List K :=
  List.zipWith (fun k x => if 0 < mass c v k then x / mass c v k else 0) c v

theorem mass_shareIn (c : List Nat) (v : List K) (k : Nat) :
    mass c (shareIn c v) k = if 0 < mass c v k then 1 else 0 := by
  unfold shareIn
  rw [mass_map_zipWith]
  split
  · next h =>
    have : (fun x => x / mass c v k) = fun x => (mass c v k)⁻¹ * x := by funext x; rw [div_eq_inv_mul]
    rw [this, mass_map_mul]
    exact inv_mul_cancel₀ h.ne'
  · have : (fun _ : K => (0 : K)) = fun x => 0 * x := by funext x; simp
    rw [this, mass_map_mul, zero_mul]

theorem shareIn_nonneg (c : List Nat) {v : List K} (hv : ∀ x ∈ v, 0 ≤ x) : ∀ s ∈ shareIn c v, 0 ≤ s := by
  intro s hs
  obtain ⟨k, hk, rfl⟩ := List.mem_iff_getElem.mp hs
  simp only [shareIn, List.getElem_zipWith]
  split
  · next h => exact div_nonneg (hv _ (List.getElem_mem _)) h.le
  · exact le_rfl

theorem shareIn_length {c : List Nat} {v : List K} (h : c.length = v.length) : (shareIn c v).length = c.length := by
  simp [shareIn, h]

theorem solved_eq (c : List Nat) (v : List K) {p : List K} (hp : ∀ x ∈ p, 0 ≤ x) :
    List.zipWith (fun k x => if 0 < p.getD k 0 ∧ 0 < mass c v k then p.getD k 0 * x / mass c v k else 0) c v =
      List.zipWith (fun k s => p.getD k 0 * s) c (shareIn c v) := by
  apply List.ext_getElem
  · simp [shareIn]
  · intro k h1 h2
    have hk : k < c.length := by rw [List.length_zipWith] at h1; omega
    simp only [List.getElem_zipWith, shareIn]
    have h0 : 0 ≤ p.getD c[k] 0 := by
      rw [List.getD_eq_getElem?_getD]
      cases h : p[c[k]]? with
      | none => simp
      | some x => exact hp x (List.mem_of_getElem? h)
    by_cases hm : 0 < mass c v c[k]
    · rcases h0.eq_or_lt with h | h
      · rw [← h]; simp
      · simp only [h, hm, and_self, if_true]; ring
    · simp [hm]

theorem l1_weights {c : List Nat} {s : List K} (hl : c.length = s.length) (hs : ∀ x ∈ s, 0 ≤ x) {m : Nat}
    (hc : ∀ k ∈ c, k < m) (p q : List K) :
    l1 (List.zipWith (fun k x => p.getD k 0 * x) c s) (List.zipWith (fun k x => q.getD k 0 * x) c s) =
      ((List.range m).map fun k => |p.getD k 0 - q.getD k 0| * mass c s k).sum := by
  have e : List.zipWith (fun a b => |a - b|) (List.zipWith (fun k x => p.getD k 0 * x) c s)
      (List.zipWith (fun k x => q.getD k 0 * x) c s) =
      List.zipWith (fun k x => |p.getD k 0 - q.getD k 0| * x) c s := by
    apply List.ext_getElem
    · simp
    · intro k h1 h2
      simp only [List.getElem_zipWith]
      rw [← sub_mul, abs_mul, abs_of_nonneg (hs _ (List.getElem_mem _))]
  unfold l1
  rw [e, ← sum_range_mass c _ m (by simp [hl]) hc]
  congr 1
  refine List.map_congr_left fun k _ => ?_
  rw [mass_map_zipWith, mass_map_mul]

theorem solved_l1 {c : List Nat} {v : List K} (hl : c.length = v.length) (hv : ∀ x ∈ v, 0 ≤ x) {m : Nat}
    (hc : ∀ k ∈ c, k < m) {p q : List K} (hp : ∀ x ∈ p, 0 ≤ x) (hq : ∀ x ∈ q, 0 ≤ x) :
    l1 (List.zipWith (fun k x => if 0 < p.getD k 0 ∧ 0 < mass c v k then p.getD k 0 * x / mass c v k else 0) c v)
      (List.zipWith (fun k x => if 0 < q.getD k 0 ∧ 0 < mass c v k then q.getD k 0 * x / mass c v k else 0) c v) =
      ((List.range m).map fun k => if 0 < mass c v k then |p.getD k 0 - q.getD k 0| else 0).sum := by
  rw [solved_eq c v hp, solved_eq c v hq, l1_weights (shareIn_length hl).symm (shareIn_nonneg c hv) hc]
  congr 1
  refine List.map_congr_left fun k _ => ?_
  rw [mass_shareIn]
  split <;> simp

theorem mix_getD {p q : List K} (h : p.length = q.length) (a b : K) (k : Nat) :
    (mix a b p q).getD k 0 = a * p.getD k 0 + b * q.getD k 0 := by
  unfold mix
  simp only [List.getD_eq_getElem?_getD, List.getElem?_zipWith]
  by_cases hk : k < p.length
  · have hk' : k < q.length := h ▸ hk
    simp [hk, hk']
  · have hk' : ¬ k < q.length := h ▸ hk
    simp [hk, hk']

theorem mix_nonneg {p q : List K} (hp : ∀ x ∈ p, 0 ≤ x) (hq : ∀ x ∈ q, 0 ≤ x) {a b : K} (ha : 0 ≤ a) (hb : 0 ≤ b) :
    ∀ x ∈ mix a b p q, 0 ≤ x := by
  intro x hx
  obtain ⟨k, hk, rfl⟩ := List.mem_iff_getElem.mp hx
  rw [show (mix a b p q)[k] = _ from List.getElem_zipWith ..]
  exact add_nonneg (mul_nonneg ha (hp _ (List.getElem_mem _))) (mul_nonneg hb (hq _ (List.getElem_mem _)))

theorem solved_mix {c : List Nat} {v : List K} {p q : List K} (h : p.length = q.length) (hp : ∀ x ∈ p, 0 ≤ x)
    (hq : ∀ x ∈ q, 0 ≤ x) {a b : K} (ha : 0 ≤ a) (hb : 0 ≤ b) {r : List K} (hr : r = mix a b p q) :
    List.zipWith (fun k x => if 0 < r.getD k 0 ∧ 0 < mass c v k then
        r.getD k 0 * x / mass c v k else 0) c v =
      mix a b
        (List.zipWith (fun k x => if 0 < p.getD k 0 ∧ 0 < mass c v k then p.getD k 0 * x / mass c v k else 0) c v)
        (List.zipWith (fun k x => if 0 < q.getD k 0 ∧ 0 < mass c v k then q.getD k 0 * x / mass c v k else 0) c v) := by
  subst hr
  rw [solved_eq c v (mix_nonneg hp hq ha hb), solved_eq c v hp, solved_eq c v hq]
  apply List.ext_getElem
  · simp [mix]
  · intro k h1 h2
    simp only [List.getElem_zipWith, mix_getD h]
    rw [show (mix a b _ _)[k] = _ from List.getElem_zipWith ..]
    simp only [List.getElem_zipWith]
    ring

end lists

theorem FreshDisc.lengths {d : Disc K} {n m : Nat} {inp out ops : SampleSet K}
    {y : List (List K)} {vols probs : List K} (f : FreshDisc d n m inp out ops y vols probs) :
    y.length = n ∧ vols.length = n ∧ probs.length = m :=
  ⟨f.houtputC.1.values y f.houtVals, f.hinputC.1.volumes vols f.hvols,
    f.hready.consistent.1.probabilities probs f.hprobs⟩

section order
variable [IsStrictOrderedRing K]

/-! ## prob -/

theorem FreshDisc.solved {G : Geometry K} {d : Disc K} {n m : Nat} {inp out ops : SampleSet K}
    {y : List (List K)} {vols probs : List K} (f : FreshDisc d n m inp out ops y vols probs)
    {size : Nat} (hsize : 0 < size) :
    solution G size d = some (List.zipWith (fun c v =>
        if 0 < probs.getD c 0 ∧ 0 < mass (y.map (ops.cell G)) vols c then
          probs.getD c 0 * v / mass (y.map (ops.cell G)) vols c else 0)
        (y.map (ops.cell G)) vols) := by
  obtain ⟨d', inp', h1, h2, h3⟩ := C03_prob_fresh (G := G) f size hsize
  simp only [solution, h1, Except.toOption, Option.bind_some, h2, h3]

/-- **C152.** Two problems with the same outputs, volumes and cells in the data space, but with different
probabilities of the cells: the distance of the solutions is the sum of the differences over the cells that a sample
of positive volume reaches. -/
theorem C152_prob_exact {G : Geometry K} (hG : Sound G) {size : Nat} (hsize : 0 < size) {d₁ d₂ : Disc K} {n m : Nat}
    {inp₁ out₁ ops₁ inp₂ out₂ ops₂ : SampleSet K} {y : List (List K)} {vols p q : List K}
    (f₁ : FreshDisc d₁ n m inp₁ out₁ ops₁ y vols p) (f₂ : FreshDisc d₂ n m inp₂ out₂ ops₂ y vols q)
    (hcells : EqualCells ops₁ ops₂) (hv : ∀ v ∈ vols, 0 ≤ v) (hp : ∀ x ∈ p, 0 ≤ x) (hq : ∀ x ∈ q, 0 ≤ x) :
    ∃ P Q, solution G size d₁ = some P ∧ solution G size d₂ = some Q ∧ P.length = n ∧ Q.length = n ∧
      l1 P Q = ((List.range m).map fun k =>
        if 0 < mass (y.map (ops₁.cell G)) vols k then |p.getD k 0 - q.getD k 0| else 0).sum := by
  obtain ⟨hy, hvl, -⟩ := FreshDisc.lengths f₁
  refine ⟨_, _, FreshDisc.solved f₁ hsize, FreshDisc.solved f₂ hsize, by simp [hy, hvl], by simp [hy, hvl], ?_⟩
  rw [← EqualCells.cell hcells G]
  refine solved_l1 (by simp [hy, hvl]) hv ?_ hp hq
  intro k hk
  obtain ⟨x, -, rfl⟩ := List.mem_map.mp hk
  exact SampleSet.cell_lt hG f₁.hready x

/-- **C152.** So errors in the probabilities of the data are never amplified: the solutions are at most as far apart
as the probabilities of the cells. -/
theorem C152_prob {G : Geometry K} (hG : Sound G) {size : Nat} (hsize : 0 < size) {d₁ d₂ : Disc K} {n m : Nat}
    {inp₁ out₁ ops₁ inp₂ out₂ ops₂ : SampleSet K} {y : List (List K)} {vols p q : List K}
    (f₁ : FreshDisc d₁ n m inp₁ out₁ ops₁ y vols p) (f₂ : FreshDisc d₂ n m inp₂ out₂ ops₂ y vols q)
    (hcells : EqualCells ops₁ ops₂) (hv : ∀ v ∈ vols, 0 ≤ v) (hp : ∀ x ∈ p, 0 ≤ x) (hq : ∀ x ∈ q, 0 ≤ x) :
    ∃ P Q, solution G size d₁ = some P ∧ solution G size d₂ = some Q ∧ P.length = n ∧ Q.length = n ∧
      l1 P Q ≤ l1 p q := by
  obtain ⟨P, Q, h1, h2, h3, h4, h5⟩ := C152_prob_exact hG hsize f₁ f₂ hcells hv hp hq
  refine ⟨P, Q, h1, h2, h3, h4, ?_⟩
  rw [h5, l1_getD (FreshDisc.lengths f₁).2.2 (FreshDisc.lengths f₂).2.2]
  refine List.sum_le_sum fun k _ => ?_
  split
  · exact le_rfl
  · exact abs_nonneg _

/-- **C152.** If every cell on which the probabilities differ is reached by a sample of positive volume, the solutions
are exactly as far apart as the probabilities. -/
theorem C152_prob_reached {G : Geometry K} (hG : Sound G) {size : Nat} (hsize : 0 < size) {d₁ d₂ : Disc K} {n m : Nat}
    {inp₁ out₁ ops₁ inp₂ out₂ ops₂ : SampleSet K} {y : List (List K)} {vols p q : List K}
    (f₁ : FreshDisc d₁ n m inp₁ out₁ ops₁ y vols p) (f₂ : FreshDisc d₂ n m inp₂ out₂ ops₂ y vols q)
    (hcells : EqualCells ops₁ ops₂) (hv : ∀ v ∈ vols, 0 ≤ v) (hp : ∀ x ∈ p, 0 ≤ x) (hq : ∀ x ∈ q, 0 ≤ x)
    (hreach : ∀ k < m, p.getD k 0 ≠ q.getD k 0 → 0 < mass (y.map (ops₁.cell G)) vols k) :
    ∃ P Q, solution G size d₁ = some P ∧ solution G size d₂ = some Q ∧ l1 P Q = l1 p q := by
  obtain ⟨P, Q, h1, h2, -, -, h5⟩ := C152_prob_exact hG hsize f₁ f₂ hcells hv hp hq
  refine ⟨P, Q, h1, h2, ?_⟩
  rw [h5, l1_getD (FreshDisc.lengths f₁).2.2 (FreshDisc.lengths f₂).2.2]
  congr 1
  refine List.map_congr_left fun k hk => ?_
  rw [List.mem_range] at hk
  by_cases h : p.getD k 0 = q.getD k 0
  · rw [h, sub_self, abs_zero, ite_self]
  · rw [if_pos (hreach k hk h)]

/-- **C152.** The solution for a mixture of probabilities is the mixture of the solutions. -/
theorem C152_prob_mix {G : Geometry K} {size : Nat} (hsize : 0 < size) {d₁ d₂ d₃ : Disc K} {n m : Nat}
    {inp₁ out₁ ops₁ inp₂ out₂ ops₂ inp₃ out₃ ops₃ : SampleSet K} {y : List (List K)} {vols p q : List K} {a b : K}
    (f₁ : FreshDisc d₁ n m inp₁ out₁ ops₁ y vols p) (f₂ : FreshDisc d₂ n m inp₂ out₂ ops₂ y vols q)
    (f₃ : FreshDisc d₃ n m inp₃ out₃ ops₃ y vols (mix a b p q)) (h₁₂ : EqualCells ops₁ ops₂)
    (h₁₃ : EqualCells ops₁ ops₃) (hp : ∀ x ∈ p, 0 ≤ x) (hq : ∀ x ∈ q, 0 ≤ x) (ha : 0 ≤ a) (hb : 0 ≤ b) :
    ∃ P Q, solution G size d₁ = some P ∧ solution G size d₂ = some Q ∧ solution G size d₃ = some (mix a b P Q) := by
  refine ⟨_, _, FreshDisc.solved f₁ hsize, FreshDisc.solved f₂ hsize, ?_⟩
  rw [FreshDisc.solved f₃ hsize, ← EqualCells.cell h₁₂ G, ← EqualCells.cell h₁₃ G]
  rw [solved_mix ((FreshDisc.lengths f₁).2.2.trans (FreshDisc.lengths f₂).2.2.symm) hp hq ha hb rfl]

/-! ## Volumes -/

theorem mass_close {v v' : List K} {ε : K} (hvv : List.Forall₂ (fun x x' => |x' - x| ≤ ε * x) v v') (c : List Nat)
    (k : Nat) : |mass c v' k - mass c v k| ≤ ε * mass c v k := by
  induction hvv generalizing c with
  | nil => simp
  | @cons x x' v v' hx _ ih =>
    cases c with
    | nil => simp
    | cons a c =>
      rw [mass_cons, mass_cons]
      have := ih c
      split
      · calc |x' + mass c v' k - (x + mass c v k)| = |(x' - x) + (mass c v' k - mass c v k)| := by congr 1; ring
          _ ≤ _ := abs_add_le _ _
          _ ≤ _ := by rw [mul_add]; exact add_le_add hx this
      · simpa using this

theorem share_close {p v v' V V' ε : K} (hp : 0 ≤ p) (hv' : 0 ≤ v') (hV : 0 < V) (hV' : 0 < V')
    (hv : |v' - v| ≤ ε * v) (hVV : |V' - V| ≤ ε * V) :
    |p * v / V - p * v' / V'| ≤ ε * (p * v / V + p * v' / V') := by
  have e : p * v / V - p * v' / V' = p * ((v - v') / V + v' / V' * ((V' - V) / V)) := by
    field_simp; ring
  have e2 : ε * (p * v / V + p * v' / V') = p * (ε * v / V + v' / V' * (ε * V / V)) := by
    field_simp
  rw [e, e2, abs_mul, abs_of_nonneg hp]
  refine mul_le_mul_of_nonneg_left ?_ hp
  refine (abs_add_le _ _).trans (add_le_add ?_ ?_)
  · rw [abs_div, abs_of_pos hV, abs_sub_comm]
    gcongr
  · rw [abs_mul, abs_of_nonneg (div_nonneg hv' hV'.le), abs_div, abs_of_pos hV]
    have := div_nonneg hv' hV'.le
    gcongr

/-- **C152.** If the volumes of the samples are wrong by at most a fraction `ε < 1`, every probability in the solution
is wrong by at most `ε` times the sum of the right and the wrong one, and all together by at most `2 ε` times the
probability of the data. -/
theorem C152_volumes {G : Geometry K} (hG : Sound G) {size : Nat} (hsize : 0 < size) {d₁ d₂ : Disc K} {n m : Nat}
    {inp₁ out₁ ops₁ inp₂ out₂ ops₂ : SampleSet K} {y : List (List K)} {v v' p : List K}
    (f₁ : FreshDisc d₁ n m inp₁ out₁ ops₁ y v p) (f₂ : FreshDisc d₂ n m inp₂ out₂ ops₂ y v' p)
    (hcells : EqualCells ops₁ ops₂) {ε : K} (hε0 : 0 ≤ ε) (hε1 : ε < 1)
    (hvv : List.Forall₂ (fun x x' => |x' - x| ≤ ε * x) v v') (hv : ∀ x ∈ v, 0 ≤ x) (hp : ∀ x ∈ p, 0 ≤ x) :
    ∃ P Q, solution G size d₁ = some P ∧ solution G size d₂ = some Q ∧
      List.Forall₂ (fun a b => |a - b| ≤ ε * (a + b)) P Q ∧ l1 P Q ≤ 2 * ε * p.sum := by
  obtain ⟨hy, hvl, hpl⟩ := FreshDisc.lengths f₁
  have hvl' := (FreshDisc.lengths f₂).2.1
  have hv' : ∀ x ∈ v', 0 ≤ x := by
    intro x hx
    obtain ⟨k, hk, rfl⟩ := List.mem_iff_getElem.mp hx
    have hk1 : k < v.length := by omega
    have h1 := (List.forall₂_iff_get.mp hvv).2 k hk1 hk
    simp only [List.get_eq_getElem] at h1
    have h2 := hv v[k] (List.getElem_mem _)
    have h3 := (abs_le.mp h1).1
    have h4 : ε * v[k] ≤ 1 * v[k] := mul_le_mul_of_nonneg_right hε1.le h2
    linarith
  have hc : ∀ k ∈ y.map (ops₁.cell G), k < m := by
    intro k hk
    obtain ⟨x, -, rfl⟩ := List.mem_map.mp hk
    exact SampleSet.cell_lt hG f₁.hready x
  have hl1 : (y.map (ops₁.cell G)).length = v.length := by simp [hy, hvl]
  have hl2 : (y.map (ops₁.cell G)).length = v'.length := by simp [hy, hvl']
  set c := y.map (ops₁.cell G) with hcdef
  have hiff : ∀ k, 0 < mass c v k ↔ 0 < mass c v' k := by
    intro k
    have h1 := abs_le.mp (mass_close hvv c k)
    have h2 := mass_nonneg c v k hv
    have h3 : ε * mass c v k ≤ 1 * mass c v k := mul_le_mul_of_nonneg_right hε1.le h2
    constructor
    · intro h
      have h4 : ε * mass c v k < 1 * mass c v k := mul_lt_mul_of_pos_right hε1 h
      linarith
    · intro h
      rcases h2.eq_or_lt with h4 | h4
      · rw [← h4] at h1; simp at h1; linarith
      · exact h4
  have hsum : ∀ w : List K, c.length = w.length →
      (List.zipWith (fun k x => if 0 < p.getD k 0 ∧ 0 < mass c w k then p.getD k 0 * x / mass c w k else 0) c w).sum ≤
        p.sum := by
    intro w hw
    rw [solved_eq c w hp, ← sum_range_mass c _ m (by simp [shareIn, hw]) hc,
      eq_map_getD p, hpl]
    refine List.sum_le_sum fun k _ => ?_
    rw [mass_map_zipWith, mass_map_mul, mass_shareIn, ← hpl, ← eq_map_getD p]
    have h0 : 0 ≤ p.getD k 0 := by
      rw [List.getD_eq_getElem?_getD]
      cases h : p[k]? with
      | none => simp
      | some x => exact hp x (List.mem_of_getElem? h)
    split
    · rw [mul_one]
    · rwa [mul_zero]
  have hpoint : List.Forall₂ (fun a b => |a - b| ≤ ε * (a + b))
      (List.zipWith (fun k x => if 0 < p.getD k 0 ∧ 0 < mass c v k then p.getD k 0 * x / mass c v k else 0) c v)
      (List.zipWith (fun k x => if 0 < p.getD k 0 ∧ 0 < mass c v' k then p.getD k 0 * x / mass c v' k else 0) c v') := by
    rw [List.forall₂_iff_get]
    refine ⟨by simp [← hl1, ← hl2], fun k h1 h2 => ?_⟩
    rw [List.length_zipWith] at h1 h2
    have hk1 : k < v.length := by omega
    have hk2 : k < v'.length := by omega
    have hx := (List.forall₂_iff_get.mp hvv).2 k hk1 hk2
    simp only [List.get_eq_getElem, List.getElem_zipWith] at hx ⊢
    simp only [← hiff]
    split
    · next h =>
      exact share_close h.1.le (hv' _ (List.getElem_mem _)) h.2 ((hiff _).1 h.2) hx (mass_close hvv c _)
    · simp
  refine ⟨_, _, FreshDisc.solved f₁ hsize, ?_, hpoint, ?_⟩
  · rw [FreshDisc.solved f₂ hsize, ← EqualCells.cell hcells G]
  · have key : ∀ {P Q : List K}, List.Forall₂ (fun a b => |a - b| ≤ ε * (a + b)) P Q →
        l1 P Q ≤ ε * (P.sum + Q.sum) := by
      intro P Q h
      induction h with
      | nil => simp [l1]
      | @cons a b P Q hab _ ih =>
        simp only [l1, List.zipWith_cons_cons, List.sum_cons] at ih ⊢
        linarith
    refine (key hpoint).trans ?_
    have h1 := hsum v hl1
    have h2 := hsum v' hl2
    calc _ ≤ ε * (p.sum + p.sum) := mul_le_mul_of_nonneg_left (add_le_add h1 h2) hε0
      _ = 2 * ε * p.sum := by ring

/-! ## Emulated points -/

theorem emulated_as_solved {z : List (List K)} (c : List K → Nat) (p : List K) :
    (z.map fun x => if 0 < p.getD (c x) 0 then p.getD (c x) 0 / (hits (z.map c) (c x) : K) else 0) =
      List.zipWith (fun k x => if 0 < p.getD k 0 ∧ 0 < mass (z.map c) ((z.map c).map fun _ => (1 : K)) k then
        p.getD k 0 * x / mass (z.map c) ((z.map c).map fun _ => (1 : K)) k else 0) (z.map c)
        ((z.map c).map fun _ => (1 : K)) := by
  apply List.ext_getElem
  · simp
  · intro k h1 h2
    have hk : k < z.length := by simpa using h1
    simp only [List.getElem_map, List.getElem_zipWith, mass_map_self, mul_one]
    have : (0 : K) < (hits (z.map c) (c z[k]) : K) := by
      have : 0 < hits (z.map c) (c z[k]) := List.count_pos_iff.mpr (List.mem_map_of_mem (List.getElem_mem _))
      exact_mod_cast this
    simp [this]

theorem FreshEm.solved {G : Geometry K} (hG : Sound G) {d : Disc K} {n m k : Nat}
    {inp out ops em : SampleSet K} {y z : List (List K)} {p : List K}
    (f : FreshEm d n m k inp out ops em y z p) {size : Nat} (hsize : 0 < size) :
    emulatedSolution G size d = some (z.map fun x =>
        if 0 < p.getD ((y.map (ops.cell G)).getD (inp.cell G x) 0) 0 then
          p.getD ((y.map (ops.cell G)).getD (inp.cell G x) 0) 0 /
            (hits (z.map fun x => (y.map (ops.cell G)).getD (inp.cell G x) 0)
              ((y.map (ops.cell G)).getD (inp.cell G x) 0) : K) else 0) := by
  obtain ⟨d', em', h1, h2, -, h4⟩ := C04_emulated_fresh hG f size hsize
  simp only [emulatedSolution, h1, Except.toOption, Option.bind_some, h2, h4]

/-- **C152.** `prob_on_emulated_samples` does not amplify errors in the probabilities of the data either. -/
theorem C152_emulated {G : Geometry K} (hG : Sound G) {size : Nat} (hsize : 0 < size) {d₁ d₂ : Disc K} {n m k : Nat}
    {inp out₁ ops₁ em₁ out₂ ops₂ em₂ : SampleSet K} {y z : List (List K)} {p q : List K}
    (f₁ : FreshEm d₁ n m k inp out₁ ops₁ em₁ y z p) (f₂ : FreshEm d₂ n m k inp out₂ ops₂ em₂ y z q)
    (hcells : EqualCells ops₁ ops₂) (hp : ∀ x ∈ p, 0 ≤ x) (hq : ∀ x ∈ q, 0 ≤ x) :
    ∃ P Q, emulatedSolution G size d₁ = some P ∧ emulatedSolution G size d₂ = some Q ∧ P.length = k ∧ Q.length = k ∧
      l1 P Q ≤ l1 p q := by
  have hz : z.length = k := f₁.hemC.1.values z f₁.hemVals
  have hy : y.length = n := f₁.houtputC.1.values y f₁.houtVals
  have hpl : p.length = m := f₁.hopsReady.consistent.1.probabilities p f₁.hprobs
  have hql : q.length = m := f₂.hopsReady.consistent.1.probabilities q f₂.hprobs
  refine ⟨_, _, FreshEm.solved hG f₁ hsize, FreshEm.solved hG f₂ hsize, by simp [hz], by simp [hz], ?_⟩
  rw [← EqualCells.cell hcells G]
  set c : List K → Nat := fun x => (y.map (ops₁.cell G)).getD (inp.cell G x) 0 with hcdef
  have hc : ∀ k ∈ z.map c, k < m := by
    intro k hk
    obtain ⟨x, -, rfl⟩ := List.mem_map.mp hk
    have h1 : inp.cell G x < (y.map (ops₁.cell G)).length := by
      rw [List.length_map, hy]; exact SampleSet.cell_lt hG f₁.hready x
    simp only [hcdef, List.getD_eq_getElem?_getD, List.getElem?_eq_getElem h1, Option.getD_some, List.getElem_map]
    exact SampleSet.cell_lt hG f₁.hopsReady _
  have e1 := emulated_as_solved (z := z) c p
  have e2 := emulated_as_solved (z := z) c q
  rw [show (z.map fun x => _) = _ from e1, show (z.map fun x => _) = _ from e2,
    solved_l1 (by simp) (by simp) hc hp hq, l1_getD hpl hql]
  refine List.sum_le_sum fun k _ => ?_
  split
  · exact le_rfl
  · exact abs_nonneg _

/-! ## Transports -/

theorem mass_sub_le (c : List Nat) {w w' : List K} (k : Nat) :
    w.length = w'.length → |mass c w k - mass c w' k| ≤ mass c (List.zipWith (fun a b => |a - b|) w w') k := by
  intro h
  induction c generalizing w w' with
  | nil => simp
  | cons a c ih =>
    cases w with
    | nil => cases w' with
      | nil => simp
      | cons b w' => simp at h
    | cons x w => cases w' with
      | nil => simp at h
      | cons x' w' =>
        simp only [List.zipWith_cons_cons, mass_cons]
        have := ih (w := w) (w' := w') (by simpa using h)
        split
        · calc |x + mass c w k - (x' + mass c w' k)| = |(x - x') + (mass c w k - mass c w' k)| := by congr 1; ring
            _ ≤ _ := abs_add_le _ _
            _ ≤ _ := by gcongr
        · simpa using this

theorem gathered_l1 {c : List Nat} {w w' : List K} {m : Nat} (hl : c.length = w.length) (hl' : c.length = w'.length)
    (hc : ∀ k ∈ c, k < m) :
    l1 ((List.range m).map (mass c w)) ((List.range m).map (mass c w')) ≤ l1 w w' := by
  have h := sum_range_mass c (List.zipWith (fun a b => |a - b|) w w') m (by simp [← hl, ← hl']) hc
  rw [l1_getD (m := m) (by simp) (by simp), l1, ← h]
  refine List.sum_le_sum fun k hk => ?_
  rw [List.mem_range] at hk
  simpa [List.getD_eq_getElem?_getD, hk] using mass_sub_le c k (hl.symm.trans hl')

/-- **C152.** `prob_from_sample_set` does not amplify differences of probabilities: the new sets are at most as far
apart as the old ones. -/
theorem C152_transport {G : Geometry K} (hG : Sound G) {size : Nat} (hsize : 0 < size) {old₁ old₂ new : SampleSet K}
    {n m : Nat} {x : List (List K)} {w w' : List K} (f₁ : FreshProb old₁ n x w) (f₂ : FreshProb old₂ n x w')
    (hr : Ready new m) (h₁ : old₁.dim = new.dim) (h₂ : old₂.dim = new.dim) :
    ∃ P Q, transported G size old₁ new = some P ∧ transported G size old₂ new = some Q ∧ P.length = m ∧
      Q.length = m ∧ l1 P Q ≤ l1 w w' := by
  obtain ⟨o, t, h, -⟩ := probFromSampleSet_fresh (G := G) f₁ hr h₁ size hsize
  obtain ⟨o', t', h', -⟩ := probFromSampleSet_fresh (G := G) f₂ hr h₂ size hsize
  have hx : x.length = n := f₁.hcons.1.values x f₁.hvals
  have hw : w.length = n := f₁.hcons.1.probabilities w f₁.hprobs
  have hw' : w'.length = n := f₂.hcons.1.probabilities w' f₂.hprobs
  refine ⟨_, _, by rw [transported, h]; rfl, by rw [transported, h']; rfl, by simp, by simp, ?_⟩
  refine gathered_l1 (by simp [hx, hw]) (by simp [hx, hw']) ?_
  intro k hk
  obtain ⟨x, -, rfl⟩ := List.mem_map.mp hk
  exact SampleSet.cell_lt hG hr x

theorem mass_mix (c : List Nat) {w w' : List K} (a b : K) (k : Nat) :
    w.length = w'.length → mass c (mix a b w w') k = a * mass c w k + b * mass c w' k := by
  intro h
  induction c generalizing w w' with
  | nil => simp
  | cons j c ih =>
    cases w with
    | nil => cases w' with
      | nil => simp [mix]
      | cons b w' => simp at h
    | cons x w => cases w' with
      | nil => simp at h
      | cons x' w' =>
        have := ih (w := w) (w' := w') (by simpa using h)
        simp only [mix, List.zipWith_cons_cons, mass_cons] at this ⊢
        rw [this]
        split <;> ring

/-- **C152.** Transporting a mixture gives the mixture of what is transported, whatever the factors are. -/
theorem C152_transport_mix {G : Geometry K} {size : Nat} (hsize : 0 < size) {old₁ old₂ old₃ new : SampleSet K}
    {n m : Nat} {x : List (List K)} {w w' : List K} {a b : K} (f₁ : FreshProb old₁ n x w) (f₂ : FreshProb old₂ n x w')
    (f₃ : FreshProb old₃ n x (mix a b w w')) (hr : Ready new m) (h₁ : old₁.dim = new.dim) (h₂ : old₂.dim = new.dim)
    (h₃ : old₃.dim = new.dim) :
    ∃ P Q, transported G size old₁ new = some P ∧ transported G size old₂ new = some Q ∧
      transported G size old₃ new = some (mix a b P Q) := by
  obtain ⟨o, t, h, -⟩ := probFromSampleSet_fresh (G := G) f₁ hr h₁ size hsize
  obtain ⟨o', t', h', -⟩ := probFromSampleSet_fresh (G := G) f₂ hr h₂ size hsize
  obtain ⟨o'', t'', h'', -⟩ := probFromSampleSet_fresh (G := G) f₃ hr h₃ size hsize
  have hw : w.length = n := f₁.hcons.1.probabilities w f₁.hprobs
  have hw' : w'.length = n := f₂.hcons.1.probabilities w' f₂.hprobs
  refine ⟨_, _, by rw [transported, h]; rfl, by rw [transported, h']; rfl, ?_⟩
  rw [transported, h'']
  simp only [Except.toOption, Option.map_some, Option.some.injEq]
  apply List.ext_getElem
  · simp [mix]
  · intro k h1 h2
    rw [show (mix a b _ _)[k] = _ from List.getElem_zipWith ..]
    simp only [List.getElem_map, List.getElem_range]
    exact mass_mix _ _ _ _ (hw.trans hw'.symm)

theorem emShare_eq_solved {z : List (List K)} (c : List K → Nat) (p : List K) :
    (z.map fun x => emShare p (z.map c) (c x) / 1) =
      z.map fun x => if 0 < p.getD (c x) 0 then p.getD (c x) 0 / (hits (z.map c) (c x) : K) else 0 := by
  simp only [emShare, div_one]

theorem transportedEmulated_hit {G : Geometry K} (hG : Sound G) {size : Nat} (hsize : 0 < size)
    {old new em : SampleSet K} {n m k : Nat} (ho : Ready old n) (hr : Ready new m) {p : List K}
    (hprobs : old.glob.probabilities = some p) (hem : Consistent em k) {z : List (List K)}
    (hz : em.glob.values = some z) (hzl : em.loc.values = none) (hd₁ : old.dim = new.dim) (hd₂ : old.dim = em.dim)
    (hp : IsProbVector p)
    (hhit : ∀ c, 0 < p.getD c 0 → ∃ pt ∈ z, ∀ c', IsCell G old pt c' → c' = c) :
    transportedEmulated G size old new em = some ((List.range m).map (mass (z.map (new.cell G))
      (z.map fun x => if 0 < p.getD (old.cell G x) 0 then
        p.getD (old.cell G x) 0 / (hits (z.map (old.cell G)) (old.cell G x) : K) else 0))) := by
  have hpos : ∃ c, 0 < p.getD c 0 := by
    by_contra hno
    push Not at hno
    have : p.sum ≤ 0 := by
      rw [eq_map_getD p]
      refine (List.sum_le_sum (g := fun _ => 0) fun c _ => hno c).trans (by simp)
    rw [hp.2] at this
    exact absurd this (by simp)
  obtain ⟨c, hc⟩ := hpos
  obtain ⟨pt, hpt, hcell⟩ := hhit c hc
  obtain ⟨o', n', e', total, h, htot⟩ := C08_succeeds hG ho hr hprobs hem hz hzl hd₁ hd₂
    ⟨pt, hpt, fun c' hc' => by
      rw [hcell c' hc']
      rw [List.getD_eq_getElem?_getD] at hc
      cases hx : p[c]? with
      | none => rw [hx] at hc; simp at hc
      | some x => rw [hx] at hc; exact ⟨x, rfl, hc⟩⟩ size hsize
  have hno : ((List.range n).any fun i => decide (0 < p.getD i 0) &&
          hits (z.map (old.cell G)) i == 0) = false := by
    rw [List.any_eq_false]
    intro i _ hi
    simp only [Bool.and_eq_true, decide_eq_true_eq, beq_iff_eq] at hi
    obtain ⟨pt, hpt, hcell⟩ := hhit i hi.1
    have : old.cell G pt = i := hcell _ (SampleSet.cell_isCell hG ho pt)
    have hin : i ∈ z.map (old.cell G) := List.mem_map.mpr ⟨pt, hpt, this⟩
    have := List.count_pos_iff.mpr hin
    unfold hits at hi
    omega
  rw [hno] at htot
  simp only [Bool.false_eq_true, if_false] at htot
  subst htot
  rw [emShare_eq_solved] at h
  rw [transportedEmulated, probFromSampleSetWithEmulatedVolumes, h]
  rfl

/-- **C152.** `prob_from_sample_set_with_emulated_volumes` does not amplify differences either, as long as every old
cell of positive probability contains an emulated point. -/
theorem C152_emulated_volumes {G : Geometry K} (hG : Sound G) {size : Nat} (hsize : 0 < size)
    {old₁ old₂ new em : SampleSet K} {n m k : Nat} (ho₁ : Ready old₁ n) (ho₂ : Ready old₂ n) (hr : Ready new m)
    {p q : List K} (hp : old₁.glob.probabilities = some p) (hq : old₂.glob.probabilities = some q)
    (hcells : EqualCells old₁ old₂) (hem : Consistent em k) {z : List (List K)}
    (hz : em.glob.values = some z) (hzl : em.loc.values = none) (hd₁ : old₁.dim = new.dim) (hd₂ : old₁.dim = em.dim)
    (hd₃ : old₂.dim = old₁.dim) (hpv : IsProbVector p) (hqv : IsProbVector q)
    (hhit : ∀ c, 0 < p.getD c 0 ∨ 0 < q.getD c 0 → ∃ pt ∈ z, ∀ c', IsCell G old₁ pt c' → c' = c) :
    ∃ P Q, transportedEmulated G size old₁ new em = some P ∧ transportedEmulated G size old₂ new em = some Q ∧
      P.length = m ∧ Q.length = m ∧ l1 P Q ≤ l1 p q := by
  have hcell := EqualCells.cell hcells G
  have hIs : ∀ pt c, IsCell G old₂ pt c ↔ IsCell G old₁ pt c := by
    intro pt c
    unfold IsCell
    rw [hcells.kind, hcells.values, hcells.pNorm, hcells.left, hcells.right, hcells.radii]
  have hpl : p.length = n := ho₁.consistent.1.probabilities p hp
  have hql : q.length = n := ho₂.consistent.1.probabilities q hq
  refine ⟨_, _, transportedEmulated_hit hG hsize ho₁ hr hp hem hz hzl hd₁ hd₂ hpv fun c hc => hhit c (Or.inl hc),
    transportedEmulated_hit hG hsize ho₂ hr hq hem hz hzl (hd₃.trans hd₁) (hd₃.trans hd₂) hqv fun c hc => ?_,
    by simp, by simp, ?_⟩
  · obtain ⟨pt, h1, h2⟩ := hhit c (Or.inr hc)
    exact ⟨pt, h1, fun c' hc' => h2 c' ((hIs pt c').1 hc')⟩
  · refine (gathered_l1 (by simp) (by simp) ?_).trans ?_
    · intro k hk
      obtain ⟨x, -, rfl⟩ := List.mem_map.mp hk
      exact SampleSet.cell_lt hG hr x
    · rw [← hcell, emulated_as_solved, emulated_as_solved,
        solved_l1 (m := n) (by simp) (by simp) ?_ hpv.1 hqv.1, l1_getD hpl hql]
      · refine List.sum_le_sum fun k _ => ?_
        split
        · exact le_rfl
        · exact abs_nonneg _
      · intro k hk
        obtain ⟨x, -, rfl⟩ := List.mem_map.mp hk
        exact SampleSet.cell_lt hG ho₁ x

end order

end BET

namespace BET.Ex

open BET.Spec

/-- Three cells on a line, with any probabilities. -/
def onLine (p : Option (List ℚ)) : SampleSet ℚ :=
  { dim := 1, glob := { values := some [[0], [1], [2]], probabilities := p } }

/-- Emulated points in the first two of these cells only. -/
def firstTwo : SampleSet ℚ := { dim := 1, glob := { values := some [[0], [1]] } }

theorem onLine_ready (a b c : ℚ) : Ready (onLine (some [a, b, c])) 3 :=
  ⟨consistent_of _ _ rfl rfl, by decide, rfl, Or.inl rfl, nofun, nofun⟩

theorem firstTwo_ready : Ready firstTwo 2 :=
  ⟨consistent_of _ _ rfl rfl, by decide, rfl, Or.inl rfl, nofun, nofun⟩

theorem onLine_same (p q : Option (List ℚ)) : EqualCells (onLine p) (onLine q) := ⟨rfl, rfl, rfl, rfl, rfl, rfl⟩

theorem onLine_hit {p q r : ℚ} (h : 0 < p) : ∃ pt ∈ ([[0], [1]] : List (List ℚ)), ∀ c,
    IsCell G (onLine (some [p, q, r])) pt c → ∃ x, [p, q, r][c]? = some x ∧ 0 < x := by
  refine ⟨[0], by simp, fun c hc => ?_⟩
  obtain ⟨w, hw, hmin⟩ := hc _ rfl
  have h0 := hmin [0] (by decide)
  rcases c with _ | _ | _ | c
  · exact ⟨p, rfl, h⟩
  · cases hw; exact absurd (show G.dist 2 [0] [1] ≤ G.dist 2 [0] [0] from h0) (by decide +kernel)
  · cases hw; exact absurd (show G.dist 2 [0] [2] ≤ G.dist 2 [0] [0] from h0) (by decide +kernel)
  · simp at hw

theorem onLine_hit' {p q r : ℚ} (h : 0 < q) : ∃ pt ∈ ([[0], [1]] : List (List ℚ)), ∀ c,
    IsCell G (onLine (some [p, q, r])) pt c → ∃ x, [p, q, r][c]? = some x ∧ 0 < x := by
  refine ⟨[1], by simp, fun c hc => ?_⟩
  obtain ⟨w, hw, hmin⟩ := hc _ rfl
  have h0 := hmin [1] (by decide)
  rcases c with _ | _ | _ | c
  · cases hw; exact absurd (show G.dist 2 [1] [0] ≤ G.dist 2 [1] [1] from h0) (by decide +kernel)
  · exact ⟨q, rfl, h⟩
  · cases hw; exact absurd (show G.dist 2 [1] [2] ≤ G.dist 2 [1] [1] from h0) (by decide +kernel)
  · simp at hw

theorem onLine_cells : ([[0], [1]] : List (List ℚ)).map ((onLine none).cell G) = [0, 1] := by decide +kernel

theorem firstTwo_cells : ([[0], [1]] : List (List ℚ)).map (firstTwo.cell G) = [0, 1] := by decide +kernel

theorem onLine_transported {p q r : ℚ} (h : 0 < p ∧ 0 = q ∨ 0 = p ∧ 0 < q) (hr : 0 < r) :
    transportedEmulated G 1 (onLine (some [p, q, r])) firstTwo firstTwo =
      some (if 0 < p then [1, 0] else [0, 1]) := by
  obtain ⟨o, n, e, total, h1, h2⟩ := C08_succeeds sound_G (onLine_ready p q r) firstTwo_ready rfl
    firstTwo_ready.consistent (z := [[0], [1]]) rfl rfl rfl rfl
    (by rcases h with h | h
        · exact onLine_hit h.1
        · exact onLine_hit' h.2) 1 (by decide)
  have hc0 : (onLine (some [p, q, r])).cell G [0] = 0 := by
    rw [EqualCells.cell (onLine_same _ none)]; decide +kernel
  have hc1 : (onLine (some [p, q, r])).cell G [1] = 1 := by
    rw [EqualCells.cell (onLine_same _ none)]; decide +kernel
  rw [transportedEmulated, probFromSampleSetWithEmulatedVolumes, h1]
  simp only [List.map_cons, List.map_nil, hc0, hc1, List.sum_cons, List.sum_nil] at h2 ⊢
  have hw : ((List.range 3).any fun i => decide (0 < [p, q, r].getD i 0) && hits [0, 1] i == 0) = true := by
    rw [List.any_eq_true]
    exact ⟨2, by decide, by simp [hr, hits]⟩
  rw [hw, if_pos rfl] at h2
  have ht : firstTwo.cell G [0] = 0 ∧ firstTwo.cell G [1] = 1 := by decide +kernel
  simp only [ht.1, ht.2]
  have e0 : emShare [p, q, r] [0, 1] 0 = p := by
    rcases h with ⟨h, rfl⟩ | ⟨rfl, h⟩ <;> simp [emShare, hits, h]
  have e1 : emShare [p, q, r] [0, 1] 1 = q := by
    rcases h with ⟨h, rfl⟩ | ⟨rfl, h⟩ <;> simp [emShare, hits, h]
  rw [e0, e1] at h2 ⊢
  subst h2
  rcases h with ⟨h, rfl⟩ | ⟨rfl, h⟩
  · simp [h, h.ne', mass, List.range_succ, Bind.bind, Except.bind, pure, Except.pure, Except.toOption]
  · simp [h, h.ne', mass, List.range_succ, Bind.bind, Except.bind, pure, Except.pure, Except.toOption]

end BET.Ex

namespace BET

open Spec

/-- **C152, what is false.** Where an old cell of positive probability contains no emulated point,
`prob_from_sample_set_with_emulated_volumes` divides by what is left and can amplify a difference without bound:
for every `ε` there are two probability vectors at distance `2 ε` whose results are at the largest distance there is,
2. -/
theorem C152_negation_renormalized (ε : ℚ) (h0 : 0 < ε) (h1 : ε < 1) :
    ∃ (old₁ old₂ new em : SampleSet ℚ) (p q P Q : List ℚ), Ready old₁ 3 ∧ Ready old₂ 3 ∧ Ready new 2 ∧
      Consistent em 2 ∧ EqualCells old₁ old₂ ∧ old₁.glob.probabilities = some p ∧ old₂.glob.probabilities = some q ∧
      IsProbVector p ∧ IsProbVector q ∧ transportedEmulated Ex.G 1 old₁ new em = some P ∧
      transportedEmulated Ex.G 1 old₂ new em = some Q ∧ l1 p q = 2 * ε ∧ l1 P Q = 2 := by
  have hr : 0 < 1 - ε := by linarith
  refine ⟨Ex.onLine (some [ε, 0, 1 - ε]), Ex.onLine (some [0, ε, 1 - ε]), Ex.firstTwo, Ex.firstTwo, _, _, _, _,
    Ex.onLine_ready _ _ _, Ex.onLine_ready _ _ _, Ex.firstTwo_ready, Ex.firstTwo_ready.consistent,
    Ex.onLine_same _ _, rfl, rfl, ?_, ?_, Ex.onLine_transported (Or.inl ⟨h0, rfl⟩) hr,
    Ex.onLine_transported (Or.inr ⟨rfl, h0⟩) hr, ?_, ?_⟩
  · refine ⟨?_, by simp⟩
    simp [h0.le, h1.le]
  · refine ⟨?_, by simp⟩
    simp [h0.le, h1.le]
  · simp [l1, abs_of_pos h0]; ring
  · simp [l1, h0]; norm_num

end BET

namespace BET.Ex

open BET.Spec

/-- The discretization of C01 with other probabilities and other volumes. -/
def probDiscWith (v p : List ℚ) : Disc ℚ :=
  { probDisc with
    input := some { dim := 1, glob := { values := some [[0], [1], [2], [3]], volumes := some v } }
    outputProb := some { dim := 1, glob := { values := some [[0], [1], [7]], probabilities := some p } } }

theorem probDiscWith_fresh (v₁ v₂ v₃ v₄ p₁ p₂ p₃ : ℚ) :
    FreshDisc (probDiscWith [v₁, v₂, v₃, v₄] [p₁, p₂, p₃]) 4 3
      { dim := 1, glob := { values := some [[0], [1], [2], [3]], volumes := some [v₁, v₂, v₃, v₄] } }
      { dim := 1, glob := { values := some [[0], [1/10], [1], [11/10]] } }
      { dim := 1, glob := { values := some [[0], [1], [7]], probabilities := some [p₁, p₂, p₃] } }
      [[0], [1/10], [1], [11/10]] [v₁, v₂, v₃, v₄] [p₁, p₂, p₃] :=
  ⟨rfl, consistent_of _ _ rfl rfl, rfl, rfl, rfl, rfl, consistent_of _ _ rfl rfl, rfl, rfl, rfl,
    ⟨consistent_of _ _ rfl rfl, by decide, rfl, Or.inl rfl, nofun, nofun⟩, rfl, rfl⟩

/-- `C152_prob` and `C152_prob_reached` for two cells that are reached. -/
example : ∃ P Q, solution G 2 (probDiscWith [1/8, 3/8, 1/4, 1/4] [1/2, 1/4, 1/4]) = some P ∧
    solution G 2 (probDiscWith [1/8, 3/8, 1/4, 1/4] [1/4, 1/2, 1/4]) = some Q ∧
    l1 P Q = l1 [1/2, 1/4, 1/4] [1/4, 1/2, 1/4] :=
  C152_prob_reached sound_G (by decide) (probDiscWith_fresh ..) (probDiscWith_fresh ..) ⟨rfl, rfl, rfl, rfl, rfl, rfl⟩
    (by decide +kernel) (by decide +kernel) (by decide +kernel) (by decide +kernel)

/-- The third cell is not reached: there the solutions are nearer to each other than the data. -/
example : (do
    let P ← solution G 2 (probDiscWith [1/8, 3/8, 1/4, 1/4] [1/2, 1/4, 1/4])
    let Q ← solution G 2 (probDiscWith [1/8, 3/8, 1/4, 1/4] [1/2, 1/2, 0])
    pure (l1 P Q)) = some (1/4) ∧ l1 [1/2, 1/4, 1/4] [1/2, 1/2, (0 : ℚ)] = 1/2 := by decide +kernel

example : ∃ P Q, solution G 2 (probDiscWith [1/8, 3/8, 1/4, 1/4] [1/2, 1/2, 0]) = some P ∧
    solution G 2 (probDiscWith [1/8, 3/8, 1/4, 1/4] [0, 1, 0]) = some Q ∧
    solution G 2 (probDiscWith [1/8, 3/8, 1/4, 1/4] (mix (1/3) (2/3) [1/2, 1/2, 0] [0, 1, 0])) =
      some (mix (1/3) (2/3) P Q) :=
  C152_prob_mix (by decide) (probDiscWith_fresh ..) (probDiscWith_fresh ..) (probDiscWith_fresh ..)
    ⟨rfl, rfl, rfl, rfl, rfl, rfl⟩ ⟨rfl, rfl, rfl, rfl, rfl, rfl⟩ (by decide +kernel) (by decide +kernel)
    (by decide +kernel) (by decide +kernel)

/-- Volumes that are wrong by a tenth. -/
example : ∃ P Q, solution G 2 (probDiscWith [1/8, 3/8, 1/4, 1/4] [1/2, 1/4, 1/4]) = some P ∧
    solution G 2 (probDiscWith [9/80, 33/80, 1/4, 9/40] [1/2, 1/4, 1/4]) = some Q ∧
    List.Forall₂ (fun a b => |a - b| ≤ 1/10 * (a + b)) P Q ∧ l1 P Q ≤ 2 * (1/10) * [1/2, 1/4, (1/4 : ℚ)].sum :=
  C152_volumes sound_G (by decide) (probDiscWith_fresh ..) (probDiscWith_fresh ..) ⟨rfl, rfl, rfl, rfl, rfl, rfl⟩
    (by decide +kernel) (by decide +kernel)
    (.cons (by decide +kernel) (.cons (by decide +kernel) (.cons (by decide +kernel) (.cons (by decide +kernel) .nil))))
    (by decide +kernel) (by decide +kernel)

/-- Emulated points. -/
def emDiscWith (p : List ℚ) : Disc ℚ :=
  { probDiscWith [1/8, 3/8, 1/4, 1/4] p with
    emInput := some { dim := 1, glob := { values := some [[0], [1/5], [19/10], [2], [3]] } } }

theorem emDiscWith_fresh (p₁ p₂ p₃ : ℚ) : FreshEm (emDiscWith [p₁, p₂, p₃]) 4 3 5
      { dim := 1, glob := { values := some [[0], [1], [2], [3]], volumes := some [1/8, 3/8, 1/4, 1/4] } }
      { dim := 1, glob := { values := some [[0], [1/10], [1], [11/10]] } }
      { dim := 1, glob := { values := some [[0], [1], [7]], probabilities := some [p₁, p₂, p₃] } }
      { dim := 1, glob := { values := some [[0], [1/5], [19/10], [2], [3]] } }
      [[0], [1/10], [1], [11/10]] [[0], [1/5], [19/10], [2], [3]] [p₁, p₂, p₃] :=
  ⟨rfl, ⟨consistent_of _ _ rfl rfl, by decide, rfl, Or.inl rfl, nofun, nofun⟩, rfl, consistent_of _ _ rfl rfl, rfl, rfl,
    rfl, ⟨consistent_of _ _ rfl rfl, by decide, rfl, Or.inl rfl, nofun, nofun⟩, rfl, rfl, consistent_of _ _ rfl rfl,
    rfl, rfl, rfl, rfl⟩

example : ∃ P Q, emulatedSolution G 2 (emDiscWith [1/2, 1/4, 1/4]) = some P ∧
    emulatedSolution G 2 (emDiscWith [1/2, 1/2, 0]) = some Q ∧ P.length = 5 ∧ Q.length = 5 ∧
    l1 P Q ≤ l1 [1/2, 1/4, 1/4] [1/2, 1/2, 0] :=
  C152_emulated sound_G (by decide) (emDiscWith_fresh ..) (emDiscWith_fresh ..) ⟨rfl, rfl, rfl, rfl, rfl, rfl⟩
    (by decide +kernel) (by decide +kernel)

/-- Transports. -/
theorem onLine_freshProb (a b c : ℚ) : FreshProb (onLine (some [a, b, c])) 3 [[0], [1], [2]] [a, b, c] :=
  ⟨consistent_of _ _ rfl rfl, rfl, rfl, rfl⟩

example : ∃ P Q, transported G 2 (onLine (some [1/2, 1/2, 0])) firstTwo = some P ∧
    transported G 2 (onLine (some [0, 1/2, 1/2])) firstTwo = some Q ∧ P.length = 2 ∧ Q.length = 2 ∧
    l1 P Q ≤ l1 [1/2, 1/2, 0] [0, 1/2, 1/2] :=
  C152_transport sound_G (by decide) (onLine_freshProb ..) (onLine_freshProb ..) firstTwo_ready rfl rfl

example : ∃ P Q, transported G 2 (onLine (some [1/2, 1/2, 0])) firstTwo = some P ∧
    transported G 2 (onLine (some [0, 1/2, 1/2])) firstTwo = some Q ∧
    transported G 2 (onLine (some (mix 2 (-1) [1/2, 1/2, 0] [0, 1/2, 1/2]))) firstTwo = some (mix 2 (-1) P Q) :=
  C152_transport_mix (by decide) (onLine_freshProb ..) (onLine_freshProb ..) (onLine_freshProb ..) firstTwo_ready
    rfl rfl rfl

/-- The guard of `C152_emulated_volumes`: the third cell has no probability. -/
example : ∀ c, 0 < ([1/2, 1/2, 0] : List ℚ).getD c 0 ∨ 0 < ([1/4, 3/4, 0] : List ℚ).getD c 0 →
    ∃ pt ∈ ([[0], [1]] : List (List ℚ)), ∀ c', IsCell G (onLine (some [1/2, 1/2, 0])) pt c' → c' = c := by
  have key : ∀ a : ℚ, ∀ i, ([[0], [1], [2]] : List (List ℚ))[i]? = some [a] → ∀ c',
      IsCell G (onLine (some [1/2, 1/2, 0])) [a] c' → c' = i := by
    intro a i hi c' hc
    obtain ⟨w, hw, hmin⟩ := hc _ rfl
    have h0 := hmin [a] (List.mem_of_getElem? hi)
    rcases i with _ | _ | _ | i <;> rcases c' with _ | _ | _ | c' <;> cases hi <;> cases hw <;>
      first | rfl | (revert h0; decide +kernel)
  intro c hc
  rcases c with _ | _ | _ | c
  · exact ⟨[0], by simp, key 0 0 rfl⟩
  · exact ⟨[1], by simp, key 1 1 rfl⟩
  · exact absurd hc (by decide +kernel)
  · simp at hc

end BET.Ex
