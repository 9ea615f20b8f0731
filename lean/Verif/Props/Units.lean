import Verif.Props.Reorder
import Verif.Props.Rectangle
import Verif.Props.Voronoi1D
import Verif.Props.Convergence

/-!
# C157: the units of the inputs and of the data do not matter
-/

set_option autoImplicit false
set_option linter.unusedSectionVars false
set_option linter.unusedSimpArgs false

namespace BET

open Spec

variable {K : Type} [Field K] [LinearOrder K]

namespace Spec

/-- A row in other units: every coordinate times the same number `c`, with its own new origin. -/
def newUnits (c : K) (b x : List K) : List K := List.zipWith (fun t u => c * t + u) x b

/-- A row where every coordinate has a unit of its own, perhaps on a scale that is not linear. -/
def ownUnits (fs : List (K → K)) (x : List K) : List K := List.zipWith (fun f t => f t) fs x

/-- All rows have `dim` entries. -/
def Rows (dim : Nat) (x : List (List K)) : Prop := ∀ a ∈ x, a.length = dim

/-- The distance of rows with `dim` entries in other units is the distance in those units. -/
def Homogeneous (G : Geometry K) (p dim : Nat) : Prop :=
  ∀ (c : K) (b x y : List K), b.length = dim → x.length = dim → y.length = dim →
    G.dist p (newUnits c b x) (newUnits c b y) = |c| * G.dist p x y

/-- The cells of the set `t` are those of the set `s` in other units, where `f` changes the units of a row. The points
`ys` will be looked up: for Voronoi cells none of them has two nearest samples. -/
inductive Converted (G : Geometry K) (dim : Nat) (ys : List (List K)) : (List K → List K) → SampleSet K → SampleSet K → Prop
  | voronoi {s t : SampleSet K} {cs : List (List K)} (c : K) (b : List K) (hc : c ≠ 0) (hb : b.length = dim)
      (noTies : NoTies G s cs ys) (rows : Rows dim cs) (kind : t.kind = .voronoi) (norm : t.pNorm = s.pNorm)
      (homogeneous : Homogeneous G s.pNorm dim) (values : t.glob.values = some (cs.map (newUnits c b))) :
      Converted G dim ys (newUnits c b) s t
  | ball {s t : SampleSet K} {cs : List (List K)} {rs : List K} {e e' : List K} {r r' : K} (c : K) (b : List K)
      (hc : c ≠ 0) (hb : b.length = dim) (kindS : s.kind = .ball) (kind : t.kind = .ball) (norm : t.pNorm = s.pNorm)
      (rows : Rows dim cs) (homogeneous : Homogeneous G s.pNorm dim) (length : rs.length = cs.length)
      (valuesS : s.glob.values = some (cs ++ [e])) (radiiS : s.glob.radii = some (rs ++ [r]))
      (values : t.glob.values = some (cs.map (newUnits c b) ++ [e']))
      (radii : t.glob.radii = some (rs.map (|c| * ·) ++ [r'])) :
      Converted G dim ys (newUnits c b) s t
  | rectangle {s t : SampleSet K} {v v' maxes mins : List (List K)} {e e' o o' : List K} (fs : List (K → K))
      (hfs : fs.length = dim) (increasing : ∀ f ∈ fs, StrictMono f) (kindS : s.kind = .rectangle)
      (kind : t.kind = .rectangle) (rowsMax : Rows dim maxes) (rowsMin : Rows dim mins)
      (lengthMax : maxes.length + 1 = v.length) (lengthMin : mins.length + 1 = v.length)
      (valuesS : s.glob.values = some v) (rightS : s.glob.right = some (maxes ++ [e]))
      (leftS : s.glob.left = some (mins ++ [o])) (values : t.glob.values = some v') (length : v'.length = v.length)
      (right : t.glob.right = some (maxes.map (ownUnits fs) ++ [e']))
      (left : t.glob.left = some (mins.map (ownUnits fs) ++ [o'])) :
      Converted G dim ys (ownUnits fs) s t

end Spec

section cells
variable [IsStrictOrderedRing K] {G : Geometry K}

theorem Homogeneous.le_iff {p dim : Nat} (h : Homogeneous G p dim) {c : K} (hc : c ≠ 0) {b x y z : List K}
    (hb : b.length = dim) (hx : x.length = dim) (hy : y.length = dim) (hz : z.length = dim) :
    G.dist p (newUnits c b x) (newUnits c b y) ≤ G.dist p (newUnits c b x) (newUnits c b z) ↔
      G.dist p x y ≤ G.dist p x z := by
  rw [h c b x y hb hx hy, h c b x z hb hx hz]
  exact mul_le_mul_iff_right₀ (abs_pos.2 hc)

theorem firstRegion_congr {num : Nat} {f g : Nat → Bool} (h : ∀ i < num - 1, f i = g i) :
    firstRegion num f = firstRegion num g := by
  unfold firstRegion
  rw [List.filter_congr fun i hi => h i (List.mem_range.1 hi)]

theorem inRect_ownUnits {dim : Nat} {fs : List (K → K)} (hfs : fs.length = dim) (hm : ∀ f ∈ fs, StrictMono f)
    {l r x : List K} (hl : l.length = dim) (hr : r.length = dim) (hx : x.length = dim) :
    inRect (ownUnits fs l) (ownUnits fs r) (ownUnits fs x) = inRect l r x := by
  induction fs generalizing dim l r x with
  | nil =>
    subst hfs
    simp only [List.length_nil, List.length_eq_zero_iff] at hl hr hx
    subst hl hr hx
    rfl
  | cons f fs ih =>
    obtain ⟨a, l, rfl⟩ := List.exists_cons_of_length_pos (by rw [hl, ← hfs]; simp)
    obtain ⟨b, r, rfl⟩ := List.exists_cons_of_length_pos (by rw [hr, ← hfs]; simp)
    obtain ⟨c, x, rfl⟩ := List.exists_cons_of_length_pos (by rw [hx, ← hfs]; simp)
    have hf := hm f (by simp)
    have hrec := ih (dim := fs.length) rfl (fun g hg => hm g (by simp [hg])) (l := l) (r := r) (x := x)
      (by simpa [← hfs] using hl) (by simpa [← hfs] using hr) (by simpa [← hfs] using hx)
    unfold inRect ownUnits at hrec ⊢
    simp only [List.zipWith_cons_cons, List.all_cons, id, gt_iff_lt, hf.le_iff_le, hf.lt_iff_lt] at hrec ⊢
    generalize (List.zipWith (fun a b => decide (a ≤ b)) (List.zipWith (fun f t => f t) fs x)
      (List.zipWith (fun f t => f t) fs r)).all id = A at hrec ⊢
    generalize (List.zipWith (fun a b => decide (b < a)) (List.zipWith (fun f t => f t) fs x)
      (List.zipWith (fun f t => f t) fs l)).all id = B at hrec ⊢
    generalize (List.zipWith (fun a b => decide (a ≤ b)) x r).all id = A' at hrec ⊢
    generalize (List.zipWith (fun a b => decide (b < a)) x l).all id = B' at hrec ⊢
    generalize decide (c ≤ b) = u
    generalize decide (a < c) = w
    revert hrec
    cases A <;> cases B <;> cases A' <;> cases B' <;> cases u <;> cases w <;> decide

/-- Points in the new units are in the same cells. -/
theorem Converted.cell (hG : Sound G) {dim m : Nat} {ys : List (List K)} {f : List K → List K} {s t : SampleSet K}
    (h : Converted G dim ys f s t) (hr : Ready s m) {y : List K} (hy : y ∈ ys) (hd : y.length = dim) :
    t.cell G (f y) = s.cell G y := by
  cases h with
  | @voronoi _ _ cs c b hc hb noTies rows kind norm hom values =>
    have hcs : cs.length = m := hr.consistent.1.values cs noTies.values
    have hne : cs ≠ [] := by rintro rfl; have := hr.pos; simp at hcs; omega
    obtain ⟨a, ha, h1⟩ := NoTies.point hG noTies hne y
    have e : t.cell G (newUnits c b y) = G.nn s.pNorm (cs.map (newUnits c b)) (newUnits c b y) := by
      simp [SampleSet.cell, kind, values, norm]
    obtain ⟨a', ha', h2⟩ := hG s.pNorm (cs.map (newUnits c b)) (newUnits c b y) (by simpa using hne)
    rw [← e, List.getElem?_map, Option.map_eq_some_iff] at ha'
    obtain ⟨a'', ha'', rfl⟩ := ha'
    have m1 := List.mem_of_getElem? ha
    have m2 := List.mem_of_getElem? ha''
    have h3 := (Homogeneous.le_iff hom hc hb hd (rows _ m2) (rows _ m1)).1 (h2 _ (List.mem_map_of_mem m1))
    have := noTies.apart y hy a m1 a'' m2 h1 (le_antisymm (h1 _ m2) h3)
    subst this
    exact getElem?_inj noTies.distinct ha'' ha
  | @ball _ _ cs rs e e' r r' c b hc hb kindS kind norm rows hom length valuesS radiiS values radii =>
    unfold SampleSet.cell
    rw [kindS, kind, valuesS, radiiS, values, radii, norm]
    simp only [Option.getD_some, List.length_append, List.length_map, List.length_cons, List.length_nil]
    refine firstRegion_congr fun i hi => ?_
    have hi : i < cs.length := by omega
    have hi' : i < rs.length := by omega
    rw [List.getElem?_append_left (by simpa using hi), List.getElem?_append_left (by simpa using hi'),
      List.getElem?_append_left hi, List.getElem?_append_left hi', List.getElem?_map, List.getElem?_map,
      List.getElem?_eq_getElem hi, List.getElem?_eq_getElem hi']
    simp only [Option.map_some]
    rw [hom c b y cs[i] hb hd (rows _ (List.getElem_mem hi))]
    exact decide_eq_decide.2 (mul_lt_mul_iff_right₀ (abs_pos.2 hc))
  | @rectangle _ _ v v' maxes mins e e' o o' fs hfs inc kindS kind rowsMax rowsMin lengthMax lengthMin valuesS rightS leftS
      values length right left =>
    unfold SampleSet.cell
    rw [kindS, kind, valuesS, rightS, leftS, values, right, left]
    simp only [Option.getD_some, length]
    refine firstRegion_congr fun i hi => ?_
    have hi : i < maxes.length := by omega
    have hi' : i < mins.length := by omega
    rw [List.getElem?_append_left (by simpa using hi), List.getElem?_append_left (by simpa using hi'),
      List.getElem?_append_left hi, List.getElem?_append_left hi', List.getElem?_map, List.getElem?_map,
      List.getElem?_eq_getElem hi, List.getElem?_eq_getElem hi']
    simp only [Option.map_some]
    exact inRect_ownUnits hfs inc (rowsMin _ (List.getElem_mem hi')) (rowsMax _ (List.getElem_mem hi)) hd

theorem Converted.cells (hG : Sound G) {dim m : Nat} {ys : List (List K)} {f : List K → List K} {s t : SampleSet K}
    (h : Converted G dim ys f s t) (hr : Ready s m) (hd : Rows dim ys) :
    (ys.map f).map (t.cell G) = ys.map (s.cell G) := by
  rw [List.map_map]
  exact List.map_congr_left fun y hy => Converted.cell hG h hr hy (hd y hy)

/-- **C157.** If the outputs and the cells of the data are in other units, `prob` gives the same probabilities; the
units of the inputs play no role. -/
theorem C157_prob (hG : Sound G) {size : Nat} (hsize : 0 < size) {d₁ d₂ : Disc K} {n m dim : Nat}
    {inp₁ out₁ ops₁ inp₂ out₂ ops₂ : SampleSet K} {y : List (List K)} {f : List K → List K} {v p : List K}
    (f₁ : FreshDisc d₁ n m inp₁ out₁ ops₁ y v p) (f₂ : FreshDisc d₂ n m inp₂ out₂ ops₂ (y.map f) v p)
    (hy : Rows dim y) (h : Converted G dim y f ops₁ ops₂) :
    ∃ P, P.length = n ∧ solution G size d₁ = some P ∧ solution G size d₂ = some P := by
  obtain ⟨hyl, hvl, -⟩ := FreshDisc.lengths f₁
  refine ⟨_, ?_, FreshDisc.solved f₁ hsize, ?_⟩
  · simp [hyl, hvl]
  · rw [FreshDisc.solved f₂ hsize, Converted.cells hG h f₁.hready hy]

/-- **C157.** If the outputs and the cells of the data, and the samples and the emulated points, are in other units,
`prob_on_emulated_samples` gives the same probabilities. -/
theorem C157_emulated (hG : Sound G) {size : Nat} (hsize : 0 < size) {d₁ d₂ : Disc K} {n m k dim dim' : Nat}
    {inp₁ out₁ ops₁ em₁ inp₂ out₂ ops₂ em₂ : SampleSet K} {y z : List (List K)} {f g : List K → List K} {p : List K}
    (f₁ : FreshEm d₁ n m k inp₁ out₁ ops₁ em₁ y z p)
    (f₂ : FreshEm d₂ n m k inp₂ out₂ ops₂ em₂ (y.map f) (z.map g) p)
    (hy : Rows dim y) (hz : Rows dim' z) (h : Converted G dim y f ops₁ ops₂) (h' : Converted G dim' z g inp₁ inp₂) :
    ∃ P, P.length = k ∧ emulatedSolution G size d₁ = some P ∧ emulatedSolution G size d₂ = some P := by
  have hzl : z.length = k := f₁.hemC.1.values z f₁.hemVals
  refine ⟨_, ?_, FreshEm.solved hG f₁ hsize, ?_⟩
  · rw [List.length_map, hzl]
  · rw [FreshEm.solved hG f₂ hsize, Converted.cells hG h f₁.hopsReady hy]
    have hc : ∀ x ∈ z, inp₂.cell G (g x) = inp₁.cell G x := fun x hx => Converted.cell hG h' f₁.hready hx (hz x hx)
    have e : ((z.map g).map fun x => (y.map (ops₁.cell G)).getD (inp₂.cell G x) 0) =
        z.map fun x => (y.map (ops₁.cell G)).getD (inp₁.cell G x) 0 := by
      rw [List.map_map]
      exact List.map_congr_left fun x hx => by rw [Function.comp_apply, hc x hx]
    rw [e, List.map_map]
    refine congrArg some (List.map_congr_left fun x hx => ?_)
    rw [Function.comp_apply, hc x hx]

/-- **C157.** If both sets are in other units, `prob_from_sample_set` gives the same probabilities. -/
theorem C157_transport (hG : Sound G) {size : Nat} (hsize : 0 < size) {old₁ old₂ new₁ new₂ : SampleSet K} {n m dim : Nat}
    {x : List (List K)} {f : List K → List K} {w : List K} (f₁ : FreshProb old₁ n x w)
    (f₂ : FreshProb old₂ n (x.map f) w) (hr₁ : Ready new₁ m) (hr₂ : Ready new₂ m) (hd₁ : old₁.dim = new₁.dim)
    (hd₂ : old₂.dim = new₂.dim) (hx : Rows dim x) (h : Converted G dim x f new₁ new₂) :
    ∃ P, P.length = m ∧ transported G size old₁ new₁ = some P ∧ transported G size old₂ new₂ = some P := by
  obtain ⟨o, t, e, -⟩ := probFromSampleSet_fresh (G := G) f₁ hr₁ hd₁ size hsize
  obtain ⟨o', t', e', -⟩ := probFromSampleSet_fresh (G := G) f₂ hr₂ hd₂ size hsize
  refine ⟨_, ?_, by rw [transported, e]; rfl, ?_⟩
  · simp
  · rw [transported, e', Converted.cells hG h hr₁ hx]
    rfl

theorem transportedEmulated_eq {size : Nat} {old new em : SampleSet K} {n m k : Nat} (ho : Ready old n)
    (hr : Ready new m) {p : List K} (hp : old.glob.probabilities = some p) (hem : Consistent em k) {z : List (List K)}
    (hz : em.glob.values = some z) (hzl : em.loc.values = none) (hd₁ : old.dim = new.dim) (hd₂ : old.dim = em.dim) :
    transportedEmulated G size old new em =
      ((List.range n).foldlM (emBody (some p) (arraySplit size (z.map (old.cell G))))
        ((arraySplit size (z.map (old.cell G))).map (fun c => List.replicate c.length (0 : K)), false) >>= fun r =>
        renormalize r.2 r.1 >>= fun pe => gatherLoop m (arraySplit size (z.map (new.cell G))) pe).toOption := by
  obtain ⟨s₁, q₁, -⟩ := SampleSet.query_ready (G := G) (size := size) ho (arraySplit size z)
  obtain ⟨s₂, q₂, -⟩ := SampleSet.query_ready (G := G) (size := size) hr (arraySplit size z)
  have hop : s₁.glob.probabilities = some p := by rw [(SampleSet.query_frame q₁).1]; exact hp
  have hvz : (em.splitSet size k).loc.values = some (arraySplit size z) := by
    simp [SampleSet.splitSet, Arrays.map₂, hz]
  have e1 : (arraySplit size z).map (fun c => c.map (old.cell G)) = arraySplit size (z.map (old.cell G)) :=
    (arraySplit_map _ _ _).symm
  have e2 : (arraySplit size z).map (fun c => c.map (new.cell G)) = arraySplit size (z.map (new.cell G)) :=
    (arraySplit_map _ _ _).symm
  rw [e1] at q₁
  rw [e2] at q₂
  unfold transportedEmulated probFromSampleSetWithEmulatedVolumes probFromSampleSetEmulated
  simp only [SampleSet.checkNum_consistent ho.consistent, SampleSet.checkNum_consistent hr.consistent,
    SampleSet.checkNum_consistent hem, ok_bind,
    raiseIf_false (show ¬ (old.dim ≠ new.dim ∨ old.dim ≠ em.dim) by simp [hd₁, ← hd₂]),
    SampleSet.localized_none size hzl, SampleSet.globalToLocal_ok hem, hvz, orErr_some, q₁, q₂, hop]
  cases h1 : (List.range n).foldlM (emBody (some p) (arraySplit size (z.map (old.cell G))))
      ((arraySplit size (z.map (old.cell G))).map (fun c => List.replicate c.length (0 : K)), false) with
  | error e => rfl
  | ok r =>
    simp only [ok_bind]
    cases h2 : renormalize r.2 r.1 with
    | error e => rfl
    | ok pe =>
      simp only [ok_bind]
      cases h3 : gatherLoop m (arraySplit size (z.map (new.cell G))) pe with
      | error e => rfl
      | ok w => rfl

/-- **C157.** If all three sets are in other units, `prob_from_sample_set_with_emulated_volumes` gives the same result:
the same probabilities, or no probabilities in both cases. -/
theorem C157_transport_emulated (hG : Sound G) {size : Nat} {old₁ old₂ new₁ new₂ em₁ em₂ : SampleSet K}
    {n m k dim : Nat} {z : List (List K)} {f : List K → List K} {p : List K} (ho₁ : Ready old₁ n) (ho₂ : Ready old₂ n)
    (hr₁ : Ready new₁ m) (hr₂ : Ready new₂ m) (hp₁ : old₁.glob.probabilities = some p)
    (hp₂ : old₂.glob.probabilities = some p) (hem₁ : Consistent em₁ k) (hem₂ : Consistent em₂ k)
    (hz₁ : em₁.glob.values = some z) (hz₂ : em₂.glob.values = some (z.map f)) (hl₁ : em₁.loc.values = none)
    (hl₂ : em₂.loc.values = none) (hd₁ : old₁.dim = new₁.dim ∧ old₁.dim = em₁.dim)
    (hd₂ : old₂.dim = new₂.dim ∧ old₂.dim = em₂.dim) (hz : Rows dim z) (h : Converted G dim z f old₁ old₂)
    (h' : Converted G dim z f new₁ new₂) :
    transportedEmulated G size old₂ new₂ em₂ = transportedEmulated G size old₁ new₁ em₁ := by
  rw [transportedEmulated_eq ho₁ hr₁ hp₁ hem₁ hz₁ hl₁ hd₁.1 hd₁.2,
    transportedEmulated_eq ho₂ hr₂ hp₂ hem₂ hz₂ hl₂ hd₂.1 hd₂.2, Converted.cells hG h ho₁ hz,
    Converted.cells hG h' hr₁ hz]

/-- **C157.** If the samples and the points are in other units, `estimate_volume` and `estimate_volume_emulated` give
the same volumes. -/
theorem C157_volumes (hG : Sound G) {size m dim : Nat} {s₁ s₂ : SampleSet K} {f : List K → List K} (hr₁ : Ready s₁ m)
    (hr₂ : Ready s₂ m) (hdom₁ : s₁.domain.isSome) (hdom₂ : s₂.domain.isSome) {mc : Chunks (List K)}
    (hpos : 0 < mc.flatten.length) (hmc : Rows dim mc.flatten) (h : Converted G dim mc.flatten f s₁ s₂) :
    ∃ t₁ t₂ v, s₁.estimateVolume G size mc.flatten.length mc = .ok t₁ ∧
      s₂.estimateVolume G size mc.flatten.length (mc.map fun c => c.map f) = .ok t₂ ∧ v.length = m ∧
      t₁.glob.volumes = some v ∧ t₂.glob.volumes = some v := by
  have hfl : (mc.map fun c => c.map f).flatten = mc.flatten.map f := by rw [List.map_flatten]
  obtain ⟨t₁, a1, a2, -⟩ := estimateVolume_ok (G := G) (size := size) hr₁ hdom₁ rfl hpos
  obtain ⟨t₂, b1, b2, -⟩ := estimateVolume_ok (G := G) (size := size) (n := mc.flatten.length) hr₂ hdom₂
    (mc := mc.map fun c => c.map f) (by rw [hfl, List.length_map]) hpos
  refine ⟨t₁, t₂, _, a1, b1, by simp [cellFractions], a2, ?_⟩
  rw [b2, hfl]
  unfold cellFractions
  rw [Converted.cells hG h hr₁ hmc, List.length_map]

theorem C157_volumes_emulated (hG : Sound G) {size m k dim : Nat} (hsize : 0 < size) {s₁ s₂ em₁ em₂ : SampleSet K}
    {x : List (List K)} {f : List K → List K} (hr₁ : Ready s₁ m) (hr₂ : Ready s₂ m) (hem₁ : Consistent em₁ k)
    (hem₂ : Consistent em₂ k) (hk : 0 < k) (hx₁ : em₁.glob.values = some x) (hl₁ : em₁.loc.values = none)
    (hx₂ : em₂.glob.values = some (x.map f)) (hl₂ : em₂.loc.values = none) (hx : Rows dim x)
    (h : Converted G dim x f s₁ s₂) :
    ∃ r₁ r₂ v, s₁.estimateVolumeEmulated G size em₁ = .ok r₁ ∧ s₂.estimateVolumeEmulated G size em₂ = .ok r₂ ∧
      v.length = m ∧ r₁.1.glob.volumes = some v ∧ r₂.1.glob.volumes = some v := by
  obtain ⟨t₁, e₁, a1, a2, -⟩ := estimateVolumeEmulated_ok (G := G) hsize hr₁ hem₁ hk hx₁ hl₁
  obtain ⟨t₂, e₂, b1, b2, -⟩ := estimateVolumeEmulated_ok (G := G) hsize hr₂ hem₂ hk hx₂ hl₂
  refine ⟨_, _, _, a1, b1, by simp [cellFractions], a2, ?_⟩
  rw [b2]
  unfold cellFractions
  rw [Converted.cells hG h hr₁ hx, List.length_map]

/-- **C157.** In one dimension, samples and domain in other units: `exact_volume_1D` gives the same volumes. -/
theorem C157_exact1D {argsort argsort' : List K → List Nat} (hA : IsArgsort argsort) (hA' : IsArgsort argsort')
    {size : Nat} {s t : SampleSet K} {xs : List K} {a b c u : K} (hc : 0 < c) (hs : Consistent s xs.length)
    (ht : Consistent t xs.length) (hdim : s.dim = 1) (hdim' : t.dim = 1) (hdom : s.domain = some [(a, b)])
    (hdom' : t.domain = some [(c * a + u, c * b + u)]) (hv : s.glob.values = some (xs.map fun x => [x]))
    (hv' : t.glob.values = some (xs.map fun x => [c * x + u])) (hn : 2 ≤ xs.length) (hnd : xs.Nodup)
    (hin : ∀ x ∈ xs, a ≤ x ∧ x ≤ b) :
    ∃ s' t' vols, s.exactVolume1D argsort size = .ok s' ∧ t.exactVolume1D argsort' size = .ok t' ∧
      vols.length = xs.length ∧ s'.glob.volumes = some vols ∧ t'.glob.volumes = some vols := by
  obtain ⟨s', v, h1, h2, -, h3, h4, -⟩ := C21_exact_length_partial hA hs hdim hdom hv hn hnd hin (size := size)
  have hinj : Function.Injective fun x : K => c * x + u := fun x y hxy => by
    simpa [hc.ne'] using hxy
  obtain ⟨t', v', k1, k2, -, k3, k4, -⟩ := C21_exact_length_partial (xs := xs.map fun x => c * x + u) hA'
    (by simpa using ht) hdim' hdom' (by simpa [Function.comp_def] using hv') (by simpa using hn) (hnd.map hinj) (by
      intro x hx
      obtain ⟨z, hz, rfl⟩ := List.mem_map.1 hx
      obtain ⟨z1, z2⟩ := hin z hz
      constructor <;> gcongr) (size := size)
  refine ⟨s', t', v, h1, k1, h4, h2, ?_⟩
  rw [k2]
  congr 1
  refine List.ext_getElem? fun i => ?_
  by_cases hi : i < xs.length
  · obtain ⟨l, r, hlr, e, hvi⟩ := h3 i xs[i] (List.getElem?_eq_getElem hi)
    obtain ⟨l', r', hlr', e', hvi'⟩ := k3 i (c * xs[i] + u) (by simp [List.getElem?_eq_getElem hi])
    have himg : ∀ x, c * x + u ∈ nearestCell (xs.map fun x => c * x + u) (c * a + u) (c * b + u) (c * xs[i] + u) ↔
        x ∈ nearestCell xs a b xs[i] := by
      intro x
      simp only [nearestCell, Set.mem_ofPred_eq, List.mem_map, forall_exists_index, and_imp, forall_apply_eq_imp_iff₂,
        add_sub_add_right_eq_sub, ← mul_sub, abs_mul, abs_of_pos hc]
      refine and_congr ?_ (and_congr ?_ (forall_congr' fun z => forall_congr' fun _ => ?_))
      · rw [add_le_add_iff_right]; exact mul_le_mul_iff_right₀ hc
      · rw [add_le_add_iff_right]; exact mul_le_mul_iff_right₀ hc
      · exact mul_le_mul_iff_right₀ hc
    have hIcc : Set.Icc l' r' = Set.Icc (c * l + u) (c * r + u) := by
      rw [← e']
      ext x
      obtain ⟨x, rfl⟩ : ∃ z, x = c * z + u := ⟨(x - u) / c, by field_simp; ring⟩
      rw [himg, e, Set.mem_Icc, Set.mem_Icc, add_le_add_iff_right, add_le_add_iff_right, mul_le_mul_iff_right₀ hc,
        mul_le_mul_iff_right₀ hc]
    obtain ⟨rfl, rfl⟩ := (Set.Icc_eq_Icc_iff hlr').1 hIcc
    rw [hvi, hvi']
    congr 1
    rw [add_sub_add_right_eq_sub, add_sub_add_right_eq_sub, ← mul_sub, ← mul_sub, mul_div_mul_left _ _ hc.ne']
  · rw [List.getElem?_eq_none (by rw [k4, List.length_map]; omega), List.getElem?_eq_none (by omega)]

/-- **C157.** For rectangles every coordinate may have a unit of its own: `exact_volume_lebesgue` gives the same
volumes. -/
theorem C157_rectangles {s s' t t' : SampleSet K} {maxes mins : List (List K)} {cu : List (K × K)}
    (hcu : ∀ q ∈ cu, 0 < q.1) (hlen : cu.length = s.dim) (hdim : s'.dim = s.dim) (hs : s.glob = {}) (hs' : s'.glob = {})
    (hset : s.setupRect maxes mins = .ok t)
    (hset' : s'.setupRect (maxes.map (ownUnits (cu.map fun q z => q.1 * z + q.2)))
      (mins.map (ownUnits (cu.map fun q z => q.1 * z + q.2))) = .ok t')
    {dom : List (K × K)} (hdom : s.domain = some dom)
    (hdom' : s'.domain = some (List.zipWith (fun q d => (q.1 * d.1 + q.2, q.1 * d.2 + q.2)) cu dom))
    (hd : dom.length = s.dim) (hpos : ∀ d ∈ dom, d.1 < d.2) (size : Nat) :
    ∃ u u' vols, t.exactVolumeLebesgue size = .ok u ∧ t'.exactVolumeLebesgue size = .ok u' ∧
      vols.length = maxes.length + 1 ∧ u.glob.volumes = some vols ∧ u'.glob.volumes = some vols := by
  have hprod : 0 < (cu.map Prod.fst).prod := List.prod_pos fun q hq => by
    obtain ⟨q, hq', rfl⟩ := List.mem_map.1 hq
    exact hcu q hq'
  have hbox : ∀ (cu : List (K × K)) (l r : List K), l.length = cu.length → r.length = cu.length →
      boxVolume (ownUnits (cu.map fun q z => q.1 * z + q.2) l) (ownUnits (cu.map fun q z => q.1 * z + q.2) r) =
        (cu.map Prod.fst).prod * boxVolume l r := by
    intro cu
    induction cu with
    | nil => intro l r hl hr; simp [ownUnits, boxVolume, List.length_eq_zero_iff.1 hl]
    | cons q cu ih =>
      intro l r hl hr
      obtain ⟨a, l, rfl⟩ := List.exists_cons_of_length_pos (by rw [hl]; simp)
      obtain ⟨b, r, rfl⟩ := List.exists_cons_of_length_pos (by rw [hr]; simp)
      have := ih l r (by simpa using hl) (by simpa using hr)
      simp only [ownUnits, boxVolume, List.map_cons, List.zipWith_cons_cons, List.prod_cons] at this ⊢
      rw [this]
      ring
  have hdomv : ∀ (cu : List (K × K)) (dom : List (K × K)), dom.length = cu.length →
      domainVolume (List.zipWith (fun q d => (q.1 * d.1 + q.2, q.1 * d.2 + q.2)) cu dom) =
        (cu.map Prod.fst).prod * domainVolume dom := by
    intro cu
    induction cu with
    | nil => intro d hd; simp [domainVolume, List.length_eq_zero_iff.1 hd]
    | cons q cu ih =>
      intro d hd
      obtain ⟨a, d, rfl⟩ := List.exists_cons_of_length_pos (by rw [hd]; simp)
      have := ih d (by simpa using hd)
      simp only [domainVolume, List.map_cons, List.zipWith_cons_cons, List.prod_cons] at this ⊢
      rw [this]
      ring
  obtain ⟨u, v, h1, h2, h3, h4, h5⟩ := C23_relative_volumes hs hset hdom hd hpos size
  obtain ⟨u', v', k1, k2, k3, k4, k5⟩ := C23_relative_volumes hs' hset' hdom' (by simp [hlen, hd, hdim]) (by
    intro e he
    obtain ⟨i, hi, rfl⟩ := List.getElem_of_mem he
    simp only [List.getElem_zipWith]
    have := hcu _ (List.getElem_mem (l := cu) (n := i) (by simp at hi; omega))
    have := hpos _ (List.getElem_mem (l := dom) (n := i) (by simp at hi; omega))
    gcongr) size
  obtain ⟨g1, g2, g3, -⟩ := setupRect_iff.1 hset
  have hvv : v' = v := by
    have hall : ∀ i < maxes.length, v'[i]? = v[i]? := by
      intro i hi
      have hi' : i < mins.length := by omega
      rw [h4 i _ _ (List.getElem?_eq_getElem hi) (List.getElem?_eq_getElem hi'),
        k4 i (ownUnits _ maxes[i]) (ownUnits _ mins[i]) (by rw [List.getElem?_map, List.getElem?_eq_getElem hi]; rfl)
          (by rw [List.getElem?_map, List.getElem?_eq_getElem hi']; rfl),
        hbox cu _ _ (by rw [g3 _ (List.getElem_mem hi'), hlen]) (by rw [g2 _ (List.getElem_mem hi), hlen]),
        hdomv cu _ (by rw [hd, hlen]), mul_div_mul_left _ _ hprod.ne']
    rw [List.length_map] at k3
    obtain ⟨w, a, rfl⟩ : ∃ w a, v = w ++ [a] :=
      ⟨v.dropLast, v.getLast (by rintro rfl; simp at h3), (List.dropLast_append_getLast _).symm⟩
    obtain ⟨w', a', rfl⟩ : ∃ w a, v' = w ++ [a] :=
      ⟨v'.dropLast, v'.getLast (by rintro rfl; simp at k3), (List.dropLast_append_getLast _).symm⟩
    simp only [List.length_append, List.length_cons, List.length_nil, add_left_inj] at h3 k3
    have hw : w' = w := by
      refine List.ext_getElem? fun i => ?_
      by_cases hi : i < maxes.length
      · have := hall i hi
        rwa [List.getElem?_append_left (by omega), List.getElem?_append_left (by omega)] at this
      · rw [List.getElem?_eq_none (by omega), List.getElem?_eq_none (by omega)]
    subst hw
    rw [List.sum_append] at h5 k5
    simp only [List.sum_cons, List.sum_nil, add_zero] at h5 k5
    rw [add_left_cancel (k5.trans h5.symm)]
  exact ⟨u, u', v, h1, k1, h3, by rw [h2], by rw [k2, hvv]⟩

end cells

/-! ## Distances that follow the units -/

/-- The Euclidean distance follows the units. -/
theorem euclid_homogeneous (p dim : Nat) : Homogeneous Ex.euclid p dim := by
  intro c b x y hb hx hy
  have key : ∀ (b x y : List ℝ), x.length = b.length → y.length = b.length →
      (List.zipWith (fun a b => (a - b) ^ 2) (newUnits c b x) (newUnits c b y)).sum =
        c ^ 2 * (List.zipWith (fun a b => (a - b) ^ 2) x y).sum := by
    intro b
    induction b with
    | nil => intro x y hx hy; simp [newUnits, List.length_eq_zero_iff.1 hx]
    | cons u b ih =>
      intro x y hx hy
      obtain ⟨s, x, rfl⟩ := List.exists_cons_of_length_pos (by rw [hx]; simp)
      obtain ⟨t, y, rfl⟩ := List.exists_cons_of_length_pos (by rw [hy]; simp)
      have := ih x y (by simpa using hx) (by simpa using hy)
      simp only [newUnits, List.zipWith_cons_cons, List.sum_cons] at this ⊢
      rw [this]
      ring
  show √_ = |c| * √_
  rw [key b x y (by omega) (by omega), Real.sqrt_mul (sq_nonneg c), Real.sqrt_sq_eq_abs]

namespace Ex

/-- The 1-norm follows the units. -/
theorem homogeneous_G (p dim : Nat) : Homogeneous G p dim := by
  intro c b x y hb hx hy
  have key : ∀ (b x y : List ℚ), x.length = b.length → y.length = b.length →
      (List.zipWith (fun a b => |a - b|) (newUnits c b x) (newUnits c b y)).sum =
        |c| * (List.zipWith (fun a b => |a - b|) x y).sum := by
    intro b
    induction b with
    | nil => intro x y hx hy; simp [newUnits, List.length_eq_zero_iff.1 hx]
    | cons u b ih =>
      intro x y hx hy
      obtain ⟨s, x, rfl⟩ := List.exists_cons_of_length_pos (by rw [hx]; simp)
      obtain ⟨t, y, rfl⟩ := List.exists_cons_of_length_pos (by rw [hy]; simp)
      have := ih x y (by simpa using hx) (by simpa using hy)
      simp only [newUnits, List.zipWith_cons_cons, List.sum_cons] at this ⊢
      rw [this, mul_add, ← abs_mul]
      congr 2
      ring
  exact key b x y (by omega) (by omega)

/-- Rectangles of the data in the plane. -/
def unitCells : SampleSet ℚ :=
  { kind := .rectangle, dim := 2, glob := {
    values := some [[1/2, 1], [3/2, 1], [0, 0]], probabilities := some [3/4, 1/4, 0],
    right := some [[1, 2], [2, 2], [0, 0]], left := some [[0, 0], [1, 0], [0, 0]] } }

/-- The same rectangles: the first coordinate in a unit a hundred times smaller, the second one cubed. -/
def unitCells' : SampleSet ℚ :=
  { kind := .rectangle, dim := 2, glob := {
    values := some [[50, 1], [150, 1], [0, 0]], probabilities := some [3/4, 1/4, 0],
    right := some [[100, 8], [200, 8], [0, 0]], left := some [[0, 0], [100, 0], [0, 0]] } }

def unitChange : List (ℚ → ℚ) := [fun t => 100 * t, fun t => t ^ 3]

theorem unitCells_converted (ys : List (List ℚ)) : Converted G 2 ys (ownUnits unitChange) unitCells unitCells' :=
  .rectangle (v := [[1/2, 1], [3/2, 1], [0, 0]]) (v' := [[50, 1], [150, 1], [0, 0]]) (maxes := [[1, 2], [2, 2]])
    (mins := [[0, 0], [1, 0]]) (e := [0, 0]) (e' := [0, 0]) (o := [0, 0]) (o' := [0, 0]) unitChange rfl
    (by
      intro f hf
      simp only [unitChange, List.mem_cons, List.not_mem_nil, or_false] at hf
      rcases hf with rfl | rfl
      · intro a b hab
        show 100 * a < 100 * b
        linarith
      · exact Odd.strictMono_pow (by decide))
    rfl rfl (by intro a ha; simp at ha; rcases ha with rfl | rfl <;> rfl)
    (by intro a ha; simp at ha; rcases ha with rfl | rfl <;> rfl) rfl rfl rfl rfl rfl rfl rfl
    (by simp [unitCells', ownUnits, unitChange]; norm_num) (by simp [unitCells', ownUnits, unitChange])

def unitDisc (y : List (List ℚ)) (ops : SampleSet ℚ) : Disc ℚ where
  input := some { dim := 1, glob := { values := some [[0], [1], [2]], volumes := some [1/2, 1/4, 1/4] } }
  output := some { dim := 2, glob := { values := some y } }
  outputProb := some ops

example : ∃ P, P.length = 3 ∧ solution G 2 (unitDisc [[1/2, 1], [1, 2], [3/2, 1/2]] unitCells) = some P ∧
    solution G 2 (unitDisc ([[1/2, 1], [1, 2], [3/2, 1/2]].map (ownUnits unitChange)) unitCells') = some P :=
  C157_prob (dim := 2) sound_G (by decide)
    ⟨rfl, consistent_of _ _ rfl rfl, rfl, rfl, rfl, rfl, consistent_of _ _ rfl rfl, rfl, rfl, rfl,
      ⟨consistent_of _ _ rfl rfl, by decide, rfl, Or.inl rfl, by decide, nofun⟩, rfl, rfl⟩
    ⟨rfl, consistent_of _ _ rfl rfl, rfl, rfl, rfl, rfl, consistent_of _ _ rfl rfl, rfl, rfl, rfl,
      ⟨consistent_of _ _ rfl rfl, by decide, rfl, Or.inl rfl, by decide, nofun⟩, rfl, rfl⟩
    (by intro a ha; simp at ha; rcases ha with rfl | rfl | rfl <;> rfl) (unitCells_converted _)

/-- Degrees Celsius and hundredths of a degree above another zero. -/
def newIn' : SampleSet ℚ := { dim := 1, domain := some [(32, 332)], glob := { values := some [[32], [332]] } }

theorem newIn'_ready : Ready newIn' 2 := ⟨consistent_of _ _ rfl rfl, by decide, rfl, Or.inl rfl, nofun, nofun⟩

/-- Samples on a line in the two units, with points that are looked up. -/
theorem newIn_converted {ys : List (List ℚ)} (h : NoTies G newIn [[0], [3]] ys) :
    Converted G 1 ys (newUnits 100 [32]) newIn newIn' :=
  .voronoi (cs := [[0], [3]]) 100 [32] (by decide) rfl h (by intro a ha; simp at ha; rcases ha with rfl | rfl <;> rfl) rfl rfl
    (homogeneous_G _ _) (by simp [newIn', newUnits]; norm_num)

example : ∃ t₁ t₂ v, newIn.estimateVolume G 2 3 [[[0], [1]], [[2]]] = .ok t₁ ∧
    newIn'.estimateVolume G 2 3 [[newUnits 100 [32] [0], newUnits 100 [32] [1]], [newUnits 100 [32] [2]]] = .ok t₂ ∧
    v.length = 2 ∧ t₁.glob.volumes = some v ∧ t₂.glob.volumes = some v :=
  C157_volumes sound_G (dim := 1) (mc := [[[0], [1]], [[2]]]) newIn_ready newIn'_ready rfl rfl (by decide)
    (by intro a ha; simp at ha; rcases ha with rfl | rfl | rfl <;> rfl)
    (newIn_converted ⟨rfl, rfl, by decide +kernel, by decide +kernel⟩)

/-- `emSet` in the other units. -/
def emSet' : SampleSet ℚ := { dim := 1, glob := { values := some [[32], [52], [222], [232], [332]] } }

/-- `oldSet` in the other units. -/
def oldSet' : SampleSet ℚ := { dim := 1, glob :=
  { values := some [[32], [132], [232], [332]], probabilities := some [1/8, 3/8, 1/2, 0] } }

theorem rows_em : Rows 1 ([[0], [1/5], [19/10], [2], [3]] : List (List ℚ)) := by
  intro a ha
  simp at ha
  rcases ha with rfl | rfl | rfl | rfl | rfl <;> rfl

theorem em_values : emSet'.glob.values =
    some (([[0], [1/5], [19/10], [2], [3]] : List (List ℚ)).map (newUnits 100 [32])) := by
  simp [emSet', newUnits]
  norm_num

example : ∃ r₁ r₂ v, newIn.estimateVolumeEmulated G 2 emSet = .ok r₁ ∧ newIn'.estimateVolumeEmulated G 2 emSet' = .ok r₂ ∧
    v.length = 2 ∧ r₁.1.glob.volumes = some v ∧ r₂.1.glob.volumes = some v :=
  C157_volumes_emulated sound_G (size := 2) (k := 5) (x := [[0], [1/5], [19/10], [2], [3]]) (by decide) newIn_ready
    newIn'_ready (consistent_of _ _ rfl rfl) (consistent_of _ _ rfl rfl) (by decide) rfl rfl em_values rfl rows_em
    (newIn_converted ⟨rfl, rfl, by decide +kernel, by decide +kernel⟩)

theorem rows_old : Rows 1 ([[0], [1], [2], [3]] : List (List ℚ)) := by
  intro a ha
  simp at ha
  rcases ha with rfl | rfl | rfl | rfl <;> rfl

example : ∃ P, P.length = 2 ∧ transported G 3 oldSet newIn = some P ∧ transported G 3 oldSet' newIn' = some P :=
  C157_transport sound_G (size := 3) (by decide) freshOld
    ⟨consistent_of _ _ rfl rfl, by simp [oldSet', newUnits]; norm_num, rfl, rfl⟩ newIn_ready newIn'_ready rfl rfl rows_old
    (newIn_converted ⟨rfl, rfl, by decide +kernel, by decide +kernel⟩)

example : transportedEmulated G 3 oldSet' newIn' emSet' = transportedEmulated G 3 oldSet newIn emSet :=
  C157_transport_emulated sound_G readyOld ⟨consistent_of _ _ rfl rfl, by decide, rfl, Or.inl rfl, nofun, nofun⟩ newIn_ready
    newIn'_ready rfl rfl (consistent_of _ _ rfl rfl) (consistent_of _ _ rfl rfl) rfl em_values rfl rfl ⟨rfl, rfl⟩
    ⟨rfl, rfl⟩ rows_em
    (.voronoi (cs := [[0], [1], [2], [3]]) 100 [32] (by decide) rfl ⟨rfl, rfl, by decide +kernel, by decide +kernel⟩
      rows_old rfl rfl (homogeneous_G _ _) (by simp [oldSet', newUnits]; norm_num))
    (newIn_converted ⟨rfl, rfl, by decide +kernel, by decide +kernel⟩)

example : transportedEmulated G 3 oldSet newIn emSet = some [1/5, 4/5] := by decide +kernel

/-- Two disjoint intervals, as balls, in the two units. -/
def ballCells : SampleSet ℚ :=
  { kind := .ball, dim := 1, glob := { values := some [[0], [3], [0]], radii := some [1, 1, 0] } }

def ballCells' : SampleSet ℚ :=
  { kind := .ball, dim := 1, glob := { values := some [[32], [332], [0]], radii := some [100, 100, 0] } }

example : ∃ P, P.length = 3 ∧ transported G 3 oldSet ballCells = some P ∧ transported G 3 oldSet' ballCells' = some P :=
  C157_transport sound_G (size := 3) (by decide) freshOld
    ⟨consistent_of _ _ rfl rfl, by simp [oldSet', newUnits]; norm_num, rfl, rfl⟩
    ⟨consistent_of _ _ rfl rfl, by decide, rfl, Or.inl rfl, nofun, by decide⟩
    ⟨consistent_of _ _ rfl rfl, by decide, rfl, Or.inl rfl, nofun, by decide⟩ rfl rfl rows_old
    (.ball (cs := [[0], [3]]) (rs := [1, 1]) (e := [0]) (e' := [0]) (r := 0) (r' := 0) 100 [32] (by decide) rfl rfl rfl rfl
      (by intro a ha; simp at ha; rcases ha with rfl | rfl <;> rfl) (homogeneous_G _ _) rfl rfl rfl
      (by simp [ballCells', newUnits]; norm_num) (by simp [ballCells']))

/-- `line` in the other units. -/
def line' : SampleSet ℚ := { dim := 1, domain := some [(32, 132)], glob := { values := some [[82], [32], [107]] } }

example : ∃ s' t' vols, line.exactVolume1D argsort 2 = .ok s' ∧ line'.exactVolume1D argsort 2 = .ok t' ∧
    vols.length = 3 ∧ s'.glob.volumes = some vols ∧ t'.glob.volumes = some vols :=
  C157_exact1D (xs := [1/2, 0, 3/4]) (c := 100) (u := 32) isArgsort_argsort isArgsort_argsort (by decide)
    (consistent_of _ _ rfl rfl) (consistent_of _ _ rfl rfl) rfl rfl rfl (by simp [line']; norm_num) rfl
    (by simp [line']; norm_num) (by decide) (by decide +kernel) (by decide +kernel)

/-- Samples, outputs, cells of the data and emulated points in one unit for the inputs and one for the data. -/
def emUnits (x y c z : List (List ℚ)) : Disc ℚ where
  input := some { dim := 1, glob := { values := some x } }
  output := some { dim := 1, glob := { values := some y } }
  outputProb := some { dim := 1, glob := { values := some c, probabilities := some [1/2, 1/4] } }
  emInput := some { dim := 1, glob := { values := some z } }

example : ∃ P, P.length = 3 ∧ emulatedSolution G 2 (emUnits [[0], [3]] [[1], [2]] [[0], [5]] [[1/2], [2], [3]]) = some P ∧
    emulatedSolution G 2 (emUnits [[7], [1]] [[132], [232]] [[32], [532]]
      ([[1/2], [2], [3]].map (newUnits (-2) [7]))) = some P :=
  C157_emulated (dim := 1) (dim' := 1) (y := [[1], [2]]) (f := newUnits 100 [32]) sound_G (by decide)
    ⟨rfl, ⟨consistent_of _ _ rfl rfl, by decide, rfl, Or.inl rfl, nofun, nofun⟩, rfl, consistent_of _ _ rfl rfl, rfl, rfl,
      rfl, ⟨consistent_of _ _ rfl rfl, by decide, rfl, Or.inl rfl, nofun, nofun⟩, rfl, rfl, consistent_of _ _ rfl rfl, rfl,
      rfl, rfl, rfl⟩
    ⟨rfl, ⟨consistent_of _ _ rfl rfl, by decide, rfl, Or.inl rfl, nofun, nofun⟩, rfl, consistent_of _ _ rfl rfl,
      by simp [newUnits]; norm_num, rfl,
      rfl, ⟨consistent_of _ _ rfl rfl, by decide, rfl, Or.inl rfl, nofun, nofun⟩, rfl, rfl, consistent_of _ _ rfl rfl, rfl,
      rfl, rfl, rfl⟩
    (by intro a ha; simp at ha; rcases ha with rfl | rfl <;> rfl)
    (by intro a ha; simp at ha; rcases ha with rfl | rfl | rfl <;> rfl)
    (.voronoi (cs := [[0], [5]]) 100 [32] (by decide) rfl ⟨rfl, rfl, by decide +kernel, by decide +kernel⟩
      (by intro a ha; simp at ha; rcases ha with rfl | rfl <;> rfl) rfl rfl (homogeneous_G _ _)
      (by simp [newUnits]; norm_num))
    (.voronoi (cs := [[0], [3]]) (-2) [7] (by decide) rfl ⟨rfl, rfl, by decide +kernel, by decide +kernel⟩
      (by intro a ha; simp at ha; rcases ha with rfl | rfl <;> rfl) rfl rfl (homogeneous_G _ _)
      (by simp [newUnits]; norm_num))

/-- Two rectangles in a domain; the second coordinate in a unit of its own. -/
example : ∃ t t' u u' vols,
    ({ kind := .rectangle, dim := 2, domain := some [(0, 4), (0, 2)] } : SampleSet ℚ).setupRect [[1, 2], [2, 2]]
      [[0, 0], [1, 1]] = .ok t ∧
    ({ kind := .rectangle, dim := 2, domain := some [(32, 432), (0, 10)] } : SampleSet ℚ).setupRect [[132, 10], [232, 10]]
      [[32, 0], [132, 5]] = .ok t' ∧ t.exactVolumeLebesgue 2 = .ok u ∧ t'.exactVolumeLebesgue 2 = .ok u' ∧
      vols.length = 3 ∧ u.glob.volumes = some vols ∧ u'.glob.volumes = some vols := by
  obtain ⟨u, u', vols, h⟩ := C157_rectangles (K := ℚ) (cu := [(100, 32), (5, 0)]) (maxes := [[1, 2], [2, 2]]) (mins := [[0, 0], [1, 1]])
    (s := { kind := .rectangle, dim := 2, domain := some [(0, 4), (0, 2)] })
    (s' := { kind := .rectangle, dim := 2, domain := some [(32, 432), (0, 10)] }) (dom := [(0, 4), (0, 2)])
    (by decide +kernel) rfl rfl rfl rfl rfl rfl rfl (by simp; norm_num) rfl (by decide +kernel) 2
  have e₁ : [[132, 10], [232, 10]] =
      [[1, 2], [2, 2]].map (ownUnits ([((100 : ℚ), (32 : ℚ)), (5, 0)].map fun q z => q.1 * z + q.2)) := by
    simp [ownUnits]
    norm_num
  have e₂ : [[32, 0], [132, 5]] =
      [[0, 0], [1, 1]].map (ownUnits ([((100 : ℚ), (32 : ℚ)), (5, 0)].map fun q z => q.1 * z + q.2)) := by
    simp [ownUnits]
    norm_num
  rw [e₁, e₂]
  exact ⟨_, _, u, u', vols, rfl, rfl, h⟩

/-- Samples in the plane and a point; with `c = 10` the first coordinate is in a unit ten times smaller. -/
def stretched (c : ℚ) : SampleSet ℚ := { dim := 2, glob := { values := some [[0, 0], [2 * c, 4]] } }

def stretchedPoints (c : ℚ) : SampleSet ℚ := { dim := 2, glob := { values := some [[2 * c, 0], [0, 1]] } }

/-- **C157, negation.** For Voronoi cells a unit of its own for one coordinate changes the volumes: the sample near to a
point is another one. -/
theorem C157_negation_own_units :
    ((stretched 1).estimateVolumeEmulated G 2 (stretchedPoints 1)).toOption.bind (·.1.glob.volumes) = some [1, 0] ∧
      ((stretched 10).estimateVolumeEmulated G 2 (stretchedPoints 10)).toOption.bind (·.1.glob.volumes) =
        some [1/2, 1/2] := by
  decide +kernel

end Ex

end BET
