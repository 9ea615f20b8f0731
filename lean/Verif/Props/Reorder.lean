import Verif.Props.Stability
import Verif.Props.Volumes

/-!
# C153: the order of samples, cells and points does not matter
-/

set_option autoImplicit false
set_option linter.unusedSectionVars false
set_option linter.unusedSimpArgs false

namespace BET

open Spec

variable {K : Type} [Field K] [LinearOrder K]

namespace Spec

/-- Voronoi cells around distinct points `c`, and for no point of `ys` are two of them the nearest ones. -/
structure NoTies (G : Geometry K) (s : SampleSet K) (c ys : List (List K)) : Prop where
  kind : s.kind = .voronoi
  values : s.glob.values = some c
  distinct : c.Nodup
  apart : ∀ y ∈ ys, ∀ a ∈ c, ∀ b ∈ c, (∀ z ∈ c, G.dist s.pNorm y a ≤ G.dist s.pNorm y z) →
    G.dist s.pNorm y a = G.dist s.pNorm y b → a = b

end Spec

/-! ## Lists -/

theorem mass_zip_sum {α : Type} (y : List α) (f : α → Nat) (v : List K) (k : Nat) :
    mass (y.map f) v k = ((y.zip v).map fun q => if f q.1 = k then q.2 else 0).sum := by
  induction y generalizing v with
  | nil => simp
  | cons a y ih =>
    cases v with
    | nil => simp
    | cons x v => simp only [List.map_cons, mass_cons, List.zip_cons_cons, List.sum_cons, ih]

theorem mass_perm {α : Type} {y y' : List α} (f : α → Nat) {v v' : List K} (h : (y.zip v).Perm (y'.zip v')) (k : Nat) :
    mass (y.map f) v k = mass (y'.map f) v' k := by
  rw [mass_zip_sum, mass_zip_sum]
  exact (h.map _).sum_eq

theorem mass_congr {α : Type} {y : List α} {f g : α → Nat} {k l : Nat} (h : ∀ x ∈ y, f x = k ↔ g x = l) (v : List K) :
    mass (y.map f) v k = mass (y.map g) v l := by
  rw [mass_zip_sum, mass_zip_sum]
  congr 1
  refine List.map_congr_left fun q hq => ?_
  have := h q.1 (List.of_mem_zip hq).1
  simp only [this]

theorem hits_eq_mass {α : Type} (y : List α) (f : α → Nat) (k : Nat) :
    ((hits (y.map f) k : Nat) : K) = mass (y.map f) (y.map fun _ => (1 : K)) k := by
  have h := mass_map_self (K := K) (y.map f) (fun _ => 1) k
  rw [List.map_map] at h
  simpa [Function.comp_def] using h.symm

theorem zip_zip_map {α β γ : Type} (g : β → γ → γ) (x : List α) (y : List β) (v : List γ) :
    x.zip (y.zip (List.zipWith g y v)) = (x.zip (y.zip v)).map fun t => (t.1, t.2.1, g t.2.1 t.2.2) := by
  induction x generalizing y v with
  | nil => simp
  | cons a x ih =>
    cases y with
    | nil => simp
    | cons b y => cases v with
      | nil => simp
      | cons c v => simp [ih]

theorem zip_of_map {α β : Type} (x : List α) (g : Nat → β) : x.Nodup → ∀ idx : α → Nat,
    (∀ k (h : k < x.length), idx x[k] = k) → x.zip ((List.range x.length).map g) = x.map fun a => (a, g (idx a)) := by
  intro _ idx hidx
  apply List.ext_getElem
  · simp
  · intro k h1 h2
    have hk : k < x.length := by simpa using h2
    simp [hidx k hk]

/-! ## Cells without ties -/

section cells
variable {G : Geometry K}

/-- The point of the cell. -/
theorem NoTies.point (hG : Sound G) {s : SampleSet K} {c ys : List (List K)} (h : NoTies G s c ys) (hne : c ≠ [])
    (y : List K) : ∃ a, c[s.cell G y]? = some a ∧ ∀ b ∈ c, G.dist s.pNorm y a ≤ G.dist s.pNorm y b := by
  have : s.cell G y = G.nn s.pNorm c y := by simp [SampleSet.cell, h.kind, h.values]
  rw [this]
  exact hG _ _ y hne

theorem NoTies.same (hG : Sound G) {s s' : SampleSet K} {c c' ys : List (List K)} (h : NoTies G s c ys)
    (h' : NoTies G s' c' ys) (hn : s.pNorm = s'.pNorm) (hc : c.Perm c') (hne : c ≠ []) {y : List K} (hy : y ∈ ys) :
    c[s.cell G y]? = c'[s'.cell G y]? := by
  have hne' : c' ≠ [] := by rintro rfl; exact hne hc.eq_nil
  obtain ⟨a, ha, h1⟩ := NoTies.point hG h hne y
  obtain ⟨b, hb, h2⟩ := NoTies.point hG h' hne' y
  have hac := List.mem_of_getElem? ha
  have hbc := hc.mem_iff.2 (List.mem_of_getElem? hb)
  have e := h.apart y hy a hac b hbc h1 (le_antisymm (h1 b hbc) (by rw [hn]; exact h2 a (hc.mem_iff.1 hac)))
  rw [ha, hb, e]

theorem getElem?_inj {α : Type} {c : List α} (h : c.Nodup) {i j : Nat} {a : α} (hi : c[i]? = some a)
    (hj : c[j]? = some a) : i = j := by
  obtain ⟨hi, e1⟩ := List.getElem?_eq_some_iff.mp hi
  obtain ⟨hj, e2⟩ := List.getElem?_eq_some_iff.mp hj
  exact (List.Nodup.getElem_inj_iff h).1 (e1.trans e2.symm)

theorem NoTies.cell_iff (hG : Sound G) {s s' : SampleSet K} {c c' ys : List (List K)} (h : NoTies G s c ys)
    (h' : NoTies G s' c' ys) (hn : s.pNorm = s'.pNorm) (hc : c.Perm c') (hne : c ≠ []) {y : List K} (hy : y ∈ ys)
    {k l : Nat} {a : List K} (hk : c[k]? = some a) (hl : c'[l]? = some a) : s.cell G y = k ↔ s'.cell G y = l := by
  have e := NoTies.same hG h h' hn hc hne hy
  constructor
  · rintro rfl
    exact getElem?_inj h'.distinct (e ▸ hk) hl
  · rintro rfl
    exact getElem?_inj h.distinct (e.trans hl) hk

theorem getD_perm {c c' : List (List K)} {p p' : List K} (hl : c.length = p.length) (hperm : (c.zip p).Perm (c'.zip p'))
    (hd' : c'.Nodup) {i j : Nat} {a : List K} (hi : c[i]? = some a) (hj : c'[j]? = some a) : p.getD i 0 = p'.getD j 0 := by
  have hil := (List.getElem?_eq_some_iff.mp hi).1
  have hip : i < p.length := hl ▸ hil
  have hmem : (a, p[i]) ∈ c.zip p := by
    refine List.mem_of_getElem? (i := i) ?_
    rw [List.getElem?_zip_eq_some]
    exact ⟨hi, List.getElem?_eq_getElem hip⟩
  obtain ⟨k, hk⟩ := List.mem_iff_getElem?.mp (hperm.mem_iff.1 hmem)
  rw [List.getElem?_zip_eq_some] at hk
  have := getElem?_inj hd' hk.1 hj
  subst this
  simp only [List.getD_eq_getElem?_getD, hk.2, List.getElem?_eq_getElem hip]

theorem perm_fst {α β : Type} {c c' : List α} {p p' : List β} (hl : c.length = p.length) (hl' : c'.length = p'.length)
    (h : (c.zip p).Perm (c'.zip p')) : c.Perm c' := by
  have := h.map Prod.fst
  rwa [List.map_fst_zip hl.le, List.map_fst_zip hl'.le] at this

end cells

section order
variable [IsStrictOrderedRing K] {G : Geometry K}

/-- **C153.** If the samples of a problem are listed in another order, with their volumes and outputs, `prob` gives
each of them the same probability. -/
theorem C153_prob_samples {size : Nat} (hsize : 0 < size) {d₁ d₂ : Disc K} {n m : Nat}
    {inp₁ out₁ ops₁ inp₂ out₂ ops₂ : SampleSet K} {x₁ x₂ y₁ y₂ : List (List K)} {v₁ v₂ p : List K}
    (f₁ : FreshDisc d₁ n m inp₁ out₁ ops₁ y₁ v₁ p) (f₂ : FreshDisc d₂ n m inp₂ out₂ ops₂ y₂ v₂ p)
    (hcells : EqualCells ops₁ ops₂) (hx₁ : inp₁.glob.values = some x₁) (hx₂ : inp₂.glob.values = some x₂)
    (hperm : (x₁.zip (y₁.zip v₁)).Perm (x₂.zip (y₂.zip v₂))) :
    ∃ P Q, solution G size d₁ = some P ∧ solution G size d₂ = some Q ∧ P.length = n ∧ Q.length = n ∧
      (x₁.zip (y₁.zip P)).Perm (x₂.zip (y₂.zip Q)) := by
  obtain ⟨hy₁, hv₁, -⟩ := FreshDisc.lengths f₁
  obtain ⟨hy₂, hv₂, -⟩ := FreshDisc.lengths f₂
  have hx₁' : x₁.length = n := f₁.hinputC.1.values x₁ hx₁
  have hx₂' : x₂.length = n := f₂.hinputC.1.values x₂ hx₂
  have hyv : (y₁.zip v₁).Perm (y₂.zip v₂) := by
    have := hperm.map Prod.snd
    rwa [List.map_snd_zip (by simp [hx₁', hy₁, hv₁]), List.map_snd_zip (by simp [hx₂', hy₂, hv₂])] at this
  refine ⟨_, _, FreshDisc.solved f₁ hsize, FreshDisc.solved f₂ hsize, by simp [hy₁, hv₁], by simp [hy₂, hv₂], ?_⟩
  rw [← EqualCells.cell hcells G]
  simp only [List.zipWith_map_left]
  rw [zip_zip_map, zip_zip_map]
  have e : ∀ k, mass (y₁.map (ops₁.cell G)) v₁ k = mass (y₂.map (ops₁.cell G)) v₂ k := mass_perm _ hyv
  simp only [e]
  exact hperm.map _

/-- **C153.** If the cells of the data are listed in another order, with their probabilities, `prob` gives the same
probabilities, as long as no output is equally far from the points of two cells. -/
theorem C153_prob_cells (hG : Sound G) {size : Nat} (hsize : 0 < size) {d₁ d₂ : Disc K} {n m : Nat}
    {inp₁ out₁ ops₁ inp₂ out₂ ops₂ : SampleSet K} {y c₁ c₂ : List (List K)} {v p₁ p₂ : List K}
    (f₁ : FreshDisc d₁ n m inp₁ out₁ ops₁ y v p₁) (f₂ : FreshDisc d₂ n m inp₂ out₂ ops₂ y v p₂)
    (h₁ : NoTies G ops₁ c₁ y) (h₂ : NoTies G ops₂ c₂ y) (hn : ops₁.pNorm = ops₂.pNorm)
    (hperm : (c₁.zip p₁).Perm (c₂.zip p₂)) :
    ∃ P, P.length = n ∧ solution G size d₁ = some P ∧ solution G size d₂ = some P := by
  obtain ⟨hy, hv, hp₁⟩ := FreshDisc.lengths f₁
  obtain ⟨-, -, hp₂⟩ := FreshDisc.lengths f₂
  have hc₁ : c₁.length = m := f₁.hready.consistent.1.values c₁ h₁.values
  have hc₂ : c₂.length = m := f₂.hready.consistent.1.values c₂ h₂.values
  have hpc := perm_fst (hc₁.trans hp₁.symm) (hc₂.trans hp₂.symm) hperm
  have hne : c₁ ≠ [] := by rintro rfl; have := f₁.hready.pos; simp at hc₁; omega
  refine ⟨_, ?_, FreshDisc.solved f₁ hsize, ?_⟩
  · simp [hy, hv]
  · rw [FreshDisc.solved f₂ hsize]
    congr 1
    apply List.ext_getElem
    · simp
    · intro k hk1 hk2
      have hk : k < y.length := by simp at hk1; exact hk1.1
      simp only [List.getElem_zipWith, List.getElem_map]
      have hyk : y[k] ∈ y := List.getElem_mem hk
      obtain ⟨a, ha, -⟩ := NoTies.point hG h₁ hne y[k]
      have hb := (NoTies.same hG h₁ h₂ hn hpc hne hyk).symm.trans ha
      have e1 : p₁.getD (ops₁.cell G y[k]) 0 = p₂.getD (ops₂.cell G y[k]) 0 :=
        getD_perm (hc₁.trans hp₁.symm) hperm h₂.distinct ha hb
      have e2 : mass (y.map (ops₁.cell G)) v (ops₁.cell G y[k]) = mass (y.map (ops₂.cell G)) v (ops₂.cell G y[k]) :=
        mass_congr (fun x hx => NoTies.cell_iff hG h₁ h₂ hn hpc hne hx ha hb) v
      rw [e1, e2]

/-- **C153.** The order of the old samples does not matter to `prob_from_sample_set`. -/
theorem C153_transport_old {size : Nat} (hsize : 0 < size) {old₁ old₂ new : SampleSet K} {n m : Nat}
    {x₁ x₂ : List (List K)} {w₁ w₂ : List K} (f₁ : FreshProb old₁ n x₁ w₁) (f₂ : FreshProb old₂ n x₂ w₂)
    (hr : Ready new m) (h₁ : old₁.dim = new.dim) (h₂ : old₂.dim = new.dim) (hperm : (x₁.zip w₁).Perm (x₂.zip w₂)) :
    ∃ P, P.length = m ∧ transported G size old₁ new = some P ∧ transported G size old₂ new = some P := by
  obtain ⟨o, t, h, -⟩ := probFromSampleSet_fresh (G := G) f₁ hr h₁ size hsize
  obtain ⟨o', t', h', -⟩ := probFromSampleSet_fresh (G := G) f₂ hr h₂ size hsize
  refine ⟨_, ?_, by rw [transported, h]; rfl, ?_⟩
  · simp
  · rw [transported, h']
    simp only [Except.toOption, Option.map_some, Option.some.injEq]
    exact List.map_congr_left fun k _ => (mass_perm _ hperm k).symm

/-- Entries of the cells, listed beside their points. -/
theorem zip_cells_perm (hG : Sound G) {s₁ s₂ : SampleSet K} {c₁ c₂ x : List (List K)} (h₁ : NoTies G s₁ c₁ x)
    (h₂ : NoTies G s₂ c₂ x) (hn : s₁.pNorm = s₂.pNorm) (hperm : c₁.Perm c₂) (hne : c₁ ≠ []) (w : List K) (g : K → K) :
    (c₁.zip ((List.range c₁.length).map fun k => g (mass (x.map (s₁.cell G)) w k))).Perm
      (c₂.zip ((List.range c₂.length).map fun k => g (mass (x.map (s₂.cell G)) w k))) := by
  classical
  have hidx : ∀ {c : List (List K)}, c.Nodup → ∀ k (h : k < c.length), c.idxOf c[k] = k :=
    fun hd k h => List.Nodup.idxOf_getElem hd k h
  rw [zip_of_map c₁ _ h₁.distinct (fun a => c₁.idxOf a) (hidx h₁.distinct),
    zip_of_map c₂ _ h₂.distinct (fun a => c₂.idxOf a) (hidx h₂.distinct)]
  have e : c₁.map (fun a => (a, g (mass (x.map (s₁.cell G)) w (c₁.idxOf a)))) =
      c₁.map fun a => (a, g (mass (x.map (s₂.cell G)) w (c₂.idxOf a))) := by
    refine List.map_congr_left fun a ha => ?_
    have ha' := hperm.mem_iff.1 ha
    rw [mass_congr (fun y hy => NoTies.cell_iff hG h₁ h₂ hn hperm hne hy (List.getElem?_idxOf ha)
      (List.getElem?_idxOf ha')) w]
  rw [e]
  exact hperm.map _

/-- **C153.** If the new samples are listed in another order, `prob_from_sample_set` gives each of them the same
probability, as long as no old sample is equally far from two new ones. -/
theorem C153_transport_new (hG : Sound G) {size : Nat} (hsize : 0 < size) {old new₁ new₂ : SampleSet K} {n m : Nat}
    {x c₁ c₂ : List (List K)} {w : List K} (f : FreshProb old n x w) (hr₁ : Ready new₁ m) (hr₂ : Ready new₂ m)
    (hd₁ : old.dim = new₁.dim) (hd₂ : old.dim = new₂.dim) (h₁ : NoTies G new₁ c₁ x) (h₂ : NoTies G new₂ c₂ x)
    (hn : new₁.pNorm = new₂.pNorm) (hperm : c₁.Perm c₂) :
    ∃ P Q, transported G size old new₁ = some P ∧ transported G size old new₂ = some Q ∧ P.length = m ∧ Q.length = m ∧
      (c₁.zip P).Perm (c₂.zip Q) := by
  obtain ⟨o, t, h, -⟩ := probFromSampleSet_fresh (G := G) f hr₁ hd₁ size hsize
  obtain ⟨o', t', h', -⟩ := probFromSampleSet_fresh (G := G) f hr₂ hd₂ size hsize
  have hc₁ : c₁.length = m := hr₁.consistent.1.values c₁ h₁.values
  have hc₂ : c₂.length = m := hr₂.consistent.1.values c₂ h₂.values
  have hne : c₁ ≠ [] := by rintro rfl; have := hr₁.pos; simp at hc₁; omega
  refine ⟨_, _, by rw [transported, h]; rfl, by rw [transported, h']; rfl, by simp, by simp, ?_⟩
  have := zip_cells_perm hG h₁ h₂ hn hperm hne w id
  rwa [hc₁, hc₂] at this

theorem cellFractions_perm (hG : Sound G) {s₁ s₂ : SampleSet K} {m : Nat} {c₁ c₂ x : List (List K)}
    (hr₁ : Ready s₁ m) (hr₂ : Ready s₂ m) (h₁ : NoTies G s₁ c₁ x) (h₂ : NoTies G s₂ c₂ x) (hn : s₁.pNorm = s₂.pNorm)
    (hperm : c₁.Perm c₂) : (c₁.zip (cellFractions G s₁ m x)).Perm (c₂.zip (cellFractions G s₂ m x)) := by
  have hc₁ : c₁.length = m := hr₁.consistent.1.values c₁ h₁.values
  have hc₂ : c₂.length = m := hr₂.consistent.1.values c₂ h₂.values
  have hne : c₁ ≠ [] := by rintro rfl; have := hr₁.pos; simp at hc₁; omega
  have := zip_cells_perm hG h₁ h₂ hn hperm hne (x.map fun _ => 1) fun q => q / (x.length : K)
  simp only [← hits_eq_mass] at this
  rwa [hc₁, hc₂] at this

/-- **C153.** If samples are listed in another order, `estimate_volume` and `estimate_volume_emulated` with the same
points give each of them the same volume, as long as no point is equally far from two of them. -/
theorem C153_volumes (hG : Sound G) {size m : Nat} {s₁ s₂ : SampleSet K}
    {c₁ c₂ : List (List K)} (hr₁ : Ready s₁ m) (hr₂ : Ready s₂ m) (hdom₁ : s₁.domain.isSome) (hdom₂ : s₂.domain.isSome)
    {mc : Chunks (List K)} (hpos : 0 < mc.flatten.length) (h₁ : NoTies G s₁ c₁ mc.flatten)
    (h₂ : NoTies G s₂ c₂ mc.flatten) (hn : s₁.pNorm = s₂.pNorm) (hperm : c₁.Perm c₂) :
    ∃ t₁ t₂ v₁ v₂, s₁.estimateVolume G size mc.flatten.length mc = .ok t₁ ∧
      s₂.estimateVolume G size mc.flatten.length mc = .ok t₂ ∧ t₁.glob.volumes = some v₁ ∧ t₂.glob.volumes = some v₂ ∧
      v₁.length = m ∧ v₂.length = m ∧ (c₁.zip v₁).Perm (c₂.zip v₂) := by
  obtain ⟨t₁, a1, a2, -⟩ := estimateVolume_ok (G := G) (size := size) hr₁ hdom₁ rfl hpos
  obtain ⟨t₂, b1, b2, -⟩ := estimateVolume_ok (G := G) (size := size) hr₂ hdom₂ rfl hpos
  exact ⟨t₁, t₂, _, _, a1, b1, a2, b2, by simp [cellFractions], by simp [cellFractions],
    cellFractions_perm hG hr₁ hr₂ h₁ h₂ hn hperm⟩

theorem C153_volumes_emulated (hG : Sound G) {size m k : Nat} (hsize : 0 < size) {s₁ s₂ em : SampleSet K}
    {c₁ c₂ x : List (List K)} (hr₁ : Ready s₁ m) (hr₂ : Ready s₂ m) (hem : Consistent em k) (hk : 0 < k)
    (hx : em.glob.values = some x) (hl : em.loc.values = none) (h₁ : NoTies G s₁ c₁ x) (h₂ : NoTies G s₂ c₂ x)
    (hn : s₁.pNorm = s₂.pNorm) (hperm : c₁.Perm c₂) :
    ∃ r₁ r₂ v₁ v₂, s₁.estimateVolumeEmulated G size em = .ok r₁ ∧ s₂.estimateVolumeEmulated G size em = .ok r₂ ∧
      r₁.1.glob.volumes = some v₁ ∧ r₂.1.glob.volumes = some v₂ ∧ v₁.length = m ∧ v₂.length = m ∧
      (c₁.zip v₁).Perm (c₂.zip v₂) := by
  obtain ⟨t₁, e₁, a1, a2, -⟩ := estimateVolumeEmulated_ok (G := G) hsize hr₁ hem hk hx hl
  obtain ⟨t₂, e₂, b1, b2, -⟩ := estimateVolumeEmulated_ok (G := G) hsize hr₂ hem hk hx hl
  exact ⟨_, _, _, _, a1, b1, a2, b2, by simp [cellFractions], by simp [cellFractions],
    cellFractions_perm hG hr₁ hr₂ h₁ h₂ hn hperm⟩

end order

end BET

namespace BET.Ex

open BET.Spec

/-- The samples of C01 in another order. -/
def probDiscSwapped : Disc ℚ where
  input := some { dim := 1, glob :=
    { values := some [[3], [0], [2], [1]], volumes := some [1/4, 1/8, 1/4, 3/8] } }
  output := some { dim := 1, glob := { values := some [[11/10], [0], [1], [1/10]] } }
  outputProb := some { dim := 1, glob :=
    { values := some [[0], [1], [7]], probabilities := some [1/2, 1/4, 1/4] } }

theorem probDiscSwapped_fresh : FreshDisc probDiscSwapped 4 3
      { dim := 1, glob := { values := some [[3], [0], [2], [1]], volumes := some [1/4, 1/8, 1/4, 3/8] } }
      { dim := 1, glob := { values := some [[11/10], [0], [1], [1/10]] } }
      { dim := 1, glob := { values := some [[0], [1], [7]], probabilities := some [1/2, 1/4, 1/4] } }
      [[11/10], [0], [1], [1/10]] [1/4, 1/8, 1/4, 3/8] [1/2, 1/4, 1/4] :=
  ⟨rfl, consistent_of _ _ rfl rfl, rfl, rfl, rfl, rfl, consistent_of _ _ rfl rfl, rfl, rfl, rfl,
    ⟨consistent_of _ _ rfl rfl, by decide, rfl, Or.inl rfl, nofun, nofun⟩, rfl, rfl⟩

example : ∃ P Q, solution G 2 (probDiscWith [1/8, 3/8, 1/4, 1/4] [1/2, 1/4, 1/4]) = some P ∧
    solution G 2 probDiscSwapped = some Q ∧ P.length = 4 ∧ Q.length = 4 ∧
    ([[(0 : ℚ)], [1], [2], [3]].zip ([[(0 : ℚ)], [1/10], [1], [11/10]].zip P)).Perm
      ([[3], [0], [2], [1]].zip ([[11/10], [0], [1], [1/10]].zip Q)) :=
  C153_prob_samples (size := 2) (by decide) (probDiscWith_fresh (1/8) (3/8) (1/4) (1/4) (1/2) (1/4) (1/4))
    probDiscSwapped_fresh ⟨rfl, rfl, rfl, rfl, rfl, rfl⟩ rfl rfl
    (by decide +kernel)

/-- The cells of C01 in another order. -/
def probDiscCells : Disc ℚ :=
  { probDiscWith [1/8, 3/8, 1/4, 1/4] [] with
    outputProb := some { dim := 1, glob := { values := some [[7], [0], [1]], probabilities := some [1/4, 1/2, 1/4] } } }

theorem probDiscCells_fresh : FreshDisc probDiscCells 4 3
      { dim := 1, glob := { values := some [[0], [1], [2], [3]], volumes := some [1/8, 3/8, 1/4, 1/4] } }
      { dim := 1, glob := { values := some [[0], [1/10], [1], [11/10]] } }
      { dim := 1, glob := { values := some [[7], [0], [1]], probabilities := some [1/4, 1/2, 1/4] } }
      [[0], [1/10], [1], [11/10]] [1/8, 3/8, 1/4, 1/4] [1/4, 1/2, 1/4] :=
  ⟨rfl, consistent_of _ _ rfl rfl, rfl, rfl, rfl, rfl, consistent_of _ _ rfl rfl, rfl, rfl, rfl,
    ⟨consistent_of _ _ rfl rfl, by decide, rfl, Or.inl rfl, nofun, nofun⟩, rfl, rfl⟩

example : ∃ P, P.length = 4 ∧ solution G 2 (probDiscWith [1/8, 3/8, 1/4, 1/4] [1/2, 1/4, 1/4]) = some P ∧
    solution G 2 probDiscCells = some P :=
  C153_prob_cells sound_G (by decide) (probDiscWith_fresh ..) probDiscCells_fresh
    ⟨rfl, rfl, by decide +kernel, by decide +kernel⟩ ⟨rfl, rfl, by decide +kernel, by decide +kernel⟩ rfl
    (by decide +kernel)

example : ∃ P, P.length = 2 ∧ transported G 3 oldSet newSet = some P ∧ transported G 3
    { dim := 1, glob := { values := some [[2], [0], [3], [1]], probabilities := some [1/2, 1/8, 0, 3/8] } } newSet =
      some P :=
  C153_transport_old (size := 3) (by decide) freshOld ⟨consistent_of _ _ rfl rfl, rfl, rfl, rfl⟩ readyNew rfl rfl
    (by decide +kernel)

/-- Two new samples in either order. -/
def swappedNew : SampleSet ℚ := { dim := 1, glob := { values := some [[3], [0]] } }

theorem swappedNew_ready : Ready swappedNew 2 :=
  ⟨consistent_of _ _ rfl rfl, by decide, rfl, Or.inl rfl, nofun, nofun⟩

example : ∃ P Q, transported G 3 oldSet newSet = some P ∧ transported G 3 oldSet swappedNew = some Q ∧ P.length = 2 ∧
    Q.length = 2 ∧ ([[(0 : ℚ)], [3]].zip P).Perm ([[3], [0]].zip Q) :=
  C153_transport_new sound_G (size := 3) (by decide) freshOld readyNew swappedNew_ready rfl rfl
    ⟨rfl, rfl, by decide +kernel, by decide +kernel⟩ ⟨rfl, rfl, by decide +kernel, by decide +kernel⟩ rfl
    (by decide +kernel)

example : ∃ r₁ r₂ v₁ v₂, newSet.estimateVolumeEmulated G 2 emSet = .ok r₁ ∧
    swappedNew.estimateVolumeEmulated G 2 emSet = .ok r₂ ∧ r₁.1.glob.volumes = some v₁ ∧ r₂.1.glob.volumes = some v₂ ∧
    v₁.length = 2 ∧ v₂.length = 2 ∧ ([[(0 : ℚ)], [3]].zip v₁).Perm ([[3], [0]].zip v₂) :=
  C153_volumes_emulated sound_G (size := 2) (k := 5) (x := [[0], [1/5], [19/10], [2], [3]]) (by decide) readyNew swappedNew_ready (consistent_of _ _ rfl rfl) (by decide) rfl
    rfl ⟨rfl, rfl, by decide +kernel, by decide +kernel⟩ ⟨rfl, rfl, by decide +kernel, by decide +kernel⟩ rfl
    (by decide +kernel)

/-- The same sets in a domain. -/
def newIn : SampleSet ℚ := { dim := 1, domain := some [(0, 3)], glob := { values := some [[0], [3]] } }

def swappedIn : SampleSet ℚ := { dim := 1, domain := some [(0, 3)], glob := { values := some [[3], [0]] } }

theorem newIn_ready : Ready newIn 2 := ⟨consistent_of _ _ rfl rfl, by decide, rfl, Or.inl rfl, nofun, nofun⟩

theorem swappedIn_ready : Ready swappedIn 2 := ⟨consistent_of _ _ rfl rfl, by decide, rfl, Or.inl rfl, nofun, nofun⟩

example : ∃ t₁ t₂ v₁ v₂, newIn.estimateVolume G 2 3 [[[0], [1]], [[2]]] = .ok t₁ ∧
    swappedIn.estimateVolume G 2 3 [[[0], [1]], [[2]]] = .ok t₂ ∧ t₁.glob.volumes = some v₁ ∧ t₂.glob.volumes = some v₂ ∧
    v₁.length = 2 ∧ v₂.length = 2 ∧ ([[(0 : ℚ)], [3]].zip v₁).Perm ([[3], [0]].zip v₂) :=
  C153_volumes sound_G (mc := [[[0], [1]], [[2]]]) newIn_ready swappedIn_ready rfl rfl (by decide)
    ⟨rfl, rfl, by decide +kernel, by decide +kernel⟩ ⟨rfl, rfl, by decide +kernel, by decide +kernel⟩ rfl
    (by decide +kernel)

/-- One sample whose output is in the middle between two cells, which may be listed in either order. -/
def tied (c : List (List ℚ)) (p : List ℚ) : Disc ℚ where
  input := some { dim := 1, glob := { values := some [[0]], volumes := some [1] } }
  output := some { dim := 1, glob := { values := some [[1]] } }
  outputProb := some { dim := 1, glob := { values := some c, probabilities := some p } }

end BET.Ex

namespace BET

open Spec

/-- **C153, what is false.** An output in the middle between two cells belongs to either, depending on the search; with a
search that takes the first nearest point the order of the cells decides whether the sample has all the probability or
none. -/
theorem C153_negation_tie : ∃ (G : Geometry ℚ) (d₁ d₂ : Disc ℚ) (inp out ops₁ ops₂ : SampleSet ℚ), Sound G ∧
    FreshDisc d₁ 1 2 inp out ops₁ [[1]] [1] [1, 0] ∧ FreshDisc d₂ 1 2 inp out ops₂ [[1]] [1] [0, 1] ∧
    ops₁.glob.values = some [[0], [2]] ∧ ops₂.glob.values = some [[2], [0]] ∧
    solution G 1 d₁ = some [1] ∧ solution G 1 d₂ = some [0] :=
  ⟨Ex.G, Ex.tied [[0], [2]] [1, 0], Ex.tied [[2], [0]] [0, 1], _, _, _, _, Ex.sound_G,
    ⟨rfl, Ex.consistent_of _ _ rfl rfl, rfl, rfl, rfl, rfl, Ex.consistent_of _ _ rfl rfl, rfl, rfl, rfl,
      ⟨Ex.consistent_of _ _ rfl rfl, by decide, rfl, Or.inl rfl, nofun, nofun⟩, rfl, rfl⟩,
    ⟨rfl, Ex.consistent_of _ _ rfl rfl, rfl, rfl, rfl, rfl, Ex.consistent_of _ _ rfl rfl, rfl, rfl, rfl,
      ⟨Ex.consistent_of _ _ rfl rfl, by decide, rfl, Or.inl rfl, nofun, nofun⟩, rfl, rfl⟩,
    rfl, rfl, by decide +kernel, by decide +kernel⟩

end BET
