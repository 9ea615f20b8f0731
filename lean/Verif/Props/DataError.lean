import Verif.Props.Stability
import Verif.Props.EmulatedLimit

/-!
# C152: solutions of problems whose data are given by random points
-/

set_option autoImplicit false
set_option linter.unusedSectionVars false
set_option linter.unusedSimpArgs false

namespace BET

open Spec MeasureTheory ProbabilityTheory

variable {d : Nat} {Ω : Type} [MeasurableSpace Ω] {P : Measure Ω}

namespace Spec

/-- A discretization with samples, volumes and outputs, to which a user still attaches the data. -/
structure Unsolved (dd : Disc ℝ) (n : Nat) (inp out : SampleSet ℝ) (y : List (List ℝ)) (vols : List ℝ) : Prop where
  hinput : dd.input = some inp
  hinputC : Consistent inp n
  hinputVals : inp.glob.values.isSome
  hinputLoc : inp.loc.values = none
  hvols : inp.glob.volumes = some vols
  houtput : dd.output = some out
  houtputC : Consistent out n
  houtVals : out.glob.values = some y
  houtLoc : out.loc.values = none
  hptr : dd.ioPtrLocal = none

/-- The discretization with the set that a constructor of simple functions returned as its data. -/
def withData (dd : Disc ℝ) (r : Except Err (SampleSet ℝ × DataSet ℝ)) : Disc ℝ :=
  { dd with outputProb := r.toOption.map (·.1) }

/-- The discretization with the nearest-sample cells of `samples` as its data, of given probabilities. -/
def withCells (dd : Disc ℝ) (e : Nat) (samples : List (List ℝ)) (p : List ℝ) : Disc ℝ :=
  { dd with outputProb := some (treeSet e samples (some p)) }

end Spec

theorem Unsolved.fresh {dd : Disc ℝ} {n m : Nat} {inp out ops : SampleSet ℝ} {y : List (List ℝ)} {vols p : List ℝ}
    (u : Unsolved dd n inp out y vols) (hr : Ready ops m) (hp : ops.glob.probabilities = some p) :
    FreshDisc { dd with outputProb := some ops } n m inp out ops y vols p :=
  ⟨u.hinput, u.hinputC, u.hinputVals, u.hinputLoc, u.hvols, u.houtput, u.houtputC, u.houtVals, u.houtLoc, rfl, hr, hp,
    u.hptr⟩

/-- What the call returned: a set with the cells of the stretched samples. -/
theorem uniformSize_cells {G : Geometry ℝ} (hG : Sound G) {size n : Nat} (hn : 0 < n) {ds : DataSet ℝ}
    {given : Option (List ℝ)} {q : List ℝ} (hgiven : UsedReference ds given q) (hq : q.length = d)
    {rectSize : NumArg ℝ} {rs : List ℝ} (hrs : UsedSizes rectSize rs) (hr : rs.length = d) {unif : List (List ℝ)}
    (hU : DistinctSamples d unif) {U : ℕ → ℕ → Fin d → ℝ} {r : SampleSet ℝ × DataSet ℝ}
    (hcall : uniformSize G size ds given rectSize unif (drawnChunks size n U) n = .ok r) :
    Ready r.1 unif.length ∧ EqualCells r.1 (treeSet d (unif.map (stretch (3 / 2) rs q)) none) ∧
      ∃ p, r.1.glob.probabilities = some p ∧ p.length = unif.length ∧ ∀ x ∈ p, 0 ≤ x := by
  have h := hcall
  simp only [uniformSize, bind_eq_ok, raiseIf_eq_ok, pure_eq_ok] at h
  obtain ⟨⟨inp, qr⟩, hc, rs', hrs', -, hpos, -, -, -, hlen, s, hs, h⟩ := h
  simp only [not_or, not_not] at hlen
  have hq' : qr = q := by
    rcases checkInputs_reference hc with h1 | ⟨h1, h2⟩ <;> rcases hgiven with h3 | ⟨h3, h4⟩
    · rw [h1] at h3; exact Option.some.inj h3
    · rw [h1] at h3; cases h3
    · rw [h1] at h3; cases h3
    · rw [h2] at h4; exact Option.some.inj (Except.ok.inj h4)
  subst hq'
  have hrs'' : rs' = rs := by
    have hl : rs'.length = rs.length := by rw [hr, hlen.1, ← hlen.2, hq]
    rcases sizeArray_used hrs' with h1 | h1 | ⟨x, h1, h2⟩ <;> rcases hrs with h3 | h3 | ⟨y, h3, h4⟩ <;>
      rw [h1] at h3 <;> cases h3
    · rfl
    · rfl
    · rw [h2, h4, hl]
  subst hrs''
  have hp : ∀ r ∈ rs', 0 < r := by
    intro r hr
    by_contra hn
    exact hpos ⟨r, hr, not_lt.mp hn⟩
  have hS := stretched (c := 3 / 2) (by norm_num) hr hq hp hU
  have hdim : inp.dim = d := by rw [← hlen.2, hq]
  simp only [hdim] at hs
  have hn' : (n : ℝ) ≠ 0 := by exact_mod_cast hn.ne'
  rw [show unif.length = (unif.map (stretch (3 / 2) rs' qr)).length by simp] at hs ⊢
  rw [binnedSet_ok hS.rows hS.pos hn'] at hs
  cases hs
  obtain ⟨h1, hg, h3, h4, -⟩ := attach_ready hG (ready_treeSet hS.rows hS.pos (by simp)) (ps := r.1) (ds' := r.2) h
  refine ⟨h1, ⟨h3, h4, ?_, ?_, ?_, ?_⟩, _, by rw [hg]; rfl, by simp, ?_⟩
  · rw [hg]; rfl
  · rw [hg]; rfl
  · rw [hg]; rfl
  · rw [hg]; rfl
  · intro x hx
    obtain ⟨i, -, rfl⟩ := List.mem_map.mp hx
    positivity

section
variable [IsProbabilityMeasure P]

/-- **C152.** A whole problem whose data are uniform on a rectangle and are given by
`uniform_partition_uniform_distribution_rectangle_size` with `n` independent emulated points: with probability at
least `1 - 2 M exp(-2 n ε²)` the solution that `prob` computes differs in total by less than `M ε` from the one that it
would compute for the exact probabilities of the `M` cells, whatever the model, the samples and their volumes are. -/
theorem C152_uniform_bound {G : Geometry ℝ} (hG : Sound G) (hE : IsEuclidean d G) {size : Nat} (hsize : 0 < size)
    {ds : DataSet ℝ} {given : Option (List ℝ)} {q : List ℝ} (hgiven : UsedReference ds given q) (hq : q.length = d)
    {rectSize : NumArg ℝ} {rs : List ℝ} (hrs : UsedSizes rectSize rs) (hr : rs.length = d) {unif : List (List ℝ)}
    (hunif : DistinctSamples d unif) {U : ℕ → ℕ → Ω → Fin d → ℝ} (hU : IndependentRows P U) {n : Nat} (hn : 0 < n)
    (hok : ∀ ω, (uniformSize G size ds given rectSize unif (drawnChunks size n fun r k => U r k ω) n).isOk) {ε : ℝ}
    (hε : 0 ≤ ε) {dd : Disc ℝ} {N : Nat} {inp out : SampleSet ℝ} {y : List (List ℝ)} {vols : List ℝ}
    (u : Unsolved dd N inp out y vols) (hv : ∀ v ∈ vols, 0 ≤ v) :
    ∃ exact, solution G size (withCells dd d (unif.map (stretch (3 / 2) rs q)) ((List.range unif.length).map fun i =>
        volume.real (nearestTo d (unif.map (stretch (3 / 2) rs q)) i ∩ domainBox d (centredBox q rs)) /
          volume.real (domainBox d (centredBox q rs)))) = some exact ∧ exact.length = N ∧
      (∀ ω, ∃ computed, solution G size (withData dd
        (uniformSize G size ds given rectSize unif (drawnChunks size n fun r k => U r k ω) n)) = some computed ∧
        computed.length = N) ∧
      P.real {ω | unif.length * ε ≤ l1 ((solution G size (withData dd
        (uniformSize G size ds given rectSize unif (drawnChunks size n fun r k => U r k ω) n))).getD []) exact} ≤
        2 * unif.length * Real.exp (-2 * n * ε ^ 2) := by
  obtain ⟨ω₀⟩ : Nonempty Ω := nonempty_of_isProbabilityMeasure P
  have hp := (uniformSize_probability hG hn hgiven hq hrs hr hunif (hok ω₀) hunif.pos).2
  have hS := stretched (c := 3 / 2) (by norm_num) hr hq hp hunif
  set samples := unif.map (stretch (3 / 2) rs q) with hsamples
  set ex : List ℝ := (List.range unif.length).map fun i =>
    volume.real (nearestTo d samples i ∩ domainBox d (centredBox q rs)) /
      volume.real (domainBox d (centredBox q rs)) with hex
  have hlen : samples.length = unif.length := by simp [hsamples]
  have hexr : Ready (treeSet d samples (some ex)) unif.length := by
    rw [← hlen]; exact ready_treeSet hS.rows hS.pos (by simp [hex, hlen])
  have hexn : ∀ x ∈ ex, 0 ≤ x := by
    intro x hx
    obtain ⟨i, -, rfl⟩ := List.mem_map.mp hx
    positivity
  have fex := Unsolved.fresh u hexr (p := ex) rfl
  have key : ∀ ω, ∃ p comp exact, (∀ i < unif.length, cellProbability
        (uniformSize G size ds given rectSize unif (drawnChunks size n fun r k => U r k ω) n) i = some (p.getD i 0)) ∧
      p.length = unif.length ∧
      solution G size (withData dd
        (uniformSize G size ds given rectSize unif (drawnChunks size n fun r k => U r k ω) n)) = some comp ∧
      solution G size (withCells dd d samples ex) = some exact ∧ comp.length = N ∧ exact.length = N ∧
      l1 comp exact ≤ l1 p ex := by
    intro ω
    cases hcall : uniformSize G size ds given rectSize unif (drawnChunks size n fun r k => U r k ω) n with
    | error e => have := hok ω; rw [hcall] at this; cases this
    | ok r =>
      obtain ⟨h1, h2, p, h3, h4, h5⟩ := uniformSize_cells hG hn hgiven hq hrs hr hunif hcall
      have f := Unsolved.fresh u h1 h3
      have hsame : EqualCells r.1 (treeSet d samples (some ex)) := ⟨h2.1, h2.2, h2.3, h2.4, h2.5, h2.6⟩
      obtain ⟨A, B, hA, hB, hAl, hBl, hAB⟩ := C152_prob hG hsize f fex hsame hv h5 hexn
      refine ⟨p, A, B, fun i hi => ?_, h4, hA, hB, hAl, hBl, hAB⟩
      simp [cellProbability, Except.toOption, h3, List.getD_eq_getElem?_getD, List.getElem?_eq_getElem (h4 ▸ hi)]
  obtain ⟨_, _, exact, -, -, -, hexact, -, hexl, -⟩ := key ω₀
  refine ⟨exact, hexact, hexl, fun ω => ?_, ?_⟩
  · obtain ⟨_, c, _, -, -, h1, -, h2, -⟩ := key ω
    exact ⟨c, h1, h2⟩
  · refine le_trans (measureReal_mono ?_ (measure_ne_top _ _))
      (C151_uniform_bound hG hE hsize hgiven hq hrs hr hunif hU hn hok hε)
    intro ω hω
    simp only [Set.mem_ofPred_eq] at hω ⊢
    obtain ⟨p, c, e, h1, h2, h3, h4, -, -, h5⟩ := key ω
    rw [hexact] at h4
    cases h4
    rw [h3, Option.getD_some] at hω
    by_contra hno
    push Not at hno
    have hlt : l1 p ex < unif.length * ε := by
      rw [l1_getD (m := unif.length) h2 (by simp [hex])]
      have : ((List.range unif.length).map fun k => |p.getD k 0 - ex.getD k 0|).sum <
          ((List.range unif.length).map fun _ => ε).sum := by
        refine List.sum_lt_sum_of_ne_nil (by simpa using hunif.pos.ne') _ _ fun k hk => ?_
        rw [List.mem_range] at hk
        have := hno k hk
        rw [h1 k hk, Option.getD_some] at this
        simpa [hex, List.getD_eq_getElem?_getD, hk] using this
      simpa using this
    exact absurd (hω.trans h5) (not_le.mpr hlt)

end

end BET

namespace BET.Ex

open BET.Spec MeasureTheory ProbabilityTheory

/-- Three samples with volumes and outputs in the plane. -/
noncomputable def dataDisc : Disc ℝ where
  input := some { dim := 1, glob := { values := some [[0], [1], [2]], volumes := some [1 / 4, 1 / 4, 1 / 2] } }
  output := some { dim := 2, glob := { values := some [[0, 0], [1, 2], [3, 4]] } }

theorem dataDisc_unsolved : Unsolved dataDisc 3
    { dim := 1, glob := { values := some [[0], [1], [2]], volumes := some [1 / 4, 1 / 4, 1 / 2] } }
    { dim := 2, glob := { values := some [[0, 0], [1, 2], [3, 4]] } } [[0, 0], [1, 2], [3, 4]] [1 / 4, 1 / 4, 1 / 2] :=
  ⟨rfl, SampleSet.consistent_of_checkNum (size := 1) rfl rfl, rfl, rfl, rfl, rfl,
    SampleSet.consistent_of_checkNum (size := 1) rfl rfl, rfl, rfl, rfl⟩

/-- **C152.** Two cells in the plane, 1000 emulated points on three processes, an error of a tenth. -/
example : ∃ (Ω : Type) (_ : MeasurableSpace Ω) (P : Measure Ω) (U : ℕ → ℕ → Ω → Fin 2 → ℝ) (exact : List ℝ),
    IsProbabilityMeasure P ∧ exact.length = 3 ∧
    P.real {ω | (2 : ℕ) * (1 / 10 : ℝ) ≤ l1 ((solution euclid 3 (withData dataDisc (uniformSize euclid 3
      (.array 2 [[5, 5]]) (some [1, 2]) (.scalar 4) [[0, 0], [1 / 2, 3 / 4]]
      (drawnChunks 3 1000 fun r k => U r k ω) 1000))).getD []) exact} ≤
      2 * (2 : ℕ) * Real.exp (-2 * (1000 : ℕ) * (1 / 10) ^ 2) := by
  obtain ⟨Ω, i, P, U, hP, hI, hU⟩ := independentRows 2
  obtain ⟨exact, -, h2, -, h4⟩ := C152_uniform_bound (P := P) (U := U) euclid_sound (euclid_isEuclidean 2) (size := 3)
    (by norm_num) (ds := .array 2 [[5, 5]]) (given := some [1, 2]) (q := [1, 2]) (Or.inl rfl) rfl
    (rectSize := .scalar 4) (rs := [4, 4]) (Or.inr (Or.inr ⟨4, rfl, rfl⟩)) rfl twoRows hI (n := 1000) (by norm_num)
    (fun ω => by
      obtain ⟨ps, h⟩ := C68_accepts_partial (G := euclid) (size := 3) (d := 2) (num := 1000) (v := [[5, 5]])
        (q := [1, 2]) rfl (a := .scalar 4) (rs := [4, 4]) (by simp) (Or.inl ⟨4, rfl, rfl⟩) twoRows.pos twoRows.rows
        (drawnChunks 3 1000 fun r k => U r k ω) (by norm_num)
      rw [h]
      rfl) (ε := 1 / 10) (by norm_num) dataDisc_unsolved (by simp)
  exact ⟨Ω, i, P, U, exact, hP, h2, h4⟩

end BET.Ex
