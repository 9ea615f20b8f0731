import Verif.Model.DrawsP
import Verif.Props.Convergence
import Verif.Props.Prob
import Verif.Props.Transport

/-!
# C133: probabilities from estimated volumes converge

A discretization is fixed, and only the number of the random points that measure its cells grows.
-/

set_option linter.unusedSectionVars false
set_option linter.unusedSimpArgs false
set_option autoImplicit false

namespace BET

open Spec MeasureTheory ProbabilityTheory Filter Topology

variable {Ω : Type} [MeasurableSpace Ω] {P : Measure Ω} {d : Nat}

/-! ## Specification -/

namespace Spec

/-- Contour events of `N` samples have the probabilities `p`, and sample `i` lies in the contour event `c i`. The
probability of each event is divided among its samples as the measures `v` of their cells; an event without measure
keeps nothing. -/
noncomputable def dividedBy (N : Nat) (p : List ℝ) (c : Nat → Nat) (v : Nat → ℝ) (i : Nat) : ℝ :=
  if 0 < p.getD (c i) 0 ∧ 0 < ∑ j ∈ Finset.range N with c j = c i, v j then
    p.getD (c i) 0 * v i / ∑ j ∈ Finset.range N with c j = c i, v j else 0

/-- The probability of input sample `i` after a call. -/
def inputProbability (r : Except Err (Disc ℝ)) (i : Nat) : Option ℝ :=
  r.toOption.bind fun d => d.input.bind fun s => s.glob.probabilities.bind fun p => p[i]?

/-- A discretization as a user builds it: input samples without volumes, their outputs `y`, and an output probability
set with the probabilities `p`; nothing is distributed yet. -/
structure Unmeasured (D : Disc ℝ) (N M : Nat) (inp out ops : SampleSet ℝ) (y : List (List ℝ)) (p : List ℝ) :
    Prop where
  input : D.input = some inp
  inputReady : Ready inp N
  output : D.output = some out
  outputConsistent : Consistent out N
  outputValues : out.glob.values = some y
  outputLocal : out.loc.values = none
  outputProb : D.outputProb = some ops
  outputProbReady : Ready ops M
  probabilities : ops.glob.probabilities = some p
  pointer : D.ioPtrLocal = none

/-- `c i` is a contour event of the output of sample `i`. -/
def ContourOf (G : Geometry ℝ) (ops : SampleSet ℝ) (y : List (List ℝ)) (c : Nat → Nat) : Prop :=
  ∀ i row, y[i]? = some row → IsCell G ops row (c i)

/-- A set of emulated points: `n` points are the first `n` of a sequence of pairwise independent points with the law
`μ`. -/
structure RandomPoints (P : Measure Ω) (μ : Measure (Fin d → ℝ)) (X : ℕ → Ω → Fin d → ℝ)
    (em : ℕ → Ω → SampleSet ℝ) : Prop where
  law : ∀ k, HasLaw (X k) μ P
  indep : Pairwise fun j k => IndepFun (X j) (X k) P
  consistent : ∀ n ω, Consistent (em n ω) n
  values : ∀ n ω, (em n ω).glob.values = some ((List.range n).map fun k => List.ofFn (X k ω))
  unsplit : ∀ n ω, (em n ω).loc.values = none

/-- Probability `i` of the list of probabilities that a call returns. -/
def newProbability {α : Type} (r : Except Err (List ℝ × α)) (j : Nat) : Option ℝ :=
  r.toOption.bind fun a => a.1[j]?

/-- The old cells that have a measure. -/
noncomputable def seen (d : Nat) (G : Geometry ℝ) (old : SampleSet ℝ) (μ : Measure (Fin d → ℝ)) (n : Nat) : Finset ℕ :=
  open Classical in (Finset.range n).filter fun i => 0 < μ.real (cellSet d G old i)

end Spec

/-! ## Two calls -/

theorem estimateVolume_split {G : Geometry ℝ} {size n m : Nat} {s : SampleSet ℝ} (hr : Ready s m)
    (hdom : s.domain.isSome) {mc : Chunks (List ℝ)} (hn : mc.flatten.length = n) (hpos : 0 < n) :
    ∃ s', s.estimateVolume G size n mc = .ok s' ∧ Consistent s' m ∧ s'.loc.values.isSome ∧
      s'.loc.volumes = some (arraySplit size (cellFractions G s m mc.flatten)) := by
  obtain ⟨d, hd⟩ := Option.isSome_iff_exists.mp hdom
  obtain ⟨s₁, hq, hr₁, _, hv₁⟩ := SampleSet.query_ready (G := G) (size := size) hr mc
  have hvec : ((List.range m).map (fun i => allreduceSum
      ((mc.map fun c => c.map (s.cell G)).map fun c =>
        (((npEqual c i).count true : Nat) : ℝ)))).map (· / (n : ℝ)) =
      cellFractions G s m mc.flatten := by
    rw [countVec_eq, List.map_map, ← List.map_flatten, cellFractions, hn]
    rfl
  have hc := consistent_setVolumes hr₁.consistent
    (vol := cellFractions G s m mc.flatten) (by simp [cellFractions])
  obtain ⟨v, hv⟩ := Option.isSome_iff_exists.mp hr₁.values
  unfold SampleSet.estimateVolume
  simp only [SampleSet.checkNum_consistent hr.consistent, ok_bind, hd, orErr_some, hq,
    raiseIf_false (show ¬ n = 0 by omega), hvec, SampleSet.globalToLocal_ok hc]
  exact ⟨_, rfl, hc, by simp [SampleSet.splitSet, Arrays.map₂, hv], rfl⟩

theorem estimateVolumeEmulated_split {G : Geometry ℝ} {size m k : Nat} {s em : SampleSet ℝ}
    (hsize : 0 < size) (hr : Ready s m) (hem : Consistent em k) (hk : 0 < k)
    {x : List (List ℝ)} (hx : em.glob.values = some x) (hl : em.loc.values = none) :
    ∃ s' em', s.estimateVolumeEmulated G size em = .ok (s', em') ∧ Consistent s' m ∧ s'.loc.values.isSome ∧
      s'.loc.volumes = some (arraySplit size (cellFractions G s m x)) := by
  obtain ⟨s₁, hq, hr₁, _, hv₁⟩ := SampleSet.query_ready (G := G) (size := size) hr
    (arraySplit size x)
  have hxl : x.length = k := hem.1.values x hx
  have hnum : allreduceSum ((arraySplit size x).map List.length) = k := by
    rw [allreduceSum, ← List.length_flatten, flatten_arraySplit _ _ hsize, hxl]
  have hvec : ((List.range m).map (fun i => allreduceSum
      (((arraySplit size x).map fun c => c.map (s.cell G)).map fun c =>
        (((npEqual c i).count true : Nat) : ℝ)))).map (· / (k : ℝ)) =
      cellFractions G s m x := by
    rw [countVec_eq, List.map_map, ← List.map_flatten, flatten_arraySplit _ _ hsize,
      cellFractions, hxl]
    rfl
  have hc := consistent_setVolumes hr₁.consistent
    (vol := cellFractions G s m x) (by simp [cellFractions])
  have hxs : (em.splitSet size k).loc.values = some (arraySplit size x) := by
    simp [SampleSet.splitSet, Arrays.map₂, hx]
  obtain ⟨v, hv⟩ := Option.isSome_iff_exists.mp hr₁.values
  unfold SampleSet.estimateVolumeEmulated
  simp only [SampleSet.checkNum_consistent hr.consistent, ok_bind,
    SampleSet.localized_none size hl, SampleSet.globalToLocal_ok hem, hxs, orErr_some, hq, hnum,
    raiseIf_false (show ¬ k = 0 by omega), hvec, SampleSet.globalToLocal_ok hc]
  exact ⟨_, _, rfl, hc, by simp [SampleSet.splitSet, Arrays.map₂, hv], rfl⟩

/-- `prob` after the volumes of the input samples were estimated. -/
theorem prob_measured {G : Geometry ℝ} {D : Disc ℝ} {N M : Nat} {inp out ops : SampleSet ℝ}
    {y : List (List ℝ)} {vols p : List ℝ} (hinp : D.input = some inp) (hinpC : Consistent inp N)
    (hloc : inp.loc.values.isSome) {size : Nat} (hsize : 0 < size) (hvl : vols.length = N)
    (hvols : inp.loc.volumes = some (arraySplit size vols)) (hout : D.output = some out) (houtC : Consistent out N)
    (hy : out.glob.values = some y) (hyl : out.loc.values = none) (hops : D.outputProb = some ops)
    (hready : Ready ops M) (hp : ops.glob.probabilities = some p) (hptr : D.ioPtrLocal = none) :
    ∃ D' inp', prob G size D true = .ok D' ∧ D'.input = some inp' ∧
      inp'.glob.probabilities = some (List.zipWith (fun c v =>
        if 0 < p.getD c 0 ∧ 0 < mass (y.map (ops.cell G)) vols c then
          p.getD c 0 * v / mass (y.map (ops.cell G)) vols c else 0)
        (y.map (ops.cell G)) vols) := by
  obtain ⟨lv, hlv⟩ := Option.isSome_iff_exists.mp hloc
  have hcn : D.checkNums size = .ok N := by
    unfold Disc.checkNums
    simp [hout, hinp, SampleSet.checkNum_consistent houtC,
      SampleSet.checkNum_consistent hinpC, pure, Except.pure]
  have hyn : y.length = N := houtC.1.values y hy
  have hpl : p.length = M := hready.consistent.1.probabilities p hp
  obtain ⟨ops', hset, hr', hc', hpr'⟩ := setIoPtr_fresh (G := G) (size := size) (g := false)
    hout houtC hy hyl hops hready
  have hens : D.ensureIoPtr G size false = D.setIoPtr G size false := by
    simp [Disc.ensureIoPtr, hptr]
  have hsh : SameShape (arraySplit size (y.map (ops.cell G))) (arraySplit size vols) :=
    arraySplit_sameShape _ _ _ (by simp [hyn, hvl])
  have hloop := probLoop_eq p _ _ M hsh (by omega)
  unfold prob
  simp only [hcn, ok_bind, hops, orErr_some,
    SampleSet.checkNum_consistent hready.consistent, hens, hset, hinp,
    SampleSet.localized_some size hlv, hpr', hp, hvols, hloop]
  refine ⟨_, _, rfl, rfl, ?_⟩
  simp only [if_true, getGlobalValues, Option.some.injEq]
  rw [flatten_zipWith_zipWith _ hsh, flatten_arraySplit _ _ hsize, flatten_arraySplit _ _ hsize]
  congr 1
  funext c v
  by_cases hc : c < M
  · simp [hc]
  · have : p.getD c 0 = 0 := by simp [List.getD, show p.length ≤ c by omega]
    simp only [hc, this, gt_iff_lt, lt_irrefl, false_and, and_false]

/-- The mass of an event is a sum over its samples. -/
theorem mass_eq_sum (cells : List Nat) (w : List ℝ) (h : cells.length = w.length) (a : Nat) :
    mass cells w a = ∑ j ∈ Finset.range cells.length with cells.getD j 0 = a, w.getD j 0 := by
  induction cells generalizing w with
  | nil => simp
  | cons c cs ih =>
    cases w with
    | nil => simp at h
    | cons x w =>
      simp only [List.length_cons, Nat.add_right_cancel_iff] at h
      rw [mass_cons, ih w h, Finset.sum_filter, Finset.sum_filter, List.length_cons, Finset.sum_range_succ']
      simp only [List.getD_cons_succ, List.getD_cons_zero]
      rw [add_comm]

/-- The entry of sample `i` in the probabilities of `prob`. -/
theorem zip_entry {N : Nat} {cells : List Nat} {vols p : List ℝ} (hc : cells.length = N) (hv : vols.length = N)
    {v : Nat → ℝ} (hvv : ∀ j < N, vols[j]? = some (v j)) {c : Nat → Nat} (hcc : ∀ j < N, cells[j]? = some (c j))
    {i : Nat} (hi : i < N) :
    (List.zipWith (fun c v => if 0 < p.getD c 0 ∧ 0 < mass cells vols c then
          p.getD c 0 * v / mass cells vols c else 0) cells vols)[i]? = some (dividedBy N p c v i) := by
  have hm : mass cells vols (c i) = ∑ j ∈ Finset.range N with c j = c i, v j := by
    rw [mass_eq_sum _ _ (by omega), hc, Finset.sum_filter, Finset.sum_filter]
    refine Finset.sum_congr rfl fun j hj => ?_
    have hj := Finset.mem_range.1 hj
    simp [List.getD_eq_getElem?_getD, hvv j hj, hcc j hj]
  rw [List.getElem?_zipWith, hcc i hi, hvv i hi]
  simp only [hm, dividedBy]

/-- Sums of shares follow their measures to the limit, if what has no measure in the limit has none before. -/
theorem dividedBy_tendsto {N : Nat} {p : List ℝ} {c : Nat → Nat} {v : ℕ → Nat → ℝ} {q : Nat → ℝ} (hq : ∀ j < N, 0 ≤ q j)
    (hv : ∀ j < N, Tendsto (fun n => v n j) atTop (𝓝 (q j))) (h0 : ∀ j < N, q j = 0 → ∀ᶠ n in atTop, v n j = 0)
    {i : Nat} (hi : i < N) :
    Tendsto (fun n => dividedBy N p c (v n) i) atTop (𝓝 (dividedBy N p c q i)) := by
  by_cases hp : 0 < p.getD (c i) 0
  swap
  · simp only [dividedBy, hp, false_and, if_false]
    exact tendsto_const_nhds
  have hs : Tendsto (fun n => ∑ j ∈ Finset.range N with c j = c i, v n j) atTop
      (𝓝 (∑ j ∈ Finset.range N with c j = c i, q j)) :=
    tendsto_finsetSum _ fun j hj => hv j (Finset.mem_range.1 (Finset.mem_filter.1 hj).1)
  have hnn : ∀ j ∈ (Finset.range N).filter (fun j => c j = c i), 0 ≤ q j := fun j hj =>
    hq j (Finset.mem_range.1 (Finset.mem_filter.1 hj).1)
  by_cases hpos : 0 < ∑ j ∈ Finset.range N with c j = c i, q j
  · simp only [dividedBy, hp, hpos, true_and, if_true]
    refine (((hv i hi).const_mul (p.getD (c i) 0)).div hs hpos.ne').congr' ?_
    filter_upwards [hs.eventually_const_lt hpos] with n hn
    rw [if_pos hn]
    rfl
  · have hz : ∑ j ∈ Finset.range N with c j = c i, q j = 0 :=
      le_antisymm (not_lt.1 hpos) (Finset.sum_nonneg hnn)
    have hqi : q i = 0 := (Finset.sum_eq_zero_iff_of_nonneg hnn).1 hz i (by simp [hi])
    have e : dividedBy N p c q i = 0 := by simp [dividedBy, hz]
    rw [e]
    refine tendsto_const_nhds.congr' ?_
    filter_upwards [h0 i hi hqi] with n hn
    simp [dividedBy, hn]

theorem contour_cells {G : Geometry ℝ} (hG : Sound G) {ops : SampleSet ℝ} {M : Nat} (hr : Ready ops M)
    (y : List (List ℝ)) : ContourOf G ops y fun i => ops.cell G (y.getD i []) := by
  intro i row h
  have : y.getD i [] = row := by rw [List.getD_eq_getElem?_getD, h]; rfl
  dsimp only
  rw [this]
  exact SampleSet.cell_isCell hG hr row

theorem cells_get {G : Geometry ℝ} {ops : SampleSet ℝ} {y : List (List ℝ)} {N : Nat} (hy : y.length = N) :
    ∀ j < N, (y.map (ops.cell G))[j]? = some (ops.cell G (y.getD j [])) := by
  intro j hj
  rw [List.getElem?_map, List.getD_eq_getElem?_getD, List.getElem?_eq_getElem (by omega)]
  rfl

/-- What the two calls compute. -/
theorem solveDrawn_value {G : Geometry ℝ} {D : Disc ℝ} {N M : Nat} {inp out ops : SampleSet ℝ} {y : List (List ℝ)}
    {p : List ℝ} (f : Unmeasured D N M inp out ops y p) {dom : List (ℝ × ℝ)} (hdom : inp.domain = some dom)
    (hD : dom.length = d) {size n : Nat} (hsize : 0 < size) (hn : 0 < n) (U : ℕ → ℕ → Fin d → ℝ) {i : Nat}
    (hi : i < N) :
    inputProbability (D.solveDrawn G size n fun r k => List.ofFn (U r k)) i =
      some (dividedBy N p (fun i => ops.cell G (y.getD i [])) (fun j => (∑ r ∈ Finset.range size,
        ∑ k ∈ Finset.range (numLocal n size r), ind {x | inp.cell G (List.ofFn x) = j} (boxMap dom (U r k))) / n) i) := by
  have hmc : mcPoints dom size n (fun r k => List.ofFn (U r k)) =
      (List.range size).map fun r => (List.range (numLocal n size r)).map fun k =>
        List.ofFn (boxMap dom (U r k)) := by
    unfold mcPoints
    simp only [boxPoint_ofFn hD]
  obtain ⟨s', h1, h2, h3, h4⟩ := estimateVolume_split (G := G) (size := size) f.inputReady (by rw [hdom]; rfl)
    (mc := mcPoints dom size n fun r k => List.ofFn (U r k)) (by rw [hmc]; exact length_drawn hsize n _) hn
  obtain ⟨D', inp', g1, g2, g3⟩ := prob_measured (G := G) (D := { D with input := some s' }) rfl h2 h3 hsize
    (by simp [cellFractions]) h4 f.output f.outputConsistent f.outputValues f.outputLocal f.outputProb
    f.outputProbReady f.probabilities f.pointer
  unfold Disc.solveDrawn SampleSet.estimateVolumeDrawn inputProbability
  simp only [f.input, orErr_some, ok_bind, hdom, Option.getD_some, h1, g1, Except.toOption, Option.bind_some, g2, g3]
  have hy := f.outputConsistent.1.values y f.outputValues
  refine zip_entry (by simpa using hy) (by simp [cellFractions]) (fun j hj => ?_) (cells_get hy) hi
  rw [cellFractions, List.getElem?_map, List.getElem?_range hj, Option.map_some, hmc, length_drawn hsize, hits_drawn]

/-- The same for `prob_with_emulated_volumes`. -/
theorem probEmulated_value {G : Geometry ℝ} {D : Disc ℝ} {N M : Nat} {inp out ops em : SampleSet ℝ} {y : List (List ℝ)}
    {p : List ℝ} (f : Unmeasured D N M inp out ops y p) (hem : D.emInput = some em) {size n : Nat} (hsize : 0 < size)
    (hn : 0 < n) (hemC : Consistent em n) {x : List (List ℝ)} (hx : em.glob.values = some x)
    (hl : em.loc.values = none) {i : Nat} (hi : i < N) :
    inputProbability (probWithEmulatedVolumes G size D) i =
      some (dividedBy N p (fun i => ops.cell G (y.getD i []))
        (fun j => (hits (x.map (inp.cell G)) j : ℝ) / x.length) i) := by
  obtain ⟨s', em', h1, h2, h3, h4⟩ := estimateVolumeEmulated_split (G := G) hsize f.inputReady hemC hn hx hl
  have hcn : D.checkNums size = .ok N := by
    unfold Disc.checkNums
    simp [f.output, f.input, SampleSet.checkNum_consistent f.outputConsistent,
      SampleSet.checkNum_consistent f.inputReady.consistent, pure, Except.pure]
  obtain ⟨ops', k1, k2, k3, k4⟩ : ∃ ops', ops.localized size = .ok ops' ∧ Ready ops' M ∧ ops'.cell G = ops.cell G ∧
      ops'.glob.probabilities = ops.glob.probabilities := by
    cases hlv : ops.loc.values with
    | some v => exact ⟨ops, SampleSet.localized_some size hlv, f.outputProbReady, rfl, rfl⟩
    | none =>
      refine ⟨_, (SampleSet.localized_none size hlv).trans (SampleSet.globalToLocal_ok f.outputProbReady.consistent size), ?_,
        rfl, rfl⟩
      obtain ⟨r1, r2, r3, r4, r5, r6⟩ := f.outputProbReady
      exact ⟨r1, r2, r3, r4, r5, r6⟩
  obtain ⟨D', inp', g1, g2, g3⟩ := prob_measured (G := G)
    (D := { D with outputProb := some ops', input := some s', emInput := some em' }) rfl h2 h3 hsize
    (by simp [cellFractions]) h4 f.output f.outputConsistent f.outputValues f.outputLocal rfl
    k2 (k4.trans f.probabilities) f.pointer
  unfold probWithEmulatedVolumes Disc.estimateInputVolumeEmulated inputProbability
  simp only [hcn, f.outputProb, SampleSet.checkNum_consistent f.outputProbReady.consistent, k1, f.input, hem, orErr_some,
    ok_bind, h1, LawfulMonad.pure_bind, g1, Except.toOption, Option.bind_some, g2, g3, k3]
  have hy := f.outputConsistent.1.values y f.outputValues
  refine zip_entry (by simpa using hy) (by simp [cellFractions]) (fun j hj => ?_) (cells_get hy) hi
  rw [cellFractions, List.getElem?_map, List.getElem?_range hj, Option.map_some]

/-! ## The limits -/

/-- The shares do not change if all measures are divided by the same number. -/
theorem dividedBy_scale {N : Nat} {p : List ℝ} {c : Nat → Nat} {v : Nat → ℝ} {a : ℝ} (ha : 0 < a) (i : Nat) :
    dividedBy N p c (fun j => v j / a) i = dividedBy N p c v i := by
  unfold dividedBy
  simp only [← Finset.sum_div, div_pos_iff_of_pos_right ha, ← mul_div_assoc, div_div_div_cancel_right₀ ha.ne']

section
variable [IsProbabilityMeasure P]

/-- **C133.** `estimate_volume` with `n` random points and then `prob`, on any number of processes: the calls return,
and for `n → ∞` the probability of every input sample tends, with probability one, to the probability of its contour
event times the part of the volume of the event that belongs to its cell. Contour events whose cells have no volume in
the domain get nothing. -/
theorem C133_prob {G : Geometry ℝ} (hG : Sound G) {D : Disc ℝ} {N M : Nat} {inp out ops : SampleSet ℝ}
    {y : List (List ℝ)} {p : List ℝ} (f : Unmeasured D N M inp out ops y p) {dom : List (ℝ × ℝ)}
    (hdom : inp.domain = some dom) (hD : ProperBox d dom)
    (hc : ClearCells G inp (volume.restrict (domainBox d dom))) :
    ∃ c : ℕ → ℕ, ContourOf G ops y c ∧ ∀ size, 0 < size → ∀ U : ℕ → ℕ → Ω → Fin d → ℝ, UniformRows P U →
      (∀ n ω, 0 < n → ∀ i < N,
        (inputProbability (D.solveDrawn G size n fun r k => List.ofFn (U r k ω)) i).isSome) ∧
      ∀ᵐ ω ∂P, ∀ i < N, Tendsto
        (fun n => (inputProbability (D.solveDrawn G size n fun r k => List.ofFn (U r k ω)) i).getD 0) atTop
        (𝓝 (dividedBy N p c (fun j => volume.real (cellSet d G inp j ∩ domainBox d dom)) i)) := by
  refine ⟨_, contour_cells hG f.outputProbReady y, fun size hsize U hU => ?_⟩
  have hDl := hD.1
  refine ⟨fun n ω hn i hi => by rw [solveDrawn_value f hdom hDl hsize hn _ hi]; rfl, ?_⟩
  have hbox : MeasurableSet (domainBox d dom) := by
    rw [domainBox_eq hDl]; exact MeasurableSet.univ_pi fun j => measurableSet_Ico
  have hlaw : ∀ r k, HasLaw (fun ω => boxMap dom (U r k ω))
      ((volume (domainBox d dom))⁻¹ • volume.restrict (domainBox d dom)) P := fun r k => hasLaw_boxMap (hU.law r k) hD
  have hcl := clear_scale hc (volume (domainBox d dom))⁻¹
  have hfreq := ae_all_iff.2 fun j => frequency (P := P) hsize (Z := fun r k ω => boxMap dom (U r k ω))
    (μ := (volume (domainBox d dom))⁻¹ • volume.restrict (domainBox d dom)) hlaw
    (fun r j k hjk => (hU.indep r hjk).comp (measurable_boxMap dom) (measurable_boxMap dom))
    ((hcl.meas j).congr (cell_ae hG f.inputReady hcl j).symm)
  have hnull : ∀ᵐ ω ∂P, ∀ j, ((volume (domainBox d dom))⁻¹ • volume.restrict (domainBox d dom)).real
      {x | inp.cell G (List.ofFn x) = j} = 0 →
      ∀ r k, ind {x | inp.cell G (List.ofFn x) = j} (boxMap dom (U r k ω)) = 0 := by
    refine ae_all_iff.2 fun j => ?_
    by_cases hz : ((volume (domainBox d dom))⁻¹ • volume.restrict (domainBox d dom))
        {x | inp.cell G (List.ofFn x) = j} = 0
    · filter_upwards [ae_draws hlaw (measure_eq_zero_iff_ae_notMem.1 hz)] with ω hω _ r k
      simp [ind, Set.indicator, hω r k]
    · have hP : IsProbabilityMeasure ((volume (domainBox d dom))⁻¹ • volume.restrict (domainBox d dom)) := by
        rw [← (hlaw 0 0).map_eq]
        exact Measure.isProbabilityMeasure_map (hlaw 0 0).aemeasurable
      refine Eventually.of_forall fun ω h => absurd h ?_
      rw [Measure.real]
      exact ENNReal.toReal_ne_zero.2 ⟨hz, measure_ne_top _ _⟩
  have hreal : ∀ j, ((volume (domainBox d dom))⁻¹ • volume.restrict (domainBox d dom)).real
      {x | inp.cell G (List.ofFn x) = j} =
        volume.real (cellSet d G inp j ∩ domainBox d dom) / volume.real (domainBox d dom) := fun j => by
    rw [measureReal_congr (cell_ae hG f.inputReady hcl j), law_real hbox]
  have hvol : 0 < volume.real (domainBox d dom) := by
    rw [domainBox_eq hDl, Measure.real, volume_pi_pi, ENNReal.toReal_prod]
    refine Finset.prod_pos fun j _ => ?_
    have hj : (j : ℕ) < dom.length := by rw [hDl]; exact j.2
    have := hD.2 _ (List.getElem_mem hj)
    rw [List.getD_eq_getElem?_getD, List.getElem?_eq_getElem hj, Option.getD_some, Real.volume_Ico,
      ENNReal.toReal_ofReal (by linarith)]
    linarith
  filter_upwards [hfreq, hnull] with ω h1 h2 i hi
  rw [← dividedBy_scale hvol]
  simp only [← hreal]
  have h3 := dividedBy_tendsto (p := p) (c := fun i => ops.cell G (y.getD i []))
    (fun j _ => measureReal_nonneg) (fun j _ => h1 j)
    (fun j _ hj => Eventually.of_forall fun n => by simp [h2 j hj]) hi
  refine h3.congr' ?_
  filter_upwards [eventually_gt_atTop 0] with n hn
  rw [solveDrawn_value f hdom hDl hsize hn _ hi]
  rfl

theorem points_frequency {μ : Measure (Fin d → ℝ)} {X : ℕ → Ω → Fin d → ℝ} {em : ℕ → Ω → SampleSet ℝ}
    (hX : RandomPoints P μ X em) {A : Set (Fin d → ℝ)} (hA : NullMeasurableSet A μ) :
    ∀ᵐ ω ∂P, Tendsto (fun n : ℕ => (∑ k ∈ Finset.range n, ind A (X k ω)) / n) atTop (𝓝 (μ.real A)) ∧
      (μ.real A = 0 → ∀ k, X k ω ∉ A) := by
  have hP : IsProbabilityMeasure μ := by
    rw [← (hX.law 0).map_eq]
    exact Measure.isProbabilityMeasure_map (hX.law 0).aemeasurable
  have h1 := stream_frequency (P := P) hX.law hX.indep hA
  by_cases hz : μ A = 0
  · filter_upwards [h1, ae_draws (P := P) (Z := fun _ k => X k) (fun _ k => hX.law k)
      (measure_eq_zero_iff_ae_notMem.1 hz)] with ω h1 h2
    exact ⟨h1, fun _ k => h2 0 k⟩
  · filter_upwards [h1] with ω h1
    refine ⟨h1, fun h => absurd h ?_⟩
    rw [Measure.real]
    exact ENNReal.toReal_ne_zero.2 ⟨hz, measure_ne_top _ _⟩

theorem hits_points (n : Nat) (X : ℕ → Fin d → ℝ) (c : List ℝ → Nat) (j : Nat) :
    (hits (((List.range n).map fun k => List.ofFn (X k)).map c) j : ℝ) =
      ∑ k ∈ Finset.range n, ind {x | c (List.ofFn x) = j} (X k) := by
  rw [hits, List.map_map, count_map_range]
  exact Finset.sum_congr rfl fun k _ => by simp [ind, Set.indicator]

/-- **C133.** `prob_with_emulated_volumes` with `n` emulated points of any law `μ`: the same limit, where `μ` measures
the cells. -/
theorem C133_emulated {G : Geometry ℝ} (hG : Sound G) {D : Disc ℝ} {N M : Nat} {inp out ops : SampleSet ℝ}
    {y : List (List ℝ)} {p : List ℝ} (f : Unmeasured D N M inp out ops y p) {μ : Measure (Fin d → ℝ)}
    (hc : ClearCells G inp μ) :
    ∃ c : ℕ → ℕ, ContourOf G ops y c ∧ ∀ size, 0 < size → ∀ (X : ℕ → Ω → Fin d → ℝ) (em : ℕ → Ω → SampleSet ℝ),
      RandomPoints P μ X em →
      (∀ n ω, 0 < n → ∀ i < N,
        (inputProbability (probWithEmulatedVolumes G size { D with emInput := some (em n ω) }) i).isSome) ∧
      ∀ᵐ ω ∂P, ∀ i < N, Tendsto (fun n => (inputProbability (probWithEmulatedVolumes G size
          { D with emInput := some (em n ω) }) i).getD 0) atTop
        (𝓝 (dividedBy N p c (fun j => μ.real (cellSet d G inp j)) i)) := by
  refine ⟨_, contour_cells hG f.outputProbReady y, fun size hsize X em hX => ?_⟩
  have hval : ∀ n ω, 0 < n → ∀ i < N,
      inputProbability (probWithEmulatedVolumes G size { D with emInput := some (em n ω) }) i =
      some (dividedBy N p (fun i => ops.cell G (y.getD i [])) (fun j =>
        (∑ k ∈ Finset.range n, ind {x | inp.cell G (List.ofFn x) = j} (X k ω)) / n) i) := by
    intro n ω hn i hi
    have f' : Unmeasured { D with emInput := some (em n ω) } N M inp out ops y p :=
      ⟨f.input, f.inputReady, f.output, f.outputConsistent, f.outputValues, f.outputLocal, f.outputProb,
        f.outputProbReady, f.probabilities, f.pointer⟩
    rw [probEmulated_value f' rfl hsize hn (hX.consistent n ω) (hX.values n ω) (hX.unsplit n ω) hi]
    simp only [hits_points, List.length_map, List.length_range]
  refine ⟨fun n ω hn i hi => by rw [hval n ω hn i hi]; rfl, ?_⟩
  have hae : ∀ᵐ ω ∂P, ∀ j, _ := ae_all_iff.2 fun j =>
    points_frequency hX ((hc.meas j).congr (cell_ae hG f.inputReady hc j).symm)
  filter_upwards [hae] with ω h1 i hi
  simp only [← measureReal_congr (cell_ae hG f.inputReady hc _)]
  have h3 := dividedBy_tendsto (p := p) (c := fun i => ops.cell G (y.getD i []))
    (fun j _ => measureReal_nonneg) (fun j _ => (h1 j).1)
    (fun j _ hj => Eventually.of_forall fun n => by
      have := (h1 j).2 hj
      have hz : ∀ k ∈ Finset.range n, ind {x | inp.cell G (List.ofFn x) = j} (X k ω) = 0 := fun k _ =>
        Set.indicator_of_notMem (s := {x : Fin d → ℝ | inp.cell G (List.ofFn x) = j}) (this k) _
      rw [Finset.sum_eq_zero hz, zero_div]) hi
  refine h3.congr' ?_
  filter_upwards [eventually_gt_atTop 0] with n hn
  rw [hval n ω hn i hi]
  rfl

end

/-- **C133.** The limit solves the inverse problem: the samples of a contour event whose cells have a measure have
together the probability of the event. -/
theorem C133_consistent {N : Nat} {p : List ℝ} {c : Nat → Nat} {v : Nat → ℝ} (hp : ∀ a ∈ p, 0 ≤ a) (a : Nat)
    (hv : 0 < ∑ j ∈ Finset.range N with c j = a, v j) :
    ∑ i ∈ Finset.range N with c i = a, dividedBy N p c v i = p.getD a 0 := by
  have hpa : 0 ≤ p.getD a 0 := by
    rw [List.getD_eq_getElem?_getD]
    cases h : p[a]? with
    | none => simp
    | some b => exact hp b (List.mem_of_getElem? h)
  rcases hpa.lt_or_eq with h | h
  · have : ∀ i ∈ (Finset.range N).filter (fun i => c i = a), dividedBy N p c v i =
        p.getD a 0 / (∑ j ∈ Finset.range N with c j = a, v j) * v i := by
      intro i hi
      have hci := (Finset.mem_filter.1 hi).2
      simp only [dividedBy, hci, h, hv, true_and, if_true]
      ring
    rw [Finset.sum_congr rfl this, ← Finset.mul_sum, div_mul_cancel₀ _ hv.ne']
  · rw [← h]
    refine Finset.sum_eq_zero fun i hi => ?_
    have hci := (Finset.mem_filter.1 hi).2
    simp only [dividedBy, hci, ← h, lt_irrefl, false_and, if_false]

/-! ## Transport to another set -/

/-- A weight that depends on the old cell of a point, summed over the points in a new cell. -/
theorem mass_points (k : Nat) (X : ℕ → Fin d → ℝ) (co cn : List ℝ → Nat) (w : Nat → ℝ) {n : Nat}
    (hco : ∀ x, co x < n) (j : Nat) :
    mass (((List.range k).map fun l => List.ofFn (X l)).map cn)
      (((List.range k).map fun l => List.ofFn (X l)).map fun x => w (co x)) j =
      ∑ i ∈ Finset.range n, w i * ∑ l ∈ Finset.range k,
        ind {x | co (List.ofFn x) = i ∧ cn (List.ofFn x) = j} (X l) := by
  rw [mass_eq_sum _ _ (by simp), Finset.sum_filter]
  simp only [List.length_map, List.length_range, Finset.mul_sum]
  rw [Finset.sum_comm]
  refine Finset.sum_congr rfl fun l hl => ?_
  have hl := Finset.mem_range.1 hl
  have e : ∀ {β : Type} (f : List ℝ → β) (b : β), (((List.range k).map fun l => List.ofFn (X l)).map f).getD l b =
      f (List.ofFn (X l)) := by
    intro β f b
    simp [List.getD_eq_getElem?_getD, List.getElem?_range hl]
  rw [e, e, Finset.sum_eq_single (co (List.ofFn (X l)))]
  · by_cases h : cn (List.ofFn (X l)) = j <;> simp [ind, Set.indicator, h]
  · intro i _ hi
    simp [ind, Set.indicator, Ne.symm hi]
  · intro h
    exact absurd (Finset.mem_range.2 (hco _)) h

theorem sum_range_list (n : Nat) (f : Nat → ℝ) : ((List.range n).map f).sum = ∑ k ∈ Finset.range n, f k := by
  induction n with
  | zero => simp
  | succ n ih => rw [List.range_succ, List.map_append, List.sum_append, Finset.sum_range_succ, ← ih]; simp

theorem sum_ind_pos {k : Nat} {X : ℕ → Fin d → ℝ} {A : Set (Fin d → ℝ)}
    (h : 0 < ∑ l ∈ Finset.range k, ind A (X l)) : ∃ l < k, X l ∈ A := by
  by_contra hn
  push Not at hn
  exact h.ne' (Finset.sum_eq_zero fun l hl => Set.indicator_of_notMem (hn l (Finset.mem_range.1 hl)) _)

section
variable [IsProbabilityMeasure P]

/-- **C133.** `prob_from_sample_set_with_emulated_volumes` with `n` emulated points of the law `μ`: from some `n` on it
returns, with probability one, and for `n → ∞` the probability of new cell `W j` tends to the sum of
`p i * μ(V i ∩ W j) / μ(V i)` over the old cells `V i` that have a measure, divided by their probability. If all old
cells with a probability have a measure, this is the push-forward of the density that is constant relative to `μ` in
each old cell. -/
theorem C133_transport {G : Geometry ℝ} (hG : Sound G) {old new : SampleSet ℝ} {n m : Nat} (ho : Ready old n)
    (hr : Ready new m) (hdim : old.dim = new.dim) {p : List ℝ} (hp : old.glob.probabilities = some p)
    (hprob : IsProbVector p) {μ : Measure (Fin d → ℝ)} (hco : ClearCells G old μ) (hcn : ClearCells G new μ)
    (hpos : 0 < ∑ i ∈ seen d G old μ n, p.getD i 0) {X : ℕ → Ω → Fin d → ℝ} {em : ℕ → Ω → SampleSet ℝ}
    (hX : RandomPoints P μ X em) (hed : ∀ k ω, (em k ω).dim = old.dim) {size : Nat} (hsize : 0 < size) :
    ∀ᵐ ω ∂P, ∀ j < m,
      (∀ᶠ k in atTop, (newProbability (probFromSampleSetEmulated G size old new (em k ω)) j).isSome) ∧
      Tendsto (fun k => (newProbability (probFromSampleSetEmulated G size old new (em k ω)) j).getD 0) atTop
        (𝓝 ((∑ i ∈ seen d G old μ n, p.getD i 0 *
            (μ.real (cellSet d G old i ∩ cellSet d G new j) / μ.real (cellSet d G old i))) /
          ∑ i ∈ seen d G old μ n, p.getD i 0)) := by
  classical
  have hpl : p.length = n := ho.consistent.1.probabilities p hp
  have hp0 : ∀ i, 0 ≤ p.getD i 0 := by
    intro i
    rw [List.getD_eq_getElem?_getD]
    cases h : p[i]? with
    | none => simp
    | some b => exact hprob.1 b (List.mem_of_getElem? h)
  set A : ℕ → Set (Fin d → ℝ) := fun i => {x | old.cell G (List.ofFn x) = i} with hA
  set B : ℕ → ℕ → Set (Fin d → ℝ) := fun i j =>
    {x | old.cell G (List.ofFn x) = i ∧ new.cell G (List.ofFn x) = j} with hB
  have hAae : ∀ i, A i =ᵐ[μ] cellSet d G old i := cell_ae hG ho hco
  have hBae : ∀ i j, B i j =ᵐ[μ] (cellSet d G old i ∩ cellSet d G new j : Set (Fin d → ℝ)) := fun i j =>
    (cell_ae hG ho hco i).inter (cell_ae hG hr hcn j)
  have h1 : ∀ᵐ ω ∂P, ∀ i, _ := ae_all_iff.2 fun i => points_frequency hX ((hco.meas i).congr (hAae i).symm)
  have h2 : ∀ᵐ ω ∂P, ∀ i j, _ := ae_all_iff.2 fun i => ae_all_iff.2 fun j =>
    points_frequency hX (((hco.meas i).inter (hcn.meas j)).congr (hBae i j).symm)
  have h3 := ae_draws (P := P) (Z := fun _ k => X k) (fun _ k => hX.law k) hco.one
  filter_upwards [h1, h2, h3] with ω h1 h2 h3 j hj
  -- cells with a measure are hit
  have hseen : ∀ i, i ∈ seen d G old μ n ↔ i < n ∧ 0 < μ.real (A i) := by
    intro i
    rw [seen, Finset.mem_filter, Finset.mem_range, measureReal_congr (hAae i)]
  have hhit : ∀ᶠ k : ℕ in atTop, ∀ i ∈ seen d G old μ n, 0 < ∑ l ∈ Finset.range k, ind (A i) (X l ω) := by
    rw [Finset.eventually_all]
    intro i hi
    filter_upwards [(h1 i).1.eventually_const_lt ((hseen i).1 hi).2, eventually_gt_atTop 0] with k hk hk0
    have : (0 : ℝ) < k := by exact_mod_cast hk0
    exact (div_pos_iff_of_pos_right this).1 hk
  have hmiss : ∀ i, i ∉ seen d G old μ n → i < n → ∀ l, X l ω ∉ A i := by
    intro i hi hin
    refine (h1 i).2 (le_antisymm ?_ measureReal_nonneg)
    by_contra h
    exact hi ((hseen i).2 ⟨hin, not_le.1 h⟩)
  have hz : ∀ k i, (hits (((List.range k).map fun l => List.ofFn (X l ω)).map (old.cell G)) i : ℝ) =
      ∑ l ∈ Finset.range k, ind (A i) (X l ω) := fun k i => hits_points k (fun l => X l ω) (old.cell G) i
  -- what the call returns
  have hval : ∀ᶠ k : ℕ in atTop, newProbability (probFromSampleSetEmulated G size old new (em k ω)) j =
      some ((∑ i ∈ seen d G old μ n, p.getD i 0 * ((∑ l ∈ Finset.range k, ind (B i j) (X l ω)) /
        ∑ l ∈ Finset.range k, ind (A i) (X l ω))) / ∑ i ∈ seen d G old μ n, p.getD i 0) := by
    filter_upwards [hhit] with k hk
    set z := (List.range k).map fun l => List.ofFn (X l ω) with hzdef
    obtain ⟨i0, hi0, hpi0⟩ := Finset.exists_lt_of_sum_lt (s := seen d G old μ n) (f := fun _ => (0 : ℝ))
      (g := fun i => p.getD i 0) (by simpa using hpos)
    obtain ⟨l0, hl0, hx0⟩ := sum_ind_pos (hk i0 hi0)
    obtain ⟨o', n', e', total, g1, g2⟩ := C08_succeeds hG ho hr hp (hX.consistent k ω) (hX.values k ω)
      (hX.unsplit k ω) hdim (hed k ω).symm ⟨List.ofFn (X l0 ω), by
        rw [List.mem_map]; exact ⟨l0, List.mem_range.2 hl0, rfl⟩, fun c hc => by
        have e : c = i0 := h3 0 l0 _ _ hc (by
          have := SampleSet.cell_isCell hG ho (List.ofFn (X l0 ω))
          rwa [show old.cell G (List.ofFn (X l0 ω)) = i0 from hx0] at this)
        have hi0n : i0 < p.length := by rw [hpl]; exact ((hseen i0).1 hi0).1
        refine ⟨p[i0], by rw [e, List.getElem?_eq_getElem hi0n], ?_⟩
        have := hpi0
        rw [List.getD_eq_getElem?_getD, List.getElem?_eq_getElem hi0n] at this
        exact this⟩ size hsize
    -- the total is the probability of the cells with a measure
    have hsum : (z.map fun x => emShare p (z.map (old.cell G)) (old.cell G x)).sum =
        ∑ i ∈ seen d G old μ n, p.getD i 0 := by
      have e1 : (z.map fun x => emShare p (z.map (old.cell G)) (old.cell G x)) =
          (z.map (old.cell G)).map (emShare p (z.map (old.cell G))) :=
            (List.map_map (f := old.cell G) (g := emShare p (z.map (old.cell G))) (l := z)).symm
      rw [e1, emShare_sum p _ (by
        intro c hc
        obtain ⟨x, _, rfl⟩ := List.mem_map.1 hc
        rw [hpl]
        exact SampleSet.cell_lt hG ho x)]
      rw [hpl, sum_range_list, ← Finset.sum_subset (s₁ := seen d G old μ n) fun i hi =>
        Finset.mem_range.2 ((hseen i).1 hi).1]
      · refine Finset.sum_congr rfl fun i hi => ?_
        have hh : 0 < hits (z.map (old.cell G)) i := by
          have := hk i hi
          rw [← hz] at this
          exact_mod_cast this
        by_cases hpi : 0 < p.getD i 0
        · rw [if_pos ⟨hpi, hh⟩]
        · rw [if_neg fun h => hpi h.1]
          exact le_antisymm (hp0 i) (not_lt.1 hpi)
      · intro i hi hi'
        rw [if_neg]
        rintro ⟨-, hh⟩
        have hh' : (0 : ℝ) < ∑ l ∈ Finset.range k, ind (A i) (X l ω) := by
          rw [← hz]; exact_mod_cast hh
        obtain ⟨l, _, hl⟩ := sum_ind_pos hh'
        exact hmiss i hi' (Finset.mem_range.1 hi) l hl
    have htot : total = ∑ i ∈ seen d G old μ n, p.getD i 0 := by
      rw [g2, hsum]
      split
      · rfl
      · next hw =>
        rw [← hsum]
        have e1 : (z.map fun x => emShare p (z.map (old.cell G)) (old.cell G x)) =
            (z.map (old.cell G)).map (emShare p (z.map (old.cell G))) :=
            (List.map_map (f := old.cell G) (g := emShare p (z.map (old.cell G))) (l := z)).symm
        rw [e1]
        refine (emShare_total hprob (fun c hc => ?_) ?_).symm
        · obtain ⟨x, _, rfl⟩ := List.mem_map.1 hc
          rw [hpl]
          exact SampleSet.cell_lt hG ho x
        · rw [hpl]; exact Bool.not_eq_true _ ▸ hw
    simp only [newProbability, g1, Except.toOption, Option.bind_some, List.getElem?_map, List.getElem?_range hj,
      Option.map_some, htot]
    congr 1
    rw [mass_points k (fun l => X l ω) (old.cell G) (new.cell G)
      (fun i => emShare p (z.map (old.cell G)) i / ∑ i ∈ seen d G old μ n, p.getD i 0)
      (SampleSet.cell_lt hG ho) j, Finset.sum_div, ← Finset.sum_subset (s₁ := seen d G old μ n) fun i hi =>
        Finset.mem_range.2 ((hseen i).1 hi).1]
    · refine Finset.sum_congr rfl fun i hi => ?_
      rw [emShare, hz]
      by_cases hpi : 0 < p.getD i 0
      · rw [if_pos hpi]
        ring
      · rw [if_neg hpi, ← le_antisymm (hp0 i) (not_lt.1 hpi)]
        simp
    · intro i hi hi'
      have : ∀ l ∈ Finset.range k, ind (B i j) (X l ω) = 0 := fun l _ =>
        Set.indicator_of_notMem (fun h => hmiss i hi' (Finset.mem_range.1 hi) l h.1) _
      rw [Finset.sum_eq_zero this, mul_zero]
  refine ⟨hval.mono fun k hk => by rw [hk]; rfl, ?_⟩
  have hlim : Tendsto (fun k : ℕ => (∑ i ∈ seen d G old μ n, p.getD i 0 * ((∑ l ∈ Finset.range k, ind (B i j) (X l ω)) /
        ∑ l ∈ Finset.range k, ind (A i) (X l ω))) / ∑ i ∈ seen d G old μ n, p.getD i 0) atTop
      (𝓝 ((∑ i ∈ seen d G old μ n, p.getD i 0 *
            (μ.real (cellSet d G old i ∩ cellSet d G new j) / μ.real (cellSet d G old i))) /
          ∑ i ∈ seen d G old μ n, p.getD i 0)) := by
    refine Tendsto.div_const (tendsto_finsetSum _ fun i hi => Tendsto.const_mul _ ?_) _
    rw [← measureReal_congr (hAae i), ← measureReal_congr (hBae i j)]
    refine (((h2 i j).1).div (h1 i).1 ((hseen i).1 hi).2.ne').congr' ?_
    filter_upwards [eventually_gt_atTop 0] with k hk
    have hk' : (k : ℝ) ≠ 0 := by exact_mod_cast hk.ne'
    exact div_div_div_cancel_right₀ hk' _ _
  refine hlim.congr' ?_
  filter_upwards [hval] with k hk
  rw [hk]
  rfl

end

/-- **C133.** Old cells that all have a probability meet the condition of `C133_transport`, whatever the law. -/
theorem C133_seen {G : Geometry ℝ} (hG : Sound G) {old : SampleSet ℝ} {n : Nat} (ho : Ready old n)
    {μ : Measure (Fin d → ℝ)} [IsProbabilityMeasure μ] {p : List ℝ} (hp : ∀ i < n, 0 < p.getD i 0) :
    0 < ∑ i ∈ seen d G old μ n, p.getD i 0 := by
  classical
  refine Finset.sum_pos (fun i hi => hp i (Finset.mem_range.1 (Finset.mem_filter.1 hi).1)) ?_
  by_contra h
  rw [Finset.not_nonempty_iff_eq_empty, seen, Finset.filter_eq_empty_iff] at h
  have hcov : (Set.univ : Set (Fin d → ℝ)) = ⋃ i ∈ Finset.range n, cellSet d G old i := by
    ext x
    simp only [Set.mem_univ, Set.mem_iUnion, true_iff]
    exact ⟨_, Finset.mem_range.2 (SampleSet.cell_lt hG ho (List.ofFn x)), SampleSet.cell_isCell hG ho _⟩
  have h0 : μ.real Set.univ ≤ ∑ i ∈ Finset.range n, μ.real (cellSet d G old i) := by
    rw [hcov]
    exact measureReal_biUnion_finset_le _ _
  rw [Finset.sum_eq_zero fun i hi => le_antisymm (not_lt.1 (h hi)) measureReal_nonneg, probReal_univ] at h0
  linarith

end BET

namespace BET.Ex

open BET.Spec MeasureTheory ProbabilityTheory

/-- The set of contour events: two output cells on the line. -/
noncomputable def lineProb : SampleSet ℝ :=
  { dim := 1, glob := { values := some [[0], [1]], probabilities := some [1 / 4, 3 / 4] } }

noncomputable def lineOut : SampleSet ℝ := { dim := 1, glob := { values := some [[0], [1 / 4], [2]] } }

noncomputable def planeDisc : Disc ℝ := { input := some planeSet, output := some lineOut, outputProb := some lineProb }

theorem plane_ready : Ready planeSet 3 :=
  ⟨SampleSet.consistent_of_checkNum (size := 1) rfl rfl, by norm_num, rfl, Or.inl rfl, nofun, nofun⟩

theorem plane_clear (B : Set (Fin 2 → ℝ)) : ClearCells euclid planeSet (volume.restrict B) :=
  C130_clear_euclidean rfl rfl (by simp) (by simp) (fun x c => euclid_dist _ x c) B

/-- Hypotheses of `C133_prob`: the first two samples share a contour event. -/
example : Sound euclid ∧ Unmeasured planeDisc 3 2 planeSet lineOut lineProb [[0], [1 / 4], [2]] [1 / 4, 3 / 4] ∧
    planeSet.domain = some [(0, 4), (-1, 1)] ∧ ProperBox 2 [(0, 4), (-1, 1)] ∧
    ClearCells euclid planeSet (volume.restrict (domainBox 2 [(0, 4), (-1, 1)])) :=
  ⟨euclid_sound, ⟨rfl, plane_ready, rfl, SampleSet.consistent_of_checkNum (size := 1) rfl rfl, rfl, rfl, rfl,
    ⟨SampleSet.consistent_of_checkNum (size := 1) rfl rfl, by norm_num, rfl, Or.inl rfl, nofun, nofun⟩, rfl, rfl⟩, rfl,
    ⟨rfl, by simp⟩, plane_clear _⟩

/-- Emulated points, and hypotheses of `C133_emulated`. -/
theorem randomPoints : ∃ (Ω : Type) (_ : MeasurableSpace Ω) (P : Measure Ω) (X : ℕ → Ω → Fin 2 → ℝ)
    (em : ℕ → Ω → SampleSet ℝ), IsProbabilityMeasure P ∧
      RandomPoints P (volume.restrict (Set.univ.pi fun _ : Fin 2 => Set.Ico (0 : ℝ) 1)) X em ∧
      ∀ k ω, (em k ω).dim = 2 := by
  obtain ⟨Ω, hΩ, P, U, hP, -, hU⟩ := independentRows 2
  refine ⟨Ω, hΩ, P, fun k => U 0 k, fun n ω =>
    { dim := 2, glob := { values := some ((List.range n).map fun k => List.ofFn (U 0 k ω)) } }, hP,
    ⟨fun k => hU.law 0 k, hU.indep 0, fun n ω => ?_, fun _ _ => rfl, fun _ _ => rfl⟩, fun _ _ => rfl⟩
  refine ⟨⟨fun v hv => by obtain rfl := Option.some.inj hv; simp, nofun, nofun, nofun, nofun, nofun, nofun, nofun,
    nofun, nofun, nofun, nofun, nofun, nofun⟩, fun h => (nomatch h.1), fun v hv r hr => ?_⟩
  obtain rfl := Option.some.inj hv
  obtain ⟨k, -, rfl⟩ := List.mem_map.1 hr
  simp

example : ClearCells euclid planeSet (volume.restrict (Set.univ.pi fun _ : Fin 2 => Set.Ico (0 : ℝ) 1)) :=
  plane_clear _

/-- The old set of a transport, and a new one of another size. -/
noncomputable def planeOld : SampleSet ℝ :=
  { dim := 2, glob := { values := some [[0, 0], [1, 1 / 2], [3, 0]], probabilities := some [1 / 2, 1 / 4, 1 / 4] } }

noncomputable def planeNew : SampleSet ℝ := { dim := 2, glob := { values := some [[0, 1], [1, 0]] } }

/-- Hypotheses of `C133_transport` and `C133_seen`. The third old cell has a probability and no measure. -/
example : Ready planeOld 3 ∧ Ready planeNew 2 ∧ planeOld.dim = planeNew.dim ∧
    planeOld.glob.probabilities = some [1 / 2, 1 / 4, 1 / 4] ∧ IsProbVector [(1 : ℝ) / 2, 1 / 4, 1 / 4] ∧
    ClearCells euclid planeOld (volume.restrict (Set.univ.pi fun _ : Fin 2 => Set.Ico (0 : ℝ) 1)) ∧
    ClearCells euclid planeNew (volume.restrict (Set.univ.pi fun _ : Fin 2 => Set.Ico (0 : ℝ) 1)) ∧
    ∀ i < 3, 0 < [(1 : ℝ) / 2, 1 / 4, 1 / 4].getD i 0 := by
  refine ⟨⟨SampleSet.consistent_of_checkNum (size := 1) rfl rfl, by norm_num, rfl, Or.inl rfl, nofun, nofun⟩,
    ⟨SampleSet.consistent_of_checkNum (size := 1) rfl rfl, by norm_num, rfl, Or.inl rfl, nofun, nofun⟩, rfl, rfl,
    ⟨by simp, by norm_num⟩, C130_clear_euclidean rfl rfl (by simp) (by simp) (fun x c => euclid_dist _ x c) _,
    C130_clear_euclidean rfl rfl (by simp) (by simp) (fun x c => euclid_dist _ x c) _, ?_⟩
  intro i hi
  match i, hi with
  | 0, _ => norm_num
  | 1, _ => norm_num
  | 2, _ => norm_num

/-- Hypotheses of `C133_consistent`: two samples with the volumes 1 and 3 divide an event of probability 1/4. -/
example : 0 < ∑ j ∈ Finset.range 3 with (fun j => j / 2) j = 0, (fun j => [(1 : ℝ), 3, 5].getD j 0) j ∧
    dividedBy 3 [1 / 4, 3 / 4] (fun j => j / 2) (fun j => [(1 : ℝ), 3, 5].getD j 0) 1 = 3 / 16 := by
  have e : (Finset.range 3).filter (fun j => j / 2 = 0) = {0, 1} := by decide
  have e' : (Finset.range 3).filter (fun j => j / 2 = 1 / 2) = {0, 1} := by decide
  refine ⟨?_, ?_⟩
  · simp only [e]; norm_num
  · simp only [dividedBy, e']; norm_num

end BET.Ex
