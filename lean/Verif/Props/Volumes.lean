import Verif.Props.Query
import Mathlib.Tactic.FieldSimp
import Mathlib.Data.Rat.Floor
import Mathlib.Algebra.Order.Floor.Semifield

/-!
# C18, C19, C20: volumes by counting
-/

set_option linter.unusedSectionVars false
set_option linter.unusedSimpArgs false
set_option autoImplicit false

namespace BET

open Spec

variable {K : Type} [Field K] [LinearOrder K]

theorem consistent_setVolumes {s : SampleSet K} {n : Nat} (h : Consistent s n) {vol : List K}
    (hv : vol.length = n) :
    Consistent { s with glob := { s.glob with volumes := some vol } } n := by
  obtain ⟨h1, _, h3⟩ := h
  refine ⟨⟨h1.values, fun v hv' => by cases hv'; exact hv, h1.probabilities, h1.densities,
    h1.jacobians, h1.errorEstimates, h1.right, h1.left, h1.width, h1.kdtreeValues, h1.radii,
    h1.normalizedRadii, h1.region, h1.errorId⟩, fun hn => ?_, h3⟩
  have := hn.volumes
  cases this

theorem countVec_eq (ptr : Chunks Nat) (num : Nat) :
    (List.range num).map (fun i => allreduceSum (ptr.map fun c =>
      (((npEqual c i).count true : Nat) : K))) =
      (List.range num).map fun i => ((hits ptr.flatten i : Nat) : K) := by
  refine List.map_congr_left fun i _ => ?_
  rw [hits_flatten, allreduceSum]
  induction ptr with
  | nil => simp
  | cons a ptr ih =>
    simp only [List.map_cons, List.sum_cons, Nat.cast_add, count_npEqual] at ih ⊢
    rw [ih]

theorem hits_sum (cells : List Nat) (m : Nat) (h : ∀ c ∈ cells, c < m) :
    ((List.range m).map fun i => ((hits cells i : Nat) : K)).sum = (cells.length : K) := by
  have := sum_range_mass (K := K) cells (cells.map fun _ => 1) m (by simp) h
  rw [List.map_const', List.sum_replicate, nsmul_eq_mul, mul_one] at this
  rw [← this]
  congr 1
  refine List.map_congr_left fun i _ => ?_
  have h2 := mass_map_self (K := K) cells (fun _ => 1) i
  rw [List.map_const'] at h2
  rw [h2, mul_one]

/-- What `estimate_volume` and `estimate_volume_emulated` promise about the volumes of the
`m` cells of `s`: entry `i` is the fraction of the points `pts` in cell `i`. -/
structure Spec.CellFractions (G : Geometry K) (s : SampleSet K) (m : Nat) (pts : List (List K))
    (vol : List K) : Prop where
  length : vol.length = m
  fraction : ∃ cells, List.Forall₂ (IsCell G s) pts cells ∧
    ∀ i, i < m → vol[i]? = some ((hits cells i : K) / (pts.length : K))

theorem cellFractions_map {G : Geometry K} (hG : Sound G) {s : SampleSet K} {m : Nat}
    (hr : Ready s m) (pts : List (List K)) :
    CellFractions G s m pts
      ((List.range m).map fun i => (hits (pts.map (s.cell G)) i : K) / (pts.length : K)) := by
  refine ⟨by simp, pts.map (s.cell G), ?_, fun i hi => by simp [hi]⟩
  rw [List.forall₂_map_right_iff]
  exact List.forall₂_same.mpr fun p _ => SampleSet.cell_isCell hG hr p

/-- The volumes computed by counting. -/
def cellFractions (G : Geometry K) (s : SampleSet K) (m : Nat) (pts : List (List K)) : List K :=
  (List.range m).map fun i => (hits (pts.map (s.cell G)) i : K) / (pts.length : K)

theorem estimateVolume_ok {G : Geometry K} {size n m : Nat} {s : SampleSet K} (hr : Ready s m)
    (hdom : s.domain.isSome) {mc : Chunks (List K)} (hn : mc.flatten.length = n) (hpos : 0 < n) :
    ∃ s', s.estimateVolume G size n mc = .ok s' ∧
      s'.glob.volumes = some (cellFractions G s m mc.flatten) ∧
      s'.glob.values = s.glob.values ∧
      s'.loc.volumes = some (arraySplit size (cellFractions G s m mc.flatten)) := by
  obtain ⟨d, hd⟩ := Option.isSome_iff_exists.mp hdom
  obtain ⟨s₁, hq, hr₁, _, hv₁⟩ := SampleSet.query_ready (G := G) (size := size) hr mc
  have hvec : ((List.range m).map (fun i => allreduceSum
      ((mc.map fun c => c.map (s.cell G)).map fun c =>
        (((npEqual c i).count true : Nat) : K)))).map (· / (n : K)) =
      cellFractions G s m mc.flatten := by
    rw [countVec_eq, List.map_map, ← List.map_flatten, cellFractions, hn]
    rfl
  have hc := consistent_setVolumes hr₁.consistent
    (vol := cellFractions G s m mc.flatten) (by simp [cellFractions])
  unfold SampleSet.estimateVolume
  simp only [SampleSet.checkNum_consistent hr.consistent, ok_bind, hd, orErr_some, hq,
    raiseIf_false (show ¬ n = 0 by omega), hvec, SampleSet.globalToLocal_ok hc]
  exact ⟨_, rfl, rfl, hv₁, rfl⟩

theorem estimateVolumeEmulated_ok {G : Geometry K} {size m k : Nat} {s em : SampleSet K}
    (hsize : 0 < size) (hr : Ready s m) (hem : Consistent em k) (hk : 0 < k)
    {x : List (List K)} (hx : em.glob.values = some x) (hl : em.loc.values = none) :
    ∃ s' em', s.estimateVolumeEmulated G size em = .ok (s', em') ∧
      s'.glob.volumes = some (cellFractions G s m x) ∧ s'.glob.values = s.glob.values ∧
      s'.loc.volumes = some (arraySplit size (cellFractions G s m x)) := by
  obtain ⟨s₁, hq, hr₁, _, hv₁⟩ := SampleSet.query_ready (G := G) (size := size) hr
    (arraySplit size x)
  have hxl : x.length = k := hem.1.values x hx
  have hnum : allreduceSum ((arraySplit size x).map List.length) = k := by
    rw [allreduceSum, ← List.length_flatten, flatten_arraySplit _ _ hsize, hxl]
  have hvec : ((List.range m).map (fun i => allreduceSum
      (((arraySplit size x).map fun c => c.map (s.cell G)).map fun c =>
        (((npEqual c i).count true : Nat) : K)))).map (· / (k : K)) =
      cellFractions G s m x := by
    rw [countVec_eq, List.map_map, ← List.map_flatten, flatten_arraySplit _ _ hsize,
      cellFractions, hxl]
    rfl
  have hc := consistent_setVolumes hr₁.consistent
    (vol := cellFractions G s m x) (by simp [cellFractions])
  have hxs : (em.splitSet size k).loc.values = some (arraySplit size x) := by
    simp [SampleSet.splitSet, Arrays.map₂, hx]
  unfold SampleSet.estimateVolumeEmulated
  simp only [SampleSet.checkNum_consistent hr.consistent, ok_bind,
    SampleSet.localized_none size hl, SampleSet.globalToLocal_ok hem, hxs, orErr_some, hq, hnum,
    raiseIf_false (show ¬ k = 0 by omega), hvec, SampleSet.globalToLocal_ok hc]
  exact ⟨_, _, rfl, rfl, hv₁, rfl⟩

section ordered
variable [IsStrictOrderedRing K]

theorem cellFractions_prob {G : Geometry K} (hG : Sound G) {s : SampleSet K} {m : Nat}
    (hr : Ready s m) {pts : List (List K)} (hp : pts ≠ []) :
    IsProbVector (cellFractions G s m pts) := by
  have hl : (0 : K) < (pts.length : K) := by
    exact_mod_cast List.length_pos_iff.mpr hp
  constructor
  · intro x hx
    obtain ⟨i, _, rfl⟩ := List.mem_map.mp hx
    exact div_nonneg (Nat.cast_nonneg _) hl.le
  · have h1 := hits_sum (K := K) (pts.map (s.cell G)) m (fun c hc => by
      obtain ⟨p, _, rfl⟩ := List.mem_map.mp hc
      exact SampleSet.cell_lt hG hr p)
    rw [List.length_map] at h1
    have h2 : cellFractions G s m pts = ((List.range m).map fun i =>
        ((hits (pts.map (s.cell G)) i : Nat) : K)).map (· * ((pts.length : K))⁻¹) := by
      simp [cellFractions, div_eq_mul_inv]
    rw [h2, List.sum_map_mul_right, List.map_id', h1, mul_inv_cancel₀ hl.ne']

/-- **C18.** `estimate_volume` with `n` random points, however they are spread over the
processes: every cell gets the fraction of the points that lie in it, and the volumes
are a probability vector.  The local volumes are the parts of the global ones. -/
theorem C18_monte_carlo {G : Geometry K} (hG : Sound G) {size n m : Nat} {s : SampleSet K}
    (hsize : 0 < size) (hr : Ready s m) (hdom : s.domain.isSome) {mc : Chunks (List K)}
    (hn : mc.flatten.length = n) (hpos : 0 < n) :
    ∃ s' vol, s.estimateVolume G size n mc = .ok s' ∧ s'.glob.volumes = some vol ∧
      CellFractions G s m mc.flatten vol ∧ IsProbVector vol ∧
      (∃ l, s'.loc.volumes = some l ∧ IsBalancedSplit size vol l) ∧
      s'.glob.values = s.glob.values := by
  obtain ⟨s', h1, h2, h3, h4⟩ := estimateVolume_ok (G := G) (size := size) hr hdom hn hpos
  refine ⟨s', _, h1, h2, cellFractions_map hG hr _, cellFractions_prob hG hr ?_,
    ⟨_, h4, isBalancedSplit_arraySplit size hsize _⟩, h3⟩
  intro h0
  simp [h0] at hn
  omega

/-- **C18.** `estimate_volume_emulated` likewise. -/
theorem C18_emulated {G : Geometry K} (hG : Sound G) {size m k : Nat} {s em : SampleSet K}
    (hsize : 0 < size) (hr : Ready s m) (hem : Consistent em k) (hk : 0 < k)
    {x : List (List K)} (hx : em.glob.values = some x) (hl : em.loc.values = none) :
    ∃ s' em' vol, s.estimateVolumeEmulated G size em = .ok (s', em') ∧
      s'.glob.volumes = some vol ∧ CellFractions G s m x vol ∧ IsProbVector vol ∧
      (∃ l, s'.loc.volumes = some l ∧ IsBalancedSplit size vol l) ∧
      s'.glob.values = s.glob.values := by
  obtain ⟨s', em', h1, h2, h3, h4⟩ := estimateVolumeEmulated_ok (G := G) hsize hr hem hk hx hl
  refine ⟨s', em', _, h1, h2, cellFractions_map hG hr _, cellFractions_prob hG hr ?_,
    ⟨_, h4, isBalancedSplit_arraySplit size hsize _⟩, h3⟩
  rintro rfl
  have := hem.1.values _ hx
  simp at this
  omega

end ordered

/-- **C18.** The global volumes do not depend on the number of processes, nor on which of
them drew which points. -/
theorem C18_rank_independent {G : Geometry K} {size size' n m : Nat} {s : SampleSet K}
    (hr : Ready s m) (hdom : s.domain.isSome) {mc mc' : Chunks (List K)}
    (hmc : mc.flatten = mc'.flatten) (hn : mc.flatten.length = n) (hpos : 0 < n) :
    ∃ s₁ s₂, s.estimateVolume G size n mc = .ok s₁ ∧ s.estimateVolume G size' n mc' = .ok s₂ ∧
      s₁.glob.volumes = s₂.glob.volumes := by
  obtain ⟨s₁, h1, h2, _⟩ := estimateVolume_ok (G := G) (size := size) hr hdom hn hpos
  obtain ⟨s₂, h3, h4, _⟩ := estimateVolume_ok (G := G) (size := size') hr hdom
    (hmc ▸ hn) hpos
  exact ⟨s₁, s₂, h1, h3, by rw [h2, h4, hmc]⟩

/-- **C18.** The same for the order of the points: permuting them changes nothing. -/
theorem C18_order_independent {G : Geometry K} {size n m : Nat} {s : SampleSet K}
    (hr : Ready s m) (hdom : s.domain.isSome) {mc mc' : Chunks (List K)}
    (hmc : mc.flatten.Perm mc'.flatten) (hn : mc.flatten.length = n) (hpos : 0 < n) :
    ∃ s₁ s₂, s.estimateVolume G size n mc = .ok s₁ ∧ s.estimateVolume G size n mc' = .ok s₂ ∧
      s₁.glob.volumes = s₂.glob.volumes := by
  obtain ⟨s₁, h1, h2, _⟩ := estimateVolume_ok (G := G) (size := size) hr hdom hn hpos
  obtain ⟨s₂, h3, h4, _⟩ := estimateVolume_ok (G := G) (size := size) hr hdom
    (hmc.length_eq ▸ hn) hpos
  refine ⟨s₁, s₂, h1, h3, ?_⟩
  rw [h2, h4]
  congr 1
  unfold cellFractions
  refine List.map_congr_left fun i _ => ?_
  rw [hmc.length_eq, hits, hits, ((hmc.map _).count_eq i)]

/-! ### C19 -/

/-- **C19.** The numbers of points of the processes add up to the requested number. -/
theorem C19_sum (n size : Nat) (h : 0 < size) :
    ((List.range size).map (numLocal n size)).sum = n := by
  have := arraySplit_lengths size (List.replicate n ())
  have h2 := congrArg List.sum this
  rw [← List.length_flatten, flatten_arraySplit _ _ h] at h2
  simp only [List.length_replicate] at h2
  exact h2.symm

/-- **C19.** Two processes differ by at most one, and lower ranks do not have less. -/
theorem C19_balanced (n size r r' : Nat) :
    numLocal n size r ≤ numLocal n size r' + 1 ∧
      (r ≤ r' → numLocal n size r' ≤ numLocal n size r) := by
  unfold numLocal
  constructor
  · split <;> split <;> omega
  · intro h
    split <;> split <;> omega

/-- The other spelling, `int((n / size) + (rank < n % size))`
(/repo/bet/calculateP/simpleFunP.py:224-225, 614-615, 706-707 and
/repo/bet/sampling/basicSampling.py:61-62, 78-79, 158-159): the exact quotient plus 0 or 1
is truncated. -/
def numLocal' (n size r : Nat) : Nat :=
  ⌊(n : ℚ) / (size : ℚ) + (if r < n % size then 1 else 0)⌋₊

/-- **C19.** Both spellings give the same number. -/
theorem C19_spellings (n size r : Nat) : numLocal' n size r = numLocal n size r := by
  unfold numLocal' numLocal
  split
  · rw [Nat.floor_add_one (by positivity), Nat.floor_div_eq_div]
  · rw [add_zero, Nat.floor_div_eq_div, add_zero]

/-! ### C20 -/

/-- **C20.** `estimate_volume_mc` gives each of the `n ≥ 1` samples the volume `1/n`, on every
process, and the volumes add up to one. -/
theorem C20_equal_volumes {s : SampleSet K} [CharZero K] {n : Nat} (h : Consistent s n)
    (hn : 0 < n) (size : Nat) (hsize : 0 < size) :
    ∃ s' vol l, s.estimateVolumeMc size true = .ok s' ∧ s'.glob.volumes = some vol ∧
      vol.length = n ∧ (∀ x ∈ vol, x = 1 / (n : K)) ∧ vol.sum = 1 ∧
      s'.loc.volumes = some l ∧ IsBalancedSplit size vol l := by
  have hc := consistent_setVolumes h (vol := List.replicate n (1 / (n : K) * 1)) (by simp)
  unfold SampleSet.estimateVolumeMc
  simp only [SampleSet.checkNum_consistent h, ok_bind, if_true, SampleSet.globalToLocal_ok hc,
    raiseIf, hn.ne', if_false]
  refine ⟨_, _, _, rfl, rfl, by simp, ?_, ?_, rfl, isBalancedSplit_arraySplit size hsize _⟩
  · intro x hx
    rw [(List.mem_replicate.mp hx).2, mul_one]
  · have : (n : K) ≠ 0 := by exact_mod_cast hn.ne'
    rw [List.sum_replicate, nsmul_eq_mul]
    field_simp

/-- **C20.** With `globalize=False`, on a set with local arrays (`ns[r]` samples on process
`r`), every process gets volumes `1/n` for its samples, `n` in all. -/
theorem C20_local_volumes {s : SampleSet K} [CharZero K] {ns : List Nat}
    (hl : AllShape s.loc ns) (hsome : ¬ NonePresent s.loc) (hg : NonePresent s.glob)
    (hn : 0 < ns.sum) :
    ∃ s' l, s.estimateVolumeMc ns.length false = .ok s' ∧ s'.loc.volumes = some l ∧
      l.map List.length = ns ∧ (∀ c ∈ l, ∀ x ∈ c, x = 1 / (ns.sum : K)) ∧ l.flatten.sum = 1 := by
  have hr := fun r => (checkNumLocal_ok hg hl hsome r).1
  have hm : ((List.range ns.length).mapM fun r => do
      let n ← s.checkNumLocal r
      let n ← orErr Err.typeError n
      pure (List.replicate n (1 / (ns.sum : K) * 1)) : Except Err _) =
      .ok ((List.range ns.length).map fun r =>
        List.replicate (ns.getD r 0) (1 / (ns.sum : K) * 1)) := by
    refine mapM_ok _ _ _ fun r _ => ?_
    rw [hr r]
    rfl
  have hlen : ((List.range ns.length).map fun r =>
        List.replicate (ns.getD r 0) (1 / (ns.sum : K) * 1)).map List.length = ns := by
    apply List.ext_getElem
    · simp
    · intro i h1 h2
      simp [h2]
  have hall : ∀ c ∈ ((List.range ns.length).map fun r =>
        List.replicate (ns.getD r 0) (1 / (ns.sum : K) * 1)), ∀ x ∈ c, x = 1 / (ns.sum : K) := by
    intro c hc x hx
    obtain ⟨r, _, rfl⟩ := List.mem_map.mp hc
    rw [(List.mem_replicate.mp hx).2, mul_one]
  unfold SampleSet.estimateVolumeMc
  simp only [C12_check_num_local hg ns hl hsome, ok_bind, Bool.false_eq_true, if_false, hm,
    raiseIf, hn.ne']
  refine ⟨_, _, rfl, rfl, hlen, hall, ?_⟩
  have hflat : ∀ x ∈ ((List.range ns.length).map fun r =>
      List.replicate (ns.getD r 0) (1 / (ns.sum : K) * 1)).flatten, x = 1 / (ns.sum : K) := by
    intro x hx
    obtain ⟨c, hc, hx⟩ := List.mem_flatten.mp hx
    exact hall c hc x hx
  rw [List.eq_replicate_of_mem hflat, List.sum_replicate, List.length_flatten, hlen, nsmul_eq_mul]
  have : (ns.sum : K) ≠ 0 := by exact_mod_cast hn.ne'
  field_simp

/-- **C20.** A set without samples has no equal volumes: the call raises. -/
theorem C20_empty {s : SampleSet K} (h : Consistent s 0) (size : Nat) (globalize : Bool) :
    s.estimateVolumeMc size globalize = .error .zeroDivision := by
  unfold SampleSet.estimateVolumeMc
  simp [SampleSet.checkNum_consistent h, ok_bind, raiseIf, error_bind]

end BET

namespace BET.Ex

open BET.Spec

/-- C18: five points on two processes, two of which lie in the first cell. -/
def domSet : SampleSet ℚ := { newSet with domain := some [(0, 4)] }

example : Ready domSet 2 ∧ domSet.domain.isSome ∧
    ([[[0], [1], [2]], [[3], [4]]] : Chunks (List ℚ)).flatten.length = 5 :=
  ⟨⟨consistent_of _ _ rfl rfl, by norm_num, rfl, Or.inl rfl, nofun, nofun⟩, rfl, rfl⟩

example : (domSet.estimateVolume G 2 5 [[[0], [1], [2]], [[3], [4]]]).toOption.bind
    (·.glob.volumes) = some [2/5, 3/5] := by decide +kernel

example : (newSet.estimateVolumeEmulated G 2 emSet).toOption.bind
    (·.1.glob.volumes) = some [2/5, 3/5] := by decide +kernel

/-- C19: seven points on three processes. -/
example : (List.range 3).map (numLocal 7 3) = [3, 2, 2] := by decide

/-- C20. -/
example : Consistent ({ dim := 1, glob := { values := some [] } } : SampleSet ℚ) 0 :=
  consistent_of _ _ rfl rfl

example : (fullSet.estimateVolumeMc 2 true).toOption.bind (·.loc.volumes) =
    some [[1/3, 1/3], [1/3]] := by decide +kernel

example : (localSet.estimateVolumeMc 3 false).toOption.bind (·.loc.volumes) =
    some [[1/3, 1/3], [], [1/3]] := by decide +kernel

end BET.Ex
