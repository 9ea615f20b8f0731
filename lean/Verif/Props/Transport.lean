import Verif.Props.ProbEmulated

/-!
# C06, C07, C08, C09: moving probabilities between sample sets
-/

set_option linter.unusedSectionVars false
set_option linter.unusedSimpArgs false
set_option autoImplicit false

namespace BET

open Spec

variable {K : Type} [Field K] [LinearOrder K]

theorem gatherLoop_shape {ptr : Chunks Nat} {w : Chunks K} {n : Nat} {r : List K} (hn : 0 < n)
    (hl : ptr.length = w.length) (h : gatherLoop n ptr w = .ok r) : SameShape ptr w := by
  unfold gatherLoop at h
  obtain ⟨y, hy⟩ := mapM_ok_mem _ _ _ h 0 (List.mem_range.mpr hn)
  rw [bind_eq_ok] at hy
  obtain ⟨sel, hsel, _⟩ := hy
  exact maskSelRanks_shape _ _ _ _ hl hsel

theorem gatherLoopOpt_inv {ptr : Chunks Nat} {w : Option (Chunks K)} {n : Nat} {r : List K}
    (hn : 0 < n) (h : gatherLoopOpt n ptr w = .ok r) :
    ∃ w', w = some w' ∧ gatherLoop n ptr w' = .ok r := by
  cases w with
  | none =>
    have : n ≠ 0 := by omega
    simp [gatherLoopOpt, this] at h
  | some w => exact ⟨w, rfl, h⟩

theorem raiseIf_ok {c : Prop} [Decidable c] {e : Err} {u : Unit} (h : raiseIf c e = .ok u) :
    ¬ c := by
  unfold raiseIf at h
  split at h
  · cases h
  · assumption

theorem raiseIf_false {c : Prop} [Decidable c] {e : Err} (h : ¬ c) : raiseIf c e = .ok () := by
  simp [raiseIf, h]

/-- The push-forward computed by the gathering loop on the cells of a ready set. -/
theorem pushForward_map {G : Geometry K} (hG : Sound G) {s : SampleSet K} {m : Nat}
    (hr : Ready s m) (x : List (List K)) (w : List K) :
    IsPushForward G s x w ((List.range m).map (mass (x.map (s.cell G)) w)) := by
  refine ⟨x.map (s.cell G), ?_, ?_⟩
  · rw [List.forall₂_map_right_iff]
    exact List.forall₂_same.mpr fun p _ => SampleSet.cell_isCell hG hr p
  · intro i hi
    simp only [List.length_map, List.length_range] at hi
    simp [hi]

theorem probFromSampleSet_inv {G : Geometry K} {size : Nat} {old new old' new' : SampleSet K}
    {pn : List K} {m : Nat} (hr : Ready new m)
    (h : probFromSampleSet G size old new = .ok (pn, old', new')) :
    ∃ x w, old'.loc.values = some x ∧ old'.loc.probabilities = some w ∧
      gatherLoop m (x.map fun c => c.map (new.cell G)) w = .ok pn ∧
      new'.glob.probabilities = some pn ∧ new'.glob.values = new.glob.values ∧
      old.dim = new.dim := by
  unfold probFromSampleSet at h
  rw [bind_eq_ok] at h
  obtain ⟨_, _, h⟩ := h
  rw [SampleSet.checkNum_consistent hr.consistent] at h
  simp only [ok_bind] at h
  rw [bind_eq_ok] at h
  obtain ⟨_, hdim, h⟩ := h
  have hdim := raiseIf_ok hdim
  rw [bind_eq_ok] at h
  obtain ⟨old₁, hold, h⟩ := h
  rw [bind_eq_ok] at h
  obtain ⟨x, hx, h⟩ := h
  rw [orErr_eq_ok] at hx
  obtain ⟨s', hq, hr', hc', hv'⟩ := SampleSet.query_ready (G := G) (size := size) hr x
  rw [hq] at h
  simp only [ok_bind] at h
  rw [bind_eq_ok] at h
  obtain ⟨pn', hpn, h⟩ := h
  rw [pure_eq_ok] at h
  simp only [Prod.mk.injEq] at h
  obtain ⟨rfl, rfl, rfl⟩ := h
  obtain ⟨w, hw, hg⟩ := gatherLoopOpt_inv hr.pos hpn
  exact ⟨x, w, hx, hw, hg, rfl, hv', not_not.mp hdim⟩

/-- A sample set with probabilities whose local arrays have not been made yet. -/
structure FreshProb (s : SampleSet K) (n : Nat) (x : List (List K)) (w : List K) : Prop where
  hcons : Consistent s n
  hvals : s.glob.values = some x
  hprobs : s.glob.probabilities = some w
  hloc : s.loc.values = none

variable [IsStrictOrderedRing K]

/-- **C06.** If `prob_from_sample_set` returns, every cell of the new set has the sum of
the probabilities of the old samples that lie in it (on any number of processes, each
of which has its part `x`, `w` of the old samples), and nothing is lost or created. -/
theorem C06_push_forward {G : Geometry K} (hG : Sound G) {size : Nat}
    {old new old' new' : SampleSet K} {pn : List K} {m : Nat} (hr : Ready new m)
    (h : probFromSampleSet G size old new = .ok (pn, old', new')) {x : Chunks (List K)}
    {w : Chunks K} (hx : old'.loc.values = some x) (hw : old'.loc.probabilities = some w)
    (hranks : x.length = w.length) :
    IsPushForward G new x.flatten w.flatten pn ∧ pn.length = m ∧
      pn.sum = w.flatten.sum ∧ ((∀ p ∈ w.flatten, 0 ≤ p) → ∀ p ∈ pn, 0 ≤ p) ∧
      new'.glob.probabilities = some pn := by
  obtain ⟨x', w', hx', hw', hg, hnew, _⟩ := probFromSampleSet_inv hr h
  rw [hx] at hx'; cases hx'
  rw [hw] at hw'; cases hw'
  have hsh := gatherLoop_shape hr.pos (by simpa using hranks) hg
  rw [gatherLoop_eq _ _ _ hsh] at hg
  cases hg
  have hfl : (x.map fun c => c.map (new.cell G)).flatten = x.flatten.map (new.cell G) := by
    rw [List.map_flatten]
  refine ⟨?_, by simp, ?_, ?_, hnew⟩
  · rw [hfl]; exact pushForward_map hG hr _ _
  · refine sum_range_mass _ _ _ hsh.length_flatten ?_
    rw [hfl]
    intro j hj
    obtain ⟨p, _, rfl⟩ := List.mem_map.mp hj
    exact SampleSet.cell_lt hG hr p
  · intro hnn p hp
    obtain ⟨i, _, rfl⟩ := List.mem_map.mp hp
    exact mass_nonneg _ _ _ hnn

theorem probFromSampleSet_fresh {G : Geometry K} {old new : SampleSet K} {n m : Nat}
    {x : List (List K)} {w : List K} (f : FreshProb old n x w) (hr : Ready new m)
    (hdim : old.dim = new.dim) (size : Nat) (hsize : 0 < size) :
    ∃ old' new', probFromSampleSet G size old new =
        .ok ((List.range m).map (mass (x.map (new.cell G)) w), old', new') ∧
      new'.glob.probabilities = some ((List.range m).map (mass (x.map (new.cell G)) w)) := by
  obtain ⟨s', hq, hr', hc', hv'⟩ := SampleSet.query_ready (G := G) (size := size) hr
    (arraySplit size x)
  have hxl : x.length = n := f.hcons.1.values x f.hvals
  have hwl : w.length = n := f.hcons.1.probabilities w f.hprobs
  have hvx : (old.splitSet size n).loc.values = some (arraySplit size x) := by
    simp [SampleSet.splitSet, Arrays.map₂, f.hvals]
  have hvw : (old.splitSet size n).loc.probabilities = some (arraySplit size w) := by
    simp [SampleSet.splitSet, Arrays.map₂, f.hprobs]
  have hsh : SameShape (arraySplit size (x.map (new.cell G))) (arraySplit size w) :=
    arraySplit_sameShape _ _ _ (by simp [hxl, hwl])
  have hg := gatherLoop_eq _ _ m hsh
  rw [flatten_arraySplit _ _ hsize, flatten_arraySplit _ _ hsize] at hg
  unfold probFromSampleSet
  simp only [SampleSet.checkNum_consistent f.hcons, SampleSet.checkNum_consistent hr.consistent,
    ok_bind, raiseIf_false (not_not.mpr hdim), SampleSet.localized_none size f.hloc,
    SampleSet.globalToLocal_ok f.hcons, hvx, orErr_some, hq, hvw, gatherLoopOpt, ← arraySplit_map,
    hg]
  exact ⟨_, _, rfl, rfl⟩

/-- **C06.** The call succeeds on consistent sets of the same dimension, and its result
is the same for every number of processes. -/
theorem C06_rank_independent {G : Geometry K} {old new : SampleSet K} {n m : Nat}
    {x : List (List K)} {w : List K} (f : FreshProb old n x w) (hr : Ready new m)
    (hdim : old.dim = new.dim) (size : Nat) (hsize : 0 < size) :
    ∃ pn old₁ new₁ old₂ new₂, probFromSampleSet G size old new = .ok (pn, old₁, new₁) ∧
      probFromSampleSet G 1 old new = .ok (pn, old₂, new₂) := by
  obtain ⟨o, n', h, _⟩ := probFromSampleSet_fresh (G := G) f hr hdim size hsize
  obtain ⟨o', n'', h', _⟩ := probFromSampleSet_fresh (G := G) f hr hdim 1 (by decide)
  exact ⟨_, _, _, _, _, h, h'⟩

/-- **C06.** Sets of different dimension are rejected. -/
theorem C06_dim_mismatch {G : Geometry K} {old new : SampleSet K} {n m : Nat} {size : Nat}
    (ho : Consistent old n) (hn : Consistent new m) (hdim : old.dim ≠ new.dim) :
    probFromSampleSet G size old new = .error .dimNotMatching := by
  unfold probFromSampleSet
  simp [SampleSet.checkNum_consistent ho, SampleSet.checkNum_consistent hn, raiseIf, hdim]

theorem eq_map_getD (w : List K) : w = (List.range w.length).map fun j => w.getD j 0 := by
  apply List.ext_getElem
  · simp
  · intro k h1 h2
    rw [List.getElem_map, List.getElem_range, List.getD_eq_getElem?_getD,
      List.getElem?_eq_getElem h1]
    rfl

theorem mass_range_getElem (w : List K) (i : Nat) (hi : i < w.length) :
    mass (List.range w.length) w i = w[i] := by
  have h1 := eq_map_getD w
  have h2 : hits (List.range w.length) i = 1 := by
    unfold hits
    rw [List.count_eq_one_of_mem List.nodup_range (List.mem_range.mpr hi)]
  have h3 : mass (List.range w.length) w i = mass (List.range w.length)
      ((List.range w.length).map fun j => w.getD j 0) i := by rw [← h1]
  rw [h3, mass_map_self, h2]
  simp [hi]

/-- **C07.** Onto a set with the same pairwise distinct points, `prob_from_sample_set`
is the identity, for every number of processes.  (The distance of a point to itself
is smaller than to any other of the points.) -/
theorem C07_same_points_identity {G : Geometry K} (hG : Sound G) {old new : SampleSet K} {n : Nat}
    {x : List (List K)} {w : List K} (f : FreshProb old n x w) (hr : Ready new n)
    (hk : new.kind = .voronoi) (hvals : new.glob.values = some x) (hdim : old.dim = new.dim)
    (hnodup : x.Nodup)
    (hdef : ∀ a ∈ x, ∀ b ∈ x, a ≠ b → G.dist new.pNorm a a < G.dist new.pNorm a b)
    (size : Nat) (hsize : 0 < size) :
    ∃ old' new', probFromSampleSet G size old new = .ok (w, old', new') ∧
      new'.glob.probabilities = some w := by
  obtain ⟨o, n', h, hp⟩ := probFromSampleSet_fresh (G := G) f hr hdim size hsize
  have hxl : x.length = n := f.hcons.1.values x f.hvals
  have hwl : w.length = n := f.hcons.1.probabilities w f.hprobs
  have hcells : x.map (new.cell G) = List.range w.length := by
    apply List.ext_getElem
    · simp [hxl, hwl]
    · intro i h1 h2
      simp only [List.getElem_map, List.getElem_range]
      have hi : i < x.length := by simpa using h1
      have hc := SampleSet.cell_isCell hG hr x[i]
      unfold IsCell at hc
      rw [hk] at hc
      obtain ⟨c, hc, hmin⟩ := hc x hvals
      obtain ⟨hlt, hc⟩ := List.getElem?_eq_some_iff.mp hc
      by_cases hcx : x[i] = c
      · rw [← hc] at hcx
        exact ((List.Nodup.getElem_inj_iff hnodup).mp hcx).symm
      · exact absurd (hmin x[i] (List.getElem_mem hi))
          (not_le.mpr (hdef _ (List.getElem_mem hi) _ (hc ▸ List.getElem_mem hlt) hcx))
  have e : (List.range n).map (mass (x.map (new.cell G)) w) = w := by
    rw [hcells]
    apply List.ext_getElem
    · simp [hwl]
    · intro i h1 h2
      rw [List.getElem_map, List.getElem_range, mass_range_getElem w i h2]
  rw [e] at h hp
  exact ⟨o, n', h, hp⟩

/-! ### C08 -/

/-- What every emulated point gets in the first loop. -/
def emShare (probs : List K) (cells : List Nat) (j : Nat) : K :=
  if 0 < probs.getD j 0 then probs.getD j 0 / (hits cells j : K) else 0

theorem emShare_nonneg (probs : List K) (cells : List Nat) (j : Nat) :
    0 ≤ emShare probs cells j := by
  unfold emShare
  split
  · next h => exact div_nonneg h.le (Nat.cast_nonneg _)
  · exact le_refl _

theorem emShare_sum (probs : List K) (cells : List Nat) (h : ∀ c ∈ cells, c < probs.length) :
    (cells.map (emShare probs cells)).sum = ((List.range probs.length).map fun i =>
      if 0 < probs.getD i 0 ∧ 0 < hits cells i then probs.getD i 0 else 0).sum := by
  rw [← sum_range_mass cells _ probs.length (by simp) h]
  congr 1
  refine List.map_congr_left fun i _ => ?_
  rw [mass_map_self, emShare]
  by_cases h1 : 0 < probs.getD i 0
  · by_cases h2 : 0 < hits cells i
    · rw [if_pos h1, if_pos ⟨h1, h2⟩]
      have : (hits cells i : K) ≠ 0 := by exact_mod_cast h2.ne'
      field_simp
    · have : hits cells i = 0 := by omega
      simp [this]
  · simp only [h1, if_false, false_and, mul_zero]

theorem emLoop_share (probs : List K) (ptr : Chunks Nat) (n : Nat) (hn : n = probs.length) :
    (List.range n).foldlM (emBody (some probs) ptr)
        (ptr.map (fun c => List.replicate c.length (0 : K)), false) =
      .ok (ptr.map fun c => c.map (emShare probs ptr.flatten),
        (List.range n).any fun i => decide (0 < probs.getD i 0) && hits ptr.flatten i == 0) := by
  rw [emLoop_eq probs ptr n (by omega)]
  congr 2
  refine List.map_congr_left fun c _ => List.map_congr_left fun j _ => ?_
  unfold emShare
  by_cases hj : j < n
  · simp only [hj, true_and, gt_iff_lt]
  · have : probs.getD j 0 = 0 := by
      rw [List.getD_eq_getElem?_getD, List.getElem?_eq_none (by omega)]; rfl
    simp only [hj, this, gt_iff_lt, lt_irrefl, false_and]

/-- The total weight of the emulated points is 1 unless the renormalisation has to run. -/
theorem emShare_total {probs : List K} (hp : IsProbVector probs) {cells : List Nat}
    (h : ∀ c ∈ cells, c < probs.length)
    (hw : ((List.range probs.length).any fun i =>
      decide (0 < probs.getD i 0) && hits cells i == 0) = false) :
    (cells.map (emShare probs cells)).sum = 1 := by
  rw [emShare_sum probs cells h, ← hp.2]
  congr 1
  conv_rhs => rw [eq_map_getD probs]
  refine List.map_congr_left fun i hi => ?_
  rw [List.any_eq_false] at hw
  have := hw i hi
  simp only [Bool.and_eq_true, decide_eq_true_eq, beq_iff_eq, not_and] at this
  by_cases h1 : 0 < probs.getD i 0
  · have h2 := this h1
    rw [if_pos ⟨h1, by omega⟩]
  · rw [if_neg (fun hc => h1 hc.1)]
    have h0 : 0 ≤ probs.getD i 0 := by
      rw [List.mem_range] at hi
      rw [List.getD_eq_getElem?_getD, List.getElem?_eq_getElem hi]
      exact hp.1 _ (List.getElem_mem hi)
    exact le_antisymm h0 (not_lt.mp h1)

theorem renormalize_spec {ptr : Chunks Nat} {f : Nat → K} {warn : Bool} {pe : Chunks K}
    (hf : ∀ j, 0 ≤ f j) (h : renormalize warn (ptr.map fun c => c.map f) = .ok pe)
    (hone : warn = false → (ptr.flatten.map f).sum = 1) :
    SameShape ptr pe ∧ (∀ p ∈ pe.flatten, 0 ≤ p) ∧ pe.flatten.sum = 1 := by
  have hsum : allreduceSum ((ptr.map fun c => c.map f).map List.sum) = (ptr.flatten.map f).sum := by
    rw [List.map_flatten, List.sum_flatten]; rfl
  cases warn with
  | false =>
    simp only [renormalize] at h
    cases h
    refine ⟨Spec.SameShape.map_map ptr f, ?_, ?_⟩
    · rw [← List.map_flatten]
      intro p hp
      obtain ⟨j, _, rfl⟩ := List.mem_map.mp hp
      exact hf j
    · rw [← List.map_flatten]; exact hone rfl
  | true =>
    simp only [renormalize, if_true, hsum] at h
    split at h
    · cases h
    · next hne =>
      cases h
      have e : ((ptr.map fun c => c.map f).map fun c => c.map (· / (ptr.flatten.map f).sum)) =
          ptr.map fun c => c.map fun j => f j / (ptr.flatten.map f).sum := by
        simp [List.map_map, Function.comp_def]
      rw [e, ← List.map_flatten]
      refine ⟨Spec.SameShape.map_map ptr _, ?_, ?_⟩
      · intro p hp
        obtain ⟨j, _, rfl⟩ := List.mem_map.mp hp
        refine div_nonneg (hf j) (List.sum_nonneg fun q hq => ?_)
        obtain ⟨j', _, rfl⟩ := List.mem_map.mp hq
        exact hf j'
      · have : (fun j => f j / (ptr.flatten.map f).sum) =
            fun j => f j * (ptr.flatten.map f).sum⁻¹ := by funext j; rw [div_eq_mul_inv]
        rw [this, List.sum_map_mul_right]
        exact mul_inv_cancel₀ hne

/-- **C08.** Whenever the call returns, from old probabilities that are non-negative and
sum to 1, the new probabilities are non-negative and sum to 1 — whether or not the
renormalisation was needed, on any number of processes. -/
theorem C08_prob_vector {G : Geometry K} (hG : Sound G) {size : Nat}
    {old new em old' new' em' : SampleSet K} {n m : Nat} (ho : Ready old n) (hr : Ready new m)
    {probs pn : List K} (hprobs : old.glob.probabilities = some probs) (hp : IsProbVector probs)
    (h : probFromSampleSetEmulated G size old new em = .ok (pn, old', new', em')) :
    IsProbVector pn ∧ pn.length = m ∧ new'.glob.probabilities = some pn := by
  unfold probFromSampleSetEmulated at h
  simp only [SampleSet.checkNum_consistent ho.consistent,
    SampleSet.checkNum_consistent hr.consistent, ok_bind] at h
  rw [bind_eq_ok] at h
  obtain ⟨_, _, h⟩ := h
  rw [bind_eq_ok] at h
  obtain ⟨_, _, h⟩ := h
  rw [bind_eq_ok] at h
  obtain ⟨em₁, hem₁, h⟩ := h
  rw [bind_eq_ok] at h
  obtain ⟨x, hx, h⟩ := h
  obtain ⟨o', hq, ho', hoc', hov'⟩ := SampleSet.query_ready (G := G) (size := size) ho x
  obtain ⟨s', hq2, hr', hc', hv'⟩ := SampleSet.query_ready (G := G) (size := size) hr x
  rw [hq] at h
  simp only [ok_bind, hq2] at h
  have hop : o'.glob.probabilities = some probs := by
    rw [(SampleSet.query_frame hq).1]; exact hprobs
  have hpl : probs.length = n := ho.consistent.1.probabilities probs hprobs
  rw [hop, emLoop_share probs _ n hpl.symm] at h
  simp only [ok_bind] at h
  rw [bind_eq_ok] at h
  obtain ⟨pe, hpe, h⟩ := h
  rw [bind_eq_ok] at h
  obtain ⟨pn', hpn, h⟩ := h
  rw [pure_eq_ok] at h
  simp only [Prod.mk.injEq] at h
  obtain ⟨rfl, rfl, rfl, rfl⟩ := h
  have hfl1 : (x.map fun c => c.map (old.cell G)).flatten = x.flatten.map (old.cell G) := by
    rw [List.map_flatten]
  have hfl2 : (x.map fun c => c.map (new.cell G)).flatten = x.flatten.map (new.cell G) := by
    rw [List.map_flatten]
  have hlt : ∀ c ∈ (x.map fun c => c.map (old.cell G)).flatten, c < probs.length := by
    rw [hfl1, hpl]
    intro j hj
    obtain ⟨p, _, rfl⟩ := List.mem_map.mp hj
    exact SampleSet.cell_lt hG ho p
  obtain ⟨hsh, hnn, hsum⟩ := renormalize_spec (fun j => emShare_nonneg _ _ j) hpe
    (fun hw => emShare_total hp hlt (by rw [hpl]; exact hw))
  have hsh2 : SameShape (x.map fun c => c.map (new.cell G)) pe :=
    ((Spec.SameShape.map_map x _).symm.trans (Spec.SameShape.map_map x _)).trans hsh
  rw [gatherLoop_eq _ _ _ hsh2] at hpn
  cases hpn
  refine ⟨⟨?_, ?_⟩, by simp, rfl⟩
  · intro p hp
    obtain ⟨i, _, rfl⟩ := List.mem_map.mp hp
    exact mass_nonneg _ _ _ hnn
  · rw [sum_range_mass _ _ _ hsh2.length_flatten, hsum]
    rw [hfl2]
    intro j hj
    obtain ⟨p, _, rfl⟩ := List.mem_map.mp hj
    exact SampleSet.cell_lt hG hr p

/-- **C08.** With at least one emulated point in an old cell of positive probability the
call does return, for every number of processes, and the new probabilities do not
depend on that number: each emulated point carries `p_i / n_i` of its old cell `i`,
divided by the total if some old cell of positive probability has no emulated point. -/
theorem C08_succeeds {G : Geometry K} (hG : Sound G) {old new em : SampleSet K} {n m k : Nat}
    (ho : Ready old n) (hr : Ready new m) {probs : List K}
    (hprobs : old.glob.probabilities = some probs)
    (hem : Consistent em k) {z : List (List K)} (hz : em.glob.values = some z)
    (hzl : em.loc.values = none) (hd₁ : old.dim = new.dim) (hd₂ : old.dim = em.dim)
    (hhit : ∃ pt ∈ z, ∀ c, IsCell G old pt c → ∃ p, probs[c]? = some p ∧ 0 < p)
    (size : Nat) (hsize : 0 < size) :
    ∃ old' new' em' total, probFromSampleSetEmulated G size old new em =
        .ok ((List.range m).map (mass (z.map (new.cell G)) (z.map fun x =>
          emShare probs (z.map (old.cell G)) (old.cell G x) / total)), old', new', em') ∧
      total = if (List.range n).any fun i => decide (0 < probs.getD i 0) &&
          hits (z.map (old.cell G)) i == 0 then
        (z.map fun x => emShare probs (z.map (old.cell G)) (old.cell G x)).sum else 1 := by
  obtain ⟨o', hq, ho', hoc', hov'⟩ := SampleSet.query_ready (G := G) (size := size) ho
    (arraySplit size z)
  obtain ⟨s', hq2, hr', hc', hv'⟩ := SampleSet.query_ready (G := G) (size := size) hr
    (arraySplit size z)
  have hop : o'.glob.probabilities = some probs := by
    rw [(SampleSet.query_frame hq).1]; exact hprobs
  have hpl : probs.length = n := ho.consistent.1.probabilities probs hprobs
  have hvz : (em.splitSet size k).loc.values = some (arraySplit size z) := by
    simp [SampleSet.splitSet, Arrays.map₂, hz]
  have hpos : 0 < (z.map fun x => emShare probs (z.map (old.cell G)) (old.cell G x)).sum := by
    obtain ⟨pt, hpt, hcell⟩ := hhit
    obtain ⟨p, hp, hp0⟩ := hcell _ (SampleSet.cell_isCell hG ho pt)
    have hmem : emShare probs (z.map (old.cell G)) (old.cell G pt) ∈
        z.map fun x => emShare probs (z.map (old.cell G)) (old.cell G x) :=
      List.mem_map.mpr ⟨pt, hpt, rfl⟩
    refine lt_of_lt_of_le ?_ (List.single_le_sum (fun q hq => ?_) _ hmem)
    · unfold emShare
      have : probs.getD (old.cell G pt) 0 = p := by rw [List.getD_eq_getElem?_getD, hp]; rfl
      rw [this, if_pos hp0]
      refine div_pos hp0 ?_
      have : 0 < hits (z.map (old.cell G)) (old.cell G pt) :=
        List.count_pos_iff.mpr (List.mem_map.mpr ⟨pt, hpt, rfl⟩)
      exact_mod_cast this
    · obtain ⟨y, _, rfl⟩ := List.mem_map.mp hq
      exact emShare_nonneg _ _ _
  have hfl : (arraySplit size (z.map (old.cell G))).flatten = z.map (old.cell G) :=
    flatten_arraySplit _ _ hsize
  have hloop := emLoop_share probs (arraySplit size (z.map (old.cell G))) n hpl.symm
  rw [hfl] at hloop
  set share := emShare probs (z.map (old.cell G)) with hshare
  set warn := (List.range n).any fun i => decide (0 < probs.getD i 0) &&
    hits (z.map (old.cell G)) i == 0 with hwarn
  have hsum : allreduceSum (((arraySplit size (z.map (old.cell G))).map fun c =>
      c.map share).map List.sum) = (z.map fun x => share (old.cell G x)).sum := by
    have : (z.map fun x => share (old.cell G x)) =
        ((arraySplit size (z.map (old.cell G))).map fun c => c.map share).flatten := by
      rw [← List.map_flatten, hfl, List.map_map]; rfl
    rw [this, List.sum_flatten]; rfl
  have hren : renormalize warn ((arraySplit size (z.map (old.cell G))).map fun c =>
      c.map share) = .ok (arraySplit size (z.map fun x => share (old.cell G x) /
        if warn then (z.map fun x => share (old.cell G x)).sum else 1)) := by
    have e : (z.map fun x => share (old.cell G x) /
        if warn then (z.map fun x => share (old.cell G x)).sum else 1) =
        (z.map (old.cell G)).map fun j => share j /
          if warn then (z.map fun x => share (old.cell G x)).sum else 1 := by
      rw [List.map_map]; rfl
    rw [e, arraySplit_map _ size (z.map (old.cell G))]
    cases hw : warn with
    | false =>
      simp [renormalize]
    | true =>
      simp only [renormalize, if_true, hsum]
      rw [if_neg hpos.ne']
      simp [List.map_map, Function.comp_def]
  have hsh : SameShape (arraySplit size (z.map (new.cell G)))
      (arraySplit size (z.map fun x => share (old.cell G x) /
        if warn then (z.map fun x => share (old.cell G x)).sum else 1)) :=
    arraySplit_sameShape _ _ _ (by simp)
  have hg := gatherLoop_eq _ _ m hsh
  rw [flatten_arraySplit _ _ hsize, flatten_arraySplit _ _ hsize] at hg
  unfold probFromSampleSetEmulated
  simp only [SampleSet.checkNum_consistent ho.consistent,
    SampleSet.checkNum_consistent hr.consistent, SampleSet.checkNum_consistent hem, ok_bind,
    raiseIf_false (show ¬ (old.dim ≠ new.dim ∨ old.dim ≠ em.dim) by simp [hd₁, ← hd₂]),
    SampleSet.localized_none size hzl, SampleSet.globalToLocal_ok hem, hvz, orErr_some, hq, hq2,
    hop, ← arraySplit_map, hloop]
  rw [arraySplit_map share, hren]
  simp only [ok_bind, hg]
  exact ⟨_, _, _, _, rfl, rfl⟩

/-- **C08.** Without emulated points the result is that of `prob_from_sample_set`. -/
theorem C08_without_emulated {G : Geometry K} {size : Nat} {old new : SampleSet K} :
    (probFromSampleSetWithEmulatedVolumes G size old new none).map Prod.fst =
      (probFromSampleSet G size old new).map Prod.fst := by
  unfold probFromSampleSetWithEmulatedVolumes
  cases probFromSampleSet G size old new <;> rfl

/-! ### C09 -/

/-- **C09.** `prob_from_discretization_input` pushes forward the probabilities of the
emulated input set when there is one and of the input set otherwise; the total is
conserved. -/
theorem C09_push_forward {G : Geometry K} (hG : Sound G) {size : Nat} {d : Disc K}
    {new new' src : SampleSet K} {pn : List K} {m : Nat} (hr : Ready new m)
    (hsrc : d.emInput = some src ∨ (d.emInput = none ∧ d.input = some src))
    {n : Nat} {x : List (List K)} {w : List K} (f : FreshProb src n x w)
    (hsize : 0 < size)
    (h : probFromDiscInput G size d new = .ok (pn, new')) :
    IsPushForward G new x w pn ∧ pn.length = m ∧ pn.sum = w.sum ∧
      ((∀ p ∈ w, 0 ≤ p) → ∀ p ∈ pn, 0 ≤ p) ∧ new'.glob.probabilities = some pn := by
  have hs : (d.emInput <|> d.input) = some src := by
    rcases hsrc with h | ⟨h, h'⟩ <;> simp [*]
  have hxl : x.length = n := f.hcons.1.values x f.hvals
  have hwl : w.length = n := f.hcons.1.probabilities w f.hprobs
  have hvx : (src.splitSet size n).loc.values = some (arraySplit size x) := by
    simp [SampleSet.splitSet, Arrays.map₂, f.hvals]
  have hvw : (src.splitSet size n).loc.probabilities = some (arraySplit size w) := by
    simp [SampleSet.splitSet, Arrays.map₂, f.hprobs]
  unfold probFromDiscInput at h
  simp only [hs, orErr_some, ok_bind, SampleSet.localized_none size f.hloc,
    SampleSet.globalToLocal_ok f.hcons, hvx, hvw,
    SampleSet.checkNum_consistent hr.consistent] at h
  rw [bind_eq_ok] at h
  obtain ⟨_, _, h⟩ := h
  rw [bind_eq_ok] at h
  obtain ⟨_, _, h⟩ := h
  rw [bind_eq_ok] at h
  obtain ⟨_, _, h⟩ := h
  obtain ⟨s', hq, hr', hc', hv'⟩ := SampleSet.query_ready (G := G) (size := size) hr
    (arraySplit size x)
  rw [hq] at h
  simp only [ok_bind] at h
  rw [bind_eq_ok] at h
  obtain ⟨pn', hpn, h⟩ := h
  rw [pure_eq_ok] at h
  simp only [Prod.mk.injEq] at h
  obtain ⟨rfl, rfl⟩ := h
  have hsh : SameShape (arraySplit size (x.map (new.cell G))) (arraySplit size w) :=
    arraySplit_sameShape _ _ _ (by simp [hxl, hwl])
  rw [← arraySplit_map, gatherLoop_eq _ _ m hsh, flatten_arraySplit _ _ hsize,
    flatten_arraySplit _ _ hsize] at hpn
  cases hpn
  refine ⟨pushForward_map hG hr _ _, by simp, ?_, ?_, rfl⟩
  · refine sum_range_mass _ _ _ (by simp [hxl, hwl]) ?_
    intro j hj
    obtain ⟨p, _, rfl⟩ := List.mem_map.mp hj
    exact SampleSet.cell_lt hG hr p
  · intro hnn p hp
    obtain ⟨i, _, rfl⟩ := List.mem_map.mp hp
    exact mass_nonneg _ _ _ hnn

/-- **C09.** On a consistent discretization the call returns, and the result is the same
for every number of processes. -/
theorem C09_succeeds {G : Geometry K} {d : Disc K} {new src inp out : SampleSet K}
    {m N : Nat} (hr : Ready new m)
    (hsrc : d.emInput = some src ∨ (d.emInput = none ∧ d.input = some src))
    {n : Nat} {x : List (List K)} {w : List K} (f : FreshProb src n x w)
    (hin : d.input = some inp) (hinC : Consistent inp N) (hout : d.output = some out)
    (houtC : Consistent out N) (hdim : inp.dim = new.dim) (size : Nat) (hsize : 0 < size) :
    ∃ new', probFromDiscInput G size d new =
      .ok ((List.range m).map (mass (x.map (new.cell G)) w), new') := by
  have hs : (d.emInput <|> d.input) = some src := by
    rcases hsrc with h | ⟨h, h'⟩
    · simp [h]
    · simp [h, h']
  have hxl : x.length = n := f.hcons.1.values x f.hvals
  have hwl : w.length = n := f.hcons.1.probabilities w f.hprobs
  have hvx : (src.splitSet size n).loc.values = some (arraySplit size x) := by
    simp [SampleSet.splitSet, Arrays.map₂, f.hvals]
  have hvw : (src.splitSet size n).loc.probabilities = some (arraySplit size w) := by
    simp [SampleSet.splitSet, Arrays.map₂, f.hprobs]
  obtain ⟨s', hq, hr', hc', hv'⟩ := SampleSet.query_ready (G := G) (size := size) hr
    (arraySplit size x)
  have hsh : SameShape (arraySplit size (x.map (new.cell G))) (arraySplit size w) :=
    arraySplit_sameShape _ _ _ (by simp [hxl, hwl])
  have hg := gatherLoop_eq _ _ m hsh
  rw [flatten_arraySplit _ _ hsize, flatten_arraySplit _ _ hsize] at hg
  unfold probFromDiscInput
  simp only [hs, orErr_some, ok_bind, SampleSet.localized_none size f.hloc,
    SampleSet.globalToLocal_ok f.hcons, hvx, hvw,
    SampleSet.checkNum_consistent hr.consistent]
  have hcn : ∀ (e : Disc K) (i : SampleSet K), e.input = some i → Consistent i N →
      e.output = some out → e.checkNums size = .ok N := by
    intro e i hi hiC ho
    unfold Disc.checkNums
    simp [hi, ho, SampleSet.checkNum_consistent houtC, SampleSet.checkNum_consistent hiC, pure,
      Except.pure]
  rcases hsrc with h | ⟨h, h'⟩
  · simp only [h]
    rw [hcn { d with emInput := some (src.splitSet size n) } inp hin hinC hout]
    simp only [ok_bind, hin, orErr_some, raiseIf_false (not_not.mpr hdim), hq, ← arraySplit_map, hg]
    exact ⟨_, rfl⟩
  · simp only [h]
    have e : src = inp := by rw [hin] at h'; exact (Option.some.inj h').symm
    subst e
    rw [hcn { d with input := some (src.splitSet size n), emInput := none } (src.splitSet size n) rfl (show Consistent src N from hinC) hout]
    have hdim' : (src.splitSet size n).dim = new.dim := hdim
    simp only [ok_bind, orErr_some, raiseIf_false (not_not.mpr hdim'), hq, ← arraySplit_map, hg]
    exact ⟨_, rfl⟩

/-- **C09.** Without probabilities the call raises `AttributeError`. -/
theorem C09_missing_probabilities {G : Geometry K} {size : Nat} {d : Disc K}
    {new src : SampleSet K}
    (hsrc : d.emInput = some src ∨ (d.emInput = none ∧ d.input = some src))
    {n : Nat} (hc : Consistent src n) (hg : src.glob.probabilities = none)
    (hl : src.loc.probabilities = none) :
    probFromDiscInput G size d new = .error .attributeError := by
  have hs : (d.emInput <|> d.input) = some src := by
    rcases hsrc with h | ⟨h, h'⟩ <;> simp [*]
  unfold probFromDiscInput
  simp only [hs, orErr_some, ok_bind]
  unfold SampleSet.localized
  split
  · rw [SampleSet.globalToLocal_ok hc]
    simp [SampleSet.splitSet, Arrays.map₂, hg, hl]
  · simp [hl]

end BET

namespace BET.Ex

open BET.Spec

def oldSet : SampleSet ℚ := { dim := 1, glob :=
  { values := some [[0], [1], [2], [3]], probabilities := some [1/8, 3/8, 1/2, 0] } }

def newSet : SampleSet ℚ := { dim := 1, glob := { values := some [[0], [3]] } }

/-- A rectangle set with one rectangle `(1/2, 3/2]` and the remainder. -/
def newRect : SampleSet ℚ := { kind := .rectangle, dim := 1, glob :=
  { values := some [[1], [0]], left := some [[1/2], [0]], right := some [[3/2], [0]] } }

def emSet : SampleSet ℚ := { dim := 1, glob := { values := some [[0], [1/5], [19/10], [2], [3]] } }

theorem consistent_of (s : SampleSet ℚ) (n : Nat) (h : s.checkNum 1 = .ok n)
    (hv : s.glob.values.isSome = true) : Consistent s n :=
  SampleSet.consistent_of_checkNum h hv

theorem freshOld : FreshProb oldSet 4 [[0], [1], [2], [3]] [1/8, 3/8, 1/2, 0] :=
  ⟨consistent_of _ _ rfl rfl, rfl, rfl, rfl⟩

theorem readyOld : Ready oldSet 4 :=
  ⟨consistent_of _ _ rfl rfl, by decide, rfl, Or.inl rfl, nofun, nofun⟩

theorem readyNew : Ready newSet 2 :=
  ⟨consistent_of _ _ rfl rfl, by decide, rfl, Or.inl rfl, nofun, nofun⟩

theorem readyRect : Ready newRect 2 :=
  ⟨consistent_of _ _ rfl rfl, by decide, rfl, Or.inl rfl, fun _ => ⟨rfl, rfl⟩, nofun⟩

example : (probFromSampleSet G 3 oldSet newSet).toOption.map Prod.fst = some [1/2, 1/2] := by
  decide +kernel

example : (probFromSampleSet G 3 oldSet newRect).toOption.map Prod.fst = some [3/8, 5/8] := by
  decide +kernel

/-- C06 and C07 hypotheses. -/
example : ∃ pn old' new', probFromSampleSet G 3 oldSet newSet = .ok (pn, old', new') := by
  obtain ⟨o, n, h, _⟩ := probFromSampleSet_fresh (G := G) freshOld readyNew rfl 3 (by decide)
  exact ⟨_, _, _, h⟩

example : [[0], [1], [2], [3]].Nodup ∧ ∀ a ∈ [[(0 : ℚ)], [1], [2], [3]], ∀ b ∈ [[0], [1], [2], [3]],
    a ≠ b → G.dist 2 a a < G.dist 2 a b := by decide +kernel

/-- C08: cell 1 of the old set has no emulated point, so the renormalisation runs. -/
example : (probFromSampleSetEmulated G 2 oldSet newSet emSet).toOption.map Prod.fst =
    some [1/5, 4/5] := by decide +kernel

example : ∃ pt ∈ [[(0 : ℚ)], [1/5], [19/10], [2], [3]], ∀ c, IsCell G oldSet pt c →
    ∃ p, ([1/8, 3/8, 1/2, 0] : List ℚ)[c]? = some p ∧ 0 < p := by
  refine ⟨[0], by simp, fun c hc => ?_⟩
  obtain ⟨q, hq, hmin⟩ := hc _ rfl
  have h0 := hmin [0] (by decide)
  rcases c with _ | _ | _ | _ | c
  · exact ⟨1/8, rfl, by decide +kernel⟩
  · exact ⟨3/8, rfl, by decide +kernel⟩
  · exact ⟨1/2, rfl, by decide +kernel⟩
  · cases hq
    revert h0; decide +kernel
  · simp [oldSet] at hq

example : IsProbVector ([1/8, 3/8, 1/2, 0] : List ℚ) := by
  constructor <;> decide +kernel

/-- C09. -/
example : (probFromDiscInput G 2 { input := some oldSet, output := some oldSet } newSet).toOption.map
    Prod.fst = some [1/2, 1/2] := by decide +kernel

example : errOf (probFromDiscInput G 2
    { input := some oldSet, output := some oldSet, emInput := some emSet } newSet) =
    some .attributeError := by decide +kernel

end BET.Ex
