import Verif.Props.Reorder
import Mathlib.Algebra.BigOperators.Group.Finset.Piecewise
import Mathlib.Algebra.BigOperators.Field

/-!
# C158: the ways of using emulated points agree
-/

set_option autoImplicit false
set_option linter.unusedSectionVars false
set_option linter.unusedSimpArgs false

namespace BET

open Spec

variable {K : Type} [Field K] [LinearOrder K]

/-! ## Counting -/

theorem count_map_split {n : Nat} (f : Nat → Nat) (a : Nat) {l : List Nat} (h : ∀ i ∈ l, i < n) :
    (l.map f).count a = ∑ i ∈ Finset.range n, if f i = a then l.count i else 0 := by
  induction l with
  | nil => simp
  | cons b l ih =>
    have hb : b < n := h b (by simp)
    rw [List.map_cons, List.count_cons, ih fun i hi => h i (by simp [hi])]
    have e : ∀ i, (if f i = a then (b :: l).count i else 0) =
        (if f i = a then l.count i else 0) + if b = i then (if f b = a then 1 else 0) else 0 := by
      intro i
      rw [List.count_cons]
      by_cases hi : b = i
      · subst hi
        by_cases hf : f b = a <;> simp [hf]
      · by_cases hf : f i = a <;> simp [hf, hi]
    simp only [e, Finset.sum_add_distrib, Finset.sum_ite_eq, Finset.mem_range, hb, if_true, beq_iff_eq]

theorem mass_range (A : List Nat) (v : Nat → K) (a : Nat) :
    mass A ((List.range A.length).map v) a = ∑ i ∈ Finset.range A.length, if A.getD i 0 = a then v i else 0 := by
  induction A generalizing v with
  | nil => simp
  | cons b A ih =>
    rw [List.length_cons, List.range_succ_eq_map, List.map_cons, List.map_map, mass_cons, ih, Finset.sum_range_succ']
    simp [add_comm]

section agree
variable [IsStrictOrderedRing K] {G : Geometry K}

/-! ## The states after the calls -/

/-- `prob_on_emulated_samples` on a fresh discretization. -/
theorem solvedAtPoints (hG : Sound G) {d : Disc K} {n m k : Nat} {inp out ops em : SampleSet K} {y z : List (List K)}
    {p : List K} (f : FreshEm d n m k inp out ops em y z p) (size : Nat) (hsize : 0 < size) :
    ∃ d' em' inp' P, probOnEmulated G size d true = .ok d' ∧ d'.checkNums size = .ok n ∧ d'.input = some inp' ∧
      inp'.dim = inp.dim ∧ d'.emInput = some em' ∧ em'.loc.values = some (arraySplit size z) ∧
      em'.loc.probabilities = some P ∧ SameShape (arraySplit size z) P ∧
      P.flatten = z.map fun x => if 0 < p.getD ((y.map (ops.cell G)).getD (inp.cell G x) 0) 0 then
          p.getD ((y.map (ops.cell G)).getD (inp.cell G x) 0) 0 /
            (hits (z.map fun x => (y.map (ops.cell G)).getD (inp.cell G x) 0)
              ((y.map (ops.cell G)).getD (inp.cell G x) 0) : K) else 0 := by
  obtain ⟨d', em', h1, h2, -, h4, -, -, h5, P, h6, h7, h8⟩ := emulated_fresh_full hG f size hsize
  have hcn : d.checkNums size = .ok n := by
    unfold Disc.checkNums
    simp [f.houtput, f.hinput, SampleSet.checkNum_consistent f.houtputC,
      SampleSet.checkNum_consistent f.hready.consistent, pure, Except.pure]
  obtain ⟨ops', hset, -⟩ := setIoPtr_fresh (G := G) (size := size) (g := true)
    f.houtput f.houtputC f.houtVals f.houtLoc f.hops f.hopsReady
  obtain ⟨inp', hq, hr', -, -⟩ := SampleSet.query_ready (G := G) (size := size) f.hready (arraySplit size z)
  have hfr := SampleSet.query_frame hq
  have hframe : (∃ o, d'.output = some o ∧ Consistent o n) ∧ d'.input = some inp' := by
    have hh := h1
    simp only [probOnEmulated, bind_eq_ok, pure_eq_ok] at hh
    obtain ⟨_, -, _, -, _, -, _, -, _, -, d₁, e₁, d₂, e₂, em₂, -, ev, -, io, -, ii, -, ptr, -, ops₂, -, P', -, rfl⟩ := hh
    simp only [Disc.ensureIoPtr, f.hio, Option.isNone_none, if_true] at e₁
    rw [hset] at e₁
    cases e₁
    simp only [Disc.ensureIiPtr, f.hii, Option.isNone_none, if_true] at e₂
    unfold Disc.setIiPtr at e₂
    have hv : (em.splitSet size k).loc.values = some (arraySplit size z) := by
      simp [SampleSet.splitSet, Arrays.map₂, f.hemVals]
    simp only [f.hem, orErr_some, ok_bind, SampleSet.localized_none size f.hemLoc,
      SampleSet.globalToLocal_ok f.hemC, f.hinput, hv, hq] at e₂
    cases e₂
    exact ⟨⟨_, rfl, f.houtputC⟩, rfl⟩
  obtain ⟨⟨o, ho, hoC⟩, hi⟩ := hframe
  refine ⟨d', em', inp', P, h1, ?_, hi, hfr.2.2.1, h2, h5, h6, h7, ?_⟩
  · unfold Disc.checkNums
    simp [ho, hi, SampleSet.checkNum_consistent hoC, SampleSet.checkNum_consistent hr'.consistent, pure, Except.pure]
  · rw [h8] at h4
    exact Option.some.inj h4

/-- `prob_with_emulated_volumes` on a fresh discretization. -/
theorem solvedAtSamples {d : Disc K} {n m k : Nat} {inp out ops em : SampleSet K} {y z : List (List K)}
    {p : List K} (f : FreshEm d n m k inp out ops em y z p) (hk : 0 < k) (size : Nat) (hsize : 0 < size) :
    ∃ d' inp' e', probWithEmulatedVolumes G size d = .ok d' ∧ d'.input = some inp' ∧ d'.emInput = some e' ∧
      Ready inp' n ∧ inp'.cell G = inp.cell G ∧ inp'.dim = inp.dim ∧ Consistent e' k ∧ e'.dim = em.dim ∧
      e'.loc.values = some (arraySplit size z) ∧
      inp'.glob.probabilities = some (List.zipWith (fun c v =>
        if 0 < p.getD c 0 ∧ 0 < mass (y.map (ops.cell G)) (cellFractions G inp n z) c then
          p.getD c 0 * v / mass (y.map (ops.cell G)) (cellFractions G inp n z) c else 0)
        (y.map (ops.cell G)) (cellFractions G inp n z)) := by
  have hcn : d.checkNums size = .ok n := by
    unfold Disc.checkNums
    simp [f.houtput, f.hinput, SampleSet.checkNum_consistent f.houtputC,
      SampleSet.checkNum_consistent f.hready.consistent, pure, Except.pure]
  obtain ⟨ops', k1, k2, k3, k4⟩ : ∃ ops', ops.localized size = .ok ops' ∧ Ready ops' m ∧ ops'.cell G = ops.cell G ∧
      ops'.glob.probabilities = ops.glob.probabilities := by
    cases hlv : ops.loc.values with
    | some v => exact ⟨ops, SampleSet.localized_some size hlv, f.hopsReady, rfl, rfl⟩
    | none =>
      refine ⟨_, (SampleSet.localized_none size hlv).trans (SampleSet.globalToLocal_ok f.hopsReady.consistent size), ?_,
        rfl, rfl⟩
      obtain ⟨r1, r2, r3, r4, r5, r6⟩ := f.hopsReady
      exact ⟨r1, r2, r3, r4, r5, r6⟩
  have hyl : y.length = n := f.houtputC.1.values y f.houtVals
  have hpl : p.length = m := f.hopsReady.consistent.1.probabilities p f.hprobs
  have hzl : z.length = k := f.hemC.1.values z f.hemVals
  obtain ⟨s₁, hq, hr₁, hc₁, hv₁⟩ := SampleSet.query_ready (G := G) (size := size) f.hready (arraySplit size z)
  have hfr := SampleSet.query_frame hq
  have hnum : allreduceSum ((arraySplit size z).map List.length) = k := by
    rw [allreduceSum, ← List.length_flatten, flatten_arraySplit _ _ hsize, hzl]
  have hvec : ((List.range n).map (fun i => allreduceSum
      (((arraySplit size z).map fun c => c.map (inp.cell G)).map fun c =>
        (((npEqual c i).count true : Nat) : K)))).map (· / (k : K)) = cellFractions G inp n z := by
    rw [countVec_eq, List.map_map, ← List.map_flatten, flatten_arraySplit _ _ hsize, cellFractions, hzl]
    rfl
  have hfl : (cellFractions G inp n z).length = n := by simp [cellFractions]
  have hc := consistent_setVolumes hr₁.consistent (vol := cellFractions G inp n z) hfl
  have hzs : (em.splitSet size k).loc.values = some (arraySplit size z) := by
    simp [SampleSet.splitSet, Arrays.map₂, f.hemVals]
  obtain ⟨v, hv⟩ := Option.isSome_iff_exists.mp hr₁.values
  have hest : inp.estimateVolumeEmulated G size em = .ok
      (({ s₁ with glob := { s₁.glob with volumes := some (cellFractions G inp n z) } } : SampleSet K).splitSet size n,
        em.splitSet size k) := by
    unfold SampleSet.estimateVolumeEmulated
    simp only [SampleSet.checkNum_consistent f.hready.consistent, ok_bind, SampleSet.localized_none size f.hemLoc,
      SampleSet.globalToLocal_ok f.hemC, hzs, orErr_some, hq, hnum, raiseIf_false (show ¬ k = 0 by omega), hvec,
      SampleSet.globalToLocal_ok hc]
    rfl
  set s₂ : SampleSet K := ({ s₁ with glob := { s₁.glob with volumes := some (cellFractions G inp n z) } } :
    SampleSet K).splitSet size n with hs₂
  have hlv : s₂.loc.values = some (arraySplit size v) := by simp [hs₂, SampleSet.splitSet, Arrays.map₂, hv]
  have hlw : s₂.loc.volumes = some (arraySplit size (cellFractions G inp n z)) := by
    simp [hs₂, SampleSet.splitSet, Arrays.map₂]
  have hcs : Consistent s₂ n := hc
  set D : Disc K := { d with outputProb := some ops', input := some s₂, emInput := some (em.splitSet size k) } with hD
  have hcnD : D.checkNums size = .ok n := by
    unfold Disc.checkNums
    simp [hD, f.houtput, SampleSet.checkNum_consistent f.houtputC, SampleSet.checkNum_consistent hcs, pure, Except.pure]
  obtain ⟨ops'', hset, hr', hc', hpr'⟩ := setIoPtr_fresh (G := G) (size := size) (g := false) (d := D)
    f.houtput f.houtputC f.houtVals f.houtLoc rfl k2
  have hens : D.ensureIoPtr G size false = D.setIoPtr G size false := by
    simp [Disc.ensureIoPtr, hD, f.hio]
  have hsh : SameShape (arraySplit size (y.map (ops'.cell G))) (arraySplit size (cellFractions G inp n z)) :=
    arraySplit_sameShape _ _ _ (by simp [hyl, hfl])
  have hloop := probLoop_eq p _ _ m hsh (by omega)
  unfold probWithEmulatedVolumes Disc.estimateInputVolumeEmulated
  simp only [hcn, f.hops, SampleSet.checkNum_consistent f.hopsReady.consistent, k1, f.hinput, f.hem, orErr_some,
    ok_bind, hest, LawfulMonad.pure_bind]
  rw [← hD]
  unfold prob
  simp only [hcnD, ok_bind, orErr_some, SampleSet.checkNum_consistent k2.consistent, hens, hset]
  simp only [hD, orErr_some, ok_bind, SampleSet.localized_some size hlv, hpr', k4, f.hprobs, hlw, hloop,
    SampleSet.checkNum_consistent k2.consistent, if_true]
  have hfill : getGlobalValues (List.zipWith (List.zipWith fun j v =>
        if j < m ∧ p.getD j 0 > 0 ∧ mass (arraySplit size (y.map (ops'.cell G))).flatten
            (arraySplit size (cellFractions G inp n z)).flatten j > 0 then
          p.getD j 0 * v / mass (arraySplit size (y.map (ops'.cell G))).flatten
            (arraySplit size (cellFractions G inp n z)).flatten j
        else 0) (arraySplit size (y.map (ops'.cell G))) (arraySplit size (cellFractions G inp n z))) =
      List.zipWith (fun c v =>
        if 0 < p.getD c 0 ∧ 0 < mass (y.map (ops.cell G)) (cellFractions G inp n z) c then
          p.getD c 0 * v / mass (y.map (ops.cell G)) (cellFractions G inp n z) c else 0)
        (y.map (ops.cell G)) (cellFractions G inp n z) := by
    rw [getGlobalValues, flatten_zipWith_zipWith _ hsh, flatten_arraySplit _ _ hsize, flatten_arraySplit _ _ hsize, k3]
    congr 1
    funext c v
    by_cases hc : c < m
    · simp [hc]
    · have : p.getD c 0 = 0 := by simp [List.getD, show p.length ≤ c by omega]
      simp only [hc, this, gt_iff_lt, lt_irrefl, false_and, and_false]
  refine ⟨_, _, _, rfl, rfl, rfl, ?_, ?_, ?_, f.hemC, rfl, hzs, ?_⟩
  · obtain ⟨r1, r2, r3, r4, r5, r6⟩ := hr₁
    refine ⟨?_, r2, r3, r4, r5, r6⟩
    obtain ⟨h1, h2, h3⟩ := hcs
    refine ⟨⟨h1.values, h1.volumes, fun w hw => ?_, h1.densities, h1.jacobians, h1.errorEstimates, h1.right, h1.left,
      h1.width, h1.kdtreeValues, h1.radii, h1.normalizedRadii, h1.region, h1.errorId⟩, fun hn => ?_, h3⟩
    · rw [← Option.some.inj hw, hfill]
      simp [hyl, hfl]
    · have := hn.probabilities
      cases this
  · exact hc₁
  · exact hfr.2.2.1
  · exact congrArg some hfill

/-- `prob_from_sample_set_with_emulated_volumes` with emulated points that have been split, when every old cell of
positive probability contains one of them. -/
theorem transportedAtPoints {size : Nat} (hsize : 0 < size) {old new em : SampleSet K} {n m k : Nat} (ho : Ready old n)
    (hr : Ready new m) {p : List K} (hp : old.glob.probabilities = some p) (hem : Consistent em k) {z : List (List K)}
    (hz : em.loc.values = some (arraySplit size z)) (hd₁ : old.dim = new.dim) (hd₂ : old.dim = em.dim)
    (hhit : ∀ i < n, 0 < p.getD i 0 → 0 < hits (z.map (old.cell G)) i) :
    ∃ new', probFromSampleSetWithEmulatedVolumes G size old new (some em) = .ok ((List.range m).map
      (mass (z.map (new.cell G)) (z.map fun x => emShare p (z.map (old.cell G)) (old.cell G x))), new') := by
  obtain ⟨o', hq, ho', hoc', hov'⟩ := SampleSet.query_ready (G := G) (size := size) ho (arraySplit size z)
  obtain ⟨s', hq2, hr', hc', hv'⟩ := SampleSet.query_ready (G := G) (size := size) hr (arraySplit size z)
  have hop : o'.glob.probabilities = some p := by
    rw [(SampleSet.query_frame hq).1]; exact hp
  have hpl : p.length = n := ho.consistent.1.probabilities p hp
  have hfl : (arraySplit size (z.map (old.cell G))).flatten = z.map (old.cell G) := flatten_arraySplit _ _ hsize
  have hloop := emLoop_share p (arraySplit size (z.map (old.cell G))) n hpl.symm
  have hwarn : ((List.range n).any fun i => decide (0 < p.getD i 0) &&
      hits (z.map (old.cell G)) i == 0) = false := by
    rw [List.any_eq_false]
    intro i hi
    have := hhit i (List.mem_range.1 hi)
    simp only [Bool.and_eq_true, decide_eq_true_eq, beq_iff_eq, not_and]
    intro h1 h2
    have := this h1
    omega
  rw [hfl, hwarn] at hloop
  have e : (arraySplit size (z.map (old.cell G))).map (fun c => c.map (emShare p (z.map (old.cell G)))) =
      arraySplit size (z.map fun x => emShare p (z.map (old.cell G)) (old.cell G x)) := by
    rw [← arraySplit_map, List.map_map]; rfl
  rw [e] at hloop
  have hsh : SameShape (arraySplit size (z.map (new.cell G)))
      (arraySplit size (z.map fun x => emShare p (z.map (old.cell G)) (old.cell G x))) :=
    arraySplit_sameShape _ _ _ (by simp)
  have hg := gatherLoop_eq _ _ m hsh
  rw [flatten_arraySplit _ _ hsize, flatten_arraySplit _ _ hsize] at hg
  unfold probFromSampleSetWithEmulatedVolumes probFromSampleSetEmulated
  simp only [SampleSet.checkNum_consistent ho.consistent,
    SampleSet.checkNum_consistent hr.consistent, SampleSet.checkNum_consistent hem, ok_bind,
    raiseIf_false (show ¬ (old.dim ≠ new.dim ∨ old.dim ≠ em.dim) by simp [hd₁, ← hd₂]),
    SampleSet.localized_some size hz, hz, orErr_some, hq, hq2, hop, ← arraySplit_map, hloop, renormalize, Bool.false_eq_true,
    if_false, hg]
  exact ⟨_, rfl⟩

/-- `prob_from_discretization_input` when the emulated points have been split and have probabilities. -/
theorem movedFromPoints {size : Nat} (hsize : 0 < size) {d : Disc K} {inp em new : SampleSet K} {n m : Nat}
    (hcn : d.checkNums size = .ok n) (hin : d.input = some inp) (hem : d.emInput = some em) {z : List (List K)}
    (hz : em.loc.values = some (arraySplit size z)) {P : Chunks K} (hP : em.loc.probabilities = some P)
    (hsh : SameShape (arraySplit size z) P) (hr : Ready new m) (hd : inp.dim = new.dim) :
    ∃ new', probFromDiscInput G size d new =
      .ok ((List.range m).map (mass (z.map (new.cell G)) P.flatten), new') := by
  obtain ⟨s', hq, -⟩ := SampleSet.query_ready (G := G) (size := size) hr (arraySplit size z)
  have hsh' : SameShape (arraySplit size (z.map (new.cell G))) P :=
    (arraySplit_sameShape size (z.map (new.cell G)) z (by simp)).trans hsh
  have hg := gatherLoop_eq _ _ m hsh'
  rw [flatten_arraySplit _ _ hsize] at hg
  have hcn' : ({ d with input := some inp, emInput := some em } : Disc K).checkNums size = .ok n := by
    rw [← hem, ← hin]; exact hcn
  unfold probFromDiscInput
  simp only [hem, HOrElse.hOrElse, OrElse.orElse, Option.orElse, orErr_some, ok_bind,
    SampleSet.localized_some size hz, hP, hz, hcn', SampleSet.checkNum_consistent hr.consistent, hin,
    raiseIf_false (not_not.mpr hd), hq, ← arraySplit_map, hg]
  exact ⟨_, rfl⟩

/-! ## The shares agree -/

/-- The share of a point, as both ways compute it. -/
theorem share_agree {n : Nat} {A : List Nat} (hA : A.length = n) {c : List Nat} (hc : ∀ i ∈ c, i < n) (hne : c ≠ [])
    (p : List K) :
    let v : List K := (List.range n).map fun i => (hits c i : K) / (c.length : K)
    let P : List K := List.zipWith (fun a v' => if 0 < p.getD a 0 ∧ 0 < mass A v a then p.getD a 0 * v' / mass A v a else 0)
      A v
    let E : Nat → K := fun i => if 0 < p.getD (A.getD i 0) 0 then
      p.getD (A.getD i 0) 0 / (hits (c.map fun i => A.getD i 0) (A.getD i 0) : K) else 0
    (∀ i < n, P.getD i 0 = hits c i * E i) ∧ (∀ i ∈ c, emShare P c i = E i) ∧
      (∀ i < n, 0 < P.getD i 0 → 0 < hits c i) := by
  intro v P E
  have hl : (0 : K) < (c.length : K) := by exact_mod_cast List.length_pos_iff.2 hne
  have hmass : ∀ a, mass A v a = (hits (c.map fun i => A.getD i 0) a : K) / (c.length : K) := by
    intro a
    have : v = (List.range A.length).map fun i => (hits c i : K) / (c.length : K) := by rw [hA]
    rw [this, mass_range, hits, count_map_split (fun i => A.getD i 0) a hc, hA, Nat.cast_sum, Finset.sum_div]
    refine Finset.sum_congr rfl fun i _ => ?_
    split
    · rfl
    · simp
  have hP : ∀ i < n, P.getD i 0 = hits c i * E i := by
    intro i hi
    have e1 : A[i]? = some (A.getD i 0) := by
      rw [List.getD_eq_getElem?_getD, List.getElem?_eq_getElem (by omega)]; rfl
    have e2 : v[i]? = some ((hits c i : K) / (c.length : K)) := by
      simp only [v, List.getElem?_map, List.getElem?_range hi, Option.map_some]
    have e3 : P[i]? = some (if 0 < p.getD (A.getD i 0) 0 ∧ 0 < mass A v (A.getD i 0) then
        p.getD (A.getD i 0) 0 * ((hits c i : K) / (c.length : K)) / mass A v (A.getD i 0) else 0) := by
      simp only [P, List.getElem?_zipWith, e1, e2, Option.map_some]
    rw [List.getD_eq_getElem?_getD, e3, Option.getD_some, hmass]
    by_cases h1 : 0 < p.getD (A.getD i 0) 0
    · by_cases h2 : 0 < hits (c.map fun i => A.getD i 0) (A.getD i 0)
      · have h2' : (0 : K) < (hits (c.map fun i => A.getD i 0) (A.getD i 0) : K) := by exact_mod_cast h2
        rw [if_pos ⟨h1, div_pos h2' hl⟩]
        simp only [E, if_pos h1]
        field_simp
      · have h0 : hits c i = 0 := by
          by_contra hne'
          have : i ∈ c := List.count_pos_iff.1 (Nat.pos_of_ne_zero hne')
          exact h2 (List.count_pos_iff.2 (List.mem_map.2 ⟨i, this, rfl⟩))
        simp [h0]
    · rw [if_neg fun h => h1 h.1]
      simp only [E, if_neg h1, mul_zero]
  refine ⟨hP, fun i hi => ?_, fun i hi h => ?_⟩
  · have hh : (0 : K) < (hits c i : K) := by exact_mod_cast List.count_pos_iff.2 hi
    unfold emShare
    rw [hP i (hc i hi)]
    by_cases hE : 0 < E i
    · rw [if_pos (mul_pos hh hE)]
      field_simp
    · have : E i = 0 := by
        refine le_antisymm (not_lt.1 hE) ?_
        simp only [E]
        split
        · next h => exact div_nonneg h.le (Nat.cast_nonneg _)
        · exact le_refl _
      simp [this]
  · rw [hP i hi] at h
    by_contra h0
    simp [Nat.eq_zero_of_not_pos h0] at h

/-- **C158.** Two ways to use emulated points: `prob_on_emulated_samples` followed by `prob_from_discretization_input`,
and `prob_with_emulated_volumes` followed by `prob_from_sample_set_with_emulated_volumes`. They give the same
probabilities on every other set, and on a set with the cells of the input samples these are the probabilities of
`prob_with_emulated_volumes`. -/
theorem C158_agree (hG : Sound G) {d : Disc K} {n m k l : Nat} {inp out ops em : SampleSet K} {y z : List (List K)}
    {p : List K} (f : FreshEm d n m k inp out ops em y z p) (hk : 0 < k) {size : Nat} (hsize : 0 < size)
    {new : SampleSet K} (hr : Ready new l) (hd : inp.dim = new.dim) (hd' : inp.dim = em.dim) :
    ∃ d₁ d₂ inp₂ em₂ pn new₁ new₂, probOnEmulated G size d true = .ok d₁ ∧
      probFromDiscInput G size d₁ new = .ok (pn, new₁) ∧
      probWithEmulatedVolumes G size d = .ok d₂ ∧ d₂.input = some inp₂ ∧ d₂.emInput = some em₂ ∧
      probFromSampleSetWithEmulatedVolumes G size inp₂ new (some em₂) = .ok (pn, new₂) ∧
      (EqualCells inp new → inp₂.glob.probabilities = some pn) := by
  obtain ⟨d₁, em₁, inp₁, P, a1, a2, a3, a4, a5, a6, a7, a8, a9⟩ := solvedAtPoints hG f size hsize
  obtain ⟨d₂, inp₂, em₂, b1, b2, b3, b4, b5, b6, b7, b8, b9, b10⟩ := solvedAtSamples (G := G) f hk size hsize
  obtain ⟨new₁, c1⟩ := movedFromPoints (G := G) hsize a2 a3 a5 a6 a7 a8 hr (a4.trans hd)
  have hyl : y.length = n := f.houtputC.1.values y f.houtVals
  have hzl : z.length = k := f.hemC.1.values z f.hemVals
  obtain ⟨s1, s2, s3⟩ := share_agree (K := K) (n := n) (A := y.map (ops.cell G)) (by simp [hyl])
    (c := z.map (inp.cell G)) (by
      intro i hi
      obtain ⟨x, -, rfl⟩ := List.mem_map.1 hi
      exact SampleSet.cell_lt hG f.hready x) (by rintro h; rw [List.map_eq_nil_iff] at h; subst h; simp at hzl; omega) p
  have hfr : cellFractions G inp n z =
      (List.range n).map fun i => (hits (z.map (inp.cell G)) i : K) / ((z.map (inp.cell G)).length : K) := by
    rw [cellFractions, List.length_map]
  rw [hfr] at b10
  obtain ⟨new₂, c2⟩ := transportedAtPoints (G := G) hsize b4 hr b10 b7 b9 (b6.trans hd) (b6.trans (hd'.trans b8.symm))
    (by rw [b5]; exact s3)
  set Q := List.zipWith _ (y.map (ops.cell G)) _ with hQ
  have hE : P.flatten = z.map fun x => emShare Q (z.map (inp₂.cell G)) (inp₂.cell G x) := by
    rw [a9]
    refine List.map_congr_left fun x hx => ?_
    rw [b5, s2 _ (List.mem_map_of_mem hx), List.map_map]
    rfl
  refine ⟨d₁, d₂, inp₂, em₂, _, new₁, new₂, a1, c1, b1, b2, b3, by rw [c2, hE], fun he => ?_⟩
  have hcell : new.cell G = inp.cell G := (EqualCells.cell he G).symm
  have hl : l = n := by
    have h1 := hr.consistent.1.values
    have h2 := f.hready.consistent.1.values
    obtain ⟨v, hv⟩ := Option.isSome_iff_exists.mp f.hready.values
    have h3 : new.glob.values = some v := by rw [← he.values]; exact hv
    exact (h1 v h3).symm.trans (h2 v hv)
  subst hl
  rw [b10, hcell, hE, b5]
  have hm : (z.map fun x => emShare Q (z.map (inp.cell G)) (inp.cell G x)) =
      (z.map (inp.cell G)).map (emShare Q (z.map (inp.cell G))) := by rw [List.map_map]; rfl
  rw [hm]
  have hQl : Q.length = l := by simp [hQ, hyl]
  refine congrArg some (List.ext_getElem? fun i => ?_)
  by_cases hi : i < l
  · have e1 : Q[i]? = some (Q.getD i 0) := by
      rw [List.getD_eq_getElem?_getD, List.getElem?_eq_getElem (by omega)]; rfl
    rw [e1, List.getElem?_map, List.getElem?_range hi, Option.map_some, mass_map_self, s1 i hi]
    by_cases hc : i ∈ z.map (inp.cell G)
    · rw [s2 i hc]
    · rw [hits, List.count_eq_zero_of_not_mem hc]; simp
  · rw [List.getElem?_eq_none (by omega), List.getElem?_eq_none (by simp; omega)]

end agree

/-! ## Examples -/

namespace Ex

/-- Three samples on a line, two cells of the data and five emulated points. -/
def twoWays : Disc ℚ where
  input := some { dim := 1, glob := { values := some [[0], [3], [6]] } }
  output := some { dim := 1, glob := { values := some [[1], [2], [4]] } }
  outputProb := some { dim := 1, glob := { values := some [[0], [5]], probabilities := some [3/4, 1/4] } }
  emInput := some { dim := 1, glob := { values := some [[1/2], [2], [4], [5], [7]] } }

/-- Another set of two samples. -/
def elsewhere : SampleSet ℚ := { dim := 1, glob := { values := some [[1], [4]] } }

example : ∃ d₁ d₂ inp₂ em₂ pn new₁ new₂, probOnEmulated G 2 twoWays true = .ok d₁ ∧
    probFromDiscInput G 2 d₁ elsewhere = .ok (pn, new₁) ∧
    probWithEmulatedVolumes G 2 twoWays = .ok d₂ ∧ d₂.input = some inp₂ ∧ d₂.emInput = some em₂ ∧
    probFromSampleSetWithEmulatedVolumes G 2 inp₂ elsewhere (some em₂) = .ok (pn, new₂) := by
  obtain ⟨d₁, d₂, i₂, e₂, pn, n₁, n₂, h1, h2, h3, h4, h5, h6, -⟩ := C158_agree (l := 2) (new := elsewhere) (d := twoWays) sound_G
    ⟨rfl, ⟨consistent_of _ 3 rfl rfl, by decide, rfl, Or.inl rfl, nofun, nofun⟩, rfl, consistent_of _ 3 rfl rfl, rfl, rfl,
      rfl, ⟨consistent_of _ 2 rfl rfl, by decide, rfl, Or.inl rfl, nofun, nofun⟩, rfl, rfl, consistent_of _ 5 rfl rfl, rfl,
      rfl, rfl, rfl⟩ (by decide) (size := 2) (by decide)
    ⟨consistent_of _ 2 rfl rfl, by decide, rfl, Or.inl rfl, nofun, nofun⟩ rfl rfl
  exact ⟨d₁, d₂, i₂, e₂, pn, n₁, n₂, h1, h2, h3, h4, h5, h6⟩

/-- On the samples themselves. -/
example : ∃ d₁ d₂ inp₂ pn new₁, probOnEmulated G 2 twoWays true = .ok d₁ ∧
    probFromDiscInput G 2 d₁ { dim := 1, glob := { values := some [[0], [3], [6]] } } = .ok (pn, new₁) ∧
    probWithEmulatedVolumes G 2 twoWays = .ok d₂ ∧ d₂.input = some inp₂ ∧ inp₂.glob.probabilities = some pn := by
  obtain ⟨d₁, d₂, i₂, e₂, pn, n₁, n₂, h1, h2, h3, h4, h5, h6, h7⟩ := C158_agree (l := 3)
    (new := { dim := 1, glob := { values := some [[0], [3], [6]] } }) (d := twoWays) sound_G
    ⟨rfl, ⟨consistent_of _ 3 rfl rfl, by decide, rfl, Or.inl rfl, nofun, nofun⟩, rfl, consistent_of _ 3 rfl rfl, rfl, rfl,
      rfl, ⟨consistent_of _ 2 rfl rfl, by decide, rfl, Or.inl rfl, nofun, nofun⟩, rfl, rfl, consistent_of _ 5 rfl rfl, rfl,
      rfl, rfl, rfl⟩ (by decide) (size := 2) (by decide)
    ⟨consistent_of _ 3 rfl rfl, by decide, rfl, Or.inl rfl, nofun, nofun⟩ rfl rfl
  exact ⟨d₁, d₂, i₂, pn, n₁, h1, h2, h3, h4, h7 ⟨rfl, rfl, rfl, rfl, rfl, rfl⟩⟩

/-- The values. -/
example : ((probOnEmulated G 2 twoWays true).toOption.bind fun d => (probFromDiscInput G 2 d elsewhere).toOption.map (·.1)) =
    some [1/2, 1/2] := by decide +kernel

/-- **Negation, C158.** With other points for the transport the two ways need not agree. -/
theorem C158_negation_other_points :
    ((probOnEmulated G 2 twoWays true).toOption.bind fun d => (probFromDiscInput G 2 d elsewhere).toOption.map (·.1)) ≠
    ((probWithEmulatedVolumes G 2 twoWays).toOption.bind fun d => d.input.bind fun i =>
      (probFromSampleSetWithEmulatedVolumes G 2 i elsewhere
        (some { dim := 1, glob := { values := some [[1], [4], [6]] } })).toOption.map (·.1)) := by
  decide +kernel

end Ex

end BET
