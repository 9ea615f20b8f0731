import Verif.Props.ModelValues

/-!
# C172: what an inversion recovers
-/

set_option autoImplicit false
set_option linter.unusedSectionVars false
set_option linter.unusedSimpArgs false

namespace BET

open Spec

variable {K : Type} [Field K] [LinearOrder K]

/-- The probabilities of `m` cells when the samples, which lie in the cells `c`, have probabilities `w`. -/
def pushed (c : List Nat) (m : Nat) (w : List K) : List K := (List.range m).map (mass c w)

section order
variable [IsStrictOrderedRing K]

theorem pushed_at (c : List Nat) {m : Nat} (w : List K) {k : Nat} (hk : k < m) : (pushed c m w).getD k 0 = mass c w k := by
  simp [pushed, List.getD_eq_getElem?_getD, hk]

theorem pushed_nonneg (c : List Nat) (m : Nat) {w : List K} (hw : ∀ x ∈ w, 0 ≤ x) : ∀ x ∈ pushed c m w, 0 ≤ x := by
  intro x hx
  obtain ⟨k, -, rfl⟩ := List.mem_map.mp hx
  exact mass_nonneg c w k hw

theorem eq_pushed {c : List Nat} {m : Nat} {w p : List K} (hl : p.length = m) (h : ∀ k < m, p.getD k 0 = mass c w k) :
    p = pushed c m w := by
  apply List.ext_getElem
  · simp [pushed, hl]
  · intro k h1 h2
    have hk : k < m := by omega
    rw [show p[k] = p.getD k 0 by simp [List.getD, List.getElem?_eq_getElem h1], h k hk]
    simp [pushed]

theorem mass_multiple {c : List Nat} {v w : List K} (hl : c.length = v.length) (hw : w.length = v.length) {lam : Nat → K}
    (h : ∀ i < v.length, w.getD i 0 = lam (c.getD i 0) * v.getD i 0) (k : Nat) : mass c w k = lam k * mass c v k := by
  rw [mass_finset c w (by omega), mass_finset c v hl, Finset.mul_sum, hw]
  refine Finset.sum_congr rfl fun i hi => ?_
  rw [h i (Finset.mem_range.mp hi)]
  split
  · next e => rw [e]
  · simp

/-- Probabilities that are multiples of the volumes in each cell are recovered from their push forward. -/
theorem solved_pushed {c : List Nat} {v w : List K} {m : Nat} (hl : c.length = v.length) (hw : w.length = v.length)
    (hc : ∀ k ∈ c, k < m) (hv : ∀ x ∈ v, 0 ≤ x) (hw0 : ∀ x ∈ w, 0 ≤ x) {lam : Nat → K}
    (h : ∀ i < v.length, w.getD i 0 = lam (c.getD i 0) * v.getD i 0) : solvedList c v (pushed c m w) = w := by
  apply List.ext_getElem
  · rw [solvedList_length hl, hw]
  · intro i h1 h2
    have hi : i < v.length := by rwa [solvedList_length hl] at h1
    have hic : i < c.length := by omega
    have e1 : (solvedList c v (pushed c m w)).getD i 0 = (solvedList c v (pushed c m w))[i] := by
      simp [List.getD, List.getElem?_eq_getElem h1]
    have e2 : w.getD i 0 = w[i] := by simp [List.getD, List.getElem?_eq_getElem h2]
    have e3 : c.getD i 0 = c[i] := by simp [List.getD, List.getElem?_eq_getElem hic]
    have e4 : v.getD i 0 = v[i] := by simp [List.getD, List.getElem?_eq_getElem hi]
    have hk : c.getD i 0 < m := by rw [e3]; exact hc _ (List.getElem_mem hic)
    rw [← e1, ← e2, solvedList_at hl _ hi, pushed_at c w hk]
    have hm := mass_multiple hl hw h (c.getD i 0)
    split
    · next h0 =>
      rw [h i hi, hm]
      have := h0.2.ne'
      field_simp
    · next h0 =>
      by_contra hne
      have hpos : 0 < w.getD i 0 := lt_of_le_of_ne (getD_nonneg hw0 i) hne
      have hvpos : 0 < v.getD i 0 := lt_of_le_of_ne (getD_nonneg hv i) fun e => by
        rw [h i hi, ← e, mul_zero] at hpos
        exact lt_irrefl _ hpos
      refine h0 ⟨?_, ?_⟩
      · rw [e3]
        exact mass_positive hw0 hic (by omega) (e2 ▸ hpos)
      · rw [e3]
        exact mass_positive hv hic hi (e4 ▸ hvpos)

/-- The factor of a solution in a cell. -/
theorem solved_multiple {c : List Nat} {v p : List K} (hl : c.length = v.length) :
    ∃ lam : Nat → K, ∀ i < v.length, (solvedList c v p).getD i 0 = lam (c.getD i 0) * v.getD i 0 := by
  refine ⟨fun k => if 0 < p.getD k 0 ∧ 0 < mass c v k then p.getD k 0 / mass c v k else 0, fun i hi => ?_⟩
  rw [solvedList_at hl p hi]
  simp only
  split
  · ring
  · ring

/-- **C172.** The probabilities of the samples that can be recovered from the probabilities of the cells of the data are
those that are proportional to the volumes within each cell. -/
theorem C172_recovered {G : Geometry K} (hG : Sound G) {size : Nat} (hsize : 0 < size) {d : Disc K} {n m : Nat}
    {inp out ops : SampleSet K} {y : List (List K)} {vols p w : List K}
    (f : FreshDisc d n m inp out ops y vols p) (hp : ∀ k < m, p.getD k 0 = mass (y.map (ops.cell G)) w k) (hw : w.length = n)
    (hv : ∀ x ∈ vols, 0 ≤ x) (hw0 : ∀ x ∈ w, 0 ≤ x) :
    solution G size d = some w ↔
      ∃ lam : Nat → K, ∀ (i : Nat) (a : List K) (x u : K), y[i]? = some a → vols[i]? = some x → w[i]? = some u →
        u = lam (ops.cell G a) * x := by
  obtain ⟨e, hl, hc⟩ := fresh_solved hG hsize f
  obtain ⟨hy, hvl, hpl⟩ := FreshDisc.lengths f
  obtain rfl := eq_pushed hpl hp
  have conv : ∀ lam : Nat → K, (∀ i < vols.length, w.getD i 0 = lam ((y.map (ops.cell G)).getD i 0) * vols.getD i 0) ↔
      ∀ (i : Nat) (a : List K) (x u : K), y[i]? = some a → vols[i]? = some x → w[i]? = some u →
        u = lam (ops.cell G a) * x := by
    intro lam
    constructor
    · intro h i a x u h1 h2 h3
      have := h i (List.getElem?_eq_some_iff.mp h2).1
      simpa [List.getD_eq_getElem?_getD, h1, h2, h3] using this
    · intro h i hi
      have h1 : i < y.length := by omega
      have h2 : i < w.length := by omega
      have := h i _ _ _ (List.getElem?_eq_getElem h1) (List.getElem?_eq_getElem hi) (List.getElem?_eq_getElem h2)
      simpa [List.getD_eq_getElem?_getD, h1, h2, hi] using this
  rw [e]
  constructor
  · intro h
    obtain ⟨lam, hlam⟩ := solved_multiple (p := pushed (y.map (ops.cell G)) m w) hl
    rw [Option.some.inj h] at hlam
    exact ⟨lam, (conv lam).mp hlam⟩
  · rintro ⟨lam, h⟩
    rw [solved_pushed hl (by omega) hc hv hw0 ((conv lam).mpr h)]

/-- **C172.** If the cells of the data have the probabilities that the volumes give them, the solution is the volumes:
nothing is learnt from data that the volumes predict. -/
theorem C172_volumes {G : Geometry K} (hG : Sound G) {size : Nat} (hsize : 0 < size) {d : Disc K} {n m : Nat}
    {inp out ops : SampleSet K} {y : List (List K)} {vols p : List K}
    (f : FreshDisc d n m inp out ops y vols p) (hp : ∀ k < m, p.getD k 0 = mass (y.map (ops.cell G)) vols k) (hv : ∀ x ∈ vols, 0 ≤ x) :
    solution G size d = some vols := by
  obtain ⟨-, hvl, -⟩ := FreshDisc.lengths f
  refine (C172_recovered hG hsize f hp hvl hv hv).mpr ⟨fun _ => 1, fun i a x u _ h2 h3 => ?_⟩
  rw [h2] at h3
  rw [one_mul, Option.some.inj h3]

/-- **C172.** Solving once more, with the probabilities that the solution gives to the cells, changes nothing. -/
theorem C172_again {G : Geometry K} (hG : Sound G) {size size' : Nat} (hsize : 0 < size) (hsize' : 0 < size')
    {d d' : Disc K} {n m : Nat} {inp out ops inp' out' ops' : SampleSet K} {y : List (List K)} {vols p P p' : List K}
    (f : FreshDisc d n m inp out ops y vols p) (hv : ∀ x ∈ vols, 0 ≤ x)
    (hP : solution G size d = some P) (hcells : EqualCells ops ops')
    (f' : FreshDisc d' n m inp' out' ops' y vols p') (hp' : ∀ k < m, p'.getD k 0 = mass (y.map (ops.cell G)) P k) :
    solution G size' d' = some P := by
  obtain ⟨e, hl, hc⟩ := fresh_solved hG hsize f
  obtain ⟨e', -, -⟩ := fresh_solved hG hsize' f'
  rw [e] at hP
  obtain rfl := Option.some.inj hP
  obtain rfl := eq_pushed (FreshDisc.lengths f').2.2 hp'
  obtain ⟨lam, hlam⟩ := solved_multiple (p := p) hl
  have h0 : ∀ x ∈ solvedList (y.map (ops.cell G)) vols p, 0 ≤ x := by
    intro x hx
    obtain ⟨i, hi, rfl⟩ := List.getElem_of_mem hx
    have hi' : i < vols.length := by rwa [solvedList_length hl] at hi
    have := solvedList_at hl p hi'
    rw [show (solvedList (y.map (ops.cell G)) vols p).getD i 0 = (solvedList (y.map (ops.cell G)) vols p)[i] by
      simp [List.getD, List.getElem?_eq_getElem hi]] at this
    rw [this]
    split
    · next h => exact div_nonneg (mul_nonneg h.1.le (getD_nonneg hv i)) h.2.le
    · exact le_rfl
  rw [e', ← EqualCells.cell hcells G, solved_pushed hl (solvedList_length hl p) hc hv h0 hlam]

/-- **C172.** How far the solution is from the volumes: as far as the probabilities of the cells are from those that the
volumes give them, counting the cells that have volume. -/
theorem C172_distance {G : Geometry K} (hG : Sound G) {size : Nat} (hsize : 0 < size) {d : Disc K} {n m : Nat}
    {inp out ops : SampleSet K} {y : List (List K)} {vols p : List K} (f : FreshDisc d n m inp out ops y vols p)
    (hv : ∀ x ∈ vols, 0 ≤ x) (hp : ∀ x ∈ p, 0 ≤ x) :
    ∃ P, solution G size d = some P ∧ l1 P vols = ((List.range m).map fun k =>
      if 0 < mass (y.map (ops.cell G)) vols k then |p.getD k 0 - mass (y.map (ops.cell G)) vols k| else 0).sum := by
  obtain ⟨e, hl, hc⟩ := fresh_solved hG hsize f
  refine ⟨_, e, ?_⟩
  have h1 : solvedList (y.map (ops.cell G)) vols (pushed (y.map (ops.cell G)) m vols) = vols :=
    solved_pushed hl rfl hc hv hv (lam := fun _ => 1) fun i _ => (one_mul _).symm
  have h2 : l1 (solvedList (y.map (ops.cell G)) vols p)
      (solvedList (y.map (ops.cell G)) vols (pushed (y.map (ops.cell G)) m vols)) = _ :=
    solved_l1 hl hv hc hp (pushed_nonneg (y.map (ops.cell G)) m hv)
  rw [h1] at h2
  rw [h2]
  congr 1
  refine List.map_congr_left fun k hk => ?_
  rw [pushed_at _ _ (List.mem_range.mp hk)]

/-! ## The script of the validation example -/

/-- The script with `user_partition_user_distribution` and the cells written out: those of the Euclidean search. -/
theorem user_cells {G : Geometry K} (hG : Sound G)
    {model : Nat → List (List K) → ModelOutput K} {outDim : Nat}
    {f e : List K → List K} {j : List K → List (List K)} (hm : RowWise model false false f e j)
    {s : Nat → SampleSet K} {v : List (List K)} (hs : HoldSamples s v) (hne : v ≠ [])
    (hf : ∀ row ∈ v, (f row).length = outDim) {samples pts : List (List K)}
    {partition distribution : Nat → DataSet K} (hsa : ∀ row ∈ samples, row.length = outDim)
    (hsne : samples ≠ []) (hpne : pts ≠ [])
    (hpar : ∀ size > 0, (partition size).inputs size = .ok ⟨samples.length, outDim, some samples⟩)
    (hdist : ∀ size > 0, (distribution size).inputs size = .ok ⟨pts.length, outDim, some pts⟩)
    {size : Nat} (hsize : 0 < size) :
    ∃ ps d P, inverseProblem G size model outDim (s size)
        (fun ds => userPartition G size ds (partition size) (distribution size)) = .ok (ps, d) ∧ Solved d ps v P ∧
      SolvesInverse G ps v f ((List.range samples.length).map fun i =>
        (hits (pts.map (G.nn 2 samples)) i : K) / (pts.length : K)) P (v.map fun x => G.nn 2 samples (f x)) := by
  have hspos : 0 < samples.length := List.length_pos_of_ne_nil hsne
  have hppos : 0 < pts.length := List.length_pos_of_ne_nil hpne
  have hppK : (pts.length : K) ≠ 0 := by exact_mod_cast hppos.ne'
  set p := (List.range samples.length).map fun i =>
      (hits (pts.map (G.nn 2 samples)) i : K) / (pts.length : K) with hp
  set t := treeSet outDim samples (some p) with ht
  have hrt : Ready t samples.length := ready_treeSet hsa hspos (by simp [hp])
  have hcellt : t.cell G = G.nn 2 samples := rfl
  have hpv : IsProbVector p := by
    have := cellFractions_prob hG hrt hpne
    unfold cellFractions at this
    rwa [hcellt] at this
  obtain ⟨h1, h2, h3⟩ := hs size hsize
  obtain ⟨d, inp, out, hd, hr⟩ := sampleAndRun_ok hsize hm h1 h2 hne h3 hf
  have hsK : (size : K) ≠ 0 := by exact_mod_cast hsize.ne'
  have hden : ((pts.length * size : Nat) : K) ≠ 0 := by
    push_cast; exact mul_ne_zero hppK hsK
  have hm' : userPartition G size (.disc d) (partition size) (distribution size) =
      (DataSet.disc d).attach G size t := by
    simp only [userPartition, DataSet.dimOf, hr.houtput, orErr_some, ok_bind, pure_bind_ok,
      hpar size hsize, hdist size hsize, hr.houtDim, raiseIf, ne_eq, not_true_eq_false, or_self,
      if_false, binnedSet_ok hsa hspos hden]
    congr 1
    rw [ht, hp]
    congr 2
    refine List.map_congr_left fun i _ => ?_
    rw [List.map_flatten, List.map_replicate, hits_replicate]
    push_cast
    field_simp
  obtain ⟨ps, d', inp', P, a1, -, a2, a3, a4, a5, a6, a7, a8⟩ :=
    inverse_of_attach hG hsize hne hd hr hrt rfl hpv.1
      (measure := fun ds => userPartition G size ds (partition size) (distribution size)) hm'
  exact ⟨ps, d', P, a1, ⟨a4, inp', a5, a6, a7⟩, a8⟩

theorem hits_pos_at {c : List Nat} {i : Nat} (hi : i < c.length) : 0 < hits c c[i] := by
  unfold hits
  exact List.count_pos_iff.mpr (List.getElem_mem hi)

/-- **C172.** The script of the validation example: the solution is as far from equal probabilities of the samples as the
shares of the points in the cells are from the shares of the outputs, counting the cells that contain outputs. -/
theorem C172_script {G : Geometry K} (hG : Sound G)
    {model : Nat → List (List K) → ModelOutput K} {outDim : Nat}
    {f e : List K → List K} {j : List K → List (List K)} (hm : RowWise model false false f e j)
    {s : Nat → SampleSet K} {v : List (List K)} (hs : HoldSamples s v) (hne : v ≠ [])
    (hf : ∀ row ∈ v, (f row).length = outDim) {samples pts : List (List K)}
    {partition distribution : Nat → DataSet K} (hsa : ∀ row ∈ samples, row.length = outDim)
    (hsne : samples ≠ []) (hpne : pts ≠ [])
    (hpar : ∀ size > 0, (partition size).inputs size = .ok ⟨samples.length, outDim, some samples⟩)
    (hdist : ∀ size > 0, (distribution size).inputs size = .ok ⟨pts.length, outDim, some pts⟩)
    {size : Nat} (hsize : 0 < size) :
    ∃ ps d P, inverseProblem G size model outDim (s size)
        (fun ds => userPartition G size ds (partition size) (distribution size)) = .ok (ps, d) ∧ Solved d ps v P ∧
      l1 P (List.replicate v.length (1 / (v.length : K))) = ((List.range samples.length).map fun k =>
        if 0 < hits (v.map fun x => G.nn 2 samples (f x)) k then
          |(hits (pts.map (G.nn 2 samples)) k : K) / (pts.length : K) -
            (hits (v.map fun x => G.nn 2 samples (f x)) k : K) / (v.length : K)| else 0).sum := by
  obtain ⟨ps, d, P, h1, h2, h3⟩ := user_cells hG hm hs hne hf hsa hsne hpne hpar hdist hsize
  refine ⟨ps, d, P, h1, h2, ?_⟩
  set c := v.map fun x => G.nn 2 samples (f x) with hcdef
  set p := (List.range samples.length).map fun i =>
      (hits (pts.map (G.nn 2 samples)) i : K) / (pts.length : K) with hp
  have hcl : c.length = v.length := by simp [hcdef]
  have hc : ∀ k ∈ c, k < samples.length := by
    intro k hk
    have := h3.range k hk
    simpa [hp] using this
  have hw : (List.replicate v.length (1 : K)).length = v.length := by simp
  have e := sum_by_cells (w := List.replicate v.length (1 : K)) (by simpa using hcl) hc
    fun k => |p.getD k 0 / (hits c k : K) - 1 / (v.length : K)|
  rw [l1_getD h3.length (by simp)]
  have e1 : ((List.range v.length).map fun i => |P.getD i 0 - (List.replicate v.length (1 / (v.length : K))).getD i 0|).sum =
      ((List.range (List.replicate v.length (1 : K)).length).map fun i =>
        |p.getD (c.getD i 0) 0 / (hits c (c.getD i 0) : K) - 1 / (v.length : K)| *
          (List.replicate v.length (1 : K)).getD i 0).sum := by
    rw [hw]
    congr 1
    refine List.map_congr_left fun i hi => ?_
    have hi := List.mem_range.mp hi
    have hic : i < c.length := by omega
    have h4 := h3.share i c[i] (List.getElem?_eq_getElem hic)
    have e2 : P.getD i 0 = p.getD c[i] 0 / (hits c c[i] : K) := by rw [List.getD_eq_getElem?_getD, h4]; rfl
    have e3 : c.getD i 0 = c[i] := by simp [List.getD, List.getElem?_eq_getElem hic]
    rw [e2, e3]
    simp [List.getD_eq_getElem?_getD, hi]
  rw [e1, e]
  congr 1
  refine List.map_congr_left fun k hk => ?_
  have hk := List.mem_range.mp hk
  rw [mass_replicate c v.length hcl, mul_one]
  have ep : p.getD k 0 = (hits (pts.map (G.nn 2 samples)) k : K) / (pts.length : K) := by
    simp [hp, List.getD_eq_getElem?_getD, hk]
  split
  · next h0 =>
    have h5 : (0 : K) < (hits c k : K) := by exact_mod_cast h0
    rw [← ep]
    nth_rewrite 2 [← abs_of_pos h5]
    rw [← abs_mul, sub_mul, div_mul_cancel₀ _ h5.ne', one_div_mul_eq_div]
  · next h0 =>
    rw [Nat.eq_zero_of_not_pos h0]
    simp

/-- **C172.** If the points are the outputs of the samples themselves, every sample gets the same probability, for every
model and every partition. -/
theorem C172_script_own {G : Geometry K} (hG : Sound G)
    {model : Nat → List (List K) → ModelOutput K} {outDim : Nat}
    {f e : List K → List K} {j : List K → List (List K)} (hm : RowWise model false false f e j)
    {s : Nat → SampleSet K} {v : List (List K)} (hs : HoldSamples s v) (hne : v ≠ [])
    (hf : ∀ row ∈ v, (f row).length = outDim) {samples : List (List K)}
    {partition distribution : Nat → DataSet K} (hsa : ∀ row ∈ samples, row.length = outDim) (hsne : samples ≠ [])
    (hpar : ∀ size > 0, (partition size).inputs size = .ok ⟨samples.length, outDim, some samples⟩)
    (hdist : ∀ size > 0, (distribution size).inputs size = .ok ⟨(v.map f).length, outDim, some (v.map f)⟩)
    {size : Nat} (hsize : 0 < size) :
    ∃ ps d, inverseProblem G size model outDim (s size)
        (fun ds => userPartition G size ds (partition size) (distribution size)) = .ok (ps, d) ∧
      Solved d ps v (List.replicate v.length (1 / (v.length : K))) := by
  obtain ⟨ps, d, P, h1, h2, h3⟩ := user_cells hG hm hs hne hf hsa hsne (by simpa using hne) hpar hdist hsize
  refine ⟨ps, d, h1, ?_⟩
  suffices P = List.replicate v.length (1 / (v.length : K)) by rwa [← this]
  set c := v.map fun x => G.nn 2 samples (f x) with hcdef
  have hcl : c.length = v.length := by simp [hcdef]
  have ec : (v.map f).map (G.nn 2 samples) = c := by simp [hcdef]
  apply List.ext_getElem
  · rw [h3.length, List.length_replicate]
  · intro i hi hi'
    have hiv : i < v.length := by simpa using hi'
    have hic : i < c.length := by omega
    have h4 := h3.share i c[i] (List.getElem?_eq_getElem hic)
    have hk : c[i] < samples.length := by
      have := h3.range c[i] (List.getElem_mem hic)
      simpa using this
    rw [List.getElem?_eq_getElem hi] at h4
    have h5 := Option.some.inj h4
    rw [ec] at h5
    have h6 : (0 : K) < (hits c c[i] : K) := by exact_mod_cast hits_pos_at hic
    have h7 : (v.length : K) ≠ 0 := by exact_mod_cast (List.length_pos_of_ne_nil hne).ne'
    rw [h5, List.getElem_replicate]
    simp only [List.getD_eq_getElem?_getD, List.getElem?_map, List.getElem?_range hk, Option.map_some, Option.getD_some,
      List.length_map]
    field_simp

end order

end BET

namespace BET.Ex

open BET.Spec

/-- Volumes 1/8, 3/8, 1/4, 1/4 with outputs in the cells 0, 0, 1, 1: the pushed volumes are recovered. -/
example : solution G 2 (probDiscWith [1/8, 3/8, 1/4, 1/4] [1/2, 1/2, 0]) = some [1/8, 3/8, 1/4, 1/4] :=
  C172_volumes sound_G (by decide) (m := 3) (probDiscWith_fresh (1/8) (3/8) (1/4) (1/4) (1/2) (1/2) 0) (by decide +kernel)
    (by decide +kernel)

/-- Probabilities that are multiples of the volumes in the cells are recovered, others are not. -/
example : solution G 2 (probDiscWith [1/8, 3/8, 1/4, 1/4] [1/4, 3/4, 0]) = some [1/16, 3/16, 3/8, 3/8] :=
  (C172_recovered sound_G (by decide) (m := 3) (w := [1/16, 3/16, 3/8, 3/8])
    (probDiscWith_fresh (1/8) (3/8) (1/4) (1/4) (1/4) (3/4) 0) (by decide +kernel) rfl (by decide +kernel) (by decide +kernel)).mpr
    ⟨fun k => if k = 0 then 1/2 else 3/2, by
      intro i a x u h1 h2 h3
      have hi : i < 4 := (List.getElem?_eq_some_iff.mp h1).1
      interval_cases i <;> (cases h1; cases h2; cases h3; decide +kernel)⟩

example : ¬ solution G 2 (probDiscWith [1/8, 3/8, 1/4, 1/4] [1/4, 3/4, 0]) = some [1/8, 1/8, 3/8, 3/8] := by decide +kernel

/-- Solving again, although the third cell loses its probability. -/
example : solution G 3 (probDiscWith [1/8, 3/8, 1/4, 1/4] [1/4, 1/2, 0]) = some [1/16, 3/16, 1/4, 1/4] :=
  C172_again sound_G (size := 2) (by decide) (by decide) (m := 3) (p := [1/4, 1/2, 1/4])
    (ops' := { dim := 1, glob := { values := some [[0], [1], [7]], probabilities := some [1/4, 1/2, 0] } })
    (probDiscWith_fresh (1/8) (3/8) (1/4) (1/4) (1/4) (1/2) (1/4)) (by decide +kernel) (by decide +kernel)
    ⟨rfl, rfl, rfl, rfl, rfl, rfl⟩ (probDiscWith_fresh (1/8) (3/8) (1/4) (1/4) (1/4) (1/2) 0)
    (by decide +kernel)

example : ∃ P, solution G 2 (probDiscWith [1/8, 3/8, 1/4, 1/4] [1/4, 3/4, 0]) = some P ∧
    l1 P [1/8, 3/8, 1/4, 1/4] = 1/2 := by
  obtain ⟨P, h1, h2⟩ := C172_distance sound_G (size := 2) (by decide)
    (probDiscWith_fresh (1/8) (3/8) (1/4) (1/4) (1/4) (3/4) 0) (by decide +kernel) (by decide +kernel)
  exact ⟨P, h1, h2.trans (by decide +kernel)⟩

/-- The script: outputs 1, 3, 5, 7, 9. -/
example := C172_script (G := G) sound_G wfRowWise wfHold (by simp) (by simp [wfMap])
  (samples := [[2], [8]]) (pts := [[1], [6], [7], [9]]) (partition := fun _ => .array 1 [[2], [8]])
  (distribution := fun _ => .array 1 [[1], [6], [7], [9]]) (by simp) (by simp) (by simp)
  (fun _ _ => rfl) (fun _ _ => rfl) (size := 3) (by norm_num)

example := C172_script_own (G := G) sound_G wfRowWise wfHold (by simp) (by simp [wfMap])
  (samples := [[2], [8]]) (partition := fun _ => .array 1 [[2], [8]])
  (distribution := fun _ => .array 1 [[1], [3], [5], [7], [9]]) (by simp) (by simp)
  (fun _ _ => rfl) (fun _ _ => by norm_num [wfMap]; rfl) (size := 3) (by norm_num)

end BET.Ex
