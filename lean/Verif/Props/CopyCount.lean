import Verif.Props.UpdateLimit
import Verif.Props.Fitted

/-!
# C162. How many copies invert_to_random_variable needs
-/

set_option linter.unusedSectionVars false
set_option linter.unusedSimpArgs false
set_option autoImplicit false

namespace BET

open BET.Spec MeasureTheory ProbabilityTheory Filter Topology

namespace Spec

/-- The mean of a function over a list of rows. -/
noncomputable def rowMean (g : List ℝ → ℝ) (vals : List (List ℝ)) : ℝ := (vals.map g).sum / vals.length

end Spec

section fixed

variable {rnd : ℝ → Int} {m : ℕ} {x : List (List ℝ)} {tot : List ℝ}

theorem reweighted_ok (hr : IsRounding rnd) (hpos : ∀ y ∈ tot, 0 ≤ y) (hs : 0 < tot.sum) :
    ∃ vals, reweighted rnd m x tot = .ok vals := by
  have hneg : ((tot.map fun t => rnd ((m : ℝ) * t / tot.sum)).any fun c => decide (c < 0)) = false := by
    rw [List.any_eq_false]
    intro c hc
    obtain ⟨t, ht, rfl⟩ := List.mem_map.1 hc
    have h0 : 0 ≤ (m : ℝ) * t / tot.sum := div_nonneg (mul_nonneg (Nat.cast_nonneg m) (hpos t ht)) hs.le
    have h1 := (abs_le.1 (hr ((m : ℝ) * t / tot.sum))).1
    have h2 : (-1 : ℝ) < (rnd ((m : ℝ) * t / tot.sum) : ℝ) := by linarith
    have h3 : (-1 : Int) < rnd ((m : ℝ) * t / tot.sum) := by exact_mod_cast h2
    simp only [decide_eq_true_eq, not_lt]
    omega
  unfold reweighted npRepeat
  rw [hneg]
  simp [raiseIf, hs.ne', pure, Except.pure, Bind.bind, Except.bind]

theorem sum_copies (copies : ℕ → ℕ) (Y : ℕ → List ℝ) (g : List ℝ → ℝ) (n : ℕ) :
    ((((List.range n).map fun s => List.replicate (copies s) (Y s)).flatten).map g).sum =
      ∑ s ∈ Finset.range n, (copies s : ℝ) * g (Y s) := by
  induction n with
  | zero => simp
  | succ n ih =>
    rw [List.range_succ, List.map_append, List.flatten_append, List.map_append, List.sum_append, ih,
      Finset.sum_range_succ]
    simp

/-- **C162.** If more than half as many copies as samples are asked for, there are copies, and the mean over the copies
of a function bounded by `B` differs from the weighted mean by at most `2 n B / (2 m - n)`. -/
theorem C162_bound (hr : IsRounding rnd) (hl : x.length = tot.length) (hpos : ∀ y ∈ tot, 0 ≤ y) (hs : 0 < tot.sum)
    (hm : x.length < 2 * m) {g : List ℝ → ℝ} {B : ℝ} (hB : ∀ y ∈ x, |g y| ≤ B) :
    ∃ vals, reweighted rnd m x tot = .ok vals ∧ vals ≠ [] ∧
      |rowMean g vals - weightedMeanOf g x tot| ≤ 2 * x.length * B / (2 * m - x.length) := by
  obtain ⟨vals, hv⟩ := reweighted_ok (m := m) (x := x) hr hpos hs
  obtain ⟨copies, h1, h2, h3⟩ := C73_reweighted hr hl hv
  have hm' : (x.length : ℝ) < 2 * m := by exact_mod_cast hm
  have hlen : (m : ℝ) - x.length / 2 ≤ vals.length := by linarith [(abs_le.1 h3).1]
  have hlpos : (0 : ℝ) < vals.length := by linarith
  refine ⟨vals, hv, fun h0 => by rw [h0] at hlpos; simp at hlpos, ?_⟩
  have htot : ∑ t ∈ Finset.range x.length, tot.getD t 0 = tot.sum := by
    rw [hl]
    conv_rhs => rw [list_eq_range_map (l := tot) rfl]
    rw [list_sum_range]
  set p : ℕ → ℝ := fun t => tot.getD t 0 / tot.sum with hp
  have hwm : weightedMeanOf g x tot = ∑ t ∈ Finset.range x.length, p t * g (x.getD t []) := by
    rw [weightedMeanOf, htot, Finset.sum_div]
    exact Finset.sum_congr rfl fun t _ => by rw [hp]; ring
  have hcop : ∀ t ∈ Finset.range x.length, |(copies t : ℝ) - m * p t| ≤ 1 / 2 := by
    intro t ht
    have ht' : t < tot.length := hl ▸ Finset.mem_range.1 ht
    have := h2 t tot[t] (List.getElem?_eq_getElem ht')
    simpa [hp, List.getD_eq_getElem?_getD, List.getElem?_eq_getElem ht'] using this
  have hgb : ∀ t ∈ Finset.range x.length, |g (x.getD t [])| ≤ B := by
    intro t ht
    have ht' := Finset.mem_range.1 ht
    rw [List.getD_eq_getElem?_getD, List.getElem?_eq_getElem ht', Option.getD_some]
    exact hB _ (List.getElem_mem ht')
  have hsum : (vals.map g).sum = ∑ t ∈ Finset.range x.length, (copies t : ℝ) * g (x.getD t []) := by
    rw [h1, sum_copies]
  have hp1 : ∑ t ∈ Finset.range x.length, p t = 1 := by
    simp only [hp]
    rw [← Finset.sum_div, htot, div_self hs.ne']
  have hp0 : ∀ t ∈ Finset.range x.length, 0 ≤ p t := by
    intro t ht
    have ht' : t < tot.length := hl ▸ Finset.mem_range.1 ht
    simp only [hp, List.getD_eq_getElem?_getD, List.getElem?_eq_getElem ht', Option.getD_some]
    exact div_nonneg (hpos _ (List.getElem_mem ht')) hs.le
  have hB0 : 0 ≤ B ∨ x.length = 0 := by
    by_cases h0 : x.length = 0
    · exact .inr h0
    · exact .inl ((abs_nonneg _).trans (hgb 0 (Finset.mem_range.2 (Nat.pos_of_ne_zero h0))))
  rcases hB0 with hB0 | h0
  swap
  · rw [h0] at hp1
    simp at hp1
  have ha : |(vals.map g).sum - m * weightedMeanOf g x tot| ≤ x.length * B / 2 := by
    rw [hsum, hwm, Finset.mul_sum, ← Finset.sum_sub_distrib]
    refine (Finset.abs_sum_le_sum_abs _ _).trans ?_
    have : ∀ t ∈ Finset.range x.length, |(copies t : ℝ) * g (x.getD t []) - m * (p t * g (x.getD t []))| ≤ B / 2 := by
      intro t ht
      rw [← mul_assoc, ← sub_mul, abs_mul]
      calc _ ≤ 1 / 2 * B := mul_le_mul (hcop t ht) (hgb t ht) (abs_nonneg _) (by norm_num)
        _ = B / 2 := by ring
    refine (Finset.sum_le_sum this).trans (le_of_eq ?_)
    rw [Finset.sum_const, Finset.card_range, nsmul_eq_mul]
    ring
  have hb : |weightedMeanOf g x tot| ≤ B := by
    rw [hwm]
    refine (Finset.abs_sum_le_sum_abs _ _).trans ?_
    calc ∑ t ∈ Finset.range x.length, |p t * g (x.getD t [])| ≤ ∑ t ∈ Finset.range x.length, p t * B := by
          refine Finset.sum_le_sum fun t ht => ?_
          rw [abs_mul, abs_of_nonneg (hp0 t ht)]
          exact mul_le_mul_of_nonneg_left (hgb t ht) (hp0 t ht)
      _ = B := by rw [← Finset.sum_mul, hp1, one_mul]
  have hdiff : rowMean g vals - weightedMeanOf g x tot =
      (((vals.map g).sum - m * weightedMeanOf g x tot) + (m - vals.length) * weightedMeanOf g x tot) / vals.length := by
    rw [rowMean]
    field_simp
    ring
  rw [hdiff, abs_div, abs_of_pos hlpos]
  have hnum : |((vals.map g).sum - m * weightedMeanOf g x tot) + (m - vals.length) * weightedMeanOf g x tot| ≤
      x.length * B := by
    refine (abs_add_le _ _).trans ?_
    rw [abs_mul, abs_sub_comm (m : ℝ)]
    have : |(vals.length : ℝ) - m| * |weightedMeanOf g x tot| ≤ x.length / 2 * B :=
      mul_le_mul h3 hb (abs_nonneg _) (by positivity)
    linarith
  calc _ ≤ x.length * B / vals.length := div_le_div_of_nonneg_right hnum hlpos.le
    _ ≤ x.length * B / (m - x.length / 2) := div_le_div_of_nonneg_left (by positivity) (by linarith) hlen
    _ = _ := by
      have h5 : (m : ℝ) - x.length / 2 ≠ 0 := by linarith
      have h6 : (2 * m : ℝ) - x.length ≠ 0 := by linarith
      field_simp

/-- **C162.** If the share of every sample is below half a copy, there are no copies at all. -/
theorem C162_empty (hr : IsRounding rnd) (hl : x.length = tot.length) (hpos : ∀ y ∈ tot, 0 ≤ y) (hs : 0 < tot.sum)
    (hsmall : ∀ y ∈ tot, 2 * m * y < tot.sum) : reweighted rnd m x tot = .ok [] := by
  obtain ⟨vals, hv⟩ := reweighted_ok (m := m) (x := x) hr hpos hs
  obtain ⟨copies, h1, h2, -⟩ := C73_reweighted hr hl hv
  rw [hv, h1]
  congr 1
  rw [List.flatten_eq_nil_iff]
  intro l hl'
  obtain ⟨t, ht, rfl⟩ := List.mem_map.1 hl'
  have ht' : t < tot.length := hl ▸ List.mem_range.1 ht
  have h3 := (abs_le.1 (h2 t tot[t] (List.getElem?_eq_getElem ht'))).2
  have h4 := hsmall _ (List.getElem_mem ht')
  have h5 : (m : ℝ) * (tot[t] / tot.sum) < 1 / 2 := by
    rw [← mul_div_assoc, div_lt_iff₀ hs]
    linarith
  have h6 : (copies t : ℝ) < 1 := by linarith
  have h7 : copies t = 0 := Nat.lt_one_iff.1 (by exact_mod_cast h6)
  rw [h7]
  rfl

/-- What the call returns if the distribution has no shape parameters and the fit gives location and scale. -/
theorem invertRv_ok {F : KdeFit ℝ} {S : RvLib ℝ} {d : ℕ} {ps os : RSet ℝ} {sp : RvSpec ℝ} {vals : List (List ℝ)}
    {loc scale : List ℝ → ℝ} (htot : totalWeights F x.length ps os = .ok tot)
    (hv : reweighted rnd m x tot = .ok vals) (hd : ∀ row ∈ x, row.length = d)
    (hsh : S.shapes sp.name = some []) (hne : vals ≠ [])
    (hfit : ∀ col, col ≠ [] → S.fit sp col = .ok [loc col, scale col]) :
    invertRv F S rnd m d x ps os (.pair sp) = .ok ((List.range d).map fun i =>
      ⟨sp.name, [("loc", loc (vals.map fun row => row.getD i 0)), ("scale", scale (vals.map fun row => row.getD i 0))]⟩) := by
  have hmem : ∀ row ∈ vals, row ∈ x := by
    simp only [reweighted, npRepeat, bind_eq_ok, raiseIf_eq_ok, pure_eq_ok] at hv
    obtain ⟨_, -, _, -, rfl⟩ := hv
    intro row hrow
    obtain ⟨l, hl, hrl⟩ := List.mem_flatten.1 hrow
    obtain ⟨q, hq, hq2⟩ := List.mem_iff_getElem?.1 hl |>.imp fun i hi => by
      rw [List.getElem?_zipWith_eq_some] at hi
      exact hi
    obtain ⟨b, hb1, -, rfl⟩ := hq2
    rw [(List.mem_replicate.1 hrl).2]
    exact List.mem_of_getElem? hb1
  simp only [invertRv, RvArg.perDim, htot, hv, ok_bind]
  refine mapM_ok _ _ _ fun i hi => ?_
  have hi' := List.mem_range.1 hi
  have hcol : (vals.mapM fun row => getIdx row i) = .ok (vals.map fun row => row.getD i 0) := by
    refine mapM_ok _ _ _ fun row hrow => ?_
    have : i < row.length := by rw [hd row (hmem row hrow)]; exact hi'
    rw [getIdx_eq_ok, List.getD_eq_getElem?_getD, List.getElem?_eq_getElem this]
    rfl
  simp only [fitDim]
  rw [(getIdx_eq_ok _ _ _).2 (show (List.replicate d sp)[i]? = some sp by simp [hi']), ok_bind, hsh]
  simp only [orErr, ok_bind]
  rw [hcol, ok_bind, hfit _ (by simpa using hne)]
  rfl

/-- The call raises if there are no copies and the fit raises without data. -/
theorem invertRv_empty {F : KdeFit ℝ} {S : RvLib ℝ} {d : ℕ} {ps os : RSet ℝ} {sp : RvSpec ℝ} {e : Err}
    (htot : totalWeights F x.length ps os = .ok tot) (hv : reweighted rnd m x tot = .ok []) (hd : 0 < d)
    {sh : List String} (hsh : S.shapes sp.name = some sh) (hfit : S.fit sp [] = .error e) :
    invertRv F S rnd m d x ps os (.pair sp) = .error e := by
  obtain ⟨d, rfl⟩ : ∃ d', d = d' + 1 := ⟨d - 1, by omega⟩
  simp only [invertRv, RvArg.perDim, htot, hv, ok_bind]
  rw [List.range_succ_eq_map, List.mapM_cons]
  simp only [fitDim]
  rw [(getIdx_eq_ok _ _ _).2 (show (List.replicate (d + 1) sp)[0]? = some sp by simp), ok_bind, hsh]
  simp only [orErr, ok_bind, List.mapM_nil]
  show ((S.fit sp [] >>= _) >>= _) = _
  rw [hfit]
  rfl

end fixed

section limit

variable {Ω : Type} [MeasurableSpace Ω] {P : Measure Ω} [IsProbabilityMeasure P] {d : ℕ} {μ : Measure (Fin d → ℝ)}
  {Q : (Fin d → ℝ) → List ℝ} {label : (Fin d → ℝ) → ℕ} {N : ℕ} {X : ℕ → Ω → Fin d → ℝ} {ps os : ℕ → Ω → RSet ℝ}
  {lo : ℕ → Ω → List Int} {share : ℕ → ℝ} {F : KdeFit ℝ} {r : (Fin d → ℝ) → ℝ} {rnd : ℝ → Int} {m : ℕ → ℕ}

theorem meanOf_moment (n : ℕ) (Y : ℕ → Fin d → ℝ) {tot : List ℝ} (ht : tot.length = n) (g : List ℝ → ℝ) :
    weightedMeanOf g (inputRows Y n) tot = momentOf g (inputRows Y n) tot := by
  rw [inputRows, moment_pooled n (fun t => List.ofFn (Y t)) ht, weightedMeanOf]
  simp only [List.length_map, List.length_range]
  congr 1
  refine Finset.sum_congr rfl fun t ht => ?_
  rw [List.getD_eq_getElem?_getD (l := (List.range n).map _), List.getElem?_map,
    List.getElem?_range (Finset.mem_range.1 ht)]
  rfl

/-- **C162.** If `num_reweighted` grows faster than the number of samples, the mean over the copies that the
distributions are fitted to tends to the mean with the density `r` in every cluster and the shares of the clusters. -/
theorem C162_limit (hF : ∀ pts w x, 0 < F pts w x) (h : GrowingProblem P μ Q label N X ps os lo share)
    (hr : RatiosConverge P F μ r X ps os)
    (hmass : 0 < ∑ j ∈ Finset.range N, share j * ∫ z in {z | label z = j}, r z ∂μ)
    (hrnd : IsRounding rnd) (hm : Tendsto (fun n => (m n : ℝ) / n) atTop atTop)
    {g : List ℝ → ℝ} (hg : Measurable fun z : Fin d → ℝ => g (List.ofFn z)) {B : ℝ}
    (hB : ∀ᵐ z ∂μ, |g (List.ofFn z)| ≤ B) : ∀ᵐ ω ∂P, ∃ (tot : ℕ → List ℝ) (vals : ℕ → List (List ℝ)),
    (∀ᶠ n in atTop, totalWeights F n (ps n ω) (os n ω) = .ok (tot n) ∧
      reweighted rnd (m n) (inputRows (fun t => X t ω) n) (tot n) = .ok (vals n) ∧ vals n ≠ []) ∧
    Tendsto (fun n => rowMean g (vals n)) atTop (𝓝 (pooledMean μ r label N share fun z => g (List.ofFn z))) := by
  filter_upwards [totals_ae hF h, pooled_moment h hr hmass hg hB, bounded_ae h.law hB] with ω htot hmom hbd
  obtain ⟨tot, htot⟩ := htot
  have hlim := hmom tot (htot.mono fun n hn => ⟨hn.2.1, hn.2.2.2.2⟩)
  have hcond : ∀ᶠ n in atTop, ∃ vals, reweighted rnd (m n) (inputRows (fun t => X t ω) n) (tot n) = .ok vals ∧
      vals ≠ [] ∧ |rowMean g vals - momentOf g (inputRows (fun t => X t ω) n) (tot n)| ≤
        2 * B / (2 * ((m n : ℝ) / n) - 1) := by
    filter_upwards [htot, hm.eventually_ge_atTop 1, eventually_gt_atTop 0] with n hn hmn hn0
    have hn' : (0 : ℝ) < n := by exact_mod_cast hn0
    have hl : (inputRows (fun t => X t ω) n).length = n := by simp [inputRows]
    rw [le_div_iff₀ hn', one_mul] at hmn
    have hmn' : n ≤ m n := by exact_mod_cast hmn
    obtain ⟨vals, h1, h2, h3⟩ := C162_bound (m := m n) (g := g) (B := B) hrnd (x := inputRows (fun t => X t ω) n)
      (hl.trans hn.2.1.symm) (fun y hy => (hn.2.2.2.1 y hy).le) hn.2.2.1 (by omega) (by
        intro y hy
        obtain ⟨t, -, rfl⟩ := List.mem_map.1 hy
        exact hbd t)
    refine ⟨vals, h1, h2, ?_⟩
    rw [meanOf_moment n _ hn.2.1, hl] at h3
    refine h3.trans (le_of_eq ?_)
    have h5 : (2 * m n : ℝ) - n ≠ 0 := by
      have : (n : ℝ) ≤ m n := hmn
      nlinarith
    have h6 : 2 * ((m n : ℝ) / n) - 1 ≠ 0 := by
      intro h0
      apply h5
      field_simp at h0
      linarith
    field_simp
  have hex : ∀ n, ∃ vals, (∃ vals, reweighted rnd (m n) (inputRows (fun t => X t ω) n) (tot n) = .ok vals ∧
      vals ≠ [] ∧ |rowMean g vals - momentOf g (inputRows (fun t => X t ω) n) (tot n)| ≤
        2 * B / (2 * ((m n : ℝ) / n) - 1)) → reweighted rnd (m n) (inputRows (fun t => X t ω) n) (tot n) = .ok vals ∧
      vals ≠ [] ∧ |rowMean g vals - momentOf g (inputRows (fun t => X t ω) n) (tot n)| ≤
        2 * B / (2 * ((m n : ℝ) / n) - 1) := by
    intro n
    by_cases hc : ∃ vals, reweighted rnd (m n) (inputRows (fun t => X t ω) n) (tot n) = .ok vals ∧
      vals ≠ [] ∧ |rowMean g vals - momentOf g (inputRows (fun t => X t ω) n) (tot n)| ≤
        2 * B / (2 * ((m n : ℝ) / n) - 1)
    · obtain ⟨vals, hv⟩ := hc
      exact ⟨vals, fun _ => hv⟩
    · exact ⟨[], fun h1 => absurd h1 hc⟩
  choose vals hvals using hex
  have hgood := hcond.mono hvals
  refine ⟨tot, vals, ?_, ?_⟩
  · filter_upwards [hgood, htot] with n h1 h2
    exact ⟨h2.1, h1.1, h1.2.1⟩
  · have h0 : Tendsto (fun n => 2 * B / (2 * ((m n : ℝ) / n) - 1)) atTop (𝓝 0) := by
      refine Tendsto.div_atTop tendsto_const_nhds ?_
      exact tendsto_atTop_add_const_right _ _ (hm.const_mul_atTop two_pos)
    have h1 : Tendsto (fun n => rowMean g (vals n) - momentOf g (inputRows (fun t => X t ω) n) (tot n)) atTop (𝓝 0) :=
      squeeze_zero_norm' (hgood.mono fun n hn => by rw [Real.norm_eq_abs]; exact hn.2.2) h0
    have := h1.add hlim
    rw [zero_add] at this
    exact this.congr fun n => by ring

/-- **C162.** For a distribution whose location is fitted by the mean, such as the normal distribution, the call then
succeeds and the locations tend to these means of the parameters. -/
theorem C162_location (hF : ∀ pts w x, 0 < F pts w x) (h : GrowingProblem P μ Q label N X ps os lo share)
    (hr : RatiosConverge P F μ r X ps os)
    (hmass : 0 < ∑ j ∈ Finset.range N, share j * ∫ z in {z | label z = j}, r z ∂μ)
    (hrnd : IsRounding rnd) (hm : Tendsto (fun n => (m n : ℝ) / n) atTop atTop) {B : ℝ}
    (hB : ∀ᵐ z ∂μ, ∀ i, |z i| ≤ B) {S : RvLib ℝ} {sp : RvSpec ℝ} (hsh : S.shapes sp.name = some [])
    {scale : List ℝ → ℝ} (hfit : ∀ col, col ≠ [] → S.fit sp col = .ok [col.sum / (col.length : ℝ), scale col]) :
    ∀ᵐ ω ∂P, ∃ loc sc : ℕ → ℕ → ℝ,
      (∀ᶠ n in atTop, invertRv F S rnd (m n) d (inputRows (fun t => X t ω) n) (ps n ω) (os n ω) (.pair sp) =
        .ok ((List.range d).map fun i => ⟨sp.name, [("loc", loc n i), ("scale", sc n i)]⟩)) ∧
      ∀ i : Fin d, Tendsto (fun n => loc n i) atTop (𝓝 (pooledMean μ r label N share fun z => z i)) := by
  have hm1 : ∀ᵐ ω ∂P, ∀ i : Fin d, _ := ae_all_iff.2 fun i : Fin d =>
    C162_limit hF h hr hmass hrnd hm (g := fun y => y.getD i 0) (coordinate_measurable i) (B := B)
      (hB.mono fun z hz => by rw [getD_coordinate]; exact hz i)
  have hm0 := C162_limit hF h hr hmass hrnd hm (g := fun _ => 0) measurable_const (B := 0) (by simp)
  filter_upwards [hm0, hm1] with ω h0 h1
  obtain ⟨tot, vals, hv, -⟩ := h0
  refine ⟨fun n i => rowMean (fun y => y.getD i 0) (vals n), fun n i => scale ((vals n).map fun y => y.getD i 0), ?_,
    fun i => ?_⟩
  · filter_upwards [hv] with n hn
    have hl : (inputRows (fun t => X t ω) n).length = n := by simp [inputRows]
    rw [invertRv_ok (tot := tot n) (loc := fun col => col.sum / (col.length : ℝ)) (by rw [hl]; exact hn.1) hn.2.1
      (fun row hrow => by obtain ⟨t, -, rfl⟩ := List.mem_map.1 hrow; simp) hsh hn.2.2 hfit]
    simp only [rowMean, List.length_map]
  · obtain ⟨tot', vals', hv', hlim⟩ := h1 i
    simp only [getD_coordinate] at hlim
    refine hlim.congr' ?_
    filter_upwards [hv, hv'] with n hn hn'
    have e1 : tot n = tot' n := Except.ok.inj (hn.1.symm.trans hn'.1)
    have e2 := hn.2.1
    rw [e1, hn'.2.1] at e2
    rw [Except.ok.inj e2]

/-- **C162.** If the ratios are bounded and `num_reweighted` does not grow with the number of samples (or more slowly),
then for all large numbers of samples there are no copies, and the call raises what the fit raises without data. -/
theorem C162_vanish (hF : ∀ pts w x, 0 < F pts w x) (h : GrowingProblem P μ Q label N X ps os lo share)
    (hr : RatiosConverge P F μ r X ps os)
    (hmass : 0 < ∑ j ∈ Finset.range N, share j * ∫ z in {z | label z = j}, r z ∂μ) {C : ℝ}
    (hC : ∀ᵐ ω ∂P, ∀ᶠ n in atTop, ∀ y ∈ storedWeights F (ps n ω) (os n ω), y ≤ C)
    (hrnd : IsRounding rnd) (hm : Tendsto (fun n => (m n : ℝ) / n) atTop (𝓝 0)) (hd : 0 < d) {S : RvLib ℝ}
    {sp : RvSpec ℝ} {sh : List String} (hsh : S.shapes sp.name = some sh) {e : Err} (hfit : S.fit sp [] = .error e) :
    ∀ᵐ ω ∂P, ∀ᶠ n in atTop,
      invertRv F S rnd (m n) d (inputRows (fun t => X t ω) n) (ps n ω) (os n ω) (.pair sp) = .error e := by
  have h2 := ae_all_iff.2 fun j => stored_cluster h hr (g := fun _ => 1) measurable_const (B := 1) (by simp) j
  filter_upwards [totals_ae hF h, h2, h.obs_share, hC, inverted_ae hF h] with ω htot h2 h3 hC hinv
  obtain ⟨tot, htot⟩ := htot
  simp only [one_mul, mul_one] at h2
  have hden := tendsto_finsetSum (Finset.range N) fun j hj => (h3 j (Finset.mem_range.1 hj)).mul (h2 j)
  set M := ∑ j ∈ Finset.range N, share j * ∫ z in {z | label z = j}, r z ∂μ with hM
  have hsum : Tendsto (fun n => (tot n).sum / n) atTop (𝓝 M) := by
    refine hden.congr' ?_
    filter_upwards [htot] with n hn
    have e1 : (tot n).sum = ∑ t ∈ Finset.range n, (tot n).getD t 0 := by
      conv_lhs => rw [list_eq_range_map hn.2.1]
      rw [list_sum_range]
    simp only [← mul_div_assoc]
    rw [← Finset.sum_div, e1]
    congr 1
    simp only [Finset.mul_sum]
    rw [Finset.sum_comm]
    refine Finset.sum_congr rfl fun t ht => ?_
    rw [hn.2.2.2.2 t (Finset.mem_range.1 ht)]
    simp only [mul_ite, mul_zero]
    rw [Finset.sum_ite_eq, if_pos (Finset.mem_range.2 (h.label_lt _))]
    ring
  have hsmall : Tendsto (fun n => 2 * ((m n : ℝ) / n) * C) atTop (𝓝 0) := by
    have := (hm.const_mul 2).mul_const C
    simpa using this
  have hlt := hsmall.eventually_lt hsum hmass
  filter_upwards [htot, hC, hinv, hlt, eventually_gt_atTop 0] with n hn hc hi hlt hn0
  obtain ⟨k, st, -, -, hwl, hwp, -⟩ := hi
  have hn' : (0 : ℝ) < n := by exact_mod_cast hn0
  have hl : (inputRows (fun t => X t ω) n).length = n := by simp [inputRows]
  refine invertRv_empty (by rw [hl]; exact hn.1) (C162_empty hrnd (hl.trans hn.2.1.symm)
    (fun y hy => (hn.2.2.2.1 y hy).le) hn.2.2.1 fun y hy => ?_) hd hsh hfit
  have hy2 : y ≤ C := by
    obtain ⟨t, ht⟩ := List.mem_iff_getElem?.1 hy
    have htn : t < n := by rw [← hn.2.1]; exact (List.getElem?_eq_some_iff.1 ht).1
    have h5 := hn.2.2.2.2 t htn
    rw [List.getD_eq_getElem?_getD, ht, Option.getD_some] at h5
    have htw : t < (storedWeights F (ps n ω) (os n ω)).length := by rw [hwl]; exact htn
    have h6 := hc _ (List.getElem_mem htw)
    have h7 := hwp _ (List.getElem_mem htw)
    rw [List.getD_eq_getElem?_getD, List.getElem?_eq_getElem htw, Option.getD_some] at h5
    have h8 : ((lo n ω).count (label (X t ω) : Int) : ℝ) / (os n ω).values.length ≤ 1 := by
      refine div_le_one_of_le₀ ?_ (Nat.cast_nonneg _)
      rw [← h.obs_length n ω]
      exact_mod_cast List.count_le_length
    rw [h5]
    calc _ ≤ (storedWeights F (ps n ω) (os n ω))[t] * 1 := mul_le_mul_of_nonneg_left h8 h7.le
      _ ≤ C := by rw [mul_one]; exact h6
  have h9 : 2 * (m n : ℝ) * C < (tot n).sum := by
    rw [lt_div_iff₀ hn'] at hlt
    calc 2 * (m n : ℝ) * C = 2 * ((m n : ℝ) / n) * C * n := by field_simp
      _ < _ := hlt
  refine lt_of_le_of_lt ?_ h9
  exact mul_le_mul_of_nonneg_left hy2 (by positivity)

end limit

/-! ### Non-vacuity, and weights that are lost -/

namespace Ex

/-- A normal distribution, whose fit raises without data. -/
noncomputable def meanLib : RvLib ℝ where
  shapes name := if name = "norm" then some [] else none
  fit _ col := if col = [] then .error .valueError else .ok [col.sum / (col.length : ℝ), 1]

theorem round_isRounding : IsRounding (round : ℝ → ℤ) := fun y => by rw [abs_sub_comm]; exact abs_sub_round y

/-- The same inputs: with `n ^ 2` copies the locations converge, with 10000 copies the call raises in the end. -/
example : ∃ (Ω : Type) (_ : MeasurableSpace Ω) (P : Measure Ω) (X : ℕ → Ω → Fin 1 → ℝ), IsProbabilityMeasure P ∧
    (∀ᵐ ω ∂P, ∃ loc sc : ℕ → ℕ → ℝ,
      (∀ᶠ n in atTop, invertRv quarterFit meanLib round (n ^ 2) 1 (inputRows (fun t => X t ω) n)
        (quarterPred (fun t => X t ω) n) quarterObs (.pair ⟨"norm", []⟩) =
        .ok ((List.range 1).map fun i => ⟨"norm", [("loc", loc n i), ("scale", sc n i)]⟩)) ∧
      ∀ i : Fin 1, Tendsto (fun n => loc n i) atTop
        (𝓝 (pooledMean lineLaw (fun z => quarterDensity (z 0)) quarterLabel 2 (fun _ => 1 / 2) fun z => z i))) ∧
    ∀ᵐ ω ∂P, ∀ᶠ n in atTop, invertRv quarterFit meanLib round 10000 1 (inputRows (fun t => X t ω) n)
      (quarterPred (fun t => X t ω) n) quarterObs (.pair ⟨"norm", []⟩) = .error .valueError := by
  obtain ⟨Ω, hΩ, P, X, hP, hX, hind⟩ := lineInputs
  have hpos : 0 < ∑ j ∈ Finset.range 2, (1 / 2 : ℝ) *
      ∫ z in {z | quarterLabel z = j}, quarterDensity (z 0) ∂lineLaw :=
    Finset.sum_pos (fun j hj => mul_pos (by norm_num)
      ((C161_consistent (share := fun _ => 0) quarter_density (h := fun _ => 0) measurable_const).1 j
        (Finset.mem_range.1 hj)).1) ⟨0, by simp⟩
  have hg := quarter_growing hX hind
  refine ⟨Ω, hΩ, P, X, hP, ?_, ?_⟩
  · refine C162_location (m := fun n => n ^ 2) quarterFit_pos hg (quarter_ratios hX hind) hpos round_isRounding ?_
      line_bounded (S := meanLib) (sp := ⟨"norm", []⟩) (by simp [meanLib]) (scale := fun _ => 1) (fun col hc => by
        simp [meanLib, hc])
    refine (tendsto_natCast_atTop_atTop (R := ℝ)).congr' ?_
    filter_upwards [eventually_gt_atTop 0] with n hn
    have hn' : (n : ℝ) ≠ 0 := by exact_mod_cast hn.ne'
    push_cast
    field_simp
  · refine C162_vanish (m := fun _ => 10000) quarterFit_pos hg (quarter_ratios hX hind) hpos (C := 3)
      (stored_bounded quarterFit_pos hg ?_) round_isRounding ?_ one_pos (S := meanLib) (sp := ⟨"norm", []⟩) (sh := [])
      (by simp [meanLib]) (by simp [meanLib])
    · intro pts pts' w x
      rw [div_le_iff₀ (quarterFit_pos _ _ _)]
      cases w with
      | none =>
        show quarterDensity _ ≤ 3 * quarterDensity _
        linarith [quarterDensity_bounds (x.getD 0 0)]
      | some w =>
        show quarterDensity _ ≤ 3 * 1
        linarith [quarterDensity_bounds (x.getD 0 0)]
    · exact tendsto_const_div_atTop_nhds_zero_nat _

/-- The hypotheses of the bound with three samples and seven copies. -/
example : ∃ vals, reweighted (round : ℝ → ℤ) 7 [[0], [1], [2]] [1, 2, 1] = .ok vals ∧ vals ≠ [] ∧
    |rowMean (fun y => y.getD 0 0) vals - weightedMeanOf (fun y => y.getD 0 0) [[0], [1], [2]] [1, 2, 1]| ≤
      2 * 3 * 2 / (2 * 7 - 3) := by
  have := C162_bound (m := 7) (x := [[0], [1], [2]]) (tot := [1, 2, 1]) round_isRounding rfl
    (by intro y hy; simp at hy; rcases hy with rfl | rfl | rfl <;> norm_num) (by norm_num) (by simp)
    (g := fun y => y.getD 0 0) (B := 2)
    (by intro y hy; simp at hy; rcases hy with rfl | rfl | rfl <;> norm_num)
  simpa using this

/-- **Negation of C162.** With as many copies as samples the weights can be lost entirely: the weights are 7 to 3, but
both samples are used once, so that the mean is that without weights. -/
theorem C162_negation_lost : ∃ rnd : ℚ → ℤ, IsRounding rnd ∧
    (reweighted rnd 2 [[0], [1]] [7/10, 3/10]).toOption = some [[0], [1]] ∧
    (reweighted rnd 2 [[0], [1]] [1/2, 1/2]).toOption = some [[0], [1]] :=
  ⟨rnd, isRounding_rnd, by decide +kernel, by decide +kernel⟩

end Ex

end BET
