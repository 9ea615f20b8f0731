import Verif.Model.Clusters
import Verif.Props.Gradients
import Verif.Props.LpSamples
import Verif.Lemmas.CheckNum
import Mathlib.Algebra.Order.Field.Rat

/-!
# C85: clusters of samples around centres (`sample_lp_ball`, `sample_linf_ball`, `sample_l1_ball`)
-/

set_option autoImplicit false
set_option linter.unusedSectionVars false
set_option linter.unusedSimpArgs false

namespace BET

section
variable {K : Type} [Field K] [LinearOrder K]

/-- The point is in the domain, boundary included. -/
def Spec.InClosedBox (D : List (K × K)) (x : List K) : Prop :=
  ∀ (i : Nat) (ab : K × K) (y : K), D[i]? = some ab → x[i]? = some y → ab.1 ≤ y ∧ y ≤ ab.2

open Spec

theorem withinBounds_iff (D : List (K × K)) (x : List K) :
    withinBounds D x = true ↔ InClosedBox D x := by
  unfold withinBounds InClosedBox
  rw [List.all_eq_true]
  constructor
  · intro h i ab y hD hx
    have := h (decide (ab.1 ≤ y) && decide (y ≤ ab.2)) (by
      rw [List.mem_iff_getElem?]
      exact ⟨i, by rw [List.getElem?_zipWith, hD, hx]⟩)
    simpa using this
  · intro h b hb
    obtain ⟨i, hi⟩ := List.mem_iff_getElem?.mp hb
    rw [List.getElem?_zipWith] at hi
    rcases hD : D[i]? with _ | ab
    · rw [hD] at hi; cases hi
    · rcases hx : x[i]? with _ | y
      · rw [hD, hx] at hi; cases hi
      · rw [hD, hx] at hi
        have := h i ab y hD hx
        rw [← Option.some.inj hi]
        simpa using this

open scoped Classical in
/-- How many of the points are in the domain. -/
noncomputable def Spec.nInside (D : List (K × K)) (v : List (List K)) : Nat :=
  v.countP fun x => decide (InClosedBox D x)

theorem nInside_eq (D : List (K × K)) (v : List (List K)) :
    (v.filter (withinBounds D)).length = nInside D v := by
  classical
  rw [nInside, List.countP_eq_length_filter]
  congr 1
  refine List.filter_congr fun x _ => ?_
  by_cases h : InClosedBox D x
  · rw [(withinBounds_iff D x).mpr h, decide_eq_true h]
  · rw [decide_eq_false h]
    by_contra hn
    exact h ((withinBounds_iff D x).mp (by simpa using hn))

/-- `v` is the first `num` points in the domain of the first attempt with so many. -/
def Spec.FirstHits (D : List (K × K)) (num : Nat) (draw : Nat → List (List K)) (v : List (List K)) :
    Prop :=
  ∃ t, (∀ u < t, nInside D (draw u) < num) ∧ num ≤ nInside D (draw t) ∧ v.length = num ∧
    v.Sublist (draw t) ∧ (∀ x ∈ v, InClosedBox D x) ∧
    ∃ rest, (draw t).filter (withinBounds D) = v ++ rest

theorem drawLoop_some {D : List (K × K)} {num : Nat} {draw : Nat → List (List K)} {fuel t : Nat}
    {v : List (List K)} (h : drawLoop D num draw fuel t = some v)
    (hprev : ∀ u < t, nInside D (draw u) < num) : FirstHits D num draw v := by
  induction fuel generalizing t with
  | zero => cases h
  | succ fuel ih =>
    unfold drawLoop at h
    split at h
    · rename_i hle
      have := Option.some.inj h
      subst this
      refine ⟨t, hprev, by rw [← nInside_eq]; exact hle, by rw [List.length_take]; omega, ?_, ?_, ?_⟩
      · exact (List.take_sublist _ _).trans List.filter_sublist
      · intro x hx
        have := List.mem_of_mem_take hx
        rw [List.mem_filter] at this
        exact (withinBounds_iff D x).mp this.2
      · exact ⟨_, (List.take_append_drop num _).symm⟩
    · rename_i hlt
      refine ih h fun u hu => ?_
      rcases Nat.lt_succ_iff_lt_or_eq.mp hu with hu | rfl
      · exact hprev u hu
      · rw [← nInside_eq]; omega

theorem drawLoop_ends {D : List (K × K)} {num : Nat} {draw : Nat → List (List K)} (fuel t : Nat) :
    (∃ v, drawLoop D num draw fuel t = some v) ↔ ∃ u, t ≤ u ∧ u < t + fuel ∧ num ≤ nInside D (draw u) := by
  induction fuel generalizing t with
  | zero =>
    constructor
    · rintro ⟨v, h⟩; cases h
    · rintro ⟨u, h1, h2, -⟩; omega
  | succ fuel ih =>
    unfold drawLoop
    by_cases hle : num ≤ ((draw t).filter (withinBounds D)).length
    · simp only [if_pos hle]
      exact ⟨fun _ => ⟨t, le_rfl, by omega, by rw [← nInside_eq]; exact hle⟩, fun _ => ⟨_, rfl⟩⟩
    · simp only [if_neg hle]
      rw [ih]
      constructor
      · rintro ⟨u, h1, h2, h3⟩; exact ⟨u, by omega, by omega, h3⟩
      · rintro ⟨u, h1, h2, h3⟩
        rcases Nat.eq_or_lt_of_le h1 with rfl | h1
        · rw [← nInside_eq] at h3; exact absurd h3 hle
        · exact ⟨u, h1, by omega, h3⟩

/-- What one cluster is: without a domain the first samples drawn. -/
def Spec.IsCluster (D : Option (List (K × K))) (num : Nat) (draw : Nat → List (List K))
    (v : List (List K)) : Prop :=
  match D with
  | none => v = draw 0
  | some D => FirstHits D num draw v

theorem clusterOf_some {D : Option (List (K × K))} {num : Nat} {draw : Nat → List (List K)} {fuel : Nat}
    {v : List (List K)} (h : clusterOf D num draw fuel = .ok (some v)) : IsCluster D num draw v := by
  unfold clusterOf at h
  split at h
  · cases h
  · rcases D with _ | D
    · exact (Option.some.inj (Except.ok.inj h)).symm
    · exact drawLoop_some (Except.ok.inj h) fun u hu => absurd hu (by omega)

theorem clusterLoop_some {D : Option (List (K × K))} {num fuel : Nat}
    {draw : Nat → Nat → List (List K)} {is : List Nat} {c c' : SampleSet K} {old : List (List K)}
    (hold : c.glob.values = some old) (h : clusterLoop D num draw fuel is c = .ok (some c')) :
    ∃ cl : List (List (List K)), List.Forall₂ (fun i v => IsCluster D num (draw i) v) is cl ∧
      c' = { c with glob := { c.glob with values := some (old ++ cl.flatten) } } := by
  induction is generalizing c old with
  | nil =>
    have := Option.some.inj (Except.ok.inj h)
    subst this
    refine ⟨[], .nil, ?_⟩
    simp only [List.flatten_nil, List.append_nil, ← hold]
  | cons i is ih =>
    unfold clusterLoop at h
    rw [bind_eq_ok] at h
    obtain ⟨new, hnew, h⟩ := h
    rcases new with _ | v
    · cases h
    · simp only [bind_eq_ok] at h
      obtain ⟨c1, hc1, h⟩ := h
      obtain ⟨o, ho, _, rfl⟩ := appendValues_eq_ok.1 hc1
      rw [hold] at ho
      cases ho
      obtain ⟨cl, hcl, rfl⟩ := ih (old := old ++ v) rfl h
      exact ⟨v :: cl, .cons (clusterOf_some hnew) hcl, by simp [List.append_assoc]⟩

theorem isCluster_mem {D : Option (List (K × K))} {num : Nat} {draw : Nat → List (List K)}
    {v : List (List K)} (h : IsCluster D num draw v) : ∀ r ∈ v, ∃ t, r ∈ draw t := by
  rcases D with _ | D
  · have e : v = draw 0 := h
    exact fun r hr => ⟨0, e ▸ hr⟩
  · obtain ⟨t, -, -, -, h1, -⟩ := h
    exact fun r hr => ⟨t, h1.subset hr⟩

theorem clusterLoop_ends {D : Option (List (K × K))} {num fuel : Nat} (hn : num ≠ 0)
    {draw : Nat → Nat → List (List K)} {is : List Nat} {c : SampleSet K} {old : List (List K)}
    (hold : c.glob.values = some old) {dim : Nat} (ho : ∀ r ∈ old, r.length = dim)
    (hd : ∀ i t, ∀ r ∈ draw i t, r.length = dim) :
    (clusterLoop D num draw fuel is c = .ok none ∧ ∃ i ∈ is, clusterOf D num (draw i) fuel = .ok none) ∨
    ((∃ c', clusterLoop D num draw fuel is c = .ok (some c')) ∧
      ∀ i ∈ is, ∃ v, clusterOf D num (draw i) fuel = .ok (some v)) := by
  induction is generalizing c old with
  | nil => exact Or.inr ⟨⟨c, rfl⟩, by simp⟩
  | cons i is ih =>
    have hc : clusterOf D num (draw i) fuel = .ok none ∨
        ∃ v, clusterOf D num (draw i) fuel = .ok (some v) := by
      unfold clusterOf
      rw [if_neg hn]
      rcases D with _ | D
      · exact Or.inr ⟨_, rfl⟩
      · rcases hd : drawLoop D num (draw i) fuel 0 with _ | v
        · exact Or.inl (by simp only [hd])
        · exact Or.inr ⟨v, by simp only [hd]⟩
    rcases hc with hc | ⟨v, hc⟩
    · refine Or.inl ⟨?_, i, List.mem_cons_self, hc⟩
      unfold clusterLoop
      rw [hc, ok_bind]
      rfl
    · have hv : ∀ r ∈ v, r.length = dim := fun r hr => by
        obtain ⟨t, ht⟩ := isCluster_mem (clusterOf_some hc) r hr
        exact hd i t r ht
      have hstep : ∀ r, clusterLoop D num draw fuel (i :: is) c = r ↔
          clusterLoop D num draw fuel is
            { c with glob := { c.glob with values := some (old ++ v) } } = r := by
        intro r
        conv_lhs => unfold clusterLoop
        rw [hc, ok_bind]
        have happ : c.appendValues v =
            .ok { c with glob := { c.glob with values := some (old ++ v) } } :=
          appendValues_eq_ok.2 ⟨old, hold, fun r hr r' hr' => (ho r hr).trans (hv r' hr').symm, rfl⟩
        simp only [happ, ok_bind]
      rcases ih (c := { c with glob := { c.glob with values := some (old ++ v) } }) rfl
        (fun r hr => (List.mem_append.mp hr).elim (ho r) (hv r)) with
        ⟨h1, j, hj, hj'⟩ | ⟨⟨c', h1⟩, h2⟩
      · exact Or.inl ⟨(hstep _).mpr h1, j, List.mem_cons_of_mem _ hj, hj'⟩
      · refine Or.inr ⟨⟨c', (hstep _).mpr h1⟩, ?_⟩
        intro j hj
        rcases List.mem_cons.mp hj with rfl | hj
        · exact ⟨v, hc⟩
        · exact h2 j hj

theorem sampleLpBall_eq {size fuel num : Nat} {s : SampleSet K} {cs : List (List K)}
    (h : Centers s cs) (hc : Consistent s cs.length) (draw : Nat → Nat → List (List K)) :
    sampleLpBall size fuel s num draw =
      clusterLoop s.domain num draw fuel (List.range cs.length)
        { dim := s.dim, domain := s.domain, glob := { values := some cs } } := by
  simp only [sampleLpBall, h.values, orErr_some, ok_bind, SampleSet.checkNum_consistent hc]
  rw [withDomain_ok (s := { dim := s.dim }) h.domain rfl, ok_bind]
  simp only [SampleSet.setValues]
  rw [if_pos (colsOk_of h.cols), ok_bind]

/-- **C85.** If the sampling ends, the new set has the dimension and the domain of the old one; its
values are the centres in their order, followed by one cluster for every centre in the same order. With a
domain each cluster consists of exactly `num_close` samples drawn for that centre, all in the domain: the
first ones of the first attempt that yields enough. Without a domain it is what was drawn first. -/
theorem C85_clusters {size fuel num : Nat} {s c : SampleSet K} {cs : List (List K)}
    (h : Centers s cs) (hc : Consistent s cs.length) {draw : Nat → Nat → List (List K)}
    (hr : sampleLpBall size fuel s num draw = .ok (some c)) :
    ∃ cl : List (List (List K)),
      c = { dim := s.dim, domain := s.domain, glob := { values := some (cs ++ cl.flatten) } } ∧
      cl.length = cs.length ∧
      ∀ (i : Nat) (v : List (List K)), cl[i]? = some v → IsCluster s.domain num (draw i) v := by
  rw [sampleLpBall_eq h hc] at hr
  obtain ⟨cl, hcl, rfl⟩ := clusterLoop_some (old := cs) rfl hr
  have hlen := hcl.length_eq
  rw [List.length_range] at hlen
  refine ⟨cl, rfl, hlen.symm, ?_⟩
  intro i v hv
  have hi := (List.getElem?_eq_some_iff.mp hv).1
  have := (List.forall₂_iff_get.mp hcl).2 i (by rw [List.length_range]; omega) hi
  simpa [(List.getElem?_eq_some_iff.mp hv).2] using this

/-- **C85.** Cluster `i` is found at rows `n + i * num_close` to `n + (i + 1) * num_close - 1`, where `n`
is the number of centres. -/
theorem C85_rows {size fuel num : Nat} {s c : SampleSet K} {cs : List (List K)}
    (h : Centers s cs) (hc : Consistent s cs.length) {draw : Nat → Nat → List (List K)}
    (hd : s.domain = none → ∀ i, (draw i 0).length = num)
    (hr : sampleLpBall size fuel s num draw = .ok (some c)) :
    ∃ vals, c.glob.values = some vals ∧ vals.length = (num + 1) * cs.length ∧
      vals.take cs.length = cs ∧
      ∀ i < cs.length, IsCluster s.domain num (draw i) ((vals.drop (cs.length + i * num)).take num) := by
  obtain ⟨cl, rfl, hlen, hcl⟩ := C85_clusters h hc hr
  have hsize : ∀ v ∈ cl, v.length = num := by
    intro v hv
    obtain ⟨i, hi⟩ := List.mem_iff_getElem?.mp hv
    have := hcl i v hi
    rcases hD : s.domain with _ | D
    · rw [hD] at this
      have e : v = draw i 0 := this
      rw [e]
      exact hd hD i
    · rw [hD] at this
      obtain ⟨t, -, -, h1, -⟩ := this
      exact h1
  have hflat : cl.flatten.length = num * cs.length := by
    rw [← hlen]
    clear hcl hlen hr
    induction cl with
    | nil => simp
    | cons v cl ih =>
      rw [List.flatten_cons, List.length_append, ih fun w hw => hsize w (List.mem_cons_of_mem _ hw),
        hsize v List.mem_cons_self, List.length_cons]
      ring
  refine ⟨_, rfl, by rw [List.length_append, hflat]; ring, by simp, ?_⟩
  intro i hi
  have hi' : i < cl.length := by rw [hlen]; exact hi
  have hblock : ((cs ++ cl.flatten).drop (cs.length + i * num)).take num = cl[i] := by
    rw [← List.drop_drop, List.drop_left]
    clear hcl hlen hr hflat hi
    induction cl generalizing i with
    | nil => simp at hi'
    | cons v cl ih =>
      have hv := hsize v List.mem_cons_self
      rcases i with _ | i
      · simp [hv]
      · have e : (i + 1) * num = v.length + i * num := by rw [hv]; ring
        rw [List.flatten_cons, e, ← List.drop_drop, List.drop_left]
        have := ih (fun w hw => hsize w (List.mem_cons_of_mem _ hw)) i (by
          simpa using hi')
        rw [this, List.getElem_cons_succ]
  rw [hblock]
  exact hcl i _ (List.getElem?_eq_getElem hi')

/-- **C85.** With `num_close` at least 1 and samples of the dimension of the set there is no error. Without a domain the sampling always ends;
with one it ends exactly if for every centre some attempt yields enough samples in the domain. -/
theorem C85_ends {size num : Nat} (hn : num ≠ 0) {s : SampleSet K} {cs : List (List K)}
    (h : Centers s cs) (hc : Consistent s cs.length) (draw : Nat → Nat → List (List K))
    (hdim : ∀ i t, ∀ r ∈ draw i t, r.length = s.dim) :
    (∀ fuel e, sampleLpBall size fuel s num draw ≠ .error e) ∧
    ((∃ fuel c, sampleLpBall size fuel s num draw = .ok (some c)) ↔
      ∀ D, s.domain = some D → ∀ i < cs.length, ∃ t, num ≤ nInside D (draw i t)) := by
  constructor
  · intro fuel e
    rw [sampleLpBall_eq h hc]
    rcases clusterLoop_ends (D := s.domain) (fuel := fuel) hn (draw := draw)
      (is := List.range cs.length)
      (c := { dim := s.dim, domain := s.domain, glob := { values := some cs } }) rfl h.cols hdim with
      ⟨h1, -⟩ | ⟨⟨c', h1⟩, -⟩
    · rw [h1]; exact fun h => (by cases h)
    · rw [h1]; exact fun h => (by cases h)
  · constructor
    · rintro ⟨fuel, c, hr⟩ D hD i hi
      obtain ⟨cl, -, hlen, hcl⟩ := C85_clusters h hc hr
      have hi' : i < cl.length := by rw [hlen]; exact hi
      have := hcl i _ (List.getElem?_eq_getElem hi')
      rw [hD] at this
      obtain ⟨t, -, h2, -⟩ := this
      exact ⟨t, h2⟩
    · intro hall
      have hf : ∃ fuel, ∀ i ∈ List.range cs.length,
          ∃ v, clusterOf s.domain num (draw i) fuel = .ok (some v) := by
        rcases hD : s.domain with _ | D
        · refine ⟨0, fun i _ => ⟨draw i 0, ?_⟩⟩
          simp only [clusterOf, if_neg hn]
        · have hall := hall D hD
          have : ∀ m ≤ cs.length, ∃ fuel, ∀ i < m, ∃ t < fuel, num ≤ nInside D (draw i t) := by
            intro m
            induction m with
            | zero => exact fun _ => ⟨0, fun i hi => absurd hi (by omega)⟩
            | succ m ih =>
              intro hm
              obtain ⟨f, hf⟩ := ih (by omega)
              obtain ⟨t, ht⟩ := hall m (by omega)
              refine ⟨max f (t + 1), fun i hi => ?_⟩
              rcases Nat.lt_succ_iff_lt_or_eq.mp hi with hi | rfl
              · obtain ⟨u, hu, hu'⟩ := hf i hi
                exact ⟨u, lt_of_lt_of_le hu (le_max_left _ _), hu'⟩
              · exact ⟨t, lt_of_lt_of_le (Nat.lt_succ_self t) (le_max_right _ _), ht⟩
          obtain ⟨f, hf⟩ := this cs.length le_rfl
          refine ⟨f, fun i hi => ?_⟩
          obtain ⟨t, ht, ht'⟩ := hf i (List.mem_range.mp hi)
          obtain ⟨v, hv⟩ := (drawLoop_ends (D := D) (num := num) (draw := draw i) f 0).mpr
            ⟨t, by omega, by omega, ht'⟩
          exact ⟨v, by simp only [clusterOf, if_neg hn, hv]⟩
      obtain ⟨fuel, hf⟩ := hf
      refine ⟨fuel, ?_⟩
      rw [sampleLpBall_eq h hc]
      rcases clusterLoop_ends (D := s.domain) (fuel := fuel) hn (draw := draw)
        (is := List.range cs.length)
        (c := { dim := s.dim, domain := s.domain, glob := { values := some cs } }) rfl h.cols hdim with
        ⟨-, i, hi, h2⟩ | ⟨h1, -⟩
      · obtain ⟨v, hv⟩ := hf i hi
        rw [hv] at h2
        cases h2
      · exact h1

/-- **C85 (negation).** Asking for no samples around each centre is an error, not the set of centres. -/
theorem C85_negation_none {size fuel : Nat} {s : SampleSet K} {cs : List (List K)}
    (h : Centers s cs) (hc : Consistent s cs.length) (hne : cs ≠ []) (draw : Nat → Nat → List (List K)) :
    sampleLpBall size fuel s 0 draw = .error .unboundLocal := by
  rw [sampleLpBall_eq h hc]
  obtain ⟨x, xs, rfl⟩ := List.exists_cons_of_ne_nil hne
  rw [List.length_cons, List.range_succ_eq_map]
  rfl

/-- **C85 (negation).** If the samples drawn around some centre never lie in the domain, as with a centre
outside the domain by more than the radius, the sampling never ends. -/
theorem C85_negation_outside {size num : Nat} (hn : num ≠ 0) {s : SampleSet K} {cs : List (List K)}
    (h : Centers s cs) (hc : Consistent s cs.length) {draw : Nat → Nat → List (List K)}
    {D : List (K × K)} (hD : s.domain = some D) {i : Nat} (hi : i < cs.length)
    (hdim : ∀ i t, ∀ r ∈ draw i t, r.length = s.dim)
    (hout : ∀ t, ∀ x ∈ draw i t, ¬ InClosedBox D x) (fuel : Nat) :
    sampleLpBall size fuel s num draw = .ok none := by
  obtain ⟨h1, h2⟩ := C85_ends (size := size) hn h hc draw hdim
  rcases hr : sampleLpBall size fuel s num draw with e | c
  · exact absurd hr (h1 fuel e)
  · rcases c with _ | c
    · rfl
    · exfalso
      obtain ⟨t, ht⟩ := h2.mp ⟨fuel, c, hr⟩ D hD i hi
      have : nInside D (draw i t) = 0 := by
        classical
        rw [nInside, List.countP_eq_zero]
        intro x hx
        simpa using hout t x hx
      omega

end

/-! ### In the ball -/

open Spec

/-- **C85.** If every sample drawn around a centre is a sample of `Lp_generalized_uniform` with that
centre, then every point of its cluster lies in the ball around the centre (and in the domain). -/
theorem C85_in_ball {size fuel num : Nat} {s c : SampleSet ℝ} {cs : List (List ℝ)}
    (h : Centers s cs) (hc : Consistent s cs.length) {draw : Nat → Nat → List (List ℝ)}
    {p : ℝ} (hp : 0 < p) {rad : List ℝ} (hrad : Radii s.dim rad)
    (hdraw : ∀ (i t : Nat) (ci : List ℝ), cs[i]? = some ci → ∀ x ∈ draw i t, ∃ (g e : List ℝ) (r : ℝ),
      g.length = s.dim ∧ e.length = s.dim ∧ 0 ≤ r ∧ r ≤ 1 ∧ lpUniform p g e r rad ci = .ok x)
    (hr : sampleLpBall size fuel s num draw = .ok (some c)) :
    ∃ cl : List (List (List ℝ)), c.glob.values = some (cs ++ cl.flatten) ∧ cl.length = cs.length ∧
      ∀ (i : Nat) (v : List (List ℝ)) (ci : List ℝ), cl[i]? = some v → cs[i]? = some ci →
        ∀ x ∈ v, x.length = s.dim ∧ lpDist p rad ci x ≤ 1 ∧
          ∀ D, s.domain = some D → InClosedBox D x := by
  obtain ⟨cl, rfl, hlen, hcl⟩ := C85_clusters h hc hr
  refine ⟨cl, rfl, hlen, ?_⟩
  intro i v ci hv hci x hx
  have hcluster := hcl i v hv
  have hmem : ∃ t, x ∈ draw i t := by
    rcases hD : s.domain with _ | D
    · rw [hD] at hcluster
      have e : v = draw i 0 := hcluster
      exact ⟨0, e ▸ hx⟩
    · rw [hD] at hcluster
      obtain ⟨t, -, -, -, hsub, -⟩ := hcluster
      exact ⟨t, hsub.subset hx⟩
  obtain ⟨t, hmem⟩ := hmem
  obtain ⟨g, e, r, hg, he, hr0, hr1, hlp⟩ := hdraw i t ci hci x hmem
  obtain ⟨h1, -, h3⟩ := C84_uniform hp hr0 hr1 hg he hrad (h.cols ci (List.mem_of_getElem? hci)) hlp
  refine ⟨h1, h3, fun D hD => ?_⟩
  rw [hD] at hcluster
  obtain ⟨t, -, -, -, -, hin, -⟩ := hcluster
  exact hin x hx

/-! ### The hypotheses are met -/

namespace Ex

/-- Two centres in the unit interval. -/
def ballSet : SampleSet ℚ where
  dim := 1
  domain := some [(0, 1)]
  glob := { values := some [[1 / 10], [1 / 2]] }

/-- The first attempt around the first centre yields too few points. -/
def ballDraw : Nat → Nat → List (List ℚ)
  | 0, 0 => [[-1 / 10], [1 / 5]]
  | 0, _ => [[-1 / 20], [1 / 5], [3 / 10], [1 / 20]]
  | _, _ => [[2 / 5], [3 / 5]]

example : Centers ballSet [[1 / 10], [1 / 2]] :=
  ⟨rfl, by intro c hc; simp at hc; rcases hc with rfl | rfl <;> rfl,
    by intro D hD; cases hD; rfl⟩

example : Consistent ballSet 2 := consistent_of _ _ rfl rfl

example : (sampleLpBall 1 2 ballSet 2 ballDraw).toOption.bind (fun o => o.bind fun c => c.glob.values) =
    some [[1 / 10], [1 / 2], [1 / 5], [3 / 10], [2 / 5], [3 / 5]] := by decide +kernel

end Ex

end BET
