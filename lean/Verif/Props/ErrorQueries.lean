import Verif.Props.Connectivity
import Mathlib.Tactic.Linarith
import Mathlib.Tactic.FieldSimp
import Mathlib.Tactic.Ring

/-!
# Sampling error of regions (C39, C71)
-/

set_option autoImplicit false
set_option linter.unusedSectionVars false
set_option linter.unusedSimpArgs false

namespace BET

open Spec

/-! ### Counting -/

theorem count_map_true {α : Type} (f : α → Bool) (l : List α) :
    (l.map f).count true = l.countP f := by
  induction l with
  | nil => rfl
  | cons a l ih =>
    rw [List.map_cons, List.countP_cons, List.count_cons, ih]
    cases f a <;> rfl

theorem countMask_map {α : Type} (f : α → Bool) (ii : Chunks α) :
    countMask (ii.map fun c => c.map f) = ii.flatten.countP f := by
  unfold countMask allreduceSum
  induction ii with
  | nil => rfl
  | cons c ii ih =>
    rw [List.map_cons, List.map_cons, List.sum_cons, List.flatten_cons, List.countP_append, ih,
      count_map_true]

theorem countP_zip_snd {α β : Type} (f : β → Bool) (a : List α) (b : List β)
    (h : a.length = b.length) : (a.zip b).countP (fun q => f q.2) = b.countP f := by
  have : b = (a.zip b).map Prod.snd := by rw [List.map_snd_zip h.ge]
  conv_rhs => rw [this]
  rw [List.countP_map]
  rfl

theorem count_zipWith_and {β : Type} (f : β → Bool) (a : List Bool) (b : List β) :
    (List.zipWith (· && ·) a (b.map f)).count true =
      (a.zip b).countP (fun q => q.1 && f q.2) := by
  induction a generalizing b with
  | nil => simp
  | cons x a ih =>
    cases b with
    | nil => simp
    | cons y b =>
      rw [List.map_cons, List.zipWith_cons_cons, List.count_cons, ih, List.zip_cons_cons,
        List.countP_cons]
      cases x <;> cases f y <;> rfl

theorem countMask_and {α : Type} (f : α → Bool) (inA : Chunks Bool) (ii : Chunks α)
    (h : SameShape inA ii) :
    countMask (andMask inA (ii.map fun c => c.map f)) =
      (inA.flatten.zip ii.flatten).countP (fun q => q.1 && f q.2) := by
  unfold countMask allreduceSum andMask
  induction h with
  | nil => rfl
  | cons hl _ ih =>
    rw [List.map_cons, List.zipWith_cons_cons, List.map_cons, List.sum_cons, ih,
      List.flatten_cons, List.flatten_cons, List.zip_append hl, List.countP_append,
      count_zipWith_and]

theorem memMask_eq (js : List Nat) (ii : Chunks Nat) :
    memMask js ii = ii.map fun c => c.map fun k => decide (k ∈ js) := by
  unfold memMask
  refine List.map_congr_left fun c _ => ?_
  have : ∀ (js : List Nat) (g : Nat → Bool),
      js.foldl (fun acc j => List.zipWith (· || ·) (npEqual c j) acc) (c.map g) =
        c.map fun k => decide (k ∈ js) || g k := by
    intro js
    induction js with
    | nil => intro g; simp
    | cons j js ih =>
      intro g
      have hz : List.zipWith (· || ·) (npEqual c j) (c.map g) = c.map fun k => (k == j) || g k := by
        rw [npEqual, List.zipWith_map]
        exact List.zipWith_self
      rw [List.foldl_cons, hz, ih]
      refine List.map_congr_left fun k _ => ?_
      by_cases h1 : k = j <;> by_cases h2 : k ∈ js <;> simp [h1, h2]
  have h0 : List.replicate c.length false = c.map fun _ => false := by
    rw [List.map_const']
  rw [h0, this]
  exact List.map_congr_left fun k _ => by simp

/-! ### Queries do not interfere (C39) -/

/-- Two states of the dictionaries that answer every read alike. -/
def SameReads (e e' : Keys) : Prop :=
  (∀ x, e'.B.read x = e.B.read x) ∧ ∀ x, e'.C.read x = e.C.read x

section
variable {K : Type} [Field K] [LinearOrder K] [IsStrictOrderedRing K]

theorem regionTouch_reads (e : Keys) (io : List Nat) (ii : Chunks Nat) (i : Nat) :
    SameReads e (regionTouch e io ii i) := by
  unfold regionTouch
  split
  · exact ⟨fun _ => rfl, fun _ => rfl⟩
  · exact ⟨fun _ => ListDict.read_touch .., fun _ => ListDict.read_touch ..⟩

theorem touch_keeps (d : ListDict) (k x : Nat) (b : List Nat) (h : d x = some b) :
    d.touch k x = some b := by
  unfold ListDict.touch
  split
  · next hx => subst hx; rw [h]; rfl
  · exact h

theorem regionTouch_keeps (e : Keys) (io : List Nat) (ii : Chunks Nat) (i x : Nat)
    (b : List Nat) (h : e.B x = some b) : (regionTouch e io ii i).B x = some b := by
  unfold regionTouch
  split
  · exact h
  · exact touch_keeps _ _ _ _ h

theorem regionLoop_result (io : List Nat) (inA : Chunks Bool) (ii : Chunks Nat) (probs : List K)
    (l : List Nat) (e e' : Keys) (up lo : K) (h : SameReads e e') :
    (regionLoop io inA ii probs l e' up lo).1 = (regionLoop io inA ii probs l e up lo).1 := by
  induction l generalizing e e' up lo with
  | nil => rfl
  | cons i l ih =>
    unfold regionLoop
    split
    · rw [h.1, h.2]
      cases regionTerm (e.B.read i) (e.C.read i) io inA ii i (probs.getD i 0) with
      | none => rfl
      | some t =>
        refine ih _ _ _ _ ?_
        have h1 := regionTouch_reads e io ii i
        have h2 := regionTouch_reads e' io ii i
        exact ⟨fun x => (h2.1 x).trans ((h.1 x).trans (h1.1 x).symm),
          fun x => (h2.2 x).trans ((h.2 x).trans (h1.2 x).symm)⟩
    · exact ih _ _ _ _ h

theorem regionLoop_keys (io : List Nat) (inA : Chunks Bool) (ii : Chunks Nat) (probs : List K)
    (l : List Nat) (e : Keys) (up lo : K) :
    SameReads e (regionLoop io inA ii probs l e up lo).2 ∧
      ∀ x b, e.B x = some b → (regionLoop io inA ii probs l e up lo).2.B x = some b := by
  induction l generalizing e up lo with
  | nil => exact ⟨⟨fun _ => rfl, fun _ => rfl⟩, fun _ _ h => h⟩
  | cons i l ih =>
    have h1 := regionTouch_reads e io ii i
    unfold regionLoop
    split
    · cases regionTerm (e.B.read i) (e.C.read i) io inA ii i (probs.getD i 0) with
      | none => exact ⟨h1, fun x b h => regionTouch_keeps _ _ _ _ _ _ h⟩
      | some t =>
        obtain ⟨h2, h3⟩ := ih (regionTouch e io ii i) (up + t.1) (lo + t.2)
        exact ⟨⟨fun x => (h2.1 x).trans (h1.1 x), fun x => (h2.2 x).trans (h1.2 x)⟩,
          fun x b h => h3 x b (regionTouch_keeps _ _ _ _ _ _ h)⟩
    · exact ih _ _ _

theorem contourLoop_keys (io : List Nat) (vols probs : List K) (l : List Nat) (e : Keys) :
    SameReads e (contourLoop io vols probs e l).2 ∧
      (contourLoop io vols probs e l).2.B = e.B := by
  induction l generalizing e with
  | nil => exact ⟨⟨fun _ => rfl, fun _ => rfl⟩, rfl⟩
  | cons i l ih =>
    obtain ⟨h2, h3⟩ := ih (contourTouch e i (probs.getD i 0))
    rw [contourTouch_B] at h3
    refine ⟨⟨fun x => ?_, fun x => (h2.2 x).trans (contourTouch_C ..)⟩, h3⟩
    refine (h2.1 x).trans ?_
    rw [contourTouch_B]

/-- A call of one of the two methods of `sampling_error`. -/
inductive ErrorQuery (K : Type)
  | contour (vols : List K)
  | region (inA : Chunks Bool) (ii : Chunks Nat)

/-- What a call does to the dictionaries of the object. -/
def ErrorQuery.run (io : List Nat) (probs : List K) (e : Keys) : ErrorQuery K → Keys
  | .contour vols => (contourErrors e io vols probs).2
  | .region inA ii => (regionErrors e io inA ii probs).2

theorem queries_keys (io : List Nat) (probs : List K) (qs : List (ErrorQuery K)) (e : Keys) :
    SameReads e (qs.foldl (ErrorQuery.run io probs) e) ∧
      ∀ x b, e.B x = some b → (qs.foldl (ErrorQuery.run io probs) e).B x = some b := by
  induction qs generalizing e with
  | nil => exact ⟨⟨fun _ => rfl, fun _ => rfl⟩, fun _ _ h => h⟩
  | cons q qs ih =>
    obtain ⟨h1, h2⟩ := ih (ErrorQuery.run io probs e q)
    have : SameReads e (ErrorQuery.run io probs e q) ∧
        ∀ x b, e.B x = some b → (ErrorQuery.run io probs e q).B x = some b := by
      cases q with
      | contour vols =>
        obtain ⟨h, h'⟩ := contourLoop_keys io vols probs (List.range probs.length) e
        exact ⟨h, fun x b hb => by
          show (contourLoop io vols probs e _).2.B x = _
          rw [h']; exact hb⟩
      | region inA ii => exact regionLoop_keys io inA ii probs _ e 0 0
    exact ⟨⟨fun x => (h1.1 x).trans (this.1.1 x), fun x => (h1.2 x).trans (this.1.2 x)⟩,
      fun x b hb => h2 x b (this.2 x b hb)⟩

/-- **C39 (region queries).** The bounds of a region are the same after any sequence of earlier
queries of either kind as on a fresh object. -/
theorem C39_region (io : List Nat) (probs : List K) (e : Keys) (qs : List (ErrorQuery K))
    (inA : Chunks Bool) (ii : Chunks Nat) :
    (regionErrors (qs.foldl (ErrorQuery.run io probs) e) io inA ii probs).1 =
      (regionErrors e io inA ii probs).1 :=
  regionLoop_result _ _ _ _ _ _ _ _ _ (queries_keys io probs qs e).1

/-- **C39 (the whole region method).** The method with its set-up gives the same answer after any
sequence of earlier queries. -/
theorem C39_region_method (G : Geometry K) (size : Nat) (io : List Nat) (probs : List K) (e : Keys)
    (qs : List (ErrorQuery K)) (d : Disc K) (s : SampleSet K) (region : Int)
    (em : Option (SampleSet K)) :
    (samplingRegion G size (qs.foldl (ErrorQuery.run io probs) e) d s region em).map Prod.fst =
      (samplingRegion G size e d s region em).map Prod.fst := by
  have h := (queries_keys io probs qs e).1
  have key : ∀ io' inA ii (probs' : List K),
      (regionErrors (qs.foldl (ErrorQuery.run io probs) e) io' inA ii probs').1 =
        (regionErrors e io' inA ii probs').1 := fun io' inA ii probs' =>
    regionLoop_result _ _ _ _ _ _ _ _ _ h
  have hmap : ∀ {α β γ : Type} (x : Except Err α) (f g : α → Except Err β) (p : β → γ),
      (∀ a, (f a).map p = (g a).map p) → (x >>= f).map p = (x >>= g).map p := by
    intro α β γ x f g p hfg
    cases x with
    | error e => rfl
    | ok a => exact hfg a
  unfold samplingRegion
  refine hmap _ _ _ _ fun inp => ?_
  refine hmap _ _ _ _ fun _ => ?_
  refine hmap _ _ _ _ fun pts => ?_
  refine hmap _ _ _ _ fun d' => ?_
  refine hmap _ _ _ _ fun d'' => ?_
  refine hmap _ _ _ _ fun inA => ?_
  refine hmap _ _ _ _ fun ii => ?_
  refine hmap _ _ _ _ fun io' => ?_
  refine hmap _ _ _ _ fun ops => ?_
  refine hmap _ _ _ _ fun _ => ?_
  refine hmap _ _ _ _ fun probs' => ?_
  show Except.ok _ = Except.ok _
  rw [key]

/-- **C39 (partial, contour events).** After any sequence of earlier queries the bounds of every
contour event that has an interior cell, or has probability zero, are those of a fresh object.
Missing: events of positive probability without interior cells, whose answer changes from `nan`
once a region was asked for (`Ex.C39_negation`), because reading a `defaultdict` inserts the
key. -/
theorem C39_contour_partial (io : List Nat) (vols probs : List K) (e : Keys)
    (qs : List (ErrorQuery K)) (i : Nat)
    (hi : 0 < probs.getD i 0 → ∃ b, e.B i = some b) :
    (contourErrors (qs.foldl (ErrorQuery.run io probs) e) io vols probs).1[i]? =
      (contourErrors e io vols probs).1[i]? := by
  obtain ⟨h1, h2⟩ := queries_keys io probs qs e
  rw [contourErrors_eq, contourErrors_eq, List.getElem?_map, List.getElem?_map]
  cases hr : (List.range probs.length)[i]? with
  | none => rfl
  | some j =>
    have hj : j = i := by
      obtain ⟨hlt, rfl⟩ := List.getElem?_eq_some_iff.1 hr
      simp
    subst hj
    simp only [Option.map_some]
    congr 1
    by_cases hp : 0 < probs.getD j 0
    · obtain ⟨b, hb⟩ := hi hp
      exact contourBound_congr ((h2 j b hb).trans hb.symm) (h1.2 j) _ _ _
    · unfold contourBound
      rw [if_neg hp, if_neg hp]

/-- **C39, contour queries alone** never change an answer. -/
theorem C39_contour_contour (io : List Nat) (vols vols' probs : List K) (e : Keys) :
    (contourErrors (contourErrors e io vols' probs).2 io vols probs).1 =
      (contourErrors e io vols probs).1 := by
  obtain ⟨h1, h2⟩ := contourLoop_keys io vols' probs (List.range probs.length) e
  rw [contourErrors_eq, contourErrors_eq]
  refine List.map_congr_left fun i _ => contourBound_congr ?_ (h1.2 i) _ _ _
  exact congrFun h2 i

end

/-! ### The bounds for regions (C71) -/

section
variable {K : Type} [Field K] [LinearOrder K] [IsStrictOrderedRing K]

namespace Spec

/-- How many of the points (with the flag "in the region" and the cell of the point) satisfy
`P`. -/
def pointCount (pts : List (Bool × Nat)) (P : Bool → Nat → Prop)
    [∀ a c, Decidable (P a c)] : Nat :=
  pts.countP fun q => decide (P q.1 q.2)

end Spec

/-- The contribution of one event, in terms of the emulated points. -/
theorem regionTerm_eq (b c io : List Nat) (inA : Chunks Bool) (ii : Chunks Nat)
    (h : SameShape inA ii) (i : Nat) (p : K) :
    regionTerm b c io inA ii i p =
      if pointCount (inA.flatten.zip ii.flatten) (fun _ k => io[k]? = some i) = 0 ∨
        pointCount (inA.flatten.zip ii.flatten) (fun _ k => k ∈ c) = 0 ∨
        pointCount (inA.flatten.zip ii.flatten) (fun _ k => k ∈ b) = 0 then none
      else
        let cnt := fun (P : Bool → Nat → Prop) [∀ a c, Decidable (P a c)] =>
          (pointCount (inA.flatten.zip ii.flatten) P : K)
        let E : K := cnt (fun a k => a = true ∧ io[k]? = some i) / cnt (fun _ k => io[k]? = some i)
        let t1 := cnt (fun a k => a = true ∧ k ∈ b) / cnt (fun _ k => k ∈ c) - E
        let t2 := cnt (fun a k => a = true ∧ k ∈ c) / cnt (fun _ k => k ∈ b) - E
        some (p * max t1 t2, p * min t1 t2) := by
  have hl := h.length_flatten
  have hev : ∀ k, (npEqual io i).getD k false = decide (io[k]? = some i) := fun k => by
    rw [List.getD_eq_getElem?_getD, npEqual, List.getElem?_map]
    cases io[k]? with
    | none => simp
    | some j => simp only [Option.map_some, Option.getD_some, Option.some.injEq,
        Nat.beq_eq_true_eq, beq_eq_decide]
  have hev' : eventMask io i ii = ii.map fun c => c.map fun k => decide (io[k]? = some i) := by
    unfold eventMask
    exact List.map_congr_left fun c _ => List.map_congr_left fun k _ => hev k
  have c2 : ∀ f : Nat → Bool, countMask (ii.map fun c => c.map f) =
      (inA.flatten.zip ii.flatten).countP (fun q => f q.2) := fun f => by
    rw [countMask_map, countP_zip_snd _ _ _ hl]
  unfold regionTerm
  simp only [hev', memMask_eq, c2, countMask_and _ _ _ h]
  simp only [pointCount, Bool.decide_and, Bool.decide_eq_true]
  split_ifs <;> first | rfl | (exfalso; tauto)

/-- The interior of an event lies in the event, and the event in its cover: the contribution of
the event to the lower bound is not positive, to the upper bound not negative. -/
theorem regionTerm_bracket {b c io : List Nat} {inA : Chunks Bool} {ii : Chunks Nat}
    (h : SameShape inA ii) {i : Nat} {p : K} (hp : 0 ≤ p)
    (hb : ∀ k ∈ ii.flatten, k ∈ b → io[k]? = some i)
    (hc : ∀ k ∈ ii.flatten, io[k]? = some i → k ∈ c)
    {t : K × K} (ht : regionTerm b c io inA ii i p = some t) : t.2 ≤ 0 ∧ 0 ≤ t.1 := by
  rw [regionTerm_eq _ _ _ _ _ h] at ht
  set pts := inA.flatten.zip ii.flatten with hpts
  have hmem : ∀ q ∈ pts, q.2 ∈ ii.flatten := fun q hq => (List.of_mem_zip hq).2
  have mono : ∀ (P Q : Bool → Nat → Prop) [∀ a c, Decidable (P a c)] [∀ a c, Decidable (Q a c)],
      (∀ a k, k ∈ ii.flatten → P a k → Q a k) → pointCount pts P ≤ pointCount pts Q := by
    intro P Q _ _ hPQ
    unfold pointCount
    refine List.countP_mono_left fun q hq hP => ?_
    simp only [decide_eq_true_eq] at hP ⊢
    exact hPQ _ _ (hmem q hq) hP
  split_ifs at ht with h0
  simp only [Option.some.injEq] at ht
  push Not at h0
  obtain ⟨h2, h4, h6⟩ := h0
  have n1 : (pointCount pts (fun a k => a = true ∧ k ∈ b) : K) ≤
      pointCount pts (fun a k => a = true ∧ io[k]? = some i) :=
    Nat.cast_le.2 (mono _ _ fun a k hk hP => ⟨hP.1, hb k hk hP.2⟩)
  have n2 : (pointCount pts (fun _ k => io[k]? = some i) : K) ≤
      pointCount pts (fun _ k => k ∈ c) :=
    Nat.cast_le.2 (mono _ _ fun a k hk hP => hc k hk hP)
  have n3 : (pointCount pts (fun a k => a = true ∧ io[k]? = some i) : K) ≤
      pointCount pts (fun a k => a = true ∧ k ∈ c) :=
    Nat.cast_le.2 (mono _ _ fun a k hk hP => ⟨hP.1, hc k hk hP.2⟩)
  have n4 : (pointCount pts (fun _ k => k ∈ b) : K) ≤
      pointCount pts (fun _ k => io[k]? = some i) :=
    Nat.cast_le.2 (mono _ _ fun a k hk hP => hb k hk hP)
  have p2 : (0 : K) < pointCount pts (fun _ k => io[k]? = some i) :=
    Nat.cast_pos.2 (Nat.pos_of_ne_zero h2)
  have p4 : (0 : K) < pointCount pts (fun _ k => k ∈ c) := Nat.cast_pos.2 (Nat.pos_of_ne_zero h4)
  have p6 : (0 : K) < pointCount pts (fun _ k => k ∈ b) := Nat.cast_pos.2 (Nat.pos_of_ne_zero h6)
  have q1 : (0 : K) ≤ pointCount pts (fun a k => a = true ∧ io[k]? = some i) := Nat.cast_nonneg _
  have t1 : (pointCount pts (fun a k => a = true ∧ k ∈ b) : K) /
      pointCount pts (fun _ k => k ∈ c) -
      (pointCount pts (fun a k => a = true ∧ io[k]? = some i) : K) /
        pointCount pts (fun _ k => io[k]? = some i) ≤ 0 :=
    sub_nonpos.2 (div_le_div₀ q1 n1 p2 n2)
  have t2 : 0 ≤ (pointCount pts (fun a k => a = true ∧ k ∈ c) : K) /
      pointCount pts (fun _ k => k ∈ b) -
      (pointCount pts (fun a k => a = true ∧ io[k]? = some i) : K) /
        pointCount pts (fun _ k => io[k]? = some i) :=
    sub_nonneg.2 (div_le_div₀ (q1.trans n3) n3 p6 n4)
  rw [← ht]
  exact ⟨mul_nonpos_of_nonneg_of_nonpos hp ((min_le_left _ _).trans t1),
    mul_nonneg hp (t2.trans (le_max_right _ _))⟩

theorem regionLoop_bracket (io : List Nat) (inA : Chunks Bool) (ii : Chunks Nat) (probs : List K)
    (h : SameShape inA ii) (l : List Nat) (e : Keys) (up lo : K)
    (hB : ∀ i ∈ l, 0 < probs.getD i 0 → ∀ k ∈ ii.flatten, k ∈ e.B.read i → io[k]? = some i)
    (hC : ∀ i ∈ l, 0 < probs.getD i 0 → ∀ k ∈ ii.flatten, io[k]? = some i → k ∈ e.C.read i)
    {r : K × K} (hr : (regionLoop io inA ii probs l e up lo).1 = some r) :
    r.2 ≤ lo ∧ up ≤ r.1 := by
  induction l generalizing e up lo with
  | nil =>
    simp only [regionLoop, Option.some.injEq] at hr
    subst hr
    exact ⟨le_rfl, le_rfl⟩
  | cons i l ih =>
    unfold regionLoop at hr
    split at hr
    · next hp =>
      cases ht : regionTerm (e.B.read i) (e.C.read i) io inA ii i (probs.getD i 0) with
      | none => rw [ht] at hr; cases hr
      | some t =>
        rw [ht] at hr
        have hsame := regionTouch_reads e io ii i
        have hrec := ih (regionTouch e io ii i) (up + t.1) (lo + t.2)
          (fun j hj hpj k hk hm => hB j (List.mem_cons_of_mem _ hj) hpj k hk
            (by rw [← hsame.1]; exact hm))
          (fun j hj hpj k hk hm => by
            rw [hsame.2]; exact hC j (List.mem_cons_of_mem _ hj) hpj k hk hm) hr
        have hbr := regionTerm_bracket h hp.le (hB i (List.mem_cons_self ..) hp)
          (hC i (List.mem_cons_self ..) hp) ht
        constructor <;> linarith [hrec.1, hrec.2, hbr.1, hbr.2]
    · exact ih e up lo (fun j hj => hB j (List.mem_cons_of_mem _ hj))
        (fun j hj => hC j (List.mem_cons_of_mem _ hj)) hr

/-- **C71 (partial).** For the dictionaries of `boundary_sets`, when every cell of an event of
positive probability has a neighbour in the event, the bounds that
`sampling_error.calculate_for_sample_set_region` returns for any region and any emulated points
bracket zero. Missing: events with isolated cells, where both bounds can be positive
(`Ex.C71_negation_isolated`). -/
theorem C71_region_bracket_partial {num : Nat} {nei : NeiList} {io : List Nat} {e : Keys}
    {inA : Chunks Bool} {ii : Chunks Nat} {probs : List K}
    (he : boundarySets num nei io = .ok e) (h : SameShape inA ii)
    (hii : ∀ k ∈ ii.flatten, k < num)
    (hcov : ∀ i < probs.length, 0 < probs.getD i 0 → ∀ k < num, io[k]? = some i → i ∈ nei k)
    {up lo : K} (hr : (regionErrors e io inA ii probs).1 = some (up, lo)) :
    lo ≤ 0 ∧ 0 ≤ up := by
  obtain ⟨hB, -, -⟩ := boundarySets_eq he
  refine regionLoop_bracket io inA ii probs h _ e 0 0 ?_ ?_ hr
  · intro i _ _ k _ hm
    rw [hB] at hm
    simp only [List.mem_filter, decide_eq_true_eq] at hm
    exact hm.2.1
  · intro i hi hp k hk hio
    exact (C69_covered_iff he (hii k hk)).2 (hcov i (List.mem_range.1 hi) hp k (hii k hk) hio)

end

/-! ### Examples -/

namespace Ex

/-- The five cells of `lineNei`, four emulated points on two processes, the region is the first
two cells. -/
example : ∃ k, boundarySets 5 lineNei lineIo = .ok k ∧
    (regionErrors k lineIo [[true, true], [false, false]] [[0, 1], [2, 4]]
      [(1 : ℚ), 0]).1 = some (1 / 3, 0) := by
  refine ⟨_, rfl, ?_⟩
  decide +kernel

/-- Three cells on a line in the events 0, 1, 1: event 0 has no interior cell. -/
def edgeNei : NeiList := fun i => [[1], [0, 1], [1]].getD i []

/-- **C39 fails in general**: the bound of event 0 is `nan` on a fresh object and infinite after
a region was asked for. -/
theorem C39_negation : ∃ e, boundarySets 3 edgeNei [0, 1, 1] = .ok e ∧
    (contourErrors e [0, 1, 1] [(1 : ℚ), 1, 1] [(1 / 2 : ℚ), 1 / 2]).1[0]? =
      some (.nan, .nan) ∧
    (contourErrors ((regionErrors e [0, 1, 1] [[true, false, false]] [[0, 1, 2]]
      [(1 / 2 : ℚ), 1 / 2]).2) [0, 1, 1] [(1 : ℚ), 1, 1] [(1 / 2 : ℚ), 1 / 2]).1[0]? ≠
      some (.nan, .nan) := by
  refine ⟨_, rfl, ?_, ?_⟩ <;> decide +kernel

/-- Five cells on a line in the events 0, 0, 0, 1, 0: cell 4 is isolated. -/
def isoNei : NeiList := fun i => [[0], [0], [0, 1], [0], [1]].getD i []

/-- **C71 fails in general**: with the isolated cell holding most emulated points, the lower bound
for the region of the first two cells is positive. -/
theorem C71_negation_isolated : ∃ e up lo, boundarySets 5 isoNei [0, 0, 0, 1, 0] = .ok e ∧
    (regionErrors e [0, 0, 0, 1, 0] [[true, true, false, false, false, false, false]]
      [[0, 1, 2, 3, 4, 4, 4]] [(1 : ℚ), 0]).1 = some (up, lo) ∧ 0 < lo := by
  refine ⟨_, 2 / 3, 1 / 6, rfl, ?_, ?_⟩ <;> decide +kernel

end Ex

end BET
