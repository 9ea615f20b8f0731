import Verif.Props.Sampling
import Verif.Props.Choose

/-!
# Sampling the model (C46), random samples (C76), Latin hypercubes (C77)
-/

set_option autoImplicit false
set_option linter.unusedSectionVars false
set_option linter.unusedSimpArgs false

namespace BET

open Spec

section
variable {K : Type} [Field K]

theorem setValuesLocal_eq_ok {s t : SampleSet K} {v : Chunks (List K)}
    (h : s.setValuesLocal v = .ok t) :
    t = { s with loc := { s.loc with values := some v } } ∧
      ∀ c ∈ v, ∀ row ∈ c, row.length = s.dim := by
  unfold SampleSet.setValuesLocal at h
  split at h
  · rename_i hc
    cases h
    refine ⟨rfl, fun c hc' row hrow => ?_⟩
    have := List.all_eq_true.1 hc c hc'
    simp [SampleSet.colsOk] at this
    exact this row hrow
  · cases h

theorem setValuesLocal_ok (s : SampleSet K) (v : Chunks (List K))
    (h : ∀ c ∈ v, ∀ row ∈ c, row.length = s.dim) :
    s.setValuesLocal v = .ok { s with loc := { s.loc with values := some v } } := by
  unfold SampleSet.setValuesLocal
  rw [if_pos]
  rw [List.all_eq_true]
  intro c hc
  simp [SampleSet.colsOk]
  exact h c hc

/-! ### C46 -/

/-- The model works row by row: it returns the outputs `f`, and, where the flags ask for them, the
error estimates `e` and the Jacobians `j` of the rows it is given. -/
def Spec.RowWise (model : Nat → List (List K) → ModelOutput K) (ee jac : Bool)
    (f : List K → List K) (e : List K → List K) (j : List K → List (List K)) : Prop :=
  ∀ r rows, ∃ oe oj, unpack ee jac (model r rows) = .ok (rows.map f, oe, oj) ∧
    (ee = true → oe = some (rows.map e)) ∧ (jac = true → oj = some (rows.map j))

theorem mapM_unpack {model : Nat → List (List K) → ModelOutput K} {ee jac : Bool}
    {f e : List K → List K} {j : List K → List (List K)} (hm : RowWise model ee jac f e j)
    (cs : List (List (List K) × Nat)) :
    ∃ outs, cs.mapM (fun c => unpack ee jac (model c.2 c.1)) = .ok outs ∧
      outs.map (fun o => o.1) = cs.map (fun c => c.1.map f) ∧
      (ee = true → outs.map (fun o => o.2.1) = cs.map (fun c => some (c.1.map e))) ∧
      (jac = true → outs.map (fun o => o.2.2) = cs.map (fun c => some (c.1.map j))) := by
  induction cs with
  | nil => exact ⟨[], rfl, rfl, fun _ => rfl, fun _ => rfl⟩
  | cons c cs ih =>
    obtain ⟨outs, h1, h2, h3, h4⟩ := ih
    obtain ⟨oe, oj, g1, g2, g3⟩ := hm c.2 c.1
    refine ⟨(c.1.map f, oe, oj) :: outs, ?_, by simp [h2], fun he => ?_, fun hj => ?_⟩
    · rw [List.mapM_cons, g1, h1]
      rfl
    · simp [h3 he, g2 he]
    · simp [h4 hj, g3 hj]

theorem mapM_orErr_some {α β : Type} (e : Err) (g : α → β) (l : List α) :
    (l.map fun a => some (g a)).mapM (orErr e) = .ok (l.map g) := by
  induction l with
  | nil => rfl
  | cons a l ih =>
    rw [List.map_cons, List.mapM_cons, ih]
    rfl

theorem zipIdx_map_fst {α β : Type} (l : List α) (k : Nat) (g : α → β) :
    (l.zipIdx k).map (fun c => g c.1) = l.map g := by
  have : (l.zipIdx k).map (fun c => g c.1) = ((l.zipIdx k).map Prod.fst).map g := by
    rw [List.map_map]; rfl
  rw [this, List.zipIdx_map_fst]

/-- The sets that the discretization is made of. -/
theorem computeQoi_sets {size : Nat} {model : Nat → List (List K) → ModelOutput K} {outDim : Nat}
    {ee jac : Bool} {f e : List K → List K} {j : List K → List (List K)}
    (hm : RowWise model ee jac f e j) {s s' : SampleSet K} {c : Chunks (List K)}
    (hl : s.localized size = .ok s') (hc : s'.loc.values = some c)
    (hf : ∀ ch ∈ c, ∀ row ∈ ch, (f row).length = outDim) (globalize : Bool) :
    computeQoi size model outDim ee jac s globalize =
      Disc.new size
        (some (({ s' with loc := { s'.loc with jacobians := if jac then some (c.map fun ch => ch.map j)
          else s'.loc.jacobians } } : SampleSet K).globalizeIf globalize))
        (some (if globalize then ({ dim := outDim, loc := {
            values := some (c.map fun ch => ch.map f),
            errorEstimates := if ee then some (c.map fun ch => ch.map e) else none } }
            : SampleSet K).localToGlobal else { dim := outDim, loc := {
            values := some (c.map fun ch => ch.map f),
            errorEstimates := if ee then some (c.map fun ch => ch.map e) else none } }))
        none none none := by
  obtain ⟨outs, h1, h2, h3, h4⟩ := mapM_unpack hm c.zipIdx
  have h2' : outs.map (fun o => o.1) = c.map fun ch => ch.map f := by
    rw [h2]; exact zipIdx_map_fst c 0 fun ch => ch.map f
  have hset := setValuesLocal_ok ({ dim := outDim } : SampleSet K) (c.map fun ch => ch.map f)
    (fun ch hch row hrow => by
      obtain ⟨ch', hch', rfl⟩ := List.mem_map.1 hch
      obtain ⟨row', hrow', rfl⟩ := List.mem_map.1 hrow
      exact hf _ hch' _ hrow')
  simp only [computeQoi, hl, ok_bind, hc, orErr_some, h1, h2', hset]
  have he : withErrors ee (outs.map fun o => o.2.1) ({ dim := outDim, loc := {
      values := some (c.map fun ch => ch.map f) } } : SampleSet K) = .ok { dim := outDim, loc := {
            values := some (c.map fun ch => ch.map f),
            errorEstimates := if ee then some (c.map fun ch => ch.map e) else none } } := by
    cases ee with
    | false => rfl
    | true =>
      unfold withErrors
      rw [h3 rfl, zipIdx_map_fst c 0 (fun ch => some (ch.map e)),
        mapM_orErr_some _ (fun ch : List (List K) => ch.map e)]
      rfl
  have hj : withJacobians jac (outs.map fun o => o.2.2) s' = .ok { s' with loc := { s'.loc with
      jacobians := if jac then some (c.map fun ch => ch.map j) else s'.loc.jacobians } } := by
    cases jac with
    | false => rfl
    | true =>
      unfold withJacobians
      rw [h4 rfl, zipIdx_map_fst c 0 (fun ch => some (ch.map j)),
        mapM_orErr_some _ (fun ch : List (List K) => ch.map j)]
      rfl
  simp only [he, hj, ok_bind, hc]

/-- The local values agree with the global ones, if there are any. -/
def Spec.LocalCurrent (s : SampleSet K) (v : List (List K)) : Prop :=
  s.loc.values = none ∨ ∃ c, s.loc.values = some c ∧ c.flatten = v

/-- Partial: as long as the local values are those the user set last (or there are none yet), output
row `i` is the model's output for input row `i`, for every number of processes, and the inputs are
unchanged; so are error estimates and Jacobians, if the model returns them. Missing: sets whose
values were replaced after they had been distributed, see `Ex.C46_negation_stale`. -/
theorem C46_pairs_partial {size : Nat} (hsize : 0 < size)
    {model : Nat → List (List K) → ModelOutput K} {outDim : Nat} {ee jac : Bool}
    {f e : List K → List K} {j : List K → List (List K)} (hm : RowWise model ee jac f e j)
    {s : SampleSet K} {v : List (List K)} (hv : s.glob.values = some v) (hcur : LocalCurrent s v)
    (hf : ∀ row ∈ v, (f row).length = outDim) {globalize : Bool} {d : Disc K}
    (h : computeQoi size model outDim ee jac s globalize = .ok d) :
    ∃ i o, d.input = some i ∧ d.output = some o ∧ o.dim = outDim ∧
      (∃ c, c.flatten = v ∧ i.loc.values = some c ∧ o.loc.values = some (c.map fun ch => ch.map f)) ∧
      (globalize = true → i.glob.values = some v ∧ o.glob.values = some (v.map f) ∧
        (ee = true → o.glob.errorEstimates = some (v.map e)) ∧
        (jac = true → i.glob.jacobians = some (v.map j))) := by
  obtain ⟨s', c, hl, hc, hflat⟩ : ∃ s' c, s.localized size = .ok s' ∧ s'.loc.values = some c ∧
      c.flatten = v := by
    rcases hcur with hn | ⟨c, hc, hflat⟩
    · have hl := SampleSet.localized_none size hn
      cases hg : s.globalToLocal size with
      | error er =>
        simp only [computeQoi, hl, hg, error_bind] at h
        cases h
      | ok s' =>
        have hg0 := hg
        simp only [SampleSet.globalToLocal, bind_eq_ok, pure_eq_ok] at hg
        obtain ⟨n, -, rfl⟩ := hg
        refine ⟨_, arraySplit size v, by rw [hl]; exact hg0, ?_, flatten_arraySplit _ _ hsize⟩
        simp [Arrays.map₂, hv, SampleSet.splitArr]
    · exact ⟨s, c, by simp [SampleSet.localized, hc], hc, hflat⟩
  rw [computeQoi_sets hm hl hc (fun ch hch row hrow => hf row (by
    rw [← hflat]; exact List.mem_flatten.2 ⟨ch, hch, hrow⟩)) globalize] at h
  have := new_eq_ok h
  subst this
  refine ⟨_, _, rfl, rfl, ?_, ?_, ?_⟩
  · cases globalize <;> rfl
  · refine ⟨c, hflat, ?_, ?_⟩ <;> cases globalize <;> first | exact hc | rfl
  · rintro rfl
    refine ⟨?_, ?_, ?_, ?_⟩
    · simp [SampleSet.globalizeIf, SampleSet.localToGlobal, Arrays.map₂, hc, SampleSet.gatherArr,
        getGlobalValues, hflat]
    · simp [SampleSet.localToGlobal, Arrays.map₂, SampleSet.gatherArr, getGlobalValues]
      rw [← hflat, List.map_flatten]
    · rintro rfl
      simp [SampleSet.localToGlobal, Arrays.map₂, SampleSet.gatherArr, getGlobalValues]
      rw [← hflat, List.map_flatten]
    · rintro rfl
      simp [SampleSet.globalizeIf, SampleSet.localToGlobal, Arrays.map₂, SampleSet.gatherArr,
        getGlobalValues]
      rw [← hflat, List.map_flatten]

/-- The call succeeds for a consistent set that has not been distributed yet, and the discretization
passes its check. -/
theorem C46_defined {size : Nat} (hsize : 0 < size)
    {model : Nat → List (List K) → ModelOutput K} {outDim : Nat} {ee jac : Bool}
    {f e : List K → List K} {j : List K → List (List K)} (hm : RowWise model ee jac f e j)
    {s : SampleSet K} {n : Nat} (hcons : Consistent s n) {v : List (List K)}
    (hv : s.glob.values = some v) (hloc : s.loc = {}) (hf : ∀ row ∈ v, (f row).length = outDim) :
    ∃ d, computeQoi size model outDim ee jac s true = .ok d ∧ d.checkNums size = .ok n := by
  have hn : s.loc.values = none := by rw [hloc]
  have hl : s.localized size = .ok (s.splitSet size n) := by
    rw [SampleSet.localized_none size hn, SampleSet.globalToLocal_ok hcons]
  have hc : (s.splitSet size n).loc.values = some (arraySplit size v) := by
    simp [SampleSet.splitSet, Arrays.map₂, hv, SampleSet.splitArr]
  have hvl := hcons.1.values v hv
  rw [computeQoi_sets hm hl hc (fun ch hch row hrow => hf row (by
    rw [← flatten_arraySplit size v hsize]; exact List.mem_flatten.2 ⟨ch, hch, hrow⟩)) true]
  simp only [SampleSet.globalizeIf, if_true]
  have key : ∀ (α : Type) (g : Option (List α)),
      SampleSet.gatherArr (SampleSet.splitArr size g none) g = g := by
    rintro α (_ | xs)
    · rfl
    · simp [getGlobalValues, flatten_arraySplit _ _ hsize, SampleSet.splitArr, SampleSet.gatherArr]
  have hi : Consistent (SampleSet.localToGlobal
      ({ s.splitSet size n with
          loc := { (s.splitSet size n).loc with
            jacobians := if jac then some ((arraySplit size v).map fun ch => ch.map j)
              else (s.splitSet size n).loc.jacobians } } : SampleSet K)) n := by
    obtain ⟨h1, h2, h3⟩ := hcons
    simp only [SampleSet.localToGlobal, SampleSet.splitSet, Arrays.map₂, hloc, key]
    refine ⟨⟨h1.values, h1.volumes, h1.probabilities, h1.densities, ?_, h1.errorEstimates, h1.right,
      h1.left, h1.width, h1.kdtreeValues, h1.radii, h1.normalizedRadii, h1.region, h1.errorId⟩,
      ?_, h3⟩
    · cases jac with
      | false => simpa [key] using h1.jacobians
      | true =>
        intro w hw
        simp [SampleSet.gatherArr, getGlobalValues] at hw
        rw [← hw, ← List.map_flatten, flatten_arraySplit _ _ hsize]
        simpa using hvl
    · intro hnp
      have := hnp.values
      simp [hv] at this
  have ho : Consistent (SampleSet.localToGlobal
      ({ dim := outDim, loc := {
            values := some ((arraySplit size v).map fun ch => ch.map f),
            errorEstimates := if ee then some ((arraySplit size v).map fun ch => ch.map e) else none } }
            : SampleSet K)) n := by
    have hov : ∀ g : List K → List K, ((arraySplit size v).map fun ch => ch.map g).flatten
        = v.map g := by
      intro g
      rw [← List.map_flatten, flatten_arraySplit _ _ hsize]
    simp only [SampleSet.localToGlobal, Arrays.map₂, SampleSet.gatherArr, getGlobalValues, hov]
    refine ⟨⟨?_, nofun, nofun, nofun, nofun, ?_, nofun, nofun, nofun, nofun, nofun, nofun, nofun,
      nofun⟩, ?_, ?_⟩
    · rintro w hw
      cases hw
      simpa using hvl
    · cases ee with
      | false => intro w hw; simp [SampleSet.gatherArr] at hw
      | true =>
        intro w hw
        simp [SampleSet.gatherArr, getGlobalValues, hov] at hw
        rw [← hw]
        simpa using hvl
    · intro hnp
      have := hnp.values
      simp at this
    · intro w hw row hrow
      cases hw
      obtain ⟨r, hr, rfl⟩ := List.mem_map.1 hrow
      exact hf r hr
  have hck := checkNums_ok (d := { input := some _, output := some _ }) rfl rfl hi ho size
  refine ⟨_, ?_, hck⟩
  unfold Disc.new
  simp only [Option.isSome_some, if_true]
  rw [hck]
  rfl

end

namespace Ex

/-- The model `x ↦ (2x, x + 1)`. -/
def twoOut : Nat → List (List ℚ) → ModelOutput ℚ :=
  fun _ rows => .array (rows.map fun r => [2 * r.getD 0 0, r.getD 0 0 + 1])

example : Spec.RowWise twoOut false false (fun r => [2 * r.getD 0 0, r.getD 0 0 + 1]) id
    (fun _ => []) := fun _ _ => ⟨none, none, rfl, nofun, nofun⟩

def threePts : SampleSet ℚ := { dim := 1, glob := { values := some [[1], [2], [3]] } }

example : ((computeQoi 2 twoOut 2 false false threePts true).toOption.bind fun d =>
    d.output.bind fun o => o.glob.values) = some [[2, 2], [4, 3], [6, 4]] := by decide +kernel

/-- The three samples have been distributed; then the user replaces them by 10, 20, 30. -/
def replaced : Option (SampleSet ℚ) :=
  (threePts.globalToLocal 2).toOption.bind fun s =>
    (s.setValues [[10], [20], [30]]).toOption

/-- The model is run at the old samples, and the samples the user set are overwritten by the old
ones. -/
theorem C46_negation_stale :
    (replaced.bind fun s => s.glob.values) = some [[10], [20], [30]] ∧
    ((replaced.bind fun s => (computeQoi 2 twoOut 2 false false s true).toOption).bind fun d =>
      d.output.bind fun o => o.glob.values) = some [[2, 2], [4, 3], [6, 4]] ∧
    ((replaced.bind fun s => (computeQoi 2 twoOut 2 false false s true).toOption).bind fun d =>
      d.input.bind fun o => o.glob.values) = some [[1], [2], [3]] := by decide +kernel

end Ex

end BET
