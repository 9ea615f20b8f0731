import Verif.Model.Updated
import Verif.Props.RandomSampling

/-!
# C88: random discretizations (`create_random_discretization`)
-/

set_option autoImplicit false
set_option linter.unusedSectionVars false
set_option linter.unusedSimpArgs false

namespace BET

open Spec

section
variable {K : Type} [Field K]

/-- **C88.** On success the inputs are `n` samples, shared among the processes, whose column `i` was drawn
from the distribution of dimension `i`, and output row `k` is the model's output for input row `k`, on each
process and, if asked for, globally; so are error estimates and Jacobians. -/
theorem C88_pairs {st : Stats K} {size : Nat} (hsize : 0 < size)
    {model : Nat → List (List K) → ModelOutput K} {outDim : Nat} {ee jac : Bool}
    {f e : List K → List K} {j : List K → List (List K)} (hm : RowWise model ee jac f e j)
    (hf : ∀ row, (f row).length = outDim) {rv : RvArg K} {obj : InputObj K} {dim : Nat}
    {D : Option (List (K × K))} (hs : Space obj dim D) {n : Nat} {globalize : Bool} {d : Disc K}
    (h : createRandomDiscretization st size model outDim ee jac rv obj (some n) globalize = .ok d) :
    ∃ specs chunks i o, Distributions dim D rv specs ∧ Drawn st specs n size chunks ∧
      chunks.flatten.length = n ∧ d.input = some i ∧ d.output = some o ∧ i.dim = dim ∧ o.dim = outDim ∧
      i.loc.values = some chunks ∧ o.loc.values = some (chunks.map fun c => c.map f) ∧
      (globalize = true → i.glob.values = some chunks.flatten ∧
        o.glob.values = some (chunks.flatten.map f) ∧
        (ee = true → o.glob.errorEstimates = some (chunks.flatten.map e)) ∧
        (jac = true → i.glob.jacobians = some (chunks.flatten.map j))) ∧
      (globalize = false → i.glob.values = none ∧ o.glob.values = none) := by
  simp only [createRandomDiscretization, orErr_some, ok_bind, bind_eq_ok] at h
  obtain ⟨s, h1, h2⟩ := h
  obtain ⟨specs, chunks, dom, hd, hlen, hdr, hdim, hloc, -, -, htot, hg1, hg2⟩ := C76_draws hsize hs h1
  have hl : s.localized size = .ok s := by simp [SampleSet.localized, hloc]
  rw [computeQoi_sets hm hl hloc (fun ch _ row _ => hf row) globalize] at h2
  have := new_eq_ok h2
  subst this
  refine ⟨specs, chunks, _, _, hd, hdr, htot, rfl, rfl, ?_, ?_, ?_, ?_, ?_, ?_⟩
  · cases globalize <;> exact hdim
  · cases globalize <;> rfl
  · cases globalize <;> exact hloc
  · cases globalize <;> rfl
  · rintro rfl
    refine ⟨?_, ?_, ?_, ?_⟩
    · simp [SampleSet.globalizeIf, SampleSet.localToGlobal, Arrays.map₂, hloc, SampleSet.gatherArr,
        getGlobalValues]
    · simp [SampleSet.localToGlobal, Arrays.map₂, SampleSet.gatherArr, getGlobalValues]
    · rintro rfl
      simp [SampleSet.localToGlobal, Arrays.map₂, SampleSet.gatherArr, getGlobalValues]
    · rintro rfl
      simp [SampleSet.globalizeIf, SampleSet.localToGlobal, Arrays.map₂, SampleSet.gatherArr,
        getGlobalValues]
  · rintro rfl
    exact ⟨rfl, rfl⟩

theorem randomSampleSet_fresh {st : Stats K} {size : Nat} {rv : RvArg K} {obj : InputObj K}
    (hfresh : NoArrays obj) {n : Nat} {t : SampleSet K}
    (h : randomSampleSet st size rv obj n true = .ok t) :
    ∃ chunks, t.glob = { values := some chunks.flatten } ∧ t.loc = { values := some chunks } := by
  simp only [randomSampleSet, bind_eq_ok, pure_eq_ok] at h
  obtain ⟨s, h1, specs, h2, chunks, h3, dom, h4, s2, h5, -, -, -, -, rfl⟩ := h
  obtain ⟨hg, hl⟩ := noArrays_set hfresh h1
  obtain ⟨rfl, -⟩ := setValuesLocal_eq_ok h5
  refine ⟨chunks, ?_, ?_⟩
  · simp [SampleSet.globalizeIf, SampleSet.localToGlobal, Arrays.map₂, hg, hl, SampleSet.gatherArr,
      getGlobalValues]
  · simp [SampleSet.globalizeIf, SampleSet.localToGlobal, hl]

/-- **C88.** For a dimension, a domain or a set without arrays the call succeeds whenever the
distributions are available, and the discretization passes its check with `n` samples. -/
theorem C88_defined {st : Stats K} {size : Nat} (hsize : 0 < size)
    {model : Nat → List (List K) → ModelOutput K} {outDim : Nat} {ee jac : Bool}
    {f e : List K → List K} {j : List K → List (List K)} (hm : RowWise model ee jac f e j)
    (hf : ∀ row, (f row).length = outDim) {rv : RvArg K} {obj : InputObj K} {dim : Nat}
    {D : Option (List (K × K))} (hs : Space obj dim D) (hfresh : NoArrays obj)
    {specs : List (RvSpec K)} (hd : Distributions dim D rv specs) (hav : Available st specs) (n : Nat) :
    ∃ d, createRandomDiscretization st size model outDim ee jac rv obj (some n) true = .ok d ∧
      d.checkNums size = .ok n := by
  obtain ⟨s, h1, h2⟩ := C76_defined_partial (size := size) hsize hs hfresh hd hav n true
  obtain ⟨chunks, hg, hl⟩ := randomSampleSet_fresh hfresh h1
  obtain ⟨specs', chunks', dom, hd', hlen, hdr, hdim, hloc, -, -, htot, hg1, -⟩ := C76_draws hsize hs h1
  have : chunks' = chunks := by
    rw [hl] at hloc
    exact (Option.some.inj hloc).symm
  subst this
  have hloc' : s.localized size = .ok s := by simp [SampleSet.localized, hloc]
  simp only [createRandomDiscretization, orErr_some, ok_bind, h1]
  rw [computeQoi_sets hm hloc' hloc (fun ch _ row _ => hf row) true]
  simp only [SampleSet.globalizeIf, if_true]
  have hi : Consistent (SampleSet.localToGlobal
      ({ s with loc := { s.loc with
          jacobians := if jac then some (chunks'.map fun ch => ch.map j) else s.loc.jacobians } }
        : SampleSet K)) n := by
    simp only [SampleSet.localToGlobal, Arrays.map₂, hg, hl, SampleSet.gatherArr, getGlobalValues]
    refine ⟨⟨?_, nofun, nofun, nofun, ?_, nofun, nofun, nofun, nofun, nofun, nofun, nofun, nofun,
      nofun⟩, ?_, ?_⟩
    · intro w hw
      cases hw
      exact htot
    · intro w hw
      cases jac with
      | false => cases hw
      | true =>
        simp at hw
        rw [← hw, ← List.map_flatten, List.length_map]
        exact htot
    · intro hnp
      have := hnp.values
      cases this
    · intro w hw row hrow
      cases hw
      obtain ⟨c, hc, hrow⟩ := List.mem_flatten.1 hrow
      obtain ⟨r, hr, rfl⟩ := List.getElem_of_mem hc
      have := (hdr.2 r _ (List.getElem?_eq_getElem hr)).2.1 row hrow
      rw [hlen] at this
      exact this.trans hdim.symm
  have ho : Consistent (SampleSet.localToGlobal
      ({ dim := outDim, loc := {
            values := some (chunks'.map fun ch => ch.map f),
            errorEstimates := if ee then some (chunks'.map fun ch => ch.map e) else none } }
            : SampleSet K)) n := by
    simp only [SampleSet.localToGlobal, Arrays.map₂, SampleSet.gatherArr, getGlobalValues]
    refine ⟨⟨?_, nofun, nofun, nofun, nofun, ?_, nofun, nofun, nofun, nofun, nofun, nofun, nofun,
      nofun⟩, ?_, ?_⟩
    · rintro w hw
      cases hw
      rw [← List.map_flatten, List.length_map]
      exact htot
    · cases ee with
      | false => intro w hw; simp [SampleSet.gatherArr] at hw
      | true =>
        intro w hw
        simp [SampleSet.gatherArr, getGlobalValues] at hw
        rw [← hw, ← List.map_flatten, List.length_map]
        exact htot
    · intro hnp
      have := hnp.values
      simp at this
    · intro w hw row hrow
      cases hw
      rw [← List.map_flatten] at hrow
      obtain ⟨r, hr, rfl⟩ := List.mem_map.1 hrow
      exact hf r
  have hck := checkNums_ok (d := { input := some _, output := some _ }) rfl rfl hi ho size
  refine ⟨_, ?_, hck⟩
  unfold Disc.new
  simp only [Option.isSome_some, if_true]
  rw [hck]
  rfl

/-- **C88 (negation).** Leaving out the number of samples, which the signature allows, always fails. -/
theorem C88_negation_default (st : Stats K) (size : Nat) (model : Nat → List (List K) → ModelOutput K)
    (outDim : Nat) (ee jac : Bool) (rv : RvArg K) (obj : InputObj K) (globalize : Bool) :
    createRandomDiscretization st size model outDim ee jac rv obj none globalize =
      .error .attributeError := rfl

end

namespace Ex

example : ((createRandomDiscretization fakeStats 2 twoOut 2 false false (.str "uniform")
    (.domain [(0, 10)]) (some 3) true).toOption.bind fun d => d.output.bind fun o => o.glob.values) =
    some [[0, 1], [2, 2], [2, 2]] := by decide +kernel

example : ∀ row : List ℚ, ([2 * row.getD 0 0, row.getD 0 0 + 1] : List ℚ).length = 2 := fun _ => rfl

end Ex

end BET
