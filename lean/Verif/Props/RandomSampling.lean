import Verif.Props.Sampler
import Verif.Props.Volumes
import Mathlib.Algebra.Order.Field.Rat

/-!
# Random samples (C76)
-/

set_option autoImplicit false
set_option linter.unusedSectionVars false
set_option linter.unusedSimpArgs false

namespace BET

open Spec

section
variable {K : Type} [Field K]

/-- `col` is column `i` of the matrix with the given rows. -/
def Spec.IsColumn (rows : List (List K)) (i : Nat) (col : List K) : Prop :=
  rows.map (fun row => row[i]?) = col.map some

/-- The dimension and the domain that the second argument stands for; a set's domain has one
interval for each dimension. -/
inductive Spec.Space : InputObj K → Nat → Option (List (K × K)) → Prop
  | dim (d : Nat) : Space (.dim d) d none
  | domain (D : List (K × K)) : Space (.domain D) D.length (some D)
  | bare (s : SampleSet K) : s.domain = none → Space (.set s) s.dim none
  | boxed (s : SampleSet K) (D : List (K × K)) : s.domain = some D → D.length = s.dim →
      Space (.set s) s.dim (some D)

/-- The distributions that the first argument stands for, one for each dimension: a name alone has
its default parameters, or those that fit the domain; one pair is used for all dimensions; a list
has one for each. -/
inductive Spec.Distributions (dim : Nat) : Option (List (K × K)) → RvArg K → List (RvSpec K) → Prop
  | default (name : String) : Distributions dim none (.str name) (List.replicate dim ⟨name, []⟩)
  | fitted (name : String) (D : List (K × K)) : Distributions dim (some D) (.str name)
      (D.map fun ab => ⟨name, [("loc", ab.1), ("scale", ab.2 - ab.1)]⟩)
  | same (D : Option (List (K × K))) (r : RvSpec K) :
      Distributions dim D (.pair r) (List.replicate dim r)
  | each (D : Option (List (K × K))) (rs : List (RvSpec K)) : rs.length = dim →
      Distributions dim D (.list rs) rs

theorem fromColumns_eq_ok {α : Type} {n : Nat} {cs : List (List α)} {m : List (List α)}
    (h : fromColumns n cs = .ok m) : (∀ c ∈ cs, c.length = n) ∧ m = stackColumns n cs := by
  unfold fromColumns at h
  split at h
  · rename_i hc
    cases h
    rw [List.all_eq_true] at hc
    exact ⟨fun c hc' => by simpa using hc c hc', rfl⟩
  · cases h

theorem stackColumns_length {α : Type} (n : Nat) (cs : List (List α)) :
    (stackColumns n cs).length = n := by simp [stackColumns]

theorem stackColumns_row {α : Type} {n : Nat} {cs : List (List α)} (h : ∀ c ∈ cs, c.length = n)
    {r : Nat} (hr : r < n) (i : Nat) :
    (cs.filterMap fun c => c[r]?)[i]? = (cs[i]?).bind fun c => c[r]? := by
  induction cs generalizing i with
  | nil => simp
  | cons c cs ih =>
    have hc : r < c.length := by rw [h c (by simp)]; exact hr
    rw [List.filterMap_cons, List.getElem?_eq_getElem hc]
    cases i with
    | zero => simp [hc]
    | succ i => simpa using ih (fun c' hc' => h c' (by simp [hc'])) i

theorem stackColumns_row_length {α : Type} {n : Nat} {cs : List (List α)}
    (h : ∀ c ∈ cs, c.length = n) {r : Nat} (hr : r < n) :
    (cs.filterMap fun c => c[r]?).length = cs.length := by
  induction cs with
  | nil => simp
  | cons c cs ih =>
    have hc : r < c.length := by rw [h c (by simp)]; exact hr
    rw [List.filterMap_cons, List.getElem?_eq_getElem hc]
    simpa using ih (fun c' hc' => h c' (by simp [hc']))

theorem stackColumns_column {n : Nat} {cs : List (List K)} (h : ∀ c ∈ cs, c.length = n)
    {i : Nat} {c : List K} (hc : cs[i]? = some c) : IsColumn (stackColumns n cs) i c := by
  have hlen := h c (List.mem_of_getElem? hc)
  unfold IsColumn stackColumns
  apply List.ext_getElem?
  intro r
  rw [List.map_map, List.getElem?_map, List.getElem?_map]
  by_cases hr : r < n
  · rw [List.getElem?_range hr]
    simp only [Option.map_some, Function.comp]
    rw [stackColumns_row h hr, hc]
    simp [hlen, hr]
  · rw [List.getElem?_eq_none (by simpa using hr), List.getElem?_eq_none (by omega)]
    rfl

theorem space_ok {obj : InputObj K} {dim : Nat} {D : Option (List (K × K))} (h : Space obj dim D)
    (e : Err) : ∃ s, obj.toSet e = .ok s ∧ s.dim = dim ∧ s.domain = D := by
  cases h with
  | dim d => exact ⟨_, rfl, rfl, rfl⟩
  | domain D => exact ⟨_, rfl, rfl, rfl⟩
  | bare s h => exact ⟨_, rfl, rfl, h⟩
  | boxed s D h _ => exact ⟨_, rfl, rfl, h⟩

theorem perDim_eq_ok {dim : Nat} {D : Option (List (K × K))} {rv : RvArg K} {specs : List (RvSpec K)}
    (h : rv.perDim dim D = .ok specs) : Distributions dim D rv specs := by
  cases rv with
  | str name =>
    cases D with
    | none => cases h; exact .default name
    | some D => cases h; exact .fitted name D
  | pair r => cases h; exact .same D r
  | list rs =>
    simp only [RvArg.perDim] at h
    by_cases hn : rs.length = dim
    · simp only [hn, ne_eq, not_true_eq_false, if_false] at h
      cases h
      exact .each D _ hn
    · simp [hn] at h
  | other => cases h

theorem perDim_ok {dim : Nat} {D : Option (List (K × K))} {rv : RvArg K} {specs : List (RvSpec K)}
    (h : Distributions dim D rv specs) : rv.perDim dim D = .ok specs := by
  cases h with
  | default name => rfl
  | fitted name D => rfl
  | same D r => rfl
  | each D rs h => simp [RvArg.perDim, h]

theorem distributions_length {obj : InputObj K} {dim : Nat} {D : Option (List (K × K))}
    {rv : RvArg K} {specs : List (RvSpec K)} (hs : Space obj dim D)
    (h : Distributions dim D rv specs) : specs.length = dim := by
  cases h with
  | default name => simp
  | fitted name D =>
    cases hs with
    | domain => simp
    | boxed s _ _ h => simpa using h
  | same D r => simp
  | each D rs h => exact h

/-- What each process has drawn. -/
def Spec.Drawn (st : Stats K) (specs : List (RvSpec K)) (n size : Nat) (chunks : Chunks (List K)) :
    Prop :=
  chunks.length = size ∧ ∀ r c, chunks[r]? = some c →
    c.length = numLocal n size r ∧ (∀ row ∈ c, row.length = specs.length) ∧
    ∀ i sp, specs[i]? = some sp →
      ∃ col, st.rvs r i sp (numLocal n size r) = .ok col ∧ IsColumn c i col

theorem drawLocal_eq_ok {st : Stats K} {specs : List (RvSpec K)} {n r : Nat} {c : List (List K)}
    (h : drawLocal st specs n r = .ok c) :
    c.length = n ∧ (∀ row ∈ c, row.length = specs.length) ∧
    ∀ i sp, specs[i]? = some sp → ∃ col, st.rvs r i sp n = .ok col ∧ IsColumn c i col := by
  simp only [drawLocal, bind_eq_ok] at h
  obtain ⟨cols, h1, h2'⟩ := h
  obtain ⟨h2, rfl⟩ := fromColumns_eq_ok h2'
  rw [mapM_eq_ok] at h1
  have hl := h1.length_eq
  rw [List.length_zipIdx] at hl
  refine ⟨stackColumns_length n cols, ?_, ?_⟩
  · intro row hrow
    obtain ⟨k, hk, rfl⟩ := List.mem_map.1 hrow
    rw [stackColumns_row_length h2 (by simpa using hk), hl]
  · intro i sp hi
    obtain ⟨hi', rfl⟩ := List.getElem?_eq_some_iff.1 hi
    have hic : i < cols.length := by omega
    have := h1.get (i := i) (by simpa using hi') hic
    simp at this
    exact ⟨cols[i], this, stackColumns_column h2 (List.getElem?_eq_getElem hic)⟩

theorem drawn_of_mapM {st : Stats K} {specs : List (RvSpec K)} {n size : Nat}
    {chunks : Chunks (List K)}
    (h : ((List.range size).mapM fun r => drawLocal st specs (numLocal n size r) r) = .ok chunks) :
    Drawn st specs n size chunks := by
  rw [mapM_eq_ok] at h
  have hl := h.length_eq
  rw [List.length_range] at hl
  refine ⟨hl.symm, fun r c hr => ?_⟩
  obtain ⟨hr', rfl⟩ := List.getElem?_eq_some_iff.1 hr
  have := h.get (i := r) (by simp; omega) hr'
  simp at this
  exact drawLocal_eq_ok this

theorem drawn_total {st : Stats K} {specs : List (RvSpec K)} {n size : Nat} (hsize : 0 < size)
    {chunks : Chunks (List K)} (h : Drawn st specs n size chunks) : chunks.flatten.length = n := by
  rw [List.length_flatten, ← C19_sum n size hsize]
  congr 1
  apply List.ext_getElem?
  intro r
  by_cases hr : r < size
  · have hr' : r < chunks.length := by rw [h.1]; exact hr
    simp [hr, hr', (h.2 r _ (List.getElem?_eq_getElem hr')).1]
  · have := h.1
    simp [hr, this]

/-- On success each process holds its share of the `n` samples, column `i` are the numbers it drew
from the distribution of dimension `i`, and the domain is made of the supports of the
distributions. -/
theorem C76_draws {st : Stats K} {size : Nat} (hsize : 0 < size) {rv : RvArg K} {obj : InputObj K}
    {dim : Nat} {D : Option (List (K × K))} (hs : Space obj dim D) {n : Nat} {globalize : Bool}
    {t : SampleSet K} (h : randomSampleSet st size rv obj n globalize = .ok t) :
    ∃ specs chunks dom, Distributions dim D rv specs ∧ specs.length = dim ∧
      Drawn st specs n size chunks ∧ t.dim = dim ∧ t.loc.values = some chunks ∧
      t.domain = some dom ∧ List.Forall₂ (fun sp ab => st.interval sp = .ok ab) specs dom ∧
      chunks.flatten.length = n ∧
      (globalize = true → t.glob.values = some chunks.flatten) ∧
      (globalize = false → t.glob.values = none) := by
  obtain ⟨s, h1, rfl, rfl⟩ := space_ok hs .wrongInput
  simp only [randomSampleSet, h1, ok_bind, bind_eq_ok, pure_eq_ok] at h
  obtain ⟨specs, h2, chunks, h3, dom, h4, s2, h5, -, -, -, -, rfl⟩ := h
  obtain ⟨rfl, -⟩ := setValuesLocal_eq_ok h5
  have hdr := drawn_of_mapM h3
  have hd := perDim_eq_ok h2
  refine ⟨specs, chunks, dom, hd, distributions_length hs hd, hdr, ?_, ?_, ?_,
    (mapM_eq_ok _ _ _).1 h4, drawn_total hsize hdr, ?_, ?_⟩
  · cases globalize <;> rfl
  · cases globalize <;> rfl
  · cases globalize <;> rfl
  · rintro rfl; rfl
  · rintro rfl; rfl

/-- The given object has no arrays yet. -/
def Spec.NoArrays : InputObj K → Prop
  | .set s => s.glob = {} ∧ s.loc = {}
  | _ => True

theorem noArrays_set {obj : InputObj K} (h : NoArrays obj) {e : Err} {s : SampleSet K}
    (hs : obj.toSet e = .ok s) : s.glob = {} ∧ s.loc = {} := by
  cases obj with
  | set s' => cases hs; exact h
  | dim d => cases hs; exact ⟨rfl, rfl⟩
  | domain D => cases hs; exact ⟨rfl, rfl⟩
  | other => cases hs

/-- Random numbers of the right number, and supports, are available for all the distributions. -/
def Spec.Available (st : Stats K) (specs : List (RvSpec K)) : Prop :=
  ∀ sp ∈ specs, (∃ ab, st.interval sp = .ok ab) ∧
    ∀ r i n, ∃ col, st.rvs r i sp n = .ok col ∧ col.length = n

/-- For a set without arrays, a dimension or a domain the call succeeds whenever the distributions
are available, and the set is consistent: it has `n` samples. -/
theorem C76_defined_partial {st : Stats K} {size : Nat} (hsize : 0 < size) {rv : RvArg K}
    {obj : InputObj K} {dim : Nat} {D : Option (List (K × K))} (hs : Space obj dim D)
    (hfresh : NoArrays obj) {specs : List (RvSpec K)} (hd : Distributions dim D rv specs)
    (hav : Available st specs) (n : Nat) (globalize : Bool) :
    ∃ t, randomSampleSet st size rv obj n globalize = .ok t ∧ t.checkNum size = .ok n := by
  obtain ⟨s, h1, rfl, rfl⟩ := space_ok hs .wrongInput
  obtain ⟨hg, hl⟩ := noArrays_set hfresh h1
  have hlen := distributions_length hs hd
  have hdraw : ∀ r m, ∃ c, drawLocal st specs m r = .ok c := by
    intro r m
    have : ∃ cols, (specs.zipIdx.mapM fun e => st.rvs r e.2 e.1 m) = .ok cols ∧
        ∀ c ∈ cols, c.length = m := by
      generalize 0 = k
      clear hlen hd
      induction specs generalizing k with
      | nil => exact ⟨[], rfl, by simp⟩
      | cons sp specs ih =>
        obtain ⟨c, hc, hcl⟩ := (hav sp (by simp)).2 r k m
        obtain ⟨cs, hcs, hcsl⟩ := ih (fun sp' h' => hav sp' (by simp [h'])) (k + 1)
        refine ⟨c :: cs, ?_, ?_⟩
        · rw [List.zipIdx_cons, List.mapM_cons, hc, hcs]; rfl
        · intro c' hc'
          rcases List.mem_cons.1 hc' with rfl | h'
          · exact hcl
          · exact hcsl c' h'
    obtain ⟨cols, hcols, hcl⟩ := this
    refine ⟨stackColumns m cols, ?_⟩
    simp only [drawLocal, hcols, ok_bind]
    unfold fromColumns
    rw [if_pos]
    rw [List.all_eq_true]
    intro c hc
    simpa using hcl c hc
  obtain ⟨chunks, hch⟩ := mapM_total
    (f := fun r => drawLocal st specs (numLocal n size r) r) (l := List.range size)
    (fun r _ => hdraw r _)
  obtain ⟨dom, hdom⟩ := mapM_total (f := st.interval) (l := specs) (fun sp h => (hav sp h).1)
  have hdr := drawn_of_mapM hch
  have hrows : ∀ c ∈ chunks, ∀ row ∈ c, row.length = s.dim := by
    intro c hc row hrow
    obtain ⟨r, hr, rfl⟩ := List.getElem_of_mem hc
    rw [(hdr.2 r _ (List.getElem?_eq_getElem hr)).2.1 row hrow, hlen]
  have hset := setValuesLocal_ok s chunks hrows
  have hp : NonePresent ({ s with loc := { s.loc with values := some chunks }, domain := some dom }
      : SampleSet K).glob := by
    simp only [hg]
    constructor <;> rfl
  have hsh : AllShape ({ s with loc := { s.loc with values := some chunks }, domain := some dom }
      : SampleSet K).loc (chunks.map List.length) := by
    simp only [hl]
    constructor <;> intro v hv <;> cases hv
    rfl
  have hsome : ¬ NonePresent ({ s with loc := { s.loc with values := some chunks }, domain := some dom }
      : SampleSet K).loc := by
    intro hn
    have := hn.values
    cases this
  have hck := C12_check_num_local hp (chunks.map List.length) hsh hsome
  rw [List.length_map, hdr.1, ← List.length_flatten, drawn_total hsize hdr] at hck
  have hckl : ({ s with loc := { s.loc with values := some chunks }, domain := some dom }
      : SampleSet K).checkNumLocalAll size = .ok () := by
    unfold SampleSet.checkNumLocalAll
    have key := fun r (_ : r ∈ List.range size) => checkNumLocal_ok hp hsh hsome r
    rw [mapM_ok _ (fun r => some ((chunks.map List.length).getD r 0)) _ fun r hr => (key r hr).1]
    rfl
  refine ⟨SampleSet.globalizeIf globalize
      { s with loc := { s.loc with values := some chunks }, domain := some dom }, ?_, ?_⟩
  · simp only [randomSampleSet, h1, ok_bind, perDim_ok hd, hch, hdom, hset, hckl, hck]
    rfl
  · cases globalize with
    | false =>
      simp only [SampleSet.globalizeIf]
      simp only [Bool.false_eq_true, if_false]
      simp only [hg] at hck ⊢
      exact hck
    | true =>
      apply SampleSet.checkNum_consistent
      simp only [SampleSet.globalizeIf, if_true, SampleSet.localToGlobal, Arrays.map₂, hg, hl,
        SampleSet.gatherArr, getGlobalValues]
      refine ⟨⟨?_, nofun, nofun, nofun, nofun, nofun, nofun, nofun, nofun, nofun, nofun, nofun, nofun,
        nofun⟩, ?_, ?_⟩
      · intro w hw
        cases hw
        exact drawn_total hsize hdr
      · intro hnp
        have := hnp.values
        cases this
      · intro w hw row hrow
        cases hw
        obtain ⟨c, hc, hrow⟩ := List.mem_flatten.1 hrow
        exact hrows c hc row hrow

end

section
variable {K : Type} [Field K] [LinearOrder K]

/-- If the numbers drawn from a distribution lie in its support, all samples lie in the domain of
the set. -/
theorem C76_in_domain {st : Stats K} {size : Nat} (hsize : 0 < size) {rv : RvArg K}
    {obj : InputObj K} {dim : Nat} {D : Option (List (K × K))} (hs : Space obj dim D)
    (hin : ∀ r i sp n col ab, st.rvs r i sp n = .ok col → st.interval sp = .ok ab →
      ∀ x ∈ col, ab.1 ≤ x ∧ x ≤ ab.2)
    {n : Nat} {t : SampleSet K} (h : randomSampleSet st size rv obj n true = .ok t) :
    ∃ v dom, t.glob.values = some v ∧ v.length = n ∧ t.domain = some dom ∧
      ∀ row ∈ v, List.Forall₂ (fun x ab => ab.1 ≤ x ∧ x ≤ ab.2) row dom := by
  obtain ⟨specs, chunks, dom, -, -, hdr, -, -, h1, h2, h3, h4, -⟩ := C76_draws hsize hs h
  refine ⟨chunks.flatten, dom, h4 rfl, h3, h1, ?_⟩
  intro row hrow
  obtain ⟨c, hc, hrow⟩ := List.mem_flatten.1 hrow
  obtain ⟨r, hr, rfl⟩ := List.getElem_of_mem hc
  obtain ⟨-, hl, hcol⟩ := hdr.2 r _ (List.getElem?_eq_getElem hr)
  have hlen := h2.length_eq
  rw [List.forall₂_iff_get]
  refine ⟨by rw [hl row hrow, hlen], ?_⟩
  intro i hi1 hi2
  have his : i < specs.length := by omega
  obtain ⟨col, hcol, hic⟩ := hcol i _ (List.getElem?_eq_getElem his)
  have hint := h2.get his hi2
  apply hin r i _ _ col _ hcol hint
  obtain ⟨k, hk, hrow⟩ := List.getElem_of_mem hrow
  have := congrArg (fun l => l[k]?) hic
  simp only [List.getElem?_map, List.getElem?_eq_getElem hk, Option.map_some] at this
  rw [hrow] at this
  simp only [List.getElem?_eq_getElem hi1] at this
  cases hck : col[k]? with
  | none => simp [hck] at this
  | some x =>
    simp [hck] at this
    rw [List.get_eq_getElem, this]
    exact List.mem_of_getElem? hck

/-- A name whose support with `loc = a` and `scale = w` is `[a, a + w]` (such as "uniform") keeps the
domain the user gave. -/
theorem C76_domain_kept {st : Stats K} {size : Nat} (hsize : 0 < size) {name : String}
    (hu : ∀ a w, st.interval ⟨name, [("loc", a), ("scale", w)]⟩ = .ok (a, a + w))
    {obj : InputObj K} {dim : Nat} {D : List (K × K)} (hs : Space obj dim (some D)) {n : Nat}
    {globalize : Bool} {t : SampleSet K}
    (h : randomSampleSet st size (.str name) obj n globalize = .ok t) : t.domain = some D := by
  obtain ⟨specs, chunks, dom, hd, -, -, -, -, h1, h2, -⟩ := C76_draws hsize hs h
  cases hd
  rw [h1]
  congr 1
  clear h1 h hs
  induction D generalizing dom with
  | nil => cases h2; rfl
  | cons ab D ih =>
    cases h2 with
    | cons e h2 =>
      rw [hu] at e
      cases e
      rw [ih _ h2]
      simp

end

namespace Ex

/-- Process `r` draws the numbers `0, 1/10, 2/10, …` times the scale, shifted by `loc`. -/
def fakeStats : Stats ℚ where
  rvs := fun r i sp n => .ok ((List.range n).map fun (k : Nat) =>
    (sp.args.getD 0 ("", 0)).2 + (k + r + i : ℚ) / 10 * (sp.args.getD 1 ("", 1)).2)
  interval := fun sp => .ok ((sp.args.getD 0 ("", 0)).2,
    (sp.args.getD 0 ("", 0)).2 + (sp.args.getD 1 ("", 1)).2)

example : Spec.Space (.domain [(0, 1), (2, 4)] : InputObj ℚ) 2 (some [(0, 1), (2, 4)]) :=
  .domain _

example : Spec.NoArrays (.domain [(0, 1), (2, 4)] : InputObj ℚ) := trivial

example (specs : List (RvSpec ℚ)) : Spec.Available fakeStats specs :=
  fun _ _ => ⟨⟨_, rfl⟩, fun _ _ _ => ⟨_, rfl, by simp⟩⟩

example : ((randomSampleSet fakeStats 2 (.str "uniform") (.domain [(0, 1), (2, 4)]) 3
    true).toOption.bind fun t => t.glob.values) =
    some [[0, 11 / 5], [1 / 10, 12 / 5], [1 / 10, 12 / 5]] := by decide +kernel

example : ((randomSampleSet fakeStats 2 (.str "uniform") (.domain [(0, 1), (2, 4)]) 3
    true).toOption.bind fun t => t.domain) = some [(0, 1), (2, 4)] := by decide +kernel

example : errOf (randomSampleSet fakeStats 2 (.list []) (.dim 2 : InputObj ℚ) 3 true) =
    some .dimNotMatching := by decide +kernel

/-- A set of two samples with probabilities. -/
def twoWithProbs : SampleSet ℚ :=
  { dim := 1, glob := { values := some [[1], [2]], probabilities := some [1 / 4, 3 / 4] } }

/-- Drawing three new samples into it succeeds but leaves the two probabilities: the result is not a
consistent set. With two samples the old probabilities are attached to the new samples. -/
theorem C76_negation_stale :
    ((randomSampleSet fakeStats 1 (.str "uniform") (.set twoWithProbs) 3 true).toOption.bind
      fun t => t.glob.probabilities) = some [1 / 4, 3 / 4] ∧
    ((randomSampleSet fakeStats 1 (.str "uniform") (.set twoWithProbs) 3 true).toOption.bind
      fun t => errOf (t.checkNum 1)) = some .lengthNotMatching ∧
    ((randomSampleSet fakeStats 1 (.str "uniform") (.set twoWithProbs) 2 true).toOption.bind
      fun t => t.glob.probabilities) = some [1 / 4, 3 / 4] := by decide +kernel

end Ex

end BET
