import Verif.Model.Choose
import Verif.Props.Normalize

/-!
# C31: choosing inputs and outputs of a discretization
-/

set_option autoImplicit false
set_option linter.unusedSectionVars false
set_option linter.unusedSimpArgs false

namespace BET

namespace Spec

/-- `xs'` consists of the entries of `xs` at the positions `idx`, all of which exist. -/
def IsSelection {α : Type} (idx : List Nat) (xs xs' : List α) : Prop :=
  xs'.length = idx.length ∧
  ∀ (k j : Nat), idx[k]? = some j → j < xs.length ∧ xs'[k]? = xs[j]?

/-- Row by row. -/
def RowsSelected {α : Type} (idx : List Nat) : List (List α) → List (List α) → Prop :=
  List.Forall₂ (IsSelection idx)

/-- The entry of row `outputs[a]` and column `inputs[b]` becomes that of row `a` and
column `b`, in the matrix of every sample. -/
def JacSelected {α : Type} (inputs outputs : List Nat) :
    List (List (List α)) → List (List (List α)) → Prop :=
  List.Forall₂ fun M M' => ∃ N, IsSelection outputs M N ∧ RowsSelected inputs N M'

/-- `None` stays `None`. -/
def IfPresent {α β : Type} (R : α → β → Prop) (a : Option α) (b : Option β) : Prop :=
  Option.Rel R a b

end Spec

open Spec

section c31

variable {K : Type}

theorem ifPresent_eq_ok {α β : Type} (f : α → Except Err β) (a : Option α) (b : Option β) :
    ifPresent f a = .ok b ↔ IfPresent (fun x y => f x = .ok y) a b := by
  cases a with
  | none =>
    constructor
    · intro h; cases h; exact .none
    · intro h; cases h; rfl
  | some a =>
    simp only [ifPresent, bind_eq_ok, pure_eq_ok]
    constructor
    · rintro ⟨c, hc, rfl⟩; exact .some hc
    · intro h
      cases h with
      | some h => exact ⟨_, h, rfl⟩

theorem getIdx_eq_ok {α : Type} (xs : List α) (i : Nat) (x : α) :
    getIdx xs i = .ok x ↔ xs[i]? = some x := by
  unfold getIdx
  cases xs[i]? <;> simp

theorem selIdx_eq_ok {α : Type} (idx : List Nat) (xs xs' : List α) :
    selIdx idx xs = .ok xs' ↔ IsSelection idx xs xs' := by
  unfold selIdx IsSelection
  rw [mapM_eq_ok, List.forall₂_iff_get]
  constructor
  · rintro ⟨h1, h2⟩
    refine ⟨h1.symm, fun k j hk => ?_⟩
    obtain ⟨hk', hj⟩ := List.getElem?_eq_some_iff.mp hk
    have := h2 k hk' (h1 ▸ hk')
    rw [getIdx_eq_ok] at this
    simp only [List.get_eq_getElem, hj] at this
    refine ⟨(List.getElem?_eq_some_iff.mp this).1, ?_⟩
    rw [this, List.getElem?_eq_getElem]
  · rintro ⟨h1, h2⟩
    refine ⟨h1.symm, fun k hk hk' => ?_⟩
    rw [getIdx_eq_ok]
    obtain ⟨_, h⟩ := h2 k _ (List.getElem?_eq_getElem hk)
    simp only [List.get_eq_getElem]
    rw [← h, List.getElem?_eq_getElem hk']

theorem selCols_eq_ok {α : Type} (idx : List Nat) (m m' : List (List α)) :
    selCols idx m = .ok m' ↔ RowsSelected idx m m' := by
  unfold selCols RowsSelected
  rw [mapM_eq_ok]
  constructor <;> intro h <;> exact h.imp fun _ _ => by simp [selIdx_eq_ok]

theorem selJac_eq_ok {α : Type} (ins outs : List Nat) (m m' : List (List (List α))) :
    selJac ins outs m = .ok m' ↔ JacSelected ins outs m m' := by
  unfold selJac JacSelected
  simp only [bind_eq_ok, selCols_eq_ok, mapM_eq_ok, RowsSelected]
  constructor
  · rintro ⟨N, h1, h2⟩
    induction h1 generalizing m' with
    | nil => cases h2; exact .nil
    | cons h _ ih =>
      cases h2 with
      | cons h2 h3 => exact .cons ⟨_, h, by simpa [selCols_eq_ok, RowsSelected] using h2⟩ (ih _ h3)
  · intro h
    induction h with
    | nil => exact ⟨[], .nil, .nil⟩
    | cons h _ ih =>
      obtain ⟨N, h1, h2⟩ := ih
      obtain ⟨n, h3, h4⟩ := h
      exact ⟨n :: N, .cons h3 h1, .cons (by simpa [selCols_eq_ok, RowsSelected] using h4) h2⟩

theorem mapM_selCols {α : Type} {idx : List Nat} {c c' : List (List (List α))}
    (h : c.mapM (selCols idx) = .ok c') : List.Forall₂ (RowsSelected idx) c c' :=
  ((mapM_eq_ok _ _ _).mp h).imp fun _ _ => (selCols_eq_ok _ _ _).mp

theorem mapM_selJac {α : Type} {ins outs : List Nat} {c c' : List (List (List (List α)))}
    (h : c.mapM (selJac ins outs) = .ok c') : List.Forall₂ (JacSelected ins outs) c c' :=
  ((mapM_eq_ok _ _ _).mp h).imp fun _ _ => (selJac_eq_ok _ _ _ _).mp

/-- What `choose_inputs_outputs` does to the coordinates of one set. -/
structure Spec.CoordsChosen (idx : List Nat) (s s' : SampleSet K) : Prop where
  dim : s'.dim = idx.length
  pNorm : s'.pNorm = s.pNorm
  domain : IfPresent (IsSelection idx) s.domain s'.domain
  referenceValue : IfPresent (IsSelection idx) s.referenceValue s'.referenceValue
  values : IfPresent (RowsSelected idx) s.glob.values s'.glob.values
  valuesLocal : IfPresent (List.Forall₂ (RowsSelected idx)) s.loc.values s'.loc.values
  errorEstimates :
    IfPresent (RowsSelected idx) s.glob.errorEstimates s'.glob.errorEstimates
  errorEstimatesLocal :
    IfPresent (List.Forall₂ (RowsSelected idx)) s.loc.errorEstimates s'.loc.errorEstimates
  /-- no other array is kept -/
  others : s'.glob = { values := s'.glob.values, errorEstimates := s'.glob.errorEstimates
                       jacobians := s'.glob.jacobians }
  othersLocal : s'.loc = { values := s'.loc.values, errorEstimates := s'.loc.errorEstimates
                           jacobians := s'.loc.jacobians }

theorem ifPresent_imp {α β : Type} {R S : α → β → Prop} (h : ∀ a b, R a b → S a b)
    {a : Option α} {b : Option β} (hr : IfPresent R a b) : IfPresent S a b := by
  cases hr with
  | none => exact .none
  | some hr => exact .some (h _ _ hr)

theorem chooseCoords_eq_ok {s s' : SampleSet K} {idx : List Nat}
    (h : s.chooseCoords idx = .ok s') : CoordsChosen idx s s' := by
  simp only [SampleSet.chooseCoords, bind_eq_ok, ifPresent_eq_ok, pure_eq_ok] at h
  obtain ⟨dom, h1, ref, h2, v, h3, vl, h4, e, h5, el, h6, rfl⟩ := h
  exact ⟨rfl, rfl, ifPresent_imp (hr := h1) fun _ _ => (selIdx_eq_ok _ _ _).mp,
    ifPresent_imp (hr := h2) fun _ _ => (selIdx_eq_ok _ _ _).mp, ifPresent_imp (hr := h3) fun _ _ => (selCols_eq_ok _ _ _).mp,
    ifPresent_imp (hr := h4) fun _ _ h => mapM_selCols h,
    ifPresent_imp (hr := h5) fun _ _ => (selCols_eq_ok _ _ _).mp,
    ifPresent_imp (hr := h6) fun _ _ h => mapM_selCols h, rfl, rfl⟩

theorem new_eq_ok {size : Nat} {i o p ei eo : Option (SampleSet K)} {d : Disc K}
    (h : Disc.new size i o p ei eo = .ok d) :
    d = { input := i, output := o, outputProb := p, emInput := ei, emOutput := eo } := by
  unfold Disc.new at h
  split at h
  · rw [bind_eq_ok] at h
    obtain ⟨_, _, h⟩ := h
    exact ((pure_eq_ok _ _).mp h).symm
  · exact ((pure_eq_ok _ _).mp h).symm

/-- **C31.** Whenever `choose_inputs_outputs` returns, the new discretization has the chosen
coordinates of domain, reference value, values and error estimates of both sets and the
chosen rows and columns of the Jacobians, sample by sample, global and local; all indices
that were used exist. -/
theorem C31_selects {size : Nat} {d d' : Disc K} {inputs outputs : Option (List Nat)}
    (h : d.chooseInputsOutputs size inputs outputs = .ok d') :
    ∃ ins outs i o i' o', inputs = some ins ∧ outputs = some outs ∧
      d.input = some i ∧ d.output = some o ∧ d'.input = some i' ∧ d'.output = some o' ∧
      CoordsChosen ins i i' ∧ CoordsChosen outs o o' ∧
      IfPresent (JacSelected ins outs) i.glob.jacobians i'.glob.jacobians ∧
      IfPresent (List.Forall₂ (JacSelected ins outs)) i.loc.jacobians i'.loc.jacobians := by
  simp only [Disc.chooseInputsOutputs, bind_eq_ok, orErr_eq_ok, ifPresent_eq_ok] at h
  obtain ⟨ins, h1, outs, h2, i, h3, o, h4, i', h5, o', h6, j, h7, jl, h8, h9⟩ := h
  have := new_eq_ok h9
  subst this
  have c := chooseCoords_eq_ok h5
  exact ⟨ins, outs, i, o, _, o', h1, h2, h3, h4, rfl, rfl,
    ⟨c.dim, c.pNorm, c.domain, c.referenceValue, c.values, c.valuesLocal, c.errorEstimates,
      c.errorEstimatesLocal, congrArg (fun g : Arrays List K => { g with jacobians := j }) c.others,
      congrArg (fun g : Arrays Chunks K => { g with jacobians := jl }) c.othersLocal⟩,
    chooseCoords_eq_ok h6,
    ifPresent_imp (hr := h7) fun _ _ => (selJac_eq_ok _ _ _ _).mp,
    ifPresent_imp (hr := h8) fun _ _ h => mapM_selJac h⟩

/-- A set in which every row has one entry per dimension. -/
structure Spec.RowsHave (s : SampleSet K) : Prop where
  domain : ∀ D, s.domain = some D → D.length = s.dim
  referenceValue : ∀ r, s.referenceValue = some r → r.length = s.dim
  values : ∀ v, s.glob.values = some v → ∀ r ∈ v, r.length = s.dim
  valuesLocal : ∀ c, s.loc.values = some c → ∀ v ∈ c, ∀ r ∈ v, r.length = s.dim
  errorEstimates : ∀ v, s.glob.errorEstimates = some v → ∀ r ∈ v, r.length = s.dim
  errorEstimatesLocal : ∀ c, s.loc.errorEstimates = some c → ∀ v ∈ c, ∀ r ∈ v, r.length = s.dim

theorem selIdx_total {α : Type} {idx : List Nat} {xs : List α} {n : Nat} (hx : xs.length = n)
    (h : ∀ j ∈ idx, j < n) : ∃ xs', selIdx idx xs = .ok xs' := by
  unfold selIdx
  induction idx with
  | nil => exact ⟨[], rfl⟩
  | cons j idx ih =>
    obtain ⟨xs', h'⟩ := ih fun j hj => h j (by simp [hj])
    have hj : j < xs.length := by rw [hx]; exact h j (by simp)
    refine ⟨xs[j] :: xs', ?_⟩
    rw [List.mapM_cons, (getIdx_eq_ok _ _ _).mpr (List.getElem?_eq_getElem hj), h']
    rfl

theorem mapM_total {α β : Type} {f : α → Except Err β} {l : List α}
    (h : ∀ x ∈ l, ∃ y, f x = .ok y) : ∃ r, l.mapM f = .ok r := by
  induction l with
  | nil => exact ⟨[], rfl⟩
  | cons a l ih =>
    obtain ⟨y, hy⟩ := h a (by simp)
    obtain ⟨r, hr⟩ := ih fun x hx => h x (by simp [hx])
    exact ⟨y :: r, by rw [List.mapM_cons, hy, hr]; rfl⟩

theorem selCols_total {α : Type} {idx : List Nat} {m : List (List α)} {n : Nat}
    (hx : ∀ r ∈ m, r.length = n) (h : ∀ j ∈ idx, j < n) : ∃ m', selCols idx m = .ok m' :=
  mapM_total fun r hr => selIdx_total (hx r hr) h

theorem ifPresent_total {α β : Type} {f : α → Except Err β} {a : Option α}
    (h : ∀ x, a = some x → ∃ y, f x = .ok y) : ∃ r, ifPresent f a = .ok r := by
  cases a with
  | none => exact ⟨none, rfl⟩
  | some a =>
    obtain ⟨y, hy⟩ := h a rfl
    exact ⟨some y, by simp [ifPresent, hy, pure, Except.pure]⟩

theorem chooseCoords_total {s : SampleSet K} {idx : List Nat} (hs : RowsHave s)
    (h : ∀ j ∈ idx, j < s.dim) : ∃ s', s.chooseCoords idx = .ok s' := by
  obtain ⟨a1, h1⟩ := ifPresent_total (f := selIdx idx) fun D hD => selIdx_total (hs.domain D hD) h
  obtain ⟨a2, h2⟩ := ifPresent_total (f := selIdx idx) fun D hD =>
    selIdx_total (hs.referenceValue D hD) h
  obtain ⟨a3, h3⟩ := ifPresent_total (f := selCols idx) fun D hD =>
    selCols_total (hs.values D hD) h
  obtain ⟨a4, h4⟩ := ifPresent_total (f := List.mapM (selCols idx)) fun D hD =>
    mapM_total fun v hv => selCols_total (hs.valuesLocal D hD v hv) h
  obtain ⟨a5, h5⟩ := ifPresent_total (f := selCols idx) fun D hD =>
    selCols_total (hs.errorEstimates D hD) h
  obtain ⟨a6, h6⟩ := ifPresent_total (f := List.mapM (selCols idx)) fun D hD =>
    mapM_total fun v hv => selCols_total (hs.errorEstimatesLocal D hD v hv) h
  refine ⟨{ dim := idx.length
            pNorm := s.pNorm
            domain := a1
            referenceValue := a2
            glob := { values := a3, errorEstimates := a5 }
            loc := { values := a4, errorEstimates := a6 } }, ?_⟩
  simp only [SampleSet.chooseCoords, h1, h2, h3, h4, h5, h6, ok_bind]
  rfl

/-- Jacobians with one row per output and one column per input. -/
def Spec.JacFits (nIn nOut : Nat) (j : List (List (List K))) : Prop :=
  ∀ M ∈ j, M.length = nOut ∧ ∀ r ∈ M, r.length = nIn

theorem selJac_total {ins outs : List Nat} {nIn nOut : Nat} {j : List (List (List K))}
    (hj : JacFits nIn nOut j) (hi : ∀ k ∈ ins, k < nIn) (ho : ∀ k ∈ outs, k < nOut) :
    ∃ j', selJac ins outs j = .ok j' := by
  obtain ⟨j1, h1⟩ := selCols_total (fun M hM => (hj M hM).1) ho
  have : ∃ j', j1.mapM (selCols ins) = .ok j' := by
    apply mapM_total
    intro N hN
    rw [selCols, mapM_eq_ok] at h1
    obtain ⟨M, hM, hMN⟩ : ∃ M ∈ j, selIdx outs M = .ok N := by
      rw [List.forall₂_iff_get] at h1
      obtain ⟨k, hk, rfl⟩ := List.mem_iff_getElem.mp hN
      exact ⟨_, List.getElem_mem (h1.1 ▸ hk), h1.2 k (h1.1 ▸ hk) hk⟩
    apply selCols_total (n := nIn) _ hi
    intro r hr
    rw [selIdx, mapM_eq_ok, List.forall₂_iff_get] at hMN
    obtain ⟨k, hk, rfl⟩ := List.mem_iff_getElem.mp hr
    have := hMN.2 k (hMN.1 ▸ hk) hk
    rw [getIdx_eq_ok] at this
    exact (hj M hM).2 _ (List.mem_of_getElem? this)
  obtain ⟨j', h2⟩ := this
  exact ⟨j', by simp [selJac, h1, h2]⟩

theorem ifPresent_length {α β : Type} {R : α → β → Prop} {a : Option (List α)}
    {b : Option (List β)} {n : Nat} (h : IfPresent (List.Forall₂ R) a b)
    (ha : ∀ v, a = some v → v.length = n) : ∀ w, b = some w → w.length = n := by
  rintro w rfl
  cases h with
  | some h => rw [← h.length_eq]; exact ha _ rfl

theorem consistent_chosen {s s' : SampleSet K} {idx : List Nat} {n : Nat}
    (hc : CoordsChosen idx s s') (hs : Consistent s n) (hv : s.glob.values.isSome)
    (hj : ∀ j, s'.glob.jacobians = some j → j.length = n) : Consistent s' n := by
  obtain ⟨v, hv⟩ := Option.isSome_iff_exists.mp hv
  have hvals := hc.values
  rw [hv] at hvals
  obtain ⟨v', hv'⟩ : ∃ v', s'.glob.values = some v' := by
    cases h : s'.glob.values with
    | none => rw [h] at hvals; cases hvals
    | some v' => exact ⟨v', rfl⟩
  refine ⟨?_, fun h => ?_, ?_⟩
  · have h1 := ifPresent_length hc.values hs.1.values
    have h2 := ifPresent_length hc.errorEstimates hs.1.errorEstimates
    have ho := hc.others
    rw [ho]
    constructor <;> intro w hw <;> first | exact h1 w hw | exact h2 w hw | exact hj w hw | cases hw
  · exact absurd h.values (by simp [hv'])
  · intro w hw row hrow
    rw [hv'] at hw
    cases hw
    rw [hv'] at hvals
    cases hvals with
    | some h =>
      rw [RowsSelected, List.forall₂_iff_get] at h
      obtain ⟨k, hk, rfl⟩ := List.mem_iff_getElem.mp hrow
      rw [hc.dim]
      exact (h.2 k (h.1 ▸ hk) hk).1

/-- **C31.** The call succeeds for all lists of valid indices. -/
theorem C31_total {size : Nat} {d : Disc K} {i o : SampleSet K} {n : Nat} {ins outs : List Nat}
    (hi : d.input = some i) (ho : d.output = some o) (hic : Consistent i n)
    (hoc : Consistent o n) (hiv : i.glob.values.isSome) (hov : o.glob.values.isSome)
    (hir : RowsHave i) (hor : RowsHave o)
    (hj : ∀ j, i.glob.jacobians = some j → JacFits i.dim o.dim j)
    (hjl : ∀ c, i.loc.jacobians = some c → ∀ j ∈ c, JacFits i.dim o.dim j)
    (hins : ∀ k ∈ ins, k < i.dim) (houts : ∀ k ∈ outs, k < o.dim) :
    ∃ d', d.chooseInputsOutputs size (some ins) (some outs) = .ok d' ∧
      d'.checkNums size = .ok n := by
  obtain ⟨i', h1⟩ := chooseCoords_total hir hins
  obtain ⟨o', h2⟩ := chooseCoords_total hor houts
  obtain ⟨j, h3⟩ := ifPresent_total (f := selJac ins outs) fun j hj' =>
    selJac_total (hj j hj') hins houts
  obtain ⟨jl, h4⟩ := ifPresent_total (f := List.mapM (selJac ins outs)) fun c hc =>
    mapM_total fun v hv => selJac_total (hjl c hc v hv) hins houts
  have c1 := chooseCoords_eq_ok h1
  have c2 := chooseCoords_eq_ok h2
  have c1' : CoordsChosen ins i { i' with
      glob := { i'.glob with jacobians := j }
      loc := { i'.loc with jacobians := jl } } :=
    ⟨c1.dim, c1.pNorm, c1.domain, c1.referenceValue, c1.values, c1.valuesLocal,
      c1.errorEstimates, c1.errorEstimatesLocal,
      congrArg (fun g : Arrays List K => { g with jacobians := j }) c1.others,
      congrArg (fun g : Arrays Chunks K => { g with jacobians := jl }) c1.othersLocal⟩
  have hoj : o'.glob.jacobians = none := by
    simp only [SampleSet.chooseCoords, bind_eq_ok, pure_eq_ok] at h2
    obtain ⟨_, _, _, _, _, _, _, _, _, _, _, _, rfl⟩ := h2
    rfl
  have k1 := consistent_chosen c1' hic hiv (by
    have := (ifPresent_eq_ok _ _ _).mp h3
    exact ifPresent_length (ifPresent_imp (hr := this) fun _ _ => (selJac_eq_ok _ _ _ _).mp)
      hic.1.jacobians)
  have k2 := consistent_chosen c2 hoc hov (by simp [hoj])
  have some_of : ∀ {α β : Type} {R : α → β → Prop} {a : Option α} {b : Option β},
      IfPresent R a b → a.isSome → b.isSome := by
    intro α β R a b h ha
    cases h <;> simp_all
  have hnew := (C29_construction k1 k2 (some_of c1'.values hiv) (some_of c2.values hov) size
    none none none).1 rfl
  refine ⟨{ input := some _, output := some _ }, ?_, checkNums_ok rfl rfl k1 k2 size⟩
  simp only [Disc.chooseInputsOutputs, orErr_some, ok_bind, hi, ho, h1, h2, h3, h4]
  exact hnew

theorem isSelection_range {α : Type} {xs xs' : List α} {n : Nat} (hn : xs.length = n)
    (h : IsSelection (List.range n) xs xs') : xs' = xs := by
  apply List.ext_getElem?
  intro k
  by_cases hk : k < n
  · exact (h.2 k k (by simp [hk])).2
  · rw [List.getElem?_eq_none (by have := h.1; simp at this; omega),
      List.getElem?_eq_none (by omega)]

theorem rowsSelected_range {α : Type} {m m' : List (List α)} {n : Nat}
    (hn : ∀ r ∈ m, r.length = n) (h : RowsSelected (List.range n) m m') : m' = m := by
  induction h with
  | nil => rfl
  | cons h _ ih =>
    rw [isSelection_range (hn _ (by simp)) h, ih fun r hr => hn r (by simp [hr])]

theorem ifPresent_id {α : Type} {R : α → α → Prop} {a b : Option α}
    (h : IfPresent R a b) (hr : ∀ x, a = some x → ∀ y, R x y → y = x) : b = a := by
  cases h with
  | none => rfl
  | some h => rw [hr _ rfl _ h]

theorem forall₂_id {α : Type} {R : α → α → Prop} {a b : List α}
    (h : List.Forall₂ R a b) (hr : ∀ x ∈ a, ∀ y, R x y → y = x) : b = a := by
  induction h with
  | nil => rfl
  | cons h _ ih => rw [hr _ (by simp) _ h, ih fun x hx => hr x (by simp [hx])]

/-- **C31 (part).** Choosing all coordinates of a set gives its domain, reference value, values
and error estimates back.  Missing: the other arrays (volumes, probabilities, …) are
dropped, so the result is not the same set (`C31_negation_identity`). -/
theorem C31_all_partial {s s' : SampleSet K} (hs : RowsHave s)
    (h : CoordsChosen (List.range s.dim) s s') :
    s'.dim = s.dim ∧ s'.pNorm = s.pNorm ∧ s'.domain = s.domain ∧
    s'.referenceValue = s.referenceValue ∧ s'.glob.values = s.glob.values ∧
    s'.loc.values = s.loc.values ∧ s'.glob.errorEstimates = s.glob.errorEstimates ∧
    s'.loc.errorEstimates = s.loc.errorEstimates := by
  refine ⟨by simpa using h.dim, h.pNorm, ?_, ?_, ?_, ?_, ?_, ?_⟩
  · exact ifPresent_id h.domain fun x hx y hy => isSelection_range (hs.domain x hx) hy
  · exact ifPresent_id h.referenceValue fun x hx y hy =>
      isSelection_range (hs.referenceValue x hx) hy
  · exact ifPresent_id h.values fun x hx y hy => rowsSelected_range (hs.values x hx) hy
  · exact ifPresent_id h.valuesLocal fun x hx y hy => forall₂_id hy fun v hv w hw =>
      rowsSelected_range (hs.valuesLocal x hx v hv) hw
  · exact ifPresent_id h.errorEstimates fun x hx y hy =>
      rowsSelected_range (hs.errorEstimates x hx) hy
  · exact ifPresent_id h.errorEstimatesLocal fun x hx y hy => forall₂_id hy fun v hv w hw =>
      rowsSelected_range (hs.errorEstimatesLocal x hx v hv) hw

/-- **C31.** Choosing all rows and columns of Jacobians gives them back. -/
theorem C31_all_jacobians {nIn nOut : Nat} {j j' : List (List (List K))}
    (hj : JacFits nIn nOut j) (h : JacSelected (List.range nIn) (List.range nOut) j j') :
    j' = j := by
  apply forall₂_id h
  rintro M hM M' ⟨N, h1, h2⟩
  obtain rfl := isSelection_range (hj M hM).1 h1
  exact rowsSelected_range (hj _ hM).2 h2

end c31

/-! ### Concrete cases -/

namespace Ex

/-- Two inputs, two outputs, two samples. -/
def chooseDisc : Disc ℚ where
  input := some { dim := 2
                  domain := some [(0, 1), (0, 4)]
                  referenceValue := some [1, 2]
                  glob := { values := some [[0, 1], [1, 3]]
                            volumes := some [1 / 2, 1 / 2]
                            jacobians := some [[[1, 2], [3, 4]], [[5, 6], [7, 8]]] } }
  output := some { dim := 2, glob := { values := some [[10, 20], [30, 40]] } }

/-- One input, both outputs in the other order. -/
def chosen : Option (Disc ℚ) :=
  (chooseDisc.chooseInputsOutputs 1 (some [1]) (some [1, 0])).toOption

/-- C31: the result. -/
example : (chosen.bind fun d => d.input.bind fun i => i.glob.values) = some [[1], [3]] ∧
    (chosen.bind fun d => d.input.bind fun i => i.glob.jacobians) =
      some [[[4], [2]], [[8], [6]]] ∧
    (chosen.bind fun d => d.output.bind fun i => i.glob.values) = some [[20, 10], [40, 30]] ∧
    (chosen.bind fun d => d.input.bind fun i => i.domain) = some [(0, 4)] ∧
    (chosen.bind fun d => d.input.bind fun i => i.referenceValue) = some [2] := by
  decide +kernel

/-- C31: the hypotheses of `C31_total` are met. -/
example : ∃ i o, chooseDisc.input = some i ∧ chooseDisc.output = some o ∧ Consistent i 2 ∧
    Consistent o 2 ∧ RowsHave i ∧ RowsHave o ∧
    (∀ j, i.glob.jacobians = some j → JacFits i.dim o.dim j) := by
  refine ⟨_, _, rfl, rfl, consistent_of _ _ rfl rfl, consistent_of _ _ rfl rfl, ?_, ?_, ?_⟩
  · constructor <;> (intro v hv; cases hv; try decide)
  · constructor <;> (intro v hv; cases hv; try decide)
  · intro j hj
    cases hj
    unfold JacFits
    decide

/-- **C31, negation.** Choosing everything is not the identity: the volumes are lost. -/
theorem C31_negation_identity :
    (chooseDisc.input.bind (·.glob.volumes)) = some [1 / 2, 1 / 2] ∧
    ((chooseDisc.chooseInputsOutputs 1 (some [0, 1]) (some [0, 1])).toOption.bind
      fun d => d.input.map (·.glob.volumes)) = some none := by decide +kernel

/-- **C31, negation.** The documented default `None` raises. -/
theorem C31_negation_default :
    errOf (chooseDisc.chooseInputsOutputs 1 none (some [0])) = some .typeError ∧
    errOf (chooseDisc.chooseInputsOutputs 1 (some [0]) none) = some .typeError := by decide +kernel

end Ex

end BET
