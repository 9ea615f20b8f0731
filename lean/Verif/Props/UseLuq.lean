import Verif.Model.UseLuq
import Verif.Props.CalculateR

/-!
# C105: the interface to LUQ
-/

set_option autoImplicit false
set_option linter.unusedSectionVars false
set_option linter.unusedSimpArgs false

namespace BET

section
variable {K : Type}

/-! ## Specification -/

/-- The set has the dimension, labels (also globally) and cluster maps. -/
def Spec.Labelled (s : MapSet K) (dim : Nat) (labels : Option (List Int))
    (maps : Option (List (List (List K)))) : Prop :=
  s.set.dim = dim ∧ s.set.glob.region = labels ∧ s.maps = maps

open Spec

/-! ## Lemmas -/

theorem globalized_region (size dim : Nat) (labels : Option (List Int)) (maps : Option (List (List (List K)))) :
    (UseLuq.globalizeMapSet (UseLuq.labelledSet size dim labels maps)).set.glob.region =
      labels.map fun l => (List.replicate size l).flatten := by
  cases labels <;> rfl

theorem makeDisc_inv {size : Nat} {u : UseLuq K} {d1 : LuqDisc K} {d2 : Option (LuqDisc K)}
    (h : u.makeDisc size = .ok (d1, d2)) :
    ∃ l pcs dim, u.learn = some l ∧ l.numPcs = some pcs ∧ pcs[0]? = some dim ∧
      d1.input = u.predictSet.localToGlobal ∧
      d1.output = UseLuq.globalizeMapSet (UseLuq.labelledSet size dim l.predictLabels l.predictMaps) ∧
      (u.obsSet = none → d2 = none ∧
        d1.observed = some (UseLuq.labelledSet size dim l.obsLabels l.obsMaps)) ∧
      ∀ s, u.obsSet = some s → d1.observed =
          some (UseLuq.globalizeMapSet (UseLuq.labelledSet size dim l.obsLabels l.obsMaps)) ∧
        d2 = some ⟨s.localToGlobal,
          UseLuq.globalizeMapSet (UseLuq.labelledSet size dim l.obsLabels l.obsMaps), none⟩ := by
  simp only [UseLuq.makeDisc, bind_eq_ok] at h
  obtain ⟨l, hl, pcs, hp, dim, hd, _, -, q, hq, h⟩ := h
  cases (pure_eq_ok _ _).mp h
  refine ⟨l, pcs, dim, (orErr_eq_ok _ _ _).mp hl, (orErr_eq_ok _ _ _).mp hp, (getIdx_eq_ok _ _ _).mp hd, rfl, rfl, ?_, ?_⟩
  · intro ho
    rw [ho] at hq
    cases (pure_eq_ok _ _).mp hq
    exact ⟨rfl, rfl⟩
  · intro s ho
    rw [ho] at hq
    simp only [UseLuq.obsDisc, bind_eq_ok] at hq
    obtain ⟨_, -, hq⟩ := hq
    cases (pure_eq_ok _ _).mp hq
    exact ⟨rfl, rfl⟩

/-! ## Theorems -/

/-- C105: on one process, `make_disc` pairs the prediction set with an output set that has the labels and maps LUQ
found for the predictions, and with an observed set that has the maps found for the observations; both have the
dimension of the first cluster. If there is an observation set, the second discretization pairs it with the same
observed set, which then has its labels. -/
theorem C105_make_disc {u : UseLuq K} {d1 : LuqDisc K} {d2 : Option (LuqDisc K)}
    (h : u.makeDisc 1 = .ok (d1, d2)) :
    ∃ l pcs dim o, u.learn = some l ∧ l.numPcs = some pcs ∧ pcs[0]? = some dim ∧
      d1.input = u.predictSet.localToGlobal ∧ Labelled d1.output dim l.predictLabels l.predictMaps ∧
      d1.observed = some o ∧ o.set.dim = dim ∧ o.maps = l.obsMaps ∧
      (u.obsSet = none → d2 = none) ∧
      ∀ s, u.obsSet = some s → Labelled o dim l.obsLabels l.obsMaps ∧
        d2 = some ⟨s.localToGlobal, o, none⟩ := by
  obtain ⟨l, pcs, dim, h1, h2, h3, h4, h5, h6, h7⟩ := makeDisc_inv h
  have hlab : ∀ labels (maps : Option (List (List (List K)))),
      Labelled (UseLuq.globalizeMapSet (UseLuq.labelledSet 1 dim labels maps)) dim labels maps := by
    intro labels maps
    refine ⟨rfl, ?_, rfl⟩
    rw [globalized_region]
    cases labels <;> simp
  cases ho : u.obsSet with
  | none =>
    obtain ⟨h8, h9⟩ := h6 ho
    exact ⟨l, pcs, dim, _, h1, h2, h3, h4, h5 ▸ hlab _ _, h9, rfl, rfl, fun _ => h8, by simp⟩
  | some s =>
    obtain ⟨h8, h9⟩ := h7 s ho
    refine ⟨l, pcs, dim, _, h1, h2, h3, h4, h5 ▸ hlab _ _, h8, rfl, rfl, by simp, ?_⟩
    intro s' hs
    cases hs
    exact ⟨hlab _ _, h9⟩

/-- The output sets have no values, so their number of samples is not compared with that of the inputs. -/
theorem luq_new {size dim : Nat} {labels : Option (List Int)} {maps : Option (List (List (List K)))}
    {i : SampleSet K} {n : Nat} (hi : i.checkNum size = .ok n) :
    ∃ d, Disc.new size (some i) (some (UseLuq.labelledSet size dim labels maps).set) none none none = .ok d := by
  have hloc : ∀ rs, ∃ m, SampleSet.checkNumLocals (UseLuq.labelledSet size dim labels maps).set rs = .ok m := by
    intro rs
    induction rs with
    | nil => exact ⟨[], rfl⟩
    | cons r rs ih =>
      obtain ⟨m, hm⟩ := ih
      have hr : ∃ k, SampleSet.checkNumLocal (UseLuq.labelledSet size dim labels maps).set r = .ok k := by
        cases labels <;> exact ⟨_, rfl⟩
      obtain ⟨k, hk⟩ := hr
      exact ⟨_, by simp only [SampleSet.checkNumLocals, hk, ok_bind, hm]; rfl⟩
  obtain ⟨m, hm⟩ := hloc (List.range size)
  have hc : (UseLuq.labelledSet size dim labels maps).set.checkNum size = .ok (allreduceSum m) := by
    unfold SampleSet.checkNum
    simp only [show SampleSet.checkNumLoop ((UseLuq.labelledSet size dim labels maps).set.glob.toList List.length)
      none = .ok none from rfl, ok_bind, show SampleSet.colsOk
        (UseLuq.labelledSet size dim labels maps).set.dim (UseLuq.labelledSet size dim labels maps).set.glob.values =
          true from rfl, if_true, hm]
    rfl
  refine ⟨{ input := some i, output := some (UseLuq.labelledSet size dim labels maps).set }, ?_⟩
  simp only [Disc.new, Option.isSome_some, if_true, Disc.checkNums, orErr_some, ok_bind, hc, hi,
    show (UseLuq.labelledSet size dim labels maps).set.glob.values = none from rfl]
  simp
  rfl

/-- C105: `make_disc` succeeds whenever LUQ has found the principal components and the input sets are consistent;
before, it raises. -/
theorem C105_succeeds {size : Nat} {u : UseLuq K} {l : LuqResult K} {dim : Nat} {pcs : List Nat} {n : Nat}
    (hl : u.learn = some l) (hp : l.numPcs = some (dim :: pcs)) (hi : u.predictSet.checkNum size = .ok n)
    (ho : ∀ s, u.obsSet = some s → ∃ m, s.checkNum size = .ok m) : ∃ r, u.makeDisc size = .ok r := by
  obtain ⟨d, hd⟩ := luq_new (dim := dim) (labels := l.predictLabels) (maps := l.predictMaps) hi
  have hobs : ∃ q, UseLuq.obsDisc size (UseLuq.labelledSet size dim l.obsLabels l.obsMaps) u.obsSet = .ok q := by
    cases hos : u.obsSet with
    | none => exact ⟨_, rfl⟩
    | some s =>
      obtain ⟨m, hm⟩ := ho s hos
      obtain ⟨e, he⟩ := luq_new (dim := dim) (labels := l.obsLabels) (maps := l.obsMaps) hm
      exact ⟨_, by simp only [UseLuq.obsDisc, he, ok_bind]; rfl⟩
  obtain ⟨q, hq⟩ := hobs
  refine ⟨(⟨u.predictSet.localToGlobal, UseLuq.globalizeMapSet
    (UseLuq.labelledSet size dim l.predictLabels l.predictMaps), some q.2⟩, q.1), ?_⟩
  simp only [UseLuq.makeDisc, hl, hp, orErr_some, ok_bind, getIdx, List.getElem?_cons_zero, hd, hq]
  rfl

/-- C105: before `initialize`, the wrappers and `make_disc` raise `AttributeError`; before LUQ has learnt the
quantities of interest `make_disc` raises `TypeError`. -/
theorem C105_order (size : Nat) (u : UseLuq K) (f : LuqResult K → LuqResult K) :
    (u.learn = none → u.luqMethod f = .error .attributeError ∧ u.makeDisc size = .error .attributeError) ∧
    ∀ l, u.learn = some l → l.numPcs = none → u.makeDisc size = .error .typeError := by
  constructor
  · intro h
    simp [UseLuq.luqMethod, UseLuq.makeDisc, h, orErr_none, error_bind]
  · intro l h h'
    simp [UseLuq.makeDisc, h, h', orErr_none, orErr_some, ok_bind, error_bind]

/-- C105: `setup` hands to LUQ the time series of the model at the values of the prediction set and of the
observation set, and the times; it needs an observation set. `initialize` uses its arguments, and where they are
missing the series that were computed or set by hand. -/
theorem C105_series (u : UseLuq K) :
    (∀ u', u.setup = .ok u' → ∃ v s w l, u.predictSet.glob.values = some v ∧ u.obsSet = some s ∧
      s.glob.values = some w ∧ u'.learn = some l ∧ l.predicted = some (u.model v u.times) ∧
      l.observed = some (u.model w u.times) ∧ l.times = u.times) ∧
    (∀ v, u.predictSet.glob.values = some v → u.obsSet = none → u.setup = .error .attributeError) ∧
    (∀ ts v, u.predictSet.glob.values = some v → ∃ u' l, u.getPredictions = .ok u' ∧
      ((u'.setObserved ts).startLearning none none none).learn = some l ∧ l.predicted = some (u.model v u.times) ∧
      l.observed = some ts ∧ l.times = u.times) ∧
    ∀ p o t, ∃ l, (u.startLearning (some p) (some o) (some t)).learn = some l ∧ l.predicted = some p ∧
      l.observed = some o ∧ l.times = t := by
  refine ⟨?_, ?_, ?_, ?_⟩
  · intro u' h
    simp only [UseLuq.setup, UseLuq.getPredictions, UseLuq.getObs, bind_eq_ok] at h
    obtain ⟨u1, ⟨v, hv, h1⟩, u2, ⟨s, hs, w, hw, h2⟩, h⟩ := h
    have h1 := (pure_eq_ok _ _).mp h1
    subst h1
    have h2 := (pure_eq_ok _ _).mp h2
    subst h2
    cases (pure_eq_ok _ _).mp h
    exact ⟨v, s, w, _, (orErr_eq_ok _ _ _).mp hv, (orErr_eq_ok _ _ _).mp hs, (orErr_eq_ok _ _ _).mp hw, rfl, rfl, rfl, rfl⟩
  · intro v hv ho
    simp [UseLuq.setup, UseLuq.getPredictions, UseLuq.getObs, hv, ho, orErr_some, orErr_none, ok_bind, error_bind,
      pure_bind_ok]
  · intro ts v hv
    refine ⟨{ u with predictedSeries := some (u.model v u.times) }, _, ?_, rfl, rfl, rfl, rfl⟩
    simp only [UseLuq.getPredictions, hv, orErr_some, ok_bind]
    rfl
  · intro p o t
    exact ⟨_, rfl, rfl, rfl, rfl⟩

/-- C105, negation: without an observation set (observed series set by hand) the observed set of the discretization
has no global labels, on any number of processes. -/
theorem C105_negation_observed {size : Nat} {u : UseLuq K} {d1 : LuqDisc K} {d2 : Option (LuqDisc K)}
    (h : u.makeDisc size = .ok (d1, d2)) (ho : u.obsSet = none) :
    ∃ o, d1.observed = some o ∧ o.set.glob.region = none := by
  obtain ⟨l, pcs, dim, -, -, -, -, -, h6, -⟩ := makeDisc_inv h
  exact ⟨_, (h6 ho).2, rfl⟩

end

section
variable {K : Type} [Field K] [LinearOrder K]

/-- C105, negation: therefore the inversion of the discretization replaces the labels LUQ found for the predictions
by zeros. -/
theorem C105_negation_clusters {F : KdeFit K} {size n m : Nat} {u : UseLuq K} {d1 : LuqDisc K}
    {d2 : Option (LuqDisc K)} (h : u.makeDisc size = .ok (d1, d2)) (ho : u.obsSet = none) {o : MapSet K}
    (hobs : d1.observed = some o) {k : Kdes K}
    (hk : generateKdes F (d1.output.forInversion n) (o.forInversion m) = .ok k) :
    k.regP = List.replicate n 0 := by
  obtain ⟨o', ho', hreg⟩ := C105_negation_observed h ho
  rw [hobs] at ho'
  cases ho'
  simp only [generateKdes, bind_eq_ok] at hk
  obtain ⟨num, -, p, -, q, -, hk⟩ := hk
  cases (pure_eq_ok _ _).mp hk
  simp [labels, MapSet.forInversion, hreg]

end

section
variable {K : Type}

/-- C105, negation: on more than one process the predictions have `size` times as many labels as LUQ found, and no
exception is raised. -/
theorem C105_negation_parallel {size : Nat} {u : UseLuq K} {l : LuqResult K} {labels : List Int}
    {d1 : LuqDisc K} {d2 : Option (LuqDisc K)} (hl : u.learn = some l) (hlab : l.predictLabels = some labels)
    (h : u.makeDisc size = .ok (d1, d2)) :
    ∃ r, d1.output.set.glob.region = some r ∧ r.length = size * labels.length := by
  obtain ⟨l', pcs, dim, h1, -, -, -, h5, -, -⟩ := makeDisc_inv h
  rw [hl] at h1
  cases h1
  refine ⟨_, by rw [h5, globalized_region, hlab]; rfl, ?_⟩
  simp

end

/-! ### Examples -/

namespace Ex

def luqIn : SampleSet ℚ := { dim := 1, glob := { values := some [[0], [1], [2]] } }

def luqRes : LuqResult ℚ where
  predicted := none
  observed := none
  times := [0, 1]
  numPcs := some [1, 2]
  predictLabels := some [0, 1, 0]
  predictMaps := some [[[5], [6]], [[7, 8]]]
  obsLabels := some [1, 0]
  obsMaps := some [[[5]], [[9, 9]]]

def luq1 : UseLuq ℚ where
  predictSet := luqIn
  model := fun v _ => v
  times := [0, 1]
  obsSet := some { dim := 1, glob := { values := some [[3], [4]] } }
  learn := some luqRes

def luq2 : UseLuq ℚ := { luq1 with obsSet := none }

/-- Hypotheses of `C105_make_disc`. The second cluster has two components, the sets have dimension one. -/
example : ((luq1.makeDisc 1).toOption.map fun r =>
    (r.1.output.set.dim, r.1.output.set.glob.region, r.1.observed.map fun o => o.set.glob.region)) =
      some (1, some [0, 1, 0], some (some [1, 0])) := by
  decide +kernel

/-- Hypotheses of `C105_negation_observed` and `C105_negation_clusters`: with two clusters, the label 1 is lost. -/
example : ((luq2.makeDisc 1).toOption.map fun r =>
    (r.1.output.set.glob.region, r.1.observed.map fun o => o.set.glob.region)) =
      some (some [0, 1, 0], some none) := by
  decide +kernel

example : ((luq2.makeDisc 1).toOption.bind fun r => r.1.observed.bind fun o =>
    (generateKdes (fun _ _ _ => (1 : ℚ)) (r.1.output.forInversion 3) (o.forInversion 2)).toOption.map
      fun k => k.regP) = some [0, 0, 0] := by
  decide +kernel

/-- Hypotheses of `C105_negation_parallel` for two processes. -/
example : ((luq1.makeDisc 2).toOption.bind fun r => r.1.output.set.glob.region) = some [0, 1, 0, 0, 1, 0] := by
  decide +kernel

/-- Hypotheses of `C105_series`. -/
example : (luq1.setup.toOption.bind fun u => u.learn.bind fun l => l.observed) = some [[3], [4]] := by
  decide +kernel

/-- Hypotheses of `C105_succeeds`. -/
example : luqIn.checkNum 1 = .ok 3 := rfl

end Ex

end BET
