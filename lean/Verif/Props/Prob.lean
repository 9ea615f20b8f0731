import Verif.Lemmas.Fresh
import Verif.Spec.Examples
import Mathlib.Tactic.FieldSimp
import Mathlib.Tactic.Positivity

/-!
# C01, C02, C03: `calculateP.prob`
-/

set_option linter.unusedSectionVars false
set_option linter.unusedSimpArgs false

set_option autoImplicit false

namespace BET

open Spec

variable {K : Type} [Field K] [LinearOrder K]

/-- What `prob` left behind in a discretization: the pointer, volumes and output
probabilities it used and the probabilities it stored, and that the first two are
distributed over the same processes. -/
structure ProbResult (d' : Disc K) (ptr : Chunks Nat) (vols P : Chunks K) (probs : List K) :
    Prop where
  hptr : d'.ioPtrLocal = some ptr
  hvols : ∃ inp, d'.input = some inp ∧ inp.loc.volumes = some vols ∧
    inp.loc.probabilities = some P
  hprobs : ∃ ops, d'.outputProb = some ops ∧ ops.glob.probabilities = some probs
  hranks : ptr.length = vols.length

/-- Helper: the entries that `prob` stores. -/
theorem prob_entries {G : Geometry K} {size : Nat} {d d' : Disc K} {g : Bool}
    (h : prob G size d g = .ok d') {ptr : Chunks Nat} {vols P : Chunks K} {probs : List K}
    (r : ProbResult d' ptr vols P probs) :
    ((∃ p ∈ probs, 0 < p) → SameShape ptr vols ∧
      P = List.zipWith (List.zipWith fun c v =>
        if 0 < probs.getD c 0 ∧ 0 < mass ptr.flatten vols.flatten c then
          probs.getD c 0 * v / mass ptr.flatten vols.flatten c else 0) ptr vols) ∧
    ((¬ ∃ p ∈ probs, 0 < p) → P = ptr.map fun c => List.replicate c.length 0) := by
  obtain ⟨inp, ops, ptr', P', n, hin, hops, hptr, hP, _, hn, hloop⟩ := prob_inv h
  obtain ⟨inp', hin', hv', hP'⟩ := r.hvols
  obtain ⟨ops', hops', hpr'⟩ := r.hprobs
  rw [hin] at hin'; cases hin'
  rw [hops] at hops'; cases hops'
  have := r.hptr
  rw [hptr] at this; cases this
  rw [hP] at hP'; cases hP'
  have hlen := hn probs hpr'
  rw [hpr', hv'] at hloop
  constructor
  · rintro ⟨p, hp, hpos⟩
    obtain ⟨i, hi, rfl⟩ := List.getElem_of_mem hp
    obtain ⟨vs, hvs, hsh⟩ := probLoop_shape hloop (i := i) (by omega) (p := probs[i])
      (by simp) hpos
    cases hvs
    have hsh := hsh r.hranks
    refine ⟨hsh, ?_⟩
    rw [probLoop_eq _ _ _ _ hsh (by omega)] at hloop
    cases hloop
    congr 2
    funext c v
    by_cases hc : c < n
    · simp [hc]
    · have : probs.getD c 0 = 0 := by simp [List.getD, show probs.length ≤ c by omega]
      simp only [hc, this, gt_iff_lt, lt_irrefl, false_and, and_false]
  · intro hno
    have hbody : ∀ (Q : Chunks K) (i : Nat), i < n →
        probBody (some probs) ptr (some vols) Q i = .ok Q := by
      intro Q i hi
      have hg : getIdx probs i = .ok probs[i] := by simp [getIdx, show i < probs.length by omega]
      have hnp : ¬ probs[i] > 0 := fun hc => hno ⟨_, List.getElem_mem _, hc⟩
      simp [probBody, hg, hnp, pure, Except.pure]
    have hfold : ∀ m, m ≤ n → ∀ Q : Chunks K,
        (List.range m).foldlM (probBody (some probs) ptr (some vols)) Q = .ok Q := by
      intro m
      induction m with
      | zero => intro _ Q; rfl
      | succ m ih =>
        intro hm Q
        rw [List.range_succ, List.foldlM_append, ih (by omega)]
        simp [hbody Q m (by omega), pure, Except.pure]
    unfold probLoop at hloop
    rw [hfold n (Nat.le_refl _)] at hloop
    cases hloop
    rfl

variable [IsStrictOrderedRing K]

/-- **C01.** After `prob`, for every output cell `i` of positive probability whose
preimage has positive volume, the input probabilities of the samples in the
preimage add up to the probability of the cell. -/
theorem C01_prob_cell_mass {G : Geometry K} {size : Nat} {d d' : Disc K} {g : Bool}
    (h : prob G size d g = .ok d') {ptr : Chunks Nat} {vols P : Chunks K} {probs : List K}
    (r : ProbResult d' ptr vols P probs) (i : Nat) (p : K) (hp : probs[i]? = some p)
    (hpos : 0 < p) (hreach : 0 < mass ptr.flatten vols.flatten i) :
    mass ptr.flatten P.flatten i = p := by
  obtain ⟨hsh, hP⟩ := (prob_entries h r).1 ⟨p, List.mem_of_getElem? hp, hpos⟩
  rw [hP, flatten_zipWith_zipWith _ hsh, mass_map_zipWith]
  have hg : probs.getD i 0 = p := by simp [List.getD, hp]
  have e : (fun v => if 0 < probs.getD i 0 ∧ 0 < mass ptr.flatten vols.flatten i then
      probs.getD i 0 * v / mass ptr.flatten vols.flatten i else 0) =
      fun v => p / mass ptr.flatten vols.flatten i * v := by
    funext v
    simp only [hg, hpos, hreach, and_self, if_true]
    ring
  rw [e, mass_map_mul]
  field_simp

/-- **C01.** A sample whose output cell has no positive probability, or a preimage of
no volume, gets probability 0. -/
theorem C01_prob_zero_elsewhere {G : Geometry K} {size : Nat} {d d' : Disc K} {g : Bool}
    (h : prob G size d g = .ok d') {ptr : Chunks Nat} {vols P : Chunks K} {probs : List K}
    (r : ProbResult d' ptr vols P probs) (j c : Nat) (hj : ptr.flatten[j]? = some c)
    (hno : ¬ ∃ p, probs[c]? = some p ∧ 0 < p ∧ 0 < mass ptr.flatten vols.flatten c) :
    P.flatten[j]? = some 0 := by
  by_cases hex : ∃ p ∈ probs, 0 < p
  · obtain ⟨hsh, hP⟩ := (prob_entries h r).1 hex
    rw [hP, flatten_zipWith_zipWith _ hsh]
    have hlt := (List.getElem?_eq_some_iff.mp hj).1
    have hlt' : j < vols.flatten.length := by rw [← hsh.length_flatten]; exact hlt
    rw [List.getElem?_zipWith, hj, List.getElem?_eq_getElem hlt']
    simp only [Option.map₂_some_some, Option.some.injEq]
    rw [if_neg]
    rintro ⟨h1, h2⟩
    apply hno
    cases hc : probs[c]? with
    | none => simp [List.getD, hc] at h1
    | some p => exact ⟨p, rfl, by simpa [List.getD, hc] using h1, h2⟩
  · rw [(prob_entries h r).2 hex, flatten_zeros, List.getElem?_map, hj]
    rfl

/-- **C01.** The total input probability is the total probability of the reachable
cells: what sits on unreachable cells is lost. -/
theorem C01_prob_total {G : Geometry K} {size : Nat} {d d' : Disc K} {g : Bool}
    (h : prob G size d g = .ok d') {ptr : Chunks Nat} {vols P : Chunks K} {probs : List K}
    (r : ProbResult d' ptr vols P probs) (hptr : ∀ c ∈ ptr.flatten, c < probs.length) :
    P.flatten.sum = ((List.range probs.length).map fun i =>
      if 0 < probs.getD i 0 ∧ 0 < mass ptr.flatten vols.flatten i then probs.getD i 0
      else 0).sum := by
  have hlen : ptr.flatten.length = P.flatten.length := by
    by_cases hex : ∃ p ∈ probs, 0 < p
    · obtain ⟨hsh, hP⟩ := (prob_entries h r).1 hex
      rw [hP, flatten_zipWith_zipWith _ hsh, List.length_zipWith, hsh.length_flatten]
      simp
    · rw [(prob_entries h r).2 hex, flatten_zeros, List.length_map]
  rw [← sum_range_mass ptr.flatten P.flatten probs.length hlen hptr]
  congr 1
  refine List.map_congr_left fun i hi => ?_
  rw [List.mem_range] at hi
  have hg : probs.getD i 0 = probs[i] := by simp [List.getD, hi]
  by_cases hc : 0 < probs.getD i 0 ∧ 0 < mass ptr.flatten vols.flatten i
  · rw [if_pos hc, hg]
    exact C01_prob_cell_mass h r i probs[i] (by simp [hi]) (hg ▸ hc.1) hc.2
  · rw [if_neg hc]
    have hz : ∀ (j c : Nat), ptr.flatten[j]? = some c → c = i → P.flatten[j]? = some 0 := by
      rintro j c hj rfl
      refine C01_prob_zero_elsewhere h r j c hj ?_
      rintro ⟨p, hp, h1, h2⟩
      exact hc ⟨by simpa [List.getD, hp] using h1, h2⟩
    generalize P.flatten = w at hz hlen
    generalize ptr.flatten = c at hz hlen
    induction c generalizing w with
    | nil => simp
    | cons a c ih =>
      cases w with
      | nil => simp
      | cons x w =>
        rw [mass_cons, ih w (fun j e hj he => by simpa using hz (j + 1) e (by simpa using hj) he)
          (by simpa using hlen)]
        by_cases ha : a = i
        · have := hz 0 a rfl ha
          simp at this
          simp [this]
        · simp [ha]

/-- **C02.** Each sample of the preimage of a reachable cell `i` gets
`P_i * volume / (volume of the preimage)`. -/
theorem C02_prob_proportional {G : Geometry K} {size : Nat} {d d' : Disc K} {g : Bool}
    (h : prob G size d g = .ok d') {ptr : Chunks Nat} {vols P : Chunks K} {probs : List K}
    (r : ProbResult d' ptr vols P probs) (j i : Nat) (p v : K)
    (hj : ptr.flatten[j]? = some i) (hv : vols.flatten[j]? = some v)
    (hp : probs[i]? = some p) (hpos : 0 < p) (hreach : 0 < mass ptr.flatten vols.flatten i) :
    P.flatten[j]? = some (p * v / mass ptr.flatten vols.flatten i) := by
  obtain ⟨hsh, hP⟩ := (prob_entries h r).1 ⟨p, List.mem_of_getElem? hp, hpos⟩
  rw [hP, flatten_zipWith_zipWith _ hsh, List.getElem?_zipWith, hj, hv]
  have hg : probs.getD i 0 = p := by simp [List.getD, hp]
  simp only [Option.map₂_some_some, hg, hpos, hreach, and_self, if_true]

/-- **C02.** With non-negative volumes no probability is negative. -/
theorem C02_prob_nonneg {G : Geometry K} {size : Nat} {d d' : Disc K} {g : Bool}
    (h : prob G size d g = .ok d') {ptr : Chunks Nat} {vols P : Chunks K} {probs : List K}
    (r : ProbResult d' ptr vols P probs) (hv : ∀ v ∈ vols.flatten, 0 ≤ v) :
    ∀ x ∈ P.flatten, 0 ≤ x := by
  intro x hx
  by_cases hex : ∃ p ∈ probs, 0 < p
  · obtain ⟨hsh, hP⟩ := (prob_entries h r).1 hex
    rw [hP, flatten_zipWith_zipWith _ hsh] at hx
    obtain ⟨j, hj, rfl⟩ := List.getElem_of_mem hx
    rw [List.getElem_zipWith]
    split
    · next hc =>
      exact div_nonneg (mul_nonneg hc.1.le (hv _ (List.getElem_mem _))) hc.2.le
    · exact le_refl _
  · rw [(prob_entries h r).2 hex] at hx
    simp only [List.mem_flatten, List.mem_map] at hx
    obtain ⟨l, ⟨c, _, rfl⟩, hx⟩ := hx
    rw [List.eq_of_mem_replicate hx]

/-- **C02.** Two samples of the same cell with equal volumes have equal probability. -/
theorem C02_prob_equal_volumes {G : Geometry K} {size : Nat} {d d' : Disc K} {g : Bool}
    (h : prob G size d g = .ok d') {ptr : Chunks Nat} {vols P : Chunks K} {probs : List K}
    (r : ProbResult d' ptr vols P probs) (j k i : Nat) (v : K)
    (hj : ptr.flatten[j]? = some i) (hk : ptr.flatten[k]? = some i)
    (hvj : vols.flatten[j]? = some v) (hvk : vols.flatten[k]? = some v) :
    P.flatten[j]? = P.flatten[k]? := by
  by_cases hc : ∃ p, probs[i]? = some p ∧ 0 < p ∧ 0 < mass ptr.flatten vols.flatten i
  · obtain ⟨p, hp, hpos, hreach⟩ := hc
    rw [C02_prob_proportional h r j i p v hj hvj hp hpos hreach,
      C02_prob_proportional h r k i p v hk hvk hp hpos hreach]
  · rw [C01_prob_zero_elsewhere h r j i hj hc, C01_prob_zero_elsewhere h r k i hk hc]

/-- **C03.** Two runs of `prob`, on any numbers of processes, whose pointers, volumes
and output probabilities agree after gathering, agree in the gathered
probabilities. -/
theorem C03_prob_rank_independent {G : Geometry K} {size₁ size₂ : Nat} {d₁ d₁' d₂ d₂' : Disc K}
    {g₁ g₂ : Bool} (h₁ : prob G size₁ d₁ g₁ = .ok d₁') (h₂ : prob G size₂ d₂ g₂ = .ok d₂')
    {ptr₁ ptr₂ : Chunks Nat} {vols₁ vols₂ P₁ P₂ : Chunks K} {probs : List K}
    (r₁ : ProbResult d₁' ptr₁ vols₁ P₁ probs) (r₂ : ProbResult d₂' ptr₂ vols₂ P₂ probs)
    (hptr : ptr₁.flatten = ptr₂.flatten) (hvols : vols₁.flatten = vols₂.flatten) :
    P₁.flatten = P₂.flatten := by
  by_cases hex : ∃ p ∈ probs, 0 < p
  · obtain ⟨hs₁, hP₁⟩ := (prob_entries h₁ r₁).1 hex
    obtain ⟨hs₂, hP₂⟩ := (prob_entries h₂ r₂).1 hex
    rw [hP₁, hP₂, flatten_zipWith_zipWith _ hs₁, flatten_zipWith_zipWith _ hs₂, hptr, hvols]
  · rw [(prob_entries h₁ r₁).2 hex, (prob_entries h₂ r₂).2 hex, flatten_zeros, flatten_zeros,
      hptr]

/-- A discretization as a user builds it: input samples with volumes, output samples,
and an output probability set of any kind; only global arrays, no pointer yet. -/
structure FreshDisc (d : Disc K) (n m : Nat) (inp out ops : SampleSet K)
    (y : List (List K)) (vols probs : List K) : Prop where
  hinput : d.input = some inp
  hinputC : Consistent inp n
  hinputVals : inp.glob.values.isSome
  hinputLoc : inp.loc.values = none
  hvols : inp.glob.volumes = some vols
  houtput : d.output = some out
  houtputC : Consistent out n
  houtVals : out.glob.values = some y
  houtLoc : out.loc.values = none
  hops : d.outputProb = some ops
  hready : Ready ops m
  hprobs : ops.glob.probabilities = some probs
  hptr : d.ioPtrLocal = none

/-- **C01, C03.** On such a discretization `prob` succeeds for every number of
processes; the global probabilities it stores are those of the formula of C02, with
the cell of every output found by the query, and do not depend on the number of
processes. -/
theorem C03_prob_fresh {G : Geometry K} {d : Disc K} {n m : Nat} {inp out ops : SampleSet K}
    {y : List (List K)} {vols probs : List K} (f : FreshDisc d n m inp out ops y vols probs)
    (size : Nat) (hsize : 0 < size) :
    ∃ d' inp', prob G size d true = .ok d' ∧ d'.input = some inp' ∧
      inp'.glob.probabilities = some (List.zipWith (fun c v =>
        if 0 < probs.getD c 0 ∧ 0 < mass (y.map (ops.cell G)) vols c then
          probs.getD c 0 * v / mass (y.map (ops.cell G)) vols c else 0)
        (y.map (ops.cell G)) vols) := by
  have hcn : d.checkNums size = .ok n := by
    unfold Disc.checkNums
    simp [f.houtput, f.hinput, SampleSet.checkNum_consistent f.houtputC,
      SampleSet.checkNum_consistent f.hinputC, pure, Except.pure]
  have hy : y.length = n := f.houtputC.1.values y f.houtVals
  have hvl : vols.length = n := f.hinputC.1.volumes vols f.hvols
  have hpl : probs.length = m := f.hready.consistent.1.probabilities probs f.hprobs
  obtain ⟨ops', hset, hr', hc', hpr'⟩ := setIoPtr_fresh (G := G) (size := size) (g := false)
    f.houtput f.houtputC f.houtVals f.houtLoc f.hops f.hready
  have hens : d.ensureIoPtr G size false = d.setIoPtr G size false := by
    simp [Disc.ensureIoPtr, f.hptr]
  have hsh : SameShape (arraySplit size (y.map (ops.cell G))) (arraySplit size vols) :=
    arraySplit_sameShape _ _ _ (by simp [hy, hvl])
  have hvs : (inp.splitSet size n).loc.volumes = some (arraySplit size vols) := by
    simp [SampleSet.splitSet, Arrays.map₂, f.hvols]
  have hloop := probLoop_eq probs _ _ m hsh (by omega)
  unfold prob
  simp only [hcn, ok_bind, f.hops, orErr_some,
    SampleSet.checkNum_consistent f.hready.consistent, hens, hset, f.hinput,
    SampleSet.localized_none size f.hinputLoc, SampleSet.globalToLocal_ok f.hinputC, hpr',
    f.hprobs, hvs, hloop]
  refine ⟨_, _, rfl, rfl, ?_⟩
  simp only [if_true, getGlobalValues, Option.some.injEq]
  rw [flatten_zipWith_zipWith _ hsh, flatten_arraySplit _ _ hsize, flatten_arraySplit _ _ hsize]
  congr 1
  funext c v
  by_cases hc : c < m
  · simp [hc]
  · have : probs.getD c 0 = 0 := by simp [List.getD, show probs.length ≤ c by omega]
    simp only [hc, this, gt_iff_lt, lt_irrefl, false_and, and_false]

end BET

namespace BET.Ex

open BET.Spec

/-- Four samples, three output cells of which the last is not reachable. -/
def probDisc : Disc ℚ where
  input := some { dim := 1, glob :=
    { values := some [[0], [1], [2], [3]], volumes := some [1/8, 3/8, 1/4, 1/4] } }
  output := some { dim := 1, glob := { values := some [[0], [1/10], [1], [11/10]] } }
  outputProb := some { dim := 1, glob :=
    { values := some [[0], [1], [7]], probabilities := some [1/2, 1/4, 1/4] } }

/-- The hypotheses of `C03_prob_fresh` are met. -/
example : ∃ n m inp out ops y vols probs, FreshDisc probDisc n m inp out ops y vols probs := by
  have hc : ∀ (s : SampleSet ℚ) (n : Nat), s.checkNum 1 = .ok n → s.glob.values.isSome = true →
      Consistent s n := fun s n h hv => SampleSet.consistent_of_checkNum h hv
  exact ⟨4, 3, _, _, _, _, _, _, rfl, hc _ _ rfl rfl, rfl, rfl, rfl, rfl, hc _ _ rfl rfl, rfl,
    rfl, rfl, ⟨hc _ _ rfl rfl, by decide, rfl, Or.inl rfl, nofun, nofun⟩, rfl, rfl⟩

/-- Two processes; the values of `prob` are as expected: cell 0 has mass 1/2 over
volumes 1/8 and 3/8, cell 1 has mass 1/4 over equal volumes, cell 2 is lost. -/
example : ((prob G 2 probDisc true).toOption.bind (·.input)).bind (·.glob.probabilities) =
    some [1/8, 3/8, 1/8, 1/8] := by decide +kernel

/-- The hypotheses of the C01 and C02 theorems hold of that result. -/
example : ∃ d' ptr vols P probs, prob G 2 probDisc true = .ok d' ∧
    ProbResult d' ptr vols P probs ∧ probs[0]? = some (1/2) ∧
    0 < mass ptr.flatten vols.flatten 0 := by
  have e1 : (prob G 2 probDisc true).toOption.bind (·.ioPtrLocal) = some [[0, 0], [1, 1]] := by
    decide +kernel
  have e2 : (prob G 2 probDisc true).toOption.bind (fun d => d.input.bind fun s =>
      s.loc.volumes.bind fun v => s.loc.probabilities.map fun p => (v, p)) =
      some ([[1/8, 3/8], [1/4, 1/4]], [[1/8, 3/8], [1/8, 1/8]]) := by decide +kernel
  have e3 : (prob G 2 probDisc true).toOption.bind (fun d => d.outputProb.bind fun s =>
      s.glob.probabilities) = some [1/2, 1/4, 1/4] := by decide +kernel
  cases h : prob G 2 probDisc true with
  | error e => rw [h] at e1; cases e1
  | ok d' =>
    rw [h] at e1 e2 e3
    simp only [Except.toOption, Option.bind_some, Option.bind_eq_some_iff, Option.map_eq_some_iff,
      Prod.mk.injEq] at e1 e2 e3
    obtain ⟨inp, hin, v, hv, p, hp, rfl, rfl⟩ := e2
    obtain ⟨ops, hops, hpr⟩ := e3
    exact ⟨d', _, _, _, _, rfl, ⟨e1, ⟨inp, hin, hv, hp⟩, ⟨ops, hops, hpr⟩, rfl⟩, rfl,
      by decide +kernel⟩

end BET.Ex
