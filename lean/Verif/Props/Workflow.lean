import Verif.Model.Workflow
import Verif.Props.SimpleFun3
import Verif.Props.Sampler
import Verif.Props.Sampling
import Verif.Props.Prob

/-!
# C108, C109: a whole inverse problem
-/

set_option autoImplicit false
set_option linter.unusedSectionVars false
set_option linter.unusedSimpArgs false

namespace BET

open Spec

variable {K : Type} [Field K] [LinearOrder K]

/-! ### Samples and model -/

/-- A set that the processes have not shared out yet, or whose local arrays are the shares of its
global ones. -/
def Spec.Distributed (size : Nat) (s : SampleSet K) : Prop :=
  s.loc = {} ∨ s.loc = Arrays.map₂ (SampleSet.splitArr size) s.glob {}

/-- What the discretization looks like after the model has been run: `n` samples `v` with equal
volumes, their outputs `f`, all shared out among the processes. -/
structure RanDisc (size : Nat) (d : Disc K) (v : List (List K)) (f : List K → List K)
    (outDim : Nat) (inp out : SampleSet K) : Prop where
  hinput : d.input = some inp
  hinputC : Consistent inp v.length
  hinputVals : inp.glob.values = some v
  hinputLoc : inp.loc.values = some (arraySplit size v)
  hvols : inp.loc.volumes = some (arraySplit size (List.replicate v.length (1 / (v.length : K))))
  houtput : d.output = some out
  houtputC : Consistent out v.length
  houtputVals : out.glob.values = some (v.map f)
  houtLoc : out.loc.values = some (arraySplit size (v.map f))
  houtDim : out.dim = outDim
  href : out.referenceValue = none
  hptr : d.ioPtrLocal = none

theorem sampleAndRun_full {size : Nat} (hsize : 0 < size)
    {model : Nat → List (List K) → ModelOutput K} {outDim : Nat}
    {f e : List K → List K} {j : List K → List (List K)} (hm : RowWise model false false f e j)
    {s : SampleSet K} {v : List (List K)} (hcons : Consistent s v.length)
    (hv : s.glob.values = some v) (hne : v ≠ []) (hloc : Distributed size s)
    (hf : ∀ row ∈ v, (f row).length = outDim) :
    ∃ d inp out, sampleAndRun size model outDim s = .ok d ∧ RanDisc size d v f outDim inp out ∧
      inp.dim = s.dim ∧ inp.domain = s.domain ∧ d.emInput = none := by
  have hn : v.length ≠ 0 := by simpa using hne
  have hc := consistent_setVolumes hcons (vol := List.replicate v.length (1 / (v.length : K) * 1))
    (by simp)
  set u : SampleSet K := { s with
    glob := { s.glob with
      volumes := some (List.replicate v.length (1 / (v.length : K) * 1)) } } with hu
  have hl : Arrays.map₂ (SampleSet.splitArr size) u.glob s.loc =
      Arrays.map₂ (SampleSet.splitArr size) u.glob {} := by
    have key : ∀ (α : Type) (g : Option (List α)),
        SampleSet.splitArr size g (SampleSet.splitArr size g none) = SampleSet.splitArr size g none := by
      rintro α (_ | xs) <;> rfl
    rcases hloc with h | h
    · rw [h]
    · rw [h]
      simp only [hu, Arrays.map₂, key]
      simp
  set w : SampleSet K := { u with
    localIndex := some (arraySplit size (List.range v.length))
    loc := Arrays.map₂ (SampleSet.splitArr size) u.glob {} } with hw
  have hest : s.estimateVolumeMc size true = .ok w := by
    unfold SampleSet.estimateVolumeMc
    simp only [SampleSet.checkNum_consistent hcons, ok_bind, if_true, raiseIf, hn, if_false]
    refine (SampleSet.globalToLocal_ok hc size).trans ?_
    rw [hw, ← hl]
    rfl
  have hcw : Consistent w v.length := hc
  have hwv : w.loc.values = some (arraySplit size v) := by simp [hw, hu, Arrays.map₂, hv]
  have hfl : ∀ (α : Type) (xs : List α), (arraySplit size xs).flatten = xs :=
    fun _ xs => flatten_arraySplit _ _ hsize
  have key : ∀ (α : Type) (g : Option (List α)),
      SampleSet.gatherArr (SampleSet.splitArr size g none) g = g := by
    rintro α (_ | xs)
    · rfl
    · simp [hfl]
  have hg : w.localToGlobal = w := by
    simp only [SampleSet.localToGlobal, hw, Arrays.map₂, key]
  have hov : ((arraySplit size v).map fun ch => ch.map f).flatten = v.map f := by
    rw [← List.map_flatten, hfl]
  set o : SampleSet K := ({ dim := outDim, loc := {
      values := some ((arraySplit size v).map fun ch => ch.map f) } } : SampleSet K).localToGlobal
    with ho
  have hog : o.glob = { values := some (v.map f) } := by
    simp only [ho, SampleSet.localToGlobal, Arrays.map₂, SampleSet.gatherArr, getGlobalValues, hov]
  have hoc : Consistent o v.length := by
    refine ⟨by rw [hog]; exact ⟨by rintro _ ⟨⟩; simp, nofun, nofun, nofun, nofun, nofun, nofun, nofun,
      nofun, nofun, nofun, nofun, nofun, nofun⟩, fun h => ?_, ?_⟩
    · rw [hog] at h; cases h.values
    · rw [hog]
      intro z hz row hrow
      cases hz
      obtain ⟨row', hr', rfl⟩ := List.mem_map.1 hrow
      exact hf _ hr'
  refine ⟨{ input := some w, output := some o }, w, o, ?_, ⟨rfl, hc, hv, hwv, ?_, rfl, hoc,
    by rw [hog], ?_, rfl, rfl, rfl⟩, rfl, rfl, rfl⟩
  · simp only [sampleAndRun, hest, ok_bind]
    rw [computeQoi_sets hm (SampleSet.localized_some size hwv) hwv (fun ch hch row hrow => hf row (by
      rw [← hfl _ v]; exact List.mem_flatten.2 ⟨ch, hch, hrow⟩)) true]
    simp only [SampleSet.globalizeIf, if_true, Bool.false_eq_true, if_false]
    rw [show ({ w with loc := { w.loc with jacobians := w.loc.jacobians } } : SampleSet K) = w from rfl,
      hg, ← ho]
    simp only [Disc.new, Option.isSome_some, if_true, Disc.checkNums, orErr_some, ok_bind,
      SampleSet.checkNum_consistent hoc, SampleSet.checkNum_consistent hcw]
    simp [pure, Except.pure, ok_bind]
  · simp [hw, hu, Arrays.map₂]
  · simp [ho, SampleSet.localToGlobal, arraySplit_map]

theorem sampleAndRun_ok {size : Nat} (hsize : 0 < size)
    {model : Nat → List (List K) → ModelOutput K} {outDim : Nat}
    {f e : List K → List K} {j : List K → List (List K)} (hm : RowWise model false false f e j)
    {s : SampleSet K} {v : List (List K)} (hcons : Consistent s v.length)
    (hv : s.glob.values = some v) (hne : v ≠ []) (hloc : Distributed size s)
    (hf : ∀ row ∈ v, (f row).length = outDim) :
    ∃ d inp out, sampleAndRun size model outDim s = .ok d ∧ RanDisc size d v f outDim inp out := by
  obtain ⟨d, inp, out, h1, h2, -⟩ := sampleAndRun_full hsize hm hcons hv hne hloc hf
  exact ⟨d, inp, out, h1, h2⟩

/-! ### The measure on the data and its inverse -/

/-- `P` are the probabilities of the samples `v` that solve the inverse problem for the map `f` and the
measure that gives cell `c` of `ps` the probability `p[c]`: `cells` says in which cell the output of
every sample lies, and each cell's probability is shared equally by the samples whose outputs lie in
it. -/
structure Spec.SolvesInverse (G : Geometry K) (ps : SampleSet K) (v : List (List K))
    (f : List K → List K) (p P : List K) (cells : List Nat) : Prop where
  cell : List.Forall₂ (fun x c => IsCell G ps (f x) c) v cells
  range : ∀ c ∈ cells, c < p.length
  length : P.length = v.length
  share : ∀ (k : Nat) (c : Nat), cells[k]? = some c →
    P[k]? = some (p.getD c 0 / (hits cells c : K))

theorem mass_replicate (c : List Nat) (n : Nat) (h : c.length = n) (x : K) (i : Nat) :
    mass c (List.replicate n x) i = (hits c i : K) * x := by
  subst h
  induction c with
  | nil => simp [hits]
  | cons a c ih =>
    rw [List.length_cons, List.replicate_succ, mass_cons, ih]
    unfold hits
    by_cases h : a = i
    · simp [h, List.count_cons]; ring
    · simp [h, List.count_cons]

theorem inverse_of_attach_full [IsStrictOrderedRing K] {G : Geometry K} (hG : Sound G) {size : Nat}
    (hsize : 0 < size) {model : Nat → List (List K) → ModelOutput K} {outDim : Nat} {s inp out : SampleSet K}
    {d : Disc K} {v : List (List K)} {f : List K → List K} (hne : v ≠ [])
    (hd : sampleAndRun size model outDim s = .ok d) (hr : RanDisc size d v f outDim inp out)
    {t : SampleSet K} {m : Nat} (ht : Ready t m) {p : List K} (hp : t.glob.probabilities = some p)
    (hp0 : ∀ x ∈ p, 0 ≤ x) {measure : DataSet K → Except Err (SampleSet K × DataSet K)}
    (hmeas : measure (.disc d) = (DataSet.disc d).attach G size t) :
    ∃ ps d' inp' P, inverseProblem G size model outDim s measure = .ok (ps, d') ∧ Ready ps m ∧
      ps.glob = { t.glob with kdtreeValues := ps.glob.kdtreeValues } ∧ (ps.kind = t.kind ∧ ps.pNorm = t.pNorm) ∧
      d'.outputProb = some ps ∧ d'.input = some inp' ∧ inp'.glob.values = some v ∧
      inp'.glob.probabilities = some P ∧
      SolvesInverse G ps v f p P (v.map fun x => t.cell G (f x)) ∧
      inp'.dim = inp.dim ∧ inp'.domain = inp.domain ∧ d'.emInput = d.emInput ∧
      inp'.loc.values = some (arraySplit size v) ∧
      ∃ C, inp'.loc.probabilities = some C ∧ SameShape (arraySplit size v) C ∧ C.flatten = P := by
  have hpl : p.length = m := ht.consistent.1.probabilities p hp
  have hn : 0 < v.length := List.length_pos_of_ne_nil hne
  have hnK : (0 : K) < 1 / (v.length : K) := by positivity
  obtain ⟨ps, hq, hrp, hcp, -⟩ := SampleSet.query_ready (G := G) (size := size) ht
    (arraySplit size (v.map f))
  obtain ⟨f1, -, -, -, f5, f6⟩ := SampleSet.query_frame hq
  have hpp : ps.glob.probabilities = some p := by rw [f1]; exact hp
  set C := v.map fun x => t.cell G (f x) with hC
  have hCs : (arraySplit size (v.map f)).map (fun c => c.map (t.cell G)) = arraySplit size C := by
    rw [← arraySplit_map, List.map_map]
    rfl
  rw [hCs] at hq
  set d1 : Disc K := { d with output := some out, outputProb := some ps,
                              ioPtrLocal := some (arraySplit size C) } with hd1
  have hat : (DataSet.disc d).attach G size t = .ok (ps, .disc d1) := by
    simp only [DataSet.attach, Disc.setIoPtr, hr.houtput, orErr_some, ok_bind,
      SampleSet.localized_some size hr.houtLoc, hr.houtLoc, hq]
    rfl
  have hcn : d1.checkNums size = .ok v.length := by
    unfold Disc.checkNums
    simp [hd1, hr.hinput, SampleSet.checkNum_consistent hr.houtputC,
      SampleSet.checkNum_consistent hr.hinputC, pure, Except.pure, ok_bind]
  set vols := List.replicate v.length (1 / (v.length : K)) with hvols
  have hsh : SameShape (arraySplit size C) (arraySplit size vols) :=
    arraySplit_sameShape _ _ _ (by simp [hC, hvols])
  have hloop := probLoop_eq p _ _ m hsh (by omega)
  set P := List.zipWith (fun c w => if 0 < p.getD c 0 ∧ 0 < mass C vols c then
    p.getD c 0 * w / mass C vols c else 0) C vols with hP
  obtain ⟨P', hP', hloop⟩ : ∃ P', P' = _ ∧ probLoop m (some p) (arraySplit size C)
      (some (arraySplit size vols)) = .ok P' := ⟨_, rfl, hloop⟩
  have hPP : P'.flatten = P := by
    rw [hP', flatten_zipWith_zipWith _ hsh, flatten_arraySplit _ _ hsize,
      flatten_arraySplit _ _ hsize, hP]
    congr 1
    funext c w
    by_cases hc : c < m
    · simp [hc]
    · have : p.getD c 0 = 0 := by simp [List.getD, show p.length ≤ c by omega]
      simp only [hc, this, gt_iff_lt, lt_irrefl, false_and, and_false]
  have hCl : ∀ c ∈ C, c < m := by
    intro c hc
    obtain ⟨x, -, rfl⟩ := List.mem_map.1 hc
    exact SampleSet.cell_lt hG ht _
  set inp' : SampleSet K := { inp with
    glob := { inp.glob with probabilities := some P'.flatten }
    loc := { inp.loc with probabilities := some P' }
    probType := some .voronoi } with hinp'
  have hprob : prob G size d1 true = .ok { d1 with input := some inp' } := by
    have hens : d1.ensureIoPtr G size false = .ok d1 := rfl
    have hi : d1.input = some inp := hr.hinput
    unfold prob
    simp only [hcn, ok_bind, show d1.outputProb = some ps from rfl, orErr_some,
      SampleSet.checkNum_consistent hrp.consistent, hens, hi,
      SampleSet.localized_some size hr.hinputLoc, show d1.ioPtrLocal = some (arraySplit size C) from rfl,
      hpp, hr.hvols, ← hvols, hloop, if_true, getGlobalValues]
    simp only [hinp', hr.hvols, ← hvols]
    rfl
  refine ⟨ps, { d1 with input := some inp' }, inp', P, ?_, hrp, f1, ⟨f5, f6⟩, rfl, rfl, hr.hinputVals, ?_, ?_, rfl, rfl, rfl, hr.hinputLoc,
    P', rfl, ?_, hPP⟩
  · simp only [inverseProblem, hd, ok_bind, hmeas, hat, DataSet.asDisc, hprob]
    rfl
  · simp only [hinp', hPP]
  swap
  · rw [hP']
    exact SameShape.trans (arraySplit_sameShape size v C (by simp [hC])) (SameShape.zipWith_left _ hsh)
  refine ⟨?_, fun c hc => by rw [hpl]; exact hCl c hc, by simp [hP, hC, hvols], ?_⟩
  · rw [hC, List.forall₂_map_right_iff]
    refine List.forall₂_same.mpr fun x _ => ?_
    have := SampleSet.cell_isCell hG ht (f x)
    rwa [isCell_congr f1 f5 f6]
  · intro k c hk
    have hkl : k < v.length := by
      have := (List.getElem?_eq_some_iff.mp hk).1
      simpa [hC] using this
    have hh : 0 < hits C c := List.count_pos_iff.mpr (List.mem_of_getElem? hk)
    have hhK : (0 : K) < (hits C c : K) := by exact_mod_cast hh
    have hm : mass C vols c = (hits C c : K) * (1 / (v.length : K)) :=
      mass_replicate C _ (by simp [hC]) _ c
    have hvk : vols[k]? = some (1 / (v.length : K)) := by simp [hvols, hkl]
    rw [hP, List.getElem?_zipWith, hk, hvk]
    simp only [hm, mul_pos hhK hnK, and_true]
    have hpc : 0 ≤ p.getD c 0 := by
      have hc : c < p.length := by rw [hpl]; exact hCl c (List.mem_of_getElem? hk)
      rw [List.getD_eq_getElem?_getD, List.getElem?_eq_getElem hc, Option.getD_some]
      exact hp0 _ (List.getElem_mem hc)
    have hvn : (v.length : K) ≠ 0 := by exact_mod_cast hn.ne'
    rcases hpc.eq_or_lt with h0 | h0
    · simp only [← h0, lt_irrefl, if_false, zero_div]
    · rw [if_pos h0]
      congr 1
      field_simp

theorem inverse_of_attach [IsStrictOrderedRing K] {G : Geometry K} (hG : Sound G) {size : Nat}
    (hsize : 0 < size) {model : Nat → List (List K) → ModelOutput K} {outDim : Nat} {s inp out : SampleSet K}
    {d : Disc K} {v : List (List K)} {f : List K → List K} (hne : v ≠ [])
    (hd : sampleAndRun size model outDim s = .ok d) (hr : RanDisc size d v f outDim inp out)
    {t : SampleSet K} {m : Nat} (ht : Ready t m) {p : List K} (hp : t.glob.probabilities = some p)
    (hp0 : ∀ x ∈ p, 0 ≤ x) {measure : DataSet K → Except Err (SampleSet K × DataSet K)}
    (hmeas : measure (.disc d) = (DataSet.disc d).attach G size t) :
    ∃ ps d' inp' P, inverseProblem G size model outDim s measure = .ok (ps, d') ∧ Ready ps m ∧
      ps.glob = { t.glob with kdtreeValues := ps.glob.kdtreeValues } ∧ (ps.kind = t.kind ∧ ps.pNorm = t.pNorm) ∧
      d'.outputProb = some ps ∧ d'.input = some inp' ∧ inp'.glob.values = some v ∧
      inp'.glob.probabilities = some P ∧
      SolvesInverse G ps v f p P (v.map fun x => t.cell G (f x)) := by
  obtain ⟨ps, d', inp', P, h1, h2, h3, h4, h5, h6, h7, h8, h9, -⟩ :=
    inverse_of_attach_full hG hsize hne hd hr ht hp hp0 hmeas
  exact ⟨ps, d', inp', P, h1, h2, h3, h4, h5, h6, h7, h8, h9⟩

/-! ### What a solution means -/

section solution
variable [IsStrictOrderedRing K]

/-- **C108.** In a solution the samples whose outputs lie in cell `c` have, together, the probability
of the cell, for every cell that is reached; the total probability is that of the cells reached. -/
theorem C108_consistent {G : Geometry K} {ps : SampleSet K} {v : List (List K)}
    {f : List K → List K} {p P : List K} {cells : List Nat}
    (h : SolvesInverse G ps v f p P cells) :
    (∀ c ∈ cells, mass cells P c = p.getD c 0) ∧
    P.sum = (((List.range p.length).filter fun c => decide (c ∈ cells)).map fun c => p.getD c 0).sum ∧
    (IsProbVector p → (∀ c, 0 < p.getD c 0 → c ∈ cells) → IsProbVector P) := by
  have hl : cells.length = P.length := by rw [h.length, h.cell.length_eq]
  have hPe : P = cells.map fun c => p.getD c 0 / (hits cells c : K) := by
    apply List.ext_getElem?
    intro k
    rw [List.getElem?_map]
    cases hk : cells[k]? with
    | none =>
      rw [List.getElem?_eq_none_iff] at hk
      rw [Option.map_none, List.getElem?_eq_none_iff]
      omega
    | some c => rw [Option.map_some]; exact h.share k c hk
  have hmass : ∀ c ∈ cells, mass cells P c = p.getD c 0 := by
    intro c hc
    have hh : (hits cells c : K) ≠ 0 := by
      have : 0 < hits cells c := List.count_pos_iff.mpr hc
      exact_mod_cast this.ne'
    rw [hPe, mass_map_self]
    field_simp
  have hsum : P.sum =
      (((List.range p.length).filter fun c => decide (c ∈ cells)).map fun c => p.getD c 0).sum := by
    rw [← sum_range_mass cells P p.length hl h.range]
    clear hPe hl h
    induction p.length with
    | zero => simp
    | succ n ih =>
      rw [List.range_succ, List.map_append, List.sum_append, ih, List.filter_append, List.map_append,
        List.sum_append]
      congr 1
      by_cases hc : n ∈ cells
      · simp [hc, hmass n hc]
      · have : mass cells P n = 0 := by
          unfold mass
          rw [List.filter_eq_nil_iff.mpr]
          · simp
          · rintro ⟨a, b⟩ hab ha
            simp only [decide_eq_true_eq] at ha
            subst ha
            exact hc (List.of_mem_zip hab).1
        simp [hc, this]
  refine ⟨hmass, hsum, fun hp hall => ⟨fun x hx => ?_, ?_⟩⟩
  · rw [hPe] at hx
    obtain ⟨c, hc, rfl⟩ := List.mem_map.1 hx
    refine div_nonneg ?_ (Nat.cast_nonneg _)
    have hc := h.range c hc
    rw [List.getD_eq_getElem?_getD, List.getElem?_eq_getElem hc, Option.getD_some]
    exact hp.1 _ (List.getElem_mem hc)
  · rw [hsum, ← hp.2]
    have : p = (List.range p.length).map fun c => p.getD c 0 := by
      refine List.ext_getElem (by simp) fun i h1 h2 => ?_
      simp [h1]
    conv_rhs => rw [this]
    have hall' : ∀ c ∈ List.range p.length, c ∉ cells → p.getD c 0 = 0 := by
      intro c hc hn
      have hc := List.mem_range.mp hc
      have h0 : 0 ≤ p.getD c 0 := by
        rw [List.getD_eq_getElem?_getD, List.getElem?_eq_getElem hc, Option.getD_some]
        exact hp.1 _ (List.getElem_mem hc)
      by_contra hne
      exact hn (hall c (lt_of_le_of_ne h0 (Ne.symm hne)))
    revert hall'
    generalize List.range p.length = l
    intro hall'
    induction l with
    | nil => rfl
    | cons c l ih =>
      have ih := ih fun a ha => hall' a (List.mem_cons_of_mem _ ha)
      by_cases hc : c ∈ cells
      · simp only [List.filter_cons, hc, decide_true, if_true, List.map_cons, List.sum_cons, ih]
      · simp only [List.filter_cons, hc, decide_false, Bool.false_eq_true, if_false, List.map_cons,
          List.sum_cons, ih, hall' c (by simp) hc, zero_add]

end solution

/-! ### Regular partitions of a rectangle -/

section regular
variable [IsStrictOrderedRing K]

theorem gridVectors_ok {mins maxes : List K} {cells : CellArg} {ns : List Nat} {dim : Nat}
    (hmin : mins.length = dim) (hmax : maxes.length = dim) (hns : ns.length = dim)
    (hc : UsedCells cells ns) : ∃ xi, gridVectors mins maxes cells dim = .ok xi := by
  have hget : ∀ i, i < dim → ∃ n, cells.get i = .ok n := by
    intro i hi
    cases cells with
    | scalar n => exact ⟨n, rfl⟩
    | list l =>
      have : i < l.length := by
        simp only [UsedCells] at hc
        have := congrArg List.length hc
        rw [List.length_take] at this
        omega
      exact ⟨l[i], by simp [CellArg.get, getIdx, this]⟩
  unfold gridVectors
  refine mapM_total fun i hi => ?_
  have hi := List.mem_range.mp hi
  obtain ⟨n, hn⟩ := hget i hi
  exact ⟨linspace mins[i] maxes[i] (n + 1), by
    simp [getIdx, hmin, hmax, hi, hn, ok_bind, pure, Except.pure]⟩

theorem exactVolumeLebesgue_size {s u : SampleSet K} {n : Nat} (h : Consistent s n) {a b : Nat}
    (hu : s.exactVolumeLebesgue a = .ok u) : s.exactVolumeLebesgue b = .ok u := by
  unfold SampleSet.exactVolumeLebesgue at hu ⊢
  simpa only [SampleSet.checkNum_consistent h] using hu

/-- The call of `regular_partition_uniform_distribution_rectangle_size` up to its last lines: the set
depends on neither the data nor the number of processes, and its boxes are those of a grid. -/
theorem regularSize_grid (G : Geometry K) {dim : Nat} (hdim : 0 < dim) {qr rs : List K}
    (hrs : rs.length = dim) (hqr : qr.length = dim) (hpos : ∀ r ∈ rs, 0 < r) {cells : CellArg}
    {ns : List Nat} (hns : ns.length = dim) (hcells : UsedCells cells ns) (hn : ∀ n ∈ ns, 0 < n) :
    ∃ t : SampleSet K, Ready t (ns.prod + 1) ∧ IsRegularPartition t qr rs ns ∧
      (∀ (size : Nat) (ds : DataSet K) (q : Option (List K)) (inp : Inputs K) (a : NumArg K),
        ds.checkInputs size q = .ok (inp, qr) → inp.dim = dim → sizeArray dim a = .ok rs →
        regularSize G size ds q a cells = ds.attach G size t) ∧
      ∃ xi : List (List K), xi.length = dim ∧
        (∀ k, k < dim → ∃ a b n, (List.zipWith (fun q r => q - 1 / 2 * r) qr rs)[k]? = some a ∧
          (List.zipWith (fun q r => q + 1 / 2 * r) qr rs)[k]? = some b ∧ ns[k]? = some n ∧
          xi[k]? = some (linspace a b (n + 1))) ∧
        ∀ x i, InRectangle t x i ↔ InRectangle (SampleSet.rectSet
          ({ dim := dim, kind := .rectangle } : SampleSet K) ((cartRows xi).map (List.map Prod.snd))
          ((cartRows xi).map (List.map Prod.fst))) x i := by
  set maxes := List.zipWith (fun q r => q + 1 / 2 * r) qr rs with hmaxes
  set mins := List.zipWith (fun q r => q - 1 / 2 * r) qr rs with hmins
  have hml : mins.length = dim := by simp [hmins, hqr, hrs]
  have hMl : maxes.length = dim := by simp [hmaxes, hqr, hrs]
  obtain ⟨xi, hxi⟩ := gridVectors_ok hml hMl hns hcells
  obtain ⟨ns', hns', hcells', hxl, hk⟩ := gridVectors_inv hxi
  have hnn : ns' = ns := by
    cases cells with
    | scalar n => simp only [UsedCells] at hcells hcells'; rw [hcells, hcells', hns, hns']
    | list l => simp only [UsedCells] at hcells hcells'; rw [hcells, hcells', hns, hns']
  subst hnn
  have ht := (setupCartesian_iff (s := ({ dim := dim, kind := .rectangle } : SampleSet K))
    (xi := xi)).mpr ⟨hxl, rfl⟩
  set t := SampleSet.rectSet ({ dim := dim, kind := .rectangle } : SampleSet K)
    ((cartRows xi).map (List.map Prod.snd)) ((cartRows xi).map (List.map Prod.fst)) with htdef
  set dom := List.zip mins maxes with hdom
  have ht' := (setupCartesian_iff (s := ({ dim := dim, kind := .rectangle, domain := some dom } :
    SampleSet K)) (xi := xi)).mpr ⟨hxl, rfl⟩
  have htc : Consistent { t with domain := some dom } (numCells xi + 1) :=
    (ready_cartesian (s := ({ dim := dim, kind := .rectangle, domain := some dom } : SampleSet K))
      rfl rfl hdim ht').1.consistent
  have ht'' : SampleSet.setupRect ({ dim := dim, kind := .rectangle, domain := some dom } :
      SampleSet K) ((cartRows xi).map (List.map Prod.snd)) ((cartRows xi).map (List.map Prod.fst)) =
      .ok { t with domain := some dom } := by
    simp only [SampleSet.setupCartesian, bind_eq_ok, tails_eq, dropLasts_eq] at ht'
    exact ht'.choose_spec.2
  have hdompos : ∀ d ∈ dom, d.1 < d.2 := by
    intro d hd
    obtain ⟨k, hk, rfl⟩ := List.mem_iff_getElem.mp hd
    have hk' : k < dim := by simpa [hdom, hml, hMl] using hk
    have hr := hpos _ (List.getElem_mem (l := rs) (n := k) (by omega))
    simp only [hdom, hmins, hmaxes, List.getElem_zip, List.getElem_zipWith]
    linarith
  obtain ⟨u, vols, hu, hu2, -, -, -⟩ := C23_relative_volumes rfl ht'' rfl (by simp [hdom, hml, hMl])
    hdompos 1
  have hvols : u.glob.volumes = some vols := by rw [hu2]
  have hN : 0 < ns'.prod := List.prod_pos hn
  obtain ⟨hs1, -, hr, hreg⟩ := regular_core hdim hqr hrs hns' hpos hxl hk ht hu hvols (Or.inr hN)
  refine ⟨_, hr, hreg, fun size ds q inp a hin hd ha => ?_, xi, hxl, hk, fun x i => ?_⟩
  swap
  · rw [hu2]; exact Iff.rfl
  subst hd
  have h0 : ¬ ∃ r ∈ rs, r ≤ 0 := by
    rintro ⟨r, hr, h⟩
    exact absurd (hpos r hr) (not_lt.mpr h)
  simp only [regularSize, hin, ok_bind, ha, raiseIf, h0, if_false, hrs, hqr, ne_eq, not_true_eq_false,
    ← hmaxes, ← hmins, hxi, ht, hml, ← hdom, exactVolumeLebesgue_size htc (b := size) hu, hvols,
    orErr_some, hs1, one_ne_zero]

theorem regularSize_eq (G : Geometry K) {dim : Nat} (hdim : 0 < dim) {qr rs : List K}
    (hrs : rs.length = dim) (hqr : qr.length = dim) (hpos : ∀ r ∈ rs, 0 < r) {cells : CellArg}
    {ns : List Nat} (hns : ns.length = dim) (hcells : UsedCells cells ns) (hn : ∀ n ∈ ns, 0 < n) :
    ∃ t : SampleSet K, Ready t (ns.prod + 1) ∧ IsRegularPartition t qr rs ns ∧
      ∀ (size : Nat) (ds : DataSet K) (q : Option (List K)) (inp : Inputs K) (a : NumArg K),
        ds.checkInputs size q = .ok (inp, qr) → inp.dim = dim → sizeArray dim a = .ok rs →
        regularSize G size ds q a cells = ds.attach G size t :=
  let ⟨t, h1, h2, h3, _⟩ := regularSize_grid G hdim hrs hqr hpos hns hcells hn
  ⟨t, h1, h2, h3⟩

theorem isRegularPartition_congr {ps t : SampleSet K} {q rs : List K} {ns : List Nat}
    (hg : ps.glob = { t.glob with kdtreeValues := ps.glob.kdtreeValues }) (hk : ps.kind = t.kind)
    (h : IsRegularPartition t q rs ns) : IsRegularPartition ps q rs ns := by
  have e1 : ps.glob.left = t.glob.left := by rw [hg]
  have e2 : ps.glob.right = t.glob.right := by rw [hg]
  have e3 : ∀ x i, InRectangle ps x i = InRectangle t x i := by
    intro x i
    unfold InRectangle
    rw [e1, e2]
  refine ⟨hk.trans h.kind, by rw [e1, e2]; exact h.congruent, ?_, ?_⟩
  · simp only [e3]; exact h.tiles
  · rw [hg]; exact h.probabilities

end regular

/-! ### C108 -/

/-- The samples `v`, as `size` processes hold them: new, or shared out. -/
def Spec.HoldSamples (s : Nat → SampleSet K) (v : List (List K)) : Prop :=
  ∀ size > 0, Consistent (s size) v.length ∧ (s size).glob.values = some v ∧ Distributed size (s size)

/-- The discretization has the measure `ps` on the data and the probabilities `P` of the samples `v`. -/
def Spec.Solved (d : Disc K) (ps : SampleSet K) (v : List (List K)) (P : List K) : Prop :=
  d.outputProb = some ps ∧ ∃ inp, d.input = some inp ∧ inp.glob.values = some v ∧
    inp.glob.probabilities = some P

/-- Each sample whose output lies in the rectangle with centre `q` and sides `rs` has the probability
`1 / prod ns` of its cell, divided by the number of samples whose outputs lie in the same cell; the
others have probability 0. -/
def Spec.SharesOfRectangle (ps : SampleSet K) (q rs : List K) (ns : List Nat) (v : List (List K))
    (f : List K → List K) (P : List K) (cells : List Nat) : Prop :=
  ∀ (k : Nat) (x : List K) (c : Nat), v[k]? = some x → cells[k]? = some c →
    (InRect q rs (f x) → c < ns.prod ∧ InRectangle ps (f x) c ∧
      P[k]? = some (1 / ((ns.prod : K) * (hits cells c : K)))) ∧
    (¬ InRect q rs (f x) → P[k]? = some 0)

section
variable [IsStrictOrderedRing K]

theorem regular_shares {G : Geometry K} {ps : SampleSet K} {q rs : List K} {ns : List Nat}
    {v : List (List K)} {f : List K → List K} {p P : List K} {cells : List Nat}
    (hr : Ready ps (ns.prod + 1)) (hreg : IsRegularPartition ps q rs ns)
    (hp : p = List.replicate ns.prod (1 / (ns.prod : K)) ++ [0])
    (hf : ∀ row ∈ v, (f row).length = ns.length) (h : SolvesInverse G ps v f p P cells) :
    SharesOfRectangle ps q rs ns v f P cells := by
  intro k x c hx hc
  have hk := (List.forall₂_iff_get.mp h.cell).2 k (List.getElem?_eq_some_iff.mp hx).1
    (List.getElem?_eq_some_iff.mp hc).1
  simp only [List.get_eq_getElem] at hk
  rw [(List.getElem?_eq_some_iff.mp hx).2, (List.getElem?_eq_some_iff.mp hc).2] at hk
  obtain ⟨w, hw⟩ := Option.isSome_iff_exists.mp hr.values
  obtain ⟨⟨r, hR⟩, ⟨l, hL⟩⟩ := (hr.rect hreg.kind).imp Option.isSome_iff_exists.mp
    Option.isSome_iff_exists.mp
  have hwl := hr.consistent.1.values w hw
  unfold IsCell at hk
  rw [hreg.kind] at hk
  have hk := hk w r l hw hR hL
  rw [hwl, Nat.add_sub_cancel] at hk
  have hInR : ∀ j, InRectangle ps (f x) j ↔
      ∃ a b, l[j]? = some a ∧ r[j]? = some b ∧ InBox a b (f x) := by
    intro j
    unfold InRectangle
    constructor
    · rintro ⟨l', r', a, b, h1, h2, h3, h4, h5⟩
      rw [hL] at h1; rw [hR] at h2
      cases h1; cases h2
      exact ⟨a, b, h3, h4, h5⟩
    · rintro ⟨a, b, h3, h4, h5⟩
      exact ⟨l, r, a, b, hL, hR, h3, h4, h5⟩
  obtain ⟨t1, t2⟩ := hreg.tiles (f x) (hf x (List.mem_of_getElem? hx))
  have hsh := h.share k c hc
  constructor
  · intro hin
    obtain ⟨i, ⟨hi, hir⟩, -⟩ := t1 hin
    rcases hk with ⟨h1, h2, -⟩ | ⟨-, h2⟩
    · refine ⟨h1, (hInR c).mpr h2, ?_⟩
      rw [hsh, hp, List.getD_eq_getElem?_getD, List.getElem?_append_left (by simpa using h1)]
      simp only [List.getElem?_replicate, h1, if_true, Option.getD_some]
      rw [div_div]
    · exact absurd ((hInR i).mp hir) (h2 i hi)
  · intro hout
    rcases hk with ⟨h1, h2, -⟩ | ⟨h1, -⟩
    · exact absurd ((hInR c).mpr h2) (t2 hout c h1)
    · rw [hsh, hp, h1, List.getD_eq_getElem?_getD, List.getElem?_append_right (by simp)]
      simp

theorem inverse_regular {G : Geometry K} (hG : Sound G)
    {model : Nat → List (List K) → ModelOutput K} {outDim : Nat}
    {f e : List K → List K} {j : List K → List (List K)} (hm : RowWise model false false f e j)
    {s : Nat → SampleSet K} {v : List (List K)} (hs : HoldSamples s v) (hne : v ≠ [])
    (hf : ∀ row ∈ v, (f row).length = outDim) (hdim : 0 < outDim) {q rs : List K}
    (hq : q.length = outDim) (hrs : rs.length = outDim) (hpos : ∀ r ∈ rs, 0 < r) {cells : CellArg}
    {ns : List Nat} (hns : ns.length = outDim) (hcells : UsedCells cells ns) (hn : ∀ n ∈ ns, 0 < n)
    {measure : Nat → DataSet K → Except Err (SampleSet K × DataSet K)}
    (hmeas : ∀ size d inp out, RanDisc size d v f outDim inp out →
      measure size (.disc d) = regularSize G size (.disc d) (some q) (.array rs) cells) :
    ∃ P cs, ∀ size > 0, ∃ ps d, inverseProblem G size model outDim (s size) (measure size)
        = .ok (ps, d) ∧ Solved d ps v P ∧ IsRegularPartition ps q rs ns ∧
        SolvesInverse G ps v f (List.replicate ns.prod (1 / (ns.prod : K)) ++ [0]) P cs ∧
        SharesOfRectangle ps q rs ns v f P cs := by
  obtain ⟨t, hrt, hreg, heq⟩ := regularSize_eq G hdim hrs hq hpos hns hcells hn
  have key : ∀ size > 0, ∃ ps d P, inverseProblem G size model outDim (s size) (measure size)
        = .ok (ps, d) ∧ Solved d ps v P ∧ IsRegularPartition ps q rs ns ∧
        SolvesInverse G ps v f (List.replicate ns.prod (1 / (ns.prod : K)) ++ [0]) P
          (v.map fun x => t.cell G (f x)) ∧
        SharesOfRectangle ps q rs ns v f P (v.map fun x => t.cell G (f x)) := by
    intro size hsize
    obtain ⟨h1, h2, h3⟩ := hs size hsize
    obtain ⟨d, inp, out, hd, hr⟩ := sampleAndRun_ok hsize hm h1 h2 hne h3 hf
    have hin : (DataSet.disc d).checkInputs size (some q) =
        .ok (⟨v.length, outDim, some (v.map f)⟩, q) := by
      have hcn : d.checkNums size = .ok v.length := by
        unfold Disc.checkNums
        simp [hr.houtput, hr.hinput, SampleSet.checkNum_consistent hr.houtputC,
          SampleSet.checkNum_consistent hr.hinputC, pure, Except.pure, ok_bind]
      simp only [DataSet.checkInputs, DataSet.orInfer, pure_bind_ok, DataSet.inputs, hcn, ok_bind,
        hr.houtput, orErr_some, hr.houtDim, hr.houtputVals]
      rfl
    have hm' : measure size (.disc d) = (DataSet.disc d).attach G size t := by
      rw [hmeas size d inp out hr, heq size (.disc d) (some q) _ (.array rs) hin rfl rfl]
    have hp0 : ∀ x ∈ List.replicate ns.prod (1 / (ns.prod : K)) ++ [0], 0 ≤ x := by
      intro x hx
      rw [List.mem_append] at hx
      rcases hx with hx | hx
      · rw [List.eq_of_mem_replicate hx]; positivity
      · simp at hx; rw [hx]
    obtain ⟨ps, d', inp', P, a1, hr', a2, a3, a4, a5, a6, a7, a8⟩ :=
      inverse_of_attach hG hsize hne hd hr hrt hreg.probabilities hp0 hm'
    have hreg' := isRegularPartition_congr a2 a3.1 hreg
    exact ⟨ps, d', P, a1, ⟨a4, inp', a5, a6, a7⟩, hreg', a8,
      regular_shares hr' hreg' rfl (fun row hrow => (hf row hrow).trans hns.symm) a8⟩
  obtain ⟨ps, d, P, b1, b2, b3, b4, b5⟩ := key 1 Nat.one_pos
  refine ⟨P, v.map fun x => t.cell G (f x), fun size hsize => ?_⟩
  obtain ⟨ps', d', P', c1, c2, c3, c4, c5⟩ := key size hsize
  have : P' = P := by
    apply List.ext_getElem?
    intro k
    by_cases hk : k < v.length
    · rw [b4.share k _ (by rw [List.getElem?_map, List.getElem?_eq_getElem hk]; rfl),
        c4.share k _ (by rw [List.getElem?_map, List.getElem?_eq_getElem hk]; rfl)]
    · rw [List.getElem?_eq_none (by rw [c4.length]; omega),
        List.getElem?_eq_none (by rw [b4.length]; omega)]
  subst this
  exact ⟨ps', d', c1, c2, c3, c4, c5⟩

/-- **C108.** The whole computation with a regular partition of a given rectangle succeeds for every
number of processes, with the same result: every sample whose output lies in the rectangle gets an
equal share of the probability `1 / prod ns` of its cell, every other sample probability 0. -/
theorem C108_rectangle {G : Geometry K} (hG : Sound G)
    {model : Nat → List (List K) → ModelOutput K} {outDim : Nat}
    {f e : List K → List K} {j : List K → List (List K)} (hm : RowWise model false false f e j)
    {s : Nat → SampleSet K} {v : List (List K)} (hs : HoldSamples s v) (hne : v ≠ [])
    (hf : ∀ row ∈ v, (f row).length = outDim) (hdim : 0 < outDim) {q rs : List K}
    (hq : q.length = outDim) (hrs : rs.length = outDim) (hpos : ∀ r ∈ rs, 0 < r) {cells : CellArg}
    {ns : List Nat} (hns : ns.length = outDim) (hcells : UsedCells cells ns) (hn : ∀ n ∈ ns, 0 < n) :
    ∃ P cs, ∀ size > 0, ∃ ps d, inverseProblem G size model outDim (s size)
        (fun ds => regularSize G size ds (some q) (.array rs) cells) = .ok (ps, d) ∧
        Solved d ps v P ∧ IsRegularPartition ps q rs ns ∧
        SolvesInverse G ps v f (List.replicate ns.prod (1 / (ns.prod : K)) ++ [0]) P cs ∧
        SharesOfRectangle ps q rs ns v f P cs :=
  inverse_regular hG hm hs hne hf hdim hq hrs hpos hns hcells hn
    (measure := fun size ds => regularSize G size ds (some q) (.array rs) cells)
    (fun _ _ _ _ _ => rfl)

/-- **C108.** The same with `regular_partition_uniform_distribution_rectangle_scaled`: the sides of the
rectangle are `scale` times the extents of the data in the coordinates. -/
theorem C108_scaled {G : Geometry K} (hG : Sound G)
    {model : Nat → List (List K) → ModelOutput K} {outDim : Nat}
    {f e : List K → List K} {j : List K → List (List K)} (hm : RowWise model false false f e j)
    {s : Nat → SampleSet K} {v : List (List K)} (hs : HoldSamples s v) (hne : v ≠ [])
    (hf : ∀ row ∈ v, (f row).length = outDim) (hdim : 0 < outDim)
    (hvar : ∀ k < outDim, ∃ x ∈ v, ∃ y ∈ v, (f x)[k]? ≠ (f y)[k]?) {q : List K}
    (hq : q.length = outDim) {scale : K} (hsc : 0 < scale) {cells : CellArg}
    {ns : List Nat} (hns : ns.length = outDim) (hcells : UsedCells cells ns) (hn : ∀ n ∈ ns, 0 < n) :
    ∃ w P cs, IsExtent (v.map f) w ∧ w.length = outDim ∧
      ∀ size > 0, ∃ ps d, inverseProblem G size model outDim (s size)
        (fun ds => regularScaled G size ds (some q) (.scalar scale) cells) = .ok (ps, d) ∧
        Solved d ps v P ∧ IsRegularPartition ps q (w.map (· * scale)) ns ∧
        SolvesInverse G ps v f (List.replicate ns.prod (1 / (ns.prod : K)) ++ [0]) P cs ∧
        SharesOfRectangle ps q (w.map (· * scale)) ns v f P cs := by
  have hmf : ∀ row ∈ v.map f, row.length = outDim := by
    intro row hrow
    obtain ⟨x, hx, rfl⟩ := List.mem_map.1 hrow
    exact hf x hx
  have hnef : v.map f ≠ [] := by simpa using hne
  obtain ⟨w, hw, hwl, hext⟩ := extent_isExtent hnef hmf
  have hwpos : ∀ x ∈ w, 0 < x := by
    intro x hx
    obtain ⟨k, hk, rfl⟩ := List.mem_iff_getElem.mp hx
    obtain ⟨hi, lo, h1, h2, h3⟩ := hext k _ (List.getElem?_eq_getElem hk)
    rw [h3]
    obtain ⟨a, ha, b, hb, hab⟩ := hvar k (by omega)
    have hka : k < (f a).length := by rw [hf a ha]; omega
    have hkb : k < (f b).length := by rw [hf b hb]; omega
    have h4 := h1.2 ⟨f a, List.mem_map_of_mem ha, List.getElem?_eq_getElem hka⟩
    have h5 := h1.2 ⟨f b, List.mem_map_of_mem hb, List.getElem?_eq_getElem hkb⟩
    have h6 := h2.2 ⟨f a, List.mem_map_of_mem ha, List.getElem?_eq_getElem hka⟩
    have h7 := h2.2 ⟨f b, List.mem_map_of_mem hb, List.getElem?_eq_getElem hkb⟩
    rw [List.getElem?_eq_getElem hka, List.getElem?_eq_getElem hkb] at hab
    have hab : (f a)[k] ≠ (f b)[k] := fun h => hab (by rw [h])
    rcases lt_or_gt_of_ne hab with h | h <;> linarith
  obtain ⟨P, cs, h⟩ := inverse_regular hG hm hs hne hf hdim hq (rs := w.map (· * scale))
    (by simpa using hwl) (by
      intro r hr
      obtain ⟨x, hx, rfl⟩ := List.mem_map.1 hr
      exact mul_pos (hwpos x hx) hsc) hns hcells hn
    (measure := fun size ds => regularScaled G size ds (some q) (.scalar scale) cells) (by
      intro size d inp out hr
      have hcn : d.checkNums size = .ok v.length := by
        unfold Disc.checkNums
        simp [hr.houtput, hr.hinput, SampleSet.checkNum_consistent hr.houtputC,
          SampleSet.checkNum_consistent hr.hinputC, pure, Except.pure, ok_bind]
      have hin : (DataSet.disc d).checkInputs size (some q) =
          .ok (⟨v.length, outDim, some (v.map f)⟩, q) := by
        simp only [DataSet.checkInputs, DataSet.orInfer, pure_bind_ok, DataSet.inputs, hcn, ok_bind,
          hr.houtput, orErr_some, hr.houtDim, hr.houtputVals]
        rfl
      simp only [regularScaled, hin, ok_bind, orErr_some, hw, scaleBy, pure_bind_ok])
  exact ⟨w, P, cs, hext, hwl, h⟩

/-! ### A partition by samples -/

/-- A Voronoi set with its tree. -/
def treeSet (dim : Nat) (samples : List (List K)) (probs : Option (List K)) : SampleSet K where
  dim := dim
  kdtree := some samples
  glob := { values := some samples, kdtreeValues := some samples, probabilities := probs }

/-- The binned set in closed form. -/
theorem binnedSet_ok {G : Geometry K} {size dim : Nat} {samples : List (List K)}
    {emu : Chunks (List K)} {denom : K} (hs : ∀ row ∈ samples, row.length = dim)
    (hpos : 0 < samples.length) (hd : denom ≠ 0) :
    binnedSet G size dim samples.length samples emu denom = .ok (treeSet dim samples
      (some ((List.range samples.length).map fun i =>
          (hits (emu.flatten.map (G.nn 2 samples)) i : K) / denom))) := by
  have h1 : SampleSet.setValues ({ dim } : SampleSet K) samples =
      .ok { dim := dim, glob := { values := some samples } } := by
    unfold SampleSet.setValues
    rw [if_pos]
    rw [SampleSet.colsOk_iff]
    intro v hv row hrow
    cases hv
    exact hs row hrow
  have h2 : SampleSet.setKdtree ({ dim := dim, glob := { values := some samples } } : SampleSet K) =
      .ok (treeSet dim samples none) := rfl
  have hr := (ready_tree h1 h2 hpos).1
  have h3 : (treeSet dim samples none).query G size emu =
      .ok (treeSet dim samples none, emu.map fun c => c.map (G.nn 2 samples)) := by
    simp only [SampleSet.query, show (treeSet dim samples (none : Option (List K))).kind = .voronoi from rfl,
      SampleSet.ensureTree,
      show (treeSet dim samples (none : Option (List K))).kdtree = some samples from rfl,
      SampleSet.checkNum_consistent (size := size) hr.consistent, ok_bind, orErr_some, pure_bind_ok]
    rfl
  simp only [binnedSet, h1, h2, h3, ok_bind, raiseIf, hd, if_false, pure, Except.pure]
  rw [countVec_eq, List.map_map, ← List.map_flatten]
  rfl

theorem ready_treeSet {dim : Nat} {samples : List (List K)} {p : List K}
    (hs : ∀ row ∈ samples, row.length = dim) (hpos : 0 < samples.length)
    (hp : p.length = samples.length) : Ready (treeSet dim samples (some p)) samples.length := by
  have h1 : SampleSet.setValues ({ dim } : SampleSet K) samples =
      .ok { dim := dim, glob := { values := some samples } } := by
    unfold SampleSet.setValues
    rw [if_pos]
    rw [SampleSet.colsOk_iff]
    intro v hv row hrow
    cases hv
    exact hs row hrow
  have h2 : SampleSet.setKdtree ({ dim := dim, glob := { values := some samples } } : SampleSet K) =
      .ok (treeSet dim samples none) := rfl
  exact ready_probabilities (ready_tree h1 h2 hpos).1 hp

/-- **C108.** The whole computation with `user_partition_user_distribution`: the measure gives each
Voronoi cell of the `samples` of the partition the share of the points `pts` that lie in it, and every
sample gets an equal share of the probability of the cell of its output; for every number of processes
the same. -/
theorem C108_user {G : Geometry K} (hG : Sound G)
    {model : Nat → List (List K) → ModelOutput K} {outDim : Nat}
    {f e : List K → List K} {j : List K → List (List K)} (hm : RowWise model false false f e j)
    {s : Nat → SampleSet K} {v : List (List K)} (hs : HoldSamples s v) (hne : v ≠ [])
    (hf : ∀ row ∈ v, (f row).length = outDim) {samples pts : List (List K)}
    {partition distribution : Nat → DataSet K} (hsa : ∀ row ∈ samples, row.length = outDim)
    (hsne : samples ≠ []) (hpne : pts ≠ [])
    (hpar : ∀ size > 0, (partition size).inputs size = .ok ⟨samples.length, outDim, some samples⟩)
    (hdist : ∀ size > 0, (distribution size).inputs size = .ok ⟨pts.length, outDim, some pts⟩) :
    ∃ p P cs, p.length = samples.length ∧ IsProbVector p ∧
      ∀ size > 0, ∃ ps d, inverseProblem G size model outDim (s size)
        (fun ds => userPartition G size ds (partition size) (distribution size)) = .ok (ps, d) ∧
        Solved d ps v P ∧ IsSimpleFunction G ps samples pts ∧ ps.glob.probabilities = some p ∧
        SolvesInverse G ps v f p P cs := by
  have hspos : 0 < samples.length := List.length_pos_of_ne_nil hsne
  have hppos : 0 < pts.length := List.length_pos_of_ne_nil hpne
  have hppK : (pts.length : K) ≠ 0 := by exact_mod_cast hppos.ne'
  set p := (List.range samples.length).map fun i =>
      (hits (pts.map (G.nn 2 samples)) i : K) / (pts.length : K) with hp
  set t := treeSet outDim samples (some p) with ht
  have hrt : Ready t samples.length := ready_treeSet hsa hspos (by simp [hp])
  have hcellt : t.cell G = G.nn 2 samples := rfl
  have hpv : IsProbVector p := by
    have := cellFractions_prob hG hrt hpne
    unfold cellFractions at this
    rwa [hcellt] at this
  have hfr := cellFractions_map hG hrt pts
  rw [hcellt, ← hp] at hfr
  have key : ∀ size > 0, ∃ ps d P, inverseProblem G size model outDim (s size)
        (fun ds => userPartition G size ds (partition size) (distribution size)) = .ok (ps, d) ∧
        Solved d ps v P ∧ IsSimpleFunction G ps samples pts ∧ ps.glob.probabilities = some p ∧
        SolvesInverse G ps v f p P (v.map fun x => t.cell G (f x)) := by
    intro size hsize
    obtain ⟨h1, h2, h3⟩ := hs size hsize
    obtain ⟨d, inp, out, hd, hr⟩ := sampleAndRun_ok hsize hm h1 h2 hne h3 hf
    have hsK : (size : K) ≠ 0 := by exact_mod_cast hsize.ne'
    have hden : ((pts.length * size : Nat) : K) ≠ 0 := by
      push_cast; exact mul_ne_zero hppK hsK
    have hm' : userPartition G size (.disc d) (partition size) (distribution size) =
        (DataSet.disc d).attach G size t := by
      simp only [userPartition, DataSet.dimOf, hr.houtput, orErr_some, ok_bind, pure_bind_ok,
        hpar size hsize, hdist size hsize, hr.houtDim, raiseIf, ne_eq, not_true_eq_false, or_self,
        if_false, binnedSet_ok hsa hspos hden]
      congr 1
      rw [ht, hp]
      congr 2
      refine List.map_congr_left fun i _ => ?_
      rw [List.map_flatten, List.map_replicate, hits_replicate]
      push_cast
      field_simp
    obtain ⟨ps, d', inp', P, a1, -, a2, a3, a4, a5, a6, a7, a8⟩ :=
      inverse_of_attach hG hsize hne hd hr hrt rfl hpv.1
        (measure := fun ds => userPartition G size ds (partition size) (distribution size)) hm'
    refine ⟨ps, d', P, a1, ⟨a4, inp', a5, a6, a7⟩, ⟨a3.1, by rw [a2]; rfl, p, by rw [a2]; rfl,
      ⟨hfr.length, by rw [isCell_congr a2 a3.1 a3.2]; exact hfr.fraction⟩, hpv⟩, by rw [a2]; rfl, a8⟩
  obtain ⟨ps, d, P, b1, b2, b3, b4, b6⟩ := key 1 Nat.one_pos
  refine ⟨p, P, v.map fun x => t.cell G (f x), by simp [hp], hpv, fun size hsize => ?_⟩
  obtain ⟨ps', d', P', c1, c2, c3, c4, c6⟩ := key size hsize
  have : P' = P := by
    apply List.ext_getElem?
    intro k
    by_cases hk : k < v.length
    · rw [b6.share k _ (by rw [List.getElem?_map, List.getElem?_eq_getElem hk]; rfl),
        c6.share k _ (by rw [List.getElem?_map, List.getElem?_eq_getElem hk]; rfl)]
    · rw [List.getElem?_eq_none (by rw [c6.length]; omega),
        List.getElem?_eq_none (by rw [b6.length]; omega)]
  subst this
  exact ⟨ps', d', c1, c2, c3, c4, c6⟩

/-- **C109.** With a single sample in the partition the answer does not depend on the model, on the
sample of the partition or on the points: every sample gets probability `1 / N`. -/
theorem C109_single {G : Geometry K} (hG : Sound G)
    {model : Nat → List (List K) → ModelOutput K} {outDim : Nat}
    {f e : List K → List K} {j : List K → List (List K)} (hm : RowWise model false false f e j)
    {s : Nat → SampleSet K} {v : List (List K)} (hs : HoldSamples s v) (hne : v ≠ [])
    (hf : ∀ row ∈ v, (f row).length = outDim) {y : List K} {pts : List (List K)}
    {partition distribution : Nat → DataSet K} (hy : y.length = outDim) (hpne : pts ≠ [])
    (hpar : ∀ size > 0, (partition size).inputs size = .ok ⟨1, outDim, some [y]⟩)
    (hdist : ∀ size > 0, (distribution size).inputs size = .ok ⟨pts.length, outDim, some pts⟩)
    {size : Nat} (hsize : 0 < size) :
    ∃ ps d, inverseProblem G size model outDim (s size)
        (fun ds => userPartition G size ds (partition size) (distribution size)) = .ok (ps, d) ∧
        Solved d ps v (List.replicate v.length (1 / (v.length : K))) := by
  obtain ⟨p, P, cs, hpl, hpv, h⟩ := C108_user (samples := [y]) hG hm hs hne hf (by simp [hy]) (by simp) hpne
    hpar hdist
  obtain ⟨ps, d, h1, h2, -, -, h4⟩ := h size hsize
  refine ⟨ps, d, h1, ?_⟩
  suffices P = List.replicate v.length (1 / (v.length : K)) by rwa [← this]
  obtain ⟨x, rfl⟩ := List.length_eq_one_iff.1 (show p.length = 1 from hpl)
  have hx : x = 1 := by simpa using hpv.2
  have hcl : cs.length = v.length := h4.cell.length_eq.symm
  have hc0 : cs = List.replicate v.length 0 := by
    rw [List.eq_replicate_iff]
    exact ⟨hcl, fun c hc => by have := h4.range c hc; simpa using this⟩
  apply List.ext_getElem?
  intro k
  by_cases hk : k < v.length
  · rw [h4.share k 0 (by rw [hc0, List.getElem?_replicate, if_pos hk]),
      List.getElem?_replicate, if_pos hk, hc0, hits, List.count_replicate_self]
    simp [hx]
  · rw [List.getElem?_eq_none (by rw [h4.length]; omega), List.getElem?_eq_none (by simp; omega)]

end

namespace Ex

/-- Five samples of the interval. -/
def wfSamples : SampleSet ℚ := { dim := 1, glob := { values := some [[0], [1], [2], [3], [4]] } }

theorem wfHold : Spec.HoldSamples (fun _ => wfSamples) [[0], [1], [2], [3], [4]] :=
  fun _ _ => ⟨consistent_of _ _ rfl rfl, rfl, Or.inl rfl⟩

/-- The map `x ↦ 2x + 1`. -/
def wfMap (r : List ℚ) : List ℚ := [2 * r.getD 0 0 + 1]

def wfModel : Nat → List (List ℚ) → ModelOutput ℚ := fun _ rows => .array (rows.map wfMap)

theorem wfRowWise : Spec.RowWise wfModel false false wfMap id (fun _ => []) :=
  fun _ _ => ⟨none, none, rfl, nofun, nofun⟩

/-- The probabilities of the samples. -/
def wfProbs (r : Except Err (SampleSet ℚ × Disc ℚ)) : Option (List ℚ) :=
  r.toOption.bind fun q => q.2.input.bind fun i => i.glob.probabilities

/-- The hypotheses of `C108_rectangle` hold. -/
example := C108_rectangle (G := G) sound_G wfRowWise wfHold (by simp) (by simp [wfMap])
  (q := [4]) (rs := [6]) (cells := .scalar 2) (ns := [2]) Nat.one_pos rfl rfl (by norm_num) rfl rfl
  (by simp)

/-- The rectangle `(1, 7]` with two cells: the output 1 is outside, 3 is in the first cell, 5 and 7 are
in the second, 9 is outside. -/
example : wfProbs (inverseProblem G 2 wfModel 1 wfSamples
      (fun ds => regularSize G 2 ds (some [4]) (.array [6]) (.scalar 2))) =
    some [0, 1 / 2, 1 / 4, 1 / 4, 0] := by decide +kernel

/-- The hypotheses of `C108_scaled` hold. -/
example := C108_scaled (G := G) sound_G wfRowWise wfHold (by simp) (by simp [wfMap]) Nat.one_pos
  (by
    intro k hk
    obtain rfl : k = 0 := by omega
    exact ⟨[0], by simp, [1], by simp, by decide +kernel⟩)
  (q := [4]) (scale := 1 / 2) (cells := .scalar 2) (ns := [2]) rfl (by norm_num) rfl rfl (by simp)

/-- The hypotheses of `C108_user` hold. -/
example := C108_user (G := G) sound_G wfRowWise wfHold (by simp) (by simp [wfMap])
  (samples := [[2], [8]]) (pts := [[1], [6], [7], [9]]) (partition := fun _ => .array 1 [[2], [8]])
  (distribution := fun _ => .array 1 [[1], [6], [7], [9]]) (by simp) (by simp) (by simp)
  (fun _ _ => rfl) (fun _ _ => rfl)

example : wfProbs (inverseProblem G 3 wfModel 1 wfSamples
      (fun ds => userPartition G 3 ds (.array 1 [[2], [8]]) (.array 1 [[1], [6], [7], [9]]))) =
    some [1 / 12, 1 / 12, 1 / 12, 3 / 8, 3 / 8] := by decide +kernel

/-- The hypotheses of `C109_single` hold. -/
example := C109_single (G := G) sound_G wfRowWise wfHold (by simp) (by simp [wfMap])
  (y := [2]) (pts := [[1], [6], [7], [9]]) (partition := fun _ => .array 1 [[2]])
  (distribution := fun _ => .array 1 [[1], [6], [7], [9]]) rfl (by simp)
  (fun _ _ => rfl) (fun _ _ => rfl) (size := 3) (by norm_num)

end Ex

end BET
