import Verif.Props.Prob

/-!
# C04, C05: `calculateP.prob_on_emulated_samples`
-/

set_option linter.unusedSectionVars false
set_option linter.unusedSimpArgs false
set_option autoImplicit false

namespace BET

open Spec

variable {K : Type} [Field K] [LinearOrder K]

/-- What `prob_on_emulated_samples` left behind: the global input-output pointer, the
nearest input sample of every emulated point, the probabilities it used and the
ones it stored.  The pointer has one entry for every emulated point. -/
structure ProbEmResult (d' : Disc K) (io : List Nat) (ii : Chunks Nat) (P : Chunks K)
    (probs : List K) : Prop where
  hio : d'.ioPtr = some io
  hii : d'.iiPtrLocal = some ii
  hem : ∃ em vals, d'.emInput = some em ∧ em.loc.values = some vals ∧ SameShape ii vals ∧
    em.loc.probabilities = some P
  hprobs : ∃ ops, d'.outputProb = some ops ∧ ops.glob.probabilities = some probs

/-- The number of emulated points whose nearest input sample maps to output cell `c`. -/
def emHits (io : List Nat) (ii : Chunks Nat) (c : Nat) : Nat :=
  ii.flatten.countP fun s => io[s]? = some c

theorem probOnEmulated_inv {G : Geometry K} {size : Nat} {d d' : Disc K} {g : Bool}
    (h : probOnEmulated G size d g = .ok d') :
    ∃ em ops io ii ptr vals P n, d'.emInput = some em ∧ d'.outputProb = some ops ∧
      d'.ioPtr = some io ∧ d'.iiPtrLocal = some ii ∧ composePtr io ii = .ok ptr ∧
      em.loc.probabilities = some P ∧ em.loc.values = some vals ∧
      (g = true → em.glob.probabilities = some P.flatten) ∧
      (∀ probs, ops.glob.probabilities = some probs → probs.length = n) ∧
      (List.range n).foldlM (probEmBody ops.glob.probabilities ptr)
        (vals.map fun c => List.replicate c.length 0) = .ok P := by
  unfold probOnEmulated at h
  rw [bind_eq_ok] at h
  obtain ⟨_, _, h⟩ := h
  rw [bind_eq_ok] at h
  obtain ⟨ops₀, hops₀, h⟩ := h
  rw [orErr_eq_ok] at hops₀
  rw [bind_eq_ok] at h
  obtain ⟨n, hn, h⟩ := h
  rw [bind_eq_ok] at h
  obtain ⟨_, _, h⟩ := h
  rw [bind_eq_ok] at h
  obtain ⟨_, _, h⟩ := h
  rw [bind_eq_ok] at h
  obtain ⟨d₁, hd₁, h⟩ := h
  rw [bind_eq_ok] at h
  obtain ⟨d₂, hd₂, h⟩ := h
  rw [bind_eq_ok] at h
  obtain ⟨em, hem, h⟩ := h
  rw [bind_eq_ok] at h
  obtain ⟨vals, hvals, h⟩ := h
  rw [bind_eq_ok] at h
  obtain ⟨io, hio, h⟩ := h
  rw [bind_eq_ok] at h
  obtain ⟨ii, hii, h⟩ := h
  rw [bind_eq_ok] at h
  obtain ⟨ptr, hptr, h⟩ := h
  rw [bind_eq_ok] at h
  obtain ⟨ops, hops, h⟩ := h
  rw [bind_eq_ok] at h
  obtain ⟨P, hP, h⟩ := h
  rw [pure_eq_ok] at h
  rw [orErr_eq_ok] at hvals hio hii hops
  have h21 : d₂.outputProb = d₁.outputProb := by
    unfold Disc.ensureIiPtr at hd₂
    split at hd₂
    · exact (setIiPtr_frame hd₂).2.1
    · cases hd₂; rfl
  have hprobs : ops.glob.probabilities = ops₀.glob.probabilities := by
    rw [h21] at hops
    unfold Disc.ensureIoPtr at hd₁
    split at hd₁
    · obtain ⟨_, _, _, o, o', ho, ho', hoo⟩ := setIoPtr_frame hd₁
      rw [hops₀] at ho
      rw [hops] at ho'
      cases ho; cases ho'
      exact hoo
    · cases hd₁
      rw [hops₀] at hops
      cases hops
      rfl
  have hlen := (SampleSet.checkNum_allLength hn).probabilities
  subst h
  refine ⟨_, ops, io, ii, ptr, vals, P, n, rfl, hops, hio, hii, hptr, ?_, ?_, ?_, ?_, hP⟩
  · cases g <;> rfl
  · cases g <;> exact hvals
  · intro hg; simp [hg, SampleSet.localToGlobal, Arrays.map₂, getGlobalValues]
  · intro probs hp; exact hlen probs (hprobs ▸ hp)

theorem replicate_shape {α β : Type} {a : List (List α)} {b : List (List β)} (h : SameShape a b)
    (z : K) : (b.map fun c => List.replicate c.length z) =
      a.map fun c => List.replicate c.length z := by
  induction h with
  | nil => rfl
  | cons hab _ ih => simp only [List.map_cons, ih, hab]

theorem hits_compose (io : List Nat) (ii : Chunks Nat) (hall : ∀ s ∈ ii.flatten, s < io.length)
    (c : Nat) : hits ((ii.map fun x => x.map fun s => io.getD s 0).flatten) c = emHits io ii c := by
  have : (ii.map fun x => x.map fun s => io.getD s 0).flatten =
      ii.flatten.map fun s => io.getD s 0 := by rw [List.map_flatten]
  rw [this, hits, List.count_eq_countP, List.countP_map]
  unfold emHits
  refine List.countP_congr fun s hs => ?_
  have := hall s hs
  simp [this]

theorem probEm_entries {G : Geometry K} {size : Nat} {d d' : Disc K} {g : Bool}
    (h : probOnEmulated G size d g = .ok d') {io : List Nat} {ii : Chunks Nat} {P : Chunks K}
    {probs : List K} (r : ProbEmResult d' io ii P probs) :
    (∀ s ∈ ii.flatten, s < io.length) ∧
    P = ii.map fun x => x.map fun s =>
      if 0 < probs.getD (io.getD s 0) 0 then
        probs.getD (io.getD s 0) 0 / (emHits io ii (io.getD s 0) : K) else 0 := by
  obtain ⟨em, ops, io', ii', ptr, vals, P', n, hem, hops, hio, hii, hptr, hP, hvals, _, hn, hloop⟩ :=
    probOnEmulated_inv h
  obtain ⟨em', vals', hem', hvals', hsh, hP'⟩ := r.hem
  obtain ⟨ops', hops', hpr'⟩ := r.hprobs
  rw [hem] at hem'; cases hem'
  rw [hops] at hops'; cases hops'
  have e := r.hio; rw [hio] at e; cases e
  have e := r.hii; rw [hii] at e; cases e
  rw [hP] at hP'; cases hP'
  rw [hvals] at hvals'; cases hvals'
  obtain ⟨rfl, hall⟩ := composePtr_inv hptr
  refine ⟨hall, ?_⟩
  have hlen := hn probs hpr'
  rw [hpr', replicate_shape hsh] at hloop
  have e : (ii.map fun c => List.replicate c.length (0 : K)) =
      (ii.map fun c => c.map fun s => io.getD s 0).map fun c => List.replicate c.length 0 := by
    rw [List.map_map]; simp [Function.comp_def]
  rw [e, probEmLoop_eq _ _ _ (by omega)] at hloop
  cases hloop
  rw [List.map_map]
  refine List.map_congr_left fun x hx => ?_
  simp only [Function.comp, List.map_map]
  refine List.map_congr_left fun s hs => ?_
  rw [Function.comp, hits_compose io ii hall]
  by_cases hc : io.getD s 0 < n
  · simp only [hc, true_and, gt_iff_lt]
  · have : probs.getD (io.getD s 0) 0 = 0 := by
      rw [List.getD_eq_getElem?_getD, List.getElem?_eq_none (by omega)]; rfl
    simp only [hc, this, gt_iff_lt, lt_irrefl, false_and]

variable [IsStrictOrderedRing K]

/-- **C04.** Every emulated point whose nearest input sample maps to a cell `c` of
positive probability gets `P_c / n_c`, where `n_c` counts such points over all
processes. -/
theorem C04_emulated_equal_share {G : Geometry K} {size : Nat} {d d' : Disc K} {g : Bool}
    (h : probOnEmulated G size d g = .ok d') {io : List Nat} {ii : Chunks Nat} {P : Chunks K}
    {probs : List K} (r : ProbEmResult d' io ii P probs) (j s c : Nat) (p : K)
    (hj : ii.flatten[j]? = some s) (hs : io[s]? = some c) (hp : probs[c]? = some p)
    (hpos : 0 < p) : P.flatten[j]? = some (p / (emHits io ii c : K)) := by
  obtain ⟨_, hP⟩ := probEm_entries h r
  rw [hP, ← List.map_flatten, List.getElem?_map, hj]
  have h1 : io.getD s 0 = c := by rw [List.getD_eq_getElem?_getD, hs]; rfl
  have h2 : probs.getD c 0 = p := by rw [List.getD_eq_getElem?_getD, hp]; rfl
  simp only [Option.map_some, h1, h2, hpos, if_true]

/-- **C04.** Points that map to a cell without positive probability get 0. -/
theorem C04_emulated_zero {G : Geometry K} {size : Nat} {d d' : Disc K} {g : Bool}
    (h : probOnEmulated G size d g = .ok d') {io : List Nat} {ii : Chunks Nat} {P : Chunks K}
    {probs : List K} (r : ProbEmResult d' io ii P probs) (j s c : Nat)
    (hj : ii.flatten[j]? = some s) (hs : io[s]? = some c)
    (hno : ¬ ∃ p, probs[c]? = some p ∧ 0 < p) : P.flatten[j]? = some 0 := by
  obtain ⟨_, hP⟩ := probEm_entries h r
  rw [hP, ← List.map_flatten, List.getElem?_map, hj]
  have h1 : io.getD s 0 = c := by rw [List.getD_eq_getElem?_getD, hs]; rfl
  have h2 : ¬ 0 < probs.getD c 0 := by
    intro hc
    apply hno
    cases hc' : probs[c]? with
    | none => rw [List.getD_eq_getElem?_getD, hc'] at hc; simp at hc
    | some p => exact ⟨p, rfl, by rw [List.getD_eq_getElem?_getD, hc'] at hc; exact hc⟩
  simp only [Option.map_some, h1, h2, if_false]

/-- **C04.** The mass of every cell of positive probability that some emulated point
hits is conserved: the probabilities of those points add up to the probability of
the cell. -/
theorem C04_emulated_cell_mass {G : Geometry K} {size : Nat} {d d' : Disc K} {g : Bool}
    (h : probOnEmulated G size d g = .ok d') {io : List Nat} {ii : Chunks Nat} {P : Chunks K}
    {probs : List K} (r : ProbEmResult d' io ii P probs) (c : Nat) (p : K)
    (hp : probs[c]? = some p) (hpos : 0 < p) (hhit : ∃ s ∈ ii.flatten, io[s]? = some c) :
    mass (ii.flatten.map fun s => io.getD s 0) P.flatten c = p := by
  obtain ⟨hall, hP⟩ := probEm_entries h r
  have h2 : probs.getD c 0 = p := by rw [List.getD_eq_getElem?_getD, hp]; rfl
  have hne : (emHits io ii c : K) ≠ 0 := by
    have : 0 < emHits io ii c := by
      obtain ⟨s, hs, hc⟩ := hhit
      exact List.countP_pos_iff.mpr ⟨s, hs, by simpa using hc⟩
    exact_mod_cast this.ne'
  rw [hP, ← List.map_flatten]
  have key : ∀ l : List Nat, (∀ s ∈ l, s < io.length) →
      mass (l.map fun s => io.getD s 0) (l.map fun s =>
        if 0 < probs.getD (io.getD s 0) 0 then
          probs.getD (io.getD s 0) 0 / (emHits io ii (io.getD s 0) : K) else 0) c =
      (l.countP fun s => io[s]? = some c : Nat) * (p / (emHits io ii c : K)) := by
    intro l
    induction l with
    | nil => intro _; simp
    | cons s l ih =>
      intro hl
      simp only [List.map_cons, mass_cons, List.countP_cons]
      rw [ih fun t ht => hl t (by simp [ht])]
      have hs : s < io.length := hl s (by simp)
      have hg : io.getD s 0 = io[s] := by
        rw [List.getD_eq_getElem?_getD, List.getElem?_eq_getElem hs]; rfl
      by_cases hc : io[s] = c
      · rw [if_pos (hg.trans hc), hg, hc, h2, if_pos hpos]
        simp [hs, hc]
        ring
      · rw [if_neg (by rw [hg]; exact hc)]
        simp [hs, hc]
  rw [key _ hall]
  change (emHits io ii c : K) * _ = _
  field_simp

/-- **C04.** The gathered result depends only on the gathered pointers and the output
probabilities, not on the number of processes. -/
theorem C04_emulated_rank_independent {G : Geometry K} {size₁ size₂ : Nat}
    {d₁ d₁' d₂ d₂' : Disc K} {g₁ g₂ : Bool} (h₁ : probOnEmulated G size₁ d₁ g₁ = .ok d₁')
    (h₂ : probOnEmulated G size₂ d₂ g₂ = .ok d₂') {io : List Nat} {ii₁ ii₂ : Chunks Nat}
    {P₁ P₂ : Chunks K} {probs : List K} (r₁ : ProbEmResult d₁' io ii₁ P₁ probs)
    (r₂ : ProbEmResult d₂' io ii₂ P₂ probs) (hii : ii₁.flatten = ii₂.flatten) :
    P₁.flatten = P₂.flatten := by
  obtain ⟨_, hP₁⟩ := probEm_entries h₁ r₁
  obtain ⟨_, hP₂⟩ := probEm_entries h₂ r₂
  have e : emHits io ii₁ = emHits io ii₂ := by funext c; simp [emHits, hii]
  rw [hP₁, hP₂, ← List.map_flatten, ← List.map_flatten, hii, e]

/-- A freshly built discretization with emulated input points. -/
structure FreshEm (d : Disc K) (n m k : Nat) (inp out ops em : SampleSet K)
    (y z : List (List K)) (probs : List K) : Prop where
  hinput : d.input = some inp
  hready : Ready inp n
  houtput : d.output = some out
  houtputC : Consistent out n
  houtVals : out.glob.values = some y
  houtLoc : out.loc.values = none
  hops : d.outputProb = some ops
  hopsReady : Ready ops m
  hprobs : ops.glob.probabilities = some probs
  hem : d.emInput = some em
  hemC : Consistent em k
  hemVals : em.glob.values = some z
  hemLoc : em.loc.values = none
  hio : d.ioPtrLocal = none
  hii : d.iiPtrLocal = none

/-- On a fresh discretization: the set of emulated points after the call. -/
theorem emulated_fresh_full {G : Geometry K} (hG : Sound G) {d : Disc K} {n m k : Nat}
    {inp out ops em : SampleSet K} {y z : List (List K)} {probs : List K}
    (f : FreshEm d n m k inp out ops em y z probs) (size : Nat) (hsize : 0 < size) :
    ∃ d' em', probOnEmulated G size d true = .ok d' ∧ d'.emInput = some em' ∧ em'.glob.values = some z ∧
      em'.glob.probabilities = some (z.map fun x =>
        let c := fun x => (y.map (ops.cell G)).getD (inp.cell G x) 0
        if 0 < probs.getD (c x) 0 then
          probs.getD (c x) 0 / (hits (z.map c) (c x) : K) else 0) ∧
      em'.dim = em.dim ∧ em'.domain = em.domain ∧ em'.loc.values = some (arraySplit size z) ∧
      ∃ P, em'.loc.probabilities = some P ∧ SameShape (arraySplit size z) P ∧
        em'.glob.probabilities = some P.flatten := by
  have hcn : d.checkNums size = .ok n := by
    unfold Disc.checkNums
    simp [f.houtput, f.hinput, SampleSet.checkNum_consistent f.houtputC,
      SampleSet.checkNum_consistent f.hready.consistent, pure, Except.pure]
  have hy : y.length = n := f.houtputC.1.values y f.houtVals
  have hpl : probs.length = m := f.hopsReady.consistent.1.probabilities probs f.hprobs
  obtain ⟨ops', hset, hr', hc', hpr'⟩ := setIoPtr_fresh (G := G) (size := size) (g := true)
    f.houtput f.houtputC f.houtVals f.houtLoc f.hops f.hopsReady
  have hens : d.ensureIoPtr G size true = d.setIoPtr G size true := by
    simp [Disc.ensureIoPtr, f.hio]
  rw [hset] at hens
  set d₁ : Disc K := { d with
        output := some (out.splitSet size n)
        outputProb := some ops'
        ioPtrLocal := some (arraySplit size (y.map (ops.cell G)))
        ioPtr := if true then some (arraySplit size (y.map (ops.cell G))).flatten else d.ioPtr }
    with hd₁
  obtain ⟨inp', hset2, _, _⟩ := setIiPtr_fresh (G := G) (size := size) (d := d₁) (em := em)
    (inp := inp) f.hem f.hemC f.hemVals f.hemLoc f.hinput f.hready
  have hens2 : d₁.ensureIiPtr G size = d₁.setIiPtr G size false := by
    simp [Disc.ensureIiPtr, hd₁, f.hii]
  rw [hset2] at hens2
  have hflat : (arraySplit size (y.map (ops.cell G))).flatten = y.map (ops.cell G) :=
    flatten_arraySplit _ _ hsize
  have hflat2 : (arraySplit size (z.map (inp.cell G))).flatten = z.map (inp.cell G) :=
    flatten_arraySplit _ _ hsize
  have hcomp := composePtr_ok (y.map (ops.cell G)) (arraySplit size (z.map (inp.cell G))) (by
    rw [hflat2]
    intro s hs
    obtain ⟨x, _, rfl⟩ := List.mem_map.mp hs
    simpa [hy] using SampleSet.cell_lt hG f.hready x)
  have hvz : (em.splitSet size k).loc.values = some (arraySplit size z) := by
    simp [SampleSet.splitSet, Arrays.map₂, f.hemVals]
  have hzero : ((arraySplit size z).map fun c => List.replicate c.length (0 : K)) =
      ((arraySplit size (z.map (inp.cell G))).map fun c =>
        c.map fun s => (y.map (ops.cell G)).getD s 0).map fun c => List.replicate c.length 0 := by
    rw [List.map_map, ← replicate_shape
      (arraySplit_sameShape size (z.map (inp.cell G)) z (by simp)).symm]
    simp [Function.comp_def]
  have hloop := probEmLoop_eq probs ((arraySplit size (z.map (inp.cell G))).map fun c =>
        c.map fun s => (y.map (ops.cell G)).getD s 0) m (by omega)
  rw [← hzero] at hloop
  unfold probOnEmulated
  simp only [hcn, ok_bind, f.hops, orErr_some, f.hem,
    SampleSet.checkNum_consistent f.hopsReady.consistent, SampleSet.checkNum_consistent f.hemC,
    hens, hens2]
  simp only [hd₁, hvz, orErr_some, ok_bind, if_true, hflat, hcomp, hpr', f.hprobs, hloop]
  refine ⟨_, _, rfl, rfl, ?_, ?_, rfl, rfl, ?_, _, rfl, ?_, ?_⟩
  rotate_left 2
  · rfl
  · exact (arraySplit_sameShape size z (z.map (inp.cell G)) (by simp)).trans
      ((SameShape.map_map _ _).trans (SameShape.map_map _ _))
  · simp only [SampleSet.localToGlobal, Arrays.map₂, getGlobalValues, SampleSet.gatherArr_some]
  · simp only [SampleSet.localToGlobal, Arrays.map₂, hvz, SampleSet.gatherArr_some, getGlobalValues,
      flatten_arraySplit _ _ hsize]
  simp only [SampleSet.localToGlobal, Arrays.map₂, getGlobalValues, SampleSet.gatherArr_some, Option.some.injEq]
  rw [← List.map_flatten, ← List.map_flatten, hflat2, List.map_map, List.map_map]
  refine List.map_congr_left fun x _ => ?_
  simp only [Function.comp]
  have hm : ∀ c, (c < m ∧ probs.getD c 0 > 0) ↔ 0 < probs.getD c 0 := by
    intro c
    constructor
    · exact fun hc => hc.2
    · intro hc
      refine ⟨?_, hc⟩
      by_contra hlt
      rw [List.getD_eq_getElem?_getD, List.getElem?_eq_none (by omega)] at hc
      simp at hc
  simp only [hm, List.map_map]
  rfl

/-- **C04.** On a fresh discretization the call succeeds for every number of processes
and stores the same global probabilities for each, beside the emulated points, which stay as they are. -/
theorem C04_emulated_fresh {G : Geometry K} (hG : Sound G) {d : Disc K} {n m k : Nat}
    {inp out ops em : SampleSet K} {y z : List (List K)} {probs : List K}
    (f : FreshEm d n m k inp out ops em y z probs) (size : Nat) (hsize : 0 < size) :
    ∃ d' em', probOnEmulated G size d true = .ok d' ∧ d'.emInput = some em' ∧ em'.glob.values = some z ∧
      em'.glob.probabilities = some (z.map fun x =>
        let c := fun x => (y.map (ops.cell G)).getD (inp.cell G x) 0
        if 0 < probs.getD (c x) 0 then
          probs.getD (c x) 0 / (hits (z.map c) (c x) : K) else 0) := by
  obtain ⟨d', em', h1, h2, h3, h4, -⟩ := emulated_fresh_full hG f size hsize
  exact ⟨d', em', h1, h2, h3, h4⟩

theorem ensureIiPtr_ioPtr {G : Geometry K} {size : Nat} {d d' : Disc K}
    (h : d.ensureIiPtr G size = .ok d') : d'.ioPtr = d.ioPtr := by
  unfold Disc.ensureIiPtr at h
  split at h
  · exact (setIiPtr_frame h).2.2.1
  · cases h; rfl

/-- **C05 is false.**  Whenever the local pointer is set and the global one is not,
`prob_on_emulated_samples` does not return: it indexes the global pointer, which is
`None`. -/
theorem C05_negation_local_pointer_only {G : Geometry K} {size : Nat} {d : Disc K} {g : Bool}
    (hl : d.ioPtrLocal.isSome) (hg : d.ioPtr = none) :
    ∀ d', probOnEmulated G size d g ≠ .ok d' := by
  intro d' h
  unfold probOnEmulated at h
  rw [bind_eq_ok] at h
  obtain ⟨_, _, h⟩ := h
  rw [bind_eq_ok] at h
  obtain ⟨_, _, h⟩ := h
  rw [bind_eq_ok] at h
  obtain ⟨_, _, h⟩ := h
  rw [bind_eq_ok] at h
  obtain ⟨_, _, h⟩ := h
  rw [bind_eq_ok] at h
  obtain ⟨_, _, h⟩ := h
  rw [bind_eq_ok] at h
  obtain ⟨d₁, hd₁, h⟩ := h
  rw [bind_eq_ok] at h
  obtain ⟨d₂, hd₂, h⟩ := h
  rw [bind_eq_ok] at h
  obtain ⟨_, _, h⟩ := h
  rw [bind_eq_ok] at h
  obtain ⟨_, _, h⟩ := h
  rw [bind_eq_ok] at h
  obtain ⟨io, hio, _⟩ := h
  rw [orErr_eq_ok] at hio
  have hne : d.ioPtrLocal.isNone = false := by
    cases hx : d.ioPtrLocal with
    | none => rw [hx] at hl; cases hl
    | some x => rfl
  unfold Disc.ensureIoPtr at hd₁
  rw [hne] at hd₁
  cases hd₁
  rw [ensureIiPtr_ioPtr hd₂, hg] at hio
  cases hio

/-- **C05 is false** on every discretization as a user builds it: after `prob` (which
sets only the local pointer) `prob_on_emulated_samples` never succeeds. -/
theorem C05_negation_after_prob {G : Geometry K} {size : Nat} {d d' : Disc K} {g g' : Bool}
    (hl : d.ioPtrLocal = none) (hg : d.ioPtr = none) (h : prob G size d g = .ok d') :
    ∀ d'', probOnEmulated G size d' g' ≠ .ok d'' := by
  obtain ⟨_, _, ptr, _, _, _, _, hptr, _⟩ := prob_inv h
  refine C05_negation_local_pointer_only (by simp [hptr]) ?_
  unfold prob at h
  rw [bind_eq_ok] at h
  obtain ⟨_, _, h⟩ := h
  rw [bind_eq_ok] at h
  obtain ⟨ops₀, hops₀, h⟩ := h
  rw [bind_eq_ok] at h
  obtain ⟨n, hn, h⟩ := h
  rw [bind_eq_ok] at h
  obtain ⟨d₁, hd₁, h⟩ := h
  rw [bind_eq_ok] at h
  obtain ⟨inp₀, _, h⟩ := h
  rw [bind_eq_ok] at h
  obtain ⟨inp₁, _, h⟩ := h
  rw [bind_eq_ok] at h
  obtain ⟨ptr, hptr, h⟩ := h
  rw [bind_eq_ok] at h
  obtain ⟨ops, hops, h⟩ := h
  rw [bind_eq_ok] at h
  obtain ⟨P, hP, h⟩ := h
  rw [pure_eq_ok] at h
  subst h
  simp only [Disc.ensureIoPtr, hl, Option.isNone_none, if_true] at hd₁
  unfold Disc.setIoPtr at hd₁
  rw [bind_eq_ok] at hd₁
  obtain ⟨_, _, h⟩ := hd₁
  rw [bind_eq_ok] at h
  obtain ⟨_, _, h⟩ := h
  rw [bind_eq_ok] at h
  obtain ⟨_, _, h⟩ := h
  rw [bind_eq_ok] at h
  obtain ⟨_, _, h⟩ := h
  rw [bind_eq_ok] at h
  obtain ⟨⟨_, _⟩, _, h⟩ := h
  rw [pure_eq_ok] at h
  subst h
  exact hg

/-- **C05, the part that holds.**  If the pointer was set with `globalize=True` the call
gives the same result as on the untouched discretization (`C04_emulated_fresh`).
Missing: pointers that are only set locally, where the claim is false. -/
theorem C05_global_pointer_partial {G : Geometry K} (hG : Sound G) {d : Disc K} {n m k : Nat}
    {inp out ops em : SampleSet K} {y z : List (List K)} {probs : List K}
    (f : FreshEm d n m k inp out ops em y z probs) (size : Nat) (hsize : 0 < size) :
    ∃ d₁ d', d.setIoPtr G size true = .ok d₁ ∧ probOnEmulated G size d true = .ok d' ∧
      probOnEmulated G size d₁ true = .ok d' := by
  obtain ⟨d', _, hok, _⟩ := C04_emulated_fresh hG f size hsize
  obtain ⟨ops', hset, hr', hc', hpr'⟩ := setIoPtr_fresh (G := G) (size := size) (g := true)
    f.houtput f.houtputC f.houtVals f.houtLoc f.hops f.hopsReady
  refine ⟨_, d', hset, hok, ?_⟩
  have houtC : Consistent (out.splitSet size n) n := f.houtputC
  have hens : d.ensureIoPtr G size true = d.setIoPtr G size true := by
    simp [Disc.ensureIoPtr, f.hio]
  unfold probOnEmulated at hok ⊢
  have h1 : d.checkNums size = .ok n := by
    unfold Disc.checkNums
    simp [f.houtput, f.hinput, SampleSet.checkNum_consistent f.houtputC,
      SampleSet.checkNum_consistent f.hready.consistent, pure, Except.pure]
  simp only [h1, ok_bind, f.hops, orErr_some, f.hem,
    SampleSet.checkNum_consistent f.hopsReady.consistent, SampleSet.checkNum_consistent f.hemC,
    hens, hset] at hok
  have h2 : ({ d with
        output := some (out.splitSet size n)
        outputProb := some ops'
        ioPtrLocal := some (arraySplit size (y.map (ops.cell G)))
        ioPtr := if true then some (arraySplit size (y.map (ops.cell G))).flatten else d.ioPtr } :
        Disc K).checkNums size = .ok n := by
    unfold Disc.checkNums
    simp [f.hinput, SampleSet.checkNum_consistent houtC,
      SampleSet.checkNum_consistent f.hready.consistent, pure, Except.pure]
  rw [h2]
  simp only [ok_bind, orErr_some, f.hem, SampleSet.checkNum_consistent hr'.consistent,
    SampleSet.checkNum_consistent f.hemC, Disc.ensureIoPtr, Option.isNone_some]
  exact hok

end BET

namespace BET.Ex

open BET.Spec

/-- `probDisc` with five emulated points. -/
def probEmDisc : Disc ℚ :=
  { probDisc with emInput := some { dim := 1, glob :=
    { values := some [[0], [1/5], [9/10], [2], [31/10]] } } }

/-- The hypotheses of `C04_emulated_fresh` and `C05_global_pointer_partial` are met. -/
example : ∃ n m k inp out ops em y z probs,
    FreshEm probEmDisc n m k inp out ops em y z probs := by
  have hc : ∀ (s : SampleSet ℚ) (n : Nat), s.checkNum 1 = .ok n → s.glob.values.isSome = true →
      Consistent s n := fun s n h hv => SampleSet.consistent_of_checkNum h hv
  exact ⟨4, 3, 5, _, _, _, _, _, _, _, rfl, ⟨hc _ _ rfl rfl, by decide, rfl, Or.inl rfl, nofun,
    nofun⟩, rfl, hc _ _ rfl rfl, rfl, rfl, rfl, ⟨hc _ _ rfl rfl, by decide, rfl, Or.inl rfl, nofun,
    nofun⟩, rfl, rfl, hc _ _ rfl rfl, rfl, rfl, rfl, rfl⟩

example : ((probOnEmulated G 2 probEmDisc true).toOption.bind (·.emInput)).bind
    (·.glob.probabilities) = some [1/6, 1/6, 1/6, 1/8, 1/8] := by decide +kernel

/-- The hypotheses of the other C04 theorems hold of that result. -/
example : ∃ d' io ii P probs, probOnEmulated G 2 probEmDisc true = .ok d' ∧
    ProbEmResult d' io ii P probs ∧ probs[0]? = some (1/2) ∧
    ∃ s ∈ ii.flatten, io[s]? = some 0 := by
  have e1 : (probOnEmulated G 2 probEmDisc true).toOption.bind (·.ioPtr) = some [0, 0, 1, 1] := by
    decide +kernel
  have e2 : (probOnEmulated G 2 probEmDisc true).toOption.bind (·.iiPtrLocal) =
      some [[0, 0, 1], [2, 3]] := by decide +kernel
  have e3 : (probOnEmulated G 2 probEmDisc true).toOption.bind (fun d => d.emInput.bind fun s =>
      s.loc.values.bind fun v => s.loc.probabilities.map fun p => (v, p)) =
      some ([[[0], [1/5], [9/10]], [[2], [31/10]]], [[1/6, 1/6, 1/6], [1/8, 1/8]]) := by
    decide +kernel
  have e4 : (probOnEmulated G 2 probEmDisc true).toOption.bind (fun d => d.outputProb.bind fun s =>
      s.glob.probabilities) = some [1/2, 1/4, 1/4] := by decide +kernel
  cases h : probOnEmulated G 2 probEmDisc true with
  | error e => rw [h] at e1; cases e1
  | ok d' =>
    rw [h] at e1 e2 e3 e4
    simp only [Except.toOption, Option.bind_some, Option.bind_eq_some_iff, Option.map_eq_some_iff,
      Prod.mk.injEq] at e1 e2 e3 e4
    obtain ⟨em, hem, v, hv, p, hp, rfl, rfl⟩ := e3
    obtain ⟨ops, hops, hpr⟩ := e4
    exact ⟨d', _, _, _, _, rfl, ⟨e1, e2, ⟨em, _, hem, hv, (sameShape_iff _ _).mpr rfl, hp⟩,
      ⟨ops, hops, hpr⟩⟩, rfl, 0, by decide, by decide⟩

/-- A discretization on which the negation of C05 is witnessed, with the exception. -/
example : (prob G 2 probEmDisc true).toOption.isSome ∧
    errOf (do let d ← prob G 2 probEmDisc true; probOnEmulated G 2 d true) = some .typeError := by
  decide +kernel

end BET.Ex
