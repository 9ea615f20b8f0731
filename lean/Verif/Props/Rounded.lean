import Verif.Lemmas.Rounding
import Verif.Props.Stability
import Verif.Props.Volumes
import Mathlib.Algebra.Order.Ring.Pow
import Mathlib.Data.Int.Log
import Mathlib.Algebra.Order.Round

/-!
# C154: rounding errors in the probabilities
-/

set_option autoImplicit false
set_option linter.unusedSectionVars false
set_option linter.unusedSimpArgs false

namespace BET

open Spec

variable {K : Type} [Field K] [LinearOrder K]

/-- **C154** (fidelity). Without rounding the functions are those of the other properties. -/
theorem C154_exact (G : Geometry K) (size : Nat) :
    (∀ d g, probR (.exact K) G size d g = prob G size d g) ∧
    (∀ d g, probOnEmulatedR (.exact K) G size d g = probOnEmulated G size d g) ∧
    (∀ d, probWithEmulatedVolumesR (.exact K) G size d = probWithEmulatedVolumes G size d) ∧
    (∀ old new, probFromSampleSetR (.exact K) G size old new = probFromSampleSet G size old new) ∧
    (∀ old new em, probFromSampleSetEmulatedR (.exact K) G size old new em =
      probFromSampleSetEmulated G size old new em) ∧
    (∀ d new, probFromDiscInputR (.exact K) G size d new = probFromDiscInput G size d new) ∧
    (∀ s em, SampleSet.estimateVolumeEmulatedR (.exact K) G size s em = s.estimateVolumeEmulated G size em) ∧
    (∀ s : SampleSet K, s.estimateVolumeMcR (.exact K) size = s.estimateVolumeMc size true) :=
  ⟨fun _ _ => rfl, fun _ _ => rfl, fun _ => rfl, fun _ _ => rfl, fun _ _ _ => rfl, fun _ _ => rfl, fun _ _ => rfl,
    fun _ => rfl⟩

variable [IsStrictOrderedRing K]

/-- **C154.** The bound in the usual form: a number that is off by `k` rounding errors has a relative error of at most
`k u / (1 - k u)`. -/
theorem C154_relative {u : K} (hu : 0 ≤ u) (hu1 : u < 1) {k : Nat} (hk : k * u < 1) {x y : K} (hx : 0 ≤ x)
    (h : Close u k x y) : |y - x| ≤ k * u / (1 - k * u) * x := by
  have hb : 1 - k * u ≤ (1 - u) ^ k := by
    have := one_add_mul_le_pow (show (-2 : K) ≤ -u by linarith) k
    rw [show 1 + -u = 1 - u by ring] at this
    linarith
  have hd : 0 < 1 - (k : K) * u := by linarith
  have hy := Close.nonneg hu hu1 h hx
  have h1 : (1 - k * u) * x ≤ y := (mul_le_mul_of_nonneg_right hb hx).trans h.1
  have h2 : (1 - k * u) * y ≤ x := (mul_le_mul_of_nonneg_right hb hy).trans h.2
  have hku : 0 ≤ (k : K) * u := mul_nonneg (Nat.cast_nonneg k) hu
  rw [abs_le, div_mul_eq_mul_div, le_div_iff₀ hd, ← neg_div, div_le_iff₀ hd]
  constructor
  · nlinarith [mul_nonneg (mul_nonneg hku hku) hx]
  · linarith

section main
variable {A : Arithmetic K} {u : K} (hA : Rounds A u)
include hA

theorem flatten_close {k : Nat} {P Q : Chunks K} (h : List.Forall₂ (AllClose u k) P Q) :
    AllClose u k P.flatten Q.flatten := by
  clear hA
  induction h with
  | nil => exact .nil
  | cons h _ ih => exact List.rel_append h ih

theorem chunks_refl (k : Nat) {P : Chunks K} (h : ∀ c ∈ P, ∀ x ∈ c, 0 ≤ x) : List.Forall₂ (AllClose u k) P P := by
  induction P with
  | nil => exact .nil
  | cons c P ih =>
    simp only [List.mem_cons, forall_eq_or_imp] at h
    exact .cons (AllClose.refl hA.nonneg hA.lt_one k h.1) (ih fun c hc => h.2 c hc)

theorem ensureIoPtr_probs {G : Geometry K} {size : Nat} {d d' : Disc K} {g : Bool} (h : d.ensureIoPtr G size g = .ok d')
    {ops ops' : SampleSet K} (ho : d.outputProb = some ops) (ho' : d'.outputProb = some ops') :
    ops'.glob.probabilities = ops.glob.probabilities := by
  clear hA
  unfold Disc.ensureIoPtr at h
  split at h
  · obtain ⟨-, -, -, a, b, h1, h2, h3⟩ := setIoPtr_frame h
    obtain rfl := Option.some.inj (h1.symm.trans ho)
    obtain rfl := Option.some.inj (h2.symm.trans ho')
    exact h3
  · cases h
    obtain rfl := Option.some.inj (ho.symm.trans ho')
    rfl

/-- **C154.** Whenever `prob` succeeds without rounding, it succeeds with rounding, and every probability agrees up to
`N + R + 2` rounding errors: `R` is the number of ranks and `N` the largest number of samples on a rank. -/
theorem C154_prob {G : Geometry K} {size : Nat} {d d' : Disc K} (h : prob G size d true = .ok d')
    {ops inp' : SampleSet K} (hops : d.outputProb = some ops) {p : List K} (hp : ops.glob.probabilities = some p)
    (hp0 : ∀ x ∈ p, 0 ≤ x) (hi : d'.input = some inp') {vs : Chunks K} (hvs : inp'.loc.volumes = some vs)
    (hv : ∀ c ∈ vs, ∀ x ∈ c, 0 ≤ x) {N : Nat} (hN : ∀ c ∈ vs, c.length ≤ N) :
    ∃ d'' inp'' P Q, probR A G size d true = .ok d'' ∧ d''.input = some inp'' ∧
      inp'.glob.probabilities = some P ∧ inp''.glob.probabilities = some Q ∧
      AllClose u (N + vs.length + 2) P Q := by
  simp only [prob, bind_eq_ok, pure_eq_ok] at h
  obtain ⟨n, h1, ops₁, h2, m, h3, d₁, h4, inp, h5, inp₁, h6, ptr, h7, ops₂, h8, P, h9, h10⟩ := h
  subst h10
  simp only [Option.some.injEq] at hi
  subst hi
  simp only [if_true] at hvs
  have hops₂ : ops₂.glob.probabilities = some p := by
    rw [orErr_eq_ok] at h8
    rw [ensureIoPtr_probs hA h4 hops h8, hp]
  rw [hops₂, hvs] at h9
  obtain ⟨Q, h11, h12⟩ := probLoopR_close hA (AllClose.refl hA.nonneg hA.lt_one 0 hp0)
    (chunks_refl hA 0 hv) hv hN h9
  simp only [probR, h1, h2, h3, h4, h5, h6, h7, h8, ok_bind, hops₂, hvs, h11]
  refine ⟨_, _, getGlobalValues P, getGlobalValues Q, rfl, rfl, rfl, rfl, ?_⟩
  have := flatten_close hA h12
  simpa [getGlobalValues] using this

theorem split_len_le {α : Type} (p : Nat) (l : List α) : ∀ c ∈ arraySplit p l, c.length ≤ l.length / p + 1 := by
  clear hA
  intro c hc
  have : c.length ∈ (arraySplit p l).map List.length := List.mem_map.mpr ⟨c, hc, rfl⟩
  rw [arraySplit_lengths] at this
  obtain ⟨r, -, hr⟩ := List.mem_map.mp this
  rw [← hr]
  unfold splitLen
  split <;> omega

theorem split_mem {α : Type} {p : Nat} (hp : 0 < p) {l : List α} {Q : α → Prop} (h : ∀ x ∈ l, Q x) :
    ∀ c ∈ arraySplit p l, ∀ x ∈ c, Q x := by
  clear hA
  intro c hc x hx
  refine h x ?_
  rw [← flatten_arraySplit p l hp]
  exact List.mem_flatten.mpr ⟨c, hc, hx⟩

theorem split_close {b p : Nat} {v w : List K} (h : AllClose u b v w) :
    List.Forall₂ (AllClose u b) (arraySplit p v) (arraySplit p w) := by
  clear hA
  have hl := h.length_eq
  unfold arraySplit
  rw [hl]
  generalize List.range p = r
  induction r with
  | nil => exact .nil
  | cons i r ih => exact .cons (List.forall₂_take _ (List.forall₂_drop _ h)) ih

/-- **C154.** The same in terms of the arguments, for data and volumes that carry errors themselves: if the probabilities
of the data are off by `a` rounding errors and the volumes by `b`, the probabilities computed on `size` processes for `n`
samples are off by `a + 2 b + n / size + size + 3`. -/
theorem C154_prob_data {G : Geometry K} {size : Nat} (hsize : 0 < size) {d₁ d₂ : Disc K} {n m : Nat}
    {inp₁ inp₂ out₁ out₂ ops₁ ops₂ : SampleSet K} {y : List (List K)} {v w p q : List K}
    (f₁ : FreshDisc d₁ n m inp₁ out₁ ops₁ y v p) (f₂ : FreshDisc d₂ n m inp₂ out₂ ops₂ y w q)
    (hcells : EqualCells ops₁ ops₂) {a b : Nat} (hpq : AllClose u a p q) (hvw : AllClose u b v w)
    (hv : ∀ x ∈ v, 0 ≤ x) :
    ∃ d' d'' inp' inp'' P Q, prob G size d₁ true = .ok d' ∧ d'.input = some inp' ∧ inp'.glob.probabilities = some P ∧
      probR A G size d₂ true = .ok d'' ∧ d''.input = some inp'' ∧ inp''.glob.probabilities = some Q ∧
      AllClose u (a + 2 * b + n / size + size + 3) P Q := by
  obtain ⟨d', inp', h1, h2, h3⟩ := C03_prob_fresh (G := G) f₁ size hsize
  obtain ⟨hy, hvl, hpl⟩ := FreshDisc.lengths f₁
  have hsh : SameShape (arraySplit size (y.map (ops₁.cell G))) (arraySplit size v) :=
    arraySplit_sameShape _ _ _ (by simp [hy, hvl])
  have hloop := probLoop_eq p _ _ m hsh (by omega)
  obtain ⟨Q, h4, h5⟩ := probLoopR_close hA hpq (split_close hA hvw) (split_mem hA hsize hv) (split_len_le hA size v) hloop
  have h6 := flatten_close hA h5
  rw [length_arraySplit, hvl] at h6
  have hcn : d₂.checkNums size = .ok n := by
    unfold Disc.checkNums
    simp [f₂.houtput, f₂.hinput, SampleSet.checkNum_consistent f₂.houtputC,
      SampleSet.checkNum_consistent f₂.hinputC, pure, Except.pure]
  obtain ⟨ops', hset, -, -, hpr'⟩ := setIoPtr_fresh (G := G) (size := size) (g := false)
    f₂.houtput f₂.houtputC f₂.houtVals f₂.houtLoc f₂.hops f₂.hready
  have hens : d₂.ensureIoPtr G size false = d₂.setIoPtr G size false := by
    simp [Disc.ensureIoPtr, f₂.hptr]
  have hvs : (inp₂.splitSet size n).loc.volumes = some (arraySplit size w) := by
    simp [SampleSet.splitSet, Arrays.map₂, f₂.hvols]
  rw [EqualCells.cell hcells G] at h4
  unfold probR
  simp only [hcn, ok_bind, f₂.hops, orErr_some, SampleSet.checkNum_consistent f₂.hready.consistent, hens, hset, f₂.hinput,
    SampleSet.localized_none size f₂.hinputLoc, SampleSet.globalToLocal_ok f₂.hinputC, hpr', f₂.hprobs, hvs, h4]
  refine ⟨d', _, inp', _, _, Q.flatten, h1, h2, h3, rfl, rfl, rfl, ?_⟩
  refine (show a + b + (b + (n / size + 1) + size) + 2 = a + 2 * b + n / size + size + 3 by ring) ▸ ?_
  convert h6 using 1
  rw [flatten_zipWith_zipWith _ hsh, flatten_arraySplit _ _ hsize, flatten_arraySplit _ _ hsize]
  congr 1
  funext c x
  by_cases hc : c < m
  · simp [hc]
  · have : p.getD c 0 = 0 := by simp [List.getD, show p.length ≤ c by omega]
    simp only [hc, this, gt_iff_lt, lt_irrefl, false_and, and_false]

/-- **C154.** `prob_on_emulated_samples` makes one rounding error only. -/
theorem C154_emulated {G : Geometry K} {size : Nat} {d d' : Disc K} (h : probOnEmulated G size d true = .ok d')
    {ops em' : SampleSet K} (hops : d.outputProb = some ops) {p : List K} (hp : ops.glob.probabilities = some p)
    (hp0 : ∀ x ∈ p, 0 ≤ x) (hi : d'.emInput = some em') :
    ∃ d'' em'' P Q, probOnEmulatedR A G size d true = .ok d'' ∧ d''.emInput = some em'' ∧
      em'.glob.probabilities = some P ∧ em''.glob.probabilities = some Q ∧ AllClose u 1 P Q := by
  simp only [probOnEmulated, bind_eq_ok, pure_eq_ok] at h
  obtain ⟨n, h1, ops₁, h2, m, h3, em, h4, k, h5, d₁, h6, d₂, h7, em₂, h8, ev, h9, io, h10, ii, h11, ptr, h12, ops₂, h13,
    P, h14, h15⟩ := h
  subst h15
  simp only [Option.some.injEq, if_true] at hi
  subst hi
  have hops₂ : ops₂.glob.probabilities = some p := by
    rw [orErr_eq_ok] at h13
    have e : d₂.outputProb = d₁.outputProb := by
      unfold Disc.ensureIiPtr at h7
      split at h7
      · exact (setIiPtr_frame h7).2.1
      · cases h7; rfl
    rw [e] at h13
    rw [ensureIoPtr_probs hA h6 hops h13, hp]
  rw [hops₂] at h14
  have hz : ∀ ev : List (List (List K)), List.Forall₂ (AllClose u (0 + 1)) (ev.map fun c => List.replicate c.length (0 : K))
      (ev.map fun c => List.replicate c.length (0 : K)) := by
    intro ev
    refine chunks_refl hA _ fun c hc x hx => ?_
    obtain ⟨e, -, rfl⟩ := List.mem_map.mp hc
    rw [(List.mem_replicate.mp hx).2]
  obtain ⟨Q, h16, h17⟩ := probEmLoopR_close hA (AllClose.refl hA.nonneg hA.lt_one 0 hp0) (hz ev) h14
  simp only [probOnEmulatedR, h1, h2, h3, h4, h5, h6, h7, h8, h9, h10, h11, h12, h13, ok_bind, hops₂, h16]
  refine ⟨_, _, P.flatten, Q.flatten, rfl, rfl, ?_, ?_, ?_⟩
  · simp only [SampleSet.localToGlobal, Arrays.map₂, getGlobalValues, SampleSet.gatherArr_some]
  · simp only [SampleSet.localToGlobal, Arrays.map₂, getGlobalValues, SampleSet.gatherArr_some, if_true]
  · exact flatten_close hA h17

/-- **C154.** `prob_from_sample_set`: `N + R` rounding errors. -/
theorem C154_transport {G : Geometry K} {size : Nat} {old new old' new' : SampleSet K} {P : List K}
    (h : probFromSampleSet G size old new = .ok (P, old', new')) {w : Chunks K} (hw : old'.loc.probabilities = some w)
    (hw0 : ∀ c ∈ w, ∀ x ∈ c, 0 ≤ x) {N : Nat} (hN : ∀ c ∈ w, c.length ≤ N) :
    ∃ Q old'' new'', probFromSampleSetR A G size old new = .ok (Q, old'', new'') ∧
      new'.glob.probabilities = some P ∧ new''.glob.probabilities = some Q ∧ AllClose u (N + w.length) P Q := by
  simp only [probFromSampleSet, bind_eq_ok, pure_eq_ok, Prod.mk.injEq, Prod.exists] at h
  obtain ⟨n, h1, m, h2, un, h3, o, h4, x, h5, nw, ptr, h6, P', h7, rfl, rfl, rfl⟩ := h
  rw [hw, gatherLoopOpt] at h7
  obtain ⟨Q, h8, h9⟩ := gatherLoopR_close hA (chunks_refl hA 0 hw0) hw0 hN h7
  simp only [probFromSampleSetR, h1, h2, h3, h4, h5, h6, hw, gatherLoopOptR, h8, ok_bind]
  exact ⟨Q, _, _, rfl, trivial, rfl, by simpa using h9⟩

/-- **C154.** `prob_from_discretization_input` does the same with the emulated points, or the input samples. -/
theorem C154_input {G : Geometry K} {size : Nat} {d : Disc K} {new new' s s' : SampleSet K} {P : List K}
    (h : probFromDiscInput G size d new = .ok (P, new')) (hs : (d.emInput <|> d.input) = some s)
    (hs' : s.localized size = .ok s') {w : Chunks K} (hw : s'.loc.probabilities = some w)
    (hw0 : ∀ c ∈ w, ∀ x ∈ c, 0 ≤ x) {N : Nat} (hN : ∀ c ∈ w, c.length ≤ N) :
    ∃ Q new'', probFromDiscInputR A G size d new = .ok (Q, new'') ∧
      new'.glob.probabilities = some P ∧ new''.glob.probabilities = some Q ∧ AllClose u (N + w.length) P Q := by
  unfold probFromDiscInput at h
  unfold probFromDiscInputR
  cases he : d.emInput with
  | none =>
    simp only [he] at hs
    simp only [he, hs, bind_eq_ok, pure_eq_ok, Prod.mk.injEq, Prod.exists, orErr_some, ok_bind, hs', hw] at h
    obtain ⟨n, h1, m, h2, un, h4, x, h5, nw, ptr, h6, P', h7, rfl, rfl⟩ := h
    obtain ⟨Q, h8, h9⟩ := gatherLoopR_close hA (chunks_refl hA 0 hw0) hw0 hN h7
    simp only [he, hs, hs', hw, orErr_some, h1, h2, h4, h5, h6, h8, ok_bind]
    exact ⟨Q, _, rfl, trivial, rfl, by simpa using h9⟩
  | some e =>
    simp only [he] at hs
    simp only [he, hs, bind_eq_ok, pure_eq_ok, Prod.mk.injEq, Prod.exists, orErr_some, ok_bind, hs', hw] at h
    obtain ⟨n, h1, m, h2, inp, h3, un, h4, x, h5, nw, ptr, h6, P', h7, rfl, rfl⟩ := h
    obtain ⟨Q, h8, h9⟩ := gatherLoopR_close hA (chunks_refl hA 0 hw0) hw0 hN h7
    simp only [he, hs, hs', hw, orErr_some, h1, h2, h3, h4, h5, h6, h8, ok_bind]
    exact ⟨Q, _, rfl, trivial, rfl, by simpa using h9⟩

theorem mass_sel (c : List Nat) {k : Nat} {P Q : List K} (h : AllClose u k P Q) (i : Nat) :
    Close u k (mass c P i) (mass c Q i) := by
  rw [← maskSel_npEqual_sum, ← maskSel_npEqual_sum]
  exact AllClose.sum hA.nonneg hA.lt_one (AllClose.maskSel h _)

theorem mass_solved (c : List Nat) (v : List K) {p : List K} (hp : ∀ x ∈ p, 0 ≤ x) {i : Nat}
    (hi : 0 < p.getD i 0 → 0 < mass c v i) :
    mass c (List.zipWith (fun k x => if 0 < p.getD k 0 ∧ 0 < mass c v k then p.getD k 0 * x / mass c v k else 0) c v) i =
      p.getD i 0 := by
  clear hA
  rw [solved_eq c v hp]
  have h0 : 0 ≤ p.getD i 0 := by
    rw [List.getD_eq_getElem?_getD]
    cases h : p[i]? with
    | none => simp
    | some x => exact hp x (List.mem_of_getElem? h)
  rw [mass_map_zipWith, mass_map_mul, mass_shareIn]
  rcases h0.eq_or_lt with h | h
  · rw [← h, zero_mul]
  · rw [if_pos (hi h), mul_one]

/-- **C154.** Rounding keeps the solution of the inverse problem: the samples in a cell that they reach have together the
probability of the cell, up to `n / size + size + 3` rounding errors, and if every cell of positive probability is
reached, the total is one up to that error. -/
theorem C154_conserved {G : Geometry K} (hG : Sound G) {size : Nat} (hsize : 0 < size) {d : Disc K} {n m : Nat}
    {inp out ops : SampleSet K} {y : List (List K)} {v p : List K} (f : FreshDisc d n m inp out ops y v p)
    (hp : IsProbVector p) (hv : ∀ x ∈ v, 0 ≤ x) :
    ∃ d' inp' Q, probR A G size d true = .ok d' ∧ d'.input = some inp' ∧ inp'.glob.probabilities = some Q ∧
      (∀ i, 0 < mass (y.map (ops.cell G)) v i →
        Close u (n / size + size + 3) (p.getD i 0) (mass (y.map (ops.cell G)) Q i)) ∧
      ((∀ i, 0 < p.getD i 0 → 0 < mass (y.map (ops.cell G)) v i) → Close u (n / size + size + 3) 1 Q.sum) := by
  obtain ⟨d₁, d₂, i₁, i₂, P, Q, h1, h2, h3, h4, h5, h6, h7⟩ := C154_prob_data hA (G := G) hsize f f
    ⟨rfl, rfl, rfl, rfl, rfl, rfl⟩ (AllClose.refl hA.nonneg hA.lt_one 0 hp.1) (AllClose.refl hA.nonneg hA.lt_one 0 hv) hv
  obtain ⟨d₃, i₃, g1, g2, g3⟩ := C03_prob_fresh (G := G) f size hsize
  rw [h1, Except.ok.injEq] at g1
  subst g1
  rw [h2, Option.some.injEq] at g2
  subst g2
  rw [h3, Option.some.injEq] at g3
  obtain ⟨hy, hvl, hpl⟩ := FreshDisc.lengths f
  have hk : 0 + 2 * 0 + n / size + size + 3 = n / size + size + 3 := by omega
  rw [hk] at h7
  refine ⟨d₂, i₂, Q, h4, h5, h6, fun i hi => ?_, fun hall => ?_⟩
  · have := mass_sel hA (y.map (ops.cell G)) h7 i
    rwa [g3, mass_solved hA _ _ hp.1 fun _ => hi] at this
  · have := AllClose.sum hA.nonneg hA.lt_one h7
    have e : P.sum = 1 := by
      rw [← hp.2, g3, ← sum_range_mass (y.map (ops.cell G)) _ m (by simp [hy, hvl])]
      · have : ((List.range m).map fun i => p.getD i 0) = p := by
          apply List.ext_getElem
          · simp [hpl]
          · intro k h1 h2
            simp [List.getD_eq_getElem?_getD, h2]
        rw [← this]
        congr 1
        refine List.map_congr_left fun i _ => ?_
        rw [this, mass_solved hA _ _ hp.1 (hall i)]
      · intro j hj
        obtain ⟨x, -, rfl⟩ := List.mem_map.mp hj
        exact SampleSet.cell_lt hG f.hready x
    rwa [e] at this

/-- **C154.** The number of processes may change the result, but only by rounding errors. -/
theorem C154_ranks {G : Geometry K} {s₁ s₂ : Nat} (hs₁ : 0 < s₁) (hs₂ : 0 < s₂) {d : Disc K} {n m : Nat}
    {inp out ops : SampleSet K} {y : List (List K)} {v p : List K} (f : FreshDisc d n m inp out ops y v p)
    (hp : ∀ x ∈ p, 0 ≤ x) (hv : ∀ x ∈ v, 0 ≤ x) :
    ∃ d₁ d₂ i₁ i₂ P Q, probR A G s₁ d true = .ok d₁ ∧ d₁.input = some i₁ ∧ i₁.glob.probabilities = some P ∧
      probR A G s₂ d true = .ok d₂ ∧ d₂.input = some i₂ ∧ i₂.glob.probabilities = some Q ∧
      AllClose u ((n / s₁ + s₁ + 3) + (n / s₂ + s₂ + 3)) P Q := by
  have key : ∀ s, 0 < s → _ := fun s hs => C154_prob_data hA (G := G) hs f f
    ⟨rfl, rfl, rfl, rfl, rfl, rfl⟩ (AllClose.refl hA.nonneg hA.lt_one 0 hp) (AllClose.refl hA.nonneg hA.lt_one 0 hv) hv
  obtain ⟨a₁, b₁, c₁, e₁, P₁, Q₁, h1, h2, h3, h4, h5, h6, h7⟩ := key s₁ hs₁
  obtain ⟨a₂, b₂, c₂, e₂, P₂, Q₂, g1, g2, g3, g4, g5, g6, g7⟩ := key s₂ hs₂
  obtain ⟨x₁, y₁, k1, k2, k3⟩ := C03_prob_fresh (G := G) f s₁ hs₁
  obtain ⟨x₂, y₂, l1, l2, l3⟩ := C03_prob_fresh (G := G) f s₂ hs₂
  have hPP : P₁ = P₂ := by
    rw [h1, Except.ok.injEq] at k1
    subst k1
    rw [h2, Option.some.injEq] at k2
    subst k2
    rw [g1, Except.ok.injEq] at l1
    subst l1
    rw [g2, Option.some.injEq] at l2
    subst l2
    rw [h3, Option.some.injEq] at k3
    rw [g3, Option.some.injEq] at l3
    rw [k3, l3]
  subst hPP
  rw [show 0 + 2 * 0 + n / s₁ + s₁ + 3 = n / s₁ + s₁ + 3 by omega] at h7
  rw [show 0 + 2 * 0 + n / s₂ + s₂ + 3 = n / s₂ + s₂ + 3 by omega] at g7
  have h7' : AllClose u (n / s₁ + s₁ + 3) Q₁ P₁ := h7.flip.imp fun _ _ h => Close.symm hA.nonneg hA.lt_one h
  exact ⟨b₁, b₂, e₁, e₂, Q₁, Q₂, h4, h5, h6, g4, g5, g6, AllClose.trans hA.nonneg hA.lt_one h7' g7⟩

/-- **C154.** `prob_from_sample_set_with_emulated_volumes`, with or without the renormalization:
`2 (N + R) + 5` rounding errors for at most `N` emulated points on each of `R` ranks. -/
theorem C154_transport_emulated {G : Geometry K} {size : Nat} {old new em old' new' em' : SampleSet K} {n m : Nat}
    (ho : Ready old n) (hr : Ready new m) {p P : List K} (hprobs : old.glob.probabilities = some p)
    (h : probFromSampleSetEmulated G size old new em = .ok (P, old', new', em')) {x : Chunks (List K)}
    (hx : em'.loc.values = some x) {N : Nat} (hN : ∀ c ∈ x, c.length ≤ N) :
    ∃ Q old'' new'' em'', probFromSampleSetEmulatedR A G size old new em = .ok (Q, old'', new'', em'') ∧
      new'.glob.probabilities = some P ∧ new''.glob.probabilities = some Q ∧
      AllClose u (2 * (N + x.length) + 5) P Q := by
  simp only [probFromSampleSetEmulated, SampleSet.checkNum_consistent ho.consistent,
    SampleSet.checkNum_consistent hr.consistent, ok_bind, bind_eq_ok, Prod.exists] at h
  obtain ⟨k, h1, un, h2, em₁, h3, x₁, h4, o', ptr1, h5, s', ptr2, h6, pe, warn, h7, pe', h8, pn, h9, h10⟩ := h
  rw [pure_eq_ok] at h10
  simp only [Prod.mk.injEq] at h10
  obtain ⟨rfl, rfl, rfl, rfl⟩ := h10
  rw [orErr_eq_ok, hx, Option.some.injEq] at h4
  subst h4
  obtain ⟨o₂, hq, -, -, -⟩ := SampleSet.query_ready (G := G) (size := size) ho x
  obtain ⟨s₂, hq2, -, -, -⟩ := SampleSet.query_ready (G := G) (size := size) hr x
  have hq' := hq
  have hq2' := hq2
  rw [hq, Except.ok.injEq, Prod.mk.injEq] at h5
  rw [hq2, Except.ok.injEq, Prod.mk.injEq] at h6
  obtain ⟨rfl, rfl⟩ := h5
  obtain ⟨rfl, rfl⟩ := h6
  have hop : o₂.glob.probabilities = some p := by rw [(SampleSet.query_frame hq).1]; exact hprobs
  have hpl : p.length = n := ho.consistent.1.probabilities p hprobs
  rw [hop, emLoop_eq p _ n (by omega), Except.ok.injEq, Prod.mk.injEq] at h7
  obtain ⟨h7a, h7b⟩ := h7
  have hR := emLoopR_eq A p (x.map fun c => c.map (old.cell G)) n (by omega)
  set ptr := x.map fun c => c.map (old.cell G) with hptr
  rw [h7b] at hR
  have hclose : List.Forall₂ (AllClose u 2) pe (ptr.map fun c => c.map fun j =>
      if j < n ∧ p.getD j 0 > 0 then A.add 0 (A.div (p.getD j 0) (hits ptr.flatten j : K)) else 0) := by
    rw [← h7a, List.forall₂_map_left_iff, List.forall₂_map_right_iff]
    refine List.forall₂_same.2 fun c hc => ?_
    unfold AllClose
    rw [List.forall₂_map_left_iff, List.forall₂_map_right_iff]
    refine List.forall₂_same.2 fun j hj => ?_
    split
    · next hcond =>
      have hhits : (0 : K) < (hits ptr.flatten j : K) :=
        Nat.cast_pos.2 (List.count_pos_iff.mpr (List.mem_flatten.mpr ⟨c, hc, hj⟩))
      have e1 := Rounds.div_close hA (Close.refl hA.nonneg hA.lt_one 0 (le_of_lt hcond.2))
        (Close.refl hA.nonneg hA.lt_one 0 hhits.le) (le_of_lt hcond.2) hhits
      have hnn := Close.nonneg hA.nonneg hA.lt_one e1 (div_nonneg (le_of_lt hcond.2) hhits.le)
      have e2 := Close.of_abs hA.nonneg hA.lt_one (by rw [zero_add]; exact hnn)
        (hA.add 0 (A.div (p.getD j 0) (hits ptr.flatten j : K)))
      rw [zero_add] at e2
      exact Close.trans hA.nonneg hA.lt_one e1 e2
    · exact Close.refl hA.nonneg hA.lt_one _ le_rfl
  have hpe0 : ∀ c ∈ pe, ∀ y ∈ c, 0 ≤ y := by
    rw [← h7a]
    intro c hc y hy
    obtain ⟨c', -, rfl⟩ := List.mem_map.mp hc
    obtain ⟨j, -, rfl⟩ := List.mem_map.mp hy
    split
    · next hcond => exact div_nonneg (le_of_lt hcond.2) (Nat.cast_nonneg _)
    · exact le_rfl
  have hpeN : ∀ c ∈ pe, c.length ≤ N := by
    rw [← h7a]
    intro c hc
    obtain ⟨c', hc', rfl⟩ := List.mem_map.mp hc
    rw [hptr] at hc'
    obtain ⟨c₀, h0, rfl⟩ := List.mem_map.mp hc'
    simpa using hN c₀ h0
  have hpel : pe.length = x.length := by rw [← h7a, hptr]; simp
  set qe := ptr.map fun c => c.map fun j =>
      if j < n ∧ p.getD j 0 > 0 then A.add 0 (A.div (p.getD j 0) (hits ptr.flatten j : K)) else 0 with hqe
  have hren : ∃ qe', renormalizeR A warn qe = .ok qe' ∧ List.Forall₂ (AllClose u (5 + N + x.length)) pe' qe' ∧
      (∀ c ∈ pe', ∀ y ∈ c, 0 ≤ y) ∧ (∀ c ∈ pe', c.length ≤ N) ∧ pe'.length = x.length := by
    cases warn with
    | false =>
      simp only [renormalize, Bool.false_eq_true, if_false, Except.ok.injEq] at h8
      subst h8
      refine ⟨qe, rfl, ?_, hpe0, hpeN, hpel⟩
      clear_value qe
      clear hR h9 h7a h7b hqe hpel hpeN
      induction hclose with
      | nil => exact .nil
      | cons h _ ih =>
        simp only [List.mem_cons, forall_eq_or_imp] at hpe0
        exact .cons (AllClose.mono hA.nonneg hA.lt_one (by omega) h hpe0.1) (ih fun c hc => hpe0.2 c hc)
    | true =>
      simp only [renormalize, if_true] at h8
      split at h8
      · cases h8
      · next hne =>
        cases h8
        obtain ⟨hs1, hs2⟩ := Rounds.cellSum hA hclose hpe0 hpeN
        have hpos : 0 < allreduceSum (pe.map List.sum) := lt_of_le_of_ne hs2 (Ne.symm hne)
        have hpos' := Close.pos hA.nonneg hA.lt_one hs1 hpos
        refine ⟨qe.map fun c => c.map fun y => A.div y (A.reduceSum (qe.map A.npSum)), ?_, ?_, ?_, ?_, ?_⟩
        · simp only [renormalizeR, if_true]
          rw [if_neg hpos'.ne']
        · rw [hpel] at hs1
          rw [List.forall₂_map_left_iff, List.forall₂_map_right_iff]
          generalize allreduceSum (pe.map List.sum) = t at *
          generalize A.reduceSum (qe.map A.npSum) = t' at *
          clear_value qe
          clear hR h9 h7a h7b hqe hpel hpeN
          induction hclose with
          | nil => exact .nil
          | cons h _ ih =>
            simp only [List.mem_cons, forall_eq_or_imp] at hpe0
            refine .cons ?_ (ih fun c hc => hpe0.2 c hc)
            have h0 := hpe0.1
            clear hpe0 ih
            induction h with
            | nil => exact .nil
            | cons h _ ih =>
              simp only [List.mem_cons, forall_eq_or_imp] at h0
              refine .cons ?_ (ih h0.2)
              have := Rounds.div_close hA h hs1 h0.1 hpos
              exact (show 2 + (2 + N + x.length) + 1 = 5 + N + x.length by omega) ▸ this
        · intro c hc y hy
          obtain ⟨c', hc', rfl⟩ := List.mem_map.mp hc
          obtain ⟨j, hj, rfl⟩ := List.mem_map.mp hy
          exact div_nonneg (hpe0 c' hc' j hj) hpos.le
        · intro c hc
          obtain ⟨c', hc', rfl⟩ := List.mem_map.mp hc
          simpa using hpeN c' hc'
        · simpa using hpel
  obtain ⟨qe', r1, r2, r3, r4, r5⟩ := hren
  obtain ⟨Q, g1, g2⟩ := gatherLoopR_close hA r2 r3 r4 h9
  rw [r5] at g2
  simp only [probFromSampleSetEmulatedR, SampleSet.checkNum_consistent ho.consistent,
    SampleSet.checkNum_consistent hr.consistent, ok_bind, h1, h2, h3, hx, orErr_some, hq', hq2', hop, ← hptr, hR, r1, g1]
  refine ⟨Q, _, _, _, rfl, trivial, rfl, ?_⟩
  exact (show 5 + N + x.length + N + x.length = 2 * (N + x.length) + 5 by omega) ▸ g2

end main

end BET
