import Verif.Props.Rounded

/-!
# C154: rounding errors in the volumes, and the arithmetic of floating point numbers
-/

set_option autoImplicit false
set_option linter.unusedSectionVars false
set_option linter.unusedSimpArgs false

namespace BET

open Spec

variable {K : Type} [Field K] [LinearOrder K] [IsStrictOrderedRing K]

section main
variable {A : Arithmetic K} {u : K} (hA : Rounds A u)
include hA

/-- The fractions of the points, each divided with rounding. -/
theorem fractions_close (G : Geometry K) (s : SampleSet K) (m : Nat) {pts : List (List K)} (hp : 0 < pts.length) :
    AllClose u 1 (cellFractions G s m pts)
      ((List.range m).map fun i => A.div (hits (pts.map (s.cell G)) i : K) (pts.length : K)) := by
  unfold cellFractions AllClose
  rw [List.forall₂_map_left_iff, List.forall₂_map_right_iff]
  refine List.forall₂_same.2 fun i _ => ?_
  have hl : (0 : K) < (pts.length : K) := Nat.cast_pos.2 hp
  exact Rounds.div_close hA (Close.refl hA.nonneg hA.lt_one 0 (Nat.cast_nonneg _))
    (Close.refl hA.nonneg hA.lt_one 0 hl.le) (Nat.cast_nonneg _) hl

theorem estimateVolumeEmulatedR_ok {G : Geometry K} {size m k : Nat} {s em : SampleSet K}
    (hsize : 0 < size) (hr : Ready s m) (hem : Consistent em k) (hk : 0 < k)
    {x : List (List K)} (hx : em.glob.values = some x) (hl : em.loc.values = none) :
    ∃ s' em' w, s.estimateVolumeEmulatedR A G size em = .ok (s', em') ∧ Consistent s' m ∧ s'.loc.values.isSome ∧
      s'.glob.volumes = some w ∧ s'.loc.volumes = some (arraySplit size w) ∧ AllClose u 1 (cellFractions G s m x) w := by
  obtain ⟨s₁, hq, hr₁, _, hv₁⟩ := SampleSet.query_ready (G := G) (size := size) hr
    (arraySplit size x)
  have hxl : x.length = k := hem.1.values x hx
  have hnum : allreduceSum ((arraySplit size x).map List.length) = k := by
    rw [allreduceSum, ← List.length_flatten, flatten_arraySplit _ _ hsize, hxl]
  have hvec : ((List.range m).map (fun i => allreduceSum
      (((arraySplit size x).map fun c => c.map (s.cell G)).map fun c =>
        (((npEqual c i).count true : Nat) : K)))).map (fun v => A.div v (k : K)) =
      (List.range m).map fun i => A.div (hits (x.map (s.cell G)) i : K) (x.length : K) := by
    rw [countVec_eq, List.map_map, ← List.map_flatten, flatten_arraySplit _ _ hsize, hxl]
    rfl
  have hc := consistent_setVolumes hr₁.consistent
    (vol := (List.range m).map fun i => A.div (hits (x.map (s.cell G)) i : K) (x.length : K)) (by simp)
  have hxs : (em.splitSet size k).loc.values = some (arraySplit size x) := by
    simp [SampleSet.splitSet, Arrays.map₂, hx]
  obtain ⟨v, hv⟩ := Option.isSome_iff_exists.mp hr₁.values
  unfold SampleSet.estimateVolumeEmulatedR
  simp only [SampleSet.checkNum_consistent hr.consistent, ok_bind,
    SampleSet.localized_none size hl, SampleSet.globalToLocal_ok hem, hxs, orErr_some, hq, hnum,
    raiseIf_false (show ¬ k = 0 by omega), hvec, SampleSet.globalToLocal_ok hc]
  exact ⟨_, _, _, rfl, hc, by simp [SampleSet.splitSet, Arrays.map₂, hv], rfl, rfl,
    fractions_close hA G s m (by omega)⟩

/-- **C154.** The volumes of `estimate_volume_emulated` carry one rounding error each, and so does their sum, which is
one without rounding. -/
theorem C154_volumes {G : Geometry K} (hG : Sound G) {size m k : Nat} {s em : SampleSet K}
    (hsize : 0 < size) (hr : Ready s m) (hem : Consistent em k) (hk : 0 < k)
    {x : List (List K)} (hx : em.glob.values = some x) (hl : em.loc.values = none) :
    ∃ s₁ em₁ s₂ em₂ v w, s.estimateVolumeEmulated G size em = .ok (s₁, em₁) ∧ s₁.glob.volumes = some v ∧
      s.estimateVolumeEmulatedR A G size em = .ok (s₂, em₂) ∧ s₂.glob.volumes = some w ∧
      AllClose u 1 v w ∧ Close u 1 1 w.sum := by
  obtain ⟨s₁, e₁, h1, h2, -, -⟩ := estimateVolumeEmulated_ok (G := G) hsize hr hem hk hx hl
  obtain ⟨s₂, e₂, w, g1, -, -, g2, -, g3⟩ := estimateVolumeEmulatedR_ok hA (G := G) hsize hr hem hk hx hl
  refine ⟨s₁, e₁, s₂, e₂, _, w, h1, h2, g1, g2, g3, ?_⟩
  have := AllClose.sum hA.nonneg hA.lt_one g3
  have hne : x ≠ [] := by
    rintro rfl
    have : ([] : List (List K)).length = k := hem.1.values [] hx
    simp at this
    omega
  rwa [(cellFractions_prob hG hr hne).2] at this

theorem replicate_close (n : Nat) {k : Nat} {x y : K} (h : Close u k x y) :
    AllClose u k (List.replicate n x) (List.replicate n y) := by
  clear hA
  induction n with
  | zero => exact .nil
  | succ n ih => exact .cons h ih

/-- **C154.** The volumes of `estimate_volume_mc` carry two rounding errors. -/
theorem C154_volumes_mc {size n : Nat} {s : SampleSet K} (hs : Consistent s n) (hn : 0 < n) (hsize : 0 < size) :
    ∃ s₁ s₂ v w, s.estimateVolumeMc size true = .ok s₁ ∧ s₁.glob.volumes = some v ∧
      s.estimateVolumeMcR A size = .ok s₂ ∧ s₂.glob.volumes = some w ∧ AllClose u 2 v w ∧ Close u 2 1 w.sum := by
  obtain ⟨s₁, v, l, h1, h2, h3, h4, h5, -, -⟩ := C20_equal_volumes hs hn size hsize
  have hn' : (0 : K) < n := Nat.cast_pos.2 hn
  have hv : v = List.replicate n (1 / (n : K)) := List.eq_replicate_iff.2 ⟨h3, h4⟩
  have hc := consistent_setVolumes hs (vol := List.replicate n (A.mul (A.div 1 (n : K)) 1)) (by simp)
  have hcl : AllClose u 2 v (List.replicate n (A.mul (A.div 1 (n : K)) 1)) := by
    rw [hv]
    have e1 := Rounds.div_close hA (Close.refl hA.nonneg hA.lt_one 0 zero_le_one)
      (Close.refl hA.nonneg hA.lt_one 0 hn'.le) zero_le_one hn'
    have e2 := Rounds.times hA e1 (Close.refl hA.nonneg hA.lt_one 0 zero_le_one) (div_nonneg zero_le_one hn'.le)
      zero_le_one
    rw [mul_one] at e2
    exact replicate_close hA n e2
  unfold SampleSet.estimateVolumeMcR
  simp only [SampleSet.checkNum_consistent hs, ok_bind, SampleSet.globalToLocal_ok hc, raiseIf, hn.ne', if_false]
  refine ⟨s₁, _, v, _, h1, h2, rfl, rfl, hcl, ?_⟩
  have := AllClose.sum hA.nonneg hA.lt_one hcl
  rwa [h5] at this

/-- `prob` with rounding after the volumes were set on the ranks. -/
theorem probR_measured {G : Geometry K} {D : Disc K} {N M : Nat} {inp out ops : SampleSet K}
    {y : List (List K)} {v w p : List K} (hinp : D.input = some inp) (hinpC : Consistent inp N)
    (hloc : inp.loc.values.isSome) {size : Nat} (hsize : 0 < size) (hvl : v.length = N)
    (hvols : inp.loc.volumes = some (arraySplit size w)) (hout : D.output = some out) (houtC : Consistent out N)
    (hy : out.glob.values = some y) (hyl : out.loc.values = none) (hops : D.outputProb = some ops)
    (hready : Ready ops M) (hp : ops.glob.probabilities = some p) (hptr : D.ioPtrLocal = none)
    (hp0 : ∀ x ∈ p, 0 ≤ x) (hv0 : ∀ x ∈ v, 0 ≤ x) {b : Nat} (hvw : AllClose u b v w) :
    ∃ D' inp' Q, probR A G size D true = .ok D' ∧ D'.input = some inp' ∧ inp'.glob.probabilities = some Q ∧
      AllClose u (2 * b + N / size + size + 3) (List.zipWith (fun c v' =>
        if 0 < p.getD c 0 ∧ 0 < mass (y.map (ops.cell G)) v c then
          p.getD c 0 * v' / mass (y.map (ops.cell G)) v c else 0)
        (y.map (ops.cell G)) v) Q := by
  obtain ⟨lv, hlv⟩ := Option.isSome_iff_exists.mp hloc
  have hcn : D.checkNums size = .ok N := by
    unfold Disc.checkNums
    simp [hout, hinp, SampleSet.checkNum_consistent houtC,
      SampleSet.checkNum_consistent hinpC, pure, Except.pure]
  have hyn : y.length = N := houtC.1.values y hy
  have hpl : p.length = M := hready.consistent.1.probabilities p hp
  obtain ⟨ops', hset, hr', hc', hpr'⟩ := setIoPtr_fresh (G := G) (size := size) (g := false)
    hout houtC hy hyl hops hready
  have hens : D.ensureIoPtr G size false = D.setIoPtr G size false := by
    simp [Disc.ensureIoPtr, hptr]
  have hsh : SameShape (arraySplit size (y.map (ops.cell G))) (arraySplit size v) :=
    arraySplit_sameShape _ _ _ (by simp [hyn, hvl])
  have hloop := probLoop_eq p _ _ M hsh (by omega)
  obtain ⟨Q, h4, h5⟩ := probLoopR_close hA (AllClose.refl hA.nonneg hA.lt_one 0 hp0) (split_close hA hvw)
    (split_mem hA hsize hv0) (split_len_le hA size v) hloop
  have h6 := flatten_close hA h5
  rw [length_arraySplit, hvl] at h6
  unfold probR
  simp only [hcn, ok_bind, hops, orErr_some,
    SampleSet.checkNum_consistent hready.consistent, hens, hset, hinp,
    SampleSet.localized_some size hlv, hpr', hp, hvols, h4]
  refine ⟨_, _, Q.flatten, rfl, rfl, rfl, ?_⟩
  refine (show 0 + b + (b + (N / size + 1) + size) + 2 = 2 * b + N / size + size + 3 by ring) ▸ ?_
  convert h6 using 1
  rw [flatten_zipWith_zipWith _ hsh, flatten_arraySplit _ _ hsize, flatten_arraySplit _ _ hsize]
  congr 1
  funext c x
  by_cases hc : c < M
  · simp [hc]
  · have : p.getD c 0 = 0 := by simp [List.getD, show p.length ≤ c by omega]
    simp only [hc, this, gt_iff_lt, lt_irrefl, false_and, and_false]

end main

/-! ## Two arithmetics -/

/-- The arithmetic without rounding. -/
theorem rounds_exact : Rounds (.exact K) (0 : K) where
  nonneg := le_rfl
  lt_one := zero_lt_one
  add := fun x y => by simp [Arithmetic.exact]
  mul := fun x y => by simp [Arithmetic.exact]
  div := fun x y _ => by simp [Arithmetic.exact]
  npSum := sumOf_sum
  reduceSum := sumOf_sum
where
  sumOf_sum (l : List K) : SumOf (Arithmetic.exact K).add l.length l l.sum := by
    induction l with
    | nil => exact .nil 0
    | cons x l ih => exact .add (.one _ x) ih

theorem allClose_zero {k : Nat} {P Q : List K} (h : AllClose 0 k P Q) : P = Q := by
  induction h with
  | nil => rfl
  | cons h _ ih =>
    obtain ⟨h1, h2⟩ := h
    simp only [sub_zero, one_pow, one_mul] at h1 h2
    rw [ih, le_antisymm h1 h2]

/-- **C154.** `prob_with_emulated_volumes` for `n` samples on `size` processes: `n / size + size + 5` rounding errors. -/
theorem C154_with_volumes {A : Arithmetic K} {u : K} (hA : Rounds A u) {G : Geometry K} {size : Nat} (hsize : 0 < size)
    {d : Disc K} {n m k : Nat} {inp out ops em : SampleSet K} {y x : List (List K)} {p : List K}
    (hinp : d.input = some inp) (hr : Ready inp n) (hout : d.output = some out) (houtC : Consistent out n)
    (hy : out.glob.values = some y) (hyl : out.loc.values = none) (hops : d.outputProb = some ops) (hready : Ready ops m)
    (hp : ops.glob.probabilities = some p) (hp0 : ∀ x ∈ p, 0 ≤ x) (hptr : d.ioPtrLocal = none)
    (hem : d.emInput = some em) (hemC : Consistent em k) (hk : 0 < k) (hx : em.glob.values = some x)
    (hl : em.loc.values = none) :
    ∃ d₁ d₂ i₁ i₂ P Q, probWithEmulatedVolumes G size d = .ok d₁ ∧ d₁.input = some i₁ ∧ i₁.glob.probabilities = some P ∧
      probWithEmulatedVolumesR A G size d = .ok d₂ ∧ d₂.input = some i₂ ∧ i₂.glob.probabilities = some Q ∧
      AllClose u (n / size + size + 5) P Q := by
  have hcn : d.checkNums size = .ok n := by
    unfold Disc.checkNums
    simp [hout, hinp, SampleSet.checkNum_consistent houtC, SampleSet.checkNum_consistent hr.consistent, pure, Except.pure]
  obtain ⟨ops', k1, k2, k3, k4⟩ : ∃ ops', ops.localized size = .ok ops' ∧ Ready ops' m ∧ ops'.cell G = ops.cell G ∧
      ops'.glob.probabilities = ops.glob.probabilities := by
    cases hlv : ops.loc.values with
    | some v => exact ⟨ops, SampleSet.localized_some size hlv, hready, rfl, rfl⟩
    | none =>
      refine ⟨_, (SampleSet.localized_none size hlv).trans (SampleSet.globalToLocal_ok hready.consistent size), ?_,
        rfl, rfl⟩
      obtain ⟨r1, r2, r3, r4, r5, r6⟩ := hready
      exact ⟨r1, r2, r3, r4, r5, r6⟩
  have key : ∀ (B : Arithmetic K) (u' : K), Rounds B u' → ∃ d₁ i₁ Q, probWithEmulatedVolumesR B G size d = .ok d₁ ∧
      d₁.input = some i₁ ∧ i₁.glob.probabilities = some Q ∧
      AllClose u' (n / size + size + 5) (List.zipWith (fun c v' =>
        if 0 < p.getD c 0 ∧ 0 < mass (y.map (ops.cell G)) (cellFractions G inp n x) c then
          p.getD c 0 * v' / mass (y.map (ops.cell G)) (cellFractions G inp n x) c else 0)
        (y.map (ops.cell G)) (cellFractions G inp n x)) Q := by
    intro B u' hB
    obtain ⟨s', em', w, h1, h2, h3, h4, h5, h6⟩ := estimateVolumeEmulatedR_ok hB (G := G) hsize hr hemC hk hx hl
    obtain ⟨D', inp', Q, g1, g2, g3, g4⟩ := probR_measured hB (G := G)
      (D := { d with outputProb := some ops', input := some s', emInput := some em' }) rfl h2 h3 hsize
      (v := cellFractions G inp n x) (by simp [cellFractions]) h5 hout houtC hy hyl rfl k2 (k4.trans hp) hptr hp0
      (fun z hz => by
        obtain ⟨i, -, rfl⟩ := List.mem_map.mp hz
        exact div_nonneg (Nat.cast_nonneg _) (Nat.cast_nonneg _)) h6
    unfold probWithEmulatedVolumesR Disc.estimateInputVolumeEmulatedR
    simp only [hcn, hops, SampleSet.checkNum_consistent hready.consistent, k1, hinp, hem, orErr_some,
      ok_bind, h1, LawfulMonad.pure_bind, g1]
    refine ⟨D', inp', Q, rfl, g2, g3, ?_⟩
    rw [k3] at g4
    exact (show 2 * 1 + n / size + size + 3 = n / size + size + 5 by omega) ▸ g4
  obtain ⟨d₁, i₁, P, h1, h2, h3, h4⟩ := key _ _ rounds_exact
  obtain ⟨d₂, i₂, Q, g1, g2, g3, g4⟩ := key _ _ hA
  exact ⟨d₁, d₂, i₁, i₂, P, Q, h1, h2, h3, g1, g2, g3, allClose_zero h4 ▸ g4⟩

namespace Ex

/-- Rounding to the nearest number with 53 binary digits, as for the floating point numbers of numpy but without bounds
on the exponent; a tie goes up. -/
def fl (x : ℚ) : ℚ := round (x / 2 ^ (Int.log 2 |x| - 52)) * 2 ^ (Int.log 2 |x| - 52)

/-- Each operation is rounded, sums run from left to right. -/
def double : Arithmetic ℚ where
  add := fun x y => fl (x + y)
  mul := fun x y => fl (x * y)
  div := fun x y => fl (x / y)
  npSum := fun l => l.foldl (fun x y => fl (x + y)) 0
  reduceSum := fun l => l.foldl (fun x y => fl (x + y)) 0

theorem fl_error (x : ℚ) : |fl x - x| ≤ 1 / 2 ^ 53 * |x| := by
  rcases eq_or_ne x 0 with rfl | hx
  · simp [fl]
  unfold fl
  have h2 : (0 : ℚ) < 2 ^ (Int.log 2 |x| - 52) := zpow_pos (by norm_num) _
  have h1 := abs_sub_round (x / 2 ^ (Int.log 2 |x| - 52))
  have h3 : (2 : ℚ) ^ (Int.log 2 |x| - 52) ≤ |x| / 2 ^ 52 := by
    rw [zpow_sub₀ (by norm_num)]
    have := Int.zpow_log_le_self (b := 2) (by norm_num) (abs_pos.2 hx)
    have e : ((2 : ℚ) ^ (52 : ℤ)) = 2 ^ 52 := by norm_cast
    rw [e]
    gcongr
    exact_mod_cast this
  generalize (2 : ℚ) ^ (Int.log 2 |x| - 52) = s at *
  have e : x - round (x / s) * s = (x / s - round (x / s)) * s := by field_simp
  rw [abs_sub_comm, e, abs_mul, abs_of_pos h2]
  calc |x / s - round (x / s)| * s ≤ 1 / 2 * (|x| / 2 ^ 52) := by gcongr
    _ = 1 / 2 ^ 53 * |x| := by ring

theorem sumOf_foldl {add : ℚ → ℚ → ℚ} (m : List ℚ) : ∀ {h : Nat} {l : List ℚ} {a : ℚ}, SumOf add h l a →
    SumOf add (h + m.length) (l ++ m) (m.foldl add a) := by
  induction m with
  | nil => intro h l a hs; simpa using hs
  | cons x m ih =>
    intro h l a hs
    have := ih (SumOf.add hs (SumOf.one h x))
    simp only [List.append_assoc, List.singleton_append] at this
    rw [show h + (x :: m).length = h + 1 + m.length by simp; omega]
    exact this

theorem foldl_sumOf (l : List ℚ) : SumOf double.add l.length l (l.foldl double.add 0) := by
  have := sumOf_foldl l (SumOf.nil (add := double.add) 0)
  simpa using this

theorem rounds_double : Rounds double (1 / 2 ^ 53) where
  nonneg := by norm_num
  lt_one := by norm_num
  add := fun x y => fl_error (x + y)
  mul := fun x y => fl_error (x * y)
  div := fun x y _ => fl_error (x / y)
  npSum := fun l => foldl_sumOf l
  reduceSum := fun l => foldl_sumOf l

/-- Samples with the given volumes in one cell of probability one. -/
def oneCell (v : List ℚ) : Disc ℚ where
  input := some { dim := 1, glob := { values := some (v.map fun _ => [0]), volumes := some v } }
  output := some { dim := 1, glob := { values := some (v.map fun _ => [0]) } }
  outputProb := some { dim := 1, glob := { values := some [[0]], probabilities := some [1] } }

/-- The probabilities that `prob` computes. -/
def computed (A : Arithmetic ℚ) (size : Nat) (v : List ℚ) : Option (List ℚ) :=
  ((probR A G size (oneCell v) true).toOption.bind (·.input)).bind (·.glob.probabilities)

end Ex

/-- **C154: rounding shows.** In the arithmetic of floating point numbers the probabilities of three samples of equal
volume do not sum to one. -/
theorem C154_negation_total : Rounds Ex.double (1 / 2 ^ 53) ∧
    ∃ Q, Ex.computed Ex.double 1 [1, 1, 1] = some Q ∧ Q.sum ≠ 1 :=
  ⟨Ex.rounds_double, [Ex.fl (1/3), Ex.fl (1/3), Ex.fl (1/3)], by decide +kernel, by decide +kernel⟩

/-- **C154: rounding shows.** One and two processes compute different probabilities. -/
theorem C154_negation_ranks : Rounds Ex.double (1 / 2 ^ 53) ∧
    ∃ P Q, Ex.computed Ex.double 1 [1, 3 / 2 ^ 55, 3 / 2 ^ 55, 3 / 2 ^ 55] = some P ∧
      Ex.computed Ex.double 2 [1, 3 / 2 ^ 55, 3 / 2 ^ 55, 3 / 2 ^ 55] = some Q ∧ P ≠ Q :=
  ⟨Ex.rounds_double, [1, 3 / 2 ^ 55, 3 / 2 ^ 55, 3 / 2 ^ 55],
    [1 - 2 / 2 ^ 53, Ex.fl (3 / 2 ^ 55 / (1 + 1 / 2 ^ 52)), Ex.fl (3 / 2 ^ 55 / (1 + 1 / 2 ^ 52)),
      Ex.fl (3 / 2 ^ 55 / (1 + 1 / 2 ^ 52))], by decide +kernel, by decide +kernel, by decide +kernel⟩

namespace Ex

/-- The hypotheses of `C154_prob_data`, `C154_conserved` and `C154_ranks`. -/
theorem oneCell_fresh : ∃ inp out ops, FreshDisc (oneCell [1, 1, 1]) 3 1 inp out ops [[0], [0], [0]] [1, 1, 1] [1] := by
  have hc : ∀ (s : SampleSet ℚ) (n : Nat), s.checkNum 1 = .ok n → s.glob.values.isSome = true →
      Consistent s n := fun s n h hv => SampleSet.consistent_of_checkNum h hv
  exact ⟨_, _, _, rfl, hc _ _ rfl rfl, rfl, rfl, rfl, rfl, hc _ _ rfl rfl, rfl,
    rfl, rfl, ⟨hc _ _ rfl rfl, by decide, rfl, Or.inl rfl, nofun, nofun⟩, rfl, rfl⟩

/-- On two processes the total is one up to six rounding errors. -/
example : ∃ d' inp' Q, probR double G 2 (oneCell [1, 1, 1]) true = .ok d' ∧ d'.input = some inp' ∧
    inp'.glob.probabilities = some Q ∧ Close (1 / 2 ^ 53) 6 1 Q.sum := by
  obtain ⟨inp, out, ops, f⟩ := oneCell_fresh
  have hops : ops = { dim := 1, glob := { values := some [[0]], probabilities := some [1] } } :=
    (Option.some.inj f.hops).symm
  obtain ⟨d', inp', Q, h1, h2, h3, -, h5⟩ := C154_conserved rounds_double sound_G (size := 2) (by norm_num) f
    ⟨by simp, by simp⟩ (by simp)
  refine ⟨d', inp', Q, h1, h2, h3, h5 fun i hi => ?_⟩
  subst hops
  rcases i with _ | i
  · decide +kernel
  · simp at hi

/-- A million samples on a hundred processes: the relative error is below `2 / 10 ^ 12`. -/
example {x y : ℚ} (hx : 0 ≤ x) (h : Close (1 / 2 ^ 53) (10 ^ 6 / 100 + 100 + 3) x y) : |y - x| ≤ 2 / 10 ^ 12 * x := by
  refine (C154_relative (by norm_num) (by norm_num) (by norm_num) hx h).trans ?_
  exact mul_le_mul_of_nonneg_right (by norm_num) hx

/-- The hypotheses of `C154_prob` on two processes: the run succeeds, with local volumes in
cells of at most two samples. -/
example : ((prob G 2 (oneCell [1, 1, 1]) true).toOption.bind fun d' => d'.input.bind fun inp' => inp'.loc.volumes) =
    some [[1, 1], [1]] := by decide +kernel

/-- The hypotheses of `C154_emulated`: the run succeeds and leaves an emulated set. -/
example : ((probOnEmulated G 2 (emDiscWith [1/2, 1/4, 1/4]) true).toOption.bind fun d' => d'.emInput).isSome = true := by decide +kernel

/-- The hypotheses of `C154_transport`. -/
example : ∃ P old' new' w, probFromSampleSet G 2 oldSet newSet = .ok (P, old', new') ∧
    old'.loc.probabilities = some w ∧ (∀ c ∈ w, ∀ x ∈ c, 0 ≤ x) ∧ ∀ c ∈ w, c.length ≤ 2 :=
  ⟨_, _, _, [[1/8, 3/8], [1/2, 0]], rfl, rfl, by decide +kernel, by decide +kernel⟩

/-- The hypotheses of `C154_transport_emulated`: the run succeeds with at most three emulated
samples on a process. -/
example : ((probFromSampleSetEmulated G 2 oldSet newSet emSet).toOption.bind fun r => r.2.2.2.loc.values) =
    some [[[0], [1/5], [19/10]], [[2], [3]]] := by decide +kernel

/-- The hypotheses of `C154_input`. -/
example : ∃ d s s' P new' w, probFromDiscInput G 2 d newSet = .ok (P, new') ∧ (d.emInput <|> d.input) = some s ∧
    s.localized 2 = .ok s' ∧ s'.loc.probabilities = some w ∧ (∀ c ∈ w, ∀ x ∈ c, 0 ≤ x) ∧ ∀ c ∈ w, c.length ≤ 2 :=
  ⟨{ input := some oldSet, output := some { dim := 1, glob := { values := some [[0], [1], [2], [3]] } } }, oldSet, _, _, _,
    [[1/8, 3/8], [1/2, 0]], rfl, rfl, rfl, rfl, by decide +kernel, by decide +kernel⟩

/-- The hypotheses of `C154_volumes`, `C154_volumes_mc` and `C154_with_volumes`. -/
example : ∃ d₁ d₂ i₁ i₂ P Q, probWithEmulatedVolumes G 2 (emDiscWith [1/2, 1/4, 1/4]) = .ok d₁ ∧ d₁.input = some i₁ ∧
    i₁.glob.probabilities = some P ∧ probWithEmulatedVolumesR double G 2 (emDiscWith [1/2, 1/4, 1/4]) = .ok d₂ ∧
    d₂.input = some i₂ ∧ i₂.glob.probabilities = some Q ∧ AllClose (1 / 2 ^ 53) 9 P Q := by
  have f := emDiscWith_fresh (1/2) (1/4) (1/4)
  exact C154_with_volumes rounds_double (size := 2) (by decide) f.hinput f.hready f.houtput f.houtputC f.houtVals f.houtLoc
    f.hops f.hopsReady f.hprobs (by decide +kernel) f.hio f.hem f.hemC (by decide) f.hemVals f.hemLoc

end Ex

end BET
