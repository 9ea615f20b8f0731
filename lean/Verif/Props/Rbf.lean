import Verif.Model.Rbf
import Verif.Props.Gradients
import Mathlib.Analysis.SpecialFunctions.Pow.Deriv
import Mathlib.Analysis.SpecialFunctions.Sqrt

/-!
# C52, C78: gradients of radial basis function interpolants
-/

set_option linter.unusedSectionVars false
set_option linter.unusedSimpArgs false
set_option autoImplicit false

namespace BET

open Spec

section
variable {K : Type} [Field K] [LinearOrder K]

/-! ### Vocabulary -/

/-- What is assumed of the external routines: a query returns different samples and their distances
from the point, distances are symmetric, and a solution returned by `solve` is one. -/
structure Spec.RbfSound (T : RbfTools K) : Prop where
  near_lt : ∀ pts x k, ∀ e ∈ T.near pts x k, e.1 < pts.length
  near_nodup : ∀ pts x k, ((T.near pts x k).map fun e => e.1).Nodup
  near_dist : ∀ pts x k, ∀ e ∈ T.near pts x k, e.2 = T.dist x (pts.getD e.1 [])
  symm : ∀ x y, T.dist x y = T.dist y x
  solve_length : ∀ A B W, T.solve A B = .ok W → W.length = A.length
  solve : ∀ A B W, T.solve A B = .ok W → ∀ j < A.length, ∀ i,
    ∑ k ∈ Finset.range A.length, comp (A.getD j []) k * comp (W.getD k []) i = comp (B.getD j []) i

/-- The samples with indices `q`. -/
def Spec.nbr (samples : List (List K)) (q : List Nat) (k : Nat) : List K :=
  samples.getD (q.getD k 0) []

/-- The function `Σ u_k φ(‖y - x_k‖)` takes the values of output `o` at the samples `q`. -/
def Spec.Interpolates (φ : K → K) (dist : List K → List K → K) (samples data : List (List K))
    (q : List Nat) (o : Nat) (u : Nat → K) : Prop :=
  ∀ j < q.length, ∑ k ∈ Finset.range q.length, u k * φ (dist (nbr samples q j) (nbr samples q k)) =
    comp (data.getD (q.getD j 0) []) o

/-! ### Normalisation -/

/-- **C52.** The same as `C52_ffd` for `calculate_gradients_rbf`. -/
theorem C52_rbf [IsStrictOrderedRing K] (T : RbfTools K) (size : Nat) (d : Disc K)
    (nc nn : Option Nat) (ep : Option K) :
    UnitResult (gradientsRbf T size d nc nn ep false) (gradientsRbf T size d nc nn ep true) := by
  unfold gradientsRbf
  iterate 7 refine unitResult_bind _ fun _ => ?_
  exact centerDisc_unit _ _ _ _ _ _

/-! ### The weights -/

theorem sum_zipWith_set (g : List K → List K → K) (t data : List (List K)) (i : Nat) (w : List K)
    (hi : i < t.length) (hd : t.length = data.length) (h0 : g (t.getD i []) (data.getD i []) = 0) :
    (List.zipWith g (t.set i w) data).sum =
      (List.zipWith g t data).sum + g w (data.getD i []) := by
  induction t generalizing data i with
  | nil => simp at hi
  | cons a t ih =>
    cases data with
    | nil => simp at hd
    | cons b data =>
      cases i with
      | zero =>
        simp only [List.getD_cons_zero] at h0
        simp [h0, add_comm]
      | succ i =>
        simp only [List.getD_cons_succ] at h0
        have := ih data i (by simpa using hi) (by simpa using hd) h0
        simp only [List.set_cons_succ, List.zipWith_cons_cons, List.sum_cons, this,
          List.getD_cons_succ]
        ring

theorem sum_scatter (g : List K → List K → K) (z : List K) (hz : ∀ y, g z y = 0)
    (l : List (Nat × List K)) (t data : List (List K)) (hd : t.length = data.length)
    (hl : ∀ e ∈ l, e.1 < t.length ∧ t.getD e.1 [] = z) (hn : (l.map fun e => e.1).Nodup) :
    (List.zipWith g (l.foldl (fun t e => t.set e.1 e.2) t) data).sum =
      (List.zipWith g t data).sum + (l.map fun e => g e.2 (data.getD e.1 [])).sum := by
  induction l generalizing t with
  | nil => simp
  | cons e l ih =>
    obtain ⟨h1, h2⟩ := hl e (by simp)
    rw [List.map_cons, List.nodup_cons] at hn
    rw [List.foldl_cons, ih (t.set e.1 e.2) (by simpa using hd) _ hn.2,
      sum_zipWith_set g t data e.1 e.2 h1 hd (by rw [h2, hz]), List.map_cons, List.sum_cons]
    · ring
    · intro e' he'
      have hne : e.1 ≠ e'.1 := fun h => hn.1 (h ▸ List.mem_map_of_mem he')
      obtain ⟨h3, h4⟩ := hl e' (by simp [he'])
      refine ⟨by simpa using h3, ?_⟩
      rw [← h4, List.getD_eq_getElem?_getD, List.getD_eq_getElem?_getD, List.getElem?_set_ne hne]

theorem sum_map_range {α : Type} (l : List α) (d : α) (f : α → K) :
    (l.map f).sum = ∑ k ∈ Finset.range l.length, f (l.getD k d) := by
  induction l with
  | nil => simp
  | cons a l ih =>
    rw [List.map_cons, List.sum_cons, ih, List.length_cons, Finset.sum_range_succ', add_comm]
    rfl

/-- The data of one centre. -/
structure RbfStage (T : RbfTools K) (samples : List (List K)) (c : List K) (k : Nat)
    (w : List (List K)) (ep : K) (dim : Nat) : Prop where
  run : T.solve (rbfMatrix T ((T.near samples c k).map fun e => samples.getD e.1 []))
    (rbfRhs T ep dim c (T.near samples c k)
      ((T.near samples c k).map fun e => samples.getD e.1 [])) = .ok w

theorem rbfRow_inv {T : RbfTools K} (hT : RbfSound T) {ep : K} {dim num k : Nat}
    {samples : List (List K)} {c : List K} {t : List (List K)}
    (h : rbfRow T ep dim num k samples c = .ok t) :
    ∃ w, RbfStage T samples c k w ep dim ∧
      t = (List.zip ((T.near samples c k).map fun e => e.1) w).foldl (fun t e => t.set e.1 e.2)
        (List.replicate num (List.replicate dim 0)) := by
  unfold rbfRow at h
  have hpts : (T.near samples c k).mapM (fun e => getIdx samples e.1) =
      .ok ((T.near samples c k).map fun e => samples.getD e.1 []) :=
    mapM_ok _ _ _ fun e he => by
      have := hT.near_lt samples c k e he
      unfold getIdx
      rw [List.getElem?_eq_getElem this, getD_mem_of _ _ _ this]
  simp only [hpts, bind_eq_ok, pure_eq_ok] at h
  obtain ⟨_, h1, w, hw, rfl⟩ := h
  cases h1
  exact ⟨w, ⟨hw⟩, rfl⟩

theorem comp_zeros (dim i : Nat) : (List.replicate dim (0 : K)).getD i 0 = 0 := by
  rw [List.getD_eq_getElem?_getD, List.getElem?_replicate]
  split <;> rfl

/-- One gradient. -/
theorem rbf_comp {T : RbfTools K} (hT : RbfSound T) {ep : K} {dim k : Nat}
    {samples data : List (List K)} (hd : data.length = samples.length) {c : List K}
    {t : List (List K)} (h : rbfRow T ep dim samples.length k samples c = .ok t) {o i : Nat}
    (hi : i < dim) {u : Nat → K}
    (hu : Interpolates (T.kernel 1) T.dist samples data
      ((T.near samples c k).map fun e => e.1) o u) :
    (List.zipWith (fun w y => w.getD i 0 * y.getD o 0) t data).sum =
      ∑ l ∈ Finset.range ((T.near samples c k).map fun e => e.1).length,
        u l * T.kernelDxi ep (T.dist c (nbr samples ((T.near samples c k).map fun e => e.1) l))
          (comp c i - comp (nbr samples ((T.near samples c k).map fun e => e.1) l) i) := by
  obtain ⟨w, ⟨hw⟩, rfl⟩ := rbfRow_inv hT h
  set q := (T.near samples c k).map fun e => e.1 with hq
  have hqlen : q.length = (T.near samples c k).length := by simp [hq]
  have hAlen : (rbfMatrix T ((T.near samples c k).map fun e => samples.getD e.1 [])).length =
      q.length := by simp [rbfMatrix, hq]
  have hwlen : w.length = q.length := by rw [hT.solve_length _ _ _ hw, hAlen]
  have hqlt : ∀ j ∈ q, j < samples.length := by
    intro j hj
    obtain ⟨e, he, rfl⟩ := List.mem_map.1 hj
    exact hT.near_lt _ _ _ e he
  have hfst : (List.zip q w).map (fun e => e.1) = q := List.map_fst_zip (by omega)
  rw [sum_scatter _ (List.replicate dim 0) (fun y => by rw [comp_zeros, zero_mul]) _ _ _
    (by simp [hd])]
  rotate_left
  · intro e he
    have := hqlt e.1 (hfst ▸ List.mem_map_of_mem he)
    refine ⟨by simpa using this, ?_⟩
    rw [getD_mem_of _ _ _ (by simpa using this)]
    simp
  · rw [hfst]; exact hT.near_nodup _ _ _
  have hz : (List.zipWith (fun (w y : List K) => w.getD i 0 * y.getD o 0)
      (List.replicate samples.length (List.replicate dim 0)) data).sum = 0 := by
    refine List.sum_eq_zero fun x hx => ?_
    obtain ⟨n, hn, rfl⟩ := List.getElem_of_mem hx
    rw [List.getElem_zipWith, List.getElem_replicate, comp_zeros, zero_mul]
  rw [hz, zero_add, sum_map_range _ (0, [])]
  have hzl : (List.zip q w).length = q.length := by simp [hwlen]
  rw [hzl]
  have hzk : ∀ l < q.length, (List.zip q w).getD l (0, []) = (q.getD l 0, w.getD l []) := by
    intro l hl
    rw [getD_mem_of _ _ _ (by omega), getD_mem_of _ _ _ hl, getD_mem_of _ _ _ (by omega),
      List.getElem_zip]
  have hA : ∀ j < q.length, ∀ l < q.length,
      comp ((rbfMatrix T ((T.near samples c k).map fun e => samples.getD e.1 [])).getD j []) l =
        T.kernel 1 (T.dist (nbr samples q j) (nbr samples q l)) := by
    intro j hj l hl
    have e1 : (rbfMatrix T ((T.near samples c k).map fun e => samples.getD e.1 [])).getD j [] =
        ((T.near samples c k).map fun e => samples.getD e.1 []).map fun y =>
          T.kernel 1 (T.dist (nbr samples q j) y) := by
      unfold rbfMatrix nbr
      rw [getD_mem_of _ _ _ (by simpa [hq] using hj), List.getElem_map, List.getElem_map,
        getD_mem_of q _ _ hj]
      simp only [hq, List.getElem_map]
    unfold comp
    rw [e1, getD_mem_of _ _ _ (by simpa [hq] using hl), List.getElem_map, List.getElem_map]
    have e2 : nbr samples q l = samples.getD ((T.near samples c k)[l]'(by omega)).1 [] := by
      unfold nbr
      rw [getD_mem_of q _ _ hl]
      simp only [hq, List.getElem_map]
    rw [e2]
  have hB : ∀ j < q.length,
      comp ((rbfRhs T ep dim c (T.near samples c k)
        ((T.near samples c k).map fun e => samples.getD e.1 [])).getD j []) i =
        T.kernelDxi ep (T.dist c (nbr samples q j)) (comp c i - comp (nbr samples q j) i) := by
    intro j hj
    have hj' : j < (T.near samples c k).length := by omega
    have hnb : nbr samples q j = samples.getD ((T.near samples c k)[j]).1 [] := by
      unfold nbr
      rw [getD_mem_of q _ _ hj]
      simp [hq]
    rw [hnb, ← hT.near_dist samples c k _ (List.getElem_mem hj')]
    have e1 : (rbfRhs T ep dim c (T.near samples c k)
        ((T.near samples c k).map fun e => samples.getD e.1 [])).getD j [] =
        (List.range dim).map fun i => T.kernelDxi ep ((T.near samples c k)[j]).2
          (c.getD i 0 - (samples.getD ((T.near samples c k)[j]).1 []).getD i 0) := by
      unfold rbfRhs
      rw [getD_mem_of _ _ _ (by simpa using hj'), List.getElem_zipWith, List.getElem_map]
    unfold comp
    rw [e1, getD_mem_of _ _ _ (by simpa using hi), List.getElem_map, List.getElem_range]
  have hsolve := hT.solve _ _ _ hw
  rw [hAlen] at hsolve
  have key : ∀ l ∈ Finset.range q.length,
      ((List.zip q w).getD l (0, [])).2.getD i 0 *
        (data.getD ((List.zip q w).getD l (0, [])).1 []).getD o 0 =
      ∑ j ∈ Finset.range q.length, comp (w.getD l []) i *
        (u j * T.kernel 1 (T.dist (nbr samples q l) (nbr samples q j))) := by
    intro l hl
    have hl := Finset.mem_range.1 hl
    rw [hzk l hl, ← Finset.mul_sum, hu l hl]
    rfl
  rw [Finset.sum_congr rfl key, Finset.sum_comm]
  refine Finset.sum_congr rfl fun j hj => ?_
  have hj := Finset.mem_range.1 hj
  rw [← hB j hj, ← hsolve j hj i, Finset.mul_sum]
  refine Finset.sum_congr rfl fun l hl => ?_
  rw [hA j hj l (Finset.mem_range.1 hl), hT.symm (nbr samples q j)]
  ring

theorem centerDisc_inv [IsStrictOrderedRing K] {size : Nat} {inp out : SampleSet K} {v y : List (List K)}
    {t : List (List (List K))} {r : Disc K} (h : centerDisc size inp out v y t = .ok r) :
    r = centersDisc inp.dim out.dim inp.domain out.domain v t y := by
  have hrun : centerDisc size inp out v y t =
      (SampleSet.setValues { dim := inp.dim } v).bind fun ci =>
      (withDomain ci inp.domain).bind fun ci =>
      (SampleSet.setValues { dim := out.dim } y).bind fun co =>
      (withDomain co out.domain).bind fun co =>
      Disc.new size (some { ci with glob := { ci.glob with jacobians := some t } })
        (some co) none none none := rfl
  rw [hrun] at h
  simp only [SampleSet.setValues] at h
  split at h
  · rename_i hv
    rcases withDomain_cases ({ dim := inp.dim, glob := { values := some v } } : SampleSet K)
      inp.domain rfl with ⟨e, he⟩ | hd
    · simp only [Except.bind, he] at h; cases h
    · split at h
      · rename_i hy
        rcases withDomain_cases ({ dim := out.dim, glob := { values := some y } } : SampleSet K)
          out.domain rfl with ⟨e, he⟩ | hd'
        · simp only [Except.bind, hd, he] at h; cases h
        · simp only [Except.bind, hd, hd'] at h
          rw [new_center size _ _ hv hy] at h
          split at h
          · split at h
            · exact (Except.ok.inj h).symm
            · cases h
          · cases h
      · simp only [Except.bind, hd] at h; cases h
  · simp only [Except.bind] at h; cases h

theorem range_mapM_getIdx {samples cs : List (List K)} {nc : Nat}
    (h : (List.range nc).mapM (getIdx samples) = .ok cs) :
    cs = samples.take nc ∧ nc ≤ samples.length := by
  rw [mapM_eq_ok] at h
  have hlen : cs.length = nc := by simpa using h.length_eq.symm
  have hget : ∀ i (hi : i < nc), samples[i]? = some (cs[i]'(by omega)) := by
    intro i hi
    have := (List.forall₂_iff_get.1 h).2 i (by simpa using hi) (by omega)
    simp only [List.get_eq_getElem, List.getElem_range] at this
    rw [getIdx_eq_ok] at this
    exact this
  have hle : nc ≤ samples.length := by
    by_contra hc
    push Not at hc
    have := hget samples.length hc
    simp at this
  refine ⟨?_, hle⟩
  refine List.ext_getElem (by simp; omega) fun i hi hi' => ?_
  have := hget i (by omega)
  rw [List.getElem?_eq_getElem (by omega)] at this
  rw [List.getElem_take]
  exact (Option.some.inj this).symm

/-- Whenever `calculate_gradients_rbf` returns, it returns the first `nc` samples with their outputs,
and every entry of their gradients comes from the data by way of the weights of the interpolant. -/
theorem rbf_inv [IsStrictOrderedRing K] {T : RbfTools K} {size : Nat} {d : Disc K} {inp out : SampleSet K}
    (hi : d.input = some inp) (ho : d.output = some out) {samples data : List (List K)}
    (hs : inp.glob.values = some samples) (hd : out.glob.values = some data)
    {nc nn : Option Nat} {ep : Option K} {r : Disc K}
    (h : gradientsRbf T size d nc nn ep false = .ok r) :
    ∃ J, r = centersDisc inp.dim out.dim inp.domain out.domain
        (samples.take (nc.getD (samples.length / (inp.dim + 2)))) J
        (data.take (nc.getD (samples.length / (inp.dim + 2)))) ∧
      data.length = samples.length ∧ nc.getD (samples.length / (inp.dim + 2)) ≤ samples.length ∧
      J.length = nc.getD (samples.length / (inp.dim + 2)) ∧
      ∀ c < nc.getD (samples.length / (inp.dim + 2)), ∃ t,
        rbfRow T (ep.getD 1) inp.dim samples.length (nn.getD (inp.dim + 2)) samples
          (samples.getD c []) = .ok t ∧
        J.getD c [] = (List.range out.dim).map fun o => (List.range inp.dim).map fun i =>
          (List.zipWith (fun w y => w.getD i 0 * y.getD o 0) t data).sum := by
  simp only [gradientsRbf, bind_eq_ok, orErr_eq_ok] at h
  obtain ⟨_, h1, _, h2, _, h3, _, h4, n, hn, cs, hcs, ts, hts, h⟩ := h
  rw [hi] at h1; cases h1
  rw [ho] at h2; cases h2
  rw [hs] at h3; cases h3
  rw [hd] at h4; cases h4
  have hnum : n = samples.length ∧ n = data.length := by
    simp only [Disc.checkNums, ho, hi, orErr_some, ok_bind, bind_eq_ok] at hn
    obtain ⟨a, ha, b, hb, hn⟩ := hn
    have h1 := (SampleSet.consistent_of_checkNum ha (by simp [hd])).1.values data hd
    have h2 := (SampleSet.consistent_of_checkNum hb (by simp [hs])).1.values samples hs
    split at hn
    · cases hn
    · rename_i hc
      have := (pure_eq_ok _ _).1 hn
      simp [hs, hd] at hc
      subst this
      exact ⟨h2.symm, by rw [← hc]; exact h1.symm⟩
  obtain ⟨hn1, hn2⟩ := hnum
  subst hn1
  obtain ⟨rfl, hle⟩ := range_mapM_getIdx hcs
  refine ⟨_, centerDisc_inv h, hn2.symm, hle, ?_, ?_⟩
  · have := ((mapM_eq_ok _ _ _).1 hts).length_eq
    simp only [normalizeIf, Bool.false_eq_true, if_false, List.length_map]
    rw [← this]
    simp; omega
  · intro c hc
    have hlen := ((mapM_eq_ok _ _ _).1 hts).length_eq
    rw [List.length_take, Nat.min_eq_left hle] at hlen
    have := (List.forall₂_iff_get.1 ((mapM_eq_ok _ _ _).1 hts)).2 c (by simp; omega) (by omega)
    simp only [List.get_eq_getElem, List.getElem_take] at this
    refine ⟨ts[c], ?_, ?_⟩
    · rw [getD_mem_of _ _ _ (by omega)]; exact this
    · simp only [normalizeIf, Bool.false_eq_true, if_false]
      rw [getD_mem_of _ _ _ (by simpa using hlen ▸ hc), List.getElem_map]
      rfl

end

/-! ### Kernels and their derivatives -/

section Real

/-- The Euclidean distance. -/
noncomputable def Spec.euclid (x y : List ℝ) : ℝ :=
  Real.sqrt (List.zipWith (fun a b => (a - b) ^ 2) x y).sum

theorem hasDerivAt_sq (a xi : ℝ) : HasDerivAt (fun t => a + (xi + t) ^ 2) (2 * xi) 0 := by
  have := (((hasDerivAt_id (0 : ℝ)).const_add xi).pow 2).const_add a
  simpa using this

theorem matern_deriv (ep s : ℝ) :
    HasDerivAt (fun s => (1 + ep * s + (ep * s) ^ 2 / 3) * Real.exp (-ep * s))
      (-(ep ^ 2 * s * Real.exp (-ep * s) * (ep * s + 1)) / 3) s := by
  have h1 : HasDerivAt (fun s => ep * s) ep s := by
    simpa using (hasDerivAt_id s).const_mul ep
  have h2 : HasDerivAt (fun s => -ep * s) (-ep) s := by
    simpa using (hasDerivAt_id s).const_mul (-ep)
  have h3 := ((h1.const_add 1).add ((h1.pow 2).div_const 3)).mul h2.exp
  refine h3.congr_deriv ?_
  simp
  ring

/-- The derivative of a radial basis function in one direction, at every point, the centre of the
function included. -/
theorem radialBasis_deriv (k : RbfKernel) (ep : ℝ) {a : ℝ} (ha : 0 ≤ a) (xi : ℝ) :
    HasDerivAt (fun t => radialBasis k ep (Real.sqrt (a + (xi + t) ^ 2)))
      (radialBasisDxi k ep (Real.sqrt (a + xi ^ 2)) xi) 0 := by
  have hsq : ∀ t, (ep * Real.sqrt (a + (xi + t) ^ 2)) ^ 2 = ep ^ 2 * (a + (xi + t) ^ 2) := by
    intro t
    rw [mul_pow, Real.sq_sqrt (by positivity)]
  have hsq0 : (ep * Real.sqrt (a + xi ^ 2)) ^ 2 = ep ^ 2 * (a + xi ^ 2) := by
    simpa using hsq 0
  have hR := (hasDerivAt_sq a xi).const_mul (ep ^ 2)
  cases k with
  | gaussian =>
    simp only [radialBasis, radialBasisDxi, hsq, hsq0]
    refine hR.neg.exp.congr_deriv ?_
    simp only [Pi.neg_apply, add_zero]
    ring
  | multiquadric =>
    simp only [radialBasis, radialBasisDxi, hsq, hsq0]
    have hpos : 0 < 1 + ep ^ 2 * (a + xi ^ 2) := by positivity
    refine ((hR.const_add 1).rpow_const (p := 0.5) (Or.inl (by simpa using hpos.ne'))).congr_deriv ?_
    simp only [add_zero]
    have : ((0.5 : ℝ) - 1) = -0.5 := by norm_num
    rw [this, Real.rpow_neg hpos.le]
    field_simp
    norm_num
    ring
  | inverseMultiquadric =>
    simp only [radialBasis, radialBasisDxi, hsq, hsq0]
    have hpos : 0 < 1 + ep ^ 2 * (a + xi ^ 2) := by positivity
    have hfun : (fun t => 1 / (1 + ep ^ 2 * (a + (xi + t) ^ 2)) ^ (0.5 : ℝ)) =
        fun t => (1 + ep ^ 2 * (a + (xi + t) ^ 2)) ^ (-0.5 : ℝ) := by
      funext t
      have : 0 < 1 + ep ^ 2 * (a + (xi + t) ^ 2) := by positivity
      rw [Real.rpow_neg this.le, one_div]
    rw [hfun]
    refine ((hR.const_add 1).rpow_const (p := -0.5)
      (Or.inl (by simpa using hpos.ne'))).congr_deriv ?_
    simp only [add_zero]
    have : ((-0.5 : ℝ) - 1) = -1.5 := by norm_num
    rw [this, Real.rpow_neg hpos.le]
    field_simp
    norm_num
    ring
  | c4matern =>
    simp only [radialBasis, radialBasisDxi]
    by_cases h0 : a + xi ^ 2 = 0
    · have ha0 : a = 0 := by nlinarith [sq_nonneg xi]
      have hx0 : xi = 0 := by
        have : xi ^ 2 = 0 := by linarith
        exact pow_eq_zero_iff (two_ne_zero) |>.1 this
      subst ha0 hx0
      have hs : ∀ t : ℝ, Real.sqrt (0 + (0 + t) ^ 2) = |t| := by
        intro t; rw [zero_add, zero_add, Real.sqrt_sq_eq_abs]
      simp only [hs]
      have hd := matern_deriv ep 0
      rw [hasDerivAt_iff_isLittleO_nhds_zero] at hd ⊢
      have ht : Filter.Tendsto (fun t : ℝ => |t|) (nhds 0) (nhds 0) := by
        simpa using (continuous_abs.tendsto (0 : ℝ))
      have := hd.comp_tendsto ht
      have h2 : (fun x : ℝ => (fun h => h) ∘ fun t : ℝ => |t|) = fun _ => fun t : ℝ => |t| := rfl
      refine (Asymptotics.IsLittleO.of_abs_right ?_)
      refine this.congr' ?_ ?_
      · filter_upwards with t
        simp
      · filter_upwards with t
        rfl
    · have hsq := (hasDerivAt_sq a xi).sqrt (by simpa using h0)
      simp only [add_zero] at hsq
      have hm := matern_deriv ep (Real.sqrt (a + xi ^ 2))
      have hc := HasDerivAt.comp (0 : ℝ)
        (h₂ := fun s => (1 + ep * s + (ep * s) ^ 2 / 3) * Real.exp (-ep * s))
        (h := fun t => Real.sqrt (a + (xi + t) ^ 2))
        (by simpa using hm) hsq
      refine hc.congr_deriv ?_
      have hpos : 0 < Real.sqrt (a + xi ^ 2) :=
        Real.sqrt_pos.2 (lt_of_le_of_ne (by positivity) (Ne.symm h0))
      field_simp

theorem euclid_symm (x y : List ℝ) : euclid x y = euclid y x := by
  unfold euclid
  rw [List.zipWith_comm]
  congr 3
  funext a b
  ring

theorem sum_shift {x y : List ℝ} (h : x.length = y.length) {i : Nat} (hi : i < x.length) (t : ℝ) :
    (List.zipWith (fun a b => (a - b) ^ 2) (shift x i t) y).sum =
      ((List.zipWith (fun a b => (a - b) ^ 2) x y).sum - (comp x i - comp y i) ^ 2) +
        (comp x i - comp y i + t) ^ 2 := by
  unfold shift comp
  induction x generalizing y i with
  | nil => simp at hi
  | cons a x ih =>
    cases y with
    | nil => simp at h
    | cons b y =>
      cases i with
      | zero => simp; ring
      | succ i =>
        have := ih (y := y) (by simpa using h) (i := i) (by simpa using hi)
        simp at this ⊢
        rw [this]; ring

theorem comp_sq_le {x y : List ℝ} (h : x.length = y.length) {i : Nat} (hi : i < x.length) :
    (comp x i - comp y i) ^ 2 ≤ (List.zipWith (fun a b => (a - b) ^ 2) x y).sum := by
  unfold comp
  rw [getD_mem_of _ _ _ hi, getD_mem_of _ _ _ (h ▸ hi)]
  refine List.single_le_sum ?_ _ ?_
  · intro z hz
    obtain ⟨n, hn, rfl⟩ := List.getElem_of_mem hz
    rw [List.getElem_zipWith]
    positivity
  · rw [List.mem_iff_getElem]
    exact ⟨i, by simp; omega, by simp⟩

/-- **C78 (kernels).** For every kernel and shape parameter, `radial_basis_function_dxi` is the partial
derivative of `radial_basis_function` at the distance from `y`, everywhere. -/
theorem C78_kernel (k : RbfKernel) (ep : ℝ) {x y : List ℝ} (h : x.length = y.length) {i : Nat}
    (hi : i < x.length) :
    HasDerivAt (fun t => radialBasis k ep (euclid (shift x i t) y))
      (radialBasisDxi k ep (euclid x y) (comp x i - comp y i)) 0 := by
  unfold euclid
  simp only [sum_shift h hi]
  have := radialBasis_deriv k ep (sub_nonneg.2 (comp_sq_le h hi)) (comp x i - comp y i)
  simpa using this

/-- The function `y ↦ Σ u_k φ(ep ‖y - x_k‖)` of the kernel at the samples `q`. -/
noncomputable def Spec.rbfInterpolant (k : RbfKernel) (ep : ℝ) (samples : List (List ℝ))
    (q : List Nat) (u : Nat → ℝ) (y : List ℝ) : ℝ :=
  ∑ l ∈ Finset.range q.length, u l * radialBasis k ep (euclid y (nbr samples q l))

/-- The routines for the kernel `k`: distances are Euclidean, and `solve` raises `LinAlgError` for
singular matrices. -/
structure Spec.RbfReal (k : RbfKernel) (T : RbfTools ℝ) : Prop extends RbfSound T where
  dist : T.dist = euclid
  kernel : T.kernel = radialBasis k
  kernelDxi : T.kernelDxi = radialBasisDxi k
  regular : ∀ A B W, T.solve A B = .ok W → ∀ y : Nat → ℝ, ∃ u : Nat → ℝ, ∀ j < A.length,
    ∑ l ∈ Finset.range A.length, u l * comp (A.getD j []) l = y j

/-- **C78.** With the shape parameter 1, whenever `calculate_gradients_rbf` returns, it returns the
first `nc` samples with their outputs. For each of these centres and each output there is a combination
of the kernels at the nearest neighbours which takes the values of the data there, and the entries of
the returned gradient are the partial derivatives of this interpolant at the centre; the same holds for
every such combination. Missing for the full claim: other shape parameters, for which it is false
(`Ex.C78_negation_shape`). -/
theorem C78_gradient_partial {k : RbfKernel} {T : RbfTools ℝ} (hT : RbfReal k T) {size : Nat}
    {d : Disc ℝ} {inp out : SampleSet ℝ} (hi : d.input = some inp) (ho : d.output = some out)
    {samples data : List (List ℝ)} (hs : inp.glob.values = some samples)
    (hd : out.glob.values = some data) (hcols : ∀ x ∈ samples, x.length = inp.dim)
    {nc nn : Option Nat} {ep : Option ℝ} (hep : ep = none ∨ ep = some 1) {r : Disc ℝ}
    (h : gradientsRbf T size d nc nn ep false = .ok r) :
    ∃ J n, n = nc.getD (samples.length / (inp.dim + 2)) ∧ n ≤ samples.length ∧
      r = centersDisc inp.dim out.dim inp.domain out.domain (samples.take n) J (data.take n) ∧
      J.length = n ∧ ∀ c < n, ∀ o < out.dim,
        ∀ q, q = (T.near samples (samples.getD c []) (nn.getD (inp.dim + 2))).map (fun e => e.1) →
        (∃ u, Interpolates (radialBasis k 1) euclid samples data q o u) ∧
        ∀ u, Interpolates (radialBasis k 1) euclid samples data q o u →
          (∀ j < q.length, rbfInterpolant k 1 samples q u (nbr samples q j) =
            comp (data.getD (q.getD j 0) []) o) ∧
          ∀ i < inp.dim, HasDerivAt
            (fun t => rbfInterpolant k 1 samples q u (shift (samples.getD c []) i t))
            (comp ((J.getD c []).getD o []) i) 0 := by
  obtain ⟨J, hr, hlen, hle, hJ, hrow⟩ := rbf_inv hi ho hs hd h
  refine ⟨J, _, rfl, hle, hr, hJ, ?_⟩
  intro c hc o ho q hq
  obtain ⟨t, ht, hJc⟩ := hrow c hc
  have hep1 : ep.getD 1 = 1 := by rcases hep with rfl | rfl <;> rfl
  rw [hep1] at ht
  have hcl : ∀ n, n < samples.length → (samples.getD n []).length = inp.dim := fun n hn => by
    rw [getD_mem_of _ _ _ hn]; exact hcols _ (List.getElem_mem _)
  have hql : ∀ l < q.length, q.getD l 0 < samples.length := by
    intro l hl
    rw [getD_mem_of _ _ _ hl]
    have hmem : ∀ n ∈ q, n < samples.length := by
      intro n hn
      rw [hq] at hn
      obtain ⟨e, he, rfl⟩ := List.mem_map.1 hn
      exact hT.near_lt _ _ _ e he
    exact hmem _ (List.getElem_mem hl)
  constructor
  · obtain ⟨w, ⟨hw⟩, -⟩ := rbfRow_inv hT.toRbfSound ht
    obtain ⟨u, hu⟩ := hT.regular _ _ _ hw fun j => comp (data.getD (q.getD j 0) []) o
    have hAlen : (rbfMatrix T ((T.near samples (samples.getD c []) (nn.getD (inp.dim + 2))).map
        fun e => samples.getD e.1 [])).length = q.length := by simp [rbfMatrix, hq]
    rw [hAlen] at hu
    refine ⟨u, fun j hj => ?_⟩
    rw [← hu j hj]
    refine Finset.sum_congr rfl fun l hl => ?_
    have hl := Finset.mem_range.1 hl
    have hj' : j < (T.near samples (samples.getD c []) (nn.getD (inp.dim + 2))).length := by
      simpa [hq] using hj
    have hl' : l < (T.near samples (samples.getD c []) (nn.getD (inp.dim + 2))).length := by
      simpa [hq] using hl
    have hnb : ∀ l (hl : l < (T.near samples (samples.getD c []) (nn.getD (inp.dim + 2))).length),
        nbr samples q l = samples.getD
          ((T.near samples (samples.getD c []) (nn.getD (inp.dim + 2)))[l]).1 [] := by
      intro l hl
      unfold nbr
      rw [getD_mem_of q _ _ (by simpa [hq] using hl)]
      simp only [hq, List.getElem_map]
    congr 1
    have e1 : (rbfMatrix T ((T.near samples (samples.getD c []) (nn.getD (inp.dim + 2))).map
        fun e => samples.getD e.1 [])).getD j [] =
        ((T.near samples (samples.getD c []) (nn.getD (inp.dim + 2))).map
          fun e => samples.getD e.1 []).map fun y => T.kernel 1 (T.dist (nbr samples q j) y) := by
      unfold rbfMatrix
      rw [getD_mem_of _ _ _ (by simpa using hj'), List.getElem_map, List.getElem_map, hnb j hj']
    unfold comp
    rw [e1, getD_mem_of _ _ _ (by simpa using hl'), List.getElem_map, List.getElem_map, ← hnb l hl',
      hT.kernel, hT.dist]
  · intro u hu
    refine ⟨hu, fun i hi => ?_⟩
    have hcomp : comp ((J.getD c []).getD o []) i =
        (List.zipWith (fun w y => w.getD i 0 * y.getD o 0) t data).sum := by
      rw [hJc, getD_mem_of _ _ _ (by simpa using ho), List.getElem_map, List.getElem_range]
      unfold comp
      rw [getD_mem_of _ _ _ (by simpa using hi), List.getElem_map, List.getElem_range]
    have hu' : Interpolates (T.kernel 1) T.dist samples data
        ((T.near samples (samples.getD c []) (nn.getD (inp.dim + 2))).map fun e => e.1) o u := by
      rw [hT.kernel, hT.dist, ← hq]; exact hu
    have hsum := rbf_comp hT.toRbfSound hlen ht hi hu'
    rw [← hq, hT.kernelDxi, hT.dist] at hsum
    rw [hcomp, hsum]
    unfold rbfInterpolant
    refine HasDerivAt.fun_sum fun l hl => ?_
    refine HasDerivAt.const_mul (u l) ?_
    have hl := Finset.mem_range.1 hl
    have hc' : c < samples.length := by omega
    refine C78_kernel k 1 ?_ ?_
    · rw [hcl c hc']
      exact (hcl _ (hql l hl)).symm
    · rw [hcl c hc']; exact hi

end Real

namespace Ex

open Classical in
/-- Routines that take all samples as neighbours and solve regular systems. -/
noncomputable def rbfTools (k : RbfKernel) : RbfTools ℝ where
  near pts x _ := (List.range pts.length).map fun n => (n, euclid x (pts.getD n []))
  dist := euclid
  kernel := radialBasis k
  kernelDxi := radialBasisDxi k
  solve A B :=
    if h : (∃ W : List (List ℝ), W.length = A.length ∧ ∀ j < A.length, ∀ i,
        ∑ k ∈ Finset.range A.length, comp (A.getD j []) k * comp (W.getD k []) i =
          comp (B.getD j []) i) ∧
      ∀ y : Nat → ℝ, ∃ u : Nat → ℝ, ∀ j < A.length,
        ∑ l ∈ Finset.range A.length, u l * comp (A.getD j []) l = y j
    then .ok h.1.choose else .error .linAlgError

theorem rbfTools_real (k : RbfKernel) : RbfReal k (rbfTools k) where
  near_lt := by
    intro pts x _ e he
    obtain ⟨n, hn, rfl⟩ := List.mem_map.1 he
    simpa using hn
  near_nodup := by
    intro pts x _
    simp [rbfTools, List.map_map, Function.comp_def, List.nodup_range]
  near_dist := by
    intro pts x _ e he
    obtain ⟨n, hn, rfl⟩ := List.mem_map.1 he
    rfl
  symm := euclid_symm
  solve_length := by
    intro A B W h
    simp only [rbfTools] at h
    split at h
    · rename_i h'
      rw [← Except.ok.inj h]
      exact h'.1.choose_spec.1
    · cases h
  solve := by
    intro A B W h
    simp only [rbfTools] at h
    split at h
    · rename_i h'
      rw [← Except.ok.inj h]
      exact h'.1.choose_spec.2
    · cases h
  dist := rfl
  kernel := rfl
  kernelDxi := rfl
  regular := by
    intro A B W h
    simp only [rbfTools] at h
    split at h
    · rename_i h'
      exact h'.2
    · cases h

theorem solve_two (k : RbfKernel) {a : ℝ} (ha : 1 - a ^ 2 ≠ 0) (b0 b1 : ℝ) :
    ∃ W, (rbfTools k).solve [[1, a], [a, 1]] [[b0], [b1]] = .ok W := by
  simp only [rbfTools]
  rw [dif_pos]
  · exact ⟨_, rfl⟩
  · constructor
    · refine ⟨[[(b0 - a * b1) / (1 - a ^ 2)], [(b1 - a * b0) / (1 - a ^ 2)]], rfl, ?_⟩
      intro j hj i
      have hj : j < 2 := hj
      rw [show ([[1, a], [a, 1]] : List (List ℝ)).length = 2 from rfl]
      simp only [Finset.sum_range_succ, Finset.sum_range_zero]
      cases i with
      | zero =>
        interval_cases j <;> simp [comp] <;> field_simp <;> ring
      | succ i =>
        interval_cases j <;> simp [comp]
    · intro y
      refine ⟨fun l => if l = 0 then (y 0 - a * y 1) / (1 - a ^ 2)
        else (y 1 - a * y 0) / (1 - a ^ 2), ?_⟩
      intro j hj
      have hj : j < 2 := hj
      rw [show ([[1, a], [a, 1]] : List (List ℝ)).length = 2 from rfl]
      simp only [Finset.sum_range_succ, Finset.sum_range_zero]
      interval_cases j <;> simp [comp] <;> field_simp <;> ring

/-- The points 0 and 1 with the data 1 and 0. -/
noncomputable def rbfDisc : Disc ℝ where
  input := some { dim := 1, glob := { values := some [[0], [1]] } }
  output := some { dim := 1, glob := { values := some [[1], [0]] } }

theorem euclid_one (x y : ℝ) : euclid [x] [y] = |x - y| := by
  unfold euclid
  simp [Real.sqrt_sq_eq_abs]

theorem gauss_ne : 1 - radialBasis .gaussian 1 1 ^ 2 ≠ 0 := by
  have h1 : radialBasis .gaussian 1 1 < 1 := by
    simp only [radialBasis]
    rw [Real.exp_lt_one_iff]; norm_num
  have h0 : 0 < radialBasis .gaussian 1 1 := Real.exp_pos _
  nlinarith

/-- The call returns for the centre 0 and both samples as neighbours, for every shape parameter. -/
theorem rbf_returns (ep : Option ℝ) : ∃ r,
    gradientsRbf (rbfTools .gaussian) 1 rbfDisc (some 1) (some 2) ep false = .ok r := by
  have hn : rbfDisc.checkNums 1 = .ok 2 :=
    checkNums_ok (K := ℝ) (i := { dim := 1, glob := { values := some [[0], [1]] } })
      (o := { dim := 1, glob := { values := some [[1], [0]] } }) rfl rfl
      (consistent_values 1 none ([[0], [1]] : List (List ℝ)) none (by simp) (by simp))
      (consistent_values 1 none ([[1], [0]] : List (List ℝ)) none (by simp) (by simp)) 1
  have hmat : rbfMatrix (rbfTools .gaussian) [[0], [1]] =
      [[1, radialBasis .gaussian 1 1], [radialBasis .gaussian 1 1, 1]] := by
    simp [rbfMatrix, rbfTools, euclid_one, radialBasis]
  obtain ⟨W, hW⟩ := solve_two .gaussian gauss_ne
    (radialBasisDxi .gaussian (ep.getD 1) (euclid [0] [0]) (0 - 0))
    (radialBasisDxi .gaussian (ep.getD 1) (euclid [0] [1]) (0 - 1))
  have hrow : ∃ t, rbfRow (rbfTools .gaussian) (ep.getD 1) 1 2 2 [[0], [1]] [0] = .ok t := by
    unfold rbfRow
    have hp : ((rbfTools .gaussian).near [[0], [1]] [0] 2).mapM
        (fun e => getIdx ([[0], [1]] : List (List ℝ)) e.1) = .ok [[0], [1]] := rfl
    simp only [hp, ok_bind]
    have hrhs : rbfRhs (rbfTools .gaussian) (ep.getD 1) 1 [0]
        ((rbfTools .gaussian).near [[0], [1]] [0] 2) [[0], [1]] =
        [[radialBasisDxi .gaussian (ep.getD 1) (euclid [0] [0]) (0 - 0)],
         [radialBasisDxi .gaussian (ep.getD 1) (euclid [0] [1]) (0 - 1)]] := rfl
    rw [hmat, hrhs, hW, ok_bind]
    exact ⟨_, rfl⟩
  obtain ⟨t, ht⟩ := hrow
  have hc : (List.range 1).mapM (getIdx ([[0], [1]] : List (List ℝ))) = .ok [[0]] := rfl
  refine ⟨centersDisc 1 1 none none [[0]] [rbfGradient 1 1 t [[1], [0]]] [[1]], ?_⟩
  unfold gradientsRbf
  simp only [hn, ok_bind]
  simp only [rbfDisc, orErr_some, ok_bind, Option.getD_some, hc]
  have hts : ([[0]] : List (List ℝ)).mapM
      (rbfRow (rbfTools .gaussian) (ep.getD 1) 1 2 2 [[0], [1]]) = .ok [t] := by
    rw [List.mapM_cons, ht]
    rfl
  rw [hts, ok_bind]
  exact centerDisc_ok (K := ℝ) (inp := { dim := 1, glob := { values := some [[0], [1]] } })
    (out := { dim := 1, glob := { values := some [[1], [0]] } }) (v := [[0]]) (y := [[1]])
    (t := [rbfGradient 1 1 t [[1], [0]]]) (by simp) (by simp) nofun nofun rfl rfl 1

/-- `C78_gradient_partial` applies to this call. -/
example : ∃ r, gradientsRbf (rbfTools .gaussian) 1 rbfDisc (some 1) (some 2) none false = .ok r ∧
    ∃ J n, n = 1 ∧ r = centersDisc 1 1 none none ([[0], [1]].take n) J ([[1], [0]].take n) := by
  obtain ⟨r, hr⟩ := rbf_returns none
  obtain ⟨J, n, hn, -, h, -⟩ := C78_gradient_partial (rbfTools_real .gaussian) (d := rbfDisc) rfl rfl
    (samples := [[0], [1]]) (data := [[1], [0]]) rfl rfl (by simp) (Or.inl rfl) hr
  exact ⟨r, hr, J, n, hn, h⟩

/-- Weights of the interpolant of the data 1 at 0 and 0 at 1. -/
noncomputable def twoWeights (a : ℝ) (l : Nat) : ℝ :=
  if l = 0 then 1 / (1 - a ^ 2) else -a / (1 - a ^ 2)

theorem twoWeights_interpolates {ep : ℝ} (ha : 1 - radialBasis .gaussian ep 1 ^ 2 ≠ 0) :
    Interpolates (radialBasis .gaussian ep) euclid [[0], [1]] [[1], [0]] [0, 1] 0
      (twoWeights (radialBasis .gaussian ep 1)) := by
  intro j hj
  have hj : j < 2 := hj
  have h0 : radialBasis .gaussian ep 0 = 1 := by simp [radialBasis]
  rw [show ([0, 1] : List Nat).length = 2 from rfl]
  simp only [Finset.sum_range_succ, Finset.sum_range_zero]
  interval_cases j <;> simp [nbr, euclid_one, twoWeights, comp, h0] <;> field_simp <;> ring

/-- **C78 fails for other shape parameters:** with `ep = 2` the call returns, there is a combination of
the kernels with shape parameter 2 that takes the values of the data, and its derivative is not the
returned gradient. -/
theorem C78_negation_shape : ∃ r J u,
    gradientsRbf (rbfTools .gaussian) 1 rbfDisc (some 1) (some 2) (some 2) false = .ok r ∧
    r = centersDisc 1 1 none none [[0]] J [[1]] ∧
    Interpolates (radialBasis .gaussian 2) euclid [[0], [1]] [[1], [0]] [0, 1] 0 u ∧
    ¬ HasDerivAt (fun t => rbfInterpolant .gaussian 2 [[0], [1]] [0, 1] u (shift [0] 0 t))
      (comp ((J.getD 0 []).getD 0 []) 0) 0 := by
  obtain ⟨r, hr⟩ := rbf_returns (some 2)
  obtain ⟨J, h, hlen, -, -, hrow⟩ := rbf_inv (d := rbfDisc) rfl rfl
    (samples := [[0], [1]]) (data := [[1], [0]]) rfl rfl hr
  set a := radialBasis .gaussian 1 1 with ha
  set b := radialBasis .gaussian 2 1 with hb
  have ha1 : a = Real.exp (-1) := by rw [ha]; simp [radialBasis]
  have hb1 : b = Real.exp (-4) := by
    rw [hb]; simp only [radialBasis]; norm_num
  have hab : b < a := by rw [ha1, hb1]; exact Real.exp_lt_exp.2 (by norm_num)
  have hb0 : 0 < b := by rw [hb1]; exact Real.exp_pos _
  have ha0 : a < 1 := by rw [ha1, Real.exp_lt_one_iff]; norm_num
  have hA : 0 < 1 - a ^ 2 := by nlinarith
  have hB : 0 < 1 - b ^ 2 := by nlinarith
  refine ⟨r, J, twoWeights b, hr, h, twoWeights_interpolates hB.ne', ?_⟩
  obtain ⟨t, ht, hJ⟩ := hrow 0 (by decide)
  replace ht : rbfRow (rbfTools .gaussian) 2 1 2 2 [[0], [1]] [0] = .ok t := ht
  have hJc : comp ((J.getD 0 []).getD 0 []) 0 =
      (List.zipWith (fun w y => w.getD 0 0 * y.getD 0 0) t [[1], [0]]).sum := by
    rw [hJ]; rfl
  have hu1 : Interpolates ((rbfTools .gaussian).kernel 1) (rbfTools .gaussian).dist [[0], [1]]
      [[1], [0]] (((rbfTools .gaussian).near [[0], [1]] [0] 2).map fun e => e.1) 0 (twoWeights a) :=
    twoWeights_interpolates hA.ne'
  have hsum := rbf_comp (rbfTools_real .gaussian).toRbfSound (samples := [[0], [1]])
    (data := [[1], [0]]) rfl (c := [0]) ht (o := 0) (i := 0) (by decide) hu1
  rw [← hJc] at hsum
  intro hder
  have hder2 : HasDerivAt (fun t => rbfInterpolant .gaussian 2 [[0], [1]] [0, 1] (twoWeights b)
      (shift [0] 0 t)) (∑ l ∈ Finset.range ([0, 1] : List Nat).length, twoWeights b l *
        radialBasisDxi .gaussian 2 (euclid [0] (nbr [[0], [1]] [0, 1] l))
          (comp [0] 0 - comp (nbr [[0], [1]] [0, 1] l) 0)) 0 := by
    unfold rbfInterpolant
    refine HasDerivAt.fun_sum fun l hl => ?_
    refine HasDerivAt.const_mul _ (C78_kernel .gaussian 2 ?_ (by simp))
    have hl : l < 2 := Finset.mem_range.1 hl
    interval_cases l <;> rfl
  have heq := hder.unique hder2
  rw [hsum] at heq
  have hlen2 : (((rbfTools .gaussian).near [[0], [1]] [0] 2).map fun e => e.1).length = 2 := rfl
  have hq : (((rbfTools .gaussian).near [[0], [1]] [0] 2).map fun e => e.1) = [0, 1] := rfl
  rw [hq] at heq
  rw [show ([0, 1] : List Nat).length = 2 from rfl] at heq
  simp only [Finset.sum_range_succ, Finset.sum_range_zero] at heq
  have hD : radialBasisDxi .gaussian 2 1 (-1) ≠ 0 := by
    simp only [radialBasisDxi]
    have := Real.exp_pos (-(2 * 1) ^ 2)
    intro h
    nlinarith
  have h00 : radialBasisDxi .gaussian 2 0 0 = 0 := by simp [radialBasisDxi]
  simp only [rbfTools, Option.getD_some] at heq
  simp [nbr, euclid_one, comp, twoWeights, h00, hD] at heq
  rw [div_eq_div_iff hA.ne' hB.ne'] at heq
  nlinarith [mul_pos hb0 (sub_pos.2 hab), mul_pos (hb0.trans hab) hb0]

end Ex

end BET
