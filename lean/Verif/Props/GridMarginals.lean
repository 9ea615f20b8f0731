import Verif.Props.Sampling
import Verif.Props.PlotP

/-!
# C168: Marginals of regular grids
-/

set_option autoImplicit false
set_option linter.unusedSectionVars false
set_option linter.unusedSimpArgs false

namespace BET

open Spec

section c168
variable {K : Type} [Field K] [LinearOrder K] [IsStrictOrderedRing K]

/-! ### Sums over a grid -/

theorem sum_flatMap_map (v : List K) (vs : List (List K)) (F : K → List K → K) :
    ((v.flatMap fun x => vs.map fun row => x :: row).map fun row => F (row.getD 0 0) row.tail).sum =
      (v.map fun x => (vs.map (F x)).sum).sum := by
  induction v with
  | nil => simp
  | cons x v ih =>
    rw [List.flatMap_cons, List.map_append, List.sum_append, ih, List.map_cons, List.sum_cons, List.map_map]
    rfl

theorem sum_map_const_mul (v : List K) (F : K → K) (c : K) : (v.map fun x => F x * c).sum = (v.map F).sum * c := by
  induction v with
  | nil => simp
  | cons x v ih => simp [ih, add_mul]

theorem sum_product_one {xs : List (List K)} {i : Nat} {v : List K} (hi : xs[i]? = some v) (f : K → K) :
    ((product xs).map fun row => f (row.getD i 0)).sum * (v.length : K) =
      (v.map f).sum * ((product xs).length : K) := by
  induction xs generalizing i with
  | nil => simp at hi
  | cons u us ih =>
    have hl : ((product (u :: us)).length : K) = (u.length : K) * ((product us).length : K) := by
      simp [length_product]
    cases i with
    | zero =>
      obtain rfl : u = v := by simpa using hi
      have := sum_flatMap_map u (product us) fun x _ => f x
      simp only [product] at hl ⊢
      rw [this, hl]
      simp only [List.map_const', List.sum_replicate, nsmul_eq_mul]
      rw [show (fun x => ((product us).length : K) * f x) = fun x => f x * ((product us).length : K) from
        funext fun x => mul_comm _ _, sum_map_const_mul]
      ring
    | succ i =>
      have := sum_flatMap_map u (product us) fun _ row => f (row.getD i 0)
      have e : ((product (u :: us)).map fun row => f (row.getD (i + 1) 0)).sum =
          (u.length : K) * ((product us).map fun row => f (row.getD i 0)).sum := by
        rw [show (fun row : List K => f (row.getD (i + 1) 0)) = fun row => f (row.tail.getD i 0) from
          funext fun row => by cases row <;> simp]
        simp only [product]
        rw [this]
        simp
      rw [e, hl]
      have := ih (i := i) (by simpa using hi)
      linear_combination (u.length : K) * this

theorem sum_product_two {xs : List (List K)} {i j : Nat} (hij : i < j) {v w : List K} (hi : xs[i]? = some v)
    (hj : xs[j]? = some w) (f g : K → K) :
    ((product xs).map fun row => f (row.getD i 0) * g (row.getD j 0)).sum * ((v.length : K) * (w.length : K)) =
      (v.map f).sum * (w.map g).sum * ((product xs).length : K) := by
  induction xs generalizing i j with
  | nil => simp at hi
  | cons u us ih =>
    have hl : ((product (u :: us)).length : K) = (u.length : K) * ((product us).length : K) := by
      simp [length_product]
    obtain ⟨j, rfl⟩ : ∃ j', j = j' + 1 := ⟨j - 1, by omega⟩
    have hj' : us[j]? = some w := by simpa using hj
    cases i with
    | zero =>
      obtain rfl : u = v := by simpa using hi
      have := sum_flatMap_map u (product us) fun x row => f x * g (row.getD j 0)
      have e : ((product (u :: us)).map fun row => f (row.getD 0 0) * g (row.getD (j + 1) 0)).sum =
          (u.map f).sum * ((product us).map fun row => g (row.getD j 0)).sum := by
        rw [show (fun row : List K => f (row.getD 0 0) * g (row.getD (j + 1) 0)) =
          fun row => f (row.getD 0 0) * g (row.tail.getD j 0) from funext fun row => by cases row <;> simp]
        simp only [product]
        rw [this]
        simp only [List.sum_map_mul_left]
        rw [sum_map_const_mul]
      rw [e, hl]
      have := sum_product_one hj' g
      linear_combination (u.map f).sum * (u.length : K) * this
    | succ i =>
      have := sum_flatMap_map u (product us) fun _ row => f (row.getD i 0) * g (row.getD j 0)
      have e : ((product (u :: us)).map fun row => f (row.getD (i + 1) 0) * g (row.getD (j + 1) 0)).sum =
          (u.length : K) * ((product us).map fun row => f (row.getD i 0) * g (row.getD j 0)).sum := by
        rw [show (fun row : List K => f (row.getD (i + 1) 0) * g (row.getD (j + 1) 0)) =
          fun row => f (row.tail.getD i 0) * g (row.tail.getD j 0) from funext fun row => by cases row <;> simp]
        simp only [product]
        rw [this]
        simp
      rw [e, hl]
      have := ih (i := i) (j := j) (by omega) (by simpa using hi) hj'
      linear_combination (u.length : K) * this

/-! ### The centres in a bin -/

/-- Centres before the edge `X / m` of the cells. -/
theorem count_before {n m X : Nat} (hm : 0 < m) (hX : X ≤ m * n) :
    ∃ c, c ≤ n ∧ (∀ t, m * (2 * t + 1) < 2 * X ↔ t < c) ∧ 2 * m * c ≤ 2 * X + m - 1 ∧ 2 * X ≤ 2 * m * c + m ∧
      (∀ q, X = m * q → c = q) := by
  refine ⟨(2 * X + m - 1) / (2 * m), ?_, ?_, ?_, ?_, ?_⟩
  · have : (2 * X + m - 1) / (2 * m) < n + 1 := by
      rw [Nat.div_lt_iff_lt_mul (by omega)]
      have : (n + 1) * (2 * m) = 2 * (m * n) + 2 * m := by ring
      omega
    omega
  · intro t
    rw [Nat.lt_iff_add_one_le, Nat.lt_iff_add_one_le, Nat.le_div_iff_mul_le (by omega)]
    have : (t + 1) * (2 * m) = m * (2 * t + 1) + m := by ring
    omega
  · exact Nat.mul_div_le _ _
  · have := Nat.lt_mul_div_succ (2 * X + m - 1) (show 0 < 2 * m by omega)
    rw [Nat.mul_add] at this
    omega
  · rintro q rfl
    refine Nat.div_eq_of_lt_le ?_ ?_
    · have : q * (2 * m) = 2 * (m * q) := by ring
      omega
    · have : (q + 1) * (2 * m) = 2 * (m * q) + 2 * m := by ring
      omega

/-- When the centre of cell `t` of `n` lies in bin `k` of `m`. -/
theorem centre_inCell {a b : K} (hab : a < b) {n m t k : Nat} (ht : t < n) (hm : 0 < m) :
    InCell a b m k (cellCentre (a, b) n t) ↔ 2 * (k * n) ≤ m * (2 * t + 1) ∧ m * (2 * t + 1) < 2 * ((k + 1) * n) := by
  have hn' : (0 : K) < n := by exact_mod_cast (by omega : 0 < n)
  have hm' : (0 : K) < m := by exact_mod_cast hm
  have hw : 0 < b - a := sub_pos.mpr hab
  have e : cellCentre (a, b) n t = a + (2 * (t : K) + 1) / (2 * n) * (b - a) := by
    simp only [cellCentre, cellEdge]
    push_cast
    field_simp
    ring
  have lo : ∀ x : K, a + x * ((b - a) / m) ≤ a + (2 * (t : K) + 1) / (2 * n) * (b - a) ↔
      2 * (x * n) ≤ m * (2 * (t : K) + 1) := by
    intro x
    rw [add_le_add_iff_left, mul_div_assoc', div_mul_eq_mul_div, div_le_div_iff₀ hm' (by positivity)]
    rw [show x * (b - a) * (2 * n) = 2 * (x * n) * (b - a) by ring,
      show (2 * (t : K) + 1) * (b - a) * m = m * (2 * (t : K) + 1) * (b - a) by ring,
      mul_le_mul_iff_left₀ hw]
  have hlt : cellCentre (a, b) n t ≠ b := by
    rw [e]
    have h1 : (2 * (t : K) + 1) / (2 * n) < 1 := by
      rw [div_lt_one (by positivity)]
      exact_mod_cast (by omega : 2 * t + 1 < 2 * n)
    have := mul_lt_mul_of_pos_right h1 hw
    intro h
    linarith
  unfold InCell
  rw [e] at hlt ⊢
  rw [lo, ← not_le, lo, not_le]
  simp only [hlt, and_false, or_false]
  constructor
  · rintro ⟨h1, h2⟩
    exact ⟨by exact_mod_cast h1, by exact_mod_cast h2⟩
  · rintro ⟨h1, h2⟩
    exact ⟨by exact_mod_cast h1, by exact_mod_cast h2⟩

/-- The number of elements of an interval. -/
theorem sum_interval (n c d : Nat) (hd : d ≤ n) (hcd : c ≤ d) :
    ((List.range n).map fun t => if c ≤ t ∧ t < d then (1 : K) else 0).sum = (d : K) - c := by
  induction n generalizing d with
  | zero =>
    obtain rfl : d = 0 := by omega
    obtain rfl : c = 0 := by omega
    simp
  | succ n ih =>
    rw [List.range_succ, List.map_append, List.sum_append]
    by_cases h : d ≤ n
    · rw [ih d h hcd]
      simp [show ¬ n < d by omega]
    · obtain rfl : d = n + 1 := by omega
      by_cases hc : c ≤ n
      · have e : ((List.range n).map fun t => if c ≤ t ∧ t < n + 1 then (1 : K) else 0) =
            (List.range n).map fun t => if c ≤ t ∧ t < n then (1 : K) else 0 := by
          refine List.map_congr_left fun t ht => ?_
          rw [List.mem_range] at ht
          simp [ht, Nat.lt_succ_of_lt ht]
        rw [e, ih n le_rfl hc]
        simp [hc]
        ring
      · obtain rfl : c = n + 1 := by omega
        rw [List.sum_eq_zero]
        · simp
        · intro x hx
          obtain ⟨t, ht, rfl⟩ := List.mem_map.mp hx
          rw [List.mem_range] at ht
          rw [if_neg (by omega)]

/-- The share of the centres in a bin. -/
theorem centres_share {a b : K} (hab : a < b) {n m k : Nat} (hn : 0 < n) (hk : k < m) :
    ∃ c : K, ((centres (a, b) n).map fun x => if InCell a b m k x then (1 : K) else 0).sum = c * n ∧ 0 ≤ c ∧
      c ≤ 1 ∧ (m ∣ n → c = 1 / m) ∧ |c - 1 / m| < 1 / n := by
  have hm : 0 < m := by omega
  have hn' : (0 : K) < n := by exact_mod_cast hn
  have hm' : (0 : K) < m := by exact_mod_cast hm
  obtain ⟨c, c1, c2, c3, c4, c5⟩ := count_before (n := n) (X := k * n) hm (by nlinarith)
  obtain ⟨d, d1, d2, d3, d4, d5⟩ := count_before (n := n) (X := (k + 1) * n) hm (by nlinarith)
  have hcd : c ≤ d := by
    by_contra h
    have h1 := (c2 d).2 (by omega)
    have h2 := (d2 d).not.2 (lt_irrefl d)
    have h3 : (k + 1) * n = k * n + n := by ring
    omega
  have hsum : ((centres (a, b) n).map fun x => if InCell a b m k x then (1 : K) else 0).sum = (d : K) - c := by
    rw [centres, List.map_map, ← sum_interval n c d d1 hcd]
    congr 1
    refine List.map_congr_left fun t ht => ?_
    rw [List.mem_range] at ht
    have h1 := centre_inCell (k := k) hab ht hm
    have h2 := (c2 t).not
    have : InCell a b m k (cellCentre (a, b) n t) ↔ c ≤ t ∧ t < d := by
      rw [h1, d2, ← not_lt, c2, not_lt]
    simp only [Function.comp, this]
  refine ⟨((d : K) - c) / n, ?_, ?_, ?_, ?_, ?_⟩
  · rw [hsum]
    field_simp
  · exact div_nonneg (sub_nonneg.mpr (by exact_mod_cast hcd)) hn'.le
  · rw [div_le_one hn']
    have h1 : (d : K) ≤ n := by exact_mod_cast d1
    have h2 : (0 : K) ≤ c := by positivity
    linarith
  · rintro ⟨q, rfl⟩
    rw [c5 (k * q) (by ring), d5 ((k + 1) * q) (by ring)]
    push_cast
    have hq : (q : K) ≠ 0 := by
      rintro h
      rw [Nat.cast_eq_zero] at h
      subst h
      omega
    field_simp
    ring
  · have key1 : 2 * m * d < 2 * n + 2 * m * c + 2 * m := by
      have : (k + 1) * n = k * n + n := by ring
      omega
    have key2 : 2 * n + 2 * m * c < 2 * m * d + 2 * m := by
      have : (k + 1) * n = k * n + n := by ring
      omega
    have k1 : (m : K) * d < n + m * c + m := by
      have : (2 * m * d : K) < 2 * n + 2 * m * c + 2 * m := by exact_mod_cast key1
      linarith
    have k2 : (n : K) + m * c < m * d + m := by
      have : (2 * n + 2 * m * c : K) < 2 * m * d + 2 * m := by exact_mod_cast key2
      linarith
    have e : ((d : K) - c) / n - 1 / m = (m * (d - c) - n) / (n * m) := by field_simp
    rw [e, abs_div, abs_of_pos (show (0 : K) < n * m by positivity), div_lt_div_iff₀ (by positivity) hn']
    have : |(m : K) * (d - c) - n| < m := by
      rw [abs_lt]
      constructor <;> linarith
    nlinarith

/-! ### Probabilities -/

theorem massOf_const {A : List K → Prop} [DecidablePred A] {c : K} {v : List (List K)} {W : List K}
    (h : W.length = v.length) (hW : ∀ w ∈ W, w = c) :
    massOf A v W = c * (v.map fun row => if A row then (1 : K) else 0).sum := by
  induction v generalizing W with
  | nil => simp [massOf]
  | cons row v ih =>
    cases W with
    | nil => simp at h
    | cons w W =>
      have := ih (W := W) (by simpa using h) fun x hx => hW x (by simp [hx])
      unfold massOf at this ⊢
      rw [List.zipWith_cons_cons, List.sum_cons, this, hW w (by simp), List.map_cons, List.sum_cons]
      split <;> ring

section
variable {size size' : Nat} {obj : InputObj K} {nums : GridNums} {s₀ t : SampleSet K}

theorem grid_columns {D : List (K × K)} {ns : List Nat} (h : D.length = ns.length) {i n : Nat} (hn : ns[i]? = some n) :
    ∃ ab, D[i]? = some ab ∧ (List.zipWith centres D ns)[i]? = some (centres ab n) := by
  have hi : i < D.length := by rw [h]; exact (List.getElem?_eq_some_iff.mp hn).1
  refine ⟨D[i], List.getElem?_eq_getElem hi, ?_⟩
  rw [List.getElem?_zipWith, List.getElem?_eq_getElem hi, hn]

/-- **C168.** Marginals of a regular grid. Let `regular_sample_set` have made a set, and let the samples of a set, or of
the inputs of a discretization, be these, each with the same probability. Then `calculate_1D_marginal_probs` gives every
bin a probability that differs from one divided by the number of bins (what the uniform distribution gives) by less than
one divided by the number of points in that direction; it is exact if the number of bins divides that number. -/
theorem C168_marginals (hsize' : 0 < size') (hs : obj.toSet .badObject = .ok s₀)
    (hn : (nums.perDim s₀.dim).length = s₀.dim) (hd : (domainOrUnit s₀).length = s₀.dim)
    (h : regularSampleSet size obj nums = .ok t) {v : List (List K)} (hv : t.glob.values = some v)
    {o : PostObj K} {s : SampleSet K} {W : List K} {nb : List Nat} {nbins : NBins}
    (hh : Histo o s v W (domainOrUnit s₀) nb nbins) (hl : W.length = v.length)
    (hW : ∀ w ∈ W, w = 1 / (v.length : K)) (hv0 : v ≠ []) :
    ∃ r, calculate1D size' nbins o = .ok r ∧ ∀ i m n : Nat, nb[i]? = some m → (nums.perDim s₀.dim)[i]? = some n →
      ∃ μ : List K, r.margs[i]? = some μ ∧ μ.length = m ∧ (m ∣ n → ∀ x ∈ μ, x = 1 / (m : K)) ∧
        ∀ x ∈ μ, |x - 1 / (m : K)| < 1 / (n : K) := by
  obtain ⟨-, -, hval⟩ := regular_ok hs hn hd h
  obtain rfl := Option.some.inj (hval.symm.trans hv)
  set D := domainOrUnit s₀ with hD
  set ns := nums.perDim s₀.dim with hns
  have hN : ((product (List.zipWith centres D ns)).length : K) ≠ 0 := by
    rw [Nat.cast_ne_zero]
    exact fun e => hv0 (List.length_eq_zero_iff.mp e)
  obtain ⟨r, hr, -, -, -, -, hall⟩ := C61_marginal hh hsize'
  refine ⟨r, hr, fun i m n hm hni => ?_⟩
  obtain ⟨ab, hab, hcol⟩ := grid_columns (hd.trans hn.symm) hni
  obtain ⟨μ, q1, q2, q3⟩ := hall i m (by rw [← hh.numBins]; exact (List.getElem?_eq_some_iff.mp hm).1) hm
  have hlt := hh.lo_lt_hi _ (List.mem_of_getElem? hab)
  have hnpos : 0 < n := by
    rcases Nat.eq_zero_or_pos n with rfl | h0
    · exfalso
      refine hN ?_
      rw [length_product, map_length_zipWith _ _ (hd.trans hn.symm),
        List.prod_eq_zero_iff.mpr (List.mem_of_getElem? hni), Nat.cast_zero]
    · exact h0
  have hn' : (n : K) ≠ 0 := by exact_mod_cast hnpos.ne'
  have key : ∀ x ∈ μ, (m ∣ n → x = 1 / (m : K)) ∧ |x - 1 / (m : K)| < 1 / (n : K) := by
    intro x hx
    obtain ⟨k, hk, rfl⟩ := List.getElem_of_mem hx
    have hkm : k < m := q2 ▸ hk
    obtain ⟨c, e1, -, -, e4, e5⟩ := centres_share hlt hnpos hkm
    have hx' : μ[k] = c := by
      have := q3 k hkm
      rw [List.getElem?_eq_getElem hk] at this
      rw [Option.some.inj this, massOf_const hl hW]
      have e := sum_product_one hcol fun x => if InCell ab.1 ab.2 m k x then (1 : K) else 0
      have hA : ∀ row, InBin D nb i k row ↔ InCell ab.1 ab.2 m k (row.getD i 0) := by
        intro row
        unfold InBin
        rw [List.getD_eq_getElem?_getD, hab, List.getD_eq_getElem?_getD (l := nb), hm]
        rfl
      simp only [hA]
      rw [e1, length_centres] at e
      have : ((product (List.zipWith centres D ns)).map
          fun row => if InCell ab.1 ab.2 m k (row.getD i 0) then (1 : K) else 0).sum =
          c * ((product (List.zipWith centres D ns)).length : K) := by
        apply mul_right_cancel₀ hn'
        rw [e]
        ring
      rw [this]
      field_simp
    rw [hx']
    exact ⟨e4, e5⟩
  exact ⟨μ, q1, q2, fun hdvd x hx => (key x hx).1 hdvd, fun x hx => (key x hx).2⟩

/-- **C168.** The same in two directions: the probability of a bin of `calculate_2D_marginal_probs` differs from that of
the uniform distribution by less than the sum of the two bounds; it is exact if the numbers of bins divide the numbers of
points. -/
theorem C168_joint (hsize' : 0 < size') (hs : obj.toSet .badObject = .ok s₀)
    (hn : (nums.perDim s₀.dim).length = s₀.dim) (hd : (domainOrUnit s₀).length = s₀.dim)
    (h : regularSampleSet size obj nums = .ok t) {v : List (List K)} (hv : t.glob.values = some v)
    {o : PostObj K} {s : SampleSet K} {W : List K} {nb : List Nat} {nbins : NBins}
    (hh : Histo o s v W (domainOrUnit s₀) nb nbins) (hdim : 2 ≤ s.dim) (hl : W.length = v.length)
    (hW : ∀ w ∈ W, w = 1 / (v.length : K)) (hv0 : v ≠ []) :
    ∃ r, calculate2D size' nbins o = .ok r ∧
      (∀ i j, (i, j) ∈ r.margs.map Prod.fst ↔ i < j ∧ j < s.dim) ∧
      ∀ i j T, ((i, j), T) ∈ r.margs → ∀ m m' n n', nb[i]? = some m → nb[j]? = some m' →
        (nums.perDim s₀.dim)[i]? = some n → (nums.perDim s₀.dim)[j]? = some n' →
        T.length = m ∧ ∀ row ∈ T, row.length = m' ∧
          (m ∣ n → m' ∣ n' → ∀ x ∈ row, x = 1 / (m * m' : K)) ∧
          ∀ x ∈ row, |x - 1 / (m * m' : K)| < 1 / (n : K) + 1 / (n' : K) := by
  obtain ⟨-, -, hval⟩ := regular_ok hs hn hd h
  obtain rfl := Option.some.inj (hval.symm.trans hv)
  set D := domainOrUnit s₀ with hD
  set ns := nums.perDim s₀.dim with hns
  have hN : ((product (List.zipWith centres D ns)).length : K) ≠ 0 := by
    rw [Nat.cast_ne_zero]
    exact fun e => hv0 (List.length_eq_zero_iff.mp e)
  have hpos : ∀ n ∈ ns, 0 < n := by
    intro n hn1
    rcases Nat.eq_zero_or_pos n with rfl | h0
    · exfalso
      refine hN ?_
      rw [length_product, map_length_zipWith _ _ (hd.trans hn.symm), List.prod_eq_zero_iff.mpr hn1, Nat.cast_zero]
    · exact h0
  obtain ⟨r, hr, -, -, -, -, hmem, hall⟩ := C61_joint hh hdim hsize'
  refine ⟨r, hr, hmem, fun i j T hT m m' n n' hm hm' hni hnj => ?_⟩
  have hij := ((hmem i j).1 (List.mem_map.mpr ⟨_, hT, rfl⟩)).1
  obtain ⟨ab, hab, hcol⟩ := grid_columns (hd.trans hn.symm) hni
  obtain ⟨ab', hab', hcol'⟩ := grid_columns (hd.trans hn.symm) hnj
  obtain ⟨q1, q2⟩ := hall i j T hT m m' hm hm'
  have hnpos := hpos n (List.mem_of_getElem? hni)
  have hnpos' := hpos n' (List.mem_of_getElem? hnj)
  have hn1 : (0 : K) < n := by exact_mod_cast hnpos
  have hn2 : (0 : K) < n' := by exact_mod_cast hnpos'
  have hlt := hh.lo_lt_hi _ (List.mem_of_getElem? hab)
  have hlt' := hh.lo_lt_hi _ (List.mem_of_getElem? hab')
  refine ⟨q1, fun row hrow => ?_⟩
  obtain ⟨k, hk, rfl⟩ := List.getElem_of_mem hrow
  have hkm : k < m := q1 ▸ hk
  obtain ⟨row, e0, q3, q4⟩ := q2 k hkm
  obtain rfl : T[k] = row := by
    rw [List.getElem?_eq_getElem hk] at e0
    exact Option.some.inj e0
  have key : ∀ x ∈ T[k], (m ∣ n → m' ∣ n' → x = 1 / (m * m' : K)) ∧
      |x - 1 / (m * m' : K)| < 1 / (n : K) + 1 / (n' : K) := by
    intro x hx
    obtain ⟨l, hl1, rfl⟩ := List.getElem_of_mem hx
    have hlm : l < m' := q3 ▸ hl1
    obtain ⟨c, c1, c2, c3, c4, c5⟩ := centres_share hlt hnpos hkm
    obtain ⟨c', c1', c2', c3', c4', c5'⟩ := centres_share hlt' hnpos' hlm
    have hx' : T[k][l] = c * c' := by
      have := q4 l hlm
      rw [List.getElem?_eq_getElem hl1] at this
      rw [Option.some.inj this, massOf_const hl hW]
      have e := sum_product_two hij hcol hcol' (fun x => if InCell ab.1 ab.2 m k x then (1 : K) else 0)
        fun x => if InCell ab'.1 ab'.2 m' l x then (1 : K) else 0
      have hA : ∀ row, InBin D nb i k row ↔ InCell ab.1 ab.2 m k (row.getD i 0) := by
        intro row
        unfold InBin
        rw [List.getD_eq_getElem?_getD, hab, List.getD_eq_getElem?_getD (l := nb), hm]
        rfl
      have hB : ∀ row, InBin D nb j l row ↔ InCell ab'.1 ab'.2 m' l (row.getD j 0) := by
        intro row
        unfold InBin
        rw [List.getD_eq_getElem?_getD, hab', List.getD_eq_getElem?_getD (l := nb), hm']
        rfl
      have hAB : ∀ row : List K, (if InBin D nb i k row ∧ InBin D nb j l row then (1 : K) else 0) =
          (if InCell ab.1 ab.2 m k (row.getD i 0) then (1 : K) else 0) *
            (if InCell ab'.1 ab'.2 m' l (row.getD j 0) then (1 : K) else 0) := by
        intro row
        simp only [hA, hB]
        by_cases h1 : InCell ab.1 ab.2 m k (row.getD i 0) <;>
          by_cases h2 : InCell ab'.1 ab'.2 m' l (row.getD j 0) <;> simp only [h1, h2] <;> simp
      simp only [hAB]
      rw [c1, c1', length_centres, length_centres] at e
      have : ((product (List.zipWith centres D ns)).map fun row =>
          (if InCell ab.1 ab.2 m k (row.getD i 0) then (1 : K) else 0) *
            (if InCell ab'.1 ab'.2 m' l (row.getD j 0) then (1 : K) else 0)).sum =
          c * c' * ((product (List.zipWith centres D ns)).length : K) := by
        apply mul_right_cancel₀ (mul_ne_zero hn1.ne' hn2.ne')
        rw [e]
        ring
      rw [this]
      field_simp
    rw [hx']
    have hm1 : (1 : K) ≤ m := by exact_mod_cast (by omega : 1 ≤ m)
    refine ⟨fun h1 h2 => by rw [c4 h1, c4' h2, div_mul_div_comm, one_mul], ?_⟩
    have e : c * c' - 1 / (m * m' : K) = (c - 1 / m) * c' + 1 / m * (c' - 1 / m') := by
      rw [show (1 : K) / (m * m') = 1 / m * (1 / m') by rw [div_mul_div_comm, one_mul]]
      ring
    rw [e]
    have b1 : |(c - 1 / (m : K)) * c'| ≤ |c - 1 / (m : K)| := by
      rw [abs_mul, abs_of_nonneg c2']
      exact mul_le_of_le_one_right (abs_nonneg _) c3'
    have b2 : |1 / (m : K) * (c' - 1 / m')| ≤ |c' - 1 / (m' : K)| := by
      rw [abs_mul, abs_of_nonneg (by positivity)]
      refine mul_le_of_le_one_left (abs_nonneg _) ?_
      rw [div_le_one (by linarith)]
      exact hm1
    exact (abs_add_le _ _).trans_lt (add_lt_add_of_le_of_lt (b1.trans c5.le) (b2.trans_lt c5'))
  exact ⟨q3, fun h1 h2 x hx => (key x hx).1 h1 h2, fun x hx => (key x hx).2⟩

end

end c168

namespace Ex

/-- The points of a grid with four times two points, with equal probabilities. -/
def gridPoints : List (List ℚ) :=
  [[1/8, 11/4], [1/8, 17/4], [3/8, 11/4], [3/8, 17/4], [5/8, 11/4], [5/8, 17/4], [7/8, 11/4], [7/8, 17/4]]

def gridSet : SampleSet ℚ :=
  { dim := 2, domain := some [(0, 1), (2, 5)],
    glob := { values := some gridPoints, probabilities := some (List.replicate 8 (1/8)) } }

theorem gridSet_histo (nb : List Nat) (h2 : nb.length = 2) (hp : ∀ n ∈ nb, 0 < n) :
    Histo (.set gridSet) gridSet gridPoints (List.replicate 8 (1/8)) [(0, 1), (2, 5)] nb (.arr nb) where
  obj := rfl
  samples := Or.inr ⟨rfl, rfl, rfl, 8, consistent_of _ _ rfl rfl⟩
  rows := by decide
  domain := rfl
  dims := rfl
  lo_lt_hi := by decide +kernel
  bins := Or.inr rfl
  numBins := h2
  pos := hp

theorem gridPoints_ok : ∃ t, regularSampleSet 2 (.domain [((0 : ℚ), 1), (2, 5)]) (.vector [4, 2]) = .ok t ∧
    t.glob.values = some gridPoints := by
  obtain ⟨t, ht, -⟩ := C45_defined (size := 2) (obj := .domain [((0 : ℚ), 1), (2, 5)]) (nums := .vector [4, 2])
    rfl rfl rfl (by decide) rfl
  refine ⟨t, ht, ?_⟩
  rw [(regular_ok (obj := .domain [((0 : ℚ), 1), (2, 5)]) (nums := .vector [4, 2]) rfl rfl rfl ht).2.2]
  decide +kernel

/-- Two bins in each direction: exact. -/
example : ∃ t, regularSampleSet 2 (.domain [((0 : ℚ), 1), (2, 5)]) (.vector [4, 2]) = .ok t ∧ ∃ r,
    calculate1D 3 (.arr [2, 2]) (.set gridSet) = .ok r ∧ ∃ μ : List ℚ, r.margs[0]? = some μ ∧ μ.length = 2 ∧
      ∀ x ∈ μ, x = 1 / ((2 : Nat) : ℚ) := by
  obtain ⟨t, ht, hv⟩ := gridPoints_ok
  obtain ⟨r, hr, h⟩ := C168_marginals (size' := 3) (obj := .domain [((0 : ℚ), 1), (2, 5)]) (nums := .vector [4, 2])
    (by decide) rfl rfl rfl ht hv (gridSet_histo [2, 2] rfl (by decide)) rfl (by decide +kernel) (by decide)
  obtain ⟨μ, h1, h2, h3, -⟩ := h 0 2 4 rfl rfl
  exact ⟨t, ht, r, hr, μ, h1, h2, h3 (by decide)⟩

/-- Three bins: not exact, but nearer than a quarter. -/
example : ((calculate1D 3 (.arr [3, 1]) (.set gridSet)).toOption.map fun r => r.margs) =
    some [[1/4, 1/2, 1/4], [1]] := by decide +kernel

/-- Two directions. -/
example : ∃ t, regularSampleSet 2 (.domain [((0 : ℚ), 1), (2, 5)]) (.vector [4, 2]) = .ok t ∧ ∃ r,
    calculate2D 3 (.arr [4, 2]) (.set gridSet) = .ok r ∧ ∀ T, ((0, 1), T) ∈ r.margs → T.length = 4 ∧
      ∀ row ∈ T, row.length = 2 ∧ ∀ x ∈ row, x = 1 / (((4 : Nat) : ℚ) * ((2 : Nat) : ℚ)) := by
  obtain ⟨t, ht, hv⟩ := gridPoints_ok
  obtain ⟨r, hr, -, h⟩ := C168_joint (size' := 3) (obj := .domain [((0 : ℚ), 1), (2, 5)]) (nums := .vector [4, 2])
    (by decide) rfl rfl rfl ht hv (gridSet_histo [4, 2] rfl (by decide)) (by decide) rfl (by decide +kernel)
    (by decide)
  refine ⟨t, ht, r, hr, fun T hT => ?_⟩
  obtain ⟨h1, h2⟩ := h 0 1 T hT 4 2 4 2 rfl rfl rfl rfl
  exact ⟨h1, fun row hrow => ⟨(h2 row hrow).1, (h2 row hrow).2.1 (by decide) (by decide)⟩⟩

end Ex

end BET
