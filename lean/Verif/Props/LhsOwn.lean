import Verif.Props.SpmdSampler
import Verif.Props.Latin

/-!
# Latin hypercubes that each process draws itself (C126)

/repo/bet/sampling/basicSampling.py:225-227: every process calls `lhs` of pyDOE with its own generator and keeps
its part of what it drew.
-/

set_option autoImplicit false
set_option linter.unusedSectionVars false
set_option linter.unusedSimpArgs false

namespace BET

open Spec Act

namespace Spec

/-- Row `k` of `num` rows is in the part of process `r` of `n`: the parts follow each other, and the first
`num % n` of them have one row more than the others, which have `num / n`. -/
def Owns (n num r k : Nat) : Prop :=
  r * (num / n) + min r (num % n) ≤ k ∧ k < (r + 1) * (num / n) + min (r + 1) (num % n)

end Spec

variable {n : Nat}

theorem owns_iff {num r k : Nat} :
    Owns n num r k ↔ splitOff num n r ≤ k ∧ k < splitOff num n r + splitLen num n r := by
  rw [← splitOff_succ]
  rfl

theorem owns_unique {num r r' k : Nat} (h : Owns n num r k) (h' : Owns n num r' k) : r = r' := by
  rw [owns_iff, ← splitOff_succ] at h h'
  rcases lt_trichotomy r r' with hl | hl | hl
  · have := splitOff_mono num n (show r + 1 ≤ r' from hl)
    omega
  · exact hl
  · have := splitOff_mono num n (show r' + 1 ≤ r from hl)
    omega

theorem owns_exists (hn : 0 < n) {num k : Nat} (hk : k < num) : ∃ r : Fin n, Owns n num r k := by
  have key : ∀ m ≤ n, k < splitOff num n m → ∃ r, r < m ∧ Owns n num r k := by
    intro m
    induction m with
    | zero => intro _ h; simp [splitOff] at h
    | succ m ih =>
      intro hm h
      by_cases h1 : k < splitOff num n m
      · obtain ⟨r, hr, ho⟩ := ih (by omega) h1
        exact ⟨r, by omega, ho⟩
      · exact ⟨m, by omega, by rw [owns_iff, ← splitOff_succ]; omega⟩
  obtain ⟨r, hr, ho⟩ := key n le_rfl (by rw [splitOff_self _ _ hn]; exact hk)
  exact ⟨⟨r, hr⟩, ho⟩

/-- The rows that the processes keep. -/
theorem splice (hn : 0 < n) {α : Type} {num : Nat} (c : Fin n → List α) (hc : ∀ r, (c r).length = num) :
    ∃ u : List α, u.length = num ∧ (∀ (r : Fin n) k, Owns n num r k → u[k]? = (c r)[k]?) ∧
      ∀ r : Fin n, (arraySplit n u).getD r [] = (arraySplit n (c r)).getD r [] := by
  choose own hown using fun k : Fin num => owns_exists hn k.2
  have hu : ∀ (r : Fin n) k, Owns n num r k →
      (List.ofFn fun k : Fin num => (c (own k))[k.1]'(by rw [hc]; exact k.2))[k]? = (c r)[k]? := by
    intro r k h
    have hk : k < num := by
      rw [owns_iff] at h
      have := splitOff_add_le num n r r.2
      omega
    have : own ⟨k, hk⟩ = r := Fin.ext (owns_unique (hown ⟨k, hk⟩) h)
    subst this
    rw [List.getElem?_ofFn, dif_pos hk, List.getElem?_eq_getElem (by rw [hc]; exact hk)]
  refine ⟨_, List.length_ofFn, hu, ?_⟩
  intro r
  simp only [arraySplit, List.getD_eq_getElem?_getD, List.getElem?_map, List.getElem?_range r.2,
    Option.map_some, Option.getD_some, List.length_ofFn, hc]
  apply List.ext_getElem?
  intro i
  rw [List.getElem?_take, List.getElem?_take]
  split
  · case isTrue hi =>
    rw [List.getElem?_drop, List.getElem?_drop]
    exact hu r _ (by rw [owns_iff]; omega)
  · rfl

section
variable {K : Type} [Field K] [LinearOrder K]

/-- A process uses the number of rows and its own part of what it draws. -/
theorem procLhs_congr {s : SampleSet K} {r : Nat} {u c : List (List K)} (hl : u.length = c.length)
    (hp : (arraySplit n u).getD r [] = (arraySplit n c).getD r []) (g : Bool) :
    s.procLhs r n c g = s.procLhs r n u g := by
  have key : ∀ t : SampleSet K, (arraySplit n (lhsValues c t)).getD r [] =
      (arraySplit n (lhsValues u t)).getD r [] := by
    intro t
    unfold lhsValues
    rw [arraySplit_map, arraySplit_map]
    rw [List.getD_eq_getElem?_getD, List.getD_eq_getElem?_getD] at *
    rw [List.getElem?_map, List.getElem?_map]
    have h1 : (arraySplit n u)[r]?.isSome = (arraySplit n c)[r]?.isSome := by
      rw [Bool.eq_iff_iff]
      simp [length_arraySplit]
    cases hu : (arraySplit n u)[r]? <;> cases hc : (arraySplit n c)[r]? <;> simp_all
  unfold SampleSet.procLhs
  simp only [key, hl]

theorem lhsA_of {cube : List (List K)} {g : Bool} {s t : SampleSet K}
    (h : lhsSampleSet n (.set s) cube g = .ok t) : lhsA n cube g s = (.ok (), t) := by
  have ho : InputObj.toSet (K := K) .unboundLocal (.set s) = .ok s := rfl
  simp only [lhsSampleSet, ho, ok_bind, bind_eq_ok, pure_eq_ok] at h
  obtain ⟨s1, h2, s2, h3, rfl⟩ := h
  unfold lhsA
  refine bind_ok.2 ⟨(), _, change_ok.2 rfl, ?_⟩
  refine bind_ok.2 ⟨(), s1, attempt_ok.2 h2, ?_⟩
  have hd : domainOrUnit s1 = domainOrUnit s := by
    simp only [SampleSet.updateBounds, orErr_some, ok_bind, pure_eq_ok] at h2
    subst h2
    simp [domainOrUnit]
  refine bind_ok.2 ⟨(), s2, attempt_ok.2 ?_, change_ok.2 rfl⟩
  simp only [lhsValues, hd]
  exact h3

theorem lhs_runs {s : SampleSet K} {dim : Nat} {D : Option (List (K × K))} (hs : Space (.set s) dim D)
    {cube : List (List K)} (hsize : 0 < n) (hcube : ∀ row ∈ cube, row.length = dim) (g : Bool) :
    ∃ t, lhsSampleSet n (.set s) cube g = .ok t := by
  have hbox := space_box hs
  obtain ⟨s', h1, rfl, rfl⟩ := space_ok hs .unboundLocal
  have hch : ∀ c ∈ arraySplit n (cube.map fun row =>
      List.zipWith (fun ab u => (ab.2 - ab.1) * u + ab.1) (boxOf s'.dim s'.domain) row),
      ∀ row ∈ c, row.length = s'.dim := by
    intro c hc row hrow
    have hrow : row ∈ (cube.map fun row =>
        List.zipWith (fun ab u => (ab.2 - ab.1) * u + ab.1) (boxOf s'.dim s'.domain) row) := by
      have := flatten_arraySplit n (cube.map fun row =>
        List.zipWith (fun ab u => (ab.2 - ab.1) * u + ab.1) (boxOf s'.dim s'.domain) row) hsize
      rw [← this]
      exact List.mem_flatten.2 ⟨c, hc, hrow⟩
    obtain ⟨r, hr, rfl⟩ := List.mem_map.1 hrow
    simp [hbox, hcube r hr]
  simp only [lhsSampleSet, h1, ok_bind, SampleSet.updateBounds, orErr_some, domainOrUnit_eq, pure_bind_ok]
  rw [setValuesLocal_ok _ _ (by exact hch)]
  exact ⟨_, rfl⟩

/-- What the processes end with is what they would end with in step with the rows that they keep. -/
theorem lhs_own (hpos : 0 < n) {s : SampleSet K} (hs : SpreadSet n s) {dim : Nat}
    {D : Option (List (K × K))} (hsp : Space (.set s) dim D) {num : Nat} {c : Fin n → List (List K)}
    (hnum : ∀ r, (c r).length = num) (hrows : ∀ r, ∀ row ∈ c r, row.length = dim) (g : Bool) :
    ∃ u t, u.length = num ∧ (∀ row ∈ u, row.length = dim) ∧
      (∀ (r : Fin n) k, Owns n num r k → u[k]? = (c r)[k]?) ∧ lhsSampleSet n (.set s) u g = .ok t ∧
      RunsTo (fun r : Fin n => (s.view r).procLhs r n (c r) g) (fun r => .ok (t.view r)) := by
  obtain ⟨u, h1, h2, h3⟩ := splice hpos c hnum
  have hu : ∀ row ∈ u, row.length = dim := by
    intro row hrow
    obtain ⟨k, hk, rfl⟩ := List.getElem_of_mem hrow
    obtain ⟨r, hr⟩ := owns_exists hpos (num := num) (k := k) (by omega)
    have h4 := h2 r k hr
    rw [List.getElem?_eq_getElem hk] at h4
    exact hrows r _ (List.mem_of_getElem? h4.symm)
  obtain ⟨t, ht⟩ := lhs_runs hsp hpos hu g
  refine ⟨u, t, h1, hu, h2, ht, ?_⟩
  have e : ∀ r : Fin n, (s.view r).procLhs r n (c r) g = (s.view r).procLhs r n u g :=
    fun r => procLhs_congr (h1.trans (hnum r).symm) (h3 r) g
  simp only [e]
  exact (fits_lhs hs (lhsA_of ht)).2.runs hpos

/-- **C126.** `lhs_sample_set` on processes of which each draws its own hypercube, all with the same number of
rows: under every schedule all of them come to the end, with the given number of samples. Sample `k` comes
from row `k` of what the process that keeps `k` drew, and from no other. -/
theorem C126_values (hpos : 0 < n) {s : SampleSet K} (hs : SpreadSet n s) {dim : Nat}
    {D : Option (List (K × K))} (hsp : Space (.set s) dim D) {num : Nat} {c : Fin n → List (List K)}
    (hnum : ∀ r, (c r).length = num) (hrows : ∀ r, ∀ row ∈ c r, row.length = dim) (g : Bool) :
    ∃ (t : SampleSet K) (v : List (List K)), RunsTo (fun r : Fin n => (s.view r).procLhs r n (c r) g) (fun r => .ok (t.view r)) ∧
      t.domain = some (boxOf dim D) ∧ (∃ parts, t.loc.values = some parts ∧ parts.length = n ∧
        parts.flatten = v) ∧ (g = true → t.glob.values = some v) ∧ v.length = num ∧
      (∀ row ∈ v, row.length = dim) ∧
      ∀ (r : Fin n) (k i : Nat) (u : List K) (x : K) (ab : K × K), Owns n num r k →
        (c r)[k]? = some u → u[i]? = some x → (boxOf dim D)[i]? = some ab →
        ∃ row, v[k]? = some row ∧ row[i]? = some (ab.1 + (ab.2 - ab.1) * x) := by
  obtain ⟨u, t, h1, h2, h3, h4, h5⟩ := lhs_own hpos hs hsp hnum hrows g
  obtain ⟨v, e1, e2, e3, e4, e5, e6⟩ := C77_values hpos hsp h2 h4
  refine ⟨t, v, h5, e2, e3, e4, e1.trans h1, e5, ?_⟩
  intro r k i w x ab ho hk hi hab
  exact e6 k i w x ab ((h3 r k ho).trans hk) hi hab

end

section
variable {K : Type} [Field K] [LinearOrder K] [IsStrictOrderedRing K]

/-- **C126 (Latin).** If all processes draw the same Latin hypercube (generators that were seeded alike), the
samples are Latin in the box: each of the equal slices in each direction holds exactly one of them. -/
theorem C126_same (hpos : 0 < n) {s : SampleSet K} (hs : SpreadSet n s) {dim : Nat}
    {D : Option (List (K × K))} (hsp : Space (.set s) dim D) {c : List (List K)}
    (hrows : ∀ row ∈ c, row.length = dim) :
    ∃ (t : SampleSet K) (v : List (List K)), RunsTo (fun r : Fin n => (s.view r).procLhs r n c true) (fun r => .ok (t.view r)) ∧
      t.glob.values = some v ∧ ∀ (i : Nat) (ab : K × K), (boxOf dim D)[i]? = some ab →
        ab.1 < ab.2 → LatinIn c i 0 1 → LatinIn v i ab.1 ab.2 := by
  obtain ⟨t, ht⟩ := lhs_runs hsp hpos hrows true
  obtain ⟨v, h1, h2⟩ := C77_latin hpos hsp hrows ht
  exact ⟨t, v, (fits_lhs hs (lhsA_of ht)).2.runs hpos, h1, h2⟩

end

namespace Ex

/-- What the two processes draw: two Latin hypercubes. -/
def ownCube (r : Fin 2) : List (List ℚ) := if r = 0 then [[1 / 4], [3 / 4]] else [[3 / 4], [1 / 4]]

theorem ownCube_latin (r : Fin 2) : Spec.LatinIn (ownCube r) 0 0 1 := by
  intro j hj
  have h : (ownCube r).length = 2 := by fin_cases r <;> rfl
  rw [h] at hj ⊢
  refine ⟨if r = 0 then j else 1 - j, ?_, ?_⟩
  · fin_cases r <;> interval_cases j <;>
      exact ⟨_, _, rfl, rfl, by norm_num, by norm_num⟩
  · rintro k ⟨row, x, h1, h2, h3, h4⟩
    have hk : k < 2 := by
      rw [← h]
      exact (List.getElem?_eq_some_iff.1 h1).1
    fin_cases r <;> interval_cases j <;> interval_cases k <;>
      simp [ownCube] at h1 <;> subst h1 <;> simp at h2 <;> subst h2 <;> first | rfl | (exfalso; revert h3 h4; norm_num)

/-- **C126, negation.** Two processes that each draw a Latin hypercube, not the same one: under every schedule
they come to the end, with the sample 1/4 twice, which is not Latin. -/
theorem C126_negation_latin :
    (∀ r, Spec.LatinIn (ownCube r) 0 0 1) ∧ ∃ t : SampleSet ℚ,
      Spec.RunsTo (fun r : Fin 2 => (({ dim := 1 } : SampleSet ℚ).view r).procLhs r 2 (ownCube r) true)
        (fun r => .ok (t.view r)) ∧ t.glob.values = some [[1 / 4], [1 / 4]] ∧
      ¬ Spec.LatinIn ([[1 / 4], [1 / 4]] : List (List ℚ)) 0 0 1 := by
  refine ⟨ownCube_latin, ?_⟩
  obtain ⟨t, v, h1, -, -, h2, h3, h4, h5⟩ := C126_values (n := 2) (by decide) (spread_new (K := ℚ) 1)
    (.bare _ rfl) (c := ownCube) (num := 2) (fun r => by fin_cases r <;> rfl)
    (fun r row hrow => by fin_cases r <;> simp [ownCube] at hrow <;> rcases hrow with rfl | rfl <;> rfl) true
  refine ⟨t, h1, ?_, ?_⟩
  · rw [h2 rfl]
    obtain ⟨r0, a1, a2⟩ := h5 0 0 0 [1 / 4] (1 / 4) (0, 1) (by simp [Spec.Owns]) (by simp [ownCube]) rfl rfl
    obtain ⟨r1, b1, b2⟩ := h5 1 1 0 [1 / 4] (1 / 4) (0, 1) (by simp [Spec.Owns]) (by simp [ownCube]) rfl rfl
    obtain ⟨x, y, rfl⟩ := List.length_eq_two.1 h3
    simp only [List.getElem?_cons_zero, List.getElem?_cons_succ, Option.some.injEq] at a1 b1
    subst a1 b1
    obtain ⟨p, rfl⟩ := List.length_eq_one_iff.1 (h4 x (by simp))
    obtain ⟨q, rfl⟩ := List.length_eq_one_iff.1 (h4 y (by simp))
    simp at a2 b2
    simp [a2, b2]
  · intro h
    obtain ⟨k, ⟨row, x, h1, h2, h3, h4⟩, -⟩ := h 1 (by decide)
    have hk : k < 2 := (List.getElem?_eq_some_iff.1 h1).1
    interval_cases k <;> simp at h1 <;> subst h1 <;> simp at h2 <;> subst h2 <;> norm_num at h3

/-- Hypotheses of `C126_same`: the hypercube of three rows in a box of two dimensions. -/
example : (∀ row ∈ cube3, row.length = 2) ∧
    Spec.Space (.set ({ dim := 2, domain := some [(0, 1), (2, 5)] } : SampleSet ℚ)) 2 (some [(0, 1), (2, 5)]) :=
  ⟨by decide, .boxed _ _ rfl rfl⟩

end Ex

end BET
