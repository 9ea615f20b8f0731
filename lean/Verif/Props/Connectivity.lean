import Verif.Props.Boundary
import Mathlib.Data.List.Nodup
import Mathlib.Data.List.Perm.Basic
import Mathlib.Data.List.NodupEquivFin

/-!
# Cell connectivity (C38)
-/

set_option autoImplicit false
set_option linter.unusedSectionVars false
set_option linter.unusedSimpArgs false

namespace BET

open Spec

namespace Spec

/-- `s` is a result of `argsort` for the values `x`: a rearrangement of the positions that lists
the values in ascending order. -/
def IsArgsortOf {K : Type} [LinearOrder K] [Zero K] (x : List K) (s : List Nat) : Prop :=
  s.Perm (List.range x.length) ∧
    (s.map fun i => x.getD i 0).Pairwise (· ≤ ·)

/-- Samples `p` and `q` are neighbours on the line: different, with no sample strictly
between them. -/
def AdjacentOnLine {K : Type} [LinearOrder K] (x : List K) (p q : Nat) : Prop :=
  ∃ (hp : p < x.length) (hq : q < x.length), x[p] ≠ x[q] ∧
    ∀ (r : Nat) (hr : r < x.length), ¬ (x[p] < x[r] ∧ x[r] < x[q]) ∧
      ¬ (x[q] < x[r] ∧ x[r] < x[p])

/-- `v` is the output cell of a neighbour of `p` for the neighbour relation `R`. -/
def IsNeighbourEvent (R : Nat → Nat → Prop) (io : List Nat) (p v : Nat) : Prop :=
  ∃ q, R p q ∧ io[q]? = some v

end Spec

theorem mem_add (nei : NeiList) (p v k w : Nat) :
    w ∈ (nei.add p v) k ↔ w ∈ nei k ∨ (k = p ∧ w = v) := by
  unfold NeiList.add
  by_cases hk : k = p
  · subst hk
    rw [if_pos rfl]
    by_cases hv : v ∈ nei k
    · rw [if_pos hv]
      constructor
      · exact Or.inl
      · rintro (h | ⟨-, rfl⟩)
        · exact h
        · exact hv
    · rw [if_neg hv, List.mem_append, List.mem_singleton]
      simp
  · rw [if_neg hk]
    simp [hk]

theorem nodup_add (nei : NeiList) (p v : Nat) (h : ∀ k, (nei k).Nodup) :
    ∀ k, ((nei.add p v) k).Nodup := by
  intro k
  unfold NeiList.add
  split
  · split
    · exact h p
    · next hv =>
      rw [List.nodup_append]
      refine ⟨h p, List.nodup_singleton _, ?_⟩
      intro a ha b hb
      rw [List.mem_singleton] at hb
      subst hb
      rintro rfl
      exact hv ha
  · exact h k

/-- The loop in one dimension, for the cells `l` of the loop. -/
theorem step1D_fold (s io : List Nat) (l : List Nat) (nei nei' : NeiList)
    (h : l.foldlM (step1D s io) nei = .ok nei') (hnd : ∀ k, (nei k).Nodup) :
    (∀ k, (nei' k).Nodup) ∧ ∀ k w, w ∈ nei' k ↔ w ∈ nei k ∨
      (∃ p ∈ l, ∃ o, s[p]? = some (o + 1) ∧ o ∈ s ∧
        ((k = p ∧ io[s.idxOf o]? = some w) ∨ (k = s.idxOf o ∧ io[p]? = some w))) := by
  induction l generalizing nei with
  | nil => cases h; exact ⟨hnd, fun k w => by simp⟩
  | cons p l ih =>
    rw [List.foldlM_cons, bind_eq_ok] at h
    obtain ⟨n₁, h₁, h⟩ := h
    unfold step1D at h₁
    rw [bind_eq_ok] at h₁
    obtain ⟨o, ho, h₁⟩ := h₁
    rw [getIdx_eq_ok] at ho
    have key : (∀ k, (n₁ k).Nodup) ∧ ∀ k w, w ∈ n₁ k ↔ w ∈ nei k ∨
        ∃ o, s[p]? = some (o + 1) ∧ o ∈ s ∧
        ((k = p ∧ io[s.idxOf o]? = some w) ∨ (k = s.idxOf o ∧ io[p]? = some w)) := by
      by_cases hpos : 0 < o
      · rw [if_pos hpos] at h₁
        simp only [link1D, argFirst, bind_eq_ok, getIdx_eq_ok, pure_eq_ok] at h₁
        obtain ⟨a, ha, va, hva, vp, hvp, rfl⟩ := h₁
        by_cases hm : o - 1 ∈ s
        · rw [if_pos hm] at ha
          cases ha
          refine ⟨nodup_add _ _ _ (nodup_add _ _ _ hnd), fun k w => ?_⟩
          rw [mem_add, mem_add]
          constructor
          · rintro ((h | ⟨rfl, rfl⟩) | ⟨rfl, rfl⟩)
            · exact Or.inl h
            · exact Or.inr ⟨o - 1, by rw [ho, Nat.sub_add_cancel hpos], hm,
                Or.inl ⟨rfl, hva⟩⟩
            · exact Or.inr ⟨o - 1, by rw [ho, Nat.sub_add_cancel hpos], hm,
                Or.inr ⟨rfl, hvp⟩⟩
          · rintro (h' | ⟨o', ho', hm', h'⟩)
            · exact Or.inl (Or.inl h')
            · have : o = o' + 1 := Option.some.inj (ho.symm.trans ho')
              subst this
              simp only [Nat.add_sub_cancel] at hva ⊢
              rcases h' with ⟨hk, h'⟩ | ⟨hk, h'⟩
              · exact Or.inl (Or.inr ⟨hk, Option.some.inj (h'.symm.trans hva)⟩)
              · exact Or.inr ⟨hk, Option.some.inj (h'.symm.trans hvp)⟩
        · rw [if_neg hm] at ha
          cases ha
      · rw [if_neg hpos] at h₁
        cases h₁
        refine ⟨hnd, fun k w => ?_⟩
        constructor
        · exact Or.inl
        · rintro (h | ⟨o', ho', -⟩)
          · exact h
          · have : o = o' + 1 := Option.some.inj (ho.symm.trans ho')
            omega
    obtain ⟨hnd', hmem⟩ := ih n₁ h key.1
    refine ⟨hnd', fun k w => ?_⟩
    rw [hmem, key.2]
    simp only [List.mem_cons]
    constructor
    · rintro ((h | h) | ⟨p', hp', h⟩)
      · exact Or.inl h
      · exact Or.inr ⟨p, Or.inl rfl, h⟩
      · exact Or.inr ⟨p', Or.inr hp', h⟩
    · rintro (h | ⟨p', rfl | hp', h⟩)
      · exact Or.inl (Or.inl h)
      · exact Or.inl (Or.inr h)
      · exact Or.inr ⟨p', hp', h⟩

/-- The links that `cell_connectivity_exact` makes on a line: the entries of `argsort` at the
two positions are consecutive. -/
def Linked (s : List Nat) (p q : Nat) : Prop :=
  ∃ a b, s[p]? = some a ∧ s[q]? = some b ∧ (a = b + 1 ∨ b = a + 1)

/-- **C38 (what the method computes).** In one dimension the neighbour list of cell `p` holds,
without repetition, exactly the contour events of the cells `q` whose entry of `argsort` is one
more or one less than that of `p`. -/
theorem C38_links {num : Nat} {s io : List Nat} {nei : NeiList}
    (hs : s.Perm (List.range num)) (h : connectivity1D num s io = .ok nei) (p v : Nat) :
    (nei p).Nodup ∧ (v ∈ nei p ↔ IsNeighbourEvent (Linked s) io p v) := by
  obtain ⟨hnd, hmem⟩ := step1D_fold s io _ _ _ h fun _ => List.nodup_nil
  refine ⟨hnd p, ?_⟩
  have hsl : s.length = num := by rw [hs.length_eq, List.length_range]
  have hsn : s.Nodup := hs.nodup_iff.2 List.nodup_range
  rw [hmem]
  have hidx : ∀ (q b : Nat), s[q]? = some b → s.idxOf b = q := fun q b hb => by
    obtain ⟨hq, rfl⟩ := List.getElem?_eq_some_iff.1 hb
    exact hsn.idxOf_getElem q hq
  have hget : ∀ b ∈ s, s[s.idxOf b]? = some b := fun b hb => by
    have := List.idxOf_lt_length_of_mem hb
    rw [List.getElem?_eq_getElem this, List.getElem_idxOf]
  constructor
  · rintro (h | ⟨q, hq, o, ho, hos, ⟨rfl, hio⟩ | ⟨rfl, hio⟩⟩)
    · cases h
    · exact ⟨_, ⟨o + 1, o, ho, hget o hos, Or.inl rfl⟩, hio⟩
    · exact ⟨q, ⟨o, o + 1, hget o hos, ho, Or.inr rfl⟩, hio⟩
  · rintro ⟨q, ⟨a, b, ha, hb, rfl | rfl⟩, hio⟩
    · have hp : p < num := hsl ▸ (List.getElem?_eq_some_iff.1 ha).1
      refine Or.inr ⟨p, List.mem_range.2 hp, b, ha, List.mem_of_getElem? hb, Or.inl ⟨rfl, ?_⟩⟩
      rw [hidx q b hb]; exact hio
    · have hq : q < num := hsl ▸ (List.getElem?_eq_some_iff.1 hb).1
      exact Or.inr ⟨q, List.mem_range.2 hq, a, hb, List.mem_of_getElem? ha,
        Or.inr ⟨(hidx p a ha).symm, hio⟩⟩

section
variable {K : Type} [LinearOrder K] [Zero K]

theorem getD_lt {α : Type} (l : List α) (d : α) {i : Nat} (h : i < l.length) :
    l.getD i d = l[i] := by
  rw [List.getD_eq_getElem?_getD, List.getElem?_eq_getElem h]; rfl

/-- For distinct values the sorted order is strict. -/
theorem argsort_strict {x : List K} {s : List Nat} (hs : IsArgsortOf x s) (hx : x.Nodup)
    {i j : Nat} (hi : i < s.length) (hj : j < s.length) :
    x.getD s[i] 0 < x.getD s[j] 0 ↔ i < j := by
  have hlt : ∀ (k : Nat) (hk : k < s.length), s[k] < x.length := fun k hk =>
    List.mem_range.1 (hs.1.mem_iff.1 (List.getElem_mem hk))
  have hsn : s.Nodup := hs.1.nodup_iff.2 List.nodup_range
  have hmono : ∀ {i j : Nat} (hi : i < s.length) (hj : j < s.length), i < j →
      x.getD s[i] 0 < x.getD s[j] 0 := by
    intro i j hi hj hij
    have hle := List.pairwise_iff_getElem.1 hs.2 i j (by simpa using hi) (by simpa using hj) hij
    simp only [List.getElem_map] at hle
    refine lt_of_le_of_ne hle fun heq => ?_
    rw [getD_lt _ _ (hlt i hi), getD_lt _ _ (hlt j hj)] at heq
    have := (List.Nodup.getElem_inj_iff hx).1 heq
    have := (List.Nodup.getElem_inj_iff hsn).1 this
    omega
  constructor
  · intro h
    by_contra hij
    rcases Nat.lt_or_ge j i with h' | h'
    · exact lt_asymm h (hmono hj hi h')
    · have : i = j := by omega
      subst this
      exact lt_irrefl _ h
  · exact hmono hi hj

/-- Neighbours on the line are consecutive in sorted order. -/
theorem adjacent_iff {x : List K} {s : List Nat} (hs : IsArgsortOf x s) (hx : x.Nodup)
    {i j : Nat} (hi : i < s.length) (hj : j < s.length) :
    AdjacentOnLine x s[i] s[j] ↔ (i = j + 1 ∨ j = i + 1) := by
  have hlen : s.length = x.length := by rw [hs.1.length_eq, List.length_range]
  have hlt : ∀ (k : Nat) (hk : k < s.length), s[k] < x.length := fun k hk =>
    List.mem_range.1 (hs.1.mem_iff.1 (List.getElem_mem hk))
  have hst : ∀ {a b : Nat} (ha : a < s.length) (hb : b < s.length),
      x[s[a]]'(hlt a ha) < x[s[b]]'(hlt b hb) ↔ a < b := fun {a b} ha hb => by
    have := argsort_strict hs hx ha hb
    rwa [getD_lt _ _ (hlt a ha), getD_lt _ _ (hlt b hb)] at this
  constructor
  · rintro ⟨hp, hq, hne, hbet⟩
    have hij : i ≠ j := by rintro rfl; exact hne rfl
    by_contra hcon
    rcases Nat.lt_or_gt_of_ne hij with h | h
    · have hm : i + 1 < s.length := by omega
      exact (hbet s[i + 1] (hlt _ hm)).1 ⟨(hst hi hm).2 (by omega), (hst hm hj).2 (by omega)⟩
    · have hm : j + 1 < s.length := by omega
      exact (hbet s[j + 1] (hlt _ hm)).2 ⟨(hst hj hm).2 (by omega), (hst hm hi).2 (by omega)⟩
  · intro hcon
    refine ⟨hlt i hi, hlt j hj, ?_, fun r hr => ?_⟩
    · intro heq
      have := (List.Nodup.getElem_inj_iff hx).1 heq
      have := (List.Nodup.getElem_inj_iff (hs.1.nodup_iff.2 List.nodup_range)).1 this
      omega
    · have hrs : r ∈ s := hs.1.mem_iff.2 (List.mem_range.2 hr)
      obtain ⟨k, hk, rfl⟩ := List.getElem_of_mem hrs
      rw [hst hi hk, hst hk hj, hst hj hk, hst hk hi]
      omega

/-- **C38 (partial).** For distinct values whose `argsort` is its own inverse (sorted samples,
reversed samples, swapped pairs, …) the neighbour list of a cell holds exactly the contour events
of the cells adjacent to it on the line. Missing: all other orders, for which the statement is
false (`Ex.C38_negation_unsorted`), because the method uses the positions returned by `argsort`
as if they were ranks. -/
theorem C38_adjacent_partial {x : List K} {s io : List Nat} {nei : NeiList}
    (hs : IsArgsortOf x s) (hx : x.Nodup)
    (hinv : ∀ p a : Nat, s[p]? = some a → s[a]? = some p)
    (h : connectivity1D x.length s io = .ok nei) (p v : Nat) :
    (nei p).Nodup ∧ (v ∈ nei p ↔ IsNeighbourEvent (AdjacentOnLine x) io p v) := by
  obtain ⟨hnd, hmem⟩ := C38_links hs.1 h p v
  refine ⟨hnd, hmem.trans ?_⟩
  have hlen : s.length = x.length := by rw [hs.1.length_eq, List.length_range]
  have key : ∀ q, Linked s p q ↔ AdjacentOnLine x p q := by
    intro q
    constructor
    · rintro ⟨a, b, ha, hb, hab⟩
      obtain ⟨ha', hap⟩ := List.getElem?_eq_some_iff.1 (hinv p a ha)
      obtain ⟨hb', hbq⟩ := List.getElem?_eq_some_iff.1 (hinv q b hb)
      have := (adjacent_iff hs hx ha' hb').2 hab
      rwa [hap, hbq] at this
    · intro hadj
      obtain ⟨hp, hq, -⟩ := id hadj
      have hp' : p < s.length := hlen ▸ hp
      have hq' : q < s.length := hlen ▸ hq
      have h1 := List.getElem?_eq_getElem hp'
      have h2 := List.getElem?_eq_getElem hq'
      obtain ⟨ha', hap⟩ := List.getElem?_eq_some_iff.1 (hinv p _ h1)
      obtain ⟨hb', hbq⟩ := List.getElem?_eq_some_iff.1 (hinv q _ h2)
      refine ⟨_, _, h1, h2, (adjacent_iff hs hx ha' hb').1 ?_⟩
      rwa [hap, hbq]
  constructor
  · rintro ⟨q, hq, hv⟩; exact ⟨q, (key q).1 hq, hv⟩
  · rintro ⟨q, hq, hv⟩; exact ⟨q, (key q).2 hq, hv⟩

end

theorem link1D_total (s io : List Nat) (l : List Nat) (nei : NeiList) (num : Nat)
    (hs : s.Perm (List.range num)) (hio : io.length = num) (hl : ∀ p ∈ l, p < num) :
    ∃ nei', l.foldlM (step1D s io) nei = .ok nei' := by
  have hsl : s.length = num := by rw [hs.length_eq, List.length_range]
  induction l generalizing nei with
  | nil => exact ⟨nei, rfl⟩
  | cons p l ih =>
    have hp : p < num := hl p (List.mem_cons_self ..)
    have hstep : ∃ n₁, step1D s io nei p = .ok n₁ := by
      simp only [step1D, getIdx, List.getElem?_eq_getElem (hsl.symm ▸ hp : p < s.length), ok_bind]
      split
      · have hmem : s[p]'(hsl.symm ▸ hp) - 1 ∈ s := by
          rw [hs.mem_iff, List.mem_range]
          have : s[p]'(hsl.symm ▸ hp) < num :=
            List.mem_range.1 (hs.mem_iff.1 (List.getElem_mem _))
          omega
        have hlt : s.idxOf (s[p]'(hsl.symm ▸ hp) - 1) < io.length := by
          exact lt_of_lt_of_eq (List.idxOf_lt_length_of_mem hmem) (hsl.trans hio.symm)
        simp only [link1D, argFirst, if_pos hmem, ok_bind, getIdx,
          List.getElem?_eq_getElem hlt, List.getElem?_eq_getElem (hio.symm ▸ hp : p < io.length)]
        exact ⟨_, rfl⟩
      · exact ⟨nei, rfl⟩
    obtain ⟨n₁, h₁⟩ := hstep
    obtain ⟨n', h'⟩ := ih n₁ fun q hq => hl q (List.mem_cons_of_mem _ hq)
    exact ⟨n', by rw [List.foldlM_cons, h₁]; exact h'⟩

/-- **C38, the method succeeds** on a line for every order of the samples. -/
theorem C38_defined (num : Nat) (s io : List Nat) (hs : s.Perm (List.range num))
    (hio : io.length = num) : ∃ nei, connectivity1D num s io = .ok nei :=
  link1D_total _ _ _ _ num hs hio fun _ hp => List.mem_range.1 hp

/-! ### More than one dimension -/

/-- Two entries of a simplex. -/
theorem mem_pairs (l : List Nat) (i j : Nat) :
    (i, j) ∈ pairs l ↔ ∃ a b : Nat, a < b ∧ l[a]? = some i ∧ l[b]? = some j := by
  induction l with
  | nil => simp [pairs]
  | cons x l ih =>
    simp only [pairs, List.mem_append, List.mem_map, Prod.mk.injEq, ih]
    constructor
    · rintro (⟨y, hy, rfl, rfl⟩ | ⟨a, b, hab, ha, hb⟩)
      · obtain ⟨k, hk⟩ := List.mem_iff_getElem?.1 hy
        exact ⟨0, k + 1, Nat.succ_pos _, rfl, by simpa using hk⟩
      · exact ⟨a + 1, b + 1, Nat.succ_lt_succ hab, by simpa using ha, by simpa using hb⟩
    · rintro ⟨a, b, hab, ha, hb⟩
      obtain ⟨b, rfl⟩ : ∃ b', b = b' + 1 := ⟨b - 1, by omega⟩
      rw [List.getElem?_cons_succ] at hb
      cases a with
      | zero =>
        rw [List.getElem?_cons_zero] at ha
        exact Or.inl ⟨j, List.mem_of_getElem? hb, Option.some.inj ha, rfl⟩
      | succ a =>
        rw [List.getElem?_cons_succ] at ha
        exact Or.inr ⟨a, b, Nat.lt_of_succ_lt_succ hab, ha, hb⟩

theorem linkPair_fold (io : List Nat) (l : List (Nat × Nat)) (nei nei' : NeiList)
    (h : l.foldlM (linkPair io) nei = .ok nei') (hnd : ∀ k, (nei k).Nodup) :
    (∀ k, (nei' k).Nodup) ∧ ∀ k w, w ∈ nei' k ↔ w ∈ nei k ∨
      ∃ q, ((k, q) ∈ l ∨ (q, k) ∈ l) ∧ io[q]? = some w := by
  induction l generalizing nei with
  | nil => cases h; exact ⟨hnd, fun k w => by simp⟩
  | cons ij l ih =>
    obtain ⟨i, j⟩ := ij
    rw [List.foldlM_cons, bind_eq_ok] at h
    obtain ⟨n₁, h₁, h⟩ := h
    simp only [linkPair, bind_eq_ok, getIdx_eq_ok, pure_eq_ok] at h₁
    obtain ⟨vj, hvj, vi, hvi, rfl⟩ := h₁
    obtain ⟨hnd', hmem⟩ := ih _ h (nodup_add _ _ _ (nodup_add _ _ _ hnd))
    refine ⟨hnd', fun k w => ?_⟩
    rw [hmem, mem_add, mem_add]
    simp only [List.mem_cons, Prod.mk.injEq]
    constructor
    · rintro (((h | ⟨rfl, rfl⟩) | ⟨rfl, rfl⟩) | ⟨q, hq, hv⟩)
      · exact Or.inl h
      · exact Or.inr ⟨j, Or.inl (Or.inl ⟨rfl, rfl⟩), hvj⟩
      · exact Or.inr ⟨i, Or.inr (Or.inl ⟨rfl, rfl⟩), hvi⟩
      · exact Or.inr ⟨q, hq.imp Or.inr Or.inr, hv⟩
    · rintro (h | ⟨q, (⟨rfl, rfl⟩ | hq) | (⟨rfl, rfl⟩ | hq), hv⟩)
      · exact Or.inl (Or.inl (Or.inl h))
      · exact Or.inl (Or.inl (Or.inr ⟨rfl, Option.some.inj (hv.symm.trans hvj)⟩))
      · exact Or.inr ⟨q, Or.inl hq, hv⟩
      · exact Or.inl (Or.inr ⟨rfl, Option.some.inj (hv.symm.trans hvi)⟩)
      · exact Or.inr ⟨q, Or.inr hq, hv⟩

/-- **C38 in higher dimensions.** With the simplices of the Delaunay triangulation the neighbour
list of a cell holds, without repetition, exactly the contour events of the cells that share a
simplex with it. -/
theorem C38_delaunay {simplices : List (List Nat)} {io : List Nat} {nei : NeiList}
    (h : connectivityDelaunay simplices io = .ok nei) (p v : Nat) :
    (nei p).Nodup ∧ (v ∈ nei p ↔ IsNeighbourEvent (fun p q => ∃ t ∈ simplices, ∃ a b : Nat, a ≠ b ∧
      t[a]? = some p ∧ t[b]? = some q) io p v) := by
  obtain ⟨hnd, hmem⟩ := linkPair_fold io _ _ _ h fun _ => List.nodup_nil
  refine ⟨hnd p, ?_⟩
  rw [hmem]
  simp only [List.mem_flatMap, mem_pairs, List.not_mem_nil, false_or]
  constructor
  · rintro ⟨q, ⟨t, ht, a, b, hab, ha, hb⟩ | ⟨t, ht, a, b, hab, ha, hb⟩, hv⟩
    · exact ⟨q, ⟨t, ht, a, b, hab.ne, ha, hb⟩, hv⟩
    · exact ⟨q, ⟨t, ht, b, a, hab.ne', hb, ha⟩, hv⟩
  · rintro ⟨q, ⟨t, ht, a, b, hab, ha, hb⟩, hv⟩
    rcases Nat.lt_or_gt_of_ne hab with h' | h'
    · exact ⟨q, Or.inl ⟨t, ht, a, b, h', ha, hb⟩, hv⟩
    · exact ⟨q, Or.inr ⟨t, ht, b, a, h', hb, ha⟩, hv⟩

/-! ### Examples -/

namespace Ex

/-- Samples 2, 1, 3 (`argsort` is `[1, 0, 2]`, its own inverse) with outputs in cells 5, 6, 7. -/
example : (connectivity1D 3 [1, 0, 2] [5, 6, 7]).toOption.map (fun n => (n 0, n 1, n 2)) =
    some ([6, 7], [5], [5]) := by decide +kernel

example : IsArgsortOf [(2 : ℚ), 1, 3] [1, 0, 2] :=
  ⟨by decide +kernel, by decide +kernel⟩

example : ∀ p a : Nat, ([1, 0, 2] : List Nat)[p]? = some a → ([1, 0, 2] : List Nat)[a]? = some p := by
  intro p a
  rcases p with _ | _ | _ | p <;> simp <;> rintro rfl <;> rfl

/-- **C38 fails in general**: for the samples 3, 1, 2 (`argsort` is `[1, 2, 0]`) cell 0 is
adjacent only to cell 2, but the method also reports the contour event of cell 1. -/
theorem C38_negation_unsorted : ∃ nei, connectivity1D 3 [1, 2, 0] [5, 6, 7] = .ok nei ∧
    IsArgsortOf [(3 : ℚ), 1, 2] [1, 2, 0] ∧ ([(3 : ℚ), 1, 2]).Nodup ∧ 6 ∈ nei 0 ∧
    ¬ IsNeighbourEvent (AdjacentOnLine [(3 : ℚ), 1, 2]) [5, 6, 7] 0 6 := by
  refine ⟨_, rfl, ⟨by decide +kernel, by decide +kernel⟩, by decide +kernel, by decide +kernel, ?_⟩
  rintro ⟨q, ⟨hp, hq, hne, hbet⟩, hv⟩
  have hq1 : q = 1 := by
    rcases q with _ | _ | _ | q
    · simp at hv
    · rfl
    · simp at hv
    · simp at hv
  subst hq1
  have := (hbet 2 (by decide)).2
  simp at this
  norm_num at this

/-- Two triangles with the common edge 1–2. -/
example : (connectivityDelaunay [[0, 1, 2], [1, 2, 3]] [0, 0, 1, 1]).toOption.map
    (fun n => (n 0, n 3)) = some ([0, 1], [0, 1]) := by decide +kernel

end Ex

end BET
