import Verif.Model.ChooseQois
import Verif.Props.UniqueVecs
import Mathlib.Data.List.Sort

/-!
# C54: `chooseOptQoIs_verbose`
-/

set_option linter.unusedSectionVars false
set_option linter.unusedSimpArgs false
set_option autoImplicit false

namespace BET

open Spec

section
variable {S : Type} [LinearOrder S]

/-- `argsort` returns an order of the positions that makes the entries ascending. -/
def Spec.SortsWith (argsort : List S → List Nat) : Prop :=
  ∀ x, (argsort x).Perm (List.range x.length) ∧
    ((argsort x).filterMap fun i => x[i]?).Pairwise (· ≤ ·)

/-- `rows` are the `n` entries of `all` with the smallest values, in ascending order. -/
def Spec.IsBest {α : Type} (n : Nat) (key : α → S) (rows all : List α) : Prop :=
  rows.length = n ∧ rows.Pairwise (fun a b => key a ≤ key b) ∧
    ∃ rest, (rows ++ rest).Perm all ∧ ∀ r ∈ rows, ∀ t ∈ rest, key r ≤ key t

/-! ### Sorting rows -/

theorem reorder_range {α : Type} (l : List α) : reorder (List.range l.length) l = l := by
  induction l with
  | nil => rfl
  | cons a l ih =>
    unfold reorder at ih ⊢
    rw [List.length_cons, List.range_succ_eq_map, List.filterMap_cons]
    simp only [List.getElem?_cons_zero]
    rw [List.filterMap_map]
    simp only [Function.comp_def, List.getElem?_cons_succ]
    rw [ih]

theorem reorder_perm {α : Type} {order : List Nat} {l : List α}
    (h : order.Perm (List.range l.length)) : (reorder order l).Perm l := by
  have := h.filterMap fun i => l[i]?
  have h2 := reorder_range l
  unfold reorder at h2 ⊢
  rwa [h2] at this

theorem map_reorder {α β : Type} (f : α → β) (order : List Nat) (l : List α) :
    (reorder order l).map f = reorder order (l.map f) := by
  unfold reorder
  rw [List.map_filterMap]
  simp

theorem orderRows_perm {K : Type} {argsort : List S → List Nat} (hA : SortsWith argsort)
    (rows : List (OptRow S K)) : (orderRows argsort rows).Perm rows := by
  refine reorder_perm ?_
  simpa using (hA (rows.map fun r => r.val)).1

theorem orderRows_sorted {K : Type} {argsort : List S → List Nat} (hA : SortsWith argsort)
    (rows : List (OptRow S K)) :
    (orderRows argsort rows).Pairwise fun a b => a.val ≤ b.val := by
  have h := (hA (rows.map fun r => r.val)).2
  have h2 : ((orderRows argsort rows).map fun r => r.val).Pairwise (· ≤ ·) := by
    unfold orderRows
    rw [map_reorder]
    exact h
  exact List.pairwise_map.1 h2

/-! ### The best entries -/

section
variable {α : Type} {key : α → S} {n : Nat}

theorem isBest_self {l : List α} (hl : l.length = n) (hs : l.Pairwise fun a b => key a ≤ key b) :
    IsBest n key l l := ⟨hl, hs, [], by simp, by simp⟩

theorem isBest_perm {rows all all' : List α} (h : IsBest n key rows all) (hp : all.Perm all') :
    IsBest n key rows all' := by
  obtain ⟨h1, h2, rest, h3, h4⟩ := h
  exact ⟨h1, h2, rest, h3.trans hp, h4⟩

/-- An entry that is not better than the last one changes nothing. -/
theorem isBest_skip {rows all : List α} {last r : α} (h : IsBest n key (rows ++ [last]) all)
    (hr : key last ≤ key r) : IsBest n key (rows ++ [last]) (all ++ [r]) := by
  obtain ⟨h1, h2, rest, h3, h4⟩ := h
  refine ⟨h1, h2, rest ++ [r], ?_, ?_⟩
  · rw [← List.append_assoc]
    exact h3.append_right _
  · intro a ha t ht
    rcases List.mem_append.1 ht with ht | ht
    · exact h4 a ha t ht
    · obtain rfl : t = r := by simpa using ht
      rcases List.mem_append.1 ha with ha | ha
      · exact le_trans ((List.pairwise_append.1 h2).2.2 a ha last (by simp)) hr
      · obtain rfl : a = last := by simpa using ha
        exact hr

/-- An entry better than the last one replaces it. -/
theorem isBest_replace {rows rows' all : List α} {last r : α}
    (h : IsBest n key (rows ++ [last]) all) (hr : key r ≤ key last)
    (hp : rows'.Perm (rows ++ [r])) (hs : rows'.Pairwise fun a b => key a ≤ key b) :
    IsBest n key rows' (all ++ [r]) := by
  obtain ⟨h1, h2, rest, h3, h4⟩ := h
  refine ⟨?_, hs, last :: rest, ?_, ?_⟩
  · rw [hp.length_eq]
    simpa using h1
  · refine (hp.append_right _).trans ?_
    refine List.Perm.trans ?_ (h3.append_right [r])
    have e1 : rows ++ [r] ++ (last :: rest) = rows ++ ([r] ++ ([last] ++ rest)) := by simp
    have e2 : rows ++ [last] ++ rest ++ [r] = rows ++ (([last] ++ rest) ++ [r]) := by simp
    rw [e1, e2]
    exact (List.perm_append_comm).append_left rows
  · have hl : ∀ a ∈ rows', key a ≤ key last := by
      intro a ha
      rcases List.mem_append.1 (hp.mem_iff.1 ha) with ha | ha
      · exact (List.pairwise_append.1 h2).2.2 a ha last (by simp)
      · obtain rfl : a = r := by simpa using ha
        exact hr
    intro a ha t ht
    rcases List.mem_cons.1 ht with rfl | ht
    · exact hl a ha
    · exact le_trans (hl a ha) (h4 last (by simp) t ht)

theorem countP_flatten_ge {β : Type} (p : β → Bool) {L : List (List β)} {x : List β} (hx : x ∈ L) :
    x.countP p ≤ L.flatten.countP p := by
  induction L with
  | nil => cases hx
  | cons y L ih =>
    rw [List.flatten_cons, List.countP_append]
    rcases List.mem_cons.1 hx with rfl | hx
    · omega
    · have := ih hx
      omega

/-- The best entries of several lists are the best of the best of each. -/
theorem isBest_merge {L : List (List α × List α)} (hL : ∀ p ∈ L, IsBest n key p.1 p.2) (hne : L ≠ [])
    {U : List α} (hU : U.Perm (L.map fun p => p.1).flatten)
    (hs : U.Pairwise fun a b => key a ≤ key b) :
    IsBest n key (U.take n) (L.map fun p => p.2).flatten := by
  -- what the processes have not kept
  have hrest : ∃ rests : List (List α), List.Forall₂ (fun p rest => (p.1 ++ rest).Perm p.2 ∧
      ∀ r ∈ p.1, ∀ t ∈ rest, key r ≤ key t) L rests := by
    clear hU hne
    induction L with
    | nil => exact ⟨[], .nil⟩
    | cons p L ih =>
      obtain ⟨rests, h⟩ := ih fun p hp => hL p (by simp [hp])
      obtain ⟨-, -, rest, h3, h4⟩ := hL p (by simp)
      exact ⟨rest :: rests, .cons ⟨h3, h4⟩ h⟩
  obtain ⟨rests, hrests⟩ := hrest
  have hall : ∀ (L : List (List α × List α)) (rests : List (List α)),
      List.Forall₂ (fun p rest => (p.1 ++ rest).Perm p.2 ∧
        ∀ r ∈ p.1, ∀ t ∈ rest, key r ≤ key t) L rests →
      ((L.map fun p => p.1).flatten ++ rests.flatten).Perm (L.map fun p => p.2).flatten ∧
      ∀ t ∈ rests.flatten, ∃ p ∈ L, ∀ r ∈ p.1, key r ≤ key t := by
    intro L rests h
    induction h with
    | nil => simp
    | @cons p rest L rests h _ ih =>
      refine ⟨?_, ?_⟩
      · simp only [List.map_cons, List.flatten_cons]
        refine List.Perm.trans ?_ ((h.1).append ih.1)
        have e1 : p.1 ++ (L.map fun p => p.1).flatten ++ (rest ++ rests.flatten) =
            p.1 ++ (((L.map fun p => p.1).flatten ++ rest) ++ rests.flatten) := by simp
        have e2 : p.1 ++ rest ++ ((L.map fun p => p.1).flatten ++ rests.flatten) =
            p.1 ++ ((rest ++ (L.map fun p => p.1).flatten) ++ rests.flatten) := by simp
        rw [e1, e2]
        exact ((List.perm_append_comm).append_right _).append_left _
      · intro t ht
        rw [List.flatten_cons, List.mem_append] at ht
        rcases ht with ht | ht
        · exact ⟨p, by simp, fun r hr => h.2 r hr t ht⟩
        · obtain ⟨q, hq, hh⟩ := ih.2 t ht
          exact ⟨q, by simp [hq], hh⟩
  obtain ⟨hperm, hlow⟩ := hall L rests hrests
  have hlen : n ≤ U.length := by
    obtain ⟨p, hp⟩ := List.exists_mem_of_ne_nil L hne
    have h1 := (hL p hp).1
    have h2 := countP_flatten_ge (fun _ => true) (List.mem_map_of_mem (f := fun p => p.1) hp)
    rw [List.countP_true] at h2
    rw [hU.length_eq]
    simp only [h1] at h2
    exact h2
  refine ⟨by simp [hlen], hs.sublist (List.take_sublist n U), U.drop n ++ rests.flatten, ?_, ?_⟩
  · rw [← List.append_assoc, List.take_append_drop]
    exact (hU.append_right _).trans hperm
  · intro r hr t ht
    rcases List.mem_append.1 ht with ht | ht
    · have := hs
      rw [← List.take_append_drop n U] at this
      exact (List.pairwise_append.1 this).2.2 r hr t ht
    · by_contra hlt
      rw [not_le] at hlt
      obtain ⟨p, hp, hle⟩ := hlow t ht
      obtain ⟨i, hi, rfl⟩ := List.getElem_of_mem hr
      have hi' : i < n ∧ i < U.length := by simpa using hi
      rw [List.getElem_take] at hlt
      have hd : ∀ a ∈ U.drop i, key U[i] ≤ key a := by
        intro a ha
        have hd : U.drop i = U[i] :: U.drop (i + 1) := List.drop_eq_getElem_cons hi'.2
        have hs' := hs.sublist (List.drop_sublist i U)
        rw [hd] at ha hs'
        rcases List.mem_cons.1 ha with rfl | ha
        · exact le_refl _
        · exact (List.pairwise_cons.1 hs').1 a ha
      generalize U[i] = v at hlt hd
      -- the entries with smaller values
      have h1 : p.1.countP (fun a => decide (key a < key v)) = n := by
        rw [← (hL p hp).1, List.countP_eq_length]
        intro a ha
        exact decide_eq_true (lt_of_le_of_lt (hle a ha) hlt)
      have h2 : (L.map fun p => p.1).flatten.countP (fun a => decide (key a < key v)) ≤ i := by
        rw [← hU.countP_eq, ← List.take_append_drop i U, List.countP_append]
        have h3 : (U.drop i).countP (fun a => decide (key a < key v)) = 0 := by
          rw [List.countP_eq_zero]
          intro a ha
          rw [decide_eq_true_eq, not_lt]
          exact hd a ha
        have h4 := List.countP_le_length (p := fun a => decide (key a < key v)) (l := U.take i)
        have h5 : (U.take i).length ≤ i := by simp
        omega
      have h3 := countP_flatten_ge (fun a => decide (key a < key v))
        (List.mem_map_of_mem (f := fun p => p.1) hp)
      rw [h1] at h3
      omega

/-- The values of the best entries. -/
theorem isBest_values {rows all : List α} (h : IsBest n key rows all) :
    rows.map key = ((all.map key).insertionSort (· ≤ ·)).take n := by
  obtain ⟨h1, h2, rest, h3, h4⟩ := h
  have e : (all.map key).insertionSort (· ≤ ·) =
      rows.map key ++ (rest.map key).insertionSort (· ≤ ·) := by
    refine List.Perm.eq_of_pairwise (le := (· ≤ ·)) (fun a b _ _ hab hba => le_antisymm hab hba)
      (List.pairwise_insertionSort _ _) ?_ ?_
    · rw [List.pairwise_append]
      refine ⟨List.pairwise_map.2 h2, List.pairwise_insertionSort _ _, ?_⟩
      intro a ha b hb
      obtain ⟨r, hr, rfl⟩ := List.mem_map.1 ha
      obtain ⟨t, ht, rfl⟩ := List.mem_map.1 ((List.mem_insertionSort _).1 hb)
      exact h4 r hr t ht
    · refine (List.perm_insertionSort _ _).trans ?_
      refine List.Perm.trans ?_ ((List.perm_insertionSort _ _).symm.append_left _)
      rw [← List.map_append]
      exact (h3.map key).symm
  rw [e, List.take_append_of_le_length (by simp [h1])]
  simp [← h1]

end

end

section
variable {S K : Type} [LinearOrder S] [OrderTop S] [Zero K]

/-- The row of a set of QoIs. -/
def rowOf (val : List Nat → S) (sv : List Nat → List (List K)) (c : List Nat) : OptRow S K :=
  ⟨val c, c, sv c⟩

theorem keepBest_isBest {argsort : List S → List Nat} (hA : SortsWith argsort) {n : Nat} (hn : 0 < n)
    {best all : List (OptRow S K)} (h : IsBest n (fun r => r.val) best all) (r : OptRow S K) :
    ∃ best', keepBest argsort best r = .ok best' ∧ IsBest n (fun r => r.val) best' (all ++ [r]) := by
  have hne : best ≠ [] := by
    rintro rfl
    have := h.1
    simp at this
    omega
  obtain ⟨init, last, rfl⟩ : ∃ init last, best = init ++ [last] :=
    ⟨best.dropLast, best.getLast hne, (List.dropLast_append_getLast hne).symm⟩
  unfold keepBest
  simp only [List.getLast?_append, List.getLast?_singleton, Option.or_some, orErr_some, ok_bind,
    Option.some_or, List.dropLast_concat]
  refine ⟨_, rfl, ?_⟩
  split
  · rename_i hr
    exact isBest_replace h (le_of_lt hr) (orderRows_perm hA _) (orderRows_sorted hA _)
  · rename_i hr
    exact isBest_skip h (not_lt.1 hr)

theorem optFold_isBest {argsort : List S → List Nat} (hA : SortsWith argsort) {n : Nat} (hn : 0 < n)
    {score : List Nat → Except Err (S × List (List K))} {val : List Nat → S}
    {sv : List Nat → List (List K)} (cs : List (List Nat))
    (hs : ∀ c ∈ cs, score c = .ok (val c, sv c)) (best all : List (OptRow S K))
    (h : IsBest n (fun r => r.val) best all) :
    ∃ best', cs.foldlM (optStep argsort score) best = .ok best' ∧
      IsBest n (fun r => r.val) best' (all ++ cs.map (rowOf val sv)) := by
  induction cs generalizing best all with
  | nil => exact ⟨best, rfl, by simpa using h⟩
  | cons c cs ih =>
    obtain ⟨b1, h1, hb1⟩ := keepBest_isBest hA hn h (rowOf val sv c)
    obtain ⟨b2, h2, hb2⟩ := ih (fun c hc => hs c (by simp [hc])) b1 _ hb1
    refine ⟨b2, ?_, ?_⟩
    · rw [List.foldlM_cons]
      have : optStep argsort score best c = .ok b1 := by
        unfold optStep
        rw [hs c (by simp), ok_bind]
        exact h1
      rw [this, ok_bind, h2]
    · simpa using hb2

theorem isBest_empty (nc k n : Nat) :
    IsBest n (fun r : OptRow S K => r.val) (emptyRows nc k n) (emptyRows nc k n) := by
  refine isBest_self (by simp [emptyRows]) ?_
  unfold emptyRows
  rw [List.pairwise_replicate]
  exact Or.inr (le_refl _)

/-- The rows kept by all processes. -/
theorem ranks_isBest {argsort : List S → List Nat} (hA : SortsWith argsort) {n : Nat} (hn : 0 < n)
    {score : List Nat → Except Err (S × List (List K))} {val : List Nat → S}
    {sv : List Nat → List (List K)} (nc k : Nat) (chunks : List (List (List Nat)))
    (hs : ∀ c ∈ chunks.flatten, score c = .ok (val c, sv c)) :
    ∃ L : List (List (OptRow S K) × List (OptRow S K)),
      (chunks.mapM fun cs => cs.foldlM (optStep argsort score) (emptyRows nc k n)) =
        .ok (L.map fun p => p.1) ∧
      L.map (fun p => p.2) = chunks.map (fun cs => emptyRows nc k n ++ cs.map (rowOf val sv)) ∧
      ∀ p ∈ L, IsBest n (fun r => r.val) p.1 p.2 := by
  induction chunks with
  | nil => exact ⟨[], rfl, rfl, by simp⟩
  | cons cs chunks ih =>
    obtain ⟨b, hb, hB⟩ := optFold_isBest hA hn cs (fun c hc => hs c (by simp [hc])) _ _
      (isBest_empty (K := K) nc k n)
    obtain ⟨L, h1, h2, h3⟩ := ih fun c hc => hs c (by
      rw [List.flatten_cons]
      exact List.mem_append_right _ hc)
    refine ⟨(b, emptyRows nc k n ++ cs.map (rowOf val sv)) :: L, ?_, ?_, ?_⟩
    · rw [List.mapM_cons, hb, ok_bind, h1, ok_bind]
      rfl
    · simp [h2]
    · intro p hp
      rcases List.mem_cons.1 hp with rfl | hp
      · exact hB
      · exact h3 p hp

theorem flatten_pads {α : Type} (pad : α) (n : Nat) (f : List Nat → α) (chunks : List (List (List Nat))) :
    ((chunks.map fun cs => List.replicate n pad ++ cs.map f).flatten).Perm
      (chunks.flatten.map f ++ List.replicate (n * chunks.length) pad) := by
  induction chunks with
  | nil => simp
  | cons cs chunks ih =>
    simp only [List.map_cons, List.flatten_cons, List.map_append, List.length_cons]
    refine (ih.append_left _).trans ?_
    rw [Nat.mul_succ, Nat.add_comm, List.replicate_add]
    have e1 : List.replicate n pad ++ cs.map f ++
        (chunks.flatten.map f ++ List.replicate (n * chunks.length) pad) =
        (List.replicate n pad ++ (cs.map f ++ chunks.flatten.map f)) ++
          List.replicate (n * chunks.length) pad := by simp
    have e2 : cs.map f ++ chunks.flatten.map f ++
        (List.replicate n pad ++ List.replicate (n * chunks.length) pad) =
        ((cs.map f ++ chunks.flatten.map f) ++ List.replicate n pad) ++
          List.replicate (n * chunks.length) pad := by simp
    rw [e1, e2]
    exact (List.perm_append_comm).append_right _

/-- What `chooseOptQoIs_verbose` returns, with the rows of singular values before the gathering. -/
theorem chooseOpt_rows {argsort : List S → List Nat} (hA : SortsWith argsort) {n : Nat} (hn : 0 < n)
    {score : List Nat → Except Err (S × List (List K))} {val : List Nat → S}
    {sv : List Nat → List (List K)} {size : Nat} (hsize : 0 < size) (nc k : Nat) (qois : List Nat)
    (hs : ∀ c ∈ combos k qois, score c = .ok (val c, sv c)) :
    ∃ ranks : List (List (OptRow S K)),
      ((arraySplit size (combos k qois)).mapM fun cs =>
        cs.foldlM (optStep argsort score) (emptyRows nc k n)) = .ok ranks ∧
      IsBest n (fun r => r.val) ((orderRows argsort ranks.flatten).take n)
        ((combos k qois).map (rowOf val sv) ++ emptyRows nc k (n * size)) := by
  have hfl := flatten_arraySplit size (combos k qois) hsize
  obtain ⟨L, h1, h2, h3⟩ := ranks_isBest hA hn nc k (arraySplit size (combos k qois))
    (by rw [hfl]; exact hs)
  refine ⟨_, h1, ?_⟩
  have hlen : (arraySplit size (combos k qois)).length = size := length_arraySplit _ _
  have hne : L ≠ [] := by
    rintro rfl
    have := congrArg List.length h2
    simp [hlen] at this
    omega
  refine isBest_perm (isBest_merge h3 hne (orderRows_perm hA _) (orderRows_sorted hA _)) ?_
  rw [h2]
  have := flatten_pads (⟨⊤, List.replicate k 0, List.replicate nc (List.replicate k 0)⟩ : OptRow S K)
    n (rowOf val sv) (arraySplit size (combos k qois))
  rw [hfl, hlen] at this
  exact this

theorem isBest_map {α β : Type} {n : Nat} {key : α → S} {key' : β → S} (f : α → β)
    (hf : ∀ a, key' (f a) = key a) {rows all : List α} (h : IsBest n key rows all) :
    IsBest n key' (rows.map f) (all.map f) := by
  obtain ⟨h1, h2, rest, h3, h4⟩ := h
  refine ⟨by simpa using h1, ?_, rest.map f, ?_, ?_⟩
  · rw [List.pairwise_map]
    simpa [hf] using h2
  · rw [← List.map_append]
    exact h3.map f
  · intro a ha t ht
    obtain ⟨a', ha', rfl⟩ := List.mem_map.1 ha
    obtain ⟨t', ht', rfl⟩ := List.mem_map.1 ht
    rw [hf, hf]
    exact h4 a' ha' t' ht'

/-- **C54.** The rows returned by `chooseOptQoIs_verbose` on any number of processes are the
`num_optsets_return` best, in ascending order of their values, among all sets of `num_qois_return` of
the QoIs, each with its value, and infinite rows that fill up. -/
theorem C54_best {argsort : List S → List Nat} (hA : SortsWith argsort) {n : Nat} (hn : 0 < n)
    {score : List Nat → Except Err (S × List (List K))} {val : List Nat → S}
    {sv : List Nat → List (List K)} {size : Nat} (hsize : 0 < size) (nc k : Nat) (qois : List Nat)
    (hs : ∀ c, c.Sublist qois → c.length = k → score c = .ok (val c, sv c)) :
    ∃ rows slices, ∃ combs : List (List Nat), chooseOpt argsort score size nc k n qois = .ok (rows, slices) ∧
      (∀ c : List Nat, c ∈ combs ↔ c.Sublist qois ∧ c.length = k) ∧ (qois.Nodup → combs.Nodup) ∧
      IsBest n Prod.fst rows
        (combs.map (fun c => (val c, c)) ++ List.replicate (n * size) (⊤, List.replicate k 0)) := by
  obtain ⟨ranks, h1, h2⟩ := chooseOpt_rows hA hn hsize nc k qois
    (fun c hc => hs c ((mem_combos _ _ _).1 hc).1 ((mem_combos _ _ _).1 hc).2)
  have hrun : ∃ slices, chooseOpt argsort score size nc k n qois =
      .ok (((orderRows argsort ranks.flatten).map fun r => (r.val, r.set)).take n, slices) := by
    unfold chooseOpt
    simp only [h1, ok_bind]
    exact ⟨_, rfl⟩
  obtain ⟨slices, hrun⟩ := hrun
  refine ⟨_, slices, combos k qois, hrun, mem_combos k qois, nodup_combos k, ?_⟩
  rw [← List.map_take]
  have := isBest_map (key' := Prod.fst) (fun r : OptRow S K => (r.val, r.set)) (fun _ => rfl) h2
  simpa [emptyRows, rowOf, Function.comp_def] using this

theorem take_replicate_append {α : Type} (l : List α) (a : α) {n m : Nat} (h : n ≤ m) :
    (l ++ List.replicate m a).take n = (l ++ List.replicate n a).take n := by
  rw [List.take_append, List.take_append, List.take_replicate, List.take_replicate]
  congr 2
  omega

/-- **C54.** The values returned are the first ones of the sorted list of the values of all sets,
filled up with infinite values; they do not depend on the number of processes. -/
theorem C54_values {argsort : List S → List Nat} (hA : SortsWith argsort) {n : Nat} (hn : 0 < n)
    {score : List Nat → Except Err (S × List (List K))} {val : List Nat → S}
    {sv : List Nat → List (List K)} (nc k : Nat) (qois : List Nat)
    (hs : ∀ c, c.Sublist qois → c.length = k → score c = .ok (val c, sv c)) :
    ∃ combs : List (List Nat), (∀ c : List Nat, c ∈ combs ↔ c.Sublist qois ∧ c.length = k) ∧
      (qois.Nodup → combs.Nodup) ∧ ∀ size, 0 < size →
      ∃ rows slices, chooseOpt argsort score size nc k n qois = .ok (rows, slices) ∧
        rows.map Prod.fst =
          ((combs.map val).insertionSort (· ≤ ·) ++ List.replicate n ⊤).take n := by
  refine ⟨combos k qois, mem_combos k qois, nodup_combos k, fun size hsize => ?_⟩
  obtain ⟨ranks, h1, h2⟩ := chooseOpt_rows hA hn hsize nc k qois
    (fun c hc => hs c ((mem_combos _ _ _).1 hc).1 ((mem_combos _ _ _).1 hc).2)
  have hrun : ∃ slices, chooseOpt argsort score size nc k n qois =
      .ok (((orderRows argsort ranks.flatten).map fun r => (r.val, r.set)).take n, slices) := by
    unfold chooseOpt
    simp only [h1, ok_bind]
    exact ⟨_, rfl⟩
  obtain ⟨slices, hrun⟩ := hrun
  refine ⟨_, slices, hrun, ?_⟩
  have hv := isBest_values h2
  have e : ((combos k qois).map (rowOf val sv) ++ emptyRows nc k (n * size)).map
      (fun r : OptRow S K => r.val) = (combos k qois).map val ++ List.replicate (n * size) ⊤ := by
    simp [emptyRows, rowOf, Function.comp_def]
  have e2 : ((combos k qois).map val ++ List.replicate (n * size) ⊤).insertionSort (· ≤ ·) =
      ((combos k qois).map val).insertionSort (· ≤ ·) ++ List.replicate (n * size) ⊤ := by
    refine List.Perm.eq_of_pairwise (le := (· ≤ ·)) (fun a b _ _ hab hba => le_antisymm hab hba)
      (List.pairwise_insertionSort _ _) ?_ ?_
    · rw [List.pairwise_append]
      refine ⟨List.pairwise_insertionSort _ _, List.pairwise_replicate.2 (Or.inr (le_refl _)), ?_⟩
      intro a _ b hb
      rw [List.eq_of_mem_replicate hb]
      exact le_top
    · exact (List.perm_insertionSort _ _).trans ((List.perm_insertionSort _ _).symm.append_right _)
  rw [e, e2, take_replicate_append _ _ (Nat.le_mul_of_pos_right n hsize)] at hv
  rw [← hv, ← List.map_take, List.map_map]
  rfl

/-- **C54.** A finite value returned is that of the set next to it, a set of `num_qois_return` of the
QoIs, and no set is returned twice. -/
theorem C54_attained {argsort : List S → List Nat} (hA : SortsWith argsort) {n : Nat} (hn : 0 < n)
    {score : List Nat → Except Err (S × List (List K))} {val : List Nat → S}
    {sv : List Nat → List (List K)} {size : Nat} (hsize : 0 < size) (nc k : Nat) {qois : List Nat}
    (hq : qois.Nodup) (hs : ∀ c, c.Sublist qois → c.length = k → score c = .ok (val c, sv c)) :
    ∃ rows slices, chooseOpt argsort score size nc k n qois = .ok (rows, slices) ∧
      (∀ r ∈ rows, r.1 ≠ ⊤ → r.2.Sublist qois ∧ r.2.length = k ∧ r.1 = val r.2) ∧
      ((rows.filter fun r => decide (r.1 ≠ ⊤)).map Prod.snd).Nodup := by
  obtain ⟨rows, slices, combs, hrun, hm, hnd, h1, h2, rest, h3, h4⟩ :=
    C54_best hA hn hsize nc k qois hs
  refine ⟨rows, slices, hrun, ?_, ?_⟩
  · intro r hr hne
    have hr' := h3.mem_iff.1 (List.mem_append_left rest hr)
    rcases List.mem_append.1 hr' with h | h
    · obtain ⟨c, hc, rfl⟩ := List.mem_map.1 h
      exact ⟨((hm c).1 hc).1, ((hm c).1 hc).2, rfl⟩
    · rw [List.eq_of_mem_replicate h] at hne
      exact absurd rfl hne
  · have h5 := (h3.filter fun r => decide (r.1 ≠ ⊤)).map Prod.snd
    have h6 : ((combs.map (fun c => (val c, c)) ++
        List.replicate (n * size) ((⊤ : S), List.replicate k 0)).filter
          fun (r : S × List Nat) => decide (r.1 ≠ ⊤)).map Prod.snd = combs.filter fun c => decide (val c ≠ ⊤) := by
      rw [List.filter_append, List.filter_replicate, List.filter_map, List.map_append, List.map_map]
      simp [Function.comp_def]
    rw [h6, List.filter_append, List.map_append] at h5
    have h7 := h5.nodup_iff.2 ((hnd hq).filter _)
    exact (List.nodup_append.1 h7).1

/-! ### Singular values -/

/-- A table of `nc` rows of length `k`. -/
def Spec.HasShape (nc k : Nat) (t : List (List K)) : Prop := t.length = nc ∧ ∀ r ∈ t, r.length = k

theorem getElem?_flatMap_const {α β : Type} (f : α → List β) {t : Nat} (l : List α)
    (h : ∀ a ∈ l, (f a).length = t) {i j : Nat} (hj : j < t) :
    (l.flatMap f)[i * t + j]? = l[i]?.bind fun a => (f a)[j]? := by
  induction l generalizing i with
  | nil => simp
  | cons a l ih =>
    have ha := h a (by simp)
    rw [List.flatMap_cons]
    cases i with
    | zero =>
      rw [List.getElem?_append_left (by omega)]
      simp
    | succ i =>
      rw [List.getElem?_append_right (by rw [ha, Nat.succ_mul]; omega), ha]
      have e : (i + 1) * t + j - t = i * t + j := by rw [Nat.succ_mul]; omega
      rw [e, ih (fun a ha => h a (by simp [ha]))]
      simp

theorem tensorSlice_flatTensor {nc k : Nat} {rows : List (OptRow S K)}
    (hr : ∀ r ∈ rows, HasShape nc k r.sv) {m : Nat} (hm : m < rows.length) :
    tensorSlice nc k rows.length (flatTensor nc k rows) m = rows[m].sv := by
  have hsh := hr _ (List.getElem_mem hm)
  unfold tensorSlice
  refine List.ext_getElem (by simp [hsh.1]) fun c hc hc' => ?_
  simp only [List.length_map, List.length_range] at hc
  have hk : rows[m].sv[c].length = k := hsh.2 _ (List.getElem_mem hc')
  simp only [List.getElem_map, List.getElem_range]
  refine List.ext_getElem (by simp [hk]) fun j hj hj' => ?_
  simp only [List.length_map, List.length_range] at hj
  simp only [List.getElem_map, List.getElem_range]
  rw [List.getD_eq_getElem?_getD]
  unfold flatTensor
  have hlen : ∀ c, ((List.range k).flatMap fun j =>
      rows.map fun r => (r.sv.getD c []).getD j 0).length = k * rows.length := by
    intro c
    rw [List.length_flatMap]
    simp
  have e : (c * k + j) * rows.length + m = c * (k * rows.length) + (j * rows.length + m) := by ring
  have hlt : j * rows.length + m < k * rows.length := by
    have : (j + 1) * rows.length ≤ k * rows.length := Nat.mul_le_mul_right _ hj
    rw [Nat.succ_mul] at this
    omega
  rw [e, getElem?_flatMap_const _ _ (fun c _ => hlen c) hlt, List.getElem?_range hc,
    Option.bind_some, getElem?_flatMap_const _ _ (fun j _ => by simp) hm, List.getElem?_range hj,
    Option.bind_some, List.getElem?_map, List.getElem?_eq_getElem hm]
  simp only [Option.map_some, Option.getD_some]
  rw [List.getD_eq_getElem?_getD, List.getD_eq_getElem?_getD, List.getElem?_eq_getElem hc',
    Option.getD_some, List.getElem?_eq_getElem hj', Option.getD_some]

/-- **C54** (on one process). The singular values returned with a finite row are those of its set. What
is missing: on several processes the singular values are mixed up
(`C54_negation_singular_values`). -/
theorem C54_singvals_partial {argsort : List S → List Nat} (hA : SortsWith argsort) {n : Nat}
    (hn : 0 < n) {score : List Nat → Except Err (S × List (List K))} {val : List Nat → S}
    {sv : List Nat → List (List K)} (nc k : Nat) (qois : List Nat)
    (hs : ∀ c, c.Sublist qois → c.length = k → score c = .ok (val c, sv c))
    (hsv : ∀ c, c.Sublist qois → c.length = k → HasShape nc k (sv c)) :
    ∃ rows slices, chooseOpt argsort score 1 nc k n qois = .ok (rows, slices) ∧
      slices.length = n ∧ ∀ (i : Nat) (r : S × List Nat), rows[i]? = some r → r.1 ≠ ⊤ →
        slices[i]? = some (sv r.2) := by
  obtain ⟨b, hb, hB⟩ := optFold_isBest hA hn (combos k qois)
    (fun c hc => hs c ((mem_combos _ _ _).1 hc).1 ((mem_combos _ _ _).1 hc).2) _ _
      (isBest_empty (K := K) nc k n)
  have hsplit : arraySplit 1 (combos k qois) = [combos k qois] := by
    have h1 := flatten_arraySplit 1 (combos k qois) (by norm_num)
    have h2 := length_arraySplit 1 (combos k qois)
    obtain ⟨x, hx⟩ := List.length_eq_one_iff.1 h2
    rw [hx] at h1 ⊢
    simpa using h1
  have hbm : ∀ r ∈ b, HasShape nc k r.sv ∧ (r.val ≠ ⊤ → r.sv = sv r.set) := by
    intro r hr
    obtain ⟨-, -, rest, h3, -⟩ := hB
    rcases List.mem_append.1 (h3.mem_iff.1 (List.mem_append_left rest hr)) with h | h
    · unfold emptyRows at h
      rw [List.eq_of_mem_replicate h]
      refine ⟨⟨by simp, fun r hr => ?_⟩, fun h => absurd rfl h⟩
      rw [List.eq_of_mem_replicate hr, List.length_replicate]
    · obtain ⟨c, hc, rfl⟩ := List.mem_map.1 h
      have hc := (mem_combos _ _ _).1 hc
      exact ⟨hsv c hc.1 hc.2, fun _ => rfl⟩
  have hbl : b.length = n := hB.1
  have hord := (hA (b.map fun r => r.val)).1
  rw [List.length_map] at hord
  have hrun : chooseOpt argsort score 1 nc k n qois =
      .ok (((orderRows argsort b).map fun r => (r.val, r.set)).take n,
        ((argsort (b.map fun r => r.val)).map
          (tensorSlice nc k b.length (flatTensor nc k b))).take n) := by
    unfold chooseOpt
    simp only [hsplit, List.mapM_cons, List.mapM_nil, hb, ok_bind, pure_bind_ok, hbl, Nat.mul_one]
    simp [orderRows, bind, Except.bind, pure, Except.pure]
  refine ⟨_, _, hrun, ?_, ?_⟩
  · simp [hord.length_eq, hbl]
  · intro i r hi hne
    -- both are images of the same reordering of the rows
    have hmap : (argsort (b.map fun r => r.val)).map (tensorSlice nc k b.length (flatTensor nc k b)) =
        (orderRows argsort b).map fun r => r.sv := by
      unfold orderRows
      rw [map_reorder]
      unfold reorder
      rw [← List.filterMap_eq_map]
      refine List.filterMap_congr fun m hm => ?_
      have hm' : m < b.length := List.mem_range.1 (hord.mem_iff.1 hm)
      simp only [Function.comp_def, List.getElem?_map, List.getElem?_eq_getElem hm', Option.map_some]
      rw [tensorSlice_flatTensor (fun r hr => (hbm r hr).1) hm']
    rw [hmap]
    rw [← List.map_take, List.getElem?_map] at hi ⊢
    obtain ⟨q, hq, rfl⟩ := Option.map_eq_some_iff.1 hi
    rw [hq, Option.map_some]
    have hqm : q ∈ b := (orderRows_perm hA b).mem_iff.1
      (List.mem_of_mem_take (List.mem_of_getElem? hq))
    rw [(hbm q hqm).2 hne]

end

/-- **C54.** `chooseOptQoIs_verbose` considers the QoIs found by `find_unique_vecs`. -/
theorem C54_choose {S K : Type} [LinearOrder S] [OrderTop S] [Field K] [LinearOrder K]
    {argsort : List S → List Nat} (hA : SortsWith argsort) {enum : List Nat → List Nat}
    (he : Enumerates enum) (norm2 : List K → K) {G : List (List (List K))} {m : Nat}
    (hG : HasQois G m) {score : List Nat → Except Err (S × List (List K))} {val : List Nat → S}
    {sv : List Nat → List (List K)} (tol : K) (qois : Option (List Nat))
    (hq : ∀ i ∈ qois.getD (List.range m), i < m) (rz : Bool) (dim : Nat) (k n : Option Nat)
    (hn : 0 < n.getD 10) {size : Nat} (hsize : 0 < size)
    (hs : ∀ c : List Nat, (∀ i ∈ c, i < m) → c.length = k.getD dim → score c = .ok (val c, sv c)) :
    ∃ u rows slices, ∃ combs : List (List Nat), uniqueVecs enum norm2 (some G) tol qois rz = .ok u ∧ u.Nodup ∧
      chooseOptVerbose argsort enum norm2 score size dim (some G) qois k n tol rz = .ok (rows, slices) ∧
      combs.Nodup ∧ (∀ c : List Nat, c ∈ combs ↔ c.Sublist u ∧ c.length = k.getD dim) ∧
      IsBest (n.getD 10) Prod.fst rows (combs.map (fun c => (val c, c)) ++
        List.replicate (n.getD 10 * size) (⊤, List.replicate (k.getD dim) 0)) := by
  obtain ⟨u, hu, hnd, hmem, -⟩ := C53_unique he norm2 hG tol qois hq rz
  obtain ⟨rows, slices, combs, h1, h2, h3, h4⟩ := C54_best hA hn hsize G.length (k.getD dim) u
    (fun c hc hl => hs c (fun i hi => hq i (hmem i (hc.subset hi)).1) hl)
  refine ⟨u, rows, slices, combs, hu, hnd, ?_, h3 hnd, h2, h4⟩
  unfold chooseOptVerbose
  rw [orErr_some, ok_bind, hu, ok_bind]
  exact h1

namespace Ex

/-- Positions in ascending order of their entries, ties in order of position. -/
def argsortLe {S : Type} [LinearOrder S] (x : List S) : List Nat :=
  (x.zipIdx.insertionSort fun a b => a.1 ≤ b.1).map Prod.snd

theorem argsortLe_sorts {S : Type} [LinearOrder S] : SortsWith (S := S) argsortLe := by
  intro x
  have hp := List.perm_insertionSort (fun a b : S × Nat => a.1 ≤ b.1) x.zipIdx
  refine ⟨?_, ?_⟩
  · unfold argsortLe
    have := hp.map Prod.snd
    rwa [List.zipIdx_map_snd, ← List.range_eq_range'] at this
  · unfold argsortLe
    have hs := List.pairwise_insertionSort (fun a b : S × Nat => a.1 ≤ b.1) x.zipIdx
    have e : ((x.zipIdx.insertionSort fun a b => a.1 ≤ b.1).map Prod.snd).filterMap (fun i => x[i]?) =
        (x.zipIdx.insertionSort fun a b => a.1 ≤ b.1).map Prod.fst := by
      rw [List.filterMap_map, ← List.filterMap_eq_map]
      refine List.filterMap_congr fun p hpm => ?_
      have := List.mem_zipIdx_iff_getElem?.1 (hp.mem_iff.1 hpm)
      simpa using this
    rw [e, List.pairwise_map]
    exact hs

/-- Three QoIs, pairs; the value of a pair is the distance of its members. -/
def scoreEx (c : List Nat) : Except Err (WithTop Nat × List (List Nat)) :=
  .ok (((c.getD 1 0 - c.getD 0 0 : Nat) : WithTop Nat), [[c.getD 1 0, c.getD 0 0]])

example : ((chooseOpt argsortLe scoreEx 1 1 2 2 [0, 1, 3]).toOption.map fun r => r.1) =
    some [(1, [0, 1]), (2, [1, 3])] := by decide +kernel

example : ((chooseOpt argsortLe scoreEx 1 1 2 2 [0, 1, 3]).toOption.map fun r => r.2) =
    some [[[1, 0]], [[3, 1]]] := by decide +kernel

example : ((chooseOpt argsortLe scoreEx 2 1 2 2 [0, 1, 3]).toOption.map fun r => r.1) =
    some [(1, [0, 1]), (2, [1, 3])] := by decide +kernel

/-- **C54 fails for the singular values** on two processes: those of the best set, `[0, 1]`, are not
`[1, 0]`, which is what one process returns. -/
theorem C54_negation_singular_values :
    ((chooseOpt argsortLe scoreEx 2 1 2 2 [0, 1, 3]).toOption.map fun r => r.1) =
      some [(1, [0, 1]), (2, [1, 3])] ∧
    ((chooseOpt argsortLe scoreEx 1 1 2 2 [0, 1, 3]).toOption.map fun r => r.2) =
      some [[[1, 0]], [[3, 1]]] ∧
    ((chooseOpt argsortLe scoreEx 2 1 2 2 [0, 1, 3]).toOption.map fun r => r.2) ≠
      some [[[1, 0]], [[3, 1]]] := by
  refine ⟨?_, ?_, ?_⟩ <;> decide +kernel

end Ex

end BET
