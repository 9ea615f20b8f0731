import Verif.Model.SaveRace
import Verif.Props.Storage

/-!
# Saving under every schedule and every crash (C113)
-/

set_option autoImplicit false
set_option linter.unusedSectionVars false
set_option linter.unusedSimpArgs false

namespace BET

namespace Spec

/-- Every process has opened its file and written all of its pickle. -/
def AllWritten (st : Saving) : Prop := ∀ w ∈ st.writers, w.pos = some w.dump.length

/-- How far process `r` is. -/
def progress (st : Saving) (r : Nat) : Option Nat := st.writers[r]?.bind Writer.pos

/-- What a program that reads pickles does with what a program that writes them wrote: it gets the
object back, whatever follows it in the file, and refuses a pickle that was cut short. -/
structure PickleLaws {Obj : Type} (dumps : Obj → List Nat) (loads : List Nat → Option Obj) : Prop where
  whole : ∀ o tail, loads (dumps o ++ tail) = some o
  cut : ∀ o k, k < (dumps o).length → loads ((dumps o).take k) = none

end Spec

open Spec

/-! ### One file -/

theorem length_writeAt {file bs : List Nat} {k m : Nat} (hf : file.length ≤ m)
    (hk : k + bs.length ≤ m) : (writeAt file k bs).length ≤ m := by
  unfold writeAt
  split
  · exact hf
  · simp only [List.length_append, List.length_take, List.length_replicate, List.length_drop]
    omega

/-- Inside the block that is written stands the block. -/
theorem getElem?_writeAt_in {file bs : List Nat} {k i : Nat} (h1 : k ≤ i) (h2 : i < k + bs.length) :
    (writeAt file k bs)[i]? = bs[i - k]? := by
  have hb : bs ≠ [] := by rintro rfl; simp at h2; omega
  have hl : (file.take k ++ List.replicate (k - file.length) 0).length = k := by
    simp only [List.length_append, List.length_take, List.length_replicate]
    omega
  unfold writeAt
  rw [if_neg hb, List.getElem?_append_left (by rw [List.length_append, hl]; omega),
    List.getElem?_append_right (by omega), hl]

/-- Outside of it what was there before. -/
theorem getElem?_writeAt_out {file bs : List Nat} {k i : Nat} (h : i < k ∨ k + bs.length ≤ i)
    (hi : i < file.length) : (writeAt file k bs)[i]? = file[i]? := by
  unfold writeAt
  split
  · rfl
  · have hl : (file.take k ++ List.replicate (k - file.length) 0).length = k := by
      simp only [List.length_append, List.length_take, List.length_replicate]
      omega
    rcases h with h | h
    · rw [List.getElem?_append_left (by rw [List.length_append, hl]; omega),
        List.getElem?_append_left (by omega),
        List.getElem?_append_left (by simp only [List.length_take]; omega),
        List.getElem?_take_of_lt h]
    · rw [List.getElem?_append_right (by rw [List.length_append, hl]; omega), List.length_append, hl,
        List.getElem?_drop]
      congr 1
      omega

/-- Writing the next bytes of a pickle behind the first `k`. -/
theorem writeAt_take (D : List Nat) {k : Nat} (n : Nat) (hk : k ≤ D.length) :
    writeAt (D.take k) k ((D.drop k).take n) = D.take (min (k + n) D.length) := by
  unfold writeAt
  split
  · rename_i h
    rcases Nat.eq_zero_or_pos n with rfl | hn
    · simp [hk]
    · have : D.length ≤ k := by
        by_contra hlt
        have := congrArg List.length h
        simp only [List.length_take, List.length_drop, List.length_nil] at this
        omega
      have e : k = D.length := by omega
      rw [List.take_of_length_le this, List.take_of_length_le (by omega)]
  · have h1 : (D.take k).length = k := by simp [hk]
    have h2 : D.take (min (k + n) D.length) = D.take (k + n) := by
      rw [← List.take_take, List.take_length]
    rw [h2, List.take_take, Nat.min_self, h1, Nat.sub_self, List.replicate_zero, List.append_nil,
      List.drop_of_length_le (show (D.take k).length ≤ k + ((D.drop k).take n).length by omega),
      List.append_nil, List.take_add]

/-! ### One turn -/

theorem turn_none {st : Saving} {r n : Nat} (h : st.writers[r]? = none) : st.turn r n = st := by
  simp [Saving.turn, h]

theorem turn_open {st : Saving} {r n : Nat} {w : Writer} (h : st.writers[r]? = some w)
    (hp : w.pos = none) :
    st.turn r n = ⟨Function.update st.files w.path (some []),
      st.writers.set r { w with pos := some 0 }⟩ := by
  simp [Saving.turn, h, hp]

theorem turn_write {st : Saving} {r n k : Nat} {w : Writer} (h : st.writers[r]? = some w)
    (hp : w.pos = some k) :
    st.turn r n = ⟨Function.update st.files w.path
        ((st.files w.path).map fun c => writeAt c k ((w.dump.drop k).take n)),
      st.writers.set r { w with pos := some (min (k + n) w.dump.length) }⟩ := by
  simp [Saving.turn, h, hp]

theorem runAll_induct (P : Saving → Prop) (hstep : ∀ st r n, P st → P (st.turn r n)) {st : Saving}
    (h : P st) (sched : List (Nat × Nat)) : P (st.runAll sched) := by
  unfold Saving.runAll
  induction sched generalizing st with
  | nil => exact h
  | cons e sched ih => exact ih (hstep _ _ _ h)

theorem start_writers {files : Path → Option (List Nat)} {dumps : List (List Nat)}
    {globalize : Bool} {f : FileName} (r : Nat) :
    (Saving.start files dumps globalize f).writers[r]? =
      dumps[r]?.map fun d => { path := savePath dumps.length globalize f r, dump := d } := by
  simp only [Saving.start, List.getElem?_map, List.getElem?_zipIdx, Option.map_map]
  cases dumps[r]? <;> simp

theorem getElem?_set_some {α : Type} {l : List α} {r q : Nat} {x y : α} (h : l[r]? = some y) :
    (l.set r x)[q]? = if q = r then some x else l[q]? := by
  rw [List.getElem?_set]
  have hr : r < l.length := (List.getElem?_eq_some_iff.mp h).1
  by_cases hq : q = r
  · subst hq; simp [hr]
  · simp [hq, Ne.symm hq]

/-! ### A file for each process -/

/-- The state when every process has its own file. -/
structure OwnInv (files : Path → Option (List Nat)) (dumps : List (List Nat)) (path : Nat → Path)
    (st : Saving) : Prop where
  writer : ∀ r : Nat, ∃ pos : Option Nat,
    st.writers[r]? = dumps[r]?.map fun d => (⟨path r, d, pos⟩ : Writer)
  fresh : ∀ (r : Nat) (w : Writer), st.writers[r]? = some w → w.pos = none →
    st.files (path r) = files (path r)
  part : ∀ (r : Nat) (w : Writer) (k : Nat), st.writers[r]? = some w → w.pos = some k →
    k ≤ w.dump.length ∧ st.files (path r) = some (w.dump.take k)
  other : ∀ p, (∀ r, r < dumps.length → p ≠ path r) → st.files p = files p

theorem ownInv_writer {files : Path → Option (List Nat)} {dumps : List (List Nat)}
    {path : Nat → Path} {st : Saving} (h : OwnInv files dumps path st) {r : Nat} {w : Writer}
    (hw : st.writers[r]? = some w) : dumps[r]? = some w.dump ∧ w.path = path r := by
  obtain ⟨pos, hp⟩ := h.writer r
  rw [hw] at hp
  cases hd : dumps[r]? with
  | none => simp [hd] at hp
  | some d =>
    rw [hd] at hp
    simp only [Option.map_some, Option.some.injEq] at hp
    subst hp
    exact ⟨rfl, rfl⟩

theorem ownInv_turn {files : Path → Option (List Nat)} {dumps : List (List Nat)}
    {path : Nat → Path} (hinj : ∀ r s, path r = path s → r = s) {st : Saving} (r n : Nat)
    (h : OwnInv files dumps path st) : OwnInv files dumps path (st.turn r n) := by
  cases hw : st.writers[r]? with
  | none => rw [turn_none hw]; exact h
  | some w =>
    obtain ⟨hd, hpath⟩ := ownInv_writer h hw
    have hr : r < dumps.length := (List.getElem?_eq_some_iff.mp hd).1
    obtain ⟨pos', c', e, hc⟩ : ∃ pos' c', st.turn r n =
        ⟨Function.update st.files (path r) (some c'),
          st.writers.set r { w with pos := some pos' }⟩ ∧
        pos' ≤ w.dump.length ∧ c' = w.dump.take pos' := by
      cases hp : w.pos with
      | none => exact ⟨0, [], by rw [turn_open hw hp, hpath], by omega, rfl⟩
      | some k =>
        obtain ⟨hk, hf⟩ := h.part r w k hw hp
        refine ⟨min (k + n) w.dump.length, _, ?_, by omega, rfl⟩
        rw [turn_write hw hp, hpath, hf, Option.map_some, writeAt_take _ _ hk]
    rw [e]
    refine ⟨?_, ?_, ?_, ?_⟩
    · intro q
      rw [getElem?_set_some hw]
      by_cases hq : q = r
      · subst hq
        refine ⟨some pos', ?_⟩
        simp only [if_true, hd, Option.map_some, Option.some.injEq, ← hpath]
      · simp only [hq, if_false]
        exact h.writer q
    · intro q w' hw' hp'
      rw [getElem?_set_some hw] at hw'
      by_cases hq : q = r
      · simp only [hq, if_true, Option.some.injEq] at hw'
        subst hw'
        simp at hp'
      · simp only [hq, if_false] at hw'
        dsimp only
        rw [Function.update_of_ne (fun he => hq (hinj _ _ he))]
        exact h.fresh q w' hw' hp'
    · intro q w' k hw' hp'
      rw [getElem?_set_some hw] at hw'
      by_cases hq : q = r
      · simp only [hq, if_true, Option.some.injEq] at hw'
        subst hw'
        simp only [Option.some.injEq] at hp'
        subst hp'
        subst hq
        dsimp only
        rw [Function.update_self]
        exact ⟨hc.1, by rw [hc.2]⟩
      · simp only [hq, if_false] at hw'
        dsimp only
        rw [Function.update_of_ne (fun he => hq (hinj _ _ he))]
        exact h.part q w' k hw' hp'
    · intro p hp
      dsimp only
      rw [Function.update_of_ne (hp r hr)]
      exact h.other p hp

theorem ownInv_start (files : Path → Option (List Nat)) (dumps : List (List Nat)) (globalize : Bool)
    (f : FileName) : OwnInv files dumps (savePath dumps.length globalize f)
      (Saving.start files dumps globalize f) := by
  refine ⟨fun r => ⟨none, start_writers r⟩, fun _ _ _ _ => rfl, ?_, fun _ _ => rfl⟩
  intro r w k hw hp
  rw [start_writers] at hw
  cases hd : dumps[r]? with
  | none => simp [hd] at hw
  | some d =>
    simp only [hd, Option.map_some, Option.some.injEq] at hw
    subst hw
    simp at hp

/-- **C113.** Several processes save without globalizing, in any order and at any speed, and are
stopped at any moment.  The file of a process is what it was before until the process opens it;
then it holds the first bytes of its own pickle, all of them when the process has finished; and no
other file is touched. -/
theorem C113_own_files (files : Path → Option (List Nat)) (dumps : List (List Nat)) (f : FileName)
    (hsize : 1 < dumps.length) (sched : List (Nat × Nat)) :
    (∀ (r : Nat) (d : List Nat), dumps[r]? = some d →
      (progress ((Saving.start files dumps false f).runAll sched) r = none ∧
        ((Saving.start files dumps false f).runAll sched).files (f.proc r).file =
          files (f.proc r).file) ∨
      ∃ k, progress ((Saving.start files dumps false f).runAll sched) r = some k ∧
        k ≤ d.length ∧
        ((Saving.start files dumps false f).runAll sched).files (f.proc r).file =
          some (d.take k)) ∧
    ∀ p, (∀ r, r < dumps.length → p ≠ (f.proc r).file) →
      ((Saving.start files dumps false f).runAll sched).files p = files p := by
  have hpath : ∀ r, savePath dumps.length false f r = (f.proc r).file := fun r => by
    simp [savePath, hsize]
  have hinj : ∀ r s, savePath dumps.length false f r = savePath dumps.length false f s → r = s := by
    intro r s h
    rw [hpath, hpath] at h
    exact proc_inj h
  have h := runAll_induct (OwnInv files dumps (savePath dumps.length false f))
    (fun st r n h => ownInv_turn hinj r n h) (ownInv_start files dumps false f) sched
  refine ⟨fun r d hd => ?_, fun p hp => h.other p fun r hr => by rw [hpath]; exact hp r hr⟩
  obtain ⟨pos, hw⟩ := h.writer r
  rw [hd, Option.map_some] at hw
  cases pos with
  | none =>
    refine Or.inl ⟨by simp [progress, hw], ?_⟩
    rw [← hpath]
    exact h.fresh r _ hw rfl
  | some k =>
    obtain ⟨h1, h2⟩ := h.part r _ k hw rfl
    refine Or.inr ⟨k, by simp [progress, hw], h1, ?_⟩
    rw [← hpath]
    exact h2

/-- **C113.** So whatever the schedule and wherever it stops, a file that a process of the save has
opened either gives back the object of that process or is refused; it never gives anything else. -/
theorem C113_own_files_load {Obj : Type} {dump : Obj → List Nat} {loads : List Nat → Option Obj}
    (hl : PickleLaws dump loads) (files : Path → Option (List Nat)) (objs : List Obj) (f : FileName)
    (hsize : 1 < objs.length) (sched : List (Nat × Nat)) (r : Nat) (o : Obj)
    (ho : objs[r]? = some o) (k : Nat)
    (hk : progress ((Saving.start files (objs.map dump) false f).runAll sched) r = some k) :
    ∃ c, ((Saving.start files (objs.map dump) false f).runAll sched).files (f.proc r).file = some c ∧
      (loads c = some o ∨ loads c = none ∧ k < (dump o).length) := by
  obtain ⟨h, -⟩ := C113_own_files files (objs.map dump) f (by simpa using hsize) sched
  rcases h r (dump o) (by simp [ho]) with ⟨h1, -⟩ | ⟨k', h1, h2, h3⟩
  · rw [hk] at h1
    simp at h1
  · rw [hk] at h1
    simp only [Option.some.injEq] at h1
    subst h1
    refine ⟨_, h3, ?_⟩
    rcases Nat.lt_or_ge k (dump o).length with h | h
    · exact Or.inr ⟨hl.cut o k h, h⟩
    · left
      rw [List.take_of_length_le h]
      simpa using hl.whole o []

/-! ### One file for all -/

/-- The state when all processes write the same bytes to the same file. -/
structure SharedInv (files : Path → Option (List Nat)) (P : Path) (D : List Nat) (st : Saving) :
    Prop where
  writer : ∀ w ∈ st.writers, w.path = P ∧ w.dump = D ∧ ∀ k, w.pos = some k → k ≤ D.length
  other : ∀ p, p ≠ P → st.files p = files p
  file : (∀ w ∈ st.writers, w.pos = none) ∨
    ∃ c, st.files P = some c ∧ c.length ≤ D.length ∧ ∃ (q : Nat) (w : Writer) (k : Nat),
      st.writers[q]? = some w ∧ w.pos = some k ∧ ∀ i, i < k → c[i]? = D[i]?

theorem mem_set_writers {ws : List Writer} {r : Nat} {x w : Writer} (h : w ∈ ws.set r x) :
    w = x ∨ w ∈ ws := by
  rcases List.mem_or_eq_of_mem_set h with h | h
  · exact Or.inr h
  · exact Or.inl h

theorem sharedInv_turn {files : Path → Option (List Nat)} {P : Path} {D : List Nat} {st : Saving}
    (r n : Nat) (h : SharedInv files P D st) : SharedInv files P D (st.turn r n) := by
  cases hw : st.writers[r]? with
  | none => rw [turn_none hw]; exact h
  | some w =>
    obtain ⟨h1, h2, h3⟩ := h.writer w (List.mem_of_getElem? hw)
    cases hp : w.pos with
    | none =>
      rw [turn_open hw hp, h1]
      refine ⟨?_, ?_, Or.inr ⟨[], ?_, by simp, r, ⟨P, w.dump, some 0⟩, 0, ?_, rfl,
        fun i hi => absurd hi (by omega)⟩⟩
      · intro w' hw'
        rcases mem_set_writers hw' with rfl | hw'
        · refine ⟨rfl, h2, fun k hk => ?_⟩
          simp only [Option.some.injEq] at hk
          omega
        · exact h.writer w' hw'
      · intro p hne
        dsimp only
        rw [Function.update_of_ne hne]
        exact h.other p hne
      · dsimp only
        rw [Function.update_self]
      · rw [getElem?_set_some hw, if_pos rfl]
    | some k =>
      have hk := h3 k hp
      rw [turn_write hw hp, h1, h2]
      rcases h.file with hf | ⟨c, hc, hlen, q, w', k', hq, hp', hci⟩
      · rw [hf w (List.mem_of_getElem? hw)] at hp
        simp at hp
      · have hbs : ((D.drop k).take n).length = min n (D.length - k) := by simp
        have hmem : ∀ i, k ≤ i → i < k + ((D.drop k).take n).length →
            (writeAt c k ((D.drop k).take n))[i]? = D[i]? := by
          intro i hi1 hi2
          rw [getElem?_writeAt_in hi1 hi2, List.getElem?_take_of_lt (by omega), List.getElem?_drop]
          congr 1
          omega
        have hkeep : ∀ i, i < c.length → c[i]? = D[i]? →
            (writeAt c k ((D.drop k).take n))[i]? = D[i]? := by
          intro i hi he
          by_cases hin : k ≤ i ∧ i < k + ((D.drop k).take n).length
          · exact hmem i hin.1 hin.2
          · rw [getElem?_writeAt_out (by omega) hi, he]
        have hcl : ∀ i, i < k' → i < c.length := by
          intro i hi
          have h4 : k' ≤ D.length := (h.writer w' (List.mem_of_getElem? hq)).2.2 k' hp'
          have h5 := hci i hi
          rw [List.getElem?_eq_getElem (show i < D.length by omega)] at h5
          exact (List.getElem?_eq_some_iff.mp h5).1
        refine ⟨?_, ?_, Or.inr ⟨writeAt c k ((D.drop k).take n), ?_,
          length_writeAt hlen (by omega), ?_⟩⟩
        · intro w'' hw''
          rcases mem_set_writers hw'' with rfl | hw''
          · refine ⟨rfl, rfl, fun j hj => ?_⟩
            simp only [Option.some.injEq] at hj
            omega
          · exact h.writer w'' hw''
        · intro p hne
          dsimp only
          rw [Function.update_of_ne hne]
          exact h.other p hne
        · dsimp only
          rw [Function.update_self, hc]
          rfl
        · by_cases hqr : q = r
          · subst hqr
            rw [hw] at hq
            cases hq
            rw [hp] at hp'
            cases hp'
            refine ⟨q, ⟨P, D, some (min (k + n) D.length)⟩, min (k + n) D.length, ?_, rfl, ?_⟩
            · rw [getElem?_set_some hw, if_pos rfl]
            · intro i hi
              rcases Nat.lt_or_ge i k with h4 | h4
              · exact hkeep i (hcl i h4) (hci i h4)
              · exact hmem i h4 (by omega)
          · refine ⟨q, w', k', ?_, hp', fun i hi => hkeep i (hcl i hi) (hci i hi)⟩
            rw [getElem?_set_some hw, if_neg hqr]
            exact hq

/-- **C113.** All processes write one file and their pickles are the same (a globalized save of
objects without local parts, or one process): whatever the schedule, when all have written
everything the file holds that pickle; and no other file is touched, at any moment. -/
theorem C113_one_file_same (files : Path → Option (List Nat)) (dumps : List (List Nat))
    (globalize : Bool) (f : FileName) (hone : globalize = true ∨ dumps.length = 1) (D : List Nat)
    (hne : dumps ≠ []) (hD : ∀ d ∈ dumps, d = D) (sched : List (Nat × Nat)) :
    (AllWritten ((Saving.start files dumps globalize f).runAll sched) →
      ((Saving.start files dumps globalize f).runAll sched).files f.file = some D) ∧
    ∀ p, p ≠ f.file → ((Saving.start files dumps globalize f).runAll sched).files p = files p := by
  have hpath : ∀ r, savePath dumps.length globalize f r = f.file := by
    intro r
    rcases hone with h | h <;> simp [savePath, h]
  have hlen : ∀ st : Saving, ∀ r n, (st.turn r n).writers.length = st.writers.length := by
    intro st r n
    unfold Saving.turn
    split
    · rfl
    · split <;> simp
  have h := runAll_induct
    (fun st => SharedInv files f.file D st ∧ st.writers.length = dumps.length)
    (fun st r n h => ⟨sharedInv_turn r n h.1, (hlen st r n).trans h.2⟩)
    (st := Saving.start files dumps globalize f) ⟨⟨?_, fun _ _ => rfl, Or.inl ?_⟩, by
      simp [Saving.start]⟩ sched
  · refine ⟨fun hall => ?_, h.1.other⟩
    rcases h.1.file with hf | ⟨c, hc, hl, q, w, k, hq, hp, hci⟩
    · exfalso
      obtain ⟨w, hw⟩ : ∃ w, w ∈ ((Saving.start files dumps globalize f).runAll sched).writers := by
        apply List.exists_mem_of_ne_nil
        intro h0
        have := h.2
        rw [h0] at this
        exact hne (List.length_eq_zero_iff.mp this.symm)
      have h1 := hf w hw
      rw [hall w hw] at h1
      simp at h1
    · have hw := List.mem_of_getElem? hq
      have h1 := hall w hw
      rw [hp, (h.1.writer w hw).2.1] at h1
      simp only [Option.some.injEq] at h1
      rw [hc, Option.some.injEq]
      apply List.ext_getElem?
      intro i
      rcases Nat.lt_or_ge i k with h2 | h2
      · exact hci i h2
      · rw [List.getElem?_eq_none (by omega), List.getElem?_eq_none (by omega)]
  · intro w hw
    simp only [Saving.start, List.mem_map] at hw
    obtain ⟨e, he, rfl⟩ := hw
    refine ⟨hpath _, hD _ (List.fst_mem_of_mem_zipIdx he), fun k hk => by simp at hk⟩
  · intro w hw
    simp only [Saving.start, List.mem_map] at hw
    obtain ⟨e, he, rfl⟩ := hw
    rfl

/-- The state when process `q` writes the file and the others have finished. -/
structure LastInv (P : Path) (D : List Nat) (q : Nat) (st : Saving) : Prop where
  others : ∀ (r : Nat) (w : Writer), r ≠ q → st.writers[r]? = some w → w.pos = some w.dump.length
  path : ∀ w ∈ st.writers, w.path = P
  writer : ∃ w, st.writers[q]? = some w ∧ w.dump = D ∧ ∀ k, w.pos = some k →
    k ≤ D.length ∧ st.files P = some (D.take k)

theorem lastInv_turn {P : Path} {D : List Nat} {q : Nat} {st : Saving} (r n : Nat)
    (h : LastInv P D q st) : LastInv P D q (st.turn r n) := by
  cases hw : st.writers[r]? with
  | none => rw [turn_none hw]; exact h
  | some w =>
    have hP := h.path w (List.mem_of_getElem? hw)
    obtain ⟨v, hv, hvD, hvk⟩ := h.writer
    by_cases hr : r = q
    · subst hr
      rw [hw] at hv
      cases hv
      cases hp : w.pos with
      | none =>
        rw [turn_open hw hp]
        refine ⟨?_, ?_, ⟨{ w with pos := some 0 }, by rw [getElem?_set_some hw, if_pos rfl], hvD,
          ?_⟩⟩
        · intro s w' hs hw'
          rw [getElem?_set_some hw, if_neg hs] at hw'
          exact h.others s w' hs hw'
        · intro w' hw'
          rcases mem_set_writers hw' with rfl | hw'
          · exact hP
          · exact h.path w' hw'
        · intro k hk
          simp only [Option.some.injEq] at hk
          subst hk
          refine ⟨by omega, ?_⟩
          dsimp only
          rw [hP, Function.update_self, List.take_zero]
      | some k =>
        obtain ⟨hk, hf⟩ := hvk k hp
        rw [turn_write hw hp]
        refine ⟨?_, ?_, ⟨{ w with pos := some (min (k + n) w.dump.length) },
          by rw [getElem?_set_some hw, if_pos rfl], hvD, ?_⟩⟩
        · intro s w' hs hw'
          rw [getElem?_set_some hw, if_neg hs] at hw'
          exact h.others s w' hs hw'
        · intro w' hw'
          rcases mem_set_writers hw' with rfl | hw'
          · exact hP
          · exact h.path w' hw'
        · intro j hj
          simp only [Option.some.injEq] at hj
          subst hj
          rw [hvD]
          refine ⟨by omega, ?_⟩
          dsimp only
          rw [hP, Function.update_self, hf, Option.map_some, writeAt_take _ _ hk]
    · have hp := h.others r w hr hw
      rw [turn_write hw hp]
      have hset : st.writers.set r { w with pos := some (min (w.dump.length + n) w.dump.length) } =
          st.writers := by
        have : ({ w with pos := some (min (w.dump.length + n) w.dump.length) } : Writer) = w := by
          cases w
          simp only at hp
          subst hp
          simp
        rw [this]
        apply List.ext_getElem?
        intro i
        rw [getElem?_set_some hw]
        split
        · rename_i hi; rw [hi, hw]
        · rfl
      have hfile : Function.update st.files w.path ((st.files w.path).map fun c =>
          writeAt c w.dump.length ((w.dump.drop w.dump.length).take n)) = st.files := by
        rw [Function.update_eq_self_iff]
        cases st.files w.path <;> simp [writeAt]
      rw [hset, hfile]
      exact h

/-- **C113.** When the pickles differ and share one file, the file holds that of the process that
opens it last, provided all others have finished by then. -/
theorem C113_one_file_last (files : Path → Option (List Nat)) (dumps : List (List Nat))
    (globalize : Bool) (f : FileName) (hone : globalize = true ∨ dumps.length = 1) (q : Nat)
    (D : List Nat) (hq : dumps[q]? = some D) (before after : List (Nat × Nat))
    (hothers : ∀ (r : Nat) (w : Writer), r ≠ q →
      ((Saving.start files dumps globalize f).runAll before).writers[r]? = some w →
        w.pos = some w.dump.length)
    (hnot : progress ((Saving.start files dumps globalize f).runAll before) q = none)
    (hdone : progress ((Saving.start files dumps globalize f).runAll (before ++ after)) q =
      some D.length) :
    ((Saving.start files dumps globalize f).runAll (before ++ after)).files f.file = some D := by
  have hpath : ∀ r, savePath dumps.length globalize f r = f.file := by
    intro r
    rcases hone with h | h <;> simp [savePath, h]
  have hsplit : (Saving.start files dumps globalize f).runAll (before ++ after) =
      ((Saving.start files dumps globalize f).runAll before).runAll after := by
    simp [Saving.runAll, List.foldl_append]
  rw [hsplit] at hdone ⊢
  have hw := runAll_induct
    (fun st => ∀ r : Nat, ∃ pos : Option Nat,
      st.writers[r]? = dumps[r]?.map fun d => (⟨f.file, d, pos⟩ : Writer))
    (fun st r n h => ?_) (st := Saving.start files dumps globalize f)
    (fun r => ⟨none, by rw [start_writers, hpath]⟩) before
  · have hinit : LastInv f.file D q ((Saving.start files dumps globalize f).runAll before) := by
      refine ⟨hothers, ?_, ?_⟩
      · intro w hw'
        obtain ⟨r, hr⟩ := List.mem_iff_getElem?.mp hw'
        obtain ⟨pos, hp⟩ := hw r
        rw [hr] at hp
        cases hd : dumps[r]? with
        | none => simp [hd] at hp
        | some d =>
          simp only [hd, Option.map_some, Option.some.injEq] at hp
          rw [hp]
      · obtain ⟨pos, hp⟩ := hw q
        rw [hq, Option.map_some] at hp
        refine ⟨_, hp, rfl, fun k hk => ?_⟩
        simp only [progress, hp, Option.bind_some] at hnot
        rw [hnot] at hk
        simp at hk
    have h := runAll_induct _ (fun st r n h => lastInv_turn r n h) hinit after
    obtain ⟨w, hw', hwD, hk⟩ := h.writer
    simp only [progress, hw', Option.bind_some] at hdone
    rw [(hk _ hdone).2, List.take_length]
  · intro s
    cases hw : st.writers[r]? with
    | none => rw [turn_none hw]; exact h s
    | some w =>
      obtain ⟨pos, hp⟩ := h r
      rw [hw] at hp
      cases hd : dumps[r]? with
      | none => simp [hd] at hp
      | some d =>
        simp only [hd, Option.map_some, Option.some.injEq] at hp
        subst hp
        by_cases hs : s = r
        · subst hs
          cases pos with
          | none =>
            rw [turn_open hw rfl]
            exact ⟨some 0, by rw [getElem?_set_some hw, if_pos rfl, hd]; rfl⟩
          | some k =>
            rw [turn_write hw rfl]
            exact ⟨some (min (k + n) d.length), by rw [getElem?_set_some hw, if_pos rfl, hd]; rfl⟩
        · obtain ⟨pos', hp'⟩ := h s
          refine ⟨pos', ?_⟩
          cases pos with
          | none => rw [turn_open hw rfl, getElem?_set_some hw, if_neg hs, hp']
          | some k => rw [turn_write hw rfl, getElem?_set_some hw, if_neg hs, hp']

namespace Ex

/-- A toy pickle of a pair: a mark, the two numbers, and a stop mark. -/
def toyDump (o : Nat × Nat) : List Nat := [128, o.1, o.2, 46]

def toyLoad : List Nat → Option (Nat × Nat)
  | 128 :: a :: b :: 46 :: _ => some (a, b)
  | _ => none

example : PickleLaws toyDump toyLoad := by
  refine ⟨fun o tail => rfl, fun o k hk => ?_⟩
  have : k < 4 := hk
  match k, this with
  | 0, _ => rfl
  | 1, _ => rfl
  | 2, _ => rfl
  | 3, _ => rfl

def raceName : FileName := ⟨[], "set".toList⟩

/-- Two processes whose objects differ. -/
def raceStart (globalize : Bool) : Saving :=
  Saving.start (fun p => if p = raceName.file then some (toyDump (9, 9)) else none)
    [toyDump (7, 70), toyDump (8, 81)] globalize raceName

/-- C113: a schedule that ends with all written, in the file of each process. -/
example : ((raceStart false).runAll [(0, 0), (1, 0), (1, 3), (0, 4), (1, 5)]).files
    (raceName.proc 1).file = some (toyDump (8, 81)) := by decide +kernel

/-- C113: the hypotheses of the theorem on the last process. -/
example : progress ((raceStart true).runAll [(0, 0), (0, 9)]) 1 = none ∧
    progress ((raceStart true).runAll ([(0, 0), (0, 9)] ++ [(1, 0), (0, 3), (1, 2), (1, 2)])) 1 =
      some 4 ∧ (∀ w ∈ ((raceStart true).runAll [(0, 0), (0, 9)]).writers.take 1,
        w.pos = some w.dump.length) := by decide +kernel

/-- **C113, negation.** Two processes save to one file (a globalized save) and their objects
differ, as objects with local arrays do.  Both write everything, yet the file holds an object that
no process had. -/
theorem C113_negation_mixed :
    (AllWritten ((raceStart true).runAll [(0, 0), (1, 0), (0, 2), (1, 2), (1, 2), (0, 0), (0, 2)]))
      ∧ (((raceStart true).runAll [(0, 0), (1, 0), (0, 2), (1, 2), (1, 2), (0, 0), (0, 2)]).files
        raceName.file).bind toyLoad = some (8, 70) := by
  constructor
  · unfold AllWritten
    decide +kernel
  · decide +kernel

/-- **C113, negation.** Saving is not atomic: when a process is stopped after it has opened the file
the object saved earlier under that name is gone and there is no new one. -/
theorem C113_negation_crash :
    ((raceStart true).files raceName.file).bind toyLoad = some (9, 9) ∧
    (((raceStart true).runAll [(0, 0)]).files raceName.file).bind toyLoad = none ∧
    (((raceStart true).runAll [(0, 0), (0, 3)]).files raceName.file).bind toyLoad = none := by
  decide +kernel

end Ex

end BET
