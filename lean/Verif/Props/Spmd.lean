import Verif.Model.Spmd
import Verif.Lemmas.Basic
import Verif.Lemmas.Fresh
import Verif.Props.Transport
import Mathlib.Data.Fin.Tuple.Basic
import Mathlib.Data.List.OfFn

/-!
# Runs on several processes (C114)
-/

set_option autoImplicit false
set_option linter.unusedSectionVars false
set_option linter.unusedSimpArgs false

namespace BET

namespace Spec

variable {n : Nat} {M R : Type}

/-- All processes have returned or raised, with these results. -/
def Finished (st : Sys n M R) (rs : Fin n → Except Err R) : Prop :=
  ∀ i, (st i).1.result = some (rs i)

/-- The programs `ps` fit together: they take part in the same `d` collectives one after the other,
and end with the results `rs`. -/
inductive FitTogether : Nat → (Fin n → Proc M R) → (Fin n → Except Err R) → Prop
  | done {ps : Fin n → Proc M R} {rs : Fin n → Except Err R} (h : ∀ i, (ps i).result = some (rs i)) :
      FitTogether 0 ps rs
  | coll {ps : Fin n → Proc M R} {rs : Fin n → Except Err R} {d : Nat} (t : CollTag) (m : Fin n → M)
      (k : Fin n → List M → Proc M R) (h : ∀ i, ps i = .coll t (m i) (k i))
      (hk : FitTogether d (fun i => k i (List.ofFn m)) rs) : FitTogether (d + 1) ps rs

/-- However the processes are scheduled, the programs come to the results `rs` and to no others:
what a schedule has finished has these results, what it has not finished can still be finished, and
it is finished as soon as everybody has had a turn often enough. -/
def RunsTo (ps : Fin n → Proc M R) (rs : Fin n → Except Err R) : Prop :=
  (∀ (sched : List (Fin n)) (rs' : Fin n → Except Err R),
    Finished ((Sys.start ps).run sched) rs' → rs' = rs) ∧
  (∀ sched : List (Fin n), ∃ more, Finished ((Sys.start ps).run (sched ++ more)) rs) ∧
  ∃ d, ∀ rounds : List (List (Fin n)), d ≤ rounds.length → (∀ b ∈ rounds, ∀ i, i ∈ b) →
    Finished ((Sys.start ps).run rounds.flatten) rs

end Spec

open Spec

variable {n : Nat} {M R S : Type}

/-! ### Schedules -/

/-- The state between turns: at a collective, with somebody still missing, or finished. -/
def SysInv (d : Nat) (rs : Fin n → Except Err R) (st : Sys n M R) : Prop :=
  FitTogether d (fun i => (st i).1) rs ∧ (d ≠ 0 → ∃ i, (st i).2 = false)

theorem mapM_id_ofFn {α : Type} (f : Fin n → Option α) :
    (List.ofFn f).mapM id = if h : ∀ i, (f i).isSome then some (List.ofFn fun i => (f i).get (h i))
      else none := by
  induction n with
  | zero => simp
  | succ n ih =>
    rw [List.ofFn_succ, List.mapM_cons, ih]
    by_cases h0 : (f 0).isSome
    · obtain ⟨a, ha⟩ := Option.isSome_iff_exists.mp h0
      by_cases h : ∀ i : Fin n, (f i.succ).isSome
      · have hall : ∀ i, (f i).isSome := fun i => by
          refine Fin.cases h0 h i
        rw [dif_pos h, dif_pos hall]
        simp [ha, List.ofFn_succ]
      · have hall : ¬ ∀ i, (f i).isSome := fun h' => h fun i => h' _
        rw [dif_neg h, dif_neg hall]
        simp [ha]
    · have hall : ¬ ∀ i, (f i).isSome := fun h' => h0 (h' 0)
      rw [dif_neg hall]
      have : f 0 = none := by simpa using h0
      simp [this]

/-- Nobody goes on as long as somebody is missing. -/
theorem settle_missing {st : Sys n M R} {i : Fin n} (h : Sys.posted (st i) = none) :
    Sys.settle st = st := by
  have : ¬ ∀ i, (Sys.posted (st i)).isSome := fun h' => by
    have := h' i
    simp [h] at this
  simp only [Sys.settle, mapM_id_ofFn, dif_neg this]

/-- All go on when all have reached the same collective. -/
theorem settle_all {st : Sys n M R} {t : CollTag} {m : Fin n → M} {k : Fin n → List M → Proc M R}
    (h : ∀ i, st i = (.coll t (m i) (k i), true)) :
    Sys.settle st = fun i => (k i (List.ofFn m), false) := by
  have hp : ∀ i, Sys.posted (st i) = some (t, m i) := fun i => by rw [h i]; rfl
  have hs : ∀ i, (Sys.posted (st i)).isSome := fun i => by rw [hp i]; rfl
  have hl : (List.ofFn fun i => (Sys.posted (st i)).get (hs i)) = List.ofFn fun i => (t, m i) := by
    congr 1
    funext i
    simp only [hp i, Option.get_some]
  have hall : ((List.ofFn fun i => (t, m i)).all fun c =>
      (List.ofFn fun i => (t, m i)).all fun c' => decide (c.1 = c'.1)) = true := by
    simp only [List.all_eq_true, List.mem_ofFn, decide_eq_true_eq]
    rintro _ ⟨i, rfl⟩ _ ⟨j, rfl⟩
    rfl
  simp only [Sys.settle, mapM_id_ofFn, dif_pos hs, hl, hall, if_true]
  funext i
  rw [h i, List.map_ofFn]
  rfl

/-- One turn keeps the state in order; it completes a collective or brings one process to it. -/
theorem turn_inv {d : Nat} {rs : Fin n → Except Err R} {st : Sys n M R} (r : Fin n)
    (h : SysInv d rs st) :
    (SysInv d rs (st.turn r) ∧ (d ≠ 0 → ∀ i, ((st i).2 = true ∨ i = r) → ((st.turn r) i).2 = true)) ∨
      ∃ d', d' < d ∧ SysInv d' rs (st.turn r) := by
  obtain ⟨hf, hw⟩ := h
  have hfst : ∀ i, (Function.update st r ((st r).1, true) i).1 = (st i).1 := by
    intro i
    by_cases hi : i = r
    · subst hi; simp
    · rw [Function.update_of_ne hi]
  have hsnd : ∀ i, (Function.update st r ((st r).1, true) i).2 = ((st i).2 || decide (i = r)) := by
    intro i
    by_cases hi : i = r
    · subst hi; simp
    · rw [Function.update_of_ne hi]; simp [hi]
  cases hf with
  | done h =>
    have hp : Sys.posted (Function.update st r ((st r).1, true) r) = none := by
      have this : (st r).1.result = some (rs r) := h r
      simp only [Function.update_self]
      cases hr : (st r).1 with
      | ret => rfl
      | raise => rfl
      | coll => rw [hr] at this; simp [Proc.result] at this
    refine Or.inl ⟨⟨.done fun i => ?_, fun h => absurd rfl h⟩, fun h => absurd rfl h⟩
    rw [Sys.turn, settle_missing hp, hfst]
    exact h i
  | @coll _ _ d t m k h hk =>
    by_cases hall : ∀ i, (st i).2 = true ∨ i = r
    · right
      have hst : ∀ i, Function.update st r ((st r).1, true) i = (.coll t (m i) (k i), true) := by
        intro i
        refine Prod.ext ?_ ?_
        · rw [hfst]; exact h i
        · rw [hsnd]
          rcases hall i with h1 | h1 <;> simp [h1]
      refine ⟨d, by omega, ?_⟩
      rw [Sys.turn, settle_all hst]
      exact ⟨hk, fun _ => ⟨r, rfl⟩⟩
    · left
      push Not at hall
      obtain ⟨j, hj1, hj2⟩ := hall
      have hj : (Function.update st r ((st r).1, true) j).2 = false := by
        rw [hsnd]
        simp [hj2]
        simpa using hj1
      have hp : Sys.posted (Function.update st r ((st r).1, true) j) = none := by
        generalize Function.update st r ((st r).1, true) j = s at hj
        obtain ⟨p, b⟩ := s
        simp only at hj
        subst hj
        cases p <;> rfl
      rw [Sys.turn, settle_missing hp]
      refine ⟨⟨.coll t m k (fun i => ?_) hk, fun _ => ⟨j, hj⟩⟩, fun _ i hi => ?_⟩
      · rw [hfst]; exact h i
      · rw [hsnd]
        rcases hi with h1 | h1 <;> simp [h1]

theorem run_inv_sys {d : Nat} {rs : Fin n → Except Err R} {st : Sys n M R} (h : SysInv d rs st)
    (sched : List (Fin n)) : ∃ d', d' ≤ d ∧ SysInv d' rs (st.run sched) := by
  induction sched generalizing d st with
  | nil => exact ⟨d, le_refl _, h⟩
  | cons r sched ih =>
    rcases turn_inv r h with ⟨h1, _⟩ | ⟨d', hd, h1⟩
    · exact ih h1
    · obtain ⟨d'', hd', h2⟩ := ih h1
      exact ⟨d'', by omega, h2⟩

/-- A round in which everybody has a turn completes a collective. -/
theorem round_inv {d : Nat} {rs : Fin n → Except Err R} {st : Sys n M R} (h : SysInv d rs st)
    (hd : d ≠ 0) {sched : List (Fin n)} (hall : ∀ i, (st i).2 = true ∨ i ∈ sched) :
    ∃ d', d' < d ∧ SysInv d' rs (st.run sched) := by
  induction sched generalizing st with
  | nil =>
    obtain ⟨i, hi⟩ := h.2 hd
    rcases hall i with h1 | h1
    · rw [hi] at h1; simp at h1
    · simp at h1
  | cons r sched ih =>
    rcases turn_inv r h with ⟨h1, h2⟩ | ⟨d', hd', h1⟩
    · refine ih h1 fun i => ?_
      rcases hall i with h3 | h3
      · exact Or.inl (h2 hd i (Or.inl h3))
      · rcases List.mem_cons.mp h3 with h4 | h4
        · exact Or.inl (h2 hd i (Or.inr h4))
        · exact Or.inr h4
    · obtain ⟨d'', hd'', h2⟩ := run_inv_sys h1 sched
      exact ⟨d'', by omega, h2⟩

theorem run_append_sys (st : Sys n M R) (a b : List (Fin n)) :
    st.run (a ++ b) = (st.run a).run b := by
  simp [Sys.run, List.foldl_append]

theorem rounds_inv {d : Nat} {rs : Fin n → Except Err R} {st : Sys n M R} (h : SysInv d rs st)
    {rounds : List (List (Fin n))} (hlen : d ≤ rounds.length)
    (hall : ∀ b ∈ rounds, ∀ i, i ∈ b) : Finished (st.run rounds.flatten) rs := by
  induction rounds generalizing d st with
  | nil =>
    have : d = 0 := by simpa using hlen
    subst this
    cases h.1 with
    | done h => exact h
  | cons b rounds ih =>
    rw [List.flatten_cons, run_append_sys]
    by_cases hd : d = 0
    · subst hd
      obtain ⟨d', hd', h1⟩ := run_inv_sys h b
      exact ih h1 (by omega) fun b hb => hall b (by simp [hb])
    · obtain ⟨d', hd', h1⟩ := round_inv h hd (fun i => Or.inr (hall b (by simp) i))
      refine ih h1 ?_ fun b hb => hall b (by simp [hb])
      simp at hlen
      omega

theorem start_inv {d : Nat} (hn : 0 < n) {ps : Fin n → Proc M R} {rs : Fin n → Except Err R}
    (h : FitTogether d ps rs) : SysInv d rs (Sys.start ps) :=
  ⟨h, fun _ => ⟨⟨0, hn⟩, rfl⟩⟩

/-- The result of programs that fit together. -/
theorem fitTogether_finished {d : Nat} {rs rs' : Fin n → Except Err R} {st : Sys n M R} (hn : 0 < n)
    (h : FitTogether d (fun i => (st i).1) rs) (hf : Finished st rs') : rs' = rs := by
  cases h with
  | done h =>
    funext i
    have := h i
    rw [hf i] at this
    exact Option.some.inj this
  | coll t m k h _ =>
    have := hf ⟨0, hn⟩
    have h0 := h ⟨0, hn⟩
    simp only at h0
    rw [h0] at this
    simp [Proc.result] at this

/-- **C114.** Programs that fit together cannot be brought to different results, or to a standstill,
by the order in which the processes run: whatever the schedule, if all have finished they have these
results; from every state that a schedule reaches they can still finish; and they have finished as
soon as everybody had a turn in each of `d` rounds. -/
theorem C114_schedules {d : Nat} (hn : 0 < n) {ps : Fin n → Proc M R} {rs : Fin n → Except Err R}
    (h : FitTogether d ps rs) :
    (∀ (sched : List (Fin n)) (rs' : Fin n → Except Err R),
      Finished ((Sys.start ps).run sched) rs' → rs' = rs) ∧
    (∀ sched : List (Fin n), ∃ more, Finished ((Sys.start ps).run (sched ++ more)) rs) ∧
    ∀ rounds : List (List (Fin n)), d ≤ rounds.length → (∀ b ∈ rounds, ∀ i, i ∈ b) →
      Finished ((Sys.start ps).run rounds.flatten) rs := by
  have h0 := start_inv hn h
  refine ⟨fun sched rs' hf => ?_, fun sched => ?_, fun rounds hl hr => rounds_inv h0 hl hr⟩
  · obtain ⟨d', _, h1⟩ := run_inv_sys h0 sched
    exact fitTogether_finished hn h1.1 hf
  · obtain ⟨d', _, h1⟩ := run_inv_sys h0 sched
    refine ⟨(List.replicate d' (List.finRange n)).flatten, ?_⟩
    rw [run_append_sys]
    refine rounds_inv h1 (by simp) fun b hb i => ?_
    rw [(List.mem_replicate.mp hb).2]
    exact List.mem_finRange i

theorem runsTo_of_fit {d : Nat} (hn : 0 < n) {ps : Fin n → Proc M R} {rs : Fin n → Except Err R}
    (h : FitTogether d ps rs) : RunsTo ps rs := by
  obtain ⟨h1, h2, h3⟩ := C114_schedules hn h
  exact ⟨h1, h2, d, h3⟩

/-! ### Programs -/

theorem fit_ret (r : Fin n → R) :
    FitTogether 0 (fun i => (Proc.ret (r i) : Proc M R)) (fun i => .ok (r i)) :=
  .done fun _ => rfl

theorem result_eq_ok {p : Proc M R} {r : R} (h : p.result = some (.ok r)) : p = .ret r := by
  cases p with
  | ret r' => simp [Proc.result] at h; rw [h]
  | raise e => simp [Proc.result] at h
  | coll t m k => simp [Proc.result] at h

theorem fit_bind {d e : Nat} {ps : Fin n → Proc M R} {r : Fin n → R}
    (h : FitTogether d ps (fun i => .ok (r i))) {f : Fin n → R → Proc M S}
    {rs : Fin n → Except Err S} (hf : FitTogether e (fun i => f i (r i)) rs) :
    FitTogether (e + d) (fun i => (ps i).bind (f i)) rs := by
  generalize hr : (fun i => (.ok (r i) : Except Err R)) = ok at h
  induction h with
  | done h =>
    subst hr
    have : (fun i => (‹Fin n → Proc M R› i).bind (f i)) = fun i => f i (r i) := by
      funext i
      rw [result_eq_ok (h i)]
      rfl
    rw [this]
    exact hf
  | coll t m k h _ ih =>
    refine .coll t m (fun i ms => (k i ms).bind (f i)) (fun i => ?_) (ih hr)
    rw [h i]
    rfl

theorem fit_bind' {d e : Nat} {ps : Fin n → Proc M R} {r : Fin n → R}
    (h : FitTogether d ps (fun i => .ok (r i))) {f : Fin n → R → Proc M S}
    {rs : Fin n → Except Err S} (hf : FitTogether e (fun i => f i (r i)) rs) :
    FitTogether (e + d) (fun i => ps i >>= f i) rs := fit_bind h hf

theorem fit_except {x : Fin n → Except Err R} {r : Fin n → R} (h : ∀ i, x i = .ok (r i)) :
    FitTogether 0 (fun i => (Proc.ofExcept (x i) : Proc M R)) (fun i => .ok (r i)) :=
  .done fun i => by rw [h i]; rfl

/-- Something that every process computes from data that all have. -/
theorem fit_bind_except {d : Nat} {x : Fin n → Except Err R} {r : Fin n → R}
    (h : ∀ i, x i = .ok (r i)) {f : Fin n → R → Proc M S} {rs : Fin n → Except Err S}
    (hf : FitTogether d (fun i => f i (r i)) rs) :
    FitTogether d (fun i => Proc.ofExcept (x i) >>= f i) rs := fit_bind' (fit_except h) hf

theorem fit_foldlM {C : Type} {body : Fin n → R → Nat → Proc M R} {coll : C → Nat → Except Err C}
    {rep : C → (Fin n → R) → Prop}
    (hstep : ∀ c r i c', rep c r → coll c i = .ok c' →
      ∃ r' d, rep c' r' ∧ FitTogether d (fun j => body j (r j) i) (fun j => .ok (r' j)))
    (l : List Nat) {c c' : C} {r : Fin n → R} (h : rep c r) (hc : l.foldlM coll c = .ok c') :
    ∃ r' d, rep c' r' ∧ FitTogether d (fun j => l.foldlM (body j) (r j)) (fun j => .ok (r' j)) := by
  induction l generalizing c r with
  | nil =>
    rw [List.foldlM_nil, pure_eq_ok] at hc
    subst hc
    exact ⟨r, 0, h, fit_ret _⟩
  | cons i l ih =>
    rw [List.foldlM_cons, bind_eq_ok] at hc
    obtain ⟨c1, hc1, hc⟩ := hc
    obtain ⟨r1, d1, h1, hf1⟩ := hstep c r i c1 h hc1
    obtain ⟨r2, d2, h2, hf2⟩ := ih h1 hc
    refine ⟨r2, d2 + d1, h2, ?_⟩
    simp only [List.foldlM_cons]
    exact fit_bind' hf1 hf2

theorem fit_mapM {body : Fin n → Nat → Proc M R} {coll : Nat → Except Err R}
    (hstep : ∀ i y, coll i = .ok y → ∃ d, FitTogether d (fun j => body j i) (fun _ => .ok y))
    (l : List Nat) {ys : List R} (hc : l.mapM coll = .ok ys) :
    ∃ d, FitTogether d (fun j => l.mapM (body j)) (fun _ => .ok ys) := by
  induction l generalizing ys with
  | nil =>
    rw [List.mapM_nil, pure_eq_ok] at hc
    subst hc
    exact ⟨0, fit_ret _⟩
  | cons i l ih =>
    rw [List.mapM_cons, bind_eq_ok] at hc
    obtain ⟨y, hy, hc⟩ := hc
    rw [bind_eq_ok] at hc
    obtain ⟨ys', hys, hc⟩ := hc
    rw [pure_eq_ok] at hc
    subst hc
    obtain ⟨d1, h1⟩ := hstep i y hy
    obtain ⟨d2, h2⟩ := ih hys
    refine ⟨(0 + d2) + d1, ?_⟩
    simp only [List.mapM_cons]
    exact fit_bind' h1 (fit_bind' h2 (fit_ret _))

/-! ### Arrays in parts -/

theorem zip_ofFn {α β : Type} (a : Fin n → α) (b : Fin n → β) :
    List.zip (List.ofFn a) (List.ofFn b) = List.ofFn fun i => (a i, b i) := by
  apply List.ext_getElem <;> simp

theorem zipWith_ofFn {α β γ : Type} (f : α → β → γ) (a : Fin n → α) (b : Fin n → β) :
    List.zipWith f (List.ofFn a) (List.ofFn b) = List.ofFn fun i => f (a i) (b i) := by
  apply List.ext_getElem <;> simp

theorem mapM_ofFn_ok {α β : Type} {f : α → Except Err β} {a : Fin n → α} {l : List β}
    (h : (List.ofFn a).mapM f = .ok l) : ∃ b, l = List.ofFn b ∧ ∀ i, f (a i) = .ok (b i) := by
  induction n generalizing l with
  | zero =>
    rw [List.ofFn_zero, List.mapM_nil, pure_eq_ok] at h
    exact ⟨fun i => i.elim0, by rw [List.ofFn_zero]; exact h.symm, fun i => i.elim0⟩
  | succ n ih =>
    rw [List.ofFn_succ, List.mapM_cons, bind_eq_ok] at h
    obtain ⟨y, hy, h⟩ := h
    rw [bind_eq_ok] at h
    obtain ⟨ys, hys, h⟩ := h
    rw [pure_eq_ok] at h
    subst h
    obtain ⟨b, rfl, hb⟩ := ih hys
    refine ⟨Fin.cons y b, by simp [List.ofFn_succ], fun i => ?_⟩
    refine Fin.cases hy (fun j => ?_) i
    exact hb j

section
variable {K : Type} [Field K] [LinearOrder K]

theorem allreduceSum_num (l : List K) : allreduceSum l = l.sum := rfl

theorem allreduceSum_nat (l : List Nat) : allreduceSum l = l.sum := rfl

theorem fit_reduceNum (x : Fin n → K) :
    FitTogether 1 (fun i => reduceNum (x i)) (fun _ => .ok (List.ofFn x).sum) := by
  refine .coll .allreduce (fun i => .num (x i)) _ (fun i => rfl) ?_
  refine .done fun i => ?_
  simp [Proc.result, List.map_ofFn, Function.comp_def, Msg.toNum]

theorem fit_reduceCnt (x : Fin n → Nat) :
    FitTogether 1 (fun i => (reduceCnt (x i) : Proc (Msg K) Nat)) (fun _ => .ok (List.ofFn x).sum) := by
  refine .coll .allreduce (fun i => .cnt (x i)) _ (fun i => rfl) ?_
  refine .done fun i => ?_
  simp [Proc.result, List.map_ofFn, Function.comp_def, Msg.toCnt]

theorem fit_reduceArr (m : Nat) (x : Fin n → List K) :
    FitTogether 1 (fun i => reduceArr m (x i)) (fun _ => .ok ((List.range m).map fun k =>
      (List.ofFn fun i => (x i).getD k 0).sum)) := by
  refine .coll .allreduce (fun i => .arr (x i)) _ (fun i => rfl) ?_
  refine .done fun i => ?_
  simp [Proc.result, List.map_ofFn, Function.comp_def, Msg.toArr]

theorem fit_gatherAll (x : Fin n → List K) :
    FitTogether 1 (fun i => gatherAll (x i)) (fun _ => .ok (List.ofFn x).flatten) := by
  refine .coll .allgather (fun i => .arr (x i)) _ (fun i => rfl) ?_
  refine .done fun i => ?_
  simp [Proc.result, List.map_ofFn, Function.comp_def, Msg.toArr]

/-! ### The loops -/

theorem maskSelRanks_ofFn {v : Fin n → List K} {m : Fin n → List Bool} {l : Chunks K}
    (h : maskSelRanks (List.ofFn v) (List.ofFn m) = .ok l) :
    ∃ b, l = List.ofFn b ∧ ∀ i, maskSelE (v i) (m i) = .ok (b i) := by
  rw [maskSelRanks, zip_ofFn] at h
  exact mapM_ofFn_ok h

theorem fit_probBody {probs : Option (List K)} {ptr : Fin n → List Nat}
    {vols : Option (Fin n → List K)} (P : Chunks K) (Q : Fin n → List K) (i : Nat) (P' : Chunks K)
    (hP : P = List.ofFn Q)
    (h : probBody probs (List.ofFn ptr) (vols.map List.ofFn) P i = .ok P') :
    ∃ Q' d, P' = List.ofFn Q' ∧
      FitTogether d (fun r => procProbBody probs (ptr r) (vols.map (· r)) (Q r) i)
        (fun r => .ok (Q' r)) := by
  subst hP
  rw [probBody, bind_eq_ok] at h
  obtain ⟨ps, h1, h⟩ := h
  rw [bind_eq_ok] at h
  obtain ⟨p, h2, h⟩ := h
  unfold procProbBody
  by_cases hp : p > 0
  · rw [if_pos hp, bind_eq_ok] at h
    obtain ⟨vs, h3, h⟩ := h
    cases vols with
    | none => simp [orErr] at h3
    | some v =>
      simp only [Option.map_some, orErr, Except.ok.injEq] at h3
      subst h3
      rw [bind_eq_ok] at h
      obtain ⟨sel, h4, h⟩ := h
      rw [List.map_ofFn] at h4 h
      obtain ⟨b, rfl, hb⟩ := maskSelRanks_ofFn h4
      rw [List.map_ofFn] at h
      have hfit : ∀ Q', (Q' = fun r => if (List.ofFn fun r => (b r).sum).sum > 0 then
            maskSet (Q r) (npEqual (ptr r) i)
              ((b r).map fun v => p * v / (List.ofFn fun r => (b r).sum).sum) else Q r) →
          FitTogether 1 (fun r => do
            let ps ← Proc.ofExcept (orErr .typeError probs)
            let p ← Proc.ofExcept (getIdx ps i)
            if p > 0 then do
              let vs ← Proc.ofExcept (orErr .typeError ((some v).map (· r)))
              let sel ← Proc.ofExcept (maskSelE vs (npEqual (ptr r) i))
              let s ← reduceNum sel.sum
              if s > 0 then pure (maskSet (Q r) (npEqual (ptr r) i) (sel.map fun v => p * v / s))
              else pure (Q r)
            else pure (Q r)) (fun r => .ok (Q' r)) := by
        rintro _ rfl
        refine fit_bind_except (r := fun _ => ps) (fun _ => h1) ?_
        refine fit_bind_except (r := fun _ => p) (fun _ => h2) ?_
        simp only [if_pos hp]
        refine fit_bind_except (r := v) (fun _ => rfl) ?_
        refine fit_bind_except (r := b) hb ?_
        refine fit_bind' (d := 1) (e := 0) (fit_reduceNum fun r => (b r).sum) ?_
        by_cases hs : (List.ofFn fun r => (b r).sum).sum > 0
        · simp only [if_pos hs]
          exact fit_ret _
        · simp only [if_neg hs]
          exact fit_ret _
      refine ⟨_, 1, ?_, hfit _ rfl⟩
      replace h : (if (List.ofFn fun r => (b r).sum).sum > 0 then
          (pure (List.zipWith (fun Pm vsel => maskSet Pm.1 Pm.2
            (vsel.map fun v => p * v / (List.ofFn fun r => (b r).sum).sum))
            (List.zip (List.ofFn Q) (List.ofFn fun r => npEqual (ptr r) i)) (List.ofFn b)) :
              Except Err (Chunks K))
          else pure (List.ofFn Q)) = .ok P' := h
      by_cases hs : (List.ofFn fun r => (b r).sum).sum > 0
      · rw [if_pos hs, pure_eq_ok] at h
        simp only [if_pos hs]
        rw [← h, zip_ofFn, zipWith_ofFn]
      · rw [if_neg hs, pure_eq_ok] at h
        simp only [if_neg hs]
        exact h.symm
  · rw [if_neg hp, pure_eq_ok] at h
    refine ⟨Q, 0, h.symm, ?_⟩
    refine fit_bind_except (r := fun _ => ps) (fun _ => h1) ?_
    refine fit_bind_except (r := fun _ => p) (fun _ => h2) ?_
    simp only [if_neg hp]
    exact fit_ret _

theorem fit_prob {opNum : Nat} {probs : Option (List K)} {ptr : Fin n → List Nat}
    {vols : Option (Fin n → List K)} {P : Chunks K} (globalize : Bool)
    (h : probLoop opNum probs (List.ofFn ptr) (vols.map List.ofFn) = .ok P) :
    ∃ Q d, P = List.ofFn Q ∧
      FitTogether d (fun r => procProb opNum probs globalize (ptr r) (vols.map (· r)))
        (fun r => .ok (Q r, if globalize then some P.flatten else none)) := by
  rw [probLoop, List.map_ofFn] at h
  obtain ⟨Q, d, rfl, hf⟩ := fit_foldlM (rep := fun P Q => P = List.ofFn Q)
    (fun c r i c' hr hc => fit_probBody c r i c' hr hc) _ rfl h
  unfold procProb
  cases globalize with
  | false =>
    refine ⟨Q, 0 + d, rfl, fit_bind' hf ?_⟩
    exact fit_ret _
  | true =>
    refine ⟨Q, (0 + 1) + d, rfl, fit_bind' hf ?_⟩
    simp only [if_true]
    exact fit_bind' (fit_gatherAll Q) (fit_ret _)

theorem fit_probEmBody {probs : Option (List K)} {ptr : Fin n → List Nat}
    (P : Chunks K) (Q : Fin n → List K) (i : Nat) (P' : Chunks K) (hP : P = List.ofFn Q)
    (h : probEmBody probs (List.ofFn ptr) P i = .ok P') :
    ∃ Q' d, P' = List.ofFn Q' ∧
      FitTogether d (fun r => procProbEmBody probs (ptr r) (Q r) i) (fun r => .ok (Q' r)) := by
  subst hP
  rw [probEmBody, bind_eq_ok] at h
  obtain ⟨ps, h1, h⟩ := h
  rw [bind_eq_ok] at h
  obtain ⟨p, h2, h⟩ := h
  unfold procProbEmBody
  by_cases hp : p > 0
  · simp only [if_pos hp, List.map_ofFn, allreduceSum_nat, Function.comp_def] at h
    by_cases hs : (List.ofFn fun r => (npEqual (ptr r) i).count true).sum > 0
    · rw [if_pos hs, zip_ofFn] at h
      obtain ⟨b, rfl, hb⟩ := mapM_ofFn_ok h
      refine ⟨b, 0 + 1, rfl, ?_⟩
      refine fit_bind_except (r := fun _ => ps) (fun _ => h1) ?_
      refine fit_bind_except (r := fun _ => p) (fun _ => h2) ?_
      simp only [if_pos hp]
      refine fit_bind' (fit_reduceCnt fun r => (npEqual (ptr r) i).count true) ?_
      simp only [if_pos hs]
      exact fit_except hb
    · rw [if_neg hs, pure_eq_ok] at h
      refine ⟨Q, 0 + 1, h.symm, ?_⟩
      refine fit_bind_except (r := fun _ => ps) (fun _ => h1) ?_
      refine fit_bind_except (r := fun _ => p) (fun _ => h2) ?_
      simp only [if_pos hp]
      refine fit_bind' (fit_reduceCnt fun r => (npEqual (ptr r) i).count true) ?_
      simp only [if_neg hs]
      exact fit_ret _
  · rw [if_neg hp, pure_eq_ok] at h
    refine ⟨Q, 0, h.symm, ?_⟩
    refine fit_bind_except (r := fun _ => ps) (fun _ => h1) ?_
    refine fit_bind_except (r := fun _ => p) (fun _ => h2) ?_
    simp only [if_neg hp]
    exact fit_ret _

theorem fit_probEm {opNum : Nat} {probs : Option (List K)} {io : List Nat} {ii : Fin n → List Nat}
    {m : Fin n → Nat} {ptr : Chunks Nat} {P : Chunks K}
    (hptr : composePtr io (List.ofFn ii) = .ok ptr)
    (h : (List.range opNum).foldlM (probEmBody probs ptr)
      (List.ofFn fun r => List.replicate (m r) 0) = .ok P) :
    ∃ Q d, P = List.ofFn Q ∧
      FitTogether d (fun r => procProbEm opNum probs io (ii r) (m r)) (fun r => .ok (Q r)) := by
  obtain ⟨p, rfl, hp⟩ := mapM_ofFn_ok hptr
  obtain ⟨Q, d, rfl, hf⟩ := fit_foldlM (body := fun r => procProbEmBody probs (p r))
    (rep := fun P Q => P = List.ofFn Q)
    (fun c r i c' hr hc => fit_probEmBody c r i c' hr hc) _ rfl h
  exact ⟨Q, d, rfl, fit_bind_except hp hf⟩

theorem fit_gather {numNew : Nat} {ptr : Fin n → List Nat} {w : Fin n → List K} {pn : List K}
    (h : gatherLoop numNew (List.ofFn ptr) (List.ofFn w) = .ok pn) :
    ∃ d, FitTogether d (fun r => procGather numNew (ptr r) (w r)) (fun _ => .ok pn) := by
  rw [gatherLoop] at h
  refine fit_mapM (fun i y hy => ?_) _ h
  rw [bind_eq_ok] at hy
  obtain ⟨sel, h1, h2⟩ := hy
  rw [List.map_ofFn] at h1
  obtain ⟨b, rfl, hb⟩ := maskSelRanks_ofFn h1
  rw [pure_eq_ok, List.map_ofFn] at h2
  subst h2
  refine ⟨1, fit_bind_except (r := b) hb ?_⟩
  exact fit_reduceNum fun r => (b r).sum

theorem fit_emBody {probs : Option (List K)} {ptr : Fin n → List Nat}
    (P : Chunks K × Bool) (Q : Fin n → List K × Bool) (i : Nat) (P' : Chunks K × Bool)
    (hP : P.1 = List.ofFn (fun r => (Q r).1) ∧ ∀ r, (Q r).2 = P.2)
    (h : emBody probs (List.ofFn ptr) P i = .ok P') :
    ∃ (Q' : Fin n → List K × Bool) (d : Nat), (P'.1 = List.ofFn (fun r => (Q' r).1) ∧ ∀ r, (Q' r).2 = P'.2) ∧
      FitTogether d (fun r => procEmBody probs (ptr r) (Q r) i) (fun r => .ok (Q' r)) := by
  obtain ⟨P, w⟩ := P
  obtain ⟨hP, hw⟩ := hP
  simp only at hP hw
  subst hP
  rw [emBody, bind_eq_ok] at h
  obtain ⟨ps, h1, h⟩ := h
  rw [bind_eq_ok] at h
  obtain ⟨p, h2, h⟩ := h
  unfold procEmBody
  by_cases hp : p > 0
  · simp only [if_pos hp, List.map_ofFn, allreduceSum_nat, Function.comp_def] at h
    by_cases hs : (List.ofFn fun r => (npEqual (ptr r) i).count true).sum > 0
    · rw [if_pos hs, pure_eq_ok, zipWith_ofFn] at h
      subst h
      refine ⟨fun r => (_, (Q r).2), 0 + 1, ⟨rfl, hw⟩, ?_⟩
      refine fit_bind_except (r := fun _ => ps) (fun _ => h1) ?_
      refine fit_bind_except (r := fun _ => p) (fun _ => h2) ?_
      simp only [if_pos hp]
      refine fit_bind' (fit_reduceCnt fun r => (npEqual (ptr r) i).count true) ?_
      simp only [if_pos hs]
      exact fit_ret _
    · rw [if_neg hs, pure_eq_ok] at h
      subst h
      refine ⟨fun r => ((Q r).1, true), 0 + 1, ⟨rfl, fun _ => rfl⟩, ?_⟩
      refine fit_bind_except (r := fun _ => ps) (fun _ => h1) ?_
      refine fit_bind_except (r := fun _ => p) (fun _ => h2) ?_
      simp only [if_pos hp]
      refine fit_bind' (fit_reduceCnt fun r => (npEqual (ptr r) i).count true) ?_
      simp only [if_neg hs]
      exact fit_ret _
  · rw [if_neg hp, pure_eq_ok] at h
    subst h
    refine ⟨Q, 0, ⟨rfl, hw⟩, ?_⟩
    refine fit_bind_except (r := fun _ => ps) (fun _ => h1) ?_
    refine fit_bind_except (r := fun _ => p) (fun _ => h2) ?_
    simp only [if_neg hp]
    exact fit_ret _

theorem fit_renormalize {w : Bool} {q : Fin n → List K} {pe : Chunks K}
    (h : renormalize w (List.ofFn q) = .ok pe) :
    ∃ b d, pe = List.ofFn b ∧
      FitTogether d (fun r => procRenormalize w (q r)) (fun r => .ok (b r)) := by
  unfold procRenormalize
  cases w with
  | false =>
    simp only [renormalize, if_neg, Except.ok.injEq] at h
    exact ⟨q, 0, by simpa using h.symm, fit_ret _⟩
  | true =>
    simp only [renormalize, if_true, List.map_ofFn, allreduceSum_num, Function.comp_def] at h
    by_cases ht : (List.ofFn fun r => (q r).sum).sum = 0
    · rw [if_pos ht] at h
      simp at h
    · rw [if_neg ht, Except.ok.injEq] at h
      refine ⟨_, 0 + 1, h.symm, ?_⟩
      simp only [if_true]
      refine fit_bind' (fit_reduceNum fun r => (q r).sum) ?_
      simp only [if_neg ht]
      exact fit_ret _

theorem fit_em {numOld numNew : Nat} {probs : Option (List K)} {ptr1 ptr2 : Fin n → List Nat}
    {st : Chunks K × Bool} {pe : Chunks K} {pn : List K}
    (h1 : (List.range numOld).foldlM (emBody probs (List.ofFn ptr1))
      ((List.ofFn ptr1).map (fun c => List.replicate c.length (0 : K)), false) = .ok st)
    (h2 : renormalize st.2 st.1 = .ok pe) (h3 : gatherLoop numNew (List.ofFn ptr2) pe = .ok pn) :
    ∃ d, FitTogether d (fun r => procEm numOld probs numNew (ptr1 r) (ptr2 r))
      (fun _ => .ok pn) := by
  rw [List.map_ofFn] at h1
  obtain ⟨Q, d, ⟨hQ1, hQ2⟩, hf⟩ := fit_foldlM (body := fun r => procEmBody probs (ptr1 r))
    (rep := fun P Q => P.1 = List.ofFn (fun r => (Q r).1) ∧ ∀ r, (Q r).2 = P.2)
    (fun c r i c' hr hc => fit_emBody c r i c' hr hc) _
    (r := fun r => (List.replicate (ptr1 r).length (0 : K), false)) ⟨rfl, fun _ => rfl⟩ h1
  rw [hQ1] at h2
  obtain ⟨b, e, rfl, hg⟩ := fit_renormalize h2
  obtain ⟨g, hh⟩ := fit_gather h3
  refine ⟨(g + e) + d, ?_⟩
  unfold procEm
  refine fit_bind' hf ?_
  simp only [hQ2]
  exact fit_bind' hg hh

theorem count_getD (num k : Nat) (hk : k < num) (c : List Nat) :
    ((List.range num).map fun i => (((npEqual c i).count true : Nat) : K)).getD k 0 =
      (((npEqual c k).count true : Nat) : K) := by
  simp [List.getD, hk]

theorem fit_volumesEm {num : Nat} {ptr : Fin n → List Nat} {m : Fin n → Nat}
    (hm : (List.ofFn m).sum ≠ 0) :
    FitTogether 2 (fun r => (procVolumesEm num (ptr r) (m r) : Proc (Msg K) (List K))) (fun _ => .ok
      (((List.range num).map fun i => allreduceSum ((List.ofFn ptr).map fun c =>
        (((npEqual c i).count true : Nat) : K))).map
          (· / ((allreduceSum (List.ofFn m) : Nat) : K)))) := by
  unfold procVolumesEm
  refine fit_bind' (d := 1) (e := 1) (fit_reduceArr num _) ?_
  refine fit_bind' (d := 1) (e := 0) (fit_reduceCnt m) ?_
  simp only [if_neg hm]
  have : ((List.range num).map fun i => allreduceSum ((List.ofFn ptr).map fun c =>
        (((npEqual c i).count true : Nat) : K))) = (List.range num).map fun k =>
      (List.ofFn fun r => ((List.range num).map fun i =>
        (((npEqual (ptr r) i).count true : Nat) : K)).getD k 0).sum := by
    refine List.map_congr_left fun k hk => ?_
    rw [List.mem_range] at hk
    rw [allreduceSum_num, List.map_ofFn]
    simp only [Function.comp_def, count_getD num k hk]
  rw [this]
  exact fit_ret _

theorem fit_volumes {num k : Nat} (hk : k ≠ 0) {ptr : Fin n → List Nat} :
    FitTogether 1 (fun r => (procVolumes num k (ptr r) : Proc (Msg K) (List K))) (fun _ => .ok
      (((List.range num).map fun i => allreduceSum ((List.ofFn ptr).map fun c =>
        (((npEqual c i).count true : Nat) : K))).map (· / (k : K)))) := by
  unfold procVolumes
  refine fit_bind' (d := 1) (e := 0) (fit_reduceArr num _) ?_
  simp only [if_neg hk]
  have : ((List.range num).map fun i => allreduceSum ((List.ofFn ptr).map fun c =>
        (((npEqual c i).count true : Nat) : K))) = (List.range num).map fun k =>
      (List.ofFn fun r => ((List.range num).map fun i =>
        (((npEqual (ptr r) i).count true : Nat) : K)).getD k 0).sum := by
    refine List.map_congr_left fun k hk => ?_
    rw [List.mem_range] at hk
    rw [allreduceSum_num, List.map_ofFn]
    simp only [Function.comp_def, count_getD num k hk]
  rw [this]
  exact fit_ret _

/-! ### The functions -/

theorem globalToLocal_keeps_glob {size : Nat} {s s' : SampleSet K}
    (h : s.globalToLocal size = .ok s') : s'.glob = s.glob := by
  simp only [SampleSet.globalToLocal, bind_eq_ok, pure_eq_ok] at h
  obtain ⟨_, _, h⟩ := h
  rw [← h]

/-- **C114.** `prob` on processes that run at their own speed: process `r` has its part `ptr r` of the
pointer and its part `vols r` of the volumes.  Whatever the schedule, it ends with its part of the
probabilities that the model with all processes in step gives, and with the global ones when it
globalizes. -/
theorem C114_prob {G : Geometry K} (hn : 0 < n) {d d' : Disc K} {globalize : Bool}
    (h : prob G n d globalize = .ok d') {ops inp : SampleSet K} {probs : List K}
    (hops : d'.outputProb = some ops) (hprobs : ops.glob.probabilities = some probs)
    (hinp : d'.input = some inp) {ptr : Fin n → List Nat}
    (hptr : d'.ioPtrLocal = some (List.ofFn ptr))
    {vols : Option (Fin n → List K)} (hvols : inp.loc.volumes = vols.map List.ofFn) :
    ∃ Q : Fin n → List K, inp.loc.probabilities = some (List.ofFn Q) ∧
      RunsTo (fun r => procProb probs.length (some probs) globalize (ptr r) (vols.map (· r)))
        (fun r => .ok (Q r, if globalize then inp.glob.probabilities else none)) := by
  obtain ⟨inp', ops', ptr', P, m, h1, h2, h3, h4, h5, h6, h7⟩ := prob_inv h
  rw [hinp, Option.some.injEq] at h1
  subst h1
  rw [hops, Option.some.injEq] at h2
  subst h2
  rw [hptr, Option.some.injEq] at h3
  subst h3
  rw [← h6 probs hprobs, hprobs, hvols] at h7
  obtain ⟨Q, e, rfl, hf⟩ := fit_prob globalize h7
  refine ⟨Q, h4, ?_⟩
  have : (fun r => (.ok (Q r, if globalize then inp.glob.probabilities else none) :
      Except Err (List K × Option (List K)))) =
      fun r => .ok (Q r, if globalize then some (List.ofFn Q).flatten else none) := by
    funext r
    cases globalize with
    | false => rfl
    | true => simp [h5 rfl]
  rw [this]
  exact runsTo_of_fit hn hf

/-- **C114.** `prob_on_emulated_samples` likewise. -/
theorem C114_prob_on_emulated {G : Geometry K} (hn : 0 < n) {d d' : Disc K} {globalize : Bool}
    (h : probOnEmulated G n d globalize = .ok d') {ops em : SampleSet K} {probs : List K}
    (hops : d'.outputProb = some ops) (hprobs : ops.glob.probabilities = some probs)
    (hem : d'.emInput = some em) {io : List Nat} (hio : d'.ioPtr = some io)
    {ii : Fin n → List Nat} (hii : d'.iiPtrLocal = some (List.ofFn ii))
    {x : Fin n → List (List K)} (hx : em.loc.values = some (List.ofFn x)) :
    ∃ Q : Fin n → List K, em.loc.probabilities = some (List.ofFn Q) ∧
      RunsTo (fun r => procProbEm probs.length (some probs) io (ii r) (x r).length)
        (fun r => .ok (Q r)) := by
  simp only [probOnEmulated, bind_eq_ok, orErr_eq_ok, pure_eq_ok] at h
  obtain ⟨_, _, ops0, hops0, opNum, hnum, em0, _, _, _, d1, hd1, d2, hd2, em1, hem1, x', hx', io', hio',
    ii', hii', ptr, hptr, ops1, hops1, P, hP, h⟩ := h
  have hloc : ∀ s : SampleSet K, s.localToGlobal.loc = s.loc := fun s => rfl
  have hfin : em.loc.values = em1.loc.values ∧ em.loc.probabilities = some P := by
    subst h
    simp only [Option.some.injEq] at hem
    subst hem
    cases globalize <;> exact ⟨rfl, rfl⟩
  subst h
  simp only at hops hio hii
  rw [hops] at hops1
  rw [hio] at hio'
  rw [hii] at hii'
  simp only [Option.some.injEq] at hops1 hio' hii'
  subst hops1 hio' hii'
  rw [← hfin.1, hx, Option.some.injEq] at hx'
  subst hx'
  have hprobs0 : ops.glob.probabilities = ops0.glob.probabilities := by
    have e2 : d2.outputProb = d1.outputProb := by
      unfold Disc.ensureIiPtr at hd2
      split at hd2
      · exact (setIiPtr_frame hd2).2.1
      · cases hd2; rfl
    rw [e2] at hops
    unfold Disc.ensureIoPtr at hd1
    split at hd1
    · obtain ⟨_, _, _, o, o', ho, ho', hoo⟩ := setIoPtr_frame hd1
      rw [hops0] at ho
      rw [hops] at ho'
      cases ho; cases ho'
      exact hoo
    · cases hd1
      rw [hops0] at hops
      cases hops
      rfl
  have hlen := (SampleSet.checkNum_allLength hnum).probabilities probs (hprobs0 ▸ hprobs)
  rw [hprobs, ← hlen, List.map_ofFn] at hP
  obtain ⟨Q, e, rfl, hf⟩ := fit_probEm (m := fun r => (x r).length) hptr hP
  exact ⟨Q, hfin.2, runsTo_of_fit hn hf⟩

/-- **C114.** `prob_from_sample_set` likewise: every process ends with the probabilities of all cells
of the new set. -/
theorem C114_prob_from_sample_set {G : Geometry K} (hn : 0 < n) {old new old' new' q : SampleSet K}
    {pn : List K} (h : probFromSampleSet G n old new = .ok (pn, old', new')) {numNew : Nat}
    (hnum : new.checkNum n = .ok numNew) {x : Chunks (List K)} (hx : old'.loc.values = some x)
    {ptr : Fin n → List Nat} (hptr : new.query G n x = .ok (q, List.ofFn ptr))
    {w : Fin n → List K} (hw : old'.loc.probabilities = some (List.ofFn w)) :
    RunsTo (fun r => procGather numNew (ptr r) (w r)) (fun _ => .ok pn) := by
  simp only [probFromSampleSet, bind_eq_ok, orErr_eq_ok, pure_eq_ok] at h
  obtain ⟨_, _, m, hm, _, _, old1, h1, x', hx', ⟨q', ptr'⟩, hq, pn', hpn, h⟩ := h
  simp only [Prod.mk.injEq] at h
  obtain ⟨rfl, rfl, -⟩ := h
  rw [hx, Option.some.injEq] at hx'
  subst hx'
  rw [hptr, Except.ok.injEq, Prod.mk.injEq] at hq
  obtain ⟨rfl, rfl⟩ := hq
  rw [hnum, Except.ok.injEq] at hm
  subst hm
  simp only [hw, gatherLoopOpt] at hpn
  obtain ⟨e, hf⟩ := fit_gather hpn
  exact runsTo_of_fit hn hf

/-- **C114.** `prob_from_sample_set_with_emulated_volumes` likewise, with the sum for the
renormalization that is taken only on a warning. -/
theorem C114_prob_from_sample_set_emulated {G : Geometry K} (hn : 0 < n)
    {old new em old' new' em' q1 q2 : SampleSet K} {pn : List K}
    (h : probFromSampleSetEmulated G n old new em = .ok (pn, old', new', em')) {numOld numNew : Nat}
    (hold : old.checkNum n = .ok numOld) (hnew : new.checkNum n = .ok numNew)
    {x : Chunks (List K)} (hx : em'.loc.values = some x) {ptr1 ptr2 : Fin n → List Nat}
    (hq1 : old.query G n x = .ok (q1, List.ofFn ptr1))
    (hq2 : new.query G n x = .ok (q2, List.ofFn ptr2)) :
    RunsTo (fun r => procEm numOld old'.glob.probabilities numNew (ptr1 r) (ptr2 r))
      (fun _ => .ok pn) := by
  simp only [probFromSampleSetEmulated, bind_eq_ok, orErr_eq_ok, pure_eq_ok] at h
  obtain ⟨m1, hm1, m2, hm2, _, _, _, _, em1, h1, x', hx', ⟨q1', p1⟩, hq1', ⟨q2', p2⟩, hq2', ⟨pe, w⟩, hpe,
    pe', hpe', pn', hpn, h⟩ := h
  simp only [Prod.mk.injEq] at h
  obtain ⟨rfl, rfl, -, rfl⟩ := h
  rw [hx, Option.some.injEq] at hx'
  subst hx'
  rw [hq1, Except.ok.injEq, Prod.mk.injEq] at hq1'
  obtain ⟨rfl, rfl⟩ := hq1'
  rw [hq2, Except.ok.injEq, Prod.mk.injEq] at hq2'
  obtain ⟨rfl, rfl⟩ := hq2'
  rw [hold, Except.ok.injEq] at hm1
  subst hm1
  rw [hnew, Except.ok.injEq] at hm2
  subst hm2
  obtain ⟨e, hf⟩ := fit_em hpe hpe' hpn
  exact runsTo_of_fit hn hf

/-- **C114.** `estimate_volume_emulated` likewise: every process ends with the volumes of all
cells. -/
theorem C114_estimate_volume_emulated {G : Geometry K} (hn : 0 < n) {s em s' em' q : SampleSet K}
    (h : s.estimateVolumeEmulated G n em = .ok (s', em')) {num : Nat}
    (hnum : s.checkNum n = .ok num) {x : Fin n → List (List K)}
    (hx : em'.loc.values = some (List.ofFn x)) {ptr : Fin n → List Nat}
    (hq : s.query G n (List.ofFn x) = .ok (q, List.ofFn ptr)) :
    ∃ vols, s'.glob.volumes = some vols ∧
      RunsTo (fun r => (procVolumesEm num (ptr r) (x r).length : Proc (Msg K) (List K)))
        (fun _ => .ok vols) := by
  simp only [SampleSet.estimateVolumeEmulated, bind_eq_ok, orErr_eq_ok, pure_eq_ok] at h
  obtain ⟨m, hm, em1, h1, x', hx', ⟨q', p⟩, hq', _, hz, s1, hs1, h⟩ := h
  simp only [Prod.mk.injEq] at h
  obtain ⟨rfl, rfl⟩ := h
  rw [hx, Option.some.injEq] at hx'
  subst hx'
  rw [hq, Except.ok.injEq, Prod.mk.injEq] at hq'
  obtain ⟨rfl, rfl⟩ := hq'
  rw [hnum, Except.ok.injEq] at hm
  subst hm
  have hz' := raiseIf_eq_ok.mp hz
  rw [List.map_ofFn] at hz' hs1
  have hg : s1.glob = _ := globalToLocal_keeps_glob hs1
  refine ⟨_, by rw [hg], ?_⟩
  exact runsTo_of_fit hn (fit_volumesEm (m := fun r => (x r).length) hz')

/-- **C114.** `estimate_volume` likewise. -/
theorem C114_estimate_volume {G : Geometry K} (hn : 0 < n) {k : Nat} {s s' q : SampleSet K}
    {mc : Chunks (List K)} (h : s.estimateVolume G n k mc = .ok s') {num : Nat}
    (hnum : s.checkNum n = .ok num) {ptr : Fin n → List Nat}
    (hq : s.query G n mc = .ok (q, List.ofFn ptr)) :
    ∃ vols, s'.glob.volumes = some vols ∧
      RunsTo (fun r => (procVolumes num k (ptr r) : Proc (Msg K) (List K))) (fun _ => .ok vols) := by
  simp only [SampleSet.estimateVolume, bind_eq_ok, orErr_eq_ok, pure_eq_ok] at h
  obtain ⟨m, hm, _, _, ⟨q', p⟩, hq', _, hz, h⟩ := h
  rw [hq, Except.ok.injEq, Prod.mk.injEq] at hq'
  obtain ⟨rfl, rfl⟩ := hq'
  rw [hnum, Except.ok.injEq] at hm
  subst hm
  have hz' := raiseIf_eq_ok.mp hz
  have hg : s'.glob = _ := globalToLocal_keeps_glob h
  refine ⟨_, by rw [hg], ?_⟩
  exact runsTo_of_fit hn (fit_volumes (by simpa using hz'))

end

/-! ### A process that leaves early -/

theorem turn_left {st : Sys n M R} {i : Fin n} {r0 : Except Err R}
    (hi : (st i).1.result = some r0) (r : Fin n) : ∀ j, ((st.turn r) j).1 = (st j).1 := by
  have hfst : ∀ j, (Function.update st r ((st r).1, true) j).1 = (st j).1 := by
    intro j
    by_cases hj : j = r
    · subst hj; simp
    · rw [Function.update_of_ne hj]
  have hp : Sys.posted (Function.update st r ((st r).1, true) i) = none := by
    have := hfst i
    generalize Function.update st r ((st r).1, true) i = q at this
    obtain ⟨p, b⟩ := q
    simp only at this
    subst this
    revert hi
    cases (st i).1 <;> cases b <;> simp [Proc.result, Sys.posted]
  intro j
  rw [Sys.turn, settle_missing hp]
  exact hfst j

/-- **C114, negation.** When one process has returned or raised and another one is at a collective,
the other one waits for ever: no schedule brings it to an end. -/
theorem C114_negation_left {ps : Fin n → Proc M R} {i j : Fin n} {r0 : Except Err R}
    (hi : (ps i).result = some r0) (hj : (ps j).result = none) (sched : List (Fin n)) :
    (((Sys.start ps).run sched) j).1.result = none := by
  have key : ∀ (st : Sys n M R), (st i).1.result = some r0 → ∀ sched : List (Fin n),
      ((st.run sched) j).1 = (st j).1 := by
    intro st hi sched
    induction sched generalizing st with
    | nil => rfl
    | cons r sched ih =>
      have h1 := ih (st.turn r) (by rw [turn_left hi r]; exact hi)
      rw [turn_left hi r] at h1
      exact h1
  rw [key (Sys.start ps) hi sched]
  exact hj

/-- Process `i` comes to its end, by returning or raising, when `j` is at a collective, after both
took part in the same collectives with all the others. -/
inductive Spec.ComeApart (i j : Fin n) : (Fin n → Proc M R) → Prop
  | left {ps : Fin n → Proc M R} {r0 : Except Err R} (hi : (ps i).result = some r0)
      (hj : (ps j).result = none) : ComeApart i j ps
  | coll {ps : Fin n → Proc M R} (t : CollTag) (m : Fin n → M) (k : Fin n → List M → Proc M R)
      (h : ∀ i, ps i = .coll t (m i) (k i))
      (hk : ComeApart i j fun i => k i (List.ofFn m)) : ComeApart i j ps

theorem turn_apart {i j : Fin n} {st : Sys n M R} (h : ComeApart i j fun a => (st a).1)
    (r : Fin n) : ComeApart i j fun a => (st.turn r a).1 := by
  have hfst : ∀ a, (Function.update st r ((st r).1, true) a).1 = (st a).1 := by
    intro a
    by_cases ha : a = r
    · subst ha; simp
    · rw [Function.update_of_ne ha]
  cases h with
  | left hi hj =>
    have e := turn_left hi r
    have hi' : ((st.turn r) i).1.result = _ := (congrArg Proc.result (e i)).trans hi
    exact .left hi' ((congrArg Proc.result (e j)).trans hj)
  | coll t m k hs hk =>
    by_cases hall : ∀ a, (Function.update st r ((st r).1, true) a).2 = true
    · have he : ∀ a, Function.update st r ((st r).1, true) a = (.coll t (m a) (k a), true) := by
        intro a
        exact Prod.ext ((hfst a).trans (hs a)) (hall a)
      simp only [Sys.turn, settle_all he]
      exact hk
    · push Not at hall
      obtain ⟨a, ha⟩ := hall
      have hp : Sys.posted (Function.update st r ((st r).1, true) a) = none := by
        generalize Function.update st r ((st r).1, true) a = q at ha
        obtain ⟨p, b⟩ := q
        simp only [ne_eq, Bool.not_eq_true] at ha
        subst ha
        cases p <;> rfl
      simp only [Sys.turn, settle_missing hp, hfst]
      exact .coll t m k hs hk

/-- **C114, negation.** Processes that come apart after any number of common collectives: the one
that is left at a collective never comes to an end, whatever the schedule. -/
theorem C114_negation_apart {ps : Fin n → Proc M R} {i j : Fin n} (h : ComeApart i j ps)
    (sched : List (Fin n)) : (((Sys.start ps).run sched) j).1.result = none := by
  have key : ∀ st : Sys n M R, (ComeApart i j fun a => (st a).1) → ∀ sched : List (Fin n),
      ComeApart i j fun a => (st.run sched a).1 := by
    intro st hst sched
    induction sched generalizing st with
    | nil => exact hst
    | cons r sched ih => exact ih (st.turn r) (turn_apart hst r)
  cases key (Sys.start ps) h sched with
  | left _ hj => exact hj
  | coll t m k hs _ => simp only [hs j, Proc.result]

namespace Ex

/-- Two processes with two samples each; the samples of both lie in both output cells. -/
def spmdPtr : Fin 2 → List Nat := fun r => if r = 0 then [0, 1] else [1, 0]

def spmdVols : Fin 2 → List ℚ := fun r => if r = 0 then [1/8, 3/8] else [1/8, 3/8]

def spmdProgs : Fin 2 → Proc (Msg ℚ) (List ℚ × Option (List ℚ)) := fun r =>
  procProb 2 (some [1/2, 1/2]) true (spmdPtr r) ((some spmdVols).map (· r))

example : probLoop 2 (some [1/2, 1/2]) (List.ofFn spmdPtr) ((some spmdVols).map List.ofFn) =
    .ok [[1/8, 3/8], [1/8, 3/8]] := by decide +kernel

/-- A schedule in which one process waits long for the other. -/
example : ∀ i, (((Sys.start spmdProgs).run [0, 0, 0, 1, 1, 0, 0, 1, 1, 1]) i).1.result =
    some (.ok ([1/8, 3/8], some [1/8, 3/8, 1/8, 3/8])) := by decide +kernel

/-- The volumes of the second process have the wrong length. -/
def spmdBad : Fin 2 → Proc (Msg ℚ) (List ℚ × Option (List ℚ)) := fun r =>
  procProb 2 (some [1/2, 1/2]) true (spmdPtr r) (some (if r = 0 then [1/8, 3/8] else [1/2]))

/-- **C114, negation.** `prob` when the local volumes of one process have the wrong length: it raises
`IndexError`, and the other process waits in `allreduce` for ever, whatever the schedule. -/
theorem C114_negation_hang : (spmdBad 1).result = some (.error .indexError) ∧
    ∀ sched : List (Fin 2), (((Sys.start spmdBad).run sched) 0).1.result = none := by
  have h1 : (spmdBad 1).result = some (.error .indexError) := by decide +kernel
  have h0 : (spmdBad 0).result = none := by decide +kernel
  exact ⟨h1, C114_negation_left h1 h0⟩

/-- The hypotheses of `C114_prob` are met by `probDisc` on two processes. -/
example : ∃ d' ops inp probs, prob G 2 probDisc true = .ok d' ∧ d'.outputProb = some ops ∧
    ops.glob.probabilities = some probs ∧ d'.input = some inp ∧
    d'.ioPtrLocal = some (List.ofFn fun r : Fin 2 => if r = 0 then [0, 0] else [1, 1]) ∧
    inp.loc.volumes = (some fun r : Fin 2 => if r = 0 then [1/8, 3/8] else [1/4, 1/4]).map
      List.ofFn := by
  have e1 : (prob G 2 probDisc true).toOption.bind (·.ioPtrLocal) =
      some (List.ofFn fun r : Fin 2 => if r = 0 then [0, 0] else [1, 1]) := by
    decide +kernel
  have e2 : (prob G 2 probDisc true).toOption.bind (fun d => d.input.bind fun s =>
      s.loc.volumes) = (some fun r : Fin 2 => if r = 0 then [1/8, 3/8] else [1/4, 1/4]).map
        List.ofFn := by decide +kernel
  have e3 : (prob G 2 probDisc true).toOption.bind (fun d => d.outputProb.bind fun s =>
      s.glob.probabilities) = some [1/2, 1/4, 1/4] := by decide +kernel
  cases h : prob G 2 probDisc true with
  | error e => rw [h] at e1; cases e1
  | ok d' =>
    rw [h] at e1 e2 e3
    simp only [Except.toOption, Option.bind_some, Option.bind_eq_some_iff, Option.map_some] at e1 e2 e3
    obtain ⟨inp, hin, hv⟩ := e2
    obtain ⟨ops, hops, hpr⟩ := e3
    exact ⟨d', ops, inp, _, rfl, hops, hpr, hin, e1, hv⟩

/-- The hypotheses of `C114_prob_on_emulated` are met. -/
example : ∃ d' ops em probs io, probOnEmulated G 2 probEmDisc true = .ok d' ∧
    d'.outputProb = some ops ∧ ops.glob.probabilities = some probs ∧ d'.emInput = some em ∧
    d'.ioPtr = some io ∧
    d'.iiPtrLocal = some (List.ofFn fun r : Fin 2 => if r = 0 then [0, 0, 1] else [2, 3]) ∧
    em.loc.values = some (List.ofFn fun r : Fin 2 =>
      if r = 0 then [[0], [1/5], [9/10]] else [[2], [31/10]]) := by
  have e1 : (probOnEmulated G 2 probEmDisc true).toOption.bind (·.ioPtr) = some [0, 0, 1, 1] := by
    decide +kernel
  have e2 : (probOnEmulated G 2 probEmDisc true).toOption.bind (·.iiPtrLocal) =
      some (List.ofFn fun r : Fin 2 => if r = 0 then [0, 0, 1] else [2, 3]) := by decide +kernel
  have e3 : (probOnEmulated G 2 probEmDisc true).toOption.bind (fun d => d.emInput.bind fun s =>
      s.loc.values) = some (List.ofFn fun r : Fin 2 =>
      if r = 0 then [[0], [1/5], [9/10]] else [[2], [31/10]]) := by
    decide +kernel
  have e4 : (probOnEmulated G 2 probEmDisc true).toOption.bind (fun d => d.outputProb.bind fun s =>
      s.glob.probabilities) = some [1/2, 1/4, 1/4] := by decide +kernel
  cases h : probOnEmulated G 2 probEmDisc true with
  | error e => rw [h] at e1; cases e1
  | ok d' =>
    rw [h] at e1 e2 e3 e4
    simp only [Except.toOption, Option.bind_some, Option.bind_eq_some_iff] at e1 e2 e3 e4
    obtain ⟨em, hem, hv⟩ := e3
    obtain ⟨ops, hops, hpr⟩ := e4
    exact ⟨d', ops, em, _, _, rfl, hops, hpr, hem, e1, e2, hv⟩

/-- The pointers of the other functions come in one part for every process, as the theorems ask. -/
example : (do let q ← newSet.query G 2 [[[0], [1/5], [9/10]], [[2], [31/10]]]; pure q.2) =
    .ok (List.ofFn fun r : Fin 2 => if r = 0 then [0, 0, 0] else [1, 1]) := by decide +kernel

end Ex

end BET
