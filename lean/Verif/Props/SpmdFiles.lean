import Verif.Model.SpmdFiles
import Verif.Props.SaveRace
import Verif.Props.Spmd
import Mathlib.Algebra.Order.BigOperators.Group.Finset

/-!
# Scripts of saves and loads on processes that run at their own speed (C129)
-/

set_option autoImplicit false
set_option linter.unusedSectionVars false
set_option linter.unusedSimpArgs false

namespace BET

namespace Spec

variable {n : Nat} {Obj R : Type}

/-- All processes have come to an end, with the results `rs`, and the files hold `F`. -/
def EndsWith (st : FSys n Obj R) (rs : Fin n → Except Err R) (F : Path → Option (List Nat)) : Prop :=
  (∀ i, (st.procs i).1.result = some (rs i)) ∧ ∀ p, st.files.get p = F p

/-- However the processes are scheduled, and whatever pieces they write, the programs come to the results
`rs` and the files `F` and to no others: a process that has ended has its result, when all have ended the
files are as given, what has not ended can still be brought to an end, and it has ended as soon as everybody
had a turn often enough. -/
def FilesRunTo (files : FileSys (List Nat)) (ps : Fin n → FProc Obj R) (rs : Fin n → Except Err R)
    (F : Path → Option (List Nat)) : Prop :=
  (∀ (sched : List (Fin n × Nat)) i x, (((FSys.start files ps).run sched).procs i).1.result = some x →
    x = rs i) ∧
  (∀ (sched : List (Fin n × Nat)) (rs' : Fin n → Except Err R),
    (∀ i, (((FSys.start files ps).run sched).procs i).1.result = some (rs' i)) →
    ∀ p, ((FSys.start files ps).run sched).files.get p = F p) ∧
  (∀ sched : List (Fin n × Nat), ∃ more, EndsWith ((FSys.start files ps).run (sched ++ more)) rs F) ∧
  ∃ d, ∀ rounds : List (List (Fin n × Nat)), d ≤ rounds.length →
    (∀ b ∈ rounds, ∀ i, i ∈ b.map Prod.fst) →
    EndsWith ((FSys.start files ps).run rounds.flatten) rs F

/-- `pickle.load` gives back what a `pickle.dump` that did not raise has written. -/
def ReadsBack (P : Pickling Obj) : Prop := ∀ o, (P.dump o).2 = none → P.loads (P.dump o).1 = some o

/-- The files hold the pickles of these objects. -/
def PicklesOf (P : Pickling Obj) (files : Path → Option (List Nat)) (fs : FileSys Obj) : Prop :=
  ∀ p, files p = (fs.get p).map fun o => (P.dump o).1

/-- A call run by `n` processes in step, on the objects of each process and files of objects
(`Model/Storage.lean`). A file written by all processes must be written with the same object. -/
inductive CallRuns (P : Pickling Obj) (depth : Nat) : FileCall Obj → (Fin n → List Obj) →
    FileSys Obj → (Fin n → List Obj) → FileSys Obj → Prop
  | save {objs : Fin n → List Obj} {fs fs' : FileSys Obj} {i : Nat} {f : FileName} {globalize : Bool}
      (o o' : Fin n → Obj) (hget : ∀ r, (objs r)[i]? = some (o r))
      (h : saveObject P.toGlobal 0 (List.ofFn o) f globalize fs = .ok (List.ofFn o', fs'))
      (hdump : ∀ r, (P.dump (o' r)).2 = none)
      (hsame : globalize = true ∨ n = 1 → ∀ r r', o' r = o' r') :
      CallRuns P depth (.save i f globalize) objs fs (fun r => (objs r).set i (o' r)) fs'
  | load {objs : Fin n → List Obj} {fs : FileSys Obj} {f : FileName} {localize : Bool} (o : Fin n → Obj)
      (h : ∀ r : Fin n, loadObject (P.toLocal r) n r fs depth f localize = .ok (o r)) :
      CallRuns P depth (.load f localize) objs fs (fun r => objs r ++ [o r]) fs
  | work {objs objs' : Fin n → List Obj} {fs : FileSys Obj} {g : Nat → List Obj → Except Err (List Obj)}
      (h : ∀ r : Fin n, g r (objs r) = .ok (objs' r)) : CallRuns P depth (.work g) objs fs objs' fs

/-- A script run in step. -/
inductive ScriptRuns (P : Pickling Obj) (depth : Nat) : List (FileCall Obj) → (Fin n → List Obj) →
    FileSys Obj → (Fin n → List Obj) → FileSys Obj → Prop
  | nil {objs : Fin n → List Obj} {fs : FileSys Obj} : ScriptRuns P depth [] objs fs objs fs
  | cons {c : FileCall Obj} {cs : List (FileCall Obj)} {objs objs' objs'' : Fin n → List Obj}
      {fs fs' fs'' : FileSys Obj} (h : CallRuns P depth c objs fs objs' fs')
      (hs : ScriptRuns P depth cs objs' fs' objs'' fs'') :
      ScriptRuns P depth (c :: cs) objs fs objs'' fs''

end Spec

open Spec

variable {n : Nat} {Obj R S : Type}

/-! ### Collectives -/

theorem fsettle_missing {ps : Fin n → FProc Obj R × Bool} {i : Fin n} (h : FSys.posted (ps i) = none) :
    FSys.settle ps = ps := by
  have : ¬ ∀ i, (FSys.posted (ps i)).isSome := fun h' => by
    have := h' i
    simp [h] at this
  simp only [FSys.settle, mapM_id_ofFn, dif_neg this]

theorem fsettle_all {ps : Fin n → FProc Obj R × Bool} {t : CollTag} {m : Fin n → Option Obj}
    {k : Fin n → List (Option Obj) → FProc Obj R} (h : ∀ i, ps i = (.coll t (m i) (k i), true)) :
    FSys.settle ps = fun i => (k i (List.ofFn m), false) := by
  have hp : ∀ i, FSys.posted (ps i) = some (t, m i) := fun i => by rw [h i]; rfl
  have hs : ∀ i, (FSys.posted (ps i)).isSome := fun i => by rw [hp i]; rfl
  have hl : (List.ofFn fun i => (FSys.posted (ps i)).get (hs i)) = List.ofFn fun i => (t, m i) := by
    congr 1
    funext i
    simp only [hp i, Option.get_some]
  have hall : ((List.ofFn fun i => (t, m i)).all fun c =>
      (List.ofFn fun i => (t, m i)).all fun c' => decide (c.1 = c'.1)) = true := by
    simp only [List.all_eq_true, List.mem_ofFn, decide_eq_true_eq]
    rintro _ ⟨i, rfl⟩ _ ⟨j, rfl⟩
    rfl
  simp only [FSys.settle, mapM_id_ofFn, dif_pos hs, hl, hall, if_true]
  funext i
  rw [h i, List.map_ofFn]
  rfl

theorem posted_false {s : FProc Obj R × Bool} (h : s.2 = false) : FSys.posted s = none := by
  obtain ⟨p, b⟩ := s
  simp only at h
  subst h
  cases p <;> rfl

/-! ### Plans -/

/-- From `p` to `q` by `l` looks at files that do not change. -/
inductive Quiet (F : Path → Option (List Nat)) : Nat → FProc Obj R → FProc Obj R → Prop
  | refl (p : FProc Obj R) : Quiet F 0 p p
  | look {l : Nat} {k : FileSys (List Nat) → FProc Obj R} {p q : FProc Obj R}
      (h : ∀ fs : FileSys (List Nat), ProperFiles fs → fs.get = F → k fs = p) (hq : Quiet F l p q) :
      Quiet F (l + 1) (.look k) q

/-- The processes before they open their files. -/
def writers0 (path : Fin n → Path) (D : Fin n → List Nat) : List Writer :=
  List.ofFn fun i => ⟨path i, D i, none⟩

/-- How programs fit together: they look at files that nobody writes, up to their end or up to a collective
in which all take part. Behind it (flag `true`) they may all write files, and then take part in a
collective, provided that what they write does not depend on the order. -/
inductive Plan : Bool → Nat → (Path → Option (List Nat)) → (Fin n → FProc Obj R) →
    (Fin n → Except Err R) → (Path → Option (List Nat)) → Prop
  | done {w : Bool} {F : Path → Option (List Nat)} {ps : Fin n → FProc Obj R} {rs : Fin n → Except Err R}
      (l : Fin n → Nat) (q : Fin n → FProc Obj R) (h : ∀ i, Quiet F (l i) (ps i) (q i))
      (hr : ∀ i, (q i).result = some (rs i)) : Plan w (∑ i, l i) F ps rs F
  | sync {w : Bool} {F F' : Path → Option (List Nat)} {ps : Fin n → FProc Obj R}
      {rs : Fin n → Except Err R} {d : Nat} (l : Fin n → Nat) (t : CollTag) (m : Fin n → Option Obj)
      (k : Fin n → List (Option Obj) → FProc Obj R) (h : ∀ i, Quiet F (l i) (ps i) (.coll t (m i) (k i)))
      (hk : Plan true d F (fun i => k i (List.ofFn m)) rs F') : Plan w (∑ i, (l i + 1) + d) F ps rs F'
  | write {F F1 F' : Path → Option (List Nat)} {ps : Fin n → FProc Obj R} {rs : Fin n → Except Err R}
      {d : Nat} (path : Fin n → Path) (D : Fin n → List Nat) (t : CollTag) (m : Fin n → Option Obj)
      (k : Fin n → List (Option Obj) → FProc Obj R)
      (h : ∀ i, ps i = .create (path i) (D i) (.coll t (m i) (k i)))
      (hw : ∀ sched, AllWritten ((Saving.mk F (writers0 path D)).runAll sched) →
        ((Saving.mk F (writers0 path D)).runAll sched).files = F1)
      (hk : Plan false d F1 (fun i => k i (List.ofFn m)) rs F') :
      Plan true (∑ i, ((D i).length + 2) + d) F ps rs F'

/-- A process that writes `D` and has come to `pos`. -/
def atPos (p : Path) (D : List Nat) (q : FProc Obj R) : Option Nat → FProc Obj R
  | none => .create p D q
  | some k => .writeOn p k (D.drop k) q

/-- What it still has to do. -/
def leftOf (D : List Nat) (waits : Bool) : Option Nat → Nat
  | none => D.length + 2
  | some k => D.length - k + if waits then 0 else 1

/-- The states of a run. -/
inductive FInv : Nat → FSys n Obj R → (Fin n → Except Err R) → (Path → Option (List Nat)) → Prop
  | done {F : Path → Option (List Nat)} {st : FSys n Obj R} {rs : Fin n → Except Err R}
      (l : Fin n → Nat) (q : Fin n → FProc Obj R) (hf : ProperFiles st.files) (hF : st.files.get = F)
      (h : ∀ i, Quiet F (l i) (st.procs i).1 (q i)) (hr : ∀ i, (q i).result = some (rs i)) :
      FInv (∑ i, l i) st rs F
  | sync {F F' : Path → Option (List Nat)} {st : FSys n Obj R} {rs : Fin n → Except Err R} {d : Nat}
      (l : Fin n → Nat) (t : CollTag) (m : Fin n → Option Obj)
      (k : Fin n → List (Option Obj) → FProc Obj R) (hf : ProperFiles st.files) (hF : st.files.get = F)
      (h : ∀ i, Quiet F (l i) (st.procs i).1 (.coll t (m i) (k i)))
      (hwait : ∀ i, (st.procs i).2 = true → l i = 0) (hmiss : ∃ i, (st.procs i).2 = false)
      (hk : Plan true d F (fun i => k i (List.ofFn m)) rs F') :
      FInv (∑ i, (l i + if (st.procs i).2 then 0 else 1) + d) st rs F'
  | write {F F1 F' : Path → Option (List Nat)} {st : FSys n Obj R} {rs : Fin n → Except Err R} {d : Nat}
      (path : Fin n → Path) (D : Fin n → List Nat) (t : CollTag) (m : Fin n → Option Obj)
      (k : Fin n → List (Option Obj) → FProc Obj R) (pos : Fin n → Option Nat)
      (sched : List (Nat × Nat)) (hf : ProperFiles st.files)
      (hs : (Saving.mk F (writers0 path D)).runAll sched =
        ⟨st.files.get, List.ofFn fun i => ⟨path i, D i, pos i⟩⟩)
      (h : ∀ i, (st.procs i).1 = atPos (path i) (D i) (.coll t (m i) (k i)) (pos i))
      (hle : ∀ i j, pos i = some j → j ≤ (D i).length ∧ (st.files.get (path i)).isSome)
      (hwait : ∀ i, (st.procs i).2 = true → pos i = some (D i).length)
      (hmiss : ∃ i, (st.procs i).2 = false)
      (hw : ∀ sched, AllWritten ((Saving.mk F (writers0 path D)).runAll sched) →
        ((Saving.mk F (writers0 path D)).runAll sched).files = F1)
      (hk : Plan false d F1 (fun i => k i (List.ofFn m)) rs F') :
      FInv (∑ i, leftOf (D i) (st.procs i).2 (pos i) + d) st rs F'

theorem enter {w : Bool} {d : Nat} {F F' : Path → Option (List Nat)} {ps : Fin n → FProc Obj R}
    {rs : Fin n → Except Err R} (hn : 0 < n) (h : Plan w d F ps rs F') {files : FileSys (List Nat)}
    (hf : ProperFiles files) (hF : files.get = F) : FInv d ⟨files, fun i => (ps i, false)⟩ rs F' := by
  cases h with
  | done l q h hr => exact .done l q hf hF h hr
  | sync l t m k h hk =>
    exact FInv.sync (st := ⟨files, fun i => (ps i, false)⟩) l t m k hf hF h nofun ⟨⟨0, hn⟩, rfl⟩ hk
  | write path D t m k h hw hk =>
    exact FInv.write (st := ⟨files, fun i => (ps i, false)⟩) path D t m k (fun _ => none) [] hf
      (by rw [hF]; rfl) h nofun nofun ⟨⟨0, hn⟩, rfl⟩ hw hk

/-- A process that a turn does not change. -/
def Idle (s : FProc Obj R × Bool) : Prop :=
  (s.2 = true ∧ ∃ t m k, s.1 = .coll t m k) ∨ s.1.result.isSome

theorem sum_update_lt {f g : Fin n → Nat} (r : Fin n) (h : ∀ j, j ≠ r → f j = g j) (hr : f r < g r) :
    ∑ i, f i < ∑ i, g i :=
  Finset.sum_lt_sum (fun i _ => by
    by_cases hi : i = r
    · subst hi; exact hr.le
    · exact (h i hi).le) ⟨r, Finset.mem_univ r, hr⟩

theorem getElem?_writers {path : Fin n → Path} {D : Fin n → List Nat} {pos : Fin n → Option Nat}
    (r : Fin n) : (List.ofFn fun i => (⟨path i, D i, pos i⟩ : Writer))[(r : Nat)]? =
      some ⟨path r, D r, pos r⟩ := by
  simp

theorem set_writers {path : Fin n → Path} {D : Fin n → List Nat} {pos : Fin n → Option Nat}
    (r : Fin n) (x : Option Nat) :
    (List.ofFn fun i => (⟨path i, D i, pos i⟩ : Writer)).set r ⟨path r, D r, x⟩ =
      List.ofFn fun i => ⟨path i, D i, Function.update pos r x i⟩ := by
  apply List.ext_getElem?
  intro j
  rw [getElem?_set_some (getElem?_writers r)]
  by_cases hj : j = r
  · subst hj
    simp
  · rw [if_neg hj]
    by_cases hjn : j < n
    · simp only [List.getElem?_ofFn, hjn, dif_pos]
      rw [Function.update_of_ne]
      intro h
      exact hj (by rw [← h])
    · simp [hjn]

theorem get_put_update (fs : FileSys (List Nat)) (p : Path) (c : List Nat) :
    (fs.put p c).get = Function.update fs.get p (some c) := by
  funext q
  by_cases hq : q = p
  · subst hq
    rw [get_put_same, Function.update_self]
  · rw [get_put_other _ _ hq, Function.update_of_ne hq]

/-- One turn. -/
theorem fturn_inv (hn : 0 < n) {μ : Nat} {st : FSys n Obj R} {rs : Fin n → Except Err R}
    {F' : Path → Option (List Nat)} (hi : FInv μ st rs F') (r : Fin n) (b : Nat) :
    (Idle (st.procs r) ∧ st.turn r b = st) ∨ ∃ μ', μ' < μ ∧ FInv μ' (st.turn r b) rs F' := by
  cases hi with
  | @done F _ _ l q hf hF h hr =>
    have hq := h r
    generalize hl : l r = l0 at hq
    generalize hp : (st.procs r).1 = p at hq
    generalize hq0 : q r = q0 at hq
    cases hq with
    | refl =>
      subst hq0
      left
      have := hr r
      refine ⟨Or.inr (by rw [hp, this]; rfl), ?_⟩
      unfold FSys.turn
      rw [hp]
      generalize q r = x at this
      cases x <;> simp [FProc.result] at this <;> rfl
    | @look l' k p' _ hk hq' =>
      right
      subst hq0
      have e : st.turn r b = ⟨st.files, Function.update st.procs r (p', false)⟩ := by
        unfold FSys.turn
        rw [hp]
        simp only [hk st.files hf hF]
      rw [e]
      refine ⟨∑ i, Function.update l r l' i, sum_update_lt r (fun j hj => by
        rw [Function.update_of_ne hj]) (by rw [Function.update_self]; omega), .done _ q hf hF ?_ hr⟩
      intro i
      by_cases hir : i = r
      · subst hir
        simpa using hq'
      · simpa [Function.update_of_ne hir] using h i
  | @sync F _ _ _ d l t m k hf hF h hwait hmiss hk =>
    have hq := h r
    generalize hl : l r = l0 at hq
    generalize hp : (st.procs r).1 = p at hq
    generalize hq0 : FProc.coll t (m r) (k r) = q0 at hq
    cases hq with
    | refl =>
      subst hq0
      by_cases hw : (st.procs r).2 = true
      · left
        refine ⟨Or.inl ⟨hw, _, _, _, hp⟩, ?_⟩
        have e : Function.update st.procs r (.coll t (m r) (k r), true) = st.procs := by
          rw [Function.update_eq_self_iff]
          exact Prod.ext hp.symm hw.symm
        obtain ⟨j, hj⟩ := hmiss
        have hj' : FSys.posted (st.procs j) = none := by
          exact posted_false hj
        unfold FSys.turn
        rw [hp]
        simp only [e, fsettle_missing hj']
      · right
        have hw : (st.procs r).2 = false := by simpa using hw
        have e : st.turn r b =
            ⟨st.files, FSys.settle (Function.update st.procs r (.coll t (m r) (k r), true))⟩ := by
          unfold FSys.turn
          rw [hp]
        rw [e]
        by_cases hall : ∀ i, i ≠ r → (st.procs i).2 = true
        · have hst : ∀ i, Function.update st.procs r (FProc.coll t (m r) (k r), true) i =
              (.coll t (m i) (k i), true) := by
            intro i
            by_cases hir : i = r
            · subst hir; simp
            · rw [Function.update_of_ne hir]
              have h1 := hall i hir
              have h2 := h i
              rw [hwait i h1] at h2
              refine Prod.ext ?_ h1
              generalize (st.procs i).1 = x at h2 ⊢
              generalize hy : FProc.coll t (m i) (k i) = y at h2 ⊢
              cases h2
              rfl
          rw [fsettle_all hst]
          refine ⟨d, ?_, enter hn hk hf hF⟩
          have : 0 < ∑ i, (l i + if (st.procs i).2 then 0 else 1) :=
            Finset.sum_pos' (fun _ _ => Nat.zero_le _) ⟨r, Finset.mem_univ r, by simp [hw]⟩
          omega
        · push Not at hall
          obtain ⟨j, hjr, hj⟩ := hall
          have hj : (st.procs j).2 = false := by simpa using hj
          have hj' : FSys.posted (Function.update st.procs r (FProc.coll t (m r) (k r), true) j) =
              none := by
            rw [Function.update_of_ne hjr]
            exact posted_false hj
          rw [fsettle_missing hj']
          refine ⟨∑ i, (l i + if (Function.update st.procs r
            (FProc.coll t (m r) (k r), true) i).2 then 0 else 1) + d, ?_,
            FInv.sync (st := ⟨st.files, Function.update st.procs r (FProc.coll t (m r) (k r), true)⟩)
              l t m k hf hF ?_ ?_ ⟨j, ?_⟩ hk⟩
          · refine Nat.add_lt_add_right (sum_update_lt r (fun i hir => by
              rw [Function.update_of_ne hir]) ?_) d
            simp [hw]
          · intro i
            by_cases hir : i = r
            · subst hir
              simp only [Function.update_self, hl]
              exact .refl _
            · simpa [Function.update_of_ne hir] using h i
          · intro i
            by_cases hir : i = r
            · subst hir
              intro _
              exact hl
            · simpa [Function.update_of_ne hir] using hwait i
          · simpa [Function.update_of_ne hjr] using hj
    | @look l' k' p' _ hk' hq' =>
      right
      subst hq0
      have hw : (st.procs r).2 = false := by
        by_contra hw
        have := hwait r (by simpa using hw)
        omega
      have e : st.turn r b = ⟨st.files, Function.update st.procs r (p', false)⟩ := by
        unfold FSys.turn
        rw [hp]
        simp only [hk' st.files hf hF]
      rw [e]
      refine ⟨∑ i, (Function.update l r l' i + if (Function.update st.procs r (p', false) i).2 then 0
        else 1) + d, ?_, FInv.sync (st := ⟨st.files, Function.update st.procs r (p', false)⟩)
          (Function.update l r l') t m k hf hF ?_ ?_ ⟨r, ?_⟩ hk⟩
      · refine Nat.add_lt_add_right (sum_update_lt r (fun i hir => by
          rw [Function.update_of_ne hir, Function.update_of_ne hir]) ?_) d
        simp [hw, hl]
      · intro i
        by_cases hir : i = r
        · subst hir
          simpa using hq'
        · simpa [Function.update_of_ne hir] using h i
      · intro i
        by_cases hir : i = r
        · subst hir
          simp
        · simpa [Function.update_of_ne hir] using hwait i
      · simp
  | @write F F1 _ _ _ d path D t m k pos sched hf hs h hle hwait hmiss hw hk =>
    have hp := h r
    -- a turn that writes
    have step : ∀ (c : List Nat) (x N : Nat) (s' : FSys n Obj R),
        s' = ⟨st.files.put (path r) c, Function.update st.procs r
          (atPos (path r) (D r) (.coll t (m r) (k r)) (some x), false)⟩ →
        st.turn r b = s' → x ≤ (D r).length →
        (Saving.mk st.files.get (List.ofFn fun i => ⟨path i, D i, pos i⟩)).turn r N =
          ⟨Function.update st.files.get (path r) (some c),
            (List.ofFn fun i => (⟨path i, D i, pos i⟩ : Writer)).set r ⟨path r, D r, some x⟩⟩ →
        leftOf (D r) false (some x) < leftOf (D r) (st.procs r).2 (pos r) →
        ∃ μ', μ' < ∑ i, leftOf (D i) (st.procs i).2 (pos i) + d ∧ FInv μ' (st.turn r b) rs F' := by
      intro c x N s' hs' e hx hsv hlt
      rw [e, hs']
      refine ⟨∑ i, leftOf (D i) (Function.update st.procs r
        (atPos (path r) (D r) (.coll t (m r) (k r)) (some x), false) i).2
        (Function.update pos r (some x) i) + d, ?_, FInv.write (st := ⟨st.files.put (path r) c,
          Function.update st.procs r (atPos (path r) (D r) (.coll t (m r) (k r)) (some x), false)⟩)
          path D t m k (Function.update pos r (some x)) (sched ++ [((r : Nat), N)])
          (proper_put _ _ _ hf) ?_ ?_ ?_ ?_ ⟨r, ?_⟩ hw hk⟩
      · refine Nat.add_lt_add_right (sum_update_lt r (fun i hir => by
          rw [Function.update_of_ne hir, Function.update_of_ne hir]) ?_) d
        simpa using hlt
      · rw [Saving.runAll, List.foldl_append]
        have : (Saving.mk F (writers0 path D)).runAll sched = _ := hs
        rw [Saving.runAll] at this
        rw [this]
        simp only [List.foldl_cons, List.foldl_nil]
        rw [hsv, get_put_update, set_writers]
      · intro i
        by_cases hir : i = r
        · subst hir; simp
        · simpa [Function.update_of_ne hir] using h i
      · intro i j hj
        by_cases hir : i = r
        · subst hir
          rw [Function.update_self] at hj
          cases hj
          refine ⟨hx, ?_⟩
          rw [get_put_update, Function.update_self]
          rfl
        · rw [Function.update_of_ne hir] at hj
          obtain ⟨h1, h2⟩ := hle i j hj
          refine ⟨h1, ?_⟩
          rw [get_put_update]
          by_cases hpp : path i = path r
          · rw [hpp, Function.update_self]; rfl
          · rw [Function.update_of_ne hpp]; exact h2
      · intro i
        by_cases hir : i = r
        · subst hir; simp
        · simpa [Function.update_of_ne hir] using hwait i
      · simp
    cases hpos : pos r with
    | none =>
      right
      rw [hpos] at hp
      have hw' : (st.procs r).2 = false := by
        by_contra hw
        have := hwait r (by simpa using hw)
        rw [hpos] at this
        cases this
      refine step [] 0 0 _ rfl ?_ (Nat.zero_le _) ?_ ?_
      · unfold FSys.turn
        rw [hp]
        rfl
      · rw [turn_open (w := ⟨path r, D r, pos r⟩) (getElem?_writers r) hpos]
      · simp [hpos, leftOf]
    | some j =>
      obtain ⟨hj, hsome⟩ := hle r j hpos
      rw [hpos] at hp
      cases hdrop : (D r).drop j with
      | nil =>
        have hjl : j = (D r).length := by
          have := congrArg List.length hdrop
          simp at this
          omega
        have hp' : (st.procs r).1 = .coll t (m r) (k r) := by
          rw [hp]
          show FProc.writeOn _ _ _ _ = _
          rw [hdrop]
          rfl
        by_cases hw' : (st.procs r).2 = true
        · left
          refine ⟨Or.inl ⟨hw', _, _, _, hp'⟩, ?_⟩
          have e : Function.update st.procs r (.coll t (m r) (k r), true) = st.procs := by
            rw [Function.update_eq_self_iff]
            exact Prod.ext hp'.symm hw'.symm
          obtain ⟨i, hi⟩ := hmiss
          have hi' : FSys.posted (st.procs i) = none := by
            exact posted_false hi
          unfold FSys.turn
          rw [hp']
          simp only [e, fsettle_missing hi']
        · right
          have hw' : (st.procs r).2 = false := by simpa using hw'
          have e : st.turn r b =
              ⟨st.files, FSys.settle (Function.update st.procs r (.coll t (m r) (k r), true))⟩ := by
            unfold FSys.turn
            rw [hp']
          rw [e]
          by_cases hall : ∀ i, i ≠ r → (st.procs i).2 = true
          · have hpall : ∀ i, pos i = some (D i).length := by
              intro i
              by_cases hir : i = r
              · subst hir; rw [hpos, hjl]
              · exact hwait i (hall i hir)
            have hst : ∀ i, Function.update st.procs r (FProc.coll t (m r) (k r), true) i =
                (.coll t (m i) (k i), true) := by
              intro i
              by_cases hir : i = r
              · subst hir; simp
              · rw [Function.update_of_ne hir]
                refine Prod.ext ?_ (hall i hir)
                rw [h i, hpall i]
                show FProc.writeOn _ _ _ _ = _
                rw [List.drop_length]
                rfl
            rw [fsettle_all hst]
            have hF1 : st.files.get = F1 := by
              have := hw sched (by
                rw [hs]
                intro w hw
                obtain ⟨i, rfl⟩ := (List.mem_ofFn' _ _).1 hw
                exact hpall i)
              rw [hs] at this
              exact this
            refine ⟨d, ?_, enter hn hk hf hF1⟩
            have : 0 < ∑ i, leftOf (D i) (st.procs i).2 (pos i) :=
              Finset.sum_pos' (fun _ _ => Nat.zero_le _) ⟨r, Finset.mem_univ r, by
                simp [hw', hpos, leftOf]⟩
            omega
          · push Not at hall
            obtain ⟨i0, hir0, hi0⟩ := hall
            have hi0 : (st.procs i0).2 = false := by simpa using hi0
            have hi' : FSys.posted (Function.update st.procs r (FProc.coll t (m r) (k r), true) i0) =
                none := by
              rw [Function.update_of_ne hir0]
              exact posted_false hi0
            rw [fsettle_missing hi']
            refine ⟨∑ i, leftOf (D i) (Function.update st.procs r
              (FProc.coll t (m r) (k r), true) i).2 (pos i) + d, ?_,
              FInv.write (st := ⟨st.files, Function.update st.procs r
                (FProc.coll t (m r) (k r), true)⟩)
                path D t m k pos sched hf hs ?_ hle ?_ ⟨i0, ?_⟩ hw hk⟩
            · refine Nat.add_lt_add_right (sum_update_lt r (fun i hir => by
                rw [Function.update_of_ne hir]) ?_) d
              simp [hw', hpos, leftOf]
            · intro i
              by_cases hir : i = r
              · subst hir
                rw [hpos]
                show (Function.update st.procs i _ i).1 = _
                rw [Function.update_self]
                exact hp'.symm.trans hp
              · simpa [Function.update_of_ne hir] using h i
            · intro i
              by_cases hir : i = r
              · subst hir
                intro _
                rw [hpos, hjl]
              · simpa [Function.update_of_ne hir] using hwait i
            · simpa [Function.update_of_ne hir0] using hi0
      | cons y ys =>
        right
        have hjl : j < (D r).length := by
          have := congrArg List.length hdrop
          simp at this
          omega
        have hp' : (st.procs r).1 = .write (path r) j ((D r).drop j) (.coll t (m r) (k r)) := by
          rw [hp]
          show FProc.writeOn _ _ _ _ = _
          rw [hdrop]
          rfl
        have hw' : (st.procs r).2 = false := by
          by_contra hw
          have := hwait r (by simpa using hw)
          rw [hpos] at this
          simp only [Option.some.injEq] at this
          omega
        obtain ⟨c, hc⟩ := Option.isSome_iff_exists.1 hsome
        have hmin : j + (((D r).drop j).take (b + 1)).length = min (j + (b + 1)) (D r).length := by
          simp only [List.length_take, List.length_drop]
          omega
        refine step (writeAt c j (((D r).drop j).take (b + 1))) (min (j + (b + 1)) (D r).length) (b + 1)
          _ rfl ?_ (by omega) ?_ ?_
        · unfold FSys.turn
          rw [hp']
          simp only [hc, Option.getD_some, hmin]
          congr 3
          show FProc.writeOn _ _ _ _ = FProc.writeOn _ _ _ _
          congr 1
          rw [List.drop_drop]
          rcases Nat.le_total (j + (b + 1)) (D r).length with h1 | h1
          · rw [Nat.min_eq_left h1]
          · rw [Nat.min_eq_right h1, List.drop_length, List.drop_of_length_le h1]
        · rw [turn_write (w := ⟨path r, D r, pos r⟩) (getElem?_writers r) hpos]
          simp only [hc, Option.map_some]
        · simp only [hpos, leftOf, hw']
          simp
          omega

/-! ### Schedules -/

theorem frun_append (st : FSys n Obj R) (a b : List (Fin n × Nat)) :
    st.run (a ++ b) = (st.run a).run b := by
  simp [FSys.run, List.foldl_append]

theorem frun_inv (hn : 0 < n) {μ : Nat} {st : FSys n Obj R} {rs : Fin n → Except Err R}
    {F' : Path → Option (List Nat)} (h : FInv μ st rs F') (sched : List (Fin n × Nat)) :
    ∃ μ', μ' ≤ μ ∧ FInv μ' (st.run sched) rs F' := by
  induction sched generalizing μ st with
  | nil => exact ⟨μ, le_refl _, h⟩
  | cons e sched ih =>
    have hr : st.run (e :: sched) = (st.turn e.1 e.2).run sched := rfl
    rw [hr]
    rcases fturn_inv hn h e.1 e.2 with ⟨-, h1⟩ | ⟨μ', hμ, h1⟩
    · rw [h1]; exact ih h
    · obtain ⟨μ'', h2, h3⟩ := ih h1
      exact ⟨μ'', by omega, h3⟩

theorem quiet_coll {F : Path → Option (List Nat)} {l : Nat} {p : FProc Obj R} {t : CollTag}
    {m : Option Obj} {k : List (Option Obj) → FProc Obj R} (h : Quiet F l p (.coll t m k)) :
    p.result = none := by
  generalize hq : FProc.coll t m k = q at h
  cases h with
  | refl => rw [← hq]; rfl
  | look => rfl

theorem atPos_result (p : Path) (D : List Nat) (t : CollTag) (m : Option Obj)
    (k : List (Option Obj) → FProc Obj R) (pos : Option Nat) :
    (atPos p D (.coll t m k) pos).result = none := by
  cases pos with
  | none => rfl
  | some j =>
    show (FProc.writeOn _ _ _ _).result = none
    cases D.drop j <;> rfl

/-- A process that has ended has its result. -/
theorem finv_result {μ : Nat} {st : FSys n Obj R} {rs : Fin n → Except Err R}
    {F' : Path → Option (List Nat)} (h : FInv μ st rs F') {i : Fin n} {x : Except Err R}
    (hx : (st.procs i).1.result = some x) : x = rs i ∧ st.files.get = F' := by
  cases h with
  | done l q hf hF h hr =>
    have h1 := h i
    have h2 := hr i
    generalize l i = l0 at h1
    generalize (st.procs i).1 = p at h1 hx
    generalize q i = q0 at h1 h2
    cases h1 with
    | refl =>
      rw [hx] at h2
      exact ⟨Option.some.inj h2, hF⟩
    | look => simp [FProc.result] at hx
  | sync l t m k hf hF h hwait hmiss hk =>
    rw [quiet_coll (h i)] at hx
    cases hx
  | write path D t m k pos sched hf hs h hle hwait hmiss hw hk =>
    rw [h i, atPos_result] at hx
    cases hx

/-- Somebody can go on unless all have ended. -/
theorem finv_active {μ : Nat} {st : FSys n Obj R} {rs : Fin n → Except Err R}
    {F' : Path → Option (List Nat)} (h : FInv μ st rs F') :
    EndsWith st rs F' ∨ ∃ i, ¬ Idle (st.procs i) := by
  cases h with
  | @done F _ _ l q hf hF h hr =>
    by_cases hl : ∀ i, l i = 0
    · left
      refine ⟨fun i => ?_, fun p => congrFun hF p⟩
      have h1 := h i
      rw [hl i] at h1
      have h2 := hr i
      generalize (st.procs i).1 = p at h1 ⊢
      generalize q i = q0 at h1 h2
      cases h1
      exact h2
    · right
      push Not at hl
      obtain ⟨i, hi⟩ := hl
      refine ⟨i, ?_⟩
      have h1 := h i
      generalize l i = l0 at h1 hi
      generalize hp : (st.procs i).1 = p at h1
      generalize q i = q0 at h1
      cases h1 with
      | refl => exact absurd rfl hi
      | look =>
        rintro (⟨-, t, m, k, h1⟩ | h1)
        · rw [hp] at h1; cases h1
        · rw [hp] at h1; cases h1
  | sync l t m k hf hF h hwait hmiss hk =>
    right
    obtain ⟨i, hi⟩ := hmiss
    refine ⟨i, ?_⟩
    rintro (⟨h1, -⟩ | h1)
    · rw [hi] at h1; cases h1
    · rw [quiet_coll (h i)] at h1; cases h1
  | write path D t m k pos sched hf hs h hle hwait hmiss hw hk =>
    right
    obtain ⟨i, hi⟩ := hmiss
    refine ⟨i, ?_⟩
    rintro (⟨h1, -⟩ | h1)
    · rw [hi] at h1; cases h1
    · rw [h i, atPos_result] at h1; cases h1

/-- A round in which everybody has a turn brings the run forward. -/
theorem fround_inv (hn : 0 < n) {μ : Nat} {st : FSys n Obj R} {rs : Fin n → Except Err R}
    {F' : Path → Option (List Nat)} (h : FInv μ st rs F') {i : Fin n} (hi : ¬ Idle (st.procs i))
    {sched : List (Fin n × Nat)} (hall : i ∈ sched.map Prod.fst) :
    ∃ μ', μ' < μ ∧ FInv μ' (st.run sched) rs F' := by
  induction sched generalizing μ st with
  | nil => simp at hall
  | cons e sched ih =>
    have hr : st.run (e :: sched) = (st.turn e.1 e.2).run sched := rfl
    rw [hr]
    rcases fturn_inv hn h e.1 e.2 with ⟨h0, h1⟩ | ⟨μ', hμ, h1⟩
    · rw [h1]
      refine ih h hi ?_
      rw [List.map_cons, List.mem_cons] at hall
      rcases hall with rfl | h2
      · exact absurd h0 hi
      · exact h2
    · obtain ⟨μ'', h2, h3⟩ := frun_inv hn h1 sched
      exact ⟨μ'', by omega, h3⟩

theorem endsWith_turn {st : FSys n Obj R} {rs : Fin n → Except Err R} {F' : Path → Option (List Nat)}
    (h : EndsWith st rs F') (sched : List (Fin n × Nat)) : EndsWith (st.run sched) rs F' := by
  induction sched generalizing st with
  | nil => exact h
  | cons e sched ih =>
    have hr : st.run (e :: sched) = (st.turn e.1 e.2).run sched := rfl
    rw [hr]
    have : st.turn e.1 e.2 = st := by
      have h1 := h.1 e.1
      unfold FSys.turn
      generalize (st.procs e.1).1 = p at h1
      cases p <;> simp [FProc.result] at h1 <;> rfl
    rw [this]
    exact ih h

theorem frounds_inv (hn : 0 < n) {μ : Nat} {st : FSys n Obj R} {rs : Fin n → Except Err R}
    {F' : Path → Option (List Nat)} (h : FInv μ st rs F') {rounds : List (List (Fin n × Nat))}
    (hlen : μ < rounds.length) (hall : ∀ b ∈ rounds, ∀ i, i ∈ b.map Prod.fst) :
    EndsWith (st.run rounds.flatten) rs F' := by
  induction rounds generalizing μ st with
  | nil => simp at hlen
  | cons b rounds ih =>
    rcases finv_active h with h1 | ⟨i, hi⟩
    · exact endsWith_turn h1 _
    · obtain ⟨μ', h1, h2⟩ := fround_inv hn h hi (hall b (by simp) i)
      rw [List.flatten_cons, frun_append]
      simp only [List.length_cons] at hlen
      exact ih h2 (by omega) fun b hb => hall b (by simp [hb])

/-- Programs with a plan. -/
theorem Plan.runs (hn : 0 < n) {w : Bool} {d : Nat} {F F' : Path → Option (List Nat)}
    {ps : Fin n → FProc Obj R} {rs : Fin n → Except Err R} (h : Plan w d F ps rs F')
    {files : FileSys (List Nat)} (hf : ProperFiles files) (hF : files.get = F) :
    FilesRunTo files ps rs F' := by
  have h0 : FInv d (FSys.start files ps) rs F' := enter hn h hf hF
  refine ⟨fun sched i x hx => ?_, fun sched rs' hx p => ?_, fun sched => ?_, d + 1, fun rounds h1 h2 =>
    frounds_inv hn h0 (by omega) h2⟩
  · obtain ⟨μ, -, h1⟩ := frun_inv hn h0 sched
    exact (finv_result h1 hx).1
  · obtain ⟨μ, -, h1⟩ := frun_inv hn h0 sched
    exact congrFun (finv_result h1 (hx ⟨0, hn⟩)).2 p
  · obtain ⟨μ, -, h1⟩ := frun_inv hn h0 sched
    refine ⟨(List.replicate (μ + 1) ((List.finRange n).map fun i => (i, 0))).flatten, ?_⟩
    rw [frun_append]
    refine frounds_inv hn h1 (by simp) fun b hb i => ?_
    rw [(List.mem_replicate.mp hb).2]
    simp

/-! ### Programs -/

theorem Quiet.trans {F : Path → Option (List Nat)} {l l' : Nat} {p q r : FProc Obj R}
    (h : Quiet F l p q) (h' : Quiet F l' q r) : Quiet F (l + l') p r := by
  induction h with
  | refl => rw [Nat.zero_add]; exact h'
  | look hk _ ih =>
    rw [Nat.add_right_comm]
    exact .look hk (ih h')

theorem Quiet.bind {F : Path → Option (List Nat)} {l : Nat} {p q : FProc Obj R}
    (h : Quiet F l p q) (f : R → FProc Obj S) : Quiet F l (p.bind f) (q.bind f) := by
  induction h with
  | refl => exact .refl _
  | look hk _ ih => exact .look (fun fs h1 h2 => by rw [hk fs h1 h2]) ih

/-- A plan for some length. -/
def Planned (F : Path → Option (List Nat)) (ps : Fin n → FProc Obj R) (rs : Fin n → Except Err R)
    (F' : Path → Option (List Nat)) : Prop := ∃ d, Plan false d F ps rs F'

/-- Looks at the files may come before. -/
theorem Planned.prefix {F F' : Path → Option (List Nat)} {ps ps' : Fin n → FProc Obj R}
    {rs : Fin n → Except Err R} (h : Planned F ps rs F') (l : Fin n → Nat)
    (hl : ∀ i, Quiet F (l i) (ps' i) (ps i)) : Planned F ps' rs F' := by
  obtain ⟨d, h⟩ := h
  cases h with
  | done l' q h hr => exact ⟨_, .done (fun i => l i + l' i) q (fun i => (hl i).trans (h i)) hr⟩
  | sync l' t m k h hk =>
    exact ⟨_, .sync (fun i => l i + l' i) t m k (fun i => (hl i).trans (h i)) hk⟩

theorem plan_bind {w : Bool} {d : Nat} {F F1 F2 : Path → Option (List Nat)} {ps : Fin n → FProc Obj R}
    {rs0 : Fin n → Except Err R} {r : Fin n → R} (h : Plan w d F ps rs0 F1)
    (h0 : rs0 = fun i => .ok (r i)) {f : Fin n → R → FProc Obj S} {rs : Fin n → Except Err S}
    (hf : Planned F1 (fun i => f i (r i)) rs F2) :
    ∃ e, Plan w e F (fun i => (ps i).bind (f i)) rs F2 := by
  induction h with
  | @done w F ps rs0 l q h hr =>
    subst h0
    have hq : ∀ i, q i = .ret (r i) := by
      intro i
      have := hr i
      generalize q i = x at this
      cases x <;> simp [FProc.result] at this
      rw [this]
    obtain ⟨e, hp⟩ := hf.prefix (ps' := fun i => (ps i).bind (f i)) l fun i => by
      have := (h i).bind (f i)
      rwa [hq i] at this
    refine ⟨e, ?_⟩
    cases hp with
    | done l' q h hr => exact .done l' q h hr
    | sync l' t m k h hk => exact .sync l' t m k h hk
  | sync l t m k h hk ih =>
    obtain ⟨e, he⟩ := ih h0 hf
    exact ⟨_, .sync l t m (fun i ms => (k i ms).bind (f i)) (fun i => (h i).bind (f i)) he⟩
  | write path D t m k h hw hk ih =>
    obtain ⟨e, he⟩ := ih h0 hf
    exact ⟨_, .write path D t m (fun i ms => (k i ms).bind (f i)) (fun i => by rw [h i]; rfl) hw he⟩

theorem Planned.bind {F F1 F2 : Path → Option (List Nat)} {ps : Fin n → FProc Obj R}
    {r : Fin n → R} (h : Planned F ps (fun i => .ok (r i)) F1) {f : Fin n → R → FProc Obj S}
    {rs : Fin n → Except Err S} (hf : Planned F1 (fun i => f i (r i)) rs F2) :
    Planned F (fun i => (ps i).bind (f i)) rs F2 := by
  obtain ⟨d, h⟩ := h
  exact plan_bind h rfl hf

theorem Planned.ret {F : Path → Option (List Nat)} (r : Fin n → R) :
    Planned F (fun i => (FProc.ret (r i) : FProc Obj R)) (fun i => .ok (r i)) F :=
  ⟨_, .done (fun _ => 0) _ (fun _ => .refl _) fun _ => rfl⟩

theorem Planned.except {F : Path → Option (List Nat)} {x : Fin n → Except Err R} {r : Fin n → R}
    (h : ∀ i, x i = .ok (r i)) :
    Planned F (fun i => (FProc.ofExcept (x i) : FProc Obj R)) (fun i => .ok (r i)) F := by
  have : (fun i => (FProc.ofExcept (x i) : FProc Obj R)) = fun i => .ret (r i) := by
    funext i
    rw [h i]
    rfl
  rw [this]
  exact Planned.ret r

/-! ### Loading -/

theorem mem_keys_iff {α : Type} (fs : FileSys α) (p : Path) :
    p ∈ fs.map Prod.fst ↔ (fs.get p).isSome := by
  constructor
  · intro h
    induction fs with
    | nil => simp at h
    | cons e fs ih =>
      obtain ⟨k, o⟩ := e
      unfold FileSys.get at ih ⊢
      rw [List.lookup_cons]
      by_cases hk : p = k
      · simp [hk]
      · have : (p == k) = false := by simpa using hk
        rw [this]
        simp only [List.map_cons, List.mem_cons] at h
        exact ih (h.resolve_left hk)
  · intro h
    obtain ⟨o, ho⟩ := Option.isSome_iff_exists.1 h
    exact get_eq_some_mem ho

theorem picklesOf_isSome {P : Pickling Obj} {F : Path → Option (List Nat)} {fs : FileSys Obj}
    (h : PicklesOf P F fs) (p : Path) : (F p).isSome = (fs.get p).isSome := by
  rw [h p]
  cases fs.get p <;> rfl

theorem length_glob {P : Pickling Obj} {fs : FileSys Obj} {files : FileSys (List Nat)}
    (h : PicklesOf P files.get fs) (h1 : ProperFiles fs) (h2 : ProperFiles files) (f : FileName) :
    (globProc files f).length = (globProc fs f).length := by
  refine ((List.perm_ext_iff_of_nodup (List.Nodup.filter _ h2) (List.Nodup.filter _ h1)).2
    fun p => ?_).length_eq
  rw [List.mem_filter, List.mem_filter, mem_keys_iff, mem_keys_iff, picklesOf_isSome h]

/-- All files can be read. -/
def Readable (P : Pickling Obj) (fs : FileSys Obj) : Prop :=
  ∀ p o, fs.get p = some o → P.loads (P.dump o).1 = some o

theorem quiet_read {P : Pickling Obj} {F : Path → Option (List Nat)} {fs : FileSys Obj}
    (h : PicklesOf P F fs) (hr : Readable P fs) {rank : Nat} {f : FileName} {localize : Bool} {o : Obj}
    (hl : loadFile (P.toLocal rank) fs f localize = .ok o) :
    Quiet F 1 (fileRead P rank f localize) (.ret o) := by
  refine .look (fun files _ hF => ?_) (.refl _)
  simp only [loadFile, bind_eq_ok, orErr_eq_ok] at hl
  obtain ⟨x, h1, h2⟩ := hl
  have h3 : files.get f.file = some (P.dump x).1 := by
    rw [hF, h, h1]
    rfl
  simp only [h3, orErr_some, ok_bind, hr _ _ h1]
  rw [h2]
  rfl

theorem quiet_load {P : Pickling Obj} {F : Path → Option (List Nat)} {fs : FileSys Obj}
    (h : PicklesOf P F fs) (hp : ProperFiles fs) (hr : Readable P fs) {size rank depth : Nat} {f : FileName}
    {localize : Bool} {o : Obj} (hl : loadObject (P.toLocal rank) size rank fs depth f localize = .ok o) :
    ∃ l, Quiet F l (fileLoad P size rank depth f localize) (.ret o) := by
  induction depth generalizing f localize with
  | zero => simp [loadObject] at hl
  | succ depth ih =>
    simp only [loadObject] at hl
    simp only [fileLoad]
    by_cases h1 : "proc_".toList.isPrefixOf f.full = true
    · rw [if_pos h1] at hl ⊢
      exact ⟨1, quiet_read h hr hl⟩
    · rw [if_neg h1] at hl ⊢
      by_cases h2 : (fs.get f.file).isSome = true
      · have h2' : ¬ ((fs.get f.file).isNone = true ∧
            (fs.get ("proc0_".toList ++ f.file)).isSome = true) := by
          rintro ⟨h3, -⟩
          rw [Option.isNone_iff_eq_none] at h3
          rw [h3] at h2
          cases h2
        rw [if_neg h2'] at hl
        refine ⟨2, .look (fun files _ hF => ?_) (quiet_read h hr hl)⟩
        rw [hF, picklesOf_isSome h, if_pos h2]
      · by_cases h3 : (fs.get ("proc0_".toList ++ f.file)).isSome = true
        · rw [if_pos ⟨by simpa using h2, h3⟩] at hl
          by_cases h4 : (globProc fs f).length = size
          · rw [if_pos h4] at hl
            obtain ⟨l, hq⟩ := ih hl
            have q1 : Quiet F (l + 1) (FProc.look fun files => if (globProc files f).length = size then
                fileLoad P size rank depth (f.proc rank) false else .raise .dimNotMatching) (.ret o) :=
              .look (fun files hpf hF => by
                rw [length_glob (by rw [hF]; exact h) hp hpf, if_pos h4]) hq
            refine ⟨l + 1 + 1 + 1, .look (fun files _ hF => ?_) (.look (k := fun files => if (files.get ("proc0_".toList ++ f.file)).isSome then
                FProc.look fun files => if (globProc files f).length = size then
                  fileLoad P size rank depth (f.proc rank) false else .raise .dimNotMatching
                else fileRead P rank f localize)
              (fun files _ hF => ?_) q1)⟩
            · rw [hF, picklesOf_isSome h, if_neg h2]
            · rw [hF, picklesOf_isSome h, if_pos h3]
          · rw [if_neg h4] at hl
            cases hl
        · rw [if_neg (fun h4 => h3 h4.2)] at hl
          refine ⟨1 + 1 + 1, .look (fun files _ hF => ?_) (.look (k := fun files => if (files.get ("proc0_".toList ++ f.file)).isSome then
                FProc.look fun files => if (globProc files f).length = size then
                  fileLoad P size rank depth (f.proc rank) false else .raise .dimNotMatching
                else fileRead P rank f localize)
            (fun files _ hF => ?_) (quiet_read h hr hl))⟩
          · rw [hF, picklesOf_isSome h, if_neg h2]
          · rw [hF, picklesOf_isSome h, if_neg h3]

theorem planned_load {P : Pickling Obj} {F : Path → Option (List Nat)} {fs : FileSys Obj}
    (h : PicklesOf P F fs) (hp : ProperFiles fs) (hr : Readable P fs) {depth : Nat} {f : FileName}
    {localize : Bool} {o : Fin n → Obj}
    (hl : ∀ r : Fin n, loadObject (P.toLocal r) n r fs depth f localize = .ok (o r)) :
    Planned F (fun r : Fin n => fileLoad P n r depth f localize) (fun r => .ok (o r)) F := by
  choose l hq using fun r : Fin n => quiet_load h hp hr (hl r)
  exact ⟨_, .done l _ hq fun _ => rfl⟩

/-! ### Saving -/

theorem start_eq (F : Path → Option (List Nat)) (D : Fin n → List Nat) (globalize : Bool)
    (f : FileName) : Saving.start F (List.ofFn D) globalize f =
      ⟨F, writers0 (fun r => savePath n globalize f r) D⟩ := by
  unfold Saving.start
  congr 1
  apply List.ext_getElem?
  intro j
  have := start_writers (files := F) (dumps := List.ofFn D) (globalize := globalize) (f := f) j
  unfold Saving.start at this
  simp only at this
  rw [this, writers0]
  by_cases hj : j < n
  · simp [hj]
  · simp [hj]

/-- What the processes write together does not depend on the order. -/
theorem written {F : Path → Option (List Nat)} {P : Pickling Obj} {fs fs' : FileSys Obj}
    (h : PicklesOf P F fs) (hp : ProperFiles fs) {o o' : Fin n → Obj} {f : FileName} {globalize : Bool}
    (hs : saveObject P.toGlobal 0 (List.ofFn o) f globalize fs = .ok (List.ofFn o', fs'))
    (hsame : globalize = true ∨ n = 1 → ∀ r r', o' r = o' r') (hn : 0 < n)
    (sched : List (Nat × Nat))
    (hall : AllWritten ((Saving.mk F (writers0 (fun r : Fin n => savePath n globalize f r)
      fun r => (P.dump (o' r)).1)).runAll sched)) (p : Path) :
    ((Saving.mk F (writers0 (fun r : Fin n => savePath n globalize f r)
      fun r => (P.dump (o' r)).1)).runAll sched).files p = (fs'.get p).map fun o => (P.dump o).1 := by
  rw [← start_eq] at hall ⊢
  by_cases hone : globalize = true ∨ n = 1
  · have hfs : fs' = fs.put f.file (o' ⟨0, hn⟩) := by
      have h0 : ∀ g : List Obj, g = List.ofFn o' → FileSys.putOne fs f g 0 = fs.put f.file (o' ⟨0, hn⟩) := by
        rintro g rfl
        simp [FileSys.putOne, hn]
      unfold saveObject at hs
      cases globalize with
      | true =>
        simp only [if_true, bind_eq_ok, pure_eq_ok] at hs
        obtain ⟨gs, -, h2⟩ := hs
        obtain ⟨h3, h4⟩ := Prod.mk.inj h2
        rw [← h4]
        exact h0 _ h3
      | false =>
        have hn1 : n = 1 := by simpa using hone
        have : ¬ (List.ofFn o).length > 1 := by simp; omega
        simp only [Bool.false_eq_true, if_false, if_neg this, pure_eq_ok] at hs
        obtain ⟨h3, h4⟩ := Prod.mk.inj hs
        rw [← h4]
        exact h0 _ h3
    obtain ⟨h1, h2⟩ := C113_one_file_same F (List.ofFn fun r => (P.dump (o' r)).1) globalize f
      (hone.imp id fun e => by simpa using e) (P.dump (o' ⟨0, hn⟩)).1 (by
        intro h0
        have := congrArg List.length h0
        simp at this
        omega) (by
        intro d hd
        obtain ⟨r, rfl⟩ := (List.mem_ofFn' _ _).1 hd
        simp only [hsame hone r ⟨0, hn⟩]) sched
    by_cases hpf : p = f.file
    · subst hpf
      rw [h1 hall, hfs, get_put_same]
      rfl
    · rw [h2 p hpf, hfs, get_put_other _ _ hpf, h p]
  · push Not at hone
    obtain ⟨hg, hn1⟩ := hone
    have hg : globalize = false := by simpa using hg
    subst hg
    have hlen : (List.ofFn o).length > 1 := by simp; omega
    unfold saveObject at hs
    simp only [Bool.false_eq_true, if_false, if_pos hlen, pure_eq_ok] at hs
    obtain ⟨h3, h4⟩ := Prod.mk.inj hs
    rw [← h4, h3]
    obtain ⟨h5, h6⟩ := C113_own_files F (List.ofFn fun r => (P.dump (o' r)).1) f (by simp; omega) sched
    obtain ⟨-, h7, h8, -⟩ := putAll_all f (List.ofFn o') fs hp
    by_cases hpf : ∃ r : Fin n, p = (f.proc r).file
    · obtain ⟨r, rfl⟩ := hpf
      rw [h7 r (o' r) (by simp)]
      have hw : ∃ w, ((Saving.start F (List.ofFn fun r => (P.dump (o' r)).1) false f).runAll
          sched).writers[(r : Nat)]? = some w ∧ w.dump = (P.dump (o' r)).1 := by
        have hinv := runAll_induct (fun st => ∀ q : Nat, (st.writers[q]?).map Writer.dump =
            (List.ofFn fun r => (P.dump (o' r)).1)[q]?) (fun st q N hst => ?_)
          (st := Saving.start F (List.ofFn fun r => (P.dump (o' r)).1) false f)
          (fun q => by rw [start_writers, Option.map_map]; cases (List.ofFn _)[q]? <;> rfl) sched
        · have := hinv r
          rw [List.getElem?_ofFn] at this
          simp only [r.2, dif_pos] at this
          obtain ⟨w, hw1, hw2⟩ := Option.map_eq_some_iff.1 this
          exact ⟨w, hw1, hw2⟩
        · intro q'
          cases hw : st.writers[q]? with
          | none => rw [turn_none hw]; exact hst q'
          | some w =>
            rw [← hst q']
            cases hpos : w.pos with
            | none =>
              rw [turn_open hw hpos]
              simp only [getElem?_set_some hw]
              by_cases hq : q' = q
              · subst hq; simp [hw]
              · simp [hq]
            | some k =>
              rw [turn_write hw hpos]
              simp only [getElem?_set_some hw]
              by_cases hq : q' = q
              · subst hq; simp [hw]
              · simp [hq]
      obtain ⟨w, hw1, hw2⟩ := hw
      have hpos := hall w (List.mem_of_getElem? hw1)
      rcases h5 r (P.dump (o' r)).1 (by simp) with ⟨h9, -⟩ | ⟨k, h9, -, h10⟩
      · simp only [progress, hw1, Option.bind_some, hpos] at h9
        cases h9
      · simp only [progress, hw1, Option.bind_some, hpos, Option.some.injEq] at h9
        rw [h10, ← h9, hw2, List.take_length]
        rfl
    · push Not at hpf
      have hpf' : ∀ r, r < (List.ofFn o').length → p ≠ (f.proc r).file := by
        intro r hr
        exact hpf ⟨r, by simpa using hr⟩
      rw [h8 p hpf', h6 p (by simpa using hpf'), h p]

theorem saved_readable {P : Pickling Obj} (hP : ReadsBack P) {fs fs' : FileSys Obj}
    (hp : ProperFiles fs) (hr : Readable P fs) {o o' : Fin n → Obj} {f : FileName} {globalize : Bool}
    (hs : saveObject P.toGlobal 0 (List.ofFn o) f globalize fs = .ok (List.ofFn o', fs'))
    (hd : ∀ r, (P.dump (o' r)).2 = none) : ProperFiles fs' ∧ Readable P fs' := by
  refine ⟨(C64_other_files P.toGlobal 0 _ _ f globalize fs fs' hp hs).1, ?_⟩
  have hput : ∀ fs'' : FileSys Obj, fs'' = fs.putOne f (List.ofFn o') 0 → Readable P fs'' := by
    rintro fs'' rfl p x hx
    unfold FileSys.putOne at hx
    cases ho : (List.ofFn o')[0]? with
    | none => rw [ho] at hx; exact hr p x hx
    | some y =>
      rw [ho] at hx
      simp only at hx
      by_cases hpf : p = f.file
      · subst hpf
        rw [get_put_same] at hx
        cases hx
        obtain ⟨r, rfl⟩ := (List.mem_ofFn' _ _).1 (List.mem_of_getElem? ho)
        exact hP _ (hd r)
      · rw [get_put_other _ _ hpf] at hx
        exact hr p x hx
  unfold saveObject at hs
  split at hs
  · simp only [bind_eq_ok, pure_eq_ok] at hs
    obtain ⟨gs, -, h2⟩ := hs
    obtain ⟨h3, h4⟩ := Prod.mk.inj h2
    rw [h3] at h4
    exact hput _ h4.symm
  · split at hs
    · obtain ⟨h3, h4⟩ := Prod.mk.inj (Except.ok.inj hs)
      rw [h3] at h4
      rw [← h4]
      obtain ⟨-, h7, h8, -⟩ := putAll_all f (List.ofFn o') fs hp
      intro p x hx
      by_cases hpf : ∃ r : Fin n, p = (f.proc r).file
      · obtain ⟨r, rfl⟩ := hpf
        rw [h7 r (o' r) (by simp)] at hx
        cases hx
        exact hP _ (hd r)
      · push Not at hpf
        rw [h8 p fun r hr => hpf ⟨r, by simpa using hr⟩] at hx
        exact hr p x hx
    · obtain ⟨h3, h4⟩ := Prod.mk.inj (Except.ok.inj hs)
      rw [h3] at h4
      exact hput _ h4.symm

theorem planned_save {P : Pickling Obj} {F : Path → Option (List Nat)} {fs fs' : FileSys Obj}
    (h : PicklesOf P F fs) (hp : ProperFiles fs) (hn : 0 < n) {o o' : Fin n → Obj} {f : FileName}
    {globalize : Bool}
    (hs : saveObject P.toGlobal 0 (List.ofFn o) f globalize fs = .ok (List.ofFn o', fs'))
    (hd : ∀ r, (P.dump (o' r)).2 = none)
    (hsame : globalize = true ∨ n = 1 → ∀ r r', o' r = o' r') :
    Planned F (fun r : Fin n => fileSave P n r (o r) f globalize) (fun r => .ok (o' r))
      fun p => (fs'.get p).map fun o => (P.dump o).1 := by
  obtain ⟨d1, hend⟩ : ∃ d, Plan true d F (fun r : Fin n => (FProc.create (savePath n globalize f r) (P.dump (o' r)).1
      (.coll .barrier none fun _ => .ret (o' r)) : FProc Obj Obj)) (fun r => .ok (o' r))
      fun p => (fs'.get p).map fun o => (P.dump o).1 :=
    ⟨_, .write _ _ .barrier (fun _ => none) (fun r _ => .ret (o' r)) (fun _ => rfl)
      (fun sched hall => funext fun p => written h hp hs hsame hn sched hall p)
      (.done (fun _ => 0) _ (fun _ => .refl _) fun _ => rfl)⟩
  obtain ⟨d2, hbar⟩ : ∃ d, Plan true d F (fun r : Fin n => (FProc.coll .barrier none fun _ =>
      FProc.create (savePath n globalize f r) (P.dump (o' r)).1 (.coll .barrier none fun _ => .ret (o' r)) :
      FProc Obj Obj)) (fun r => .ok (o' r)) fun p => (fs'.get p).map fun o => (P.dump o).1 :=
    ⟨_, .sync (fun _ => 0) .barrier (fun _ => none) _ (fun _ => .refl _) hend⟩
  have he : ∀ r : Fin n, ∀ k : FProc Obj Obj, endDump (P.dump (o' r)).2 k = k := by
    intro r k
    rw [hd r]
    rfl
  unfold saveObject at hs
  cases globalize with
  | true =>
    simp only [if_true, bind_eq_ok, pure_eq_ok] at hs
    obtain ⟨gs, h1, h2⟩ := hs
    obtain ⟨h3, -⟩ := Prod.mk.inj h2
    subst h3
    refine ⟨_, .sync (d := d2) (fun _ => 1) .allgather (fun r => some (o r)) (fun (r : Fin n) os =>
      FProc.bind (FProc.ofExcept (P.toGlobal (os.filterMap id) >>= fun gs => getIdx gs (r : Nat)))
        fun o => .coll .barrier none fun _ => .create (savePath n true f r) (P.dump o).1 <|
          endDump (P.dump o).2 <| .coll .barrier none fun _ => .ret o)
      (fun r => .look (fun _ _ _ => rfl) (.refl _)) ?_⟩
    · convert hbar using 1
      funext r
      have hfm : (List.ofFn fun r => some (o r)).filterMap id = List.ofFn o := by
        have e : (List.ofFn fun r => some (o r)) = (List.ofFn o).map some := by
          rw [List.map_ofFn]
          rfl
        rw [e, List.filterMap_map]
        exact List.filterMap_some
      rw [hfm, h1]
      have : getIdx (List.ofFn o') (r : Nat) = .ok (o' r) := by
        simp [getIdx]
      simp only [ok_bind, this, FProc.ofExcept, FProc.bind, he]
  | false =>
    have ho : o = o' := by
      simp only [Bool.false_eq_true, if_false] at hs
      split at hs
      · exact List.ofFn_injective (Prod.mk.inj (Except.ok.inj hs)).1
      · exact List.ofFn_injective (Prod.mk.inj (Except.ok.inj hs)).1
    subst ho
    refine ⟨_, .sync (d := d1) (fun _ => 1) .barrier (fun _ => none) _
      (fun r => .look (fun _ _ _ => rfl) (.refl _)) ?_⟩
    · convert hend using 1
      funext r
      simp only [he]

/-! ### Scripts -/

theorem planned_call {P : Pickling Obj} (hP : ReadsBack P) (hn : 0 < n) {depth : Nat}
    {c : FileCall Obj} {objs objs' : Fin n → List Obj} {fs fs' : FileSys Obj}
    (hc : CallRuns P depth c objs fs objs' fs') {F : Path → Option (List Nat)} (h : PicklesOf P F fs)
    (hp : ProperFiles fs) (hr : Readable P fs) :
    ProperFiles fs' ∧ Readable P fs' ∧ Planned F (fun r : Fin n => fileCall P n depth r (objs r) c)
      (fun r => .ok (objs' r)) fun p => (fs'.get p).map fun o => (P.dump o).1 := by
  have hF : F = fun p => (fs.get p).map fun o => (P.dump o).1 := funext h
  cases hc with
  | save o o' hget hs hd hsame =>
    obtain ⟨h1, h2⟩ := saved_readable hP hp hr hs hd
    refine ⟨h1, h2, ?_⟩
    exact Planned.bind (Planned.except fun r => by unfold getIdx; rw [hget r])
      (Planned.bind (planned_save h hp hn hs hd hsame) (Planned.ret _))
  | load o hl =>
    refine ⟨hp, hr, ?_⟩
    rw [← hF]
    exact Planned.bind (planned_load h hp hr hl) (Planned.ret _)
  | work hg =>
    refine ⟨hp, hr, ?_⟩
    rw [← hF]
    exact Planned.except hg

theorem planned_script {P : Pickling Obj} (hP : ReadsBack P) (hn : 0 < n) {depth : Nat}
    {cs : List (FileCall Obj)} {objs objs' : Fin n → List Obj} {fs fs' : FileSys Obj}
    (hc : ScriptRuns P depth cs objs fs objs' fs') {F : Path → Option (List Nat)} (h : PicklesOf P F fs)
    (hp : ProperFiles fs) (hr : Readable P fs) :
    Planned F (fun r : Fin n => fileScript P n depth r cs (objs r))
      (fun r => .ok (objs' r)) fun p => (fs'.get p).map fun o => (P.dump o).1 := by
  induction hc generalizing F with
  | @nil objs fs =>
    have hF : F = fun p => (fs.get p).map fun o => (P.dump o).1 := funext h
    rw [← hF]
    exact Planned.ret _
  | cons hc _ ih =>
    obtain ⟨h1, h2, h3⟩ := planned_call hP hn hc h hp hr
    exact Planned.bind h3 (ih (fun _ => rfl) h1 h2)

/-! ### C129 -/

/-- **C129.** A script of saves, loads and other work that runs in step runs to the same objects and the same
files on processes that run at their own speed and write in pieces of any size, whatever the schedule:
nobody reads a file that is not finished, and nobody waits for ever. -/
theorem C129_scripts {P : Pickling Obj} (hP : ReadsBack P) (hn : 0 < n) {depth : Nat}
    {cs : List (FileCall Obj)} {objs objs' : Fin n → List Obj} {fs fs' : FileSys Obj}
    (h : ScriptRuns P depth cs objs fs objs' fs') (hp : ProperFiles fs)
    (hr : ∀ p o, fs.get p = some o → (P.dump o).2 = none) {files : FileSys (List Nat)}
    (hf : ProperFiles files) (hF : PicklesOf P files.get fs) :
    FilesRunTo files (fun r : Fin n => fileScript P n depth r cs (objs r)) (fun r => .ok (objs' r))
      fun p => (fs'.get p).map fun o => (P.dump o).1 := by
  obtain ⟨d, h1⟩ := planned_script hP hn h hF hp fun p o ho => hP o (hr p o ho)
  exact h1.runs hn hf rfl

/-- **C129.** So several processes that save without globalizing, each an object of its own, and load it
again get it back, whatever the schedule (under the conditions on names and files of C64). -/
theorem C129_own_files {P : Pickling Obj} (hP : ReadsBack P) (hn : 2 ≤ n) {depth : Nat}
    {objs : Fin n → List Obj} {fs : FileSys Obj} {i : Nat} {o : Fin n → Obj}
    (ho : ∀ r, (objs r)[i]? = some (o r)) (hd : ∀ r, (P.dump (o r)).2 = none) {f : FileName}
    (hname : ProperName f) (hdir : f.dir = []) (hres : "proc_".toList.isPrefixOf f.full = false)
    (hnone : fs.get f.file = none)
    (hclean : ∀ p ∈ globProc fs f, ∃ r, r < n ∧ p = (f.proc r).file) (hp : ProperFiles fs)
    (hr : ∀ p o, fs.get p = some o → (P.dump o).2 = none) {files : FileSys (List Nat)}
    (hf : ProperFiles files) (hF : PicklesOf P files.get fs) (localize : Bool) :
    ∃ F, FilesRunTo files (fun r : Fin n => fileScript P n (depth + 2) r
        [.save i f false, .load f localize] (objs r)) (fun r => .ok (objs r ++ [o r])) F ∧
      (∀ r : Fin n, F (f.proc r).file = some (P.dump (o r)).1) ∧
      ∀ p, (∀ r : Fin n, p ≠ (f.proc r).file) → F p = files.get p := by
  have hlen : (List.ofFn o).length > 1 := by simp; omega
  have hs : saveObject P.toGlobal 0 (List.ofFn o) f false fs = .ok (List.ofFn o, fs.putAll f (List.ofFn o)) := by
    unfold saveObject
    simp only [Bool.false_eq_true, if_false, if_pos hlen]
    rfl
  have hset : ∀ r, (objs r).set i (o r) = objs r := by
    intro r
    apply List.ext_getElem?
    intro j
    rw [List.getElem?_set]
    by_cases hj : i = j
    · subst hj
      have hi := (List.getElem?_eq_some_iff.1 (ho r)).1
      rw [if_pos rfl, if_pos hi, ho r]
    · rw [if_neg hj]
  have hscript : ScriptRuns P (depth + 2) [.save i f false, .load f localize] objs fs
      (fun r => (objs r).set i (o r) ++ [o r]) (fs.putAll f (List.ofFn o)) := by
    refine .cons (.save o o ho hs hd ?_) (.cons (.load o fun r => ?_) .nil)
    · rintro (h | h)
      · cases h
      · omega
    · have := (C64_own_files_partial P.toGlobal 0 (List.ofFn o) _ f fs _ hname hp hdir hres (by simp; omega)
        hnone (by simpa using hclean) hs (P.toLocal r) localize depth r (by simp)).2
      simpa using this
  have hrun := C129_scripts hP (by omega) hscript hp hr hf hF
  simp only [hset] at hrun
  obtain ⟨-, h2, h3, -⟩ := putAll_all f (List.ofFn o) fs hp
  refine ⟨_, hrun, fun r => ?_, fun p hpf => ?_⟩
  · simp only [h2 r (o r) (by simp)]
    rfl
  · simp only [h3 p fun r hr => hpf ⟨r, by simpa using hr⟩]
    exact (hF p).symm

/-- **C129.** So processes that save globalized objects, which are then the same on all of them, and load
the file again get this object, whatever the schedule and whatever was there before. -/
theorem C129_one_file {P : Pickling Obj} (hP : ReadsBack P) (hn : 0 < n) {depth : Nat}
    {objs : Fin n → List Obj} {fs : FileSys Obj} {i : Nat} {o : Fin n → Obj} {g : Obj}
    (ho : ∀ r, (objs r)[i]? = some (o r))
    (hg : P.toGlobal (List.ofFn o) = .ok (List.ofFn fun _ : Fin n => g)) (hd : (P.dump g).2 = none)
    (f : FileName) (hp : ProperFiles fs) (hr : ∀ p o, fs.get p = some o → (P.dump o).2 = none)
    {files : FileSys (List Nat)} (hf : ProperFiles files) (hF : PicklesOf P files.get fs) :
    ∃ F, FilesRunTo files (fun r : Fin n => fileScript P n (depth + 1) r
        [.save i f true, .load f false] (objs r)) (fun r => .ok ((objs r).set i g ++ [g])) F ∧
      F f.file = some (P.dump g).1 ∧ ∀ p, p ≠ f.file → F p = files.get p := by
  have hs : saveObject P.toGlobal 0 (List.ofFn o) f true fs =
      .ok (List.ofFn fun _ : Fin n => g, fs.put f.file g) := by
    unfold saveObject
    simp only [if_true, hg, ok_bind]
    have : FileSys.putOne fs f (List.ofFn fun _ : Fin n => g) 0 = fs.put f.file g := by
      simp [FileSys.putOne, hn]
    rw [this]
    rfl
  have hscript : ScriptRuns P (depth + 1) [.save i f true, .load f false] objs fs
      (fun r => (objs r).set i g ++ [g]) (fs.put f.file g) := by
    refine .cons (.save o (fun _ => g) ho hs (fun _ => hd) fun _ _ _ => rfl)
      (.cons (.load (fun _ => g) fun r => ?_) .nil)
    obtain ⟨-, -, x, hx, h1, -⟩ := C64_one_file_partial P.toGlobal 0 (List.ofFn o) _ f true fs _
      (Or.inl rfl) hs (by simpa using hn)
    have hx : x = g := by
      simp [hn] at hx
      exact hx.symm
    subst hx
    exact (h1 (P.toLocal r) n r depth).1
  refine ⟨_, C129_scripts hP hn hscript hp hr hf hF, ?_, fun p hpf => ?_⟩
  · simp only [get_put_same]
    rfl
  · simp only [get_put_other _ _ hpf]
    exact (hF p).symm

/-! ### A process that cannot write -/

/-- A step of a process by itself. -/
inductive Onward : FProc Obj R → FProc Obj R → Prop
  | look (k : FileSys (List Nat) → FProc Obj R) (fs : FileSys (List Nat)) : Onward (.look k) (k fs)
  | create (p : Path) (bs : List Nat) (k : FProc Obj R) : Onward (.create p bs k) (.writeOn p 0 bs k)
  | write (p : Path) (pos pos' : Nat) (bs bs' : List Nat) (k : FProc Obj R) :
      Onward (.write p pos bs k) (.writeOn p pos' bs' k)

theorem fturn_cases (st : FSys n Obj R) (q : Fin n) (b : Nat) :
    (st.turn q b).procs = st.procs ∨
    (st.turn q b).procs = FSys.settle (Function.update st.procs q ((st.procs q).1, true)) ∨
    ∃ x, Onward (st.procs q).1 x ∧ (st.turn q b).procs = Function.update st.procs q (x, false) := by
  unfold FSys.turn
  cases (st.procs q).1 with
  | ret => exact Or.inl rfl
  | raise => exact Or.inl rfl
  | coll => exact Or.inr (Or.inl rfl)
  | look k => exact Or.inr (Or.inr ⟨_, .look k st.files, rfl⟩)
  | create p bs k => exact Or.inr (Or.inr ⟨_, .create p bs k, rfl⟩)
  | write p pos bs k => exact Or.inr (Or.inr ⟨_, .write p pos _ bs _ k, rfl⟩)

theorem fsettle_cases (ps : Fin n → FProc Obj R × Bool) :
    FSys.settle ps = ps ∨ ∃ ms, (∀ a, (FSys.posted (ps a)).isSome) ∧
      FSys.settle ps = fun a => FSys.resume ms (ps a) := by
  by_cases hs : ∀ i, (FSys.posted (ps i)).isSome
  · simp only [FSys.settle, mapM_id_ofFn, dif_pos hs]
    split
    · exact Or.inr ⟨_, hs, rfl⟩
    · exact Or.inl rfl
  · push Not at hs
    obtain ⟨i, hi⟩ := hs
    exact Or.inl (fsettle_missing (i := i) (by simpa using hi))

/-- Writing, and then `q`. -/
def Writes (q p : FProc Obj R) : Prop :=
  (∃ f bs, p = .create f bs q) ∨ (∃ f pos bs, p = .write f pos bs q) ∨ p = q

theorem writes_on {q : FProc Obj R} (f : Path) (pos : Nat) (bs : List Nat) :
    Writes q (.writeOn f pos bs q) := by
  cases bs with
  | nil => exact Or.inr (Or.inr rfl)
  | cons b bs => exact Or.inr (Or.inl ⟨f, pos, b :: bs, rfl⟩)

theorem writes_onward {q p x : FProc Obj R} (h : Writes q p) (hq : ∀ y, ¬ Onward q y)
    (hx : Onward p x) : Writes q x := by
  rcases h with ⟨f, bs, rfl⟩ | ⟨f, pos, bs, rfl⟩ | rfl
  · cases hx; exact writes_on _ _ _
  · cases hx; exact writes_on _ _ _
  · exact absurd hx (hq x)

/-- The two parts of a save in which the pickle of process `j` raises. -/
def Stuck (e : Err) (c : FProc Obj R) (i j : Fin n) (ki kj : List (Option Obj) → FProc Obj R)
    (pi pj : FProc Obj R) (st : FSys n Obj R) : Prop :=
  (((st.procs i).1 = pi ∨ (st.procs i).1 = .coll .barrier none ki) ∧
    ((st.procs j).1 = pj ∨ (st.procs j).1 = .coll .barrier none kj)) ∨
  (Writes c (st.procs i).1 ∧ Writes (.raise e) (st.procs j).1)

/-- **C129, negation.** Without globalizing, a process whose pickle raises (an object that cannot be pickled,
a full disk) leaves all processes that have nothing to complain about waiting for ever, whatever the
schedule. -/
theorem C129_negation_dump {P : Pickling Obj} {o : Fin n → Obj} {f : FileName} {i j : Fin n} {e : Err}
    (hi : (P.dump (o i)).2 = none) (hj : (P.dump (o j)).2 = some e) (files : FileSys (List Nat))
    (sched : List (Fin n × Nat)) :
    (((FSys.start files fun r : Fin n => fileSave P n r (o r) f false).run sched).procs i).1.result =
      none := by
  let k : Fin n → List (Option Obj) → FProc Obj Obj := fun r _ =>
    .create (savePath n false f r) (P.dump (o r)).1 <| endDump (P.dump (o r)).2 <|
      .coll .barrier none fun _ => .ret (o r)
  let c : FProc Obj Obj := .coll .barrier none fun _ => .ret (o i)
  have hsave : ∀ r : Fin n, fileSave P n r (o r) f false = .look fun _ => .coll .barrier none (k r) :=
    fun _ => rfl
  have hki : ∀ ms, Writes c (k i ms) := fun ms => Or.inl ⟨_, _, by simp only [k, hi]; rfl⟩
  have hkj : ∀ ms, Writes (.raise e) (k j ms) := fun ms => Or.inl ⟨_, _, by simp only [k, hj]; rfl⟩
  have hc : ∀ y, ¬ Onward c y := by
    intro y hy
    change Onward (FProc.coll .barrier none fun _ => .ret (o i)) y at hy
    cases hy
  have key : Stuck e c i j (k i) (k j) (fileSave P n i (o i) f false) (fileSave P n j (o j) f false)
      ((FSys.start files fun r : Fin n => fileSave P n r (o r) f false).run sched) := by
    suffices ∀ st : FSys n Obj Obj, Stuck e c i j (k i) (k j) (fileSave P n i (o i) f false)
        (fileSave P n j (o j) f false) st → Stuck e c i j (k i) (k j) (fileSave P n i (o i) f false)
        (fileSave P n j (o j) f false) (st.run sched) from this _ (Or.inl ⟨Or.inl rfl, Or.inl rfl⟩)
    induction sched with
    | nil => exact fun st h => h
    | cons a sched ih =>
      refine fun st h => ih (st.turn a.1 a.2) ?_
      have hupd : ∀ r, (Function.update st.procs a.1 ((st.procs a.1).1, true) r).1 = (st.procs r).1 := by
        intro r
        by_cases hr : r = a.1
        · subst hr; simp
        · rw [Function.update_of_ne hr]
      rcases fturn_cases st a.1 a.2 with h1 | h1 | ⟨x, hx, h1⟩
      · unfold Stuck
        rw [h1]
        exact h
      · rcases fsettle_cases (Function.update st.procs a.1 ((st.procs a.1).1, true)) with
          h2 | ⟨ms, h2, h3⟩
        · unfold Stuck
          rw [h1, h2]
          simp only [hupd]
          exact h
        · have hcoll : ∀ r, ∃ t m kk, (st.procs r).1 = .coll t m kk := by
            intro r
            have h4 := h2 r
            have h5 := hupd r
            generalize Function.update st.procs a.1 ((st.procs a.1).1, true) r = s at h4 h5
            obtain ⟨p, w⟩ := s
            simp only at h5
            rw [← h5]
            cases p <;> simp [FSys.posted] at h4
            exact ⟨_, _, _, rfl⟩
          have hres : ∀ r kk, (st.procs r).1 = .coll .barrier none kk →
              ((st.turn a.1 a.2).procs r).1 = kk ms := by
            intro r kk hr
            rw [h1, h3]
            have h5 := hupd r
            rw [hr] at h5
            dsimp only
            generalize Function.update st.procs a.1 ((st.procs a.1).1, true) r = s at h5
            obtain ⟨p, w⟩ := s
            simp only at h5
            rw [h5]
            rfl
          rcases h with ⟨h4, h5⟩ | ⟨h4, h5⟩
          · have h4 : (st.procs i).1 = .coll .barrier none (k i) := by
              rcases h4 with h4 | h4
              · obtain ⟨t, m, kk, h6⟩ := hcoll i
                rw [h4] at h6
                cases h6
              · exact h4
            have h5 : (st.procs j).1 = .coll .barrier none (k j) := by
              rcases h5 with h5 | h5
              · obtain ⟨t, m, kk, h6⟩ := hcoll j
                rw [h5] at h6
                cases h6
              · exact h5
            right
            rw [hres i _ h4, hres j _ h5]
            exact ⟨hki ms, hkj ms⟩
          · exfalso
            obtain ⟨t, m, kk, h6⟩ := hcoll j
            rcases h5 with ⟨f', bs, h7⟩ | ⟨f', pos, bs, h7⟩ | h7
            all_goals
              rw [h7] at h6
              cases h6
      · have hp : ∀ r, (r = a.1 ∧ ((st.turn a.1 a.2).procs r).1 = x) ∨
            ((st.turn a.1 a.2).procs r).1 = (st.procs r).1 := by
          intro r
          rw [h1]
          by_cases hr : r = a.1
          · subst hr
            exact Or.inl ⟨rfl, by simp⟩
          · right
            rw [Function.update_of_ne hr]
        rcases h with ⟨h4, h5⟩ | ⟨h4, h5⟩
        · left
          constructor
          · rcases hp i with ⟨h6, h7⟩ | h7
            · rw [h7]
              rw [← h6] at hx
              rcases h4 with h4 | h4
              · rw [h4, hsave] at hx
                cases hx
                exact Or.inr rfl
              · rw [h4] at hx
                cases hx
            · rw [h7]; exact h4
          · rcases hp j with ⟨h6, h7⟩ | h7
            · rw [h7]
              rw [← h6] at hx
              rcases h5 with h5 | h5
              · rw [h5, hsave] at hx
                cases hx
                exact Or.inr rfl
              · rw [h5] at hx
                cases hx
            · rw [h7]; exact h5
        · right
          constructor
          · rcases hp i with ⟨h6, h7⟩ | h7
            · rw [h7]
              rw [← h6] at hx
              exact writes_onward h4 hc hx
            · rw [h7]; exact h4
          · rcases hp j with ⟨h6, h7⟩ | h7
            · rw [h7]
              rw [← h6] at hx
              exact writes_onward h5 (fun y hy => by cases hy) hx
            · rw [h7]; exact h5
  rcases key with ⟨h1 | h1, -⟩ | ⟨h1, -⟩
  · rw [h1]; rfl
  · rw [h1]; rfl
  · rcases h1 with ⟨f', bs, h1⟩ | ⟨f', pos, bs, h1⟩ | h1
    all_goals
      rw [h1]
      rfl

/-! ### Concrete cases -/

namespace Ex

/-- Objects with a global and a local number; 13 cannot be pickled. -/
def pkl : Pickling SavedObj where
  dump o := ([o.1, o.2], if o.1 = 13 then some .typeError else none)
  loads
    | [a, b] => some (a, b)
    | _ => none
  toGlobal os := .ok (os.map fun _ => ((os.map Prod.fst).sum, 0))
  toLocal r o := .ok (o.1, r)

theorem reads_pkl : ReadsBack pkl := fun _ _ => rfl

/-- The hypotheses of `C129_own_files` are met by two processes. -/
example := C129_own_files (n := 2) (P := pkl) reads_pkl (le_refl _) (depth := 3) (fs := []) (i := 0)
  (objs := fun r => [(7, (r : Nat))]) (o := fun r => (7, (r : Nat))) (fun _ => rfl) (fun _ => rfl)
  (f := setName) ⟨Or.inl rfl, by decide⟩ rfl (by decide) rfl (by simp [globProc]) List.nodup_nil
  (by intro p o h; cases h) (files := []) List.nodup_nil (fun _ => rfl) false

/-- The hypotheses of `C129_one_file` are met by two processes. -/
example := C129_one_file (n := 2) (P := pkl) reads_pkl (by norm_num) (depth := 3) (fs := []) (i := 0)
  (objs := fun r => [(7, (r : Nat))]) (o := fun r => (7, (r : Nat))) (g := (14, 0)) (fun _ => rfl) rfl rfl
  inDir List.nodup_nil (by intro p o h; cases h) (files := []) List.nodup_nil (fun _ => rfl)

/-- Save, load, change what was loaded, save it under the same name, load again. -/
def cycle : List (FileCall SavedObj) :=
  [.save 0 setName true, .load setName true, .work fun r os => .ok (os.map fun o => (o.1 + 1, o.2 + r)),
    .save 1 setName true, .load setName true]

/-- A schedule of two processes: the first is ahead, and both write in small pieces. -/
def unevenly : List (Fin 2 × Nat) :=
  (List.replicate 40 [((0 : Fin 2), 0), (0, 0), (0, 1), (1, 0), (0, 0)]).flatten

example : (((FSys.start [] fun r : Fin 2 => fileScript pkl 2 5 r cycle [(7, (r : Nat))]).run
      unevenly).procs 1).1.result.bind Except.toOption = some [(15, 1), (30, 0), (30, 1)] ∧
    (((FSys.start [] fun r : Fin 2 => fileScript pkl 2 5 r cycle [(7, (r : Nat))]).run
      unevenly).procs 0).1.result.bind Except.toOption = some [(15, 0), (30, 0), (30, 0)] := by
  decide +kernel

/-- The same in step. -/
example : ScriptRuns (n := 2) pkl 5 cycle (fun r => [(7, (r : Nat))]) []
    (fun r => [(15, (r : Nat)), (30, 0), (30, (r : Nat))]) [("set.p".toList, (30, 0))] := by
  refine .cons (objs' := fun _ => [(14, 0)]) (.save (fun r => (7, (r : Nat))) (fun _ => (14, 0))
    (fun _ => rfl) rfl (fun _ => rfl) fun _ _ _ => rfl) ?_
  refine .cons (objs' := fun r => [(14, 0), (14, (r : Nat))]) (.load (fun r => (14, (r : Nat)))
    fun r => ?_) ?_
  · rfl
  refine .cons (objs' := fun r => [(15, (r : Nat)), (15, (r : Nat) + r)]) (.work fun r => ?_) ?_
  · simp
  refine .cons (objs' := fun r => [(15, (r : Nat)), (30, 0)]) (.save (fun r => (15, (r : Nat) + r))
    (fun _ => (30, 0)) (fun _ => rfl) rfl (fun _ => rfl) fun _ _ _ => rfl) ?_
  exact .cons (.load (fun r => (30, (r : Nat))) fun r => rfl) .nil

/-- Process 1 cannot pickle its object: process 0 waits. -/
example : (((FSys.start [] fun r : Fin 2 => fileSave pkl 2 r (if r = 0 then (7, 0) else (13, 1)) setName
      false).run unevenly).procs 0).1.result.isSome = false ∧
    ((((FSys.start [] fun r : Fin 2 => fileSave pkl 2 r (if r = 0 then (7, 0) else (13, 1)) setName
      false).run unevenly).procs 1).1.result.bind errOf) = some .typeError := by
  decide +kernel

end Ex

end BET
