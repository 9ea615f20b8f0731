import Verif.Model.SpmdChoose
import Verif.Props.Spmd
import Verif.Props.GoodSets
import Verif.Lemmas.Split

/-!
# Choosing QoIs on several processes (C117)
-/

set_option autoImplicit false
set_option linter.unusedSectionVars false
set_option linter.unusedSimpArgs false

namespace BET

open Spec

variable {n : Nat} {S K R : Type}

/-! ### The collectives -/

theorem head_ofFn {α : Type} (hn : 0 < n) (f : Fin n → α) :
    (List.ofFn f).head? = some (f ⟨0, hn⟩) := by
  cases n with
  | zero => exact absurd hn (by omega)
  | succ m => simp [List.ofFn_succ]

theorem arraySplit_ofFn {α : Type} (x : List α) :
    arraySplit n x = List.ofFn fun r : Fin n => (arraySplit n x).getD r [] := by
  apply List.ext_getElem
  · simp [length_arraySplit]
  · intro i h1 h2
    simp [List.getElem?_eq_getElem h1]

theorem fit_scatter (hn : 0 < n) (p : List (List (List Nat))) :
    FitTogether 1 (fun r : Fin n => (scatterParts r (onRoot r p []) :
      Proc (QMsg S K R) (List (List Nat)))) (fun r => .ok (p.getD r [])) := by
  refine .coll .scatter (fun i => onRoot i (.parts (onRoot i p [])) .none) _ (fun i => rfl) ?_
  refine .done fun i => ?_
  rw [head_ofFn hn]
  simp [onRoot, QMsg.toParts, Proc.result]

theorem fit_barrier :
    FitTogether 1 (fun _ : Fin n => (barrierQ : Proc (QMsg S K R) Unit)) (fun _ => .ok ()) :=
  .coll .barrier (fun _ => .none) _ (fun _ => rfl) (.done fun _ => rfl)

theorem fit_gatherQ (m : Fin n → QMsg S K R) :
    FitTogether 1 (fun r : Fin n => gatherQ r (m r)) (fun r => .ok (onRoot r (List.ofFn m) [])) :=
  .coll .gather m _ (fun _ => rfl) (.done fun _ => rfl)

theorem fit_bcast (hn : 0 < n) (t : Fin n → R) :
    FitTogether 1 (fun r : Fin n => (bcastQ r (t r) : Proc (QMsg S K R) R))
      (fun _ => .ok (t ⟨0, hn⟩)) := by
  refine .coll .bcast (fun i => onRoot i (.table (t i)) .none) _ (fun i => rfl) ?_
  refine .done fun i => ?_
  rw [head_ofFn hn]
  simp [onRoot, QMsg.toTable, Proc.result, orErr, Proc.ofExcept]

/-! ### The programs -/

section
variable [LinearOrder S] [OrderTop S] [Zero K]

theorem fit_chooseOpt (hn : 0 < n) {argsort : List S → List Nat}
    {score : List Nat → Except Err (S × List (List K))} {nc k m : Nat} {qois : List Nat}
    {t : OptTable S K} (h : chooseOpt argsort score n nc k m qois = .ok t) :
    ∃ d, FitTogether d (fun r : Fin n => procChooseOpt argsort score n nc k m qois r)
      (fun _ => .ok t) := by
  simp only [chooseOpt, bind_eq_ok, pure_eq_ok] at h
  obtain ⟨ranks, hr, rfl⟩ := h
  rw [arraySplit_ofFn] at hr
  obtain ⟨b, rfl, hb⟩ := mapM_ofFn_ok hr
  have e : FitTogether 1 (fun r : Fin n => (bcastQ (r : Nat) (onRoot (r : Nat)
      (orderGathered argsort n nc k m (onRoot (r : Nat) (List.ofFn fun r => .rows (b r)) [])
        (onRoot (r : Nat) (List.ofFn fun r => .flat (flatTensor nc k (b r))) [])) ([], [])) :
        Proc (QMsg S K (OptTable S K)) (OptTable S K)))
      (fun _ => .ok (((reorder (argsort ((List.ofFn b).flatten.map fun r => r.val))
        (List.ofFn b).flatten).map fun r => (r.val, r.set)).take m,
        ((argsort ((List.ofFn b).flatten.map fun r => r.val)).map (tensorSlice nc k (m * n)
          ((List.ofFn b).map (flatTensor nc k)).flatten)).take m)) := by
    have e := fit_bcast (S := S) (K := K) hn (fun r : Fin n => onRoot (r : Nat)
      (orderGathered argsort n nc k m (onRoot (r : Nat) (List.ofFn fun r => .rows (b r)) [])
        (onRoot (r : Nat) (List.ofFn fun r => .flat (flatTensor nc k (b r))) [])) ([], []))
    simpa only [onRoot, if_true, orderGathered, List.map_ofFn, Function.comp_def, QMsg.toRows,
      QMsg.toFlat] using e
  exact ⟨_, fit_bind' (fit_scatter hn _) (fit_bind_except hb (fit_bind' fit_barrier
    (fit_bind' (fit_gatherQ fun r => .rows (b r))
      (fit_bind' (fit_gatherQ fun r => .flat (flatTensor nc k (b r))) e))))⟩

theorem fit_goodRounds (hn : 0 < n) {argsort : List S → List Nat} {enum : List Nat → List Nat}
    {score : List Nat → Except Err (S × List (List K))} {tol : S} {unique : List Nat}
    (prev : List (List Nat)) {exts : List (List (List Nat))}
    (he : prev.mapM (extensions enum unique) = .ok exts) {st b : Fin n → GoodState S K}
    (h : ∀ r : Fin n, ((exts.map fun e => (arraySplit n e).getD r []).flatten).foldlM
      (goodStep argsort score tol) (st r) = .ok (b r)) :
    ∃ d, FitTogether d (fun r : Fin n =>
      prev.foldlM (procGoodRound argsort enum score n tol unique r) (st r))
      (fun r => .ok (b r)) := by
  induction prev generalizing exts st with
  | nil =>
    rw [List.mapM_nil, pure_eq_ok] at he
    subst he
    have : st = b := by
      funext r
      have := h r
      simp only [List.map_nil, List.flatten_nil, List.foldlM_nil, pure_eq_ok] at this
      exact this
    subst this
    exact ⟨0, fit_ret _⟩
  | cons g prev ih =>
    rw [List.mapM_cons, bind_eq_ok] at he
    obtain ⟨e, he1, he⟩ := he
    rw [bind_eq_ok] at he
    obtain ⟨es, he2, he⟩ := he
    rw [pure_eq_ok] at he
    subst he
    simp only [List.map_cons, List.flatten_cons, List.foldlM_append, bind_eq_ok] at h
    choose c hc hb using h
    obtain ⟨d, hd⟩ := ih he2 hb
    simp only [List.foldlM_cons]
    refine ⟨_, fit_bind' (fit_bind_except (fun _ => he1) (fit_bind' (fit_scatter hn _)
      (fit_except hc))) hd⟩

theorem fit_findGoodSets (hn : 0 < n) {argsort : List S → List Nat} {enum : List Nat → List Nat}
    {score : List Nat → Except Err (S × List (List K))} {nc k m : Nat} {tol : S}
    {unique : List Nat} {prev : List (List Nat)}
    {t : List (List Nat) × List (S × List Nat) × List (List (List (List K)))}
    (h : findGoodSets argsort enum score n nc k m tol unique prev = .ok t) :
    ∃ d, FitTogether d (fun r : Fin n =>
      procFindGoodSets argsort enum score n nc k m tol unique prev r)
      (fun r => .ok ((t.1, t.2.1), t.2.2.getD r [])) := by
  simp only [findGoodSets, bind_eq_ok, pure_eq_ok] at h
  obtain ⟨exts, he, ranks, hr, rfl⟩ := h
  have hrange : List.range n = List.ofFn fun r : Fin n => (r : Nat) := by
    apply List.ext_getElem <;> simp
  rw [hrange] at hr
  obtain ⟨b, rfl, hb⟩ := mapM_ofFn_ok hr
  obtain ⟨d, hd⟩ := fit_goodRounds hn prev he hb
  refine ⟨0 + 1 + 1 + 1 + 1 + 1 + 1 + d + 1, fit_bind' fit_barrier (fit_bind' hd (fit_bind' fit_barrier
    (fit_bind' (fit_gatherQ fun r => .good (b r).good)
      (fit_bind' (fit_gatherQ fun r => .rows (b r).best)
        (fit_bind' (fit_gatherQ fun r => .count (b r).good.length)
          (fit_bind' fit_barrier (fit_bind' (fit_bcast hn _) ?_)))))))⟩
  simp only [onRoot, if_true, organizeGathered, List.map_ofFn, Function.comp_def, QMsg.toGood,
    QMsg.toRows]
  exact .done fun r => by simp [Proc.result, pure]

theorem fit_largeLoop (hn : 0 < n) {argsort : List S → List Nat} {enum : List Nat → List Nat}
    {score : List Nat → Except Err (S × List (List K))} {nc m : Nat} {tol : S} {unique : List Nat}
    (steps : Nat) {t : List (List Nat) × List (List (S × List Nat))}
    (h : largeLoop argsort enum score n nc m tol unique steps = .ok t) :
    ∃ d, FitTogether d (fun r : Fin n =>
      procLargeLoop argsort enum score n nc m tol unique r steps) (fun _ => .ok t) := by
  induction steps generalizing t with
  | zero =>
    simp only [largeLoop, Except.ok.injEq] at h
    subst h
    exact ⟨0, fit_ret _⟩
  | succ steps ih =>
    simp only [largeLoop, bind_eq_ok, pure_eq_ok] at h
    obtain ⟨st, hst, q, hq, rfl⟩ := h
    obtain ⟨d1, h1⟩ := ih hst
    obtain ⟨d2, h2⟩ := fit_findGoodSets hn hq
    exact ⟨_, fit_bind' h1 (fit_bind' h2 (fit_ret _))⟩

/-- **C117.** `chooseOptQoIs_verbose` after the choice of the QoIs to consider, and with it the
scattering of the sets and the gathering of the best ones: on processes that run at their own speed,
whatever the schedule, every process ends with the table and the tensor of the model in which all
processes run in step. -/
theorem C117_verbose (hn : 0 < n) {argsort : List S → List Nat}
    {score : List Nat → Except Err (S × List (List K))} {nc k m : Nat} {qois : List Nat}
    {t : OptTable S K} (h : chooseOpt argsort score n nc k m qois = .ok t) :
    RunsTo (fun r : Fin n => procChooseOpt argsort score n nc k m qois r) (fun _ => .ok t) := by
  obtain ⟨d, hd⟩ := fit_chooseOpt hn h
  exact runsTo_of_fit hn hd

/-- **C117.** `find_good_sets`: every process ends with the same good sets and best sets, and with
its own tensor of singular values. -/
theorem C117_good_sets (hn : 0 < n) {argsort : List S → List Nat} {enum : List Nat → List Nat}
    {score : List Nat → Except Err (S × List (List K))} {nc k m : Nat} {tol : S}
    {unique : List Nat} {prev : List (List Nat)}
    {t : List (List Nat) × List (S × List Nat) × List (List (List (List K)))}
    (h : findGoodSets argsort enum score n nc k m tol unique prev = .ok t) :
    RunsTo (fun r : Fin n => procFindGoodSets argsort enum score n nc k m tol unique prev r)
      (fun r => .ok ((t.1, t.2.1), t.2.2.getD r [])) := by
  obtain ⟨d, hd⟩ := fit_findGoodSets hn h
  exact runsTo_of_fit hn hd

end

section
variable [LinearOrder S] [OrderTop S] [Field K] [LinearOrder K]

/-- **C117.** `chooseOptQoIs`: every process ends with the same table, that of the model in which all
processes run in step. -/
theorem C117_choose (hn : 0 < n) {argsort : List S → List Nat} {enum : List Nat → List Nat}
    {norm2 : List K → K} {score : List Nat → Except Err (S × List (List K))} {dim : Nat}
    {jac : Option (List (List (List K)))} {qois : Option (List Nat)} {k m : Option Nat} {tol : K}
    {removeZeros : Bool} {t : List (S × List Nat)}
    (h : chooseOptQois argsort enum norm2 score n dim jac qois k m tol removeZeros = .ok t) :
    RunsTo (fun r : Fin n =>
      procChooseOptQois argsort enum norm2 score n dim jac qois k m tol removeZeros r)
      (fun _ => .ok t) := by
  simp only [chooseOptQois, chooseOptVerbose, bind_eq_ok, pure_eq_ok] at h
  obtain ⟨q, ⟨G, hG, u, hu, hq⟩, rfl⟩ := h
  obtain ⟨d, hd⟩ := fit_chooseOpt hn hq
  exact runsTo_of_fit hn (fit_bind_except (fun _ => hG) (fit_bind_except (fun _ => hu)
    (fit_bind' hd (fit_ret _))))

/-- **C117.** `chooseOptQoIs_large` likewise, over all sizes of sets. -/
theorem C117_large (hn : 0 < n) {argsort : List S → List Nat} {enum : List Nat → List Nat}
    {norm2 : List K → K} {score : List Nat → Except Err (S × List (List K))} {dim : Nat}
    {jac : Option (List (List (List K)))} {qois : Option (List Nat)} {maxQois m : Option Nat}
    {innerTol : Option K} {tol : Option S} {removeZeros : Bool} {t : List (List (S × List Nat))}
    (h : chooseOptLarge argsort enum norm2 score n dim jac qois maxQois m innerTol tol
      removeZeros = .ok t) :
    RunsTo (fun r : Fin n => procChooseOptLarge argsort enum norm2 score n dim jac qois maxQois m
      innerTol tol removeZeros r) (fun _ => .ok t) := by
  simp only [chooseOptLarge, bind_eq_ok, pure_eq_ok] at h
  obtain ⟨G, hG, u, hu, st, hst, rfl⟩ := h
  obtain ⟨d, hd⟩ := fit_largeLoop hn _ hst
  exact runsTo_of_fit hn (fit_bind_except (fun _ => hG) (fit_bind_except (fun _ => hu)
    (fit_bind' hd (fit_ret _))))

end

/-- **C117, negation.** When the measure raises for every set of QoIs (as it does when there are more
QoIs in a set than the input has dimensions) and there are fewer sets than processes, the process
with the first set raises, but every process without a set waits for ever. -/
theorem C117_negation_hang [LinearOrder S] [OrderTop S] [Zero K] (hn : 0 < n)
    {argsort : List S → List Nat} {score : List Nat → Except Err (S × List (List K))} {e : Err}
    {nc k m : Nat} {qois : List Nat}
    (hscore : ∀ c ∈ combos k qois, score c = .error e) (hne : combos k qois ≠ [])
    {j : Fin n} (hj : (combos k qois).length ≤ j) (sched : List (Fin n)) :
    (((Sys.start fun r : Fin n => procChooseOpt argsort score n nc k m qois r).run sched)
      j).1.result = none := by
  have hlen : ∀ r : Fin n, ((arraySplit n (combos k qois)).getD r []).length =
      splitLen (combos k qois).length n r := by
    intro r
    have h := arraySplit_lengths n (combos k qois)
    have h' := congrArg (fun l => l.getD (r : Nat) 0) h
    simp only [List.getD_eq_getElem?_getD, List.getElem?_map, List.getElem?_range r.2,
      Option.map_some, Option.getD_some] at h' ⊢
    rw [← h']
    cases (arraySplit n (combos k qois))[(r : Nat)]? <;> rfl
  have hpos : 0 < (combos k qois).length := List.length_pos_iff.mpr hne
  have h0 : ((arraySplit n (combos k qois)).getD ((⟨0, hn⟩ : Fin n) : Nat) []) ≠ [] := by
    intro h
    have := hlen ⟨0, hn⟩
    rw [h] at this
    simp only [splitLen, List.length_nil] at this
    have hj' := j.2
    have hd : (combos k qois).length % n = (combos k qois).length := Nat.mod_eq_of_lt (by omega)
    rw [hd] at this
    rw [if_pos hpos] at this
    exact Nat.succ_ne_zero _ this.symm
  have hjn : ((arraySplit n (combos k qois)).getD (j : Nat) []) = [] := by
    have := hlen j
    have hj' := j.2
    have hd : (combos k qois).length % n = (combos k qois).length := Nat.mod_eq_of_lt (by omega)
    rw [← List.length_eq_zero_iff, this]
    simp only [splitLen, hd]
    rw [if_neg (by omega), Nat.div_eq_of_lt (by omega)]
  refine C114_negation_apart (i := ⟨0, hn⟩) ?_ sched
  refine .coll .scatter (fun i : Fin n => onRoot (i : Nat) (.parts (onRoot (i : Nat)
    (arraySplit n (combos k qois)) [])) .none) _ (fun i => rfl) ?_
  have hp : ((List.ofFn fun i : Fin n => (onRoot (i : Nat) (.parts (onRoot (i : Nat)
      (arraySplit n (combos k qois)) [])) .none : QMsg S K (OptTable S K))).head?.map
      QMsg.toParts).getD [] = arraySplit n (combos k qois) := by
    rw [head_ofFn hn]
    simp [onRoot, QMsg.toParts]
  refine .left (r0 := .error e) ?_ ?_
  · simp only [hp, Proc.bind]
    cases hl : (arraySplit n (combos k qois)).getD ((⟨0, hn⟩ : Fin n) : Nat) [] with
    | nil => exact absurd hl h0
    | cons c cs =>
      have hc : c ∈ combos k qois := by
        rw [← flatten_arraySplit n (combos k qois) hn]
        refine List.mem_flatten.mpr ⟨c :: cs, ?_, by simp⟩
        rw [← hl, List.getD_eq_getElem?_getD,
          List.getElem?_eq_getElem (by rw [length_arraySplit]; exact hn)]
        exact List.getElem_mem _
      simp only [List.foldlM_cons, optStep, hscore c hc]
      rfl
  · simp only [hp, Proc.bind, hjn]
    rfl

namespace Ex

/-- The average measure of two QoIs of one input parameter (no sets of two are possible). -/
def tooMany : List Nat → Except Err (WithTop ℚ × List (List ℚ)) := fun c =>
  avgMeasure (fun _ => []) (some [[[1], [2]]]) (some c) none

/-- **C117, negation.** Two QoIs, one input parameter, two processes, and sets of two QoIs are asked
for: process 0 raises `ValueError`, process 1 waits in the barrier for ever. -/
theorem C117_negation_too_many (sched : List (Fin 2)) :
    (((Sys.start fun r : Fin 2 => procChooseOpt argsortLe tooMany 2 1 2 10 [0, 1] r).run sched)
      1).1.result = none :=
  C117_negation_hang (by norm_num) (e := .valueError) (by decide +kernel) (by decide +kernel)
    (by decide +kernel) sched

example : ((((Sys.start fun r : Fin 2 => procChooseOpt argsortLe tooMany 2 1 2 10 [0, 1] r).run
    [0, 1, 1]) 0).1.result.map fun r => r.toOption.isNone) = some true := by decide +kernel

/-- A measure that prefers small indices. -/
def sumScore : List Nat → Except Err (WithTop ℚ × List (List ℚ)) := fun c =>
  .ok (((c.sum : ℚ) : WithTop ℚ), [c.map fun i => (i : ℚ)])

/-- C117: the hypotheses are met for three QoIs on two processes. -/
example : (chooseOpt argsortLe sumScore 2 1 2 2 [0, 1, 2]).toOption.map (fun t => t.1) =
    some [(((1 : ℚ) : WithTop ℚ), [0, 1]), (((2 : ℚ) : WithTop ℚ), [0, 2])] := by decide +kernel

/-- C117: a schedule in which process 1 is slow. -/
example : ∀ i, ((((Sys.start fun r : Fin 2 => procChooseOpt argsortLe sumScore 2 1 2 2 [0, 1, 2] r).run
    [0, 0, 1, 0, 1, 0, 1, 0, 0, 1, 1, 0]) i).1.result.map fun r => r.toOption.map fun t => t.1) =
    some (some [(((1 : ℚ) : WithTop ℚ), [0, 1]), (((2 : ℚ) : WithTop ℚ), [0, 2])]) := by decide +kernel

/-- C117: and for good sets, where the processes keep tensors of their own. -/
example : ((findGoodSets argsortLe id sumScore 2 1 2 2 ⊤ [0, 1, 2] [[0], [1], [2]]).toOption.map
    fun t => (t.1, t.2.2)) = some ([[0, 1], [1, 2], [0, 2]],
      [[[[0, 1]], [[1, 2]]], [[[0, 2]], [[0, 0]]]]) := by decide +kernel

/-- C117: the whole of `chooseOptQoIs` and `chooseOptQoIs_large` with gradients of three QoIs. -/
example : (chooseOptQois argsortLe id (fun v => (v.map fun x => |x|).sum) sumScore 2 2
    (some [[[1, 0], [0, 1], [1, 1]]]) none none (some 1) 1 true).toOption =
      some [(((1 : ℚ) : WithTop ℚ), [0, 1])] ∧
    (chooseOptLarge argsortLe id (fun v => (v.map fun x => |x|).sum) sumScore 2 2
    (some [[[1, 0], [0, 1], [1, 1]]]) none none (some 1) none none true).toOption =
      some [[(((1 : ℚ) : WithTop ℚ), [0, 1])]] := by decide +kernel

end Ex

end BET
