import Verif.Model.Spmd
import Verif.Model.ChooseQois

/-!
# Choosing QoIs on processes that run at their own speed (/repo/bet/sensitivity/chooseQoIs.py)
-/

set_option autoImplicit false

namespace BET

/-- What the processes send: nothing, the parts of a list of sets of QoIs, rows with their singular
values, a tensor in memory order, a list of good sets, a count, or a result of the root. -/
inductive QMsg (S K R : Type)
  | none
  | parts (p : List (List (List Nat)))
  | rows (r : List (OptRow S K))
  | flat (t : List K)
  | good (g : List (List Nat))
  | count (n : Nat)
  | table (t : R)

namespace QMsg

variable {S K R : Type}

def toParts : QMsg S K R → List (List (List Nat))
  | .parts p => p
  | _ => []

def toRows : QMsg S K R → List (OptRow S K)
  | .rows r => r
  | _ => []

def toFlat : QMsg S K R → List K
  | .flat t => t
  | _ => []

def toGood : QMsg S K R → List (List Nat)
  | .good g => g
  | _ => []

def toTable : QMsg S K R → Option R
  | .table t => some t
  | _ => Option.none

end QMsg

section
variable {S K R : Type}

/-- What only the root computes. -/
def onRoot {α : Type} (rank : Nat) (x other : α) : α := if rank = 0 then x else other

/-- `comm.scatter(p, root=0)`: process `rank` gets entry `rank` of the list of the root. -/
def scatterParts (rank : Nat) (p : List (List (List Nat))) : Proc (QMsg S K R) (List (List Nat)) :=
  .coll .scatter (onRoot rank (.parts p) .none) fun ms =>
    .ret ((ms.head?.map QMsg.toParts).getD [] |>.getD rank [])

/-- `comm.Barrier()`. -/
def barrierQ : Proc (QMsg S K R) Unit := .coll .barrier .none fun _ => .ret ()

/-- `comm.gather(m, root=0)`: the root gets what all sent, the others `None` (here nothing). -/
def gatherQ (rank : Nat) (m : QMsg S K R) : Proc (QMsg S K R) (List (QMsg S K R)) :=
  .coll .gather m fun ms => .ret (onRoot rank ms [])

/-- `comm.bcast(t, root=0)`: all get what the root has. -/
def bcastQ (rank : Nat) (t : R) : Proc (QMsg S K R) R :=
  .coll .bcast (onRoot rank (.table t) .none) fun ms =>
    Proc.ofExcept (orErr .typeError (ms.head?.bind QMsg.toTable))

end

section
variable {S K : Type} [LinearOrder S] [OrderTop S] [Zero K]

/-- The two results of `chooseOptQoIs_verbose`. -/
abbrev OptTable (S K : Type) := List (S × List Nat) × List (List (List K))

/-- The results of `find_good_sets` that are broadcast: the good and the best sets. -/
abbrev GoodTable (S : Type) := List (List Nat) × List (S × List Nat)

/-- /repo/bet/sensitivity/chooseQoIs.py:333-346: the root orders what it has gathered. -/
def orderGathered (argsort : List S → List Nat) (size nc k n : Nat)
    (rows flat : List (QMsg S K (OptTable S K))) : OptTable S K :=
  let all := (rows.map QMsg.toRows).flatten
  let order := argsort (all.map fun r => r.val)
  (((reorder order all).map fun r => (r.val, r.set)).take n,
    (order.map (tensorSlice nc k (n * size) (flat.map QMsg.toFlat).flatten)).take n)

/-- /repo/bet/sensitivity/chooseQoIs.py:289-352 of `chooseOptQoIs_verbose` on process `rank`.  The
two arrays that are broadcast one after the other go in one message here. -/
def procChooseOpt (argsort : List S → List Nat) (score : List Nat → Except Err (S × List (List K)))
    (size nc k n : Nat) (qois : List Nat) (rank : Nat) :
    Proc (QMsg S K (OptTable S K)) (OptTable S K) := do
  let mine ← scatterParts rank (onRoot rank (arraySplit size (combos k qois)) [])
  let best ← Proc.ofExcept (mine.foldlM (optStep argsort score) (emptyRows nc k n))
  barrierQ
  let rows ← gatherQ rank (.rows best)
  let flat ← gatherQ rank (.flat (flatTensor nc k best))
  bcastQ rank (onRoot rank (orderGathered argsort size nc k n rows flat) ([], []))

/-- One round of the loop of /repo/bet/sensitivity/chooseQoIs.py:488-537 of `find_good_sets` on
process `rank`: `min_ind` is computed by all, the extensions by the root. -/
def procGoodRound (argsort : List S → List Nat) (enum : List Nat → List Nat)
    (score : List Nat → Except Err (S × List (List K))) (size : Nat) (tol : S) (unique : List Nat)
    (rank : Nat) (st : GoodState S K) (g : List Nat) :
    Proc (QMsg S K (GoodTable S)) (GoodState S K) := do
  let exts ← Proc.ofExcept (extensions enum unique g)
  let mine ← scatterParts rank (onRoot rank (arraySplit size exts) [])
  Proc.ofExcept (mine.foldlM (goodStep argsort score tol) st)

/-- /repo/bet/sensitivity/chooseQoIs.py:547-563: the root organizes the best and the good sets. -/
def organizeGathered (argsort : List S → List Nat) (n : Nat)
    (good best : List (QMsg S K (GoodTable S))) : GoodTable S :=
  ((good.map QMsg.toGood).flatten,
    ((orderRows argsort (uniqueRows (best.map QMsg.toRows).flatten)).map
      fun r => (r.val, r.set)).take n)

/-- /repo/bet/sensitivity/chooseQoIs.py:476-573 of `find_good_sets` on process `rank`: the good and
the best sets, and the slices of its own tensor of singular values.  The two arrays that are
broadcast one after the other go in one message here; the gathered number of sets is only
logged. -/
def procFindGoodSets (argsort : List S → List Nat) (enum : List Nat → List Nat)
    (score : List Nat → Except Err (S × List (List K))) (size nc k n : Nat) (tol : S)
    (unique : List Nat) (prev : List (List Nat)) (rank : Nat) :
    Proc (QMsg S K (GoodTable S)) (GoodTable S × List (List (List K))) := do
  barrierQ
  let st ← prev.foldlM (procGoodRound argsort enum score size tol unique rank)
    ⟨[], emptyRows nc k n⟩
  barrierQ
  let good ← gatherQ rank (.good st.good)
  let best ← gatherQ rank (.rows st.best)
  let _ ← gatherQ rank (.count st.good.length)
  barrierQ
  let t ← bcastQ rank (onRoot rank (organizeGathered argsort n good best) ([], []))
  pure (t, st.best.map fun r => r.sv)

/-- The loop of /repo/bet/sensitivity/chooseQoIs.py:680-694 on process `rank`. -/
def procLargeLoop (argsort : List S → List Nat) (enum : List Nat → List Nat)
    (score : List Nat → Except Err (S × List (List K))) (size nc n : Nat) (tol : S)
    (unique : List Nat) (rank : Nat) :
    Nat → Proc (QMsg S K (GoodTable S)) (List (List Nat) × List (List (S × List Nat)))
  | 0 => .ret (unique.map fun i => [i], [])
  | steps + 1 => do
    let st ← procLargeLoop argsort enum score size nc n tol unique rank steps
    let r ← procFindGoodSets argsort enum score size nc (steps + 2) n tol unique st.1 rank
    pure (r.1.1, st.2 ++ [r.1.2])

end

section
variable {S K : Type} [LinearOrder S] [OrderTop S] [Field K] [LinearOrder K]

/-- /repo/bet/sensitivity/chooseQoIs.py:195-234 `chooseOptQoIs`. -/
def chooseOptQois (argsort : List S → List Nat) (enum : List Nat → List Nat) (norm2 : List K → K)
    (score : List Nat → Except Err (S × List (List K))) (size dim : Nat)
    (jac : Option (List (List (List K)))) (qois : Option (List Nat)) (k n : Option Nat) (tol : K)
    (removeZeros : Bool) : Except Err (List (S × List Nat)) := do
  let r ← chooseOptVerbose argsort enum norm2 score size dim jac qois k n tol removeZeros
  pure r.1

/-- /repo/bet/sensitivity/chooseQoIs.py:195-352 `chooseOptQoIs` (`chooseOptQoIs_verbose` without the
tensor) on process `rank`. -/
def procChooseOptQois (argsort : List S → List Nat) (enum : List Nat → List Nat)
    (norm2 : List K → K) (score : List Nat → Except Err (S × List (List K))) (size dim : Nat)
    (jac : Option (List (List (List K)))) (qois : Option (List Nat)) (k n : Option Nat) (tol : K)
    (removeZeros : Bool) (rank : Nat) : Proc (QMsg S K (OptTable S K)) (List (S × List Nat)) := do
  let G ← Proc.ofExcept (orErr .valueError jac)
  let u ← Proc.ofExcept (uniqueVecs enum norm2 jac tol qois removeZeros)
  let r ← procChooseOpt argsort score size G.length (k.getD dim) (n.getD 10) u rank
  pure r.1

/-- /repo/bet/sensitivity/chooseQoIs.py:576-694 `chooseOptQoIs_large` (the first result of
`chooseOptQoIs_large_verbose`) on process `rank`. -/
def procChooseOptLarge (argsort : List S → List Nat) (enum : List Nat → List Nat)
    (norm2 : List K → K) (score : List Nat → Except Err (S × List (List K))) (size dim : Nat)
    (jac : Option (List (List (List K)))) (qois : Option (List Nat)) (maxQois n : Option Nat)
    (innerTol : Option K) (tol : Option S) (removeZeros : Bool) (rank : Nat) :
    Proc (QMsg S K (GoodTable S)) (List (List (S × List Nat))) := do
  let G ← Proc.ofExcept (orErr .valueError jac)
  let u ← Proc.ofExcept (uniqueVecs enum norm2 jac (innerTol.getD 1) qois removeZeros)
  let st ← procLargeLoop argsort enum score size G.length (n.getD 10) (tol.getD ⊤) u rank
    (maxQois.getD dim - 1)
  pure st.2

end

end BET
