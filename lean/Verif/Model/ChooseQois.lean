import Verif.Model.Comm
import Mathlib.Order.WithBot
import Mathlib.Algebra.Order.Field.Basic
import Mathlib.Data.List.Sort

/-!
# Choosing quantities of interest (/repo/bet/sensitivity/chooseQoIs.py)

`enum` is the order in which `list(set(...))` lists a set; `argsort` is `numpy.argsort`, which need
not be stable. A value (average measure or skewness) is an element of a linear order `S` with a
greatest element, the infinite value. A gradient tensor has at least one centre.
-/

set_option autoImplicit false

namespace BET

/-- `itertools.combinations(l, k)`. -/
def combos {α : Type} : Nat → List α → List (List α)
  | 0, _ => [[]]
  | _ + 1, [] => []
  | k + 1, a :: l => (combos k l).map (a :: ·) ++ combos (k + 1) l

/-- `x[order]` for a list of positions. -/
def reorder {α : Type} (order : List Nat) (l : List α) : List α := order.filterMap fun i => l[i]?

/-! ### `find_unique_vecs` -/

section
variable {K : Type} [Field K] [LinearOrder K]

/-- The gradients of QoI `i` at all centres. -/
def qoiColumn (G : List (List (List K))) (i : Nat) : Except Err (List (List K)) :=
  G.mapM fun m => getIdx m i

/-- Lines 389 and 401-404: each gradient is divided by its 2-norm, or by 1 if it is zero. -/
def unitGradients (norm2 : List K → K) (G : List (List (List K))) : List (List (List K)) :=
  G.map fun m => m.map fun v => v.map fun x => x / (if norm2 v = 0 then 1 else norm2 v)

/-- Lines 392-396: the QoIs with a zero gradient at some centre. -/
def zeroQois (norm2 : List K → K) (G : List (List (List K))) : List Nat :=
  (List.range (G.headD []).length).filter fun i =>
    G.any fun m => decide ((m.map norm2).getD i 1 = 0)

/-- Lines 425-426: the average inner product of two QoIs. (Without centres numpy gives `nan`, the model 0.) -/
def avgInner (G : List (List (List K))) (i j : Nat) : Except Err K := do
  let a ← qoiColumn G i
  let b ← qoiColumn G j
  pure ((List.zipWith (fun v w => (List.zipWith (· * ·) v w).sum) a b).sum / (G.length : K))

/-- The test of lines 429-430. -/
def repeatIf (tol : K) (rep : List Nat) (j : Nat) (p : K) : List Nat :=
  if tol < |p| then rep ++ [j] else rep

/-- One round of the loop of lines 419-430. -/
def repeatStep (G : List (List (List K))) (tol : K) (rep : List Nat) (c : List Nat) :
    Except Err (List Nat) :=
  if c.getD 0 0 ∈ rep ∨ c.getD 1 0 ∈ rep then .ok rep
  else do
    let p ← avgInner G (c.getD 0 0) (c.getD 1 0)
    pure (repeatIf tol rep (c.getD 1 0) p)

/-- /repo/bet/sensitivity/chooseQoIs.py:355-436 `find_unique_vecs`. -/
def uniqueVecs (enum : List Nat → List Nat) (norm2 : List K → K)
    (jac : Option (List (List (List K)))) (tol : K) (qois : Option (List Nat)) (removeZeros : Bool) :
    Except Err (List Nat) := do
  let G ← orErr .valueError jac
  let zeros := if removeZeros then zeroQois norm2 G else []
  let l := enum ((qois.getD (List.range (G.headD []).length)).filter fun i => decide (i ∉ zeros))
  let rep ← (combos 2 l).foldlM (repeatStep (unitGradients norm2 G) tol) []
  pure (enum (l.filter fun i => decide (i ∉ rep)))

/-! ### `calculate_avg_measure` -/

/-- `G[:, qoi_set, :]`, or all of `G`. -/
def selectQois (G : List (List (List K))) : Option (List Nat) → Except Err (List (List (List K)))
  | none => .ok G
  | some q => G.mapM fun m => q.mapM (getIdx m)

/-- /repo/bet/sensitivity/chooseQoIs.py:16-71 `calculate_avg_measure`; `svd` are the singular values
of a matrix. (Without centres numpy gives `nan`, the model infinity.) -/
def avgMeasure (svd : List (List K) → List K) (jac : Option (List (List (List K))))
    (q : Option (List Nat)) (bin : Option K) : Except Err (WithTop K × List (List K)) := do
  let G ← orErr .valueError jac
  let G ← selectQois G q
  let _ ← raiseIf (G.any fun m => m.any fun v => decide (v.length < m.length)) .valueError
  let sv := G.map svd
  let avg := (sv.map List.prod).sum / (G.length : K)
  pure (if avg = 0 then ⊤ else ((bin.getD 1 / avg : K) : WithTop K), sv)

end

/-! ### `chooseOptQoIs_verbose` -/

section
variable {S K : Type} [LinearOrder S] [OrderTop S]

/-- A row of `measure_skewness_indices_mat`, its value and its set of QoIs, with the slice of
`optsingvals_tensor` kept at the same position. -/
structure OptRow (S K : Type) where
  val : S
  set : List Nat
  sv : List (List K)

/-- The rows ordered by value; both arrays are reordered alike. -/
def orderRows (argsort : List S → List Nat) (rows : List (OptRow S K)) : List (OptRow S K) :=
  reorder (argsort (rows.map fun r => r.val)) rows

/-- Lines 316-323 (and 529-537): a row better than the last one replaces it. `-1` is no index of an
empty matrix. -/
def keepBest (argsort : List S → List Nat) (best : List (OptRow S K)) (r : OptRow S K) :
    Except Err (List (OptRow S K)) := do
  let last ← orErr .indexError best.getLast?
  pure (if r.val < last.val then orderRows argsort (best.dropLast ++ [r]) else best)

/-- One round of the loop of lines 308-323; `score c` are the value and the singular values of a set
of QoIs. -/
def optStep (argsort : List S → List Nat) (score : List Nat → Except Err (S × List (List K)))
    (best : List (OptRow S K)) (c : List Nat) : Except Err (List (OptRow S K)) := do
  let v ← score c
  keepBest argsort best ⟨v.1, c, v.2⟩

variable [Zero K]

/-- Lines 303-307 (and 479-485): the initial rows. -/
def emptyRows (nc k n : Nat) : List (OptRow S K) :=
  List.replicate n ⟨⊤, List.replicate k 0, List.replicate nc (List.replicate k 0)⟩

/-- `optsingvals_tensor` of one process in memory order. -/
def flatTensor (nc k : Nat) (rows : List (OptRow S K)) : List K :=
  (List.range nc).flatMap fun c => (List.range k).flatMap fun j =>
    rows.map fun r => (r.sv.getD c []).getD j 0

/-- Lines 337-338, 345-346: the tensors of all processes, one after the other, are given the shape
(centres, QoIs, sets), and the chosen sets are taken; slice `m` of the result. -/
def tensorSlice (nc k total : Nat) (flat : List K) (m : Nat) : List (List K) :=
  (List.range nc).map fun c => (List.range k).map fun j => flat.getD ((c * k + j) * total + m) 0

/-- /repo/bet/sensitivity/chooseQoIs.py:237-352 `chooseOptQoIs_verbose` after the choice of the QoIs
to consider (lines 286-287): the returned rows, and the slices of the returned tensor. -/
def chooseOpt (argsort : List S → List Nat) (score : List Nat → Except Err (S × List (List K)))
    (size nc k n : Nat) (qois : List Nat) : Except Err (List (S × List Nat) × List (List (List K))) := do
  let chunks := arraySplit size (combos k qois)
  let ranks ← chunks.mapM fun cs => cs.foldlM (optStep argsort score) (emptyRows nc k n)
  let rows := ranks.flatten
  let order := (argsort (rows.map fun r => r.val))
  let flat := (ranks.map (flatTensor nc k)).flatten
  pure (((reorder order rows).map fun r => (r.val, r.set)).take n,
    (order.map (tensorSlice nc k (n * size) flat)).take n)

/-! ### `find_good_sets` -/

/-- The state of one process in `find_good_sets`. -/
structure GoodState (S K : Type) where
  good : List (List Nat)
  best : List (OptRow S K)

/-- Lines 490-502: the sets that extend `g` by a larger QoI. -/
def extensions (enum : List Nat → List Nat) (unique : List Nat) (g : List Nat) :
    Except Err (List (List Nat)) := do
  let m ← orErr .valueError g.max?
  pure (((enum (unique.filter fun i => decide (i ∉ g))).filter fun i => decide (m < i)).map
    fun i => g ++ [i])

/-- Lines 524-537 for a set that is good. -/
def addGood (argsort : List S → List Nat) (st : GoodState S K) (r : OptRow S K) :
    Except Err (GoodState S K) := do
  let best ← keepBest argsort st.best r
  pure ⟨st.good ++ [r.set], best⟩

/-- One round of the loop of lines 512-537. -/
def goodStep (argsort : List S → List Nat) (score : List Nat → Except Err (S × List (List K)))
    (tol : S) (st : GoodState S K) (c : List Nat) : Except Err (GoodState S K) := do
  let v ← score c
  if v.1 < tol then addGood argsort st ⟨v.1, c, v.2⟩ else .ok st

/-- `np.unique(best_sets[:, 0], return_index=True)` and line 554: of the rows with equal values
the first is kept, in ascending order. -/
def uniqueRows (rows : List (OptRow S K)) : List (OptRow S K) :=
  ((rows.map fun r => r.val).dedup.insertionSort (· ≤ ·)).filterMap fun v =>
    rows.find? fun r => decide (r.val = v)

/-- /repo/bet/sensitivity/chooseQoIs.py:439-573 `find_good_sets` for sets of size `k - 1`: the good
sets of size `k`, the best sets, and on every process the slices of its tensor of singular values
(line 573 returns it as it is). -/
def findGoodSets (argsort : List S → List Nat) (enum : List Nat → List Nat)
    (score : List Nat → Except Err (S × List (List K))) (size nc k n : Nat) (tol : S)
    (unique : List Nat) (prev : List (List Nat)) :
    Except Err (List (List Nat) × List (S × List Nat) × List (List (List (List K)))) := do
  let exts ← prev.mapM (extensions enum unique)
  let ranks ← (List.range size).mapM fun (r : Nat) =>
    ((exts.map fun e => (arraySplit size e).getD r []).flatten).foldlM (goodStep argsort score tol)
      ⟨[], emptyRows nc k n⟩
  let rows := uniqueRows (ranks.map fun st => st.best).flatten
  pure ((ranks.map fun st => st.good).flatten,
    ((orderRows argsort rows).map fun r => (r.val, r.set)).take n,
    ranks.map fun st => st.best.map fun r => r.sv)

/-- The loop of /repo/bet/sensitivity/chooseQoIs.py:680-694 `chooseOptQoIs_large_verbose`: the good
sets after `steps` rounds, and the best sets of each round. -/
def largeLoop (argsort : List S → List Nat) (enum : List Nat → List Nat)
    (score : List Nat → Except Err (S × List (List K))) (size nc n : Nat) (tol : S)
    (unique : List Nat) : Nat → Except Err (List (List Nat) × List (List (S × List Nat)))
  | 0 => .ok (unique.map fun i => [i], [])
  | steps + 1 => do
    let st ← largeLoop argsort enum score size nc n tol unique steps
    let r ← findGoodSets argsort enum score size nc (steps + 2) n tol unique st.1
    pure (r.1, st.2 ++ [r.2.1])

end

/-- /repo/bet/sensitivity/chooseQoIs.py:237-352 `chooseOptQoIs_verbose`. -/
def chooseOptVerbose {S K : Type} [LinearOrder S] [OrderTop S] [Field K] [LinearOrder K]
    (argsort : List S → List Nat) (enum : List Nat → List Nat) (norm2 : List K → K)
    (score : List Nat → Except Err (S × List (List K))) (size dim : Nat)
    (jac : Option (List (List (List K)))) (qois : Option (List Nat)) (k n : Option Nat) (tol : K)
    (removeZeros : Bool) : Except Err (List (S × List Nat) × List (List (List K))) := do
  let G ← orErr .valueError jac
  let u ← uniqueVecs enum norm2 jac tol qois removeZeros
  chooseOpt argsort score size G.length (k.getD dim) (n.getD 10) u

/-- /repo/bet/sensitivity/chooseQoIs.py:620-694 `chooseOptQoIs_large_verbose`, the best sets of every
size from 2 on. -/
def chooseOptLarge {S K : Type} [LinearOrder S] [OrderTop S] [Field K] [LinearOrder K]
    (argsort : List S → List Nat) (enum : List Nat → List Nat) (norm2 : List K → K)
    (score : List Nat → Except Err (S × List (List K))) (size dim : Nat)
    (jac : Option (List (List (List K)))) (qois : Option (List Nat)) (maxQois n : Option Nat)
    (innerTol : Option K) (tol : Option S) (removeZeros : Bool) :
    Except Err (List (List (S × List Nat))) := do
  let G ← orErr .valueError jac
  let u ← uniqueVecs enum norm2 jac (innerTol.getD 1) qois removeZeros
  let st ← largeLoop argsort enum score size G.length (n.getD 10) (tol.getD ⊤) u
    (maxQois.getD dim - 1)
  pure st.2

end BET
