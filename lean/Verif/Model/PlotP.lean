import Verif.Model.PostTools
import Verif.Model.Linspace

/-!
# Marginals of the input probabilities (/repo/bet/postProcess/plotP.py)

`np.histogram` and `np.histogramdd` are modelled by their documentation: bin `k` is
`[e_k, e_(k+1))`, the last bin is closed, values outside the edges are dropped and decreasing edges
raise `ValueError`.
-/

set_option autoImplicit false

namespace BET

variable {K : Type} [Field K] [LinearOrder K]

/-- The argument `nbins` (/repo/bet/postProcess/plotP.py:37): an integer or an array of integers. -/
inductive NBins
  | int (n : Nat)
  | arr (l : List Nat)

/-- /repo/bet/postProcess/plotP.py:79-80 (and 149-150). -/
def NBins.toArr (dim : Nat) : NBins → List Nat
  | .int n => List.replicate dim n
  | .arr l => l

/-- /repo/bet/postProcess/plotP.py:59-69 (and 125-135): which set is used. -/
def PostObj.marginalSet : PostObj K → Except Err (SampleSet K)
  | .disc d => orErr .missingAttribute (d.emInput.or d.input)
  | .set s => .ok s
  | .other => .error .badObject

/-- /repo/bet/postProcess/plotP.py:71-76 (and 137-142). -/
def SampleSet.localProbs (size : Nat) (s : SampleSet K) : Except Err (SampleSet K) :=
  if s.loc.probabilities.isSome then .ok s
  else do
    raiseIf s.glob.probabilities.isNone .missingAttribute
    s.globalToLocal size

/-- /repo/bet/postProcess/plotP.py:82-87 (and 152-157): the edges of the bins of each dimension. -/
def SampleSet.marginalBins (s : SampleSet K) (nbins : List Nat) : Except Err (List (List K)) :=
  (List.range s.dim).mapM fun i => do
    let dom ← orErr .typeError s.domain
    let r ← getIdx dom i
    let n ← getIdx nbins i
    pure (linspace r.1 r.2 (n + 1))

/-- A value in bin `k` of `np.histogram`, used in /repo/bet/postProcess/plotP.py:92-93 and 163-165. -/
def inBin (edges : List K) (k : Nat) (v : K) : Bool :=
  decide (edges.getD k 0 ≤ v) &&
    (decide (v < edges.getD (k + 1) 0) ||
      (decide (k + 2 = edges.length) && decide (v = edges.getD (k + 1) 0)))

/-- The check of the edges in `np.histogram` (/repo/bet/postProcess/plotP.py:92-93, 163-165). -/
def increasing (edges : List K) : Bool :=
  (List.range (edges.length - 1)).all fun k => decide (edges.getD k 0 ≤ edges.getD (k + 1) 0)

/-- `np.histogram(vals, bins=edges, weights=w)`, /repo/bet/postProcess/plotP.py:92-93. -/
def histogram (edges vals w : List K) : Except Err (List K) := do
  raiseIf (!increasing edges) .valueError
  raiseIf (vals.length ≠ w.length) .valueError
  pure ((List.range (edges.length - 1)).map fun k =>
    (List.zipWith (fun v x => if inBin edges k v then x else 0) vals w).sum)

/-- `np.histogramdd` of pairs, /repo/bet/postProcess/plotP.py:163-165. -/
def histogram2 (e f : List K) (pts : List (K × K)) (w : List K) : Except Err (List (List K)) := do
  raiseIf (!increasing e) .valueError
  raiseIf (!increasing f) .valueError
  raiseIf (pts.length ≠ w.length) .valueError
  pure ((List.range (e.length - 1)).map fun k => (List.range (f.length - 1)).map fun l =>
    (List.zipWith (fun v x => if inBin e k v.1 && inBin f l v.2 then x else 0) pts w).sum)

/-- Elementwise `comm.Allreduce(..., op=MPI.SUM)` of arrays of length `n`
(/repo/bet/postProcess/plotP.py:95 and 168-169). -/
def allreduceVec (n : Nat) (xs : List (List K)) : List K :=
  (List.range n).map fun k => allreduceSum (xs.map fun x => x.getD k 0)

/-- The same for matrices. -/
def allreduceMat (m n : Nat) (xs : List (List (List K))) : List (List K) :=
  (List.range m).map fun k => allreduceVec n (xs.map fun x => x.getD k [])

/-- /repo/bet/postProcess/plotP.py:92-96: one marginal. -/
def SampleSet.marginal (s : SampleSet K) (bins : List (List K)) (i : Nat) : Except Err (List K) := do
  let v ← orErr .typeError s.loc.values
  let p ← orErr .typeError s.loc.probabilities
  let e ← getIdx bins i
  let hs ← (v.zip p).mapM fun (c : List (List K) × List K) => do
    let col ← c.1.mapM fun row => getIdx row i
    histogram e col c.2
  pure (allreduceVec (e.length - 1) hs)

/-- /repo/bet/postProcess/plotP.py:163-170: one joint marginal. -/
def SampleSet.marginal2 (s : SampleSet K) (bins : List (List K)) (i j : Nat) :
    Except Err (List (List K)) := do
  let v ← orErr .typeError s.loc.values
  let p ← orErr .typeError s.loc.probabilities
  let e ← getIdx bins i
  let f ← getIdx bins j
  let hs ← (v.zip p).mapM fun (c : List (List K) × List K) => do
    let x ← c.1.mapM fun row => getIdx row i
    let y ← c.1.mapM fun row => getIdx row j
    histogram2 e f (x.zip y) c.2
  pure (allreduceMat (e.length - 1) (f.length - 1) hs)

/-- What the functions return, and the set after the call. -/
structure Marginals (K α : Type) where
  set : SampleSet K
  bins : List (List K)
  margs : List α

/-- /repo/bet/postProcess/plotP.py:37-98 `calculate_1D_marginal_probs`. -/
def calculate1D (size : Nat) (nbins : NBins) (o : PostObj K) : Except Err (Marginals K (List K)) := do
  let s ← o.marginalSet
  let s ← s.localProbs size
  let bins ← s.marginalBins (nbins.toArr s.dim)
  let m ← (List.range s.dim).mapM (s.marginal bins)
  pure ⟨s, bins, m⟩

/-- The pairs of the loop /repo/bet/postProcess/plotP.py:161-162. -/
def dimPairs (dim : Nat) : List (Nat × Nat) :=
  (List.range dim).flatMap fun i => ((List.range dim).drop (i + 1)).map fun j => (i, j)

/-- /repo/bet/postProcess/plotP.py:101-172 `calculate_2D_marginal_probs`; the dictionary is the list
of its items. -/
def calculate2D (size : Nat) (nbins : NBins) (o : PostObj K) :
    Except Err (Marginals K ((Nat × Nat) × List (List K))) := do
  let s ← o.marginalSet
  let s ← s.localProbs size
  raiseIf (s.dim < 2) .dimNotMatching
  let bins ← s.marginalBins (nbins.toArr s.dim)
  let m ← (dimPairs s.dim).mapM fun (q : Nat × Nat) => do
    let t ← s.marginal2 bins q.1 q.2
    pure (q, t)
  pure ⟨s, bins, m⟩

end BET
