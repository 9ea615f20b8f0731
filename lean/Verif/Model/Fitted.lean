import Verif.Model.CalculateR
import Verif.Model.Pdf

/-!
# Inversion to fitted measures (/repo/bet/calculateP/calculateR.py:126-167, 324-411)
-/

set_option autoImplicit false

namespace BET

variable {K : Type} [Field K] [LinearOrder K]

/-- `gaussian_kde(numbers, weights=weights)` in one dimension: a function, or an exception. -/
abbrev KdeFit1 (K : Type) := List K → List K → Except Err (K → K)

/-- The entry for parameter `i` and cluster `j` of `param_marginals`
(/repo/bet/calculateP/calculateR.py:157-161); `none` is `None`. -/
def kdeCluster (fit : KdeFit1 K) (x : List (List K)) (st : Inversion K) (i j : Nat) :
    Except Err (Option (K → K)) := do
  let r ← getIdx st.r j
  match r with
  | some r => do
      let ptr ← getIdx st.ptr j
      let sel ← takeIdx ptr x
      let col ← sel.mapM fun row => getIdx row i
      (fit col r).map some
  | none => pure none

/-- /repo/bet/calculateP/calculateR.py:126-167 `invert_to_kde`: `param_marginals` and `cluster_weights`,
which also become the parameters of the probability measure of the input set. -/
def invertKde (F : KdeFit K) (fit : KdeFit1 K) (dim : Nat) (x : List (List K)) (ps os : RSet K) :
    Except Err (List (List (Option (K → K))) × List K) := do
  let q ← invert F ps os
  let cw ← clusterWeights q.1.num q.1.regO os.values.length
  let ms ← (List.range dim).mapM fun i => (List.range q.1.num).mapM (kdeCluster fit x q.2 i)
  pure (ms, cw)

/-- The densities of all parameters and clusters; calling `None` raises `TypeError`. -/
def presentAll (ms : List (List (Option (K → K)))) : Except Err (List (List (K → K))) :=
  ms.mapM fun fs => fs.mapM (orErr .typeError)

/-- `pdf` with what `invert_to_kde` left (/repo/bet/sample.py:84-89, 923-946). -/
def pdfKde (P : Pdfs K) (dim : Nat) (m : List (List (Option (K → K))) × List K) (vals : Vals K) :
    Except Err (List K) := do
  let _ ← raiseIf (vals.toMat.1 ≠ dim) .dimNotMatching
  let ms ← presentAll m.1
  pdfOf P dim (.kde ms m.2) vals

/-! ### Random variables -/

/-- `scipy.stats`: the names of the shape parameters of a distribution (`none`: there is no such
distribution) and `fit(data, **args)`. -/
structure RvLib (K : Type) where
  shapes : String → Option (List String)
  fit : RvSpec K → List K → Except Err (List K)

/-- The names under which fitted numbers are stored (/repo/bet/calculateP/calculateR.py:397-410). -/
def storedArgs : List K → Except Err (List (String × K))
  | [l, s] => .ok [("loc", l), ("scale", s)]
  | [a, l, s] => .ok [("a", a), ("loc", l), ("scale", s)]
  | [a, b, l, s] => .ok [("a", a), ("b", b), ("loc", l), ("scale", s)]
  | _ => .error .wrongInput

/-- The body of the loop over the dimensions (/repo/bet/calculateP/calculateR.py:393-411). -/
def fitDim (S : RvLib K) (specs : List (RvSpec K)) (vals : List (List K)) (i : Nat) :
    Except Err (RvSpec K) := do
  let sp ← getIdx specs i
  let _ ← orErr .attributeError (S.shapes sp.name)
  let col ← vals.mapM fun row => getIdx row i
  let a ← S.fit sp col
  let args ← storedArgs a
  pure ⟨sp.name, args⟩

/-- /repo/bet/calculateP/calculateR.py:324-411 `invert_to_random_variable`; `rnd` is `np.round`.  The
argument `rv` is treated as in `random_sample_set` without a domain (lines 357-366). -/
def invertRv (F : KdeFit K) (S : RvLib K) (rnd : K → Int) (m dim : Nat) (x : List (List K))
    (ps os : RSet K) (rv : RvArg K) : Except Err (List (RvSpec K)) := do
  let specs ← rv.perDim dim none
  let tot ← totalWeights F x.length ps os
  let vals ← reweighted rnd m x tot
  (List.range dim).mapM (fitDim S specs vals)

/-- Whether `pdf(x, **args)` accepts the keywords: all shape parameters are given, and nothing but
these, `loc` and `scale`. -/
def acceptsArgs (shapes : List String) (args : List (String × K)) : Bool :=
  (args.all fun a => (shapes ++ ["loc", "scale"]).contains a.1) &&
    shapes.all fun s => (args.map Prod.fst).contains s

/-- `getattr(stats, name).pdf(x, **args)` (/repo/bet/sample.py:141-145), with the exceptions for unknown
names and wrong keywords. -/
def rvMarginalPdf (S : RvLib K) (P : Pdfs K) (specs : List (RvSpec K)) (vals : Vals K) (i : Nat) :
    Except Err (List K) := do
  let sp ← getIdx specs i
  let shapes ← orErr .attributeError (S.shapes sp.name)
  let _ ← raiseIf (acceptsArgs shapes sp.args = false) .typeError
  marginalPdf P true (.rv specs) vals i

end BET
