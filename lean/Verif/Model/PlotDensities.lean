import Verif.Model.Pdf
import Verif.Model.Linspace
import Verif.Model.CalculateR

/-!
# Plots of marginal densities (/repo/bet/postProcess/plotP.py:571-673)

A plot is modelled by the arguments of the drawing calls.
-/

set_option autoImplicit false

namespace BET

variable {K : Type} [Field K] [LinearOrder K]

/-- What `plot_1d_marginal_densities` uses of a sample set: values, names of the parameters, the initial and the
updated measure, and whether there are probabilities (for Voronoi sets). -/
structure DensSet (K : Type) where
  values : List (List K)
  labels : Option (List String)
  init : Option (FittedMeasure K)
  updated : Option (FittedMeasure K)
  hasProbs : Bool

/-- An object in `sets`: a sample set, a discretization, or something else. -/
inductive DensObj (K : Type)
  | set (s : DensSet K)
  | disc (input output : Option (DensSet K))
  | other

/-- The argument `sets`: one object or a list (or tuple) of them. -/
inductive DensArg (K : Type)
  | one (o : DensObj K)
  | many (l : List (DensObj K))

/-- /repo/bet/postProcess/plotP.py:603-604: `sets = [sets]`; another single object cannot be iterated
over. -/
def DensArg.toList : DensArg K → Except Err (List (DensObj K))
  | .one .other => .error .typeError
  | .one o => .ok [o]
  | .many l => .ok l

/-- /repo/bet/postProcess/plotP.py:605-616. -/
def DensObj.get (inputs : Bool) : DensObj K → Except Err (Option (DensSet K))
  | .set s => .ok (some s)
  | .disc i o => .ok (if inputs then i else o)
  | .other => .error .badObject

/-- /repo/bet/postProcess/plotP.py:619-622. -/
def plotLabel (label : Option String) (sets : List (DensSet K)) (i : Nat) : Except Err String :=
  match label with
  | some l => .ok l
  | none => do
    let s ← getIdx sets 0
    match s.labels with
    | some ls => getIdx ls i
    | none => pure ("Parameter " ++ toString i)

/-- The default legend of one set, /repo/bet/postProcess/plotP.py:626-630 and 633-637. -/
def legendOf (i : Nat) (kind suffix : String) (js : Nat × DensSet K) : Except Err String :=
  match js.2.labels with
  | none => .ok ("Set " ++ toString js.1 ++ kind)
  | some ls => do
    let l ← getIdx ls i
    pure (l ++ suffix)

/-- /repo/bet/postProcess/plotP.py:624-637: the legends. -/
def legends (given : Option (List String)) (i : Nat) (kind suffix : String) (sets : List (DensSet K)) :
    Except Err (List String) :=
  match given with
  | some l => .ok l
  | none => ((List.range sets.length).zip sets).mapM (legendOf i kind suffix)

/-- /repo/bet/postProcess/plotP.py:643-648: the range of one set widens the range found before; `None` stands
for `x_min = inf`, `x_max = -inf`. -/
def widen (i : Nat) (r : Option (K × K)) (s : DensSet K) : Except Err (Option (K × K)) := do
  let col ← s.values.mapM fun row => getIdx row i
  let lo ← npMin col
  let hi ← npMax col
  pure (some ((r.map fun q => if lo < q.1 then lo else q.1).getD lo,
    (r.map fun q => if q.2 < hi then hi else q.2).getD hi))

/-- /repo/bet/postProcess/plotP.py:639-652: the abscissae. Without any set the numbers are `nan`; here that
raises. -/
def densityAxis (interval : Option (K × K)) (numPoints : Nat) (sets : List (DensSet K)) (i : Nat) :
    Except Err (List K) :=
  match interval with
  | some r => .ok (linspace r.1 r.2 numPoints)
  | none => do
    let r ← sets.foldlM (widen i) none
    let r ← orErr .zeroDivision r
    let delt := 1 / 4 * (r.2 - r.1)
    pure (linspace (r.1 - delt) (r.2 + delt) 100)

/-- A curve: its points, its entry in the legend, and whether it is dashed. -/
structure Curve (K : Type) where
  xs : List K
  ys : List K
  legend : String
  dashed : Bool
deriving DecidableEq

/-- /repo/bet/postProcess/plotP.py:659-661: the initial density. -/
def initCurve (P : Pdfs K) (initials : Bool) (x : List K) (i : Nat) (legend : List String)
    (ks : Nat × DensSet K) : Except Err (List (Curve K)) :=
  match ks.2.init with
  | none => .ok []
  | some m =>
    if initials then do
      let mar ← marginalPdfInit P m (.vec x) i
      let l ← getIdx legend ks.1
      pure [⟨x, mar, l, false⟩]
    else .ok []

/-- /repo/bet/postProcess/plotP.py:662-664: the updated density. -/
def updatedCurve (P : Pdfs K) (x : List K) (i : Nat) (legend : List String) (ks : Nat × DensSet K) :
    Except Err (List (Curve K)) :=
  match ks.2.updated with
  | none => .ok []
  | some m => do
    let mar ← marginalPdf P ks.2.hasProbs m (.vec x) i
    let l ← getIdx legend ks.1
    pure [⟨x, mar, l, true⟩]

/-- /repo/bet/postProcess/plotP.py:658-664: one set. -/
def setCurves (P : Pdfs K) (initials : Bool) (x : List K) (i : Nat) (legend legendInit : List String)
    (ks : Nat × DensSet K) : Except Err (List (Curve K)) := do
  let a ← initCurve P initials x i legendInit ks
  let b ← updatedCurve P x i legend ks
  pure (a ++ b)

/-- What is drawn: the curves and the label of the axis. -/
structure DensPlot (K : Type) where
  curves : List (Curve K)
  label : String

/-- /repo/bet/postProcess/plotP.py:571-673 `plot_1d_marginal_densities`. The input (or output) set of a
discretization may be `None`, which has no attributes: this is checked here before the other steps. -/
def plot1DDensities (P : Pdfs K) (sets : DensArg K) (i : Nat) (interval : Option (K × K)) (numPoints : Nat)
    (label : Option String) (setsLabel setsLabelInit : Option (List String)) (initials inputs : Bool) :
    Except Err (DensPlot K) := do
  let objs ← sets.toList
  let found ← objs.mapM (DensObj.get inputs)
  let sets ← found.mapM (orErr .attributeError)
  let label ← plotLabel label sets i
  let legend ← legends setsLabel i " Updated" "" sets
  let legendInit ← legends setsLabelInit i " Initial" " Initial" sets
  let x ← densityAxis interval numPoints sets i
  let curves ← ((List.range sets.length).zip sets).mapM (setCurves P initials x i legend legendInit)
  pure ⟨curves.flatten, label⟩

end BET
