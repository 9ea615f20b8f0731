import Verif.Model.PlotVoronoi
import Mathlib.Data.List.Sort

/-!
# Plots of marginals (/repo/bet/postProcess/plotP.py:174-366, 463-568)

A plot is modelled by the arguments of the drawing calls. Rank 0 draws, which is the rank modelled here; the
others only wait at the barrier. A dictionary is the list of its items. A division by a bin width zero, `inf`
or `nan`, raises here.
-/

set_option autoImplicit false

namespace BET

variable {K : Type} [Field K] [LinearOrder K]

/-- /repo/bet/postProcess/plotP.py:207-217 (and 286-296, 498-508): the set whose domain and reference value
are used. The input set of a discretization is used even if there is an emulated one; `None` has no
attributes. -/
def PostObj.axesSet : PostObj K → Except Err (SampleSet K)
  | .disc d => orErr .attributeError d.input
  | .set s => .ok s
  | .other => .error .badObject

/-- `sorted(marginals.keys())` for integers, /repo/bet/postProcess/plotP.py:220. -/
def sortItems {α : Type} (items : List (Nat × α)) : List (Nat × α) :=
  items.insertionSort fun a b => a.1 ≤ b.1

/-- `sorted(marginals.keys())` for pairs, /repo/bet/postProcess/plotP.py:303 (and 515). -/
def sortPairs {α : Type} (items : List ((Nat × Nat) × α)) : List ((Nat × Nat) × α) :=
  items.insertionSort fun a b => a.1.1 < b.1.1 ∨ (a.1.1 = b.1.1 ∧ a.1.2 ≤ b.1.2)

/-- `bins[i][1] - bins[i][0]`, by which the marginals are divided. -/
def binWidth (bins : List (List K)) (i : Nat) : Except Err K := do
  let e ← getIdx bins i
  let y ← getIdx e 1
  let x ← getIdx e 0
  raiseIf (y - x = 0) .zeroDivision
  pure (y - x)

/-- `lam_domain[i]`; `None` cannot be indexed. -/
def domainRow (s : SampleSet K) (i : Nat) : Except Err (K × K) := do
  let d ← orErr .typeError s.domain
  getIdx d i

/-- /repo/bet/postProcess/plotP.py:234-237 (and 315-320): the label of an axis. -/
def axisLabel (labels : Option (List String)) (i : Nat) : Except Err String :=
  match labels with
  | none => .ok ("$\\lambda_{" ++ toString (i + 1) ++ "}$")
  | some l => getIdx l i

/-- What `plot_1D_marginal_probs` draws in one figure: the points of the curve, the upper limit of the axis,
the point that marks the reference value, the label and the file. -/
structure MargPlot (K : Type) where
  xs : List K
  ys : List K
  ymax : K
  ref : Option (K × K)
  label : String
  file : String
deriving DecidableEq

/-- /repo/bet/postProcess/plotP.py:229-233: the mark of the reference value. -/
def refMark (ref : Option (List K)) (i : Nat) (top : K) : Except Err (Option (K × K)) := do
  let r ← refCoord ref i
  pure (r.map fun x => (x, 2 / 100 * (105 / 100) * top))

/-- /repo/bet/postProcess/plotP.py:221-248: one figure. `ax.plot` needs arrays of the same length. -/
def margFigure (s : SampleSet K) (bins : List (List K)) (ref : Option (List K))
    (labels : Option (List String)) (filename ext : String) (item : Nat × List K) :
    Except Err (MargPlot K) := do
  let d ← domainRow s item.1
  let e ← getIdx bins item.1
  raiseIf (e.length = 0) .valueError
  let w ← binWidth bins item.1
  raiseIf (e.length - 1 ≠ item.2.length) .valueError
  let ys := item.2.map fun p => p / w
  let top ← npMax ys
  let r ← refMark ref item.1 top
  let label ← axisLabel labels item.1
  pure ⟨linspace d.1 d.2 (e.length - 1), ys, 105 / 100 * top, r, label,
    filename ++ "_1D_" ++ toString item.1 ++ ext⟩

/-- /repo/bet/postProcess/plotP.py:174-250 `plot_1D_marginal_probs`. -/
def plot1DMarginals (marginals : List (Nat × List K)) (bins : List (List K)) (o : PostObj K)
    (lamRef : Option (List K)) (labels : Option (List String)) (filename ext : String) :
    Except Err (List (MargPlot K)) := do
  let s ← o.axesSet
  (sortItems marginals).mapM
    (margFigure s bins (refPoint lamRef s.referenceValue) labels filename ext)

/-- The dictionary that `calculate_1D_marginal_probs` returns, /repo/bet/postProcess/plotP.py:89-98. -/
def marginalItems {α : Type} (margs : List α) : List (Nat × α) :=
  margs.zipIdx.map Prod.swap

/-! ## Two dimensions -/

/-- `a.transpose()` for a matrix given by its rows. -/
def transposed (m : List (List K)) : List (List K) :=
  (List.range (m.headD []).length).map fun l => m.map fun row => row.getD l 0

/-- What `ax.imshow` (or `ax.contour`) gets in one figure: the rows of the image, its extent, the upper
limit of the colours; and the limits of the axes, the marks of reference values, labels and file. -/
structure MargImage (K : Type) where
  data : List (List K)
  extent : (K × K) × (K × K)
  vmax : K
  axis : (K × K) × (K × K)
  refs : List (K × K)
  ref : Option (K × K)
  labels : String × String
  file : String

/-- What `ax.plot_surface` gets: the coordinates of the grid and the heights. -/
structure MargSurface (K : Type) where
  x : List (List K)
  y : List (List K)
  z : List (List K)
  labels : String × String
  file : String

/-- `lam_ref[i], lam_ref[j]`, /repo/bet/postProcess/plotP.py:313-314 (and 537-538). -/
def refMark2 (ref : Option (List K)) (i j : Nat) : Except Err (Option (K × K)) :=
  match ref with
  | none => .ok none
  | some x => do
    let a ← getIdx x i
    let b ← getIdx x j
    pure (some (a, b))

/-- The image of one pair, /repo/bet/postProcess/plotP.py:307-312 (and 519-534). -/
def margImage (bins : List (List K)) (item : (Nat × Nat) × List (List K)) :
    Except Err (List (List K) × K) := do
  let v ← binWidth bins item.1.1
  let w ← binWidth bins item.1.2
  let top ← npMax item.2.flatten
  pure ((transposed item.2).map fun row => row.map fun p => p / (v * w), top / (v * w))

/-- /repo/bet/postProcess/plotP.py:304-338: one figure. -/
def margFigure2 (s : SampleSet K) (bins : List (List K)) (ref : Option (List K))
    (labels : Option (List String)) (filename ext : String) (item : (Nat × Nat) × List (List K)) :
    Except Err (MargImage K) := do
  let im ← margImage bins item
  let d1 ← domainRow s item.1.1
  let d2 ← domainRow s item.1.2
  let r ← refMark2 ref item.1.1 item.1.2
  let l1 ← axisLabel labels item.1.1
  let l2 ← axisLabel labels item.1.2
  pure ⟨im.1, (d1, d2), im.2, (d1, d2), [], r, (l1, l2),
    filename ++ "_2D_" ++ toString item.1.1 ++ "_" ++ toString item.1.2 ++ ext⟩

/-- `bins[i][:-1] + np.diff(bins[i]) / 2`, /repo/bet/postProcess/plotP.py:344-345. -/
def binCenters (e : List K) : List K :=
  List.zipWith (fun x y => x + (y - x) / 2) e.dropLast e.tail

/-- /repo/bet/postProcess/plotP.py:341-365: one surface. `np.meshgrid(..., indexing='ij')`; the shapes must
agree to be broadcast (here they have to be equal). -/
def margSurface (bins : List (List K)) (filename ext : String) (item : (Nat × Nat) × List (List K)) :
    Except Err (MargSurface K) := do
  let e ← getIdx bins item.1.1
  let f ← getIdx bins item.1.2
  raiseIf (item.2.map List.length ≠ (binCenters e).map fun _ => (binCenters f).length) .valueError
  pure ⟨(binCenters e).map fun x => (binCenters f).map fun _ => x,
    (binCenters e).map fun _ => binCenters f, item.2,
    ("$\\lambda_{" ++ toString (item.1.1 + 1) ++ "}$", "$\\lambda_{" ++ toString (item.1.2 + 1) ++ "}$"),
    filename ++ "_surf_" ++ toString item.1.1 ++ "_" ++ toString item.1.2 ++ ext⟩

/-- /repo/bet/postProcess/plotP.py:253-367 `plot_2D_marginal_probs`. -/
def plot2DMarginals (marginals : List ((Nat × Nat) × List (List K))) (bins : List (List K))
    (o : PostObj K) (lamRef : Option (List K)) (surface : Bool) (labels : Option (List String))
    (filename ext : String) : Except Err (List (MargImage K) × List (MargSurface K)) := do
  let s ← o.axesSet
  let ims ← (sortPairs marginals).mapM
    (margFigure2 s bins (refPoint lamRef s.referenceValue) labels filename ext)
  let surfs ← (if surface then sortPairs marginals else []).mapM (margSurface bins filename ext)
  pure (ims, surfs)

/-- `lam_refs[:, i], lam_refs[:, j]`, /repo/bet/postProcess/plotP.py:535-536. -/
def refMarks (refs : Option (List (List K))) (i j : Nat) : Except Err (List (K × K)) :=
  (refs.getD []).mapM fun x => do
    let a ← getIdx x i
    let b ← getIdx x j
    pure (a, b)

/-- `plot_domain[i]` or `lam_domain[i]`, /repo/bet/postProcess/plotP.py:553-558. -/
def contourAxis (plotDomain : Option (List (K × K))) (d : K × K) (i : Nat) : Except Err (K × K) :=
  match plotDomain with
  | none => .ok d
  | some p => getIdx p i

/-- /repo/bet/postProcess/plotP.py:516-565: one figure of contours. Lines 520-527 compute a grid which is
not used. -/
def contourFigure (s : SampleSet K) (bins : List (List K)) (refs : Option (List (List K)))
    (ref : Option (List K)) (plotDomain : Option (List (K × K))) (labels : Option (List String))
    (filename ext : String) (item : (Nat × Nat) × List (List K)) : Except Err (MargImage K) := do
  let im ← margImage bins item
  let d1 ← domainRow s item.1.1
  let d2 ← domainRow s item.1.2
  let rs ← refMarks refs item.1.1 item.1.2
  let r ← refMark2 ref item.1.1 item.1.2
  let l1 ← axisLabel labels item.1.1
  let l2 ← axisLabel labels item.1.2
  let a1 ← contourAxis plotDomain d1 item.1.1
  let a2 ← contourAxis plotDomain d2 item.1.2
  pure ⟨im.1, (d1, d2), im.2, (a1, a2), rs, r, (l1, l2),
    filename ++ "_2D_contours_" ++ toString item.1.1 ++ "_" ++ toString item.1.2 ++ ext⟩

/-- /repo/bet/postProcess/plotP.py:463-568 `plot_2D_marginal_contours`. -/
def plotContours (marginals : List ((Nat × Nat) × List (List K))) (bins : List (List K)) (o : PostObj K)
    (lamRef : Option (List K)) (lamRefs : Option (List (List K))) (plotDomain : Option (List (K × K)))
    (labels : Option (List String)) (filename ext : String) : Except Err (List (MargImage K)) := do
  let s ← o.axesSet
  (sortPairs marginals).mapM
    (contourFigure s bins lamRefs (refPoint lamRef s.referenceValue) plotDomain labels filename ext)

end BET
