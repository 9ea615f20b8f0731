import Verif.Model.Discretization
import Verif.Model.ChooseQois

/-!
# Scatter plots (/repo/bet/postProcess/plotDomains.py)

A figure is the result of a function: what it shows and the file it is saved to. Sizes, colour maps (except
whether it is the default one), transparency and the display of figures (`interactive`) are left out.
Sample numbers are natural numbers; an index out of range raises `IndexError`.
-/

set_option autoImplicit false

namespace BET

variable {K : Type}

/-- The argument of a plotting function: a sample set, a discretization, or something else (`None`). -/
inductive SampleObj (K : Type)
  | set (s : SampleSet K)
  | disc (d : Disc K)
  | other

/-- An attribute that may be `None`, as argument. -/
def SampleObj.ofOption : Option (SampleSet K) → SampleObj K
  | some s => .set s
  | none => .other

/-- `isinstance(sample_obj, sample.sample_set_base)`, /repo/bet/postProcess/plotDomains.py:77-78, 287-288,
850-851. -/
def SampleObj.needSet : SampleObj K → Except Err (SampleSet K)
  | .set s => .ok s
  | _ => .error .badObject

/-- `isinstance(my_disc, sample.discretization)`, /repo/bet/postProcess/plotDomains.py:167-168, 226-227,
371-372, 431-432, 615-616, 753-754, 943-944, 1002-1003. -/
def SampleObj.needDisc : SampleObj K → Except Err (Disc K)
  | .disc d => .ok d
  | _ => .error .badObject

/-- What is drawn: for each sample its coordinates and its colour, whether the colour map is the default one,
the label of the colour bar, the reference value, the labels of the axes, and the file. -/
structure ScatterFig (K : Type) where
  points : List (List K)
  colors : List K
  plain : Bool
  cbar : String
  ref : Option (List K)
  labels : List String
  file : Option String
deriving DecidableEq

/-- /repo/bet/postProcess/plotDomains.py:121-124, 331-334, 783-791: the extension is added to a name that
contains no dot. -/
def fullName (filename ext : String) : String :=
  if '.' ∈ filename.toList then filename else filename ++ ext

/-- `a[sample_nos]`. -/
def rowsAt {α : Type} (a : List α) (nos : List Nat) : Except Err (List α) :=
  nos.mapM fun k => getIdx a k

/-- `a[sample_nos, 0]`, `a[sample_nos, 1]`, ... for the first `dim` columns. -/
def firstCols (dim : Nat) (row : List K) : Except Err (List K) :=
  (List.range dim).mapM fun k => getIdx row k

/-- The mark of the reference value, /repo/bet/postProcess/plotDomains.py:114-115, 323-325. -/
def refPointOf (dim : Nat) : Option (List K) → Except Err (Option (List K))
  | none => .ok none
  | some r => do
    let p ← firstCols dim r
    pure (some p)

/-- The default of the label of a colour bar. -/
def rhoLabel : String := "$\\rho_\\mathcal{D}(q)$"

/-- The points and their colours in /repo/bet/postProcess/plotDomains.py:83-107, 292-312. Without `color` all
colours are one. Missing values with both arguments given raise a `TypeError` in the code, here an
`AttributeError` as in the other cases. -/
def scatterData [One K] (dim : Nat) (s : SampleSet K) (nos : Option (List Nat)) (color : Option (List K)) :
    Except Err (List (List K) × List K) := do
  let v ← orErr .attributeError s.glob.values
  let nos := nos.getD (List.range v.length)
  let colors ← rowsAt (color.getD (List.replicate v.length 1)) nos
  let rows ← rowsAt v nos
  let points ← rows.mapM (firstCols dim)
  pure (points, colors)

/-- /repo/bet/postProcess/plotDomains.py:44-131 `scatter_2D`. The axes get labels only if the figure is saved. -/
def scatter2D [One K] (obj : SampleObj K) (nos : Option (List Nat)) (color : Option (List K))
    (ref : Option (List K)) (save : Bool) (xlabel ylabel : String) (cbar : Option String)
    (filename ext : String) : Except Err (ScatterFig K) := do
  let s ← obj.needSet
  let _ ← raiseIf (s.dim ≠ 2) .dimNotMatching
  let q ← scatterData 2 s nos color
  let r ← refPointOf 2 (ref.or s.referenceValue)
  pure
    { points := q.1
      colors := q.2
      plain := color.isNone
      cbar := if color.isNone then "index" else cbar.getD rhoLabel
      ref := r
      labels := if save then [xlabel, ylabel] else []
      file := if save then some (fullName filename ext) else none }

/-- /repo/bet/postProcess/plotDomains.py:252-337 `scatter_3D`. -/
def scatter3D [One K] (obj : SampleObj K) (nos : Option (List Nat)) (color : Option (List K))
    (ref : Option (List K)) (save : Bool) (xlabel ylabel zlabel : String) (cbar : Option String)
    (filename ext : String) : Except Err (ScatterFig K) := do
  let s ← obj.needSet
  let _ ← raiseIf (s.dim ≠ 3) .dimNotMatching
  let q ← scatterData 3 s nos color
  let r ← refPointOf 3 (ref.or s.referenceValue)
  pure
    { points := q.1
      colors := q.2
      plain := color.isNone
      cbar := cbar.getD rhoLabel
      ref := r
      labels := [xlabel, ylabel, zlabel]
      file := if save then some (fullName filename ext) else none }

/-! ### Input and output of a discretization -/

/-- The argument `color`: `None`, an array, or a string. A string is compared with the literals of the module
by identity (`is`), so it matters whether the caller's object is the interned one. -/
inductive ColorArg (K : Type)
  | unset
  | array (c : List K)
  | str (name : String) (interned : Bool)

/-- Input or output. -/
inductive Side
  | input
  | output
deriving DecidableEq

/-- `get_input_sample_set()`, `get_output_sample_set()`. -/
def Side.of (d : Disc K) : Side → Option (SampleSet K)
  | .input => d.input
  | .output => d.output

/-- The label and the array that belong to a string, /repo/bet/postProcess/plotDomains.py:172-186, 231-245,
376-390, 436-450, 948-962, 1007-1021. -/
def namedColor (side : Side) (s : SampleSet K) (name : String) : Option (String × Option (List K)) :=
  let dom := match side with
    | .input => ("\\Lambda", "(\\mathcal{V}_{i,N})$")
    | .output => ("\\mathcal{D}", "(\\mathcal{I}_{j,M})$")
  if name = "volumes" then some ("$\\mu_" ++ dom.1 ++ dom.2, s.glob.volumes)
  else if name = "probabilities" then some ("$\\P_" ++ dom.1 ++ dom.2, s.glob.probabilities)
  else if name = "radii" then some ("$diam_" ++ dom.1 ++ dom.2, s.glob.radii)
  else if name = "normalized radii" then some ("$diam_" ++ dom.1 ++ "_{norm}" ++ dom.2, s.glob.normalizedRadii)
  else if name = "error_id" then some ("error id", s.glob.errorId)
  else none

/-- Whether a string is one of those that `namedColor` knows. -/
def knownColor (name : String) : Bool :=
  name ∈ ["volumes", "probabilities", "radii", "normalized radii", "error_id"]

/-- What the branches on `color` leave in `cbar_label` and `color`; `none` if `color` stays a string. -/
def resolveColor (side : Side) (s : Option (SampleSet K)) (cbar : Option String) :
    ColorArg K → Except Err (Option (Option String × Option (List K)))
  | .unset => .ok (some (cbar, none))
  | .array c => .ok (some (cbar, some c))
  | .str name interned =>
    if interned ∧ knownColor name then do
      let s ← orErr .attributeError s
      let p ← orErr .typeError (namedColor side s name)
      pure (some (some p.1, p.2))
    else .ok none

/-- `scatter_2D` with a string as `color`: after its checks, the string cannot be indexed by sample numbers. -/
def stringColor (obj : SampleObj K) (nos : Option (List Nat)) : Except Err (ScatterFig K) := do
  let s ← obj.needSet
  let _ ← raiseIf (s.dim ≠ 2) .dimNotMatching
  let _ ← raiseIf (nos.isNone ∧ s.glob.values.isNone) .attributeError
  throw .typeError

/-- /repo/bet/postProcess/plotDomains.py:134-190 `scatter_2D_input` and 193-249 `scatter_2D_output`. -/
def scatter2DOf [One K] (side : Side) (obj : SampleObj K) (nos : Option (List Nat)) (color : ColorArg K)
    (ref : Option (List K)) (save : Bool) (xlabel ylabel : String) (cbar : Option String)
    (filename ext : String) : Except Err (ScatterFig K) := do
  let d ← obj.needDisc
  let q ← resolveColor side (side.of d) cbar color
  match q with
  | some p => scatter2D (.ofOption (side.of d)) nos p.2 ref save xlabel ylabel p.1 filename ext
  | none => stringColor (.ofOption (side.of d)) nos

/-- /repo/bet/postProcess/plotDomains.py:344-398 `scatter_3D_input` and 401-458 `scatter_3D_output`. They end
with a call of themselves, not of `scatter_3D`, on the sample set; the body of the second call starts with
the test of the class, which is all of it that matters here: a sample set or `None` is no discretization. -/
def scatter3DOf (side : Side) (obj : SampleObj K) (color : ColorArg K) (cbar : Option String) :
    Except Err (ScatterFig K) := do
  let d ← obj.needDisc
  let _ ← resolveColor side (side.of d) cbar color
  let _ ← (SampleObj.ofOption (side.of d)).needDisc
  throw .recursionError

/-! ### `scatter_rhoD` -/

/-- `row[x - 1]`: for `x = 0` the last entry. -/
def entry1 (row : List K) (x : Nat) : Except Err K :=
  if x = 0 then orErr .indexError row.getLast? else getIdx row (x - 1)

/-- `values[:, [x - 1, y - 1, ...]]`. -/
def entries1 (xs : List Nat) (row : List K) : Except Err (List K) := xs.mapM (entry1 row)

/-- `temp_obj = sample.sample_set(dim)` with `temp_obj.set_values(values)`. -/
def tempSet (dim : Nat) (values : List (List K)) : SampleSet K := { dim := dim, glob := { values := some values } }

/-- `ref_sample[[x - 1, y - 1, ...]]` unless it is `None`. -/
def refEntries1 (xs : List Nat) : Option (List K) → Except Err (Option (List K))
  | none => .ok none
  | some r => do
    let p ← entries1 xs r
    pure (some p)

/-- The label of an axis. -/
def axisName (labelChar : String) (x : Nat) : String := labelChar ++ "{" ++ toString x ++ "}$"

/-- /repo/bet/postProcess/plotDomains.py:503-516: the sample set and the density values. -/
def rhoDSet (obj : SampleObj K) (io : String) (rhoD : Option (List (List K) → List K)) :
    Except Err (Option (SampleSet K) × Option (List K)) :=
  match obj with
  | .disc d =>
    match rhoD with
    | none => .ok (if io = "input" then d.input else d.output, none)
    | some rho => do
      let o ← orErr .attributeError d.output
      let v ← orErr .attributeError o.glob.values
      pure (if io = "input" then d.input else d.output, some (rho v))
  | .set s =>
    if io = "output" then do
      let rho ← orErr .typeError rhoD
      let v ← orErr .attributeError s.glob.values
      pure (some s, some (rho v))
    else .ok (some s, none)
  | .other => .error .badObject

/-- /repo/bet/postProcess/plotDomains.py:524-536: the character of the labels and the prefix of the files. -/
def rhoDNames (labelChar : Option String) (io : String) : String × String :=
  if labelChar.isNone ∧ io = "input" then ("$\\lambda_", "input_")
  else if labelChar.isNone ∧ io = "output" then ("$q_", "output_")
  else ("$x_", "rhoD_")

/-- One pair in /repo/bet/postProcess/plotDomains.py:553-568. -/
def rhoDPair [One K] (v : List (List K)) (nos : Option (List Nat)) (rD : List K)
    (ref : Option (List K)) (save : Bool) (names : String × String) (xy : List Nat) :
    Except Err (ScatterFig K) := do
  let x ← getIdx xy 0
  let y ← getIdx xy 1
  let cols ← v.mapM (entries1 [x, y])
  let r ← refEntries1 [x, y] ref
  scatter2D (.set (tempSet 2 cols)) nos (some rD) r save (axisName names.1 x) (axisName names.1 y) none
    (names.2 ++ "samples_x" ++ toString x ++ "x" ++ toString y ++ "_cs") ".png"

/-- One triple in /repo/bet/postProcess/plotDomains.py:576-590. -/
def rhoDTriple [One K] (v : List (List K)) (nos : Option (List Nat)) (rD : List K)
    (ref : Option (List K)) (save : Bool) (names : String × String) (ext : String) (xyz : List Nat) :
    Except Err (ScatterFig K) := do
  let x ← getIdx xyz 0
  let y ← getIdx xyz 1
  let z ← getIdx xyz 2
  let cols ← v.mapM (entries1 [x, y, z])
  let r ← refEntries1 [x, y, z] ref
  scatter3D (.set (tempSet 3 cols)) nos (some rD) r save (axisName names.1 x) (axisName names.1 y)
    (axisName names.1 z) none
    (names.2 ++ "samples_x" ++ toString x ++ "x" ++ toString y ++ "x" ++ toString z ++ "_cs") ext

/-- /repo/bet/postProcess/plotDomains.py:460-590 `scatter_rhoD`: the figures. The number of columns of the
values is the dimension of the set. `rho_D` returns one number for each row. -/
def scatterRhoD [One K] (obj : SampleObj K) (ref : Option (List K)) (nos : Option (List Nat)) (io : String)
    (rhoD : Option (List (List K) → List K)) (dimNums : Option (List Nat)) (labelChar : Option String)
    (showdim : Option Nat) (save : Bool) (ext : String) : Except Err (List (ScatterFig K)) := do
  let q ← rhoDSet obj io rhoD
  let s ← orErr .attributeError q.1
  let v ← orErr .attributeError s.glob.values
  let ref := ref.or s.referenceValue
  let rD := q.2.getD (List.replicate v.length 1)
  let names := rhoDNames labelChar io
  let nums := dimNums.getD ((List.range s.dim).map (· + 1))
  let x ← getIdx nums 0
  let y ← getIdx nums 1
  rhoDFigures s v ref rD names nums x y
where
  /-- Lines 547-590. -/
  rhoDFigures (s : SampleSet K) (v : List (List K)) (ref : Option (List K)) (rD : List K)
      (names : String × String) (nums : List Nat) (x y : Nat) : Except Err (List (ScatterFig K)) :=
    if s.dim = 2 then do
      let f ← scatter2D (.set s) nos (some rD) ref save (axisName names.1 x) (axisName names.1 y) none
        (names.2 ++ "samples_cs") ".png"
      pure [f]
    else if 2 < s.dim ∧ showdim = some 2 then
      (combos 2 nums).mapM (rhoDPair v nos rD ref save names)
    else if s.dim = 3 then do
      let z ← getIdx nums 2
      let f ← scatter3D (.set s) nos (some rD) ref save (axisName names.1 x) (axisName names.1 y)
        (axisName names.1 z) none (names.2 ++ "samples_cs") ".png"
      pure [f]
    else if 3 < s.dim ∧ showdim = some 3 then
      (combos 3 nums).mapM (rhoDTriple v nos rD ref save names ext)
    else .ok []

/-! ### `scatter_2D_multi` -/

/-- `showdim`: `None`, an integer, or a string. -/
inductive ShowDim
  | unset
  | one (i : Nat)
  | all
  | str

/-- The folder: it is made unless it exists (`os.mkdir` may fail). The result says whether it was made. -/
def ensureDir (isDir canMake : Bool) : Except Err Bool :=
  if isDir then .ok false else if canMake then .ok true else .error .fileNotFound

/-- `os.path.join(folder, name)` for a name that does not start with `/`. -/
def pathJoin (folder name : String) : String :=
  if folder = "" then name
  else if folder.toList.getLast? = some '/' then folder ++ name
  else folder ++ "/" ++ name

/-- `values[:, [x, y]]`. -/
def entriesAt (xs : List Nat) (row : List K) : Except Err (List K) := xs.mapM fun x => getIdx row x

/-- `ref_sample[[x, y]]` unless it is `None`. -/
def refEntriesAt (xs : List Nat) : Option (List K) → Except Err (Option (List K))
  | none => .ok none
  | some r => do
    let p ← entriesAt xs r
    pure (some p)

/-- One pair of coordinates in /repo/bet/postProcess/plotDomains.py:866-887 and 892-911. -/
def multiFigure [One K] (v : List (List K)) (color ref : Option (List K)) (folder filename labelChar ext : String)
    (cbar : Option String) (x y : Nat) : Except Err (ScatterFig K) := do
  let cols ← v.mapM (entriesAt [x, y])
  let r ← refEntriesAt [x, y] ref
  scatter2D (.set (tempSet 2 cols)) none color r true
    (labelChar ++ "_{" ++ toString (x + 1) ++ "}$") (labelChar ++ "_{" ++ toString (y + 1) ++ "}$") cbar
    (pathJoin folder (filename ++ "_d" ++ toString (x + 1) ++ "_d" ++ toString (y + 1))) ext

/-- The pairs of /repo/bet/postProcess/plotDomains.py:853-866 and 890-891. -/
def multiPairs (showdim : ShowDim) (nums : List Nat) : List (Nat × Nat) :=
  match showdim with
  | .unset => nums.map fun i => (0, i)
  | .one d => nums.map fun i => (d, i)
  | .all => (combos 2 nums).map fun c => (c.getD 0 0, c.getD 1 0)
  | .str => []

/-- /repo/bet/postProcess/plotDomains.py:817-911 `scatter_2D_multi`. -/
def scatter2DMulti [One K] (isDir canMake : Bool) (obj : SampleObj K) (color ref : Option (List K))
    (folder filename labelChar : String) (showdim : ShowDim) (ext : String) (cbar : Option String) :
    Except Err (List (ScatterFig K)) := do
  let s ← obj.needSet
  let _ ← ensureDir isDir canMake
  let pairs := multiPairs showdim (List.range s.dim)
  pairs.mapM fun xy => do
    let v ← orErr .attributeError s.glob.values
    multiFigure v color ref folder filename labelChar ext cbar xy.1 xy.2

/-- /repo/bet/postProcess/plotDomains.py:914-969 `scatter_2D_multi_input` (`markersize` is the name of no
variable there: `hasSize = false`) and 972-1028 `scatter_2D_multi_output`. `cbar_label` is assigned only in
the branches on strings. Arguments are evaluated from left to right, `cbar_label` before `markersize`. -/
def scatter2DMultiOf [One K] (side : Side) (isDir canMake : Bool) (obj : SampleObj K) (color : ColorArg K)
    (ref : Option (List K)) (folder filename labelChar : String) (showdim : ShowDim) (ext : String) :
    Except Err (List (ScatterFig K)) := do
  let d ← obj.needDisc
  match color with
  | .str name true =>
    if knownColor name then do
      let s ← orErr .attributeError (side.of d)
      let p ← orErr .typeError (namedColor side s name)
      let _ ← raiseIf (side = .input) .nameError
      scatter2DMulti isDir canMake (.set s) p.2 ref folder filename labelChar showdim ext (some p.1)
    else throw .unboundLocal
  | _ => throw .unboundLocal

end BET
