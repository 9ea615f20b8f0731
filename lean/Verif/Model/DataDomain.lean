import Verif.Model.PlotDomains

/-!
# Plots of the data domain (/repo/bet/postProcess/plotDomains.py:592-815)

`show_data_domain_2D` draws on the current figure of matplotlib, so the state of matplotlib is a parameter and a
result: the stack of open figures and the files written so far with their contents. `tri.Triangulation` is a
parameter. The figures that are open after `plt.show()` are a parameter as well. If an exception is raised the
state is not returned.
-/

set_option autoImplicit false

namespace BET

variable {K : Type}

/-- What can be drawn: the region covered by triangles, the labels of the axes, a mark. -/
inductive DomainItem (K : Type)
  | region (xs ys : List K) (triangles : List (List Nat))
  | labels (x y : String)
  | mark (x y : K) (color marker : String)
deriving DecidableEq

/-- The open figures, the current one first, and the files with their contents. -/
structure Plt (K : Type) where
  figs : List (List (DomainItem K)) := []
  saved : List (String × List (DomainItem K)) := []
deriving DecidableEq

/-- Drawing on the current figure, which is made if there is none. -/
def Plt.draw (p : Plt K) (it : DomainItem K) : Plt K :=
  { p with figs := (p.figs.headD [] ++ [it]) :: p.figs.tail }

/-- `plt.savefig`. -/
def Plt.save (p : Plt K) (file : String) : Plt K :=
  { p with saved := p.saved ++ [(file, p.figs.headD [])] }

/-- `plt.close()`. -/
def Plt.close (p : Plt K) : Plt K := { p with figs := p.figs.tail }

/-- A reference value: a vector or a matrix with a number of columns. -/
inductive RefArg (K : Type)
  | vec (l : List K)
  | mat (cols : Nat) (rows : List (List K))

/-- `util.fix_dimensions_data(Q_ref, dim)` (/repo/bet/util.py:179-209, modelled for arrays in general in
`Model.Util`): the rows of the result. -/
def RefArg.rows (dim : Nat) : RefArg K → List (List K)
  | .vec l => if dim = 1 then l.map fun x => [x] else [l]
  | .mat cols rows =>
    if cols = dim then rows else (List.range cols).map fun j => rows.filterMap fun row => row[j]?

/-- The columns 0 and 1 of the values of a set. -/
def firstTwo (s : Option (SampleSet K)) : Except Err (List K × List K) := do
  let s ← orErr .attributeError s
  let v ← orErr .attributeError s.glob.values
  let xs ← v.mapM fun row => getIdx row 0
  let ys ← v.mapM fun row => getIdx row 1
  pure (xs, ys)

/-- /repo/bet/postProcess/plotDomains.py:623-626, 659-661, 768-772: the triangles. -/
def trianglesOf (tri : List K → List K → Except Err (List (List Nat))) (s : Option (SampleSet K))
    (given : Option (List (List Nat))) : Except Err (List (List Nat)) :=
  match given with
  | some t => .ok t
  | none => do
    let q ← firstTwo s
    tri q.1 q.2

/-- /repo/bet/postProcess/plotDomains.py:803-805: one mark. -/
def drawMark (colors markers : List String) (p : Plt K) (ir : Nat × List K) : Except Err (Plt K) := do
  let x ← getIdx ir.2 0
  let y ← getIdx ir.2 1
  let c ← getIdx colors ir.1
  let m ← getIdx markers ir.1
  pure (p.draw (.mark x y c m))

/-- The reference value, by default that of the output set, /repo/bet/postProcess/plotDomains.py:628-629,
759-760. -/
def domainRef (data : Option (SampleSet K)) (ref : Option (RefArg K)) : Except Err (Option (RefArg K)) :=
  match ref with
  | some r => .ok (some r)
  | none => do
    let s ← orErr .attributeError data
    pure (s.referenceValue.map .vec)

/-- The marks, /repo/bet/postProcess/plotDomains.py:778-779, 802-805. -/
def drawMarks (colors markers : List String) (ref : Option (RefArg K)) (p : Plt K) : Except Err (Plt K) :=
  match ref with
  | none => .ok p
  | some r => ((List.range (r.rows 2).length).zip (r.rows 2)).foldlM (drawMark colors markers) p

/-- /repo/bet/postProcess/plotDomains.py:718-815 `show_data_domain_2D`. -/
def dataDomain2D (tri : List K → List K → Except Err (List (List Nat)))
    (afterShow : List (List (DomainItem K)) → List (List (DomainItem K))) (obj : SampleObj K)
    (ref : Option (RefArg K)) (markers colors : List String) (xlabel ylabel : String)
    (triangles : Option (List (List Nat))) (save interactive : Bool) (file0 file1 ext : String) (p : Plt K) :
    Except Err (Plt K) := do
  let d ← obj.needDisc
  let ref ← domainRef d.output ref
  let t ← trianglesOf tri d.input triangles
  let q ← firstTwo d.output
  let p := (p.draw (.region q.1 q.2 t)).draw (.labels xlabel ylabel)
  let p := p.save (fullName file0 ext)
  let p ← drawMarks colors markers ref p
  let p := if save then p.save (fullName file1 ext) else p
  pure (if interactive then { p with figs := afterShow p.figs } else p.close)

/-- `Q_ref[:, [x, y]]` unless it is `None`. -/
def refColumns (x y : Nat) : Option (List (List K)) → Except Err (Option (RefArg K))
  | none => .ok none
  | some rows => do
    let r ← rows.mapM (entriesAt [x, y])
    pure (some (.mat 2 r))

/-- One pair in /repo/bet/postProcess/plotDomains.py:653-684 and 689-716. -/
def domainPair (size : Nat) (tri : List K → List K → Except Err (List (List Nat))) (d : Disc K)
    (v : List (List K)) (ref : Option (List (List K))) (markers colors : List String) (folder ext : String)
    (triangles : List (List Nat)) (p : Plt K) (xy : Nat × Nat) : Except Err (Plt K) := do
  let cols ← v.mapM (entriesAt [xy.1, xy.2])
  let e ← Disc.new size d.input (some (tempSet 2 cols)) none none none
  let r ← refColumns xy.1 xy.2 ref
  dataDomain2D tri id (.disc e) r markers colors ("$q_{" ++ toString (xy.1 + 1) ++ "}$")
    ("$q_{" ++ toString (xy.2 + 1) ++ "}$") (some triangles) true false
    (folder ++ "domain_q" ++ toString (xy.1 + 1) ++ "_q" ++ toString (xy.2 + 1))
    (folder ++ "q" ++ toString (xy.1 + 1) ++ "_q" ++ toString (xy.2 + 1) ++ "_domain_Q_cs") ext p

/-- The pairs of /repo/bet/postProcess/plotDomains.py:636-637, 647-649, 687-688. -/
def domainPairs (showdim : ShowDim) (nums : List Nat) : List (Nat × Nat) :=
  match showdim with
  | .unset => (nums.filter fun i => i ≠ 0).map fun i => (0, i)
  | .one d => (nums.filter fun i => i ≠ d).map fun i => (d, i)
  | .all => (combos 2 nums).map fun c => (c.getD 0 0, c.getD 1 0)
  | .str => []

/-- /repo/bet/postProcess/plotDomains.py:592-716 `show_data_domain_multi`. -/
def dataDomainMulti (size : Nat) (tri : List K → List K → Except Err (List (List Nat))) (isDir canMake : Bool)
    (obj : SampleObj K) (ref : Option (RefArg K)) (nums : Option (List Nat)) (folder : String)
    (markers colors : List String) (showdim : ShowDim) (ext : String) (p : Plt K) : Except Err (Plt K) := do
  let d ← obj.needDisc
  let ref ← domainRef d.output ref
  let data ← orErr .attributeError d.output
  let _ ← ensureDir isDir canMake
  let t ← trianglesOf tri d.input none
  let pairs := domainPairs showdim (nums.getD (List.range data.dim))
  pairs.foldlM (domainStep d data (ref.map (RefArg.rows data.dim)) t) p
where
  /-- The body of the loops; `data_obj.get_values()` is evaluated in it. -/
  domainStep (d : Disc K) (data : SampleSet K) (ref : Option (List (List K))) (t : List (List Nat)) (p : Plt K)
      (xy : Nat × Nat) : Except Err (Plt K) := do
    let v ← orErr .attributeError data.glob.values
    domainPair size tri d v ref markers colors folder ext t p xy

end BET
