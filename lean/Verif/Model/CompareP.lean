import Verif.Model.PostTools
import Verif.Model.Sampling
import Verif.Model.Linspace

/-!
# Statistical distances (/repo/bet/postProcess/compareP.py)

The densities (`set.pdf`, `set.pdf_init`, `set.marginal_pdf`, ...), `np.sqrt`, the random numbers and
the functionals given by the caller are parameters.  A sum of densities that is zero gives `nan` in
the code and is an exception here.
-/

set_option autoImplicit false

namespace BET

variable {K : Type} [Field K] [LinearOrder K]

/-- The density functions of one set: at points, and of marginal `i` at numbers
(/repo/bet/postProcess/compareP.py:121-129, 233-241). -/
structure Density (K : Type) where
  pdf : List (List K) → Except Err (List K)
  marginal : List K → Nat → Except Err (List K)

/-- The attributes of a `compare` object; `dens1`, `dens2` are the densities of the two sets, already
chosen by `set1_init` and `set2_init`.  `pdfs_zero` is not modelled. -/
structure Compare (K : Type) where
  set1 : SampleSet K
  set2 : SampleSet K
  dens1 : Density K
  dens2 : Density K
  pdfs1 : Option (List K) := none
  pdfs2 : Option (List K) := none
  vals : Option (List (List K)) := none

/-- /repo/bet/postProcess/compareP.py:45-60: the set an argument of the constructor stands for. Only
`sample_set` objects are accepted. -/
def PostObj.compareSet (inputs : Bool) : PostObj K → Except Err (SampleSet K)
  | .disc d => do
    let s ← orErr .wrongInput (if inputs then d.input else d.output)
    raiseIf (s.kind ≠ .voronoi) .wrongInput
    pure s
  | .set s => do
    raiseIf (s.kind ≠ .voronoi) .wrongInput
    pure s
  | .other => .error .wrongInput

/-- /repo/bet/postProcess/compareP.py:21-66 `compare.__init__`. -/
def Compare.new (inputs : Bool) (o1 o2 : PostObj K) (dens : SampleSet K → Density K)
    (dens' : SampleSet K → Density K) : Except Err (Compare K) := do
  let s ← o1.compareSet inputs
  let t ← o2.compareSet inputs
  raiseIf (s.dim ≠ t.dim) .dimNotMatching
  pure { set1 := s, set2 := t, dens1 := dens s, dens2 := dens' t }

/-- The argument of `set_compare_set`; an array with `m` columns. -/
inductive CompareArg (K : Type)
  | set (s : SampleSet K)
  | array (m : Nat) (rows : List (List K))
  | int (n : Nat)
  | other

/-- `np.min(rows, axis=0)[i]`; the minimum of nothing raises. -/
def colMin (rows : List (List K)) (i : Nat) : Except Err K := do
  let c ← rows.mapM fun r => getIdx r i
  orErr .valueError c.min?

/-- `np.max(rows, axis=0)[i]`. -/
def colMax (rows : List (List K)) (i : Nat) : Except Err K := do
  let c ← rows.mapM fun r => getIdx r i
  orErr .valueError c.max?

/-- /repo/bet/postProcess/compareP.py:100-108: `rv_loc` after the body of the loop for dimension
`i`. -/
def Compare.rvLoc (factor : K) (rows : List (List K)) (i : Nat) : Except Err (RvSpec K) := do
  let lo ← colMin rows i
  let hi ← colMax rows i
  let delt := factor * (hi - lo)
  pure ⟨"uniform", [("loc", lo - delt), ("scale", hi - lo + delt)]⟩

/-- /repo/bet/postProcess/compareP.py:104-108: the loop over the dimensions overwrites `rv_loc`, so the
last dimension is left. -/
def Compare.rvLast (factor : K) (rows : List (List K)) (dim : Nat) : Except Err (RvSpec K) := do
  let rs ← (List.range dim).mapM (Compare.rvLoc factor rows)
  orErr .unboundLocal rs.getLast?

/-- /repo/bet/postProcess/compareP.py:68-114 `set_compare_set`. -/
def Compare.setCompareSet (st : Stats K) (size : Nat) (c : Compare K) (factor : K) :
    CompareArg K → Except Err (Compare K)
  | .set s => do
    raiseIf (s.kind ≠ .voronoi) .wrongInput
    raiseIf (s.dim ≠ c.set1.dim) .dimNotMatching
    pure { c with vals := s.localToGlobal.glob.values }
  | .array m rows => do
    raiseIf (m ≠ c.set1.dim) .dimNotMatching
    pure { c with vals := some rows }
  | .int n => do
    let v1 ← orErr .valueError c.set1.glob.values
    let v2 ← orErr .valueError c.set2.glob.values
    let rv ← Compare.rvLast factor (v1 ++ v2) c.set1.dim
    let u ← randomSampleSet st size (.pair rv) (.dim c.set1.dim) n true
    pure { c with vals := u.glob.values }
  | .other => .error .wrongInput

/-- The functionals: the modelled ones, and any other (a function given by the caller).
Kullback-Leibler and Minkowski distances are in `CompareKl`. -/
inductive Functional (K : Type)
  | tv | norm | euclid | sqhell | hell
  | other (f : List K → List K → K)

/-- `ds.minkowski(p, q, 1, w=0.5)`, /repo/bet/postProcess/compareP.py:168. -/
def halfAbs (p q : List K) : K := (List.zipWith (fun x y => |x - y| / 2) p q).sum

/-- `ds.sqeuclidean(p, q)`. -/
def sqDist (p q : List K) : K := (List.zipWith (fun x y => (x - y) * (x - y)) p q).sum

/-- /repo/bet/postProcess/compareP.py:116-133 `evaluate_pdfs`. -/
def Compare.evaluatePdfs (c : Compare K) : Except Err (Compare K) := do
  let v ← orErr .typeError c.vals
  let p ← c.dens1.pdf v
  let q ← c.dens2.pdf v
  pure { c with pdfs1 := some p, pdfs2 := some q }

/-- Lines 157-158. -/
def Compare.ensurePdfs (c : Compare K) : Except Err (Compare K) :=
  if c.pdfs1.isNone || c.pdfs2.isNone then c.evaluatePdfs else .ok c

/-- `p / np.sum(p)`. -/
def normalized (p : List K) : Except Err (List K) := do
  raiseIf (p.sum = 0) .zeroDivision
  pure (p.map fun x => x / p.sum)

/-- Lines 159-164: the stored densities and `factor`. -/
def normFactor (normalize : Bool) (p q : List K) : Except Err ((List K × List K) × K) :=
  if normalize then do
    let p' ← normalized p
    let q' ← normalized q
    pure ((p', q'), 1)
  else do
    raiseIf (p.length = 0) .zeroDivision
    pure ((p, q), 1 / (p.length : K))

/-- Lines 167-183, without the case `hell`. -/
def applyFn (sqrt : K → K) (factor : K) (p q : List K) : Functional K → Except Err K
  | .tv => do
    raiseIf (p.length ≠ q.length) .valueError
    pure (factor * halfAbs p q)
  | .norm => do
    raiseIf (p.length ≠ q.length) .valueError
    pure (factor * sqrt (sqDist p q))
  | .euclid => do
    raiseIf (p.length ≠ q.length) .valueError
    pure (sqrt factor * sqrt (sqDist p q))
  | .sqhell => do
    raiseIf (p.length ≠ q.length) .valueError
    pure (factor * sqDist (p.map sqrt) (q.map sqrt) / 2)
  | .hell => .error .valueError
  | .other f => pure (f p q)

/-- Lines 155-164: checks, cached densities, normalisation. -/
def Compare.prepare (c : Compare K) (normalize : Bool) : Except Err (Compare K × K) := do
  raiseIf c.vals.isNone .wrongInput
  let c ← c.ensurePdfs
  let p ← orErr .typeError c.pdfs1
  let q ← orErr .typeError c.pdfs2
  let r ← normFactor normalize p q
  pure ({ c with pdfs1 := some r.1.1, pdfs2 := some r.1.2 }, r.2)

/-- The value of `functional` for the stored densities. -/
def Compare.value (sqrt : K → K) (c : Compare K) (factor : K) (fn : Functional K) :
    Except Err K := do
  let p ← orErr .typeError c.pdfs1
  let q ← orErr .typeError c.pdfs2
  applyFn sqrt factor p q fn

/-- /repo/bet/postProcess/compareP.py:135-184 `distance`, and the object after the call.  `hell` calls
`distance('sqhell')` without `normalize`. -/
def Compare.distance (sqrt : K → K) (c : Compare K) (fn : Functional K) (normalize : Bool) :
    Except Err (K × Compare K) := do
  let a ← c.prepare normalize
  match fn with
  | .hell => do
    let b ← a.1.prepare false
    let d ← b.1.value sqrt b.2 .sqhell
    pure (sqrt d, b.1)
  | f => do
    let d ← a.1.value sqrt a.2 f
    pure (d, a.1)

/-! ### Marginals -/

/-- /repo/bet/postProcess/compareP.py:216-229 and 296-309: the interval used when none is given.  Domains
are finite here (in the code, a domain infinite in coordinate `i` is as good as none).  Both comparisons of the code use `set1` twice.  `np.vstack` of two vectors needs
equal lengths. -/
def Compare.autoInterval (c : Compare K) (i : Nat) (factor : K) : Except Err (K × K) :=
  match c.set1.domain, c.set2.domain with
  | some d1, some _ => do
    let r ← getIdx d1 i
    let lo := min r.1 r.1
    let hi := min r.2 r.2
    pure (lo - factor * (hi - lo), hi + factor * (hi - lo))
  | _, _ => do
    let v1 ← orErr .typeError c.set1.glob.values
    let v2 ← orErr .typeError c.set2.glob.values
    let x ← v1.mapM fun r => getIdx r i
    let y ← v2.mapM fun r => getIdx r i
    raiseIf (x.length ≠ y.length) .valueError
    let lo ← orErr .valueError (x ++ y).min?
    let hi ← orErr .valueError (x ++ y).max?
    pure (lo - factor * (hi - lo), hi + factor * (hi - lo))

/-- Lines 215-231: the points at which the marginals are compared. -/
def Compare.marginalPoints (c : Compare K) (i : Nat) (interval : Option (K × K)) (num : Nat)
    (factor : K) : Except Err (List K) :=
  match interval with
  | some ab => .ok (linspace ab.1 ab.2 num)
  | none => do
    let ab ← c.autoInterval i factor
    pure (linspace ab.1 ab.2 num)

/-- Lines 243-248. -/
def marginalFactor (normalize : Bool) (x p q : List K) : Except Err ((List K × List K) × K) :=
  if normalize then do
    let p' ← normalized p
    let q' ← normalized q
    pure ((p', q'), 1)
  else do
    raiseIf (p.length = 0) .zeroDivision
    pure ((p, q), 1 / (p.length : K) * (x.getLastD 0 - x.headD 0))

/-- Lines 250-266; `norm` has no factor here. -/
def applyMarginal (sqrt : K → K) (factor : K) (p q : List K) : Functional K → Except Err K
  | .tv => do
    raiseIf (p.length ≠ q.length) .valueError
    pure (factor * halfAbs p q)
  | .norm => do
    raiseIf (p.length ≠ q.length) .valueError
    pure (sqrt (sqDist p q))
  | .euclid => do
    raiseIf (p.length ≠ q.length) .valueError
    pure (sqrt factor * sqrt (sqDist p q))
  | .sqhell => do
    raiseIf (p.length ≠ q.length) .valueError
    pure (factor * (sqrt (sqDist (p.map sqrt) (q.map sqrt)) * sqrt (sqDist (p.map sqrt) (q.map sqrt))) / 2)
  | .hell => do
    raiseIf (p.length ≠ q.length) .valueError
    pure (sqrt (factor * (sqrt (sqDist (p.map sqrt) (q.map sqrt)) *
      sqrt (sqDist (p.map sqrt) (q.map sqrt))) / 2))
  | .other f => pure (f p q)

/-- /repo/bet/postProcess/compareP.py:186-268 `distance_marginal`. -/
def Compare.distanceMarginal (sqrt : K → K) (c : Compare K) (i : Nat) (interval : Option (K × K))
    (num : Nat) (factor : K) (normalize : Bool) (fn : Functional K) : Except Err K := do
  let x ← c.marginalPoints i interval num factor
  let p ← c.dens1.marginal x i
  let q ← c.dens2.marginal x i
  let r ← marginalFactor normalize x p q
  applyMarginal sqrt r.2 r.1.1 r.1.2 fn

end BET
