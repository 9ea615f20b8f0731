import Verif.Model.Sampling
import Verif.Model.Query

/-!
# Densities of fitted measures (/repo/bet/sample.py:65-158, 923-1002)
-/

set_option autoImplicit false

namespace BET

variable {K : Type} [Field K]

/-- The `vals` argument: an array of shape `(n,)`, or `(n, cols)` given by its rows. -/
inductive Vals (K : Type)
  | vec (x : List K)
  | mat (cols : Nat) (rows : List (List K))

/-- `prob_type` with `prob_parameters`. `kde`: the fitted densities `param_marginals[i][j]` of parameter
`i` in cluster `j` and the weights. `gmm`: for each cluster the density of the Gaussian, the means and the
diagonal of the covariances, and the weights. `voronoi`: the sample set itself, for which only the marginals
are modelled here: the density estimate that `gaussian_kde(values[:, i], weights=probabilities)` gives for
parameter `i` (`pdf` of Voronoi sets is `SampleSet.pdfVoronoi`). -/
inductive FittedMeasure (K : Type)
  | kde (marginals : List (List (K → K))) (weights : List K)
  | rv (specs : List (RvSpec K))
  | gmm (densities : List (List K → K)) (means vars : List (List K)) (weights : List K)
  | voronoi (marginals : List (K → K))
  | other

/-- `scipy.stats`: densities of distributions by name, and `norm.pdf(x, loc, scale=var ** 0.5)`. -/
structure Pdfs (K : Type) where
  rv : RvSpec K → K → K
  norm : K → K → K → K

/-- /repo/bet/sample.py:121-127: the numbers at which the marginal is evaluated. -/
def marginalArg (i : Nat) : Vals K → Except Err (List K)
  | .vec x => .ok x
  | .mat cols rows =>
      if cols = 1 then rows.mapM fun r => getIdx r 0
      else if i < cols then rows.mapM fun r => getIdx r i
      else .error .indexError

/-- `mar += w_j * f_j(x)` in a loop over the clusters, from zero, for one point. -/
def mixture {α : Type} (fs : List (α → K)) (ws : List K) (x : α) : K :=
  (List.zipWith (fun f w => f x * w) fs ws).foldl (· + ·) 0

/-- Number `i` of the lists, with `IndexError`; the loop runs over `len(weights)` clusters, so there must
be as many entries. -/
def firstOf {α : Type} (n : Nat) (xs : List α) : Except Err (List α) :=
  if n ≤ xs.length then .ok (xs.take n) else .error .indexError

/-- The marginal density as a function of one number (/repo/bet/sample.py:129-158). -/
def marginalDensity (P : Pdfs K) (i : Nat) : FittedMeasure K → Except Err (K → K)
  | .kde ms ws => do
      let fs ← getIdx ms i
      let fs ← firstOf ws.length fs
      pure (mixture fs ws)
  | .rv specs => do
      let sp ← getIdx specs i
      pure (P.rv sp)
  | .gmm _ means vars ws => do
      let means ← firstOf ws.length means
      let vars ← firstOf ws.length vars
      let mu ← means.mapM fun m => getIdx m i
      let va ← vars.mapM fun v => getIdx v i
      pure (mixture (List.zipWith P.norm mu va) ws)
  | .voronoi ms => getIdx ms i
  | .other => .error .wrongInput

/-- `gaussian_kde.__call__(vals.T)` of a one-dimensional estimate takes an array of shape `(1, n)` or
`(n,)` and raises `ValueError` for others (/repo/bet/sample.py:151-156). -/
def voronoiArg : Vals K → FittedMeasure K → Except Err Unit
  | .mat cols _, .voronoi _ => raiseIf (cols ≠ 1) .valueError
  | _, _ => .ok ()

/-- /repo/bet/sample.py:105-158 `evaluate_pdf_marginal`. -/
def evaluatePdfMarginal (P : Pdfs K) (m : FittedMeasure K) (vals : Vals K) (i : Nat) :
    Except Err (List K) := do
  let x ← marginalArg i vals
  let f ← marginalDensity P i m
  let _ ← voronoiArg vals m
  pure (x.map f)

/-- `mar *= evaluate_pdf_marginal(…, i)` for all `i`, from ones (/repo/bet/sample.py:80-89). -/
def productLoop (P : Pdfs K) (m : FittedMeasure K) (cols : Nat) (rows : List (List K)) :
    List Nat → List K → Except Err (List K)
  | [], mar => .ok mar
  | i :: is, mar => do
      let f ← evaluatePdfMarginal P m (.mat cols rows) i
      productLoop P m cols rows is (List.zipWith (· * ·) mar f)

/-- /repo/bet/sample.py:65-102 `evaluate_pdf` without Voronoi measures. -/
def evaluatePdf (P : Pdfs K) (m : FittedMeasure K) (cols : Nat) (rows : List (List K)) :
    Except Err (List K) :=
  match m with
  | .gmm ds _ _ ws => do
      let ds ← firstOf ws.length ds
      pure (rows.map (mixture ds ws))
  | .kde ms ws => productLoop P (.kde ms ws) cols rows (List.range cols) (rows.map fun _ => 1)
  | .rv specs => productLoop P (.rv specs) cols rows (List.range cols) (rows.map fun _ => 1)
  | _ => .error .wrongInput

/-- `vals` as a matrix (/repo/bet/sample.py:931-932, 957-958). -/
def Vals.toMat : Vals K → Nat × List (List K)
  | .vec x => (1, x.map fun y => [y])
  | .mat cols rows => (cols, rows)

/-- /repo/bet/sample.py:923-947 `pdf` and 949-965 `pdf_init` without Voronoi measures (which `pdf_init` refuses). -/
def pdfOf (P : Pdfs K) (dim : Nat) (m : FittedMeasure K) (vals : Vals K) : Except Err (List K) := do
  let _ ← raiseIf (vals.toMat.1 ≠ dim) .dimNotMatching
  evaluatePdf P m vals.toMat.1 vals.toMat.2

/-- /repo/bet/sample.py:967-986 `marginal_pdf`; a Voronoi set without probabilities is refused. -/
def marginalPdf (P : Pdfs K) (hasProbs : Bool) (m : FittedMeasure K) (vals : Vals K) (i : Nat) :
    Except Err (List K) :=
  match m with
  | .voronoi ms => do
      let _ ← raiseIf (hasProbs = false) .wrongInput
      evaluatePdfMarginal P (.voronoi ms) vals i
  | m => evaluatePdfMarginal P m vals i

/-- /repo/bet/sample.py:988-1002 `marginal_pdf_init`. -/
def marginalPdfInit (P : Pdfs K) (m : FittedMeasure K) (vals : Vals K) (i : Nat) : Except Err (List K) :=
  match m with
  | .voronoi _ => .error .wrongInput
  | m => evaluatePdfMarginal P m vals i

end BET
