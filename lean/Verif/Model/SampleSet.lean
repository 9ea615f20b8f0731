import Verif.Model.NumPy

/-!
# Sample sets: `sample_set_base`, `voronoi_sample_set` (/repo/bet/sample.py)

The object is modelled collectively for an MPI run with `size` processes: the
global arrays are one value (every process holds the same), a local array is
the list of the chunks of all processes.
-/

set_option autoImplicit false

namespace BET

/-- The arrays of `array_names` (/repo/bet/sample.py:177-181), `F` is `List` for
the global arrays and `Chunks` for the local ones.  `none` is Python's `None`.
A matrix is the list of its rows; the Jacobians are a list of matrices. -/
structure Arrays (F : Type → Type) (K : Type) where
  values : Option (F (List K)) := none
  volumes : Option (F K) := none
  probabilities : Option (F K) := none
  densities : Option (F K) := none
  jacobians : Option (F (List (List K))) := none
  errorEstimates : Option (F (List K)) := none
  right : Option (F (List K)) := none
  left : Option (F (List K)) := none
  width : Option (F (List K)) := none
  kdtreeValues : Option (F (List K)) := none
  radii : Option (F K) := none
  normalizedRadii : Option (F K) := none
  region : Option (F Int) := none
  errorId : Option (F K) := none

namespace Arrays

variable {F G H : Type → Type} {K β : Type}

/-- `for array_name in self.array_names: setattr(self, array_name, f(...))`. -/
def map (f : ∀ {α : Type}, Option (F α) → Option (G α)) (a : Arrays F K) : Arrays G K where
  values := f a.values
  volumes := f a.volumes
  probabilities := f a.probabilities
  densities := f a.densities
  jacobians := f a.jacobians
  errorEstimates := f a.errorEstimates
  right := f a.right
  left := f a.left
  width := f a.width
  kdtreeValues := f a.kdtreeValues
  radii := f a.radii
  normalizedRadii := f a.normalizedRadii
  region := f a.region
  errorId := f a.errorId

/-- The same loop over the arrays of two families at once. -/
def map₂ (f : ∀ {α : Type}, Option (F α) → Option (G α) → Option (H α))
    (a : Arrays F K) (b : Arrays G K) : Arrays H K where
  values := f a.values b.values
  volumes := f a.volumes b.volumes
  probabilities := f a.probabilities b.probabilities
  densities := f a.densities b.densities
  jacobians := f a.jacobians b.jacobians
  errorEstimates := f a.errorEstimates b.errorEstimates
  right := f a.right b.right
  left := f a.left b.left
  width := f a.width b.width
  kdtreeValues := f a.kdtreeValues b.kdtreeValues
  radii := f a.radii b.radii
  normalizedRadii := f a.normalizedRadii b.normalizedRadii
  region := f a.region b.region
  errorId := f a.errorId b.errorId

/-- What a loop over `array_names` sees, in the order of `array_names`. -/
def toList (f : ∀ {α : Type}, F α → β) (a : Arrays F K) : List (Option β) :=
  [a.values.map f, a.volumes.map f, a.probabilities.map f, a.densities.map f,
   a.jacobians.map f, a.errorEstimates.map f, a.right.map f, a.left.map f,
   a.width.map f, a.kdtreeValues.map f, a.radii.map f, a.normalizedRadii.map f,
   a.region.map f, a.errorId.map f]

end Arrays

/-- Which class the set belongs to: decides what `query` does. -/
inductive Kind
  | voronoi
  | rectangle
  | ball
  deriving DecidableEq, Repr

/-- `_prob_type` (/repo/bet/sample.py:276). -/
inductive ProbType
  | voronoi | kde | rv | gmm
  deriving DecidableEq, Repr

/-- /repo/bet/sample.py:183-292.  Not modelled: labels, weights, cluster maps and
probability parameters (they are in the models of the functions that use
them), `_bounding_box`. -/
structure SampleSet (K : Type) where
  kind : Kind := .voronoi
  dim : Nat
  /-- the global arrays -/
  glob : Arrays List K := {}
  /-- the local arrays of all processes -/
  loc : Arrays Chunks K := {}
  domain : Option (List (K × K)) := none
  domainOriginal : Option (List (K × K)) := none
  localIndex : Option (Chunks Nat) := none
  /-- the points from which the cached `_kdtree` was built -/
  kdtree : Option (List (List K)) := none
  referenceValue : Option (List K) := none
  /-- names the norm `_p_norm`; only passed on to `Geometry` -/
  pNorm : Nat := 2
  probType : Option ProbType := none

namespace SampleSet

variable {K : Type}

/-- The loop of /repo/bet/sample.py:728-739 over the lengths of the arrays. -/
def checkNumLoop : List (Option Nat) → Option Nat → Except Err (Option Nat)
  | [], num => .ok num
  | none :: t, num => checkNumLoop t num
  | some n :: t, none => checkNumLoop t (some n)
  | some n :: t, some m =>
      if m ≠ n then .error .lengthNotMatching else checkNumLoop t (some m)

/-- `values is not None and values.shape[1] != dim` negated
(/repo/bet/sample.py:740, 776).  A matrix is a list of rows here, so the number
of columns is that of every row (an empty matrix passes). -/
def colsOk (dim : Nat) (values : Option (List (List K))) : Bool :=
  match values with
  | none => true
  | some v => v.all (fun row => row.length == dim)

/-- /repo/bet/sample.py:751-779 `check_num_local` on rank `r`. -/
def checkNumLocal (s : SampleSet K) (r : Nat) : Except Err (Option Nat) := do
  let num ← checkNumLoop (s.loc.toList (fun c => (c.getD r []).length)) none
  if colsOk s.dim s.glob.values then pure num else throw .dimNotMatching

/-- `check_num_local` on every rank, with `None` replaced by 0
(/repo/bet/sample.py:744-746). -/
def checkNumLocals (s : SampleSet K) : List Nat → Except Err (List Nat)
  | [] => pure []
  | r :: rs => do
      let n ← s.checkNumLocal r
      let ns ← checkNumLocals s rs
      pure (n.getD 0 :: ns)

/-- /repo/bet/sample.py:717-749 `check_num`. -/
def checkNum (size : Nat) (s : SampleSet K) : Except Err Nat := do
  let num ← checkNumLoop (s.glob.toList List.length) none
  if colsOk s.dim s.glob.values then
    match num with
    | some n => pure n
    | none => do
        let ns ← s.checkNumLocals (List.range size)
        pure (allreduceSum ns)
  else throw .dimNotMatching

/-- One step of the loop of `local_to_global` (/repo/bet/sample.py:1229-1235). -/
def gatherArr {α : Type} : Option (Chunks α) → Option (List α) → Option (List α)
  | some c, _ => some (getGlobalValues c)
  | none, g => g

/-- One step of the loop of `global_to_local` (/repo/bet/sample.py:1332-1337). -/
def splitArr {α : Type} (size : Nat) : Option (List α) → Option (Chunks α) → Option (Chunks α)
  | some xs, _ => some (arraySplit size xs)
  | none, l => l

/-- /repo/bet/sample.py:1227-1235 `local_to_global`. -/
def localToGlobal (s : SampleSet K) : SampleSet K :=
  { s with
    glob := Arrays.map₂ gatherArr s.loc s.glob }

/-- /repo/bet/sample.py:1325-1337 `global_to_local`. -/
def globalToLocal (size : Nat) (s : SampleSet K) : Except Err (SampleSet K) := do
  let num ← s.checkNum size
  pure { s with
    localIndex := some (arraySplit size (List.range num))
    loc := Arrays.map₂ (splitArr size) s.glob s.loc }

/-- `if s._values_local is None: s.global_to_local()`, the idiom of
/repo/bet/calculateP/calculateP.py:89-90, 127-128, 164-165, 231-232, 272-273 and
/repo/bet/sample.py:1295-1296, 1811-1814, 2388-2389, 2428-2429, 2468-2469. -/
def localized (size : Nat) (s : SampleSet K) : Except Err (SampleSet K) :=
  if s.loc.values.isNone then s.globalToLocal size else .ok s

/-- /repo/bet/sample.py:1090-1095 `set_kdtree`.  `KDTree(None)` raises. -/
def setKdtree (s : SampleSet K) : Except Err (SampleSet K) := do
  let v ← orErr .valueError s.glob.values
  pure { s with kdtree := some v, glob := { s.glob with kdtreeValues := some v } }

/-- /repo/bet/sample.py:692-715 `clip`.  `copy` is a deep copy, so the original is
not affected; `xs[0:cnum]` is `List.take` for `cnum ≥ 0`. -/
def clip (size : Nat) (s : SampleSet K) (cnum : Nat) : Except Err (SampleSet K) := do
  let _ ← s.checkNum size
  let s := if s.glob.values.isNone then s.localToGlobal else s
  let s := { s with glob := s.glob.map (fun a => a.map (List.take cnum)) }
  if s.loc.values.isSome then do
    let s ← s.globalToLocal size
    s.setKdtree
  else s.setKdtree

/-- /repo/bet/sample.py:808-818 `set_values`, for a matrix that already has the
shape (num, dim); `fix_dimensions_data` is modelled in `Model.Util`. -/
def setValues (s : SampleSet K) (v : List (List K)) : Except Err (SampleSet K) :=
  if colsOk s.dim (some v) then .ok { s with glob := { s.glob with values := some v } }
  else .error .dimNotMatching

/-- What `np.concatenate` needs of two matrices: the same number of columns.  A matrix is a list of
rows here, so a matrix without rows fits. -/
def sameCols (a b : List (List K)) : Bool :=
  a.all fun r => b.all fun r' => r.length == r'.length

/-- /repo/bet/sample.py:664-676 `append_values` for the Voronoi class and a matrix that
`fix_dimensions_data` leaves as it is; `None` cannot be concatenated, nor can a matrix with
another number of columns. -/
def appendValues (s : SampleSet K) (v : List (List K)) : Except Err (SampleSet K) := do
  let old ← orErr .valueError s.glob.values
  let _ ← raiseIf (sameCols old v = false) .valueError
  pure { s with glob := { s.glob with values := some (old ++ v) } }

/-- /repo/bet/sample.py:1789-1826 `merge` of Voronoi sets: only dimension, domain
and values survive.  `np.allclose` on the domains is modelled as equality (exact
arithmetic, tolerance 0).  The operands may be localized by the call; the two
are returned as well. -/
def merge [DecidableEq K] (size : Nat) (a b : SampleSet K) :
    Except Err (SampleSet K × SampleSet K × SampleSet K) := do
  let _ ← raiseIf (a.dim ≠ b.dim) .dimNotMatching
  let _ ← raiseIf (a.domain.isSome ∧ b.domain.isSome ∧ a.domain ≠ b.domain) .domainNotMatching
  let domain := match a.domain with
    | some d => some d
    | none => b.domain
  let a ← a.localized size
  let b ← b.localized size
  let va ← orErr .valueError a.loc.values
  let vb ← orErr .valueError b.loc.values
  let m : SampleSet K :=
    { dim := a.dim, domain := domain,
      loc := { values := some (List.zipWith (· ++ ·) va vb) } }
  pure (m.localToGlobal, a, b)

/-- /repo/bet/sample.py:1312-1323 `estimate_volume_mc`.  With `globalize=False`
and no local array at all `np.ones((None,))` raises `TypeError`.  `1.0 / float(0)` raises
`ZeroDivisionError`. -/
def estimateVolumeMc [Field K] (size : Nat) (s : SampleSet K) (globalize : Bool) :
    Except Err (SampleSet K) := do
  let num ← s.checkNum size
  let _ ← raiseIf (num = 0) .zeroDivision
  if globalize then
    globalToLocal size
      { s with glob := { s.glob with volumes := some (List.replicate num (1 / (num : K) * 1)) } }
  else do
    let locs ← (List.range size).mapM fun r => do
      let n ← s.checkNumLocal r
      let n ← orErr .typeError n
      pure (List.replicate n (1 / (num : K) * 1))
    pure { s with loc := { s.loc with volumes := some locs } }

end SampleSet

end BET
