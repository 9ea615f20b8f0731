import Mathlib.Algebra.Order.Field.Basic
import Mathlib.Algebra.BigOperators.Group.List.Basic

/-!
# The numpy and MPI primitives that BET uses

Arrays are lists.  An array that is distributed over the processes of an MPI
run is the list of its local chunks, in rank order (`Chunks`).
-/

set_option autoImplicit false

namespace BET

/-- Python exceptions that the modelled code can raise.  `lengthNotMatching`,
`dimNotMatching`, `domainNotMatching`, `wrongInput` are the classes of
/repo/bet/sample.py:36-63, `wrongArgumentType` is
/repo/bet/calculateP/calculateError.py:16-19 and simpleFunP, `badObject` and
`missingAttribute` those of /repo/bet/postProcess/plotP.py:19-34; the others are
builtin. -/
inductive Err
  | lengthNotMatching
  | dimNotMatching
  | domainNotMatching
  | wrongInput
  | wrongArgumentType
  | badObject
  | missingAttribute
  | typeError
  | attributeError
  | valueError
  | indexError
  | unboundLocal
  | zeroDivision
  | fileNotFound
  | recursionError
  | keyError
  | linAlgError
  | nameError
  deriving DecidableEq, Repr

/-- A distributed array: the local arrays of the processes in rank order. -/
abbrev Chunks (α : Type) := List (List α)

/-- `np.equal(ptr, i)`. -/
def npEqual (ptr : List Nat) (i : Nat) : List Bool :=
  ptr.map (fun j => j == i)

/-- `xs[mask]` for a boolean mask of the same length. -/
def maskSel {α : Type} : List α → List Bool → List α
  | x :: xs, b :: bs => if b then x :: maskSel xs bs else maskSel xs bs
  | _, _ => []

/-- `ps[mask] = vs` for a boolean mask of the same length and as many values as
the mask has true entries. -/
def maskSet {α : Type} : List α → List Bool → List α → List α
  | _ :: ps, true :: bs, v :: vs => v :: maskSet ps bs vs
  | p :: ps, false :: bs, vs => p :: maskSet ps bs vs
  | ps, _, _ => ps

/-- `ps[mask] = v` for a scalar `v`. -/
def maskFill {α : Type} : List α → List Bool → α → List α
  | p :: ps, b :: bs, v => (if b then v else p) :: maskFill ps bs v
  | ps, _, _ => ps

/-- `ps[mask] = v` for a scalar, which raises `IndexError` when the mask has another
length. -/
def maskFillE {α : Type} (ps : List α) (bs : List Bool) (v : α) : Except Err (List α) :=
  if ps.length = bs.length then .ok (maskFill ps bs v) else .error .indexError

/-- `xs[mask]`, which raises `IndexError` when the mask has another length. -/
def maskSelE {α : Type} (xs : List α) (bs : List Bool) : Except Err (List α) :=
  if xs.length = bs.length then .ok (maskSel xs bs) else .error .indexError

/-- `xs[i]` for a non-negative integer `i`; raises `IndexError` out of range. -/
def getIdx {α : Type} (xs : List α) (i : Nat) : Except Err α :=
  match xs[i]? with
  | some x => .ok x
  | none => .error .indexError

/-- Using an attribute that may be `None` in a way that `None` does not support. -/
def orErr {α : Type} (e : Err) : Option α → Except Err α
  | some a => .ok a
  | none => .error e

/-- `if c: raise e`. -/
def raiseIf (c : Prop) [Decidable c] (e : Err) : Except Err Unit :=
  if c then .error e else .ok ()

/-- The number of entries that rank `r` of `p` gets of an array of `n`
(`numpy.array_split`: the first `n % p` chunks have one entry more). -/
def splitLen (n p r : Nat) : Nat := n / p + if r < n % p then 1 else 0

/-- Where the chunk of rank `r` begins (`div_points` of `numpy.array_split`). -/
def splitOff (n p r : Nat) : Nat := r * (n / p) + min r (n % p)

/-- `np.array_split(xs, p)`: all `p` chunks. -/
def arraySplit {α : Type} (p : Nat) (xs : List α) : Chunks α :=
  (List.range p).map fun r => (xs.drop (splitOff xs.length p r)).take (splitLen xs.length p r)

/-- `comm.allreduce(x, op=MPI.SUM)`: the sum over the ranks of the local values. -/
def allreduceSum {K : Type} [AddMonoid K] (locals : List K) : K := locals.sum

/-- /repo/bet/util.py:76-115 `get_global_values`: one process returns its own
array, several concatenate their arrays in rank order (`hstack` for vectors,
`vstack` for matrices).  The upper-case `Allgather` branch needs an explicit
`shape`, which no caller in BET passes. -/
def getGlobalValues {α : Type} (locals : Chunks α) : List α := locals.flatten

end BET
