import Verif.Model.NumPy

/-!
# `==` on sample sets and discretizations (/repo/bet/sample.py:294-330, 2305-2332)

Python compares the `meta_fields` one after the other; what a comparison of two numpy
arrays means depends on their shapes, so arrays are modelled here with shapes and
broadcasting.
-/

set_option autoImplicit false

namespace BET

/-- A numpy array: its shape with the last axis first, and its entries by index (last
axis first).  An entry `none` is `nan`. -/
structure Nd (K : Type) where
  rshape : List Nat
  entry : List Nat → Option K

/-- All indices of an array of a shape. -/
def allIdx : List Nat → List (List Nat)
  | [] => [[]]
  | n :: ns => (allIdx ns).flatMap fun t => (List.range n).map fun i => i :: t

/-- numpy's broadcasting of two shapes (last axis first). -/
def bshape : List Nat → List Nat → Option (List Nat)
  | [], ns => some ns
  | ms, [] => some ms
  | m :: ms, n :: ns =>
      if m = n then (bshape ms ns).map (m :: ·)
      else if m = 1 then (bshape ms ns).map (n :: ·)
      else if n = 1 then (bshape ms ns).map (m :: ·)
      else none

/-- The entry of a broadcast array: axes of length 1 are repeated. -/
def bidx (shape idx : List Nat) : List Nat :=
  List.zipWith (fun d i => if d = 1 then 0 else i) shape idx

namespace Nd

variable {K : Type}

/-- `x != y` for two floats: `nan` differs from everything. -/
def entryNe [DecidableEq K] : Option K → Option K → Bool
  | some x, some y => x != y
  | _, _ => true

/-- `np.any(a != b)`; shapes that do not broadcast raise (numpy ≥ 1.25; older versions
give `True` with a warning, which makes `==` answer `False`). -/
def neAny [DecidableEq K] (a b : Nd K) : Except Err Bool :=
  match bshape a.rshape b.rshape with
  | none => .error .valueError
  | some sh => .ok ((allIdx sh).any fun i =>
      entryNe (a.entry (bidx a.rshape i)) (b.entry (bidx b.rshape i)))

/-- The number of entries. -/
def size (a : Nd K) : Nat := a.rshape.prod

/-- `np.array_equal(a, b)`. -/
def arrayEqual [DecidableEq K] (a b : Nd K) : Bool :=
  if a.rshape = b.rshape then
    !(allIdx a.rshape).any fun i => entryNe (a.entry i) (b.entry i)
  else false

end Nd

/-- The value of a field: `None`; a number or string (compared with `==`); an array; a
list of labels; the list of cluster maps. -/
inductive PyVal (K : Type)
  | none
  | atom (n : Nat)
  | arr (a : Nd K)
  | labels (l : List Nat)
  | maps (l : List (Nd K))

namespace PyVal

variable {K : Type} [DecidableEq K]

/-- The loop of /repo/bet/sample.py:313-316 over the cluster maps of `self`. -/
def mapsEq : List (Nd K) → List (Nd K) → Except Err Bool
  | [], _ => .ok true
  | _ :: _, [] => .error .indexError
  | a :: as, b :: bs => if a.arrayEqual b then mapsEq as bs else .ok false

/-- /repo/bet/sample.py:305-328: whether the loop goes on after comparing one field.
An array on the left: `np.any(self != other)` (comparing with `None` makes an array of
`True`).  `None` on the left: `if None != other`, where an array on the right makes an
array whose truth value exists only if it has at most one entry.  Other combinations
of different types do not occur in sets of BET; they are unequal here. -/
def eqField : PyVal K → PyVal K → Except Err Bool
  | .arr a, .arr b => (a.neAny b).map (!·)
  | .arr a, .none => .ok (a.size == 0)
  | .none, .arr b =>
      if b.size = 0 then .ok true else if b.size = 1 then .ok false else .error .valueError
  | .none, .none => .ok true
  | .atom m, .atom n => .ok (m == n)
  | .labels l, .labels l' => .ok (l == l')
  | .maps l, .maps l' => mapsEq l l'
  | _, _ => .ok false

end PyVal

/-- An object: its class and its `meta_fields` in order (/repo/bet/sample.py:168-176). -/
structure SetObj (K : Type) where
  cls : Nat
  fields : List (PyVal K)

namespace SetObj

variable {K : Type} [DecidableEq K]

/-- The loop over the fields. -/
def eqFields : List (PyVal K) → List (PyVal K) → Except Err Bool
  | x :: xs, y :: ys => do
      let go ← x.eqField y
      if go then eqFields xs ys else pure false
  | _, _ => pure true

/-- /repo/bet/sample.py:294-330 `__eq__`. -/
def eq (a b : SetObj K) : Except Err Bool :=
  if a.cls = b.cls then eqFields a.fields b.fields else .error .typeError

end SetObj

/-- A discretization as `__eq__` sees it: the sample sets of `sample_set_names` and the
pointers of `vector_names` (/repo/bet/sample.py:2241-2249). -/
structure DiscObj (K : Type) where
  sets : List (Option (SetObj K))
  vectors : List (PyVal K)

namespace DiscObj

variable {K : Type} [DecidableEq K]

/-- `self._set != other._set` (/repo/bet/sample.py:2326), negated: comparing a set with
`None`, in either order, ends in `__eq__` of the set, which raises `TypeError`. -/
def eqSet : Option (SetObj K) → Option (SetObj K) → Except Err Bool
  | none, none => .ok true
  | some a, some b => a.eq b
  | _, _ => .error .typeError

/-- The loop over the sample sets. -/
def eqSets : List (Option (SetObj K)) → List (Option (SetObj K)) → Except Err Bool
  | x :: xs, y :: ys => do
      let go ← eqSet x y
      if go then eqSets xs ys else pure false
  | _, _ => pure true

/-- /repo/bet/sample.py:2305-2332 `__eq__`. -/
def eq (a b : DiscObj K) : Except Err Bool := do
  let go ← eqSets a.sets b.sets
  if go then SetObj.eqFields a.vectors b.vectors else pure false

end DiscObj

end BET
