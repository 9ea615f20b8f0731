import Verif.Model.NumPy

/-!
# Arrays of any shape and the helpers of /repo/bet/util.py
-/

set_option autoImplicit false

namespace BET

/-- `np.ndarray`: the shape and the entries in row-major order. -/
structure NdArr (α : Type) where
  shape : List Nat
  data : List α
  deriving DecidableEq, Repr

/-- `np.unravel_index(r, shape)` (row-major). -/
def unravel : List Nat → Nat → List Nat
  | [], _ => []
  | n :: ns, r => (r / ns.prod) % n :: unravel ns r

/-- `np.ravel_multi_index(idx, shape)` (row-major). -/
def ravel : List Nat → List Nat → Nat
  | _ :: ns, i :: is => i * ns.prod + ravel ns is
  | _, _ => 0

/-- `a.transpose()`: the axes reversed. -/
def NdArr.transpose {α : Type} (a : NdArr α) : NdArr α where
  shape := a.shape.reverse
  data := (List.range a.shape.reverse.prod).filterMap fun r =>
    a.data[ravel a.shape (unravel a.shape.reverse r).reverse]?

/-- What the functions accept: a number, an iterable that is no `np.ndarray` (given by the array
`np.array` makes of it), or an `np.ndarray`. -/
inductive ArrayLike (α : Type)
  | num (x : α)
  | seq (a : NdArr α)
  | arr (a : NdArr α)

/-- Lines 126-129 and 143-146: `np.array([x])` for a number, `np.array(x)` for a sequence. -/
def toArr {α : Type} : ArrayLike α → NdArr α
  | .num x => ⟨[1], [x]⟩
  | .seq a => a
  | .arr a => a

/-- /repo/bet/util.py:118-130 `fix_dimensions_vector`: `vector.flat[:]`. -/
def fixVector {α : Type} (x : ArrayLike α) : NdArr α :=
  ⟨[(toArr x).data.length], (toArr x).data⟩

/-- `np.expand_dims(a, axis=1)`; raises `AxisError` (a `ValueError`) for an array without axes. -/
def expandDims1 {α : Type} (a : NdArr α) : Except Err (NdArr α) :=
  match a.shape with
  | [] => .error .valueError
  | n :: ns => .ok ⟨n :: 1 :: ns, a.data⟩

/-- /repo/bet/util.py:133-149 `fix_dimensions_vector_2darray`. -/
def fixVector2d {α : Type} (x : ArrayLike α) : Except Err (NdArr α) :=
  if (toArr x).shape.length ≤ 1 then expandDims1 (toArr x) else .ok (toArr x)

/-- `len(x)` of a sequence. -/
def seqLen {α : Type} (a : NdArr α) : Nat := a.shape.headD 0

/-- /repo/bet/util.py:152-176 `fix_dimensions_domain`; `len` of a number raises `TypeError`;
`np.expand_dims(domain, axis=0)` puts an axis of length 1 in front. -/
def fixDomain {α : Type} : ArrayLike α → Except Err (NdArr α)
  | .num _ => .error .typeError
  | .seq a => if seqLen a = 2 then .ok ⟨1 :: a.shape, a.data⟩ else .error .typeError
  | .arr a =>
      match a.shape with
      | [n] => if n = 2 then .ok ⟨[1, n], a.data⟩ else .error .typeError
      | [n, m] => if m = 2 then .ok a else if n = 2 then .ok a.transpose else .error .typeError
      | _ => .error .typeError

/-- The length of the second axis. -/
def cols {α : Type} (a : NdArr α) : Option Nat := a.shape[1]?

/-- /repo/bet/util.py:179-209 `fix_dimensions_data`. -/
def fixData {α : Type} (x : ArrayLike α) : Option Nat → Except Err (NdArr α)
  | none =>
      match x with
      | .arr a => if a.shape.length = 1 then fixVector2d x else .ok a
      | _ => fixVector2d x
  | some dim => do
      let a ← fixVector2d x
      if a.shape.length > 1 ∧ cols a ≠ some dim then pure a.transpose else pure a

/-! ### `meshgrid_ndim` -/

/-- Component `i` of `np.meshgrid(*xs, indexing='ij')`, flattened: the entry with multi-index
`(j_0, j_1, ...)` is `xs[i][j_i]`. -/
def meshComponent {α : Type} (xs : List (List α)) (i : Nat) : List α :=
  (List.range (xs.map List.length).prod).filterMap fun r =>
    ((unravel (xs.map List.length) r)[i]?).bind fun j => (xs[i]?).bind fun v => v[j]?

/-- `np.vstack(columns).transpose()` for `n` columns of `rows` entries. -/
def stackColumns {α : Type} (rows : Nat) (columns : List (List α)) : List (List α) :=
  (List.range rows).map fun r => columns.filterMap fun c => c[r]?

/-- /repo/bet/util.py:26-73 `meshgrid_ndim`: the vectors are padded with `np.array([0])` to ten;
of more than ten the first ten are used. -/
def meshgridNdim {α : Type} [Zero α] (xs : List (List α)) : List (List α) :=
  let alist := (xs ++ List.replicate (10 - xs.length) [0]).take 10
  let x := stackColumns (alist.map List.length).prod
    ((List.range 10).map (meshComponent alist))
  x.map (List.take xs.length)

end BET
