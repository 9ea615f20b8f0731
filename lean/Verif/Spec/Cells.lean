import Verif.Model.Query
import Verif.Spec.Arrays
import Verif.Spec.Mass

/-!
# Specification vocabulary: cells of a sample set
-/

set_option autoImplicit false

namespace BET.Spec

variable {K : Type} [LinearOrder K]

/-- `i` is the index of a point of `pts` nearest to `x`. -/
def IsNearest (dist : List K → List K → K) (pts : List (List K)) (x : List K) (i : Nat) : Prop :=
  ∃ c, pts[i]? = some c ∧ ∀ c' ∈ pts, dist x c ≤ dist x c'

/-- The external nearest-neighbour search does what it promises. -/
def Sound (G : Geometry K) : Prop :=
  ∀ p pts x, pts ≠ [] → IsNearest (G.dist p) pts x (G.nn p pts x)

/-- `x` lies in the half-open box `(left, right]`, coordinate by coordinate. -/
def InBox (left right x : List K) : Prop :=
  (∀ (i : Nat) a b, x[i]? = some a → right[i]? = some b → a ≤ b) ∧
  (∀ (i : Nat) a b, x[i]? = some a → left[i]? = some b → b < a)

/-- `i` is the first of the regions `0, …, m-1` that contain the point, or `m` (the
remainder cell) when none does. -/
def IsFirst (m : Nat) (inside : Nat → Prop) (i : Nat) : Prop :=
  (i < m ∧ inside i ∧ ∀ j < i, ¬ inside j) ∨ (i = m ∧ ∀ j < m, ¬ inside j)

/-- `i` is the cell of `x` in the sample set `s`: a nearest sample of a Voronoi set,
the first rectangle or ball that contains `x` or else the last entry. -/
def IsCell (G : Geometry K) (s : SampleSet K) (x : List K) (i : Nat) : Prop :=
  match s.kind with
  | .voronoi => ∀ v, s.glob.values = some v → IsNearest (G.dist s.pNorm) v x i
  | .rectangle => ∀ v r l, s.glob.values = some v → s.glob.right = some r →
      s.glob.left = some l →
      IsFirst (v.length - 1) (fun j => ∃ a b, l[j]? = some a ∧ r[j]? = some b ∧ InBox a b x) i
  | .ball => ∀ v rad, s.glob.values = some v → s.glob.radii = some rad →
      IsFirst (v.length - 1)
        (fun j => ∃ c ρ, v[j]? = some c ∧ rad[j]? = some ρ ∧ G.dist s.pNorm x c < ρ) i

/-- A set with `n ≥ 1` cells that is ready to be queried: consistent, with values, and
with the arrays its kind needs; the cached tree, if any, is that of the values. -/
structure Ready (s : SampleSet K) (n : Nat) : Prop where
  consistent : Consistent s n
  pos : 0 < n
  values : s.glob.values.isSome
  tree : s.kdtree = none ∨ s.kdtree = s.glob.values
  rect : s.kind = .rectangle → s.glob.right.isSome ∧ s.glob.left.isSome
  ball : s.kind = .ball → s.glob.radii.isSome

/-- `pn` is the distribution on the cells of `s` that points `x` with weights `w`
induce: entry `i` is the total weight of the points whose cell is `i`. -/
def IsPushForward [AddMonoid K] (G : Geometry K) (s : SampleSet K) (x : List (List K))
    (w pn : List K) : Prop :=
  ∃ cells : List Nat, List.Forall₂ (IsCell G s) x cells ∧
    ∀ i, i < pn.length → pn[i]? = some (mass cells w i)

end BET.Spec
