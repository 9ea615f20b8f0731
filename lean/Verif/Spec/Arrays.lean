import Verif.Model.SampleSet

/-!
# Specification vocabulary for sample sets

These predicates list the fourteen arrays of a sample set one by one, so that
they do not depend on how the model loops over them.
-/

set_option autoImplicit false

namespace BET.Spec

variable {K : Type}

/-- Every array that is present has `n` entries (rows). -/
structure AllLength (a : Arrays List K) (n : Nat) : Prop where
  values : ∀ v, a.values = some v → v.length = n
  volumes : ∀ v, a.volumes = some v → v.length = n
  probabilities : ∀ v, a.probabilities = some v → v.length = n
  densities : ∀ v, a.densities = some v → v.length = n
  jacobians : ∀ v, a.jacobians = some v → v.length = n
  errorEstimates : ∀ v, a.errorEstimates = some v → v.length = n
  right : ∀ v, a.right = some v → v.length = n
  left : ∀ v, a.left = some v → v.length = n
  width : ∀ v, a.width = some v → v.length = n
  kdtreeValues : ∀ v, a.kdtreeValues = some v → v.length = n
  radii : ∀ v, a.radii = some v → v.length = n
  normalizedRadii : ∀ v, a.normalizedRadii = some v → v.length = n
  region : ∀ v, a.region = some v → v.length = n
  errorId : ∀ v, a.errorId = some v → v.length = n

/-- No array is present. -/
structure NonePresent {F : Type → Type} (a : Arrays F K) : Prop where
  values : a.values = none
  volumes : a.volumes = none
  probabilities : a.probabilities = none
  densities : a.densities = none
  jacobians : a.jacobians = none
  errorEstimates : a.errorEstimates = none
  right : a.right = none
  left : a.left = none
  width : a.width = none
  kdtreeValues : a.kdtreeValues = none
  radii : a.radii = none
  normalizedRadii : a.normalizedRadii = none
  region : a.region = none
  errorId : a.errorId = none

/-- Every local array that is present has `ns[r]` entries on process `r`. -/
structure AllShape (a : Arrays Chunks K) (ns : List Nat) : Prop where
  values : ∀ v, a.values = some v → v.map List.length = ns
  volumes : ∀ v, a.volumes = some v → v.map List.length = ns
  probabilities : ∀ v, a.probabilities = some v → v.map List.length = ns
  densities : ∀ v, a.densities = some v → v.map List.length = ns
  jacobians : ∀ v, a.jacobians = some v → v.map List.length = ns
  errorEstimates : ∀ v, a.errorEstimates = some v → v.map List.length = ns
  right : ∀ v, a.right = some v → v.map List.length = ns
  left : ∀ v, a.left = some v → v.map List.length = ns
  width : ∀ v, a.width = some v → v.map List.length = ns
  kdtreeValues : ∀ v, a.kdtreeValues = some v → v.map List.length = ns
  radii : ∀ v, a.radii = some v → v.map List.length = ns
  normalizedRadii : ∀ v, a.normalizedRadii = some v → v.map List.length = ns
  region : ∀ v, a.region = some v → v.map List.length = ns
  errorId : ∀ v, a.errorId = some v → v.map List.length = ns

/-- Array by array: whatever relation `R` says about the two (possibly missing)
arrays holds for each of the fourteen. -/
structure Each {F G : Type → Type} (R : ∀ α : Type, Option (F α) → Option (G α) → Prop)
    (a : Arrays F K) (b : Arrays G K) : Prop where
  values : R _ a.values b.values
  volumes : R _ a.volumes b.volumes
  probabilities : R _ a.probabilities b.probabilities
  densities : R _ a.densities b.densities
  jacobians : R _ a.jacobians b.jacobians
  errorEstimates : R _ a.errorEstimates b.errorEstimates
  right : R _ a.right b.right
  left : R _ a.left b.left
  width : R _ a.width b.width
  kdtreeValues : R _ a.kdtreeValues b.kdtreeValues
  radii : R _ a.radii b.radii
  normalizedRadii : R _ a.normalizedRadii b.normalizedRadii
  region : R _ a.region b.region
  errorId : R _ a.errorId b.errorId

/-- The same for three families of arrays. -/
structure Each₃ {F G H : Type → Type}
    (R : ∀ α : Type, Option (F α) → Option (G α) → Option (H α) → Prop)
    (a : Arrays F K) (b : Arrays G K) (c : Arrays H K) : Prop where
  values : R _ a.values b.values c.values
  volumes : R _ a.volumes b.volumes c.volumes
  probabilities : R _ a.probabilities b.probabilities c.probabilities
  densities : R _ a.densities b.densities c.densities
  jacobians : R _ a.jacobians b.jacobians c.jacobians
  errorEstimates : R _ a.errorEstimates b.errorEstimates c.errorEstimates
  right : R _ a.right b.right c.right
  left : R _ a.left b.left c.left
  width : R _ a.width b.width c.width
  kdtreeValues : R _ a.kdtreeValues b.kdtreeValues c.kdtreeValues
  radii : R _ a.radii b.radii c.radii
  normalizedRadii : R _ a.normalizedRadii b.normalizedRadii c.normalizedRadii
  region : R _ a.region b.region c.region
  errorId : R _ a.errorId b.errorId c.errorId

/-- The value matrix has `dim` columns. -/
def HasCols (dim : Nat) (values : Option (List (List K))) : Prop :=
  ∀ v, values = some v → ∀ row ∈ v, row.length = dim

/-- A sample set with `n` samples: some global array is present, all that are have
`n` entries, and the values have as many columns as the set has dimensions. -/
def Consistent (s : SampleSet K) (n : Nat) : Prop :=
  AllLength s.glob n ∧ ¬ NonePresent s.glob ∧ HasCols s.dim s.glob.values

end BET.Spec
