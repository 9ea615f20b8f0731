import Verif.Model.Util
import Verif.Model.CalculateR

/-!
# Setters, getters and appenders of /repo/bet/sample.py `sample_set_base`

The object is its `__dict__`: a value for each attribute name. A method returns the exception it raises, if any,
and the object it leaves behind: attributes assigned before an exception stay assigned.
-/

set_option autoImplicit false

namespace BET

/-- What an attribute holds: `None`, an `np.ndarray`, or another Python object (`T`). -/
inductive AttrVal (K T : Type)
  | none
  | arr (a : NdArr K)
  | other (t : T)
  deriving DecidableEq

/-- A `sample_set_base`: `_dim` and the other attributes. -/
structure AttrObj (K T : Type) where
  dim : Nat
  attrs : String → AttrVal K T

/-- A method without result: the exception or `None`, and the object afterwards. -/
abbrev Effect (K T : Type) := Except Err Unit × AttrObj K T

namespace AttrObj

variable {K T : Type}

/-- `self.name = v`. -/
def put (o : AttrObj K T) (name : String) (v : AttrVal K T) : AttrObj K T :=
  { o with attrs := fun n => if n = name then v else o.attrs n }

/-- /repo/bet/sample.py:183-292 `__init__`: everything is `None` but `_dim` and `_p_norm` (`two` is `2.0`). -/
def init (dim : Nat) (two : T) : AttrObj K T where
  dim := dim
  attrs := fun n => if n = "_p_norm" then .other two else .none

end AttrObj

/-- The attributes with a setter that only assigns and a getter that only returns. -/
inductive PlainAttr
  | pNorm | clusterMaps | label | labels | weights | weightsInit | probTypeInit | probParametersInit | probType
  | probParameters | region | regionLocal | errorId | errorIdLocal | volumes | probabilities | jacobians
  | errorEstimates | volumesLocal | probabilitiesLocal | jacobiansLocal | errorEstimatesLocal
  deriving DecidableEq, Repr

/-- The attribute that `set_...` assigns: /repo/bet/sample.py:423 `set_p_norm`, 438 `set_cluster_maps`, 452 `set_label`,
467 `set_labels`, 481 `set_weights`, 495 `set_weights_init`, 509 `set_prob_type_init`, 522 `set_prob_parameters_init`,
536 `set_prob_type`, 549 `set_prob_parameters`, 575-582 `set_region`, 590-597 `set_region_local`, 605-612 `set_error_id`,
620-627 `set_error_id_local` (which assigns `_error_local`), 853-861 `set_volumes`, 873-881 `set_probabilities`,
1004-1012 `set_jacobians`, 1041-1049 `set_error_estimates`, 1117-1125 `set_volumes_local`,
1137-1145 `set_probabilities_local`, 1186-1195 `set_jacobians_local`, 1207-1215 `set_error_estimates_local`. -/
def PlainAttr.assigned : PlainAttr → String
  | pNorm => "_p_norm"
  | clusterMaps => "_cluster_maps"
  | label => "_label"
  | labels => "_labels"
  | weights => "_weights"
  | weightsInit => "_weights_init"
  | probTypeInit => "_prob_type_init"
  | probParametersInit => "_prob_parameters_init"
  | probType => "_prob_type"
  | probParameters => "_prob_parameters"
  | region => "_region"
  | regionLocal => "_region_local"
  | errorId => "_error_id"
  | errorIdLocal => "_error_local"
  | volumes => "_volumes"
  | probabilities => "_probabilities"
  | jacobians => "_jacobians"
  | errorEstimates => "_error_estimates"
  | volumesLocal => "_volumes_local"
  | probabilitiesLocal => "_probabilities_local"
  | jacobiansLocal => "_jacobians_local"
  | errorEstimatesLocal => "_error_estimates_local"

/-- What a getter is called for. -/
inductive Getter
  | plain (f : PlainAttr)
  | referenceValue | domain | values | valuesLocal | densities | densitiesLocal
  deriving DecidableEq, Repr

/-- The attribute that `get_...` returns: /repo/bet/sample.py:425-429 `get_p_norm`, 440-444 `get_cluster_maps`,
454-458 `get_label`, 469-473 `get_labels`, 483-487 `get_weights`, 497-501 `get_weights_init`,
511-515 `get_prob_type_init`, 524-528 `get_prob_parameters_init`, 538-542 `get_prob_type`,
551-555 `get_prob_parameters`, 569-573 `get_reference_value`, 584-588 `get_region`, 599-603 `get_region_local`,
614-618 `get_error_id`, 629-633 `get_error_id_local`, 820-828 `get_values`, 843-851 `get_domain`,
863-871 `get_volumes`, 883-891 `get_probabilities`, 913-921 `get_densities`, 1014-1022 `get_jacobians`,
1051-1059 `get_error_estimates`, 1107-1115 `get_values_local`, 1127-1135 `get_volumes_local`,
1147-1156 `get_probabilities_local`, 1175-1184 `get_densities_local`, 1197-1205 `get_jacobians_local`,
1217-1225 `get_error_estimates_local`. -/
def Getter.returned : Getter → String
  | plain .pNorm => "_p_norm"
  | plain .clusterMaps => "_cluster_maps"
  | plain .label => "_label"
  | plain .labels => "_labels"
  | plain .weights => "_weights"
  | plain .weightsInit => "_weights_init"
  | plain .probTypeInit => "_prob_type_init"
  | plain .probParametersInit => "_prob_parameters_init"
  | plain .probType => "_prob_type"
  | plain .probParameters => "_prob_parameters"
  | plain .region => "_region"
  | plain .regionLocal => "_region_local"
  | plain .errorId => "_error_id"
  | plain .errorIdLocal => "_error_id_local"
  | plain .volumes => "_volumes"
  | plain .probabilities => "_probabilities"
  | plain .jacobians => "_jacobians"
  | plain .errorEstimates => "_error_estimates"
  | plain .volumesLocal => "_volumes_local"
  | plain .probabilitiesLocal => "_probabilities_local"
  | plain .jacobiansLocal => "_jacobians_local"
  | plain .errorEstimatesLocal => "_error_estimates_local"
  | referenceValue => "_reference_value"
  | domain => "_domain"
  | values => "_values"
  | valuesLocal => "_values_local"
  | densities => "_densities"
  | densitiesLocal => "_densities_local"

/-- The result of a getter. -/
def AttrObj.get {K T : Type} (o : AttrObj K T) (g : Getter) : AttrVal K T := o.attrs g.returned

/-- `np.concatenate((a, b), 0)`: raises `ValueError` for arrays without axes (`None` is one of them) and if the
other axes differ. -/
def concat0 {K T : Type} (a : AttrVal K T) (b : NdArr K) : Except Err (NdArr K) :=
  match a with
  | .arr a =>
      match a.shape, b.shape with
      | n :: ns, m :: ms => if ns = ms then .ok ⟨(n + m) :: ns, a.data ++ b.data⟩ else .error .valueError
      | _, _ => .error .valueError
  | _ => .error .valueError

/-- Column `j` of a matrix with `m` columns and `n` rows. -/
def ndColumn {K : Type} (a : NdArr K) (n m j : Nat) : List K :=
  (List.range n).filterMap fun i => a.data[i * m + j]?

/-- `np.vstack((np.min(a, axis=0), np.max(a, axis=0))).transpose()` for a matrix; `ValueError` without rows.
Simplification: arrays with other than two axes are refused. -/
def boundingBox {K : Type} [Min K] [Max K] (a : NdArr K) : Except Err (NdArr K) :=
  match a.shape with
  | [n, m] => do
      let rows ← (List.range m).mapM fun j => do
        let lo ← npMin (ndColumn a n m j)
        let hi ← npMax (ndColumn a n m j)
        pure [lo, hi]
      pure ⟨[m, 2], rows.flatten⟩
  | _ => .error .valueError

/-- `self.name.shape[0]`; `None` has no `shape`. -/
def lenOf {K T : Type} : AttrVal K T → Except Err Nat
  | .arr a => orErr .indexError a.shape.head?
  | _ => .error .attributeError

/-- `self._domain[:, j]`: `TypeError` for `None`, `IndexError` without a second axis or without column `j`. -/
def domainColumn {K T : Type} (v : AttrVal K T) (j : Nat) : Except Err (List K) :=
  match v with
  | .arr a =>
      match a.shape with
      | [n, m] => if j < m then .ok (ndColumn a n m j) else .error .indexError
      | _ => .error .indexError
  | _ => .error .typeError

/-- `np.repeat([l], num, 0)`. -/
def repeatRow {K : Type} (l : List K) (num : Nat) : NdArr K :=
  ⟨[num, l.length], (List.replicate num l).flatten⟩

namespace AttrObj

variable {K T : Type}

/-- /repo/bet/sample.py:557-567 `set_reference_value`. -/
def setReference (o : AttrObj K T) (a : NdArr K) : Effect K T :=
  if a.shape ≠ [o.dim] then (.error .dimNotMatching, o) else (.ok (), o.put "_reference_value" (.arr a))

/-- /repo/bet/sample.py:830-841 `set_domain`: `(domain.shape[0], 2) != (self._dim, 2)`. -/
def setDomain (o : AttrObj K T) (a : NdArr K) : Effect K T :=
  match a.shape with
  | [] => (.error .indexError, o)
  | n :: _ => if n ≠ o.dim then (.error .dimNotMatching, o) else (.ok (), o.put "_domain" (.arr a))

/-- /repo/bet/sample.py:808-818 `set_values`: assigned first, checked then. -/
def setValues (o : AttrObj K T) (x : ArrayLike K) : Effect K T :=
  match fixData x (some o.dim) with
  | .error e => (.error e, o)
  | .ok a => (if cols a ≠ some o.dim then .error .dimNotMatching else .ok (), o.put "_values" (.arr a))

/-- /repo/bet/sample.py:1077-1088 `set_values_local`. -/
def setValuesLocal (o : AttrObj K T) (x : ArrayLike K) : Effect K T :=
  match fixData x (some o.dim) with
  | .error e => (.error e, o)
  | .ok a =>
      (if a.shape.length > 1 ∧ cols a ≠ some o.dim then .error .dimNotMatching else .ok (),
        o.put "_values_local" (.arr a))

/-- `np.concatenate((self.name, new), 0)` and the assignment. -/
def appendTo (o : AttrObj K T) (name : String) (b : NdArr K) : Effect K T :=
  match concat0 (o.attrs name) b with
  | .error e => (.error e, o)
  | .ok c => (.ok (), o.put name (.arr c))

/-- /repo/bet/sample.py:664-676 `append_values`, 678-690 `append_values_local`. -/
def appendFixed (o : AttrObj K T) (name : String) (x : ArrayLike K) : Effect K T :=
  match fixData x (some o.dim) with
  | .error e => (.error e, o)
  | .ok b => o.appendTo name b

/-- /repo/bet/sample.py:792-798 `set_bounding_box`; `np.min(None, axis=0)` raises (`AxisError`, a `ValueError`). -/
def setBoundingBox [Min K] [Max K] (o : AttrObj K T) : Effect K T :=
  match o.attrs "_values" with
  | .arr a =>
      match boundingBox a with
      | .error e => (.error e, o)
      | .ok b => (.ok (), o.put "_bounding_box" (.arr b))
  | _ => (.error .valueError, o)

/-- /repo/bet/sample.py:800-806 `get_bounding_box`: the effect, lines 804-805. -/
def ensureBox [Min K] [Max K] (o : AttrObj K T) : Effect K T :=
  match o.attrs "_bounding_box" with
  | .none => o.setBoundingBox
  | _ => (.ok (), o)

/-- /repo/bet/sample.py:800-806 `get_bounding_box`: the result. -/
def getBoundingBox [Min K] [Max K] (o : AttrObj K T) : Except Err (AttrVal K T) :=
  match o.ensureBox with
  | (.ok _, o') => .ok (o'.attrs "_bounding_box")
  | (.error e, _) => .error e

/-- Lines 643-646 and 660-662 of /repo/bet/sample.py, with the names of the attributes. -/
def bounds [Sub K] (o : AttrObj K T) (left right width : String) (num : Nat) : Effect K T :=
  match domainColumn (o.attrs "_domain") 0 with
  | .error e => (.error e, o)
  | .ok lo =>
      match domainColumn (o.attrs "_domain") 1 with
      | .error e => (.error e, o.put left (.arr (repeatRow lo num)))
      | .ok hi =>
          (.ok (), ((o.put left (.arr (repeatRow lo num))).put right (.arr (repeatRow hi num))).put width
            (.arr ⟨[num, hi.length],
              List.zipWith (· - ·) (repeatRow hi num).data (repeatRow lo num).data⟩))

/-- The number of rows: that given, or that of the values. -/
def boundsNum (o : AttrObj K T) (name : String) : Option Nat → Except Err Nat
  | some n => .ok n
  | none => lenOf (o.attrs name)

/-- /repo/bet/sample.py:635-646 `update_bounds`. -/
def updateBounds [Sub K] (o : AttrObj K T) (num : Option Nat) : Effect K T :=
  match o.boundsNum "_values" num with
  | .error e => (.error e, o)
  | .ok n => o.bounds "_left" "_right" "_width" n

/-- /repo/bet/sample.py:648-662 `update_bounds_local`. -/
def updateBoundsLocal [Sub K] (o : AttrObj K T) (num : Option Nat) : Effect K T :=
  match o.boundsNum "_values_local" num with
  | .error e => (.error e, o)
  | .ok n => o.bounds "_left_local" "_right_local" "_width_local" n

/-- /repo/bet/sample.py:1364-1373 `shape` and 1375-1384 `shape_local`. -/
def shapeOf (o : AttrObj K T) (name : String) : Except Err (List Nat) :=
  match o.attrs name with
  | .arr a => .ok a.shape
  | _ => .error .attributeError

end AttrObj

/-- A call of a method that changes the object. `set_densities` and `set_densities_local` are those with an
argument (without, see `Model.Densities`). -/
inductive AttrCall (K T : Type)
  | set (f : PlainAttr) (v : AttrVal K T)
  | setReference (a : NdArr K)
  | setDomain (a : NdArr K)
  | setValues (x : ArrayLike K)
  | setValuesLocal (x : ArrayLike K)
  | setDensities (a : NdArr K)
  | setDensitiesLocal (a : NdArr K)
  | appendValues (x : ArrayLike K)
  | appendValuesLocal (x : ArrayLike K)
  | appendJacobians (a : NdArr K)
  | appendErrorEstimates (a : NdArr K)
  | setBoundingBox
  | getBoundingBox
  | updateBounds (num : Option Nat)
  | updateBoundsLocal (num : Option Nat)

section
variable {K T : Type} [Min K] [Max K] [Sub K]

/-- The call of a method. /repo/bet/sample.py: 1024-1039 `append_jacobians`, 1061-1075 `append_error_estimates`,
893-903 `set_densities` and 1158-1167 `set_densities_local` with an argument; the others above. -/
def AttrCall.exec (o : AttrObj K T) : AttrCall K T → Effect K T
  | set f v => (.ok (), o.put f.assigned v)
  | setReference a => o.setReference a
  | setDomain a => o.setDomain a
  | setValues x => o.setValues x
  | setValuesLocal x => o.setValuesLocal x
  | setDensities a => (.ok (), o.put "_densities" (.arr a))
  | setDensitiesLocal a => (.ok (), o.put "_densities_local" (.arr a))
  | appendValues x => o.appendFixed "_values" x
  | appendValuesLocal x => o.appendFixed "_values_local" x
  | appendJacobians a => o.appendTo "_jacobians" a
  | appendErrorEstimates a => o.appendTo "_error_estimates" a
  | setBoundingBox => o.setBoundingBox
  | getBoundingBox => o.ensureBox
  | updateBounds num => o.updateBounds num
  | updateBoundsLocal num => o.updateBoundsLocal num

/-- The object after a sequence of calls, exceptions being caught by the caller. -/
def AttrObj.run (o : AttrObj K T) (h : List (AttrCall K T)) : AttrObj K T :=
  h.foldl (fun o c => (c.exec o).2) o

end

end BET
