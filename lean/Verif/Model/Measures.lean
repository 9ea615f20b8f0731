import Verif.Model.ChooseQois
import Verif.Model.CalcError

/-!
# Skewness and condition number of sets of QoIs

Model of /repo/bet/sensitivity/chooseQoIs.py:74-192 (`calculate_avg_measure`, lines 16-71, is
`avgMeasure` in `Model.ChooseQois`).

Assumed of libraries: `svd` are the singular values that `np.linalg.svd` returns for one matrix,
`norm2` is `np.linalg.norm` of one vector; `stats.hmean` is `n / sum(1/x)`. Arithmetic is exact.
-/

set_option autoImplicit false

namespace BET

section
variable {K : Type} [Field K] [LinearOrder K]

/-- `1 / x` for the harmonic mean: 0 for an infinite value. -/
def Num.recip : Num K → K
  | .fin x => 1 / x
  | .nan => 0
  | .inf _ => 0

/-- `stats.hmean(x)`, /repo/bet/sensitivity/chooseQoIs.py:146 and 190: `n / sum(1/x)`, infinite when
all entries are. -/
def hmean (x : List (Num K)) : Num K := Num.div (x.length : K) (x.map Num.recip).sum

/-- The rows of a Jacobian without row `i`: `np.delete(G, i, axis=1)`,
/repo/bet/sensitivity/chooseQoIs.py:115. -/
def withoutRow (m : List (List K)) (i : Nat) : List (List K) := m.eraseIdx i

/-- /repo/bet/sensitivity/chooseQoIs.py:118-139 for one gradient: its norm and the norm of its part
perpendicular to the others. Where that is zero or infinite the skewness is infinite; dividing by `nan`
gives `nan`. -/
def skewEntry (norm : K) : Num K → Num K
  | .fin x => if x = 0 then .inf true else .fin (norm / x)
  | .nan => .nan
  | .inf _ => .inf true

/-- The skewness of each gradient of one centre (lines 104-139). -/
def skewRow (svd : List (List K) → List K) (norm2 : List K → K) (m : List (List K)) :
    List (Num K) :=
  (List.range m.length).map fun i =>
    skewEntry (norm2 (m.getD i [])) (Num.div (svd m).prod (svd (withoutRow m i)).prod)

/-- The larger of two skewnesses, where `nan` counts as infinite (`np.max` passes `nan` on and line
143 makes it infinite). -/
def Num.worse : Num K → Num K → Num K
  | .fin y, .fin z => .fin (max y z)
  | _, _ => .inf true

/-- /repo/bet/sensitivity/chooseQoIs.py:142-143 for one centre. The maximum of no entries raises
`ValueError`. -/
def skewMax : List (Num K) → Except Err (Num K)
  | [] => .error .valueError
  | a :: l => .ok ((a :: l).foldl Num.worse a)

/-- /repo/bet/sensitivity/chooseQoIs.py:74-148 `calculate_avg_skewness`. -/
def avgSkewness (svd : List (List K) → List K) (norm2 : List K → K)
    (jac : Option (List (List (List K)))) (q : Option (List Nat)) :
    Except Err (Num K × List (List (Num K))) := do
  let G ← orErr .valueError jac
  let G ← selectQois G q
  let _ ← raiseIf (G.any fun m => m.any fun v => decide (v.length < m.length)) .valueError
  let skew := G.map (skewRow svd norm2)
  let worst ← skew.mapM skewMax
  pure (hmean worst, skew)

/-- Lines 185-188 for the singular values of one centre: with a last one equal to 0 the first becomes
infinite and then the last becomes 1. -/
def condRow (sv : List K) : Except Err (List (Num K)) := do
  let last ← orErr .indexError sv.getLast?
  pure (if last = 0 then
      ((sv.map Num.fin).set 0 (.inf true)).set (sv.length - 1) (.fin 1)
    else sv.map Num.fin)

/-- `singvals[:, 0] / singvals[:, -1]`, line 189. -/
def condNum (row : List (Num K)) : Except Err (Num K) :=
  match row.head?, row.getLast? with
  | some (.fin a), some (.fin b) => .ok (Num.div a b)
  | some (.inf s), some (.fin _) => .ok (.inf s)
  | _, _ => .error .indexError

/-- The singular values changed and the harmonic mean, if at some centre the last one is not 0. -/
def condMean (sv : List (List K)) : Except Err (Num K × List (List (Num K))) := do
  let rows ← sv.mapM condRow
  let cs ← rows.mapM condNum
  pure (hmean cs, rows)

/-- /repo/bet/sensitivity/chooseQoIs.py:151-192 `calculate_avg_condnum`. -/
def avgCondnum (svd : List (List K) → List K) (jac : Option (List (List (List K))))
    (q : Option (List Nat)) : Except Err (Num K × List (List (Num K))) := do
  let G ← orErr .valueError jac
  let G ← selectQois G q
  let _ ← raiseIf (G.any fun m => m.any fun v => decide (v.length < m.length)) .valueError
  let sv := G.map svd
  if sv.all (fun s => decide (s.getLast? = some 0)) then
    pure (.inf true, sv.map fun s => s.map Num.fin)
  else condMean sv

end

end BET
