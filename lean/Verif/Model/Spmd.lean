import Verif.Model.CalculateP
import Verif.Model.CalcError

/-!
# Processes that run at their own speed

The other models run a collective operation on all processes in one step. Here every process has
its own program, and a schedule says whose turn it is.
-/

set_option autoImplicit false

namespace BET

/-- The collectives of mpi4py that BET uses: `allreduce` and `Allreduce`, `allgather` and
`Allgather`, `barrier` and `Barrier`, `scatter`, `gather` and `bcast`.  All of them are taken to
wait for every process; mpi4py may let a process leave the last three earlier. -/
inductive CollTag
  | allreduce
  | allgather
  | barrier
  | scatter
  | gather
  | bcast
  deriving DecidableEq

/-- The program of one process: it returns, raises, or takes part in a collective with the
contribution `m` and goes on with what all processes contributed, in rank order.  Between
collectives a process works on its own data only. -/
inductive Proc (M R : Type)
  | ret (r : R)
  | raise (e : Err)
  | coll (t : CollTag) (m : M) (k : List M → Proc M R)

namespace Proc

variable {M R S : Type}

/-- One piece of a program after another. -/
def bind : Proc M R → (R → Proc M S) → Proc M S
  | .ret r, f => f r
  | .raise e, _ => .raise e
  | .coll t m k, f => .coll t m fun ms => (k ms).bind f

instance : Monad (Proc M) where
  pure := .ret
  bind := bind

instance : LawfulMonad (Proc M) :=
  LawfulMonad.mk' (Proc M)
    (id_map := fun x => by
      show x.bind (fun a => .ret a) = x
      induction x with
      | ret => rfl
      | raise => rfl
      | coll t m k ih => simp only [bind, ih])
    (pure_bind := fun _ _ => rfl)
    (bind_assoc := fun x f g => by
      show (x.bind f).bind g = x.bind fun a => (f a).bind g
      induction x with
      | ret => rfl
      | raise => rfl
      | coll t m k ih => simp only [bind, ih])

/-- A computation of the process itself. -/
def ofExcept : Except Err R → Proc M R
  | .ok r => .ret r
  | .error e => .raise e

/-- The result of a process that has returned or raised. -/
def result : Proc M R → Option (Except Err R)
  | .ret r => some (.ok r)
  | .raise e => some (.error e)
  | .coll _ _ _ => none

end Proc

/-- The processes of a run; the flag says that the process has reached its collective and waits for
the others. -/
abbrev Sys (n : Nat) (M R : Type) := Fin n → Proc M R × Bool

namespace Sys

variable {n : Nat} {M R : Type}

/-- What a waiting process has contributed. -/
def posted : Proc M R × Bool → Option (CollTag × M)
  | (.coll t m _, true) => some (t, m)
  | _ => none

/-- A waiting process gets the contributions of all. -/
def resume (ms : List M) : Proc M R × Bool → Proc M R × Bool
  | (.coll _ _ k, _) => (k ms, false)
  | s => s

/-- When all processes wait, and for the same collective, they all go on. -/
def settle (st : Sys n M R) : Sys n M R :=
  match (List.ofFn fun i => posted (st i)).mapM id with
  | none => st
  | some cs => if cs.all fun c => cs.all fun c' => c.1 = c'.1 then
      fun i => resume (cs.map Prod.snd) (st i) else st

/-- Process `r` runs up to its next collective. -/
def turn (st : Sys n M R) (r : Fin n) : Sys n M R :=
  settle (Function.update st r ((st r).1, true))

/-- A schedule. -/
def run (st : Sys n M R) (sched : List (Fin n)) : Sys n M R := sched.foldl turn st

/-- The beginning of a run. -/
def start (ps : Fin n → Proc M R) : Sys n M R := fun i => (ps i, false)

end Sys

/-! ## The programs of /repo/bet/calculateP/calculateP.py -/

/-- What is sent: a number, a count, an array of numbers, of rows, of matrices, of indices, of
integers, a number that may be infinite or `nan`, or nothing. -/
inductive Msg (K : Type)
  | none
  | num (x : K)
  | cnt (x : Nat)
  | arr (xs : List K)
  | mat (xs : List (List K))
  | cub (xs : List (List (List K)))
  | nats (xs : List Nat)
  | ints (xs : List Int)
  | ext (x : Num K)

def Msg.toNum {K : Type} [Zero K] : Msg K → K
  | .num x => x
  | _ => 0

def Msg.toCnt {K : Type} : Msg K → Nat
  | .cnt x => x
  | _ => 0

def Msg.toArr {K : Type} : Msg K → List K
  | .arr xs => xs
  | _ => []

section
variable {K : Type} [Field K] [LinearOrder K]

/-- `comm.allreduce(x, op=MPI.SUM)` of a number. -/
def reduceNum (x : K) : Proc (Msg K) K :=
  .coll .allreduce (.num x) fun ms => .ret (ms.map Msg.toNum).sum

/-- `comm.allreduce(x, op=MPI.SUM)` of a count. -/
def reduceCnt (x : Nat) : Proc (Msg K) Nat :=
  .coll .allreduce (.cnt x) fun ms => .ret (ms.map Msg.toCnt).sum

/-- `util.get_global_values(xs)` (/repo/bet/util.py:74-111). -/
def gatherAll (xs : List K) : Proc (Msg K) (List K) :=
  .coll .allgather (.arr xs) fun ms => .ret (ms.map Msg.toArr).flatten

/-- The body of the loop of `prob` (/repo/bet/calculateP/calculateP.py:92-101) on one process. -/
def procProbBody (probs : Option (List K)) (ptr : List Nat) (vols : Option (List K)) (P : List K)
    (i : Nat) : Proc (Msg K) (List K) := do
  let ps ← Proc.ofExcept (orErr .typeError probs)
  let p ← Proc.ofExcept (getIdx ps i)
  if p > 0 then do
    let vs ← Proc.ofExcept (orErr .typeError vols)
    let sel ← Proc.ofExcept (maskSelE vs (npEqual ptr i))
    let s ← reduceNum sel.sum
    if s > 0 then pure (maskSet P (npEqual ptr i) (sel.map fun v => p * v / s)) else pure P
  else pure P

/-- The loop of `prob` and the gathering of its result (/repo/bet/calculateP/calculateP.py:91-105)
on one process: the local probabilities and the global ones, if asked for. -/
def procProb (opNum : Nat) (probs : Option (List K)) (globalize : Bool) (ptr : List Nat)
    (vols : Option (List K)) : Proc (Msg K) (List K × Option (List K)) := do
  let P ← (List.range opNum).foldlM (procProbBody probs ptr vols) (List.replicate ptr.length 0)
  if globalize then do
    let g ← gatherAll P
    pure (P, some g)
  else pure (P, none)

/-- The body of the loop of `prob_on_emulated_samples`
(/repo/bet/calculateP/calculateP.py:51-58) on one process. -/
def procProbEmBody (probs : Option (List K)) (ptr : List Nat) (P : List K) (i : Nat) :
    Proc (Msg K) (List K) := do
  let ps ← Proc.ofExcept (orErr .typeError probs)
  let p ← Proc.ofExcept (getIdx ps i)
  if p > 0 then do
    let s ← reduceCnt ((npEqual ptr i).count true)
    if s > 0 then Proc.ofExcept (maskFillE P (npEqual ptr i) (p / (s : K))) else pure P
  else pure P

/-- The loop of `prob_on_emulated_samples` (/repo/bet/calculateP/calculateP.py:46-58) on one process
with `m` emulated points; `io` is the global pointer, `ii` the local pointer of the emulated
points. -/
def procProbEm (opNum : Nat) (probs : Option (List K)) (io ii : List Nat) (m : Nat) :
    Proc (Msg K) (List K) := do
  let ptr ← Proc.ofExcept (ii.mapM fun j => getIdx io j)
  (List.range opNum).foldlM (procProbEmBody probs ptr) (List.replicate m 0)

/-- The loops of /repo/bet/calculateP/calculateP.py:197-201, 240-244 and 291-295 on one process. -/
def procGather (numNew : Nat) (ptr : List Nat) (w : List K) : Proc (Msg K) (List K) :=
  (List.range numNew).mapM fun i => do
    let sel ← Proc.ofExcept (maskSelE w (npEqual ptr i))
    reduceNum sel.sum

/-- The body of the first loop of `prob_from_sample_set_with_emulated_volumes`
(/repo/bet/calculateP/calculateP.py:179-187) on one process. -/
def procEmBody (probs : Option (List K)) (ptr : List Nat) (st : List K × Bool) (i : Nat) :
    Proc (Msg K) (List K × Bool) := do
  let ps ← Proc.ofExcept (orErr .typeError probs)
  let p ← Proc.ofExcept (getIdx ps i)
  if p > 0 then do
    let s ← reduceCnt ((npEqual ptr i).count true)
    if s > 0 then
      pure (maskSet st.1 (npEqual ptr i)
        ((maskSel st.1 (npEqual ptr i)).map (· + p / (s : K))), st.2)
    else pure (st.1, true)
  else pure st

/-- /repo/bet/calculateP/calculateP.py:188-195 on one process: the sum over all processes is taken
only when `warn` is set, which is the same on all processes. -/
def procRenormalize (warn : Bool) (pe : List K) : Proc (Msg K) (List K) :=
  if warn then do
    let total ← reduceNum pe.sum
    if total = 0 then .raise .zeroDivision else pure (pe.map (· / total))
  else pure pe

/-- The loops of `prob_from_sample_set_with_emulated_volumes`
(/repo/bet/calculateP/calculateP.py:176-201) on one process. -/
def procEm (numOld : Nat) (probs : Option (List K)) (numNew : Nat) (ptr1 ptr2 : List Nat) :
    Proc (Msg K) (List K) := do
  let st ← (List.range numOld).foldlM (procEmBody probs ptr1) (List.replicate ptr1.length 0, false)
  let pe ← procRenormalize st.2 st.1
  procGather numNew ptr2 pe

/-- `comm.Allreduce([xs, MPI.DOUBLE], [ys, MPI.DOUBLE], op=MPI.SUM)` for arrays of length `m`. -/
def reduceArr (m : Nat) (xs : List K) : Proc (Msg K) (List K) :=
  .coll .allreduce (.arr xs) fun ms =>
    .ret ((List.range m).map fun k => (ms.map fun x => x.toArr.getD k 0).sum)

/-- The counting of `estimate_volume_emulated` (/repo/bet/sample.py:1299-1308) on one process with
`m` emulated points; division by the number of points as in the collective model. -/
def procVolumesEm (num : Nat) (ptr : List Nat) (m : Nat) : Proc (Msg K) (List K) := do
  let vol ← reduceArr num ((List.range num).map fun i => (((npEqual ptr i).count true : Nat) : K))
  let numEmulate ← reduceCnt m
  if numEmulate = 0 then .raise .zeroDivision else pure (vol.map (· / (numEmulate : K)))

/-- The counting of `estimate_volume` (/repo/bet/sample.py:1268-1274) on one process. -/
def procVolumes (num n : Nat) (ptr : List Nat) : Proc (Msg K) (List K) := do
  let vol ← reduceArr num ((List.range num).map fun i => (((npEqual ptr i).count true : Nat) : K))
  if n = 0 then .raise .zeroDivision else pure (vol.map (· / (n : K)))

end

end BET
