import Verif.Model.Storage
import Mathlib.Logic.Function.Basic

/-!
# The writes of `save_object`, event by event (/repo/bet/util.py:228-254)

`Model/Storage.lean` takes a save as one step. Here the processes run at their own speed: each
opens its file, which empties it, and then writes the bytes of its pickle in blocks of any length,
at its own position in the file; the schedule says whose turn it is. A crash is a schedule that
stops early. `comm.barrier()` before the writes and after them means that the schedule begins when
all processes are ready to open and that nobody returns before all have written everything.
-/

set_option autoImplicit false

namespace BET

/-- `write(2)` of `bs` at position `k` of a file with content `file`; a gap is filled with zeros,
and a write of nothing does nothing. -/
def writeAt (file : List Nat) (k : Nat) (bs : List Nat) : List Nat :=
  if bs = [] then file
  else file.take k ++ List.replicate (k - file.length) 0 ++ bs ++ file.drop (k + bs.length)

/-- A process in `pickle.dump(save_set, open(local_file_name + '.p', "wb"))`
(/repo/bet/util.py:252): the file it writes, the bytes of its pickle, and how many of them it has
written (`none` before `open`). -/
structure Writer where
  path : Path
  dump : List Nat
  pos : Option Nat := none
  deriving DecidableEq

/-- The files and the processes. -/
structure Saving where
  files : Path → Option (List Nat)
  writers : List Writer

/-- One turn of process `r`: it opens its file, or writes its next `n` bytes. -/
def Saving.turn (st : Saving) (r n : Nat) : Saving :=
  match st.writers[r]? with
  | none => st
  | some w =>
    match w.pos with
    | none =>
        { files := Function.update st.files w.path (some [])
          writers := st.writers.set r { w with pos := some 0 } }
    | some k =>
        { files := Function.update st.files w.path
            ((st.files w.path).map fun c => writeAt c k ((w.dump.drop k).take n))
          writers := st.writers.set r { w with pos := some (min (k + n) w.dump.length) } }

/-- A schedule: whose turn it is and how many bytes are written. -/
def Saving.runAll (st : Saving) (sched : List (Nat × Nat)) : Saving :=
  sched.foldl (fun st e => st.turn e.1 e.2) st

/-- /repo/bet/util.py:240-245: several processes that do not globalize have a file each, otherwise
all write the same. -/
def savePath (size : Nat) (globalize : Bool) (f : FileName) (r : Nat) : Path :=
  if size > 1 ∧ globalize = false then (f.proc r).file else f.file

/-- /repo/bet/util.py:228-254 `save_object` between the two barriers, with nothing written yet;
`dumps` are the pickles of the processes. -/
def Saving.start (files : Path → Option (List Nat)) (dumps : List (List Nat)) (globalize : Bool)
    (f : FileName) : Saving where
  files := files
  writers := dumps.zipIdx.map fun e => { path := savePath dumps.length globalize f e.2, dump := e.1 }

end BET
