import Verif.Model.SaveRace
import Verif.Model.Spmd

/-!
# Saving and loading on processes that run at their own speed (/repo/bet/util.py:228-302)

`Model/Storage.lean` runs every call on all processes in one step, `Model/SaveRace.lean` has the writes
between the two barriers of one save. Here the processes run whole scripts of saves, loads and other work,
each at its own speed, on one file system.
-/

set_option autoImplicit false

namespace BET

/-- The program of one process: it returns, raises, takes part in a collective (as in `Model/Spmd.lean`;
`m` is what it contributes, nothing to a barrier), looks at the files, opens a file for writing, which
empties it, and then writes `bs`, or is in the midst of writing: `bs` is still to be written, at position
`pos`. -/
inductive FProc (Obj R : Type)
  | ret (r : R)
  | raise (e : Err)
  | coll (t : CollTag) (m : Option Obj) (k : List (Option Obj) → FProc Obj R)
  | look (k : FileSys (List Nat) → FProc Obj R)
  | create (p : Path) (bs : List Nat) (k : FProc Obj R)
  | write (p : Path) (pos : Nat) (bs : List Nat) (k : FProc Obj R)

namespace FProc

variable {Obj R S : Type}

/-- One piece of a program after another. -/
def bind : FProc Obj R → (R → FProc Obj S) → FProc Obj S
  | .ret r, f => f r
  | .raise e, _ => .raise e
  | .coll t m k, f => .coll t m fun ms => (k ms).bind f
  | .look k, f => .look fun fs => (k fs).bind f
  | .create p bs k, f => .create p bs (k.bind f)
  | .write p pos bs k, f => .write p pos bs (k.bind f)

instance : Monad (FProc Obj) where
  pure := .ret
  bind := bind

/-- A computation of the process itself. -/
def ofExcept : Except Err R → FProc Obj R
  | .ok r => .ret r
  | .error e => .raise e

/-- The result of a process that has returned or raised. -/
def result : FProc Obj R → Option (Except Err R)
  | .ret r => some (.ok r)
  | .raise e => some (.error e)
  | _ => none

/-- Go on writing, if there is something left. -/
def writeOn (p : Path) (pos : Nat) (bs : List Nat) (k : FProc Obj R) : FProc Obj R :=
  match bs with
  | [] => k
  | b :: bs => .write p pos (b :: bs) k

end FProc

/-- The files and the processes; the flag says that the process has reached its collective and waits for
the others. -/
structure FSys (n : Nat) (Obj R : Type) where
  files : FileSys (List Nat)
  procs : Fin n → FProc Obj R × Bool

namespace FSys

variable {n : Nat} {Obj R : Type}

/-- What a waiting process has contributed. -/
def posted : FProc Obj R × Bool → Option (CollTag × Option Obj)
  | (.coll t m _, true) => some (t, m)
  | _ => none

/-- A waiting process gets the contributions of all. -/
def resume (ms : List (Option Obj)) : FProc Obj R × Bool → FProc Obj R × Bool
  | (.coll _ _ k, _) => (k ms, false)
  | s => s

/-- When all processes wait, and for the same collective, they all go on. -/
def settle (ps : Fin n → FProc Obj R × Bool) : Fin n → FProc Obj R × Bool :=
  match (List.ofFn fun i => posted (ps i)).mapM id with
  | none => ps
  | some cs => if cs.all fun c => cs.all fun c' => c.1 = c'.1 then
      fun i => resume (cs.map Prod.snd) (ps i) else ps

/-- A turn of process `r`: it reaches its collective, looks at the files, opens its file, or writes its
next `b + 1` bytes. -/
def turn (st : FSys n Obj R) (r : Fin n) (b : Nat) : FSys n Obj R :=
  match (st.procs r).1 with
  | .ret _ => st
  | .raise _ => st
  | .coll t m k => ⟨st.files, settle (Function.update st.procs r (.coll t m k, true))⟩
  | .look k => ⟨st.files, Function.update st.procs r (k st.files, false)⟩
  | .create p bs k => ⟨st.files.put p [], Function.update st.procs r (.writeOn p 0 bs k, false)⟩
  | .write p pos bs k =>
      ⟨st.files.put p (writeAt ((st.files.get p).getD []) pos (bs.take (b + 1))),
        Function.update st.procs r
          (.writeOn p (pos + (bs.take (b + 1)).length) (bs.drop (b + 1)) k, false)⟩

/-- A schedule: whose turn it is, and how much is written if it writes. -/
def run (st : FSys n Obj R) (sched : List (Fin n × Nat)) : FSys n Obj R :=
  sched.foldl (fun st e => st.turn e.1 e.2) st

/-- The beginning of a run. -/
def start (files : FileSys (List Nat)) (ps : Fin n → FProc Obj R) : FSys n Obj R :=
  ⟨files, fun i => (ps i, false)⟩

end FSys

/-! ## The programs -/

variable {Obj : Type}

/-- What the programs know: `pickle.dump` (the bytes it writes, and the exception with which it ends, if
any), `pickle.load`, `local_to_global()` on all processes and `global_to_local()` on one. -/
structure Pickling (Obj : Type) where
  dump : Obj → List Nat × Option Err
  loads : List Nat → Option Obj
  toGlobal : List Obj → Except Err (List Obj)
  toLocal : Nat → Obj → Except Err Obj

/-- The end of `pickle.dump`. -/
def endDump {R : Type} (e : Option Err) (k : FProc Obj R) : FProc Obj R :=
  match e with
  | none => k
  | some e => .raise e

/-- /repo/bet/util.py:228-254 `save_object` on process `rank` of `size`: line 247 looks whether the file is
there, only to warn; `local_to_global` is taken as one collective; the file is opened before the object is
pickled. -/
def fileSave (P : Pickling Obj) (size rank : Nat) (o : Obj) (f : FileName) (globalize : Bool) :
    FProc Obj Obj :=
  FProc.look fun _ =>
  FProc.bind (if globalize then .coll .allgather (some o) fun os =>
      FProc.ofExcept (P.toGlobal (os.filterMap id) >>= fun gs => getIdx gs rank) else .ret o) fun o =>
  .coll .barrier none fun _ =>
  .create (savePath size globalize f rank) (P.dump o).1 <|
  endDump (P.dump o).2 <|
  .coll .barrier none fun _ => .ret o

/-- /repo/bet/util.py:274-277: read the file, then `global_to_local()` if asked to. The file is read at one
glance. A file that holds no pickle raises one of several exceptions (`ValueError` stands for them). -/
def fileRead (P : Pickling Obj) (rank : Nat) (f : FileName) (localize : Bool) : FProc Obj Obj :=
  FProc.look fun fs => FProc.ofExcept do
    let c ← orErr .fileNotFound (fs.get f.file)
    let o ← orErr .valueError (P.loads c)
    if localize then P.toLocal rank o else pure o

/-- /repo/bet/util.py:257-302 `load_object` and `load_object_parallel`, on process `rank` of `size`: every
`os.path.exists`, `glob.glob` and `open` is a look at the files of its own. The two functions call each
other; `depth` is Python's limit on nested calls. -/
def fileLoad (P : Pickling Obj) (size rank : Nat) : Nat → FileName → Bool → FProc Obj Obj
  | 0, _, _ => .raise .recursionError
  | depth + 1, f, localize =>
      if "proc_".toList.isPrefixOf f.full then fileRead P rank f false
      else FProc.look fun fs =>
        if (fs.get f.file).isSome then fileRead P rank f localize
        else FProc.look fun fs =>
          if (fs.get ("proc0_".toList ++ f.file)).isSome then FProc.look fun fs =>
            if (globProc fs f).length = size then fileLoad P size rank depth (f.proc rank) false
            else .raise .dimNotMatching
          else fileRead P rank f localize

/-- The calls of a script, run by every process on objects of its own (a list to which loads add):
`save_object(objs[i], f, globalize)`, `objs.append(load_object(f, localize))`, and work of the process
itself, which may differ from process to process. -/
inductive FileCall (Obj : Type)
  | save (i : Nat) (f : FileName) (globalize : Bool)
  | load (f : FileName) (localize : Bool)
  | work (g : Nat → List Obj → Except Err (List Obj))

/-- One call on process `rank` of `size`. -/
def fileCall (P : Pickling Obj) (size depth rank : Nat) (objs : List Obj) :
    FileCall Obj → FProc Obj (List Obj)
  | .save i f globalize => FProc.bind (FProc.ofExcept (getIdx objs i)) fun o =>
      FProc.bind (fileSave P size rank o f globalize) fun o => .ret (objs.set i o)
  | .load f localize => FProc.bind (fileLoad P size rank depth f localize) fun o => .ret (objs ++ [o])
  | .work g => FProc.ofExcept (g rank objs)

/-- A script. -/
def fileScript (P : Pickling Obj) (size depth rank : Nat) :
    List (FileCall Obj) → List Obj → FProc Obj (List Obj)
  | [], objs => .ret objs
  | c :: cs, objs => FProc.bind (fileCall P size depth rank objs c) fun objs =>
      fileScript P size depth rank cs objs

end BET
