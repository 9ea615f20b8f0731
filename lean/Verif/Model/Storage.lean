import Verif.Model.NumPy

/-!
# Saving and loading (/repo/bet/util.py:228-302)

An object is whatever `pickle` writes and reads back unchanged. The processes of a run have one
object each (`objs`, in rank order); they share one file system.
-/

set_option autoImplicit false

namespace BET

/-- A path as it is written. -/
abbrev Path := List Char

/-- A file name: `dir` is `os.path.dirname` together with the separator (empty, or ending in `/`),
`base` is `os.path.basename`. Names with repeated separators are taken in their normal form. -/
structure FileName where
  dir : Path
  base : Path
  deriving DecidableEq

/-- The name as the user writes it. -/
def FileName.full (f : FileName) : Path := f.dir ++ f.base

/-- `os.path.join(os.path.dirname(f), "proc{}_{}".format(rank, os.path.basename(f)))`,
/repo/bet/util.py:241-243 and 296-298. -/
def FileName.proc (f : FileName) (rank : Nat) : FileName :=
  ⟨f.dir, "proc".toList ++ Nat.toDigits 10 rank ++ '_' :: f.base⟩

/-- `name + '.p'`. -/
def FileName.file (f : FileName) : Path := f.full ++ ".p".toList

/-- The files and what is in them. -/
abbrev FileSys (Obj : Type) := List (Path × Obj)

variable {Obj : Type}

/-- The content of a file. -/
def FileSys.get (fs : FileSys Obj) (p : Path) : Option Obj := List.lookup p fs

/-- `open(p, "wb")` and `pickle.dump`: the file is created or replaced. -/
def FileSys.put (fs : FileSys Obj) (p : Path) (o : Obj) : FileSys Obj :=
  (p, o) :: fs.filter fun e => e.1 != p

/-- The processes write their own files. -/
def FileSys.putAll (fs : FileSys Obj) (f : FileName) (objs : List Obj) : FileSys Obj :=
  objs.zipIdx.foldl (fun fs e => fs.put (f.proc e.2).file e.1) fs

/-- What one file holds after several processes have written it: the dump of one of them
(`winner`). -/
def FileSys.putOne (fs : FileSys Obj) (f : FileName) (objs : List Obj) (winner : Nat) :
    FileSys Obj :=
  match objs[winner]? with
  | some o => fs.put f.file o
  | none => fs

/-- /repo/bet/util.py:228-254 `save_object`, called by all processes. `toGlobal` is
`save_set.local_to_global()`, a collective operation that may replace the objects. When a single
file is written by several processes, the dump of process `winner` is what remains: the code lets
all of them write, simultaneous writes to one file are taken to happen one after the other. -/
def saveObject (toGlobal : List Obj → Except Err (List Obj)) (winner : Nat) (objs : List Obj)
    (f : FileName) (globalize : Bool) (fs : FileSys Obj) :
    Except Err (List Obj × FileSys Obj) :=
  if globalize then do
    let gs ← toGlobal objs
    pure (gs, fs.putOne f gs winner)
  else if objs.length > 1 then
    pure (objs, fs.putAll f objs)
  else
    pure (objs, fs.putOne f objs winner)

/-- `glob.glob(os.path.join(dir, "proc*_" + base + ".p"))`: the files of the directory whose name is
`proc`, anything, `_base.p`. The characters of `dir` and `base` stand for themselves (no `*`, `?`,
`[`). -/
def globProc (fs : FileSys Obj) (f : FileName) : List Path :=
  (fs.map Prod.fst).filter fun p =>
    f.dir.isPrefixOf p && !(p.drop f.dir.length).contains '/' &&
      "proc".toList.isPrefixOf (p.drop f.dir.length) &&
      ('_' :: f.base ++ ".p".toList).isSuffixOf ((p.drop f.dir.length).drop 4)

/-- /repo/bet/util.py:274-277: read the file, then `global_to_local()` if asked to. -/
def loadFile (toLocal : Obj → Except Err Obj) (fs : FileSys Obj) (f : FileName) (localize : Bool) :
    Except Err Obj := do
  let o ← orErr .fileNotFound (fs.get f.file)
  if localize then toLocal o else pure o

/-- /repo/bet/util.py:257-302 `load_object` and `load_object_parallel`, called by process `rank` of
`size`. `toLocal` is `global_to_local()` on this process. The two functions call each other;
`depth` is Python's limit on nested calls. -/
def loadObject (toLocal : Obj → Except Err Obj) (size rank : Nat) (fs : FileSys Obj) :
    Nat → FileName → Bool → Except Err Obj
  | 0, _, _ => .error .recursionError
  | depth + 1, f, localize =>
      if "proc_".toList.isPrefixOf f.full then loadFile toLocal fs f false
      else if (fs.get f.file).isNone ∧ (fs.get ("proc0_".toList ++ f.file)).isSome then
        if (globProc fs f).length = size then
          loadObject toLocal size rank fs depth (f.proc rank) false
        else .error .dimNotMatching
      else loadFile toLocal fs f localize

/-- /repo/bet/util.py:280-302 `load_object_parallel`. -/
def loadObjectParallel (toLocal : Obj → Except Err Obj) (size rank : Nat) (fs : FileSys Obj)
    (depth : Nat) (f : FileName) : Except Err Obj :=
  if (globProc fs f).length = size then loadObject toLocal size rank fs depth (f.proc rank) false
  else .error .dimNotMatching

end BET
