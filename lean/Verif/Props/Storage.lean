import Verif.Model.Storage
import Verif.Lemmas.Basic
import Mathlib.Data.List.Perm.Subperm
import Mathlib.Data.List.Infix
import Mathlib.Data.List.Nodup

/-!
# Saving and loading (C64)
-/

set_option autoImplicit false
set_option linter.unusedSectionVars false
set_option linter.unusedSimpArgs false

namespace BET

variable {Obj : Type}

namespace Spec

/-- A proper name: the directory part is empty or ends in `/`, the base has no `/`. -/
def ProperName (f : FileName) : Prop :=
  (f.dir = [] ∨ ∃ d, f.dir = d ++ ['/']) ∧ '/' ∉ f.base

/-- No path occurs twice. -/
def ProperFiles (fs : FileSys Obj) : Prop := (fs.map Prod.fst).Nodup

end Spec

open Spec

theorem get_put_same (fs : FileSys Obj) (p : Path) (o : Obj) : (fs.put p o).get p = some o := by
  simp [FileSys.get, FileSys.put, List.lookup]

theorem lookup_filter (fs : FileSys Obj) (p q : Path) (h : q ≠ p) :
    List.lookup q (fs.filter fun e => e.1 != p) = List.lookup q fs := by
  induction fs with
  | nil => rfl
  | cons e fs ih =>
    obtain ⟨k, o⟩ := e
    by_cases hk : k = p
    · subst hk
      rw [List.filter_cons_of_neg (by simp), ih, List.lookup_cons]
      have : (q == k) = false := by simpa using h
      rw [this]
    · rw [List.filter_cons_of_pos (by simpa using hk), List.lookup_cons, List.lookup_cons, ih]

theorem get_put_other (fs : FileSys Obj) {p q : Path} (o : Obj) (h : q ≠ p) :
    (fs.put p o).get q = fs.get q := by
  unfold FileSys.get FileSys.put
  rw [List.lookup_cons]
  have : (q == p) = false := by simpa using h
  rw [this]
  exact lookup_filter fs p q h

theorem mem_keys_put (fs : FileSys Obj) (p : Path) (o : Obj) (q : Path) :
    q ∈ (fs.put p o).map Prod.fst ↔ q = p ∨ q ∈ fs.map Prod.fst := by
  unfold FileSys.put
  simp only [List.map_cons, List.mem_cons, List.mem_map, List.mem_filter]
  constructor
  · rintro (h | ⟨e, ⟨he, -⟩, rfl⟩)
    · exact Or.inl h
    · exact Or.inr ⟨e, he, rfl⟩
  · rintro (h | ⟨e, he, rfl⟩)
    · exact Or.inl h
    · by_cases hp : e.1 = p
      · exact Or.inl hp
      · exact Or.inr ⟨e, ⟨he, by simpa using hp⟩, rfl⟩

theorem proper_put (fs : FileSys Obj) (p : Path) (o : Obj) (h : ProperFiles fs) :
    ProperFiles (fs.put p o) := by
  unfold ProperFiles FileSys.put at *
  rw [List.map_cons, List.nodup_cons]
  refine ⟨?_, h.sublist (List.filter_sublist.map _)⟩
  simp

theorem get_eq_some_mem {fs : FileSys Obj} {p : Path} {o : Obj} (h : fs.get p = some o) :
    p ∈ fs.map Prod.fst := by
  induction fs with
  | nil => simp [FileSys.get] at h
  | cons e fs ih =>
    obtain ⟨k, o'⟩ := e
    unfold FileSys.get at h ih
    rw [List.lookup_cons] at h
    by_cases hk : p = k
    · simp [hk]
    · have : (p == k) = false := by simpa using hk
      rw [this] at h
      simp only [List.map_cons, List.mem_cons]
      exact Or.inr (ih h)

/-! ### The names of the processes' files -/

theorem proc_inj {f : FileName} {r s : Nat} (h : (f.proc r).file = (f.proc s).file) : r = s := by
  simp only [FileName.proc, FileName.file, FileName.full, List.append_assoc, List.cons_append,
    List.append_cancel_left_eq] at h
  have h' : Nat.toDigits 10 r ++ '_' :: (f.base ++ ".p".toList)
      = Nat.toDigits 10 s ++ '_' :: (f.base ++ ".p".toList) := h
  have := List.append_cancel_right h'
  rw [← Nat.ofDigitChars_ten_toDigits (n := r), this, Nat.ofDigitChars_ten_toDigits]

theorem proc_ne (f : FileName) (r : Nat) : (f.proc r).file ≠ f.file := by
  intro h
  have := congrArg List.length h
  simp [FileName.proc, FileName.file, FileName.full] at this
  omega

theorem slash_not_digit : ('/' : Char).isDigit = false := by decide

theorem proc_glob {f : FileName} (hf : '/' ∉ f.base) (r : Nat) :
    (f.dir.isPrefixOf (f.proc r).file && !((f.proc r).file.drop f.dir.length).contains '/' &&
      "proc".toList.isPrefixOf ((f.proc r).file.drop f.dir.length) &&
      ('_' :: f.base ++ ".p".toList).isSuffixOf (((f.proc r).file.drop f.dir.length).drop 4))
      = true := by
  have hfile : (f.proc r).file = f.dir ++ ("proc".toList ++ (Nat.toDigits 10 r ++
      ('_' :: f.base ++ ".p".toList))) := by
    simp [FileName.proc, FileName.file, FileName.full]
  have hdrop : (f.proc r).file.drop f.dir.length = "proc".toList ++ (Nat.toDigits 10 r ++
      ('_' :: f.base ++ ".p".toList)) := by
    rw [hfile, List.drop_left]
  have hd4 : ((f.proc r).file.drop f.dir.length).drop 4 = Nat.toDigits 10 r ++
      ('_' :: f.base ++ ".p".toList) := by
    rw [hdrop]
    rfl
  rw [hd4, hdrop]
  have hdig : '/' ∉ Nat.toDigits 10 r := by
    intro hm
    have := Nat.isDigit_of_mem_toDigits (by norm_num) (by norm_num) hm
    rw [slash_not_digit] at this
    exact absurd this (by simp)
  simp only [Bool.and_eq_true, List.isPrefixOf_iff_prefix, List.isSuffixOf_iff_suffix,
    Bool.not_eq_true', List.contains_eq_mem, decide_eq_false_iff_not, List.mem_append]
  refine ⟨⟨⟨?_, ?_⟩, ?_⟩, ?_⟩
  · rw [hfile]
    exact List.prefix_append _ _
  · rintro (h | h | h | h)
    · revert h; decide
    · exact hdig h
    · rcases List.mem_cons.1 h with h | h
      · revert h; decide
      · exact hf h
    · revert h; decide
  · exact List.prefix_append _ _
  · exact List.suffix_append _ _

/-! ### Writing all files -/

/-- The state after the processes `k, k+1, ...` have written. -/
theorem putAll_spec (f : FileName) (objs : List Obj) (k : Nat) (fs : FileSys Obj)
    (h : ProperFiles fs) :
    let fs' := (objs.zipIdx k).foldl (fun fs e => fs.put (f.proc e.2).file e.1) fs
    ProperFiles fs' ∧
      (∀ r o, k ≤ r → objs[r - k]? = some o → fs'.get (f.proc r).file = some o) ∧
      (∀ p, (∀ r, k ≤ r → r < k + objs.length → p ≠ (f.proc r).file) → fs'.get p = fs.get p) ∧
      (∀ p, p ∈ fs'.map Prod.fst ↔ p ∈ fs.map Prod.fst ∨
        ∃ r, k ≤ r ∧ r < k + objs.length ∧ p = (f.proc r).file) := by
  induction objs generalizing k fs with
  | nil =>
    refine ⟨h, fun r o _ ho => by simp at ho, fun p _ => rfl, fun p => ?_⟩
    constructor
    · exact Or.inl
    · rintro (hp | ⟨r, h1, h2, -⟩)
      · exact hp
      · simp at h2; omega
  | cons o objs ih =>
    rw [List.zipIdx_cons, List.foldl_cons]
    obtain ⟨i1, i2, i3, i4⟩ := ih (k + 1) _ (proper_put fs (f.proc k).file o h)
    refine ⟨i1, fun r o' hr ho => ?_, fun p hp => ?_, fun p => ?_⟩
    · by_cases hk : r = k
      · subst hk
        simp at ho
        subst ho
        rw [i3 _ fun s hs _ he => by have := proc_inj he; omega, get_put_same]
      · refine i2 r o' (by omega) ?_
        rw [show r - k = (r - (k + 1)) + 1 by omega] at ho
        simpa using ho
    · have hk := hp k (le_refl _) (by simp)
      rw [i3 p fun r h1 h2 => hp r (by omega) (by simp; omega), get_put_other _ _ hk]
    · rw [i4, mem_keys_put]
      constructor
      · rintro ((rfl | hp) | ⟨r, h1, h2, rfl⟩)
        · exact Or.inr ⟨k, le_refl _, by simp, rfl⟩
        · exact Or.inl hp
        · exact Or.inr ⟨r, by omega, by simp; omega, rfl⟩
      · rintro (hp | ⟨r, h1, h2, rfl⟩)
        · exact Or.inl (Or.inr hp)
        · by_cases hk : r = k
          · subst hk; exact Or.inl (Or.inl rfl)
          · exact Or.inr ⟨r, by omega, by simp at h2; omega, rfl⟩

theorem putAll_all (f : FileName) (objs : List Obj) (fs : FileSys Obj) (h : ProperFiles fs) :
    ProperFiles (fs.putAll f objs) ∧
      (∀ (r : Nat) o, objs[r]? = some o → (fs.putAll f objs).get (f.proc r).file = some o) ∧
      (∀ p, (∀ r, r < objs.length → p ≠ (f.proc r).file) →
        (fs.putAll f objs).get p = fs.get p) ∧
      (∀ p, p ∈ (fs.putAll f objs).map Prod.fst ↔ p ∈ fs.map Prod.fst ∨
        ∃ r, r < objs.length ∧ p = (f.proc r).file) := by
  obtain ⟨h1, h2, h3, h4⟩ := putAll_spec f objs 0 fs h
  refine ⟨h1, fun r o ho => h2 r o (Nat.zero_le _) (by simpa using ho),
    fun p hp => h3 p fun r _ hr => hp r (by simpa using hr), fun p => ?_⟩
  rw [show (p ∈ (fs.putAll f objs).map Prod.fst ↔ _) from h4 p]
  simp

theorem length_globProc_putAll (f : FileName) (objs : List Obj) (fs : FileSys Obj)
    (h : ProperFiles fs) (hb : '/' ∉ f.base)
    (hclean : ∀ p ∈ globProc fs f, ∃ r, r < objs.length ∧ p = (f.proc r).file) :
    (globProc (fs.putAll f objs) f).length = objs.length := by
  obtain ⟨h1, -, -, h4⟩ := putAll_all f objs fs h
  have hmem : ∀ p, p ∈ globProc (fs.putAll f objs) f ↔
      p ∈ (List.range objs.length).map fun r => (f.proc r).file := by
    intro p
    constructor
    · intro hp
      obtain ⟨hp1, hp2⟩ := List.mem_filter.1 hp
      rcases (h4 p).1 hp1 with hp1 | ⟨r, hr, rfl⟩
      · obtain ⟨r, hr, rfl⟩ := hclean p (List.mem_filter.2 ⟨hp1, hp2⟩)
        exact List.mem_map.2 ⟨r, List.mem_range.2 hr, rfl⟩
      · exact List.mem_map.2 ⟨r, List.mem_range.2 hr, rfl⟩
    · intro hp
      obtain ⟨r, hr, rfl⟩ := List.mem_map.1 hp
      exact List.mem_filter.2 ⟨(h4 _).2 (Or.inr ⟨r, List.mem_range.1 hr, rfl⟩), proc_glob hb r⟩
  have hn1 : (globProc (fs.putAll f objs) f).Nodup := List.Nodup.filter _ h1
  have hn2 : ((List.range objs.length).map fun r => (f.proc r).file).Nodup :=
    List.Nodup.map_on (fun r _ s _ e => proc_inj e) List.nodup_range
  have := ((List.perm_ext_iff_of_nodup hn1 hn2).2 hmem).length_eq
  simpa using this

theorem proc_not_reserved (f : FileName) (hd : f.dir = []) (r : Nat) :
    "proc_".toList.isPrefixOf (f.proc r).full = false := by
  have hne : Nat.toDigits 10 r ≠ [] := by
    intro h
    have := Nat.ofDigitChars_ten_toDigits (n := r)
    have hz := congrArg List.length h
    have hpos := Nat.length_toDigits_pos (b := 10) (n := r)
    simp at hz
  obtain ⟨c, cs, hc⟩ := List.exists_cons_of_ne_nil hne
  have hcd : c.isDigit = true :=
    Nat.isDigit_of_mem_toDigits (b := 10) (n := r) (by norm_num) (by norm_num) (by rw [hc]; simp)
  have hu : ('_' == c) = false := by
    rw [beq_eq_false_iff_ne]
    rintro rfl
    revert hcd
    decide
  unfold FileName.full FileName.proc
  simp only [hd, hc, List.nil_append]
  show (List.isPrefixOf ['p', 'r', 'o', 'c', '_'] ('p' :: 'r' :: 'o' :: 'c' :: c :: _)) = false
  simp [List.isPrefixOf, hu]

/-! ### The theorems -/

/-- Partial: whenever one file is written (a globalized save, or a single process), it can be
loaded by any number of processes, under every name and whatever files were there before; each
process gets the object of the process whose dump remained, as `local_to_global` left it; with
`localize` each process gets its localization. So all that the saved objects have in common (the
global arrays, or, for one process, everything) is restored on every process. Missing: what the
objects do not have in common, the local arrays: see `Ex.C64_negation_local_parts`. -/
theorem C64_one_file_partial (toGlobal : List Obj → Except Err (List Obj)) (winner : Nat)
    (objs gs : List Obj) (f : FileName) (globalize : Bool) (fs fs' : FileSys Obj)
    (hone : globalize = true ∨ objs.length ≤ 1)
    (h : saveObject toGlobal winner objs f globalize fs = .ok (gs, fs')) (hw : winner < gs.length) :
    (globalize = true → toGlobal objs = .ok gs) ∧ (globalize = false → gs = objs) ∧
    ∃ o, gs[winner]? = some o ∧
      (∀ (toLocal : Obj → Except Err Obj) (size rank depth : Nat),
        loadObject toLocal size rank fs' (depth + 1) f false = .ok o ∧
        ("proc_".toList.isPrefixOf f.full = false →
          loadObject toLocal size rank fs' (depth + 1) f true = toLocal o)) ∧
      (∀ (β : Type) (view : Obj → β) (v : β), (∀ g ∈ gs, view g = v) → view o = v) ∧
      (gs.length = 1 → gs = [o]) := by
  have hfs : fs' = fs.putOne f gs winner ∧ (globalize = true → toGlobal objs = .ok gs) ∧
      (globalize = false → gs = objs) := by
    unfold saveObject at h
    cases globalize with
    | true =>
      simp only [if_true, bind_eq_ok, pure_eq_ok] at h
      obtain ⟨gs', h1, h2⟩ := h
      cases h2
      exact ⟨rfl, fun _ => h1, fun e => by simp at e⟩
    | false =>
      have hlen : ¬ objs.length > 1 := by
        rcases hone with h | h
        · simp at h
        · omega
      simp only [Bool.false_eq_true, if_false, if_neg hlen, pure_eq_ok] at h
      cases h
      exact ⟨rfl, fun e => by simp at e, fun _ => rfl⟩
  obtain ⟨hfs, hg1, hg2⟩ := hfs
  refine ⟨hg1, hg2, gs[winner], List.getElem?_eq_getElem hw, fun toLocal size rank depth => ?_,
    fun β view v hv => hv _ (List.getElem_mem hw), fun h1 => ?_⟩
  · have hget : fs'.get f.file = some gs[winner] := by
      rw [hfs]
      unfold FileSys.putOne
      rw [List.getElem?_eq_getElem hw]
      exact get_put_same _ _ _
    constructor
    · by_cases hp : "proc_".toList.isPrefixOf f.full = true
      · simp only [loadObject, hp, if_true, loadFile, hget, orErr_some, ok_bind]
        rfl
      · simp only [loadObject, hp, if_false, loadFile, hget, orErr_some, ok_bind, Option.isNone_some,
          Bool.false_eq_true, false_and]
        rfl
    · intro hp
      simp only [loadObject, hp, if_false, loadFile, hget, orErr_some, ok_bind, Option.isNone_some,
        Bool.false_eq_true, false_and, if_true]
  · obtain ⟨g, rfl⟩ := List.length_eq_one_iff.1 h1
    have : winner = 0 := by simpa using hw
    subst this
    rfl

/-- Partial: an unglobalized save by several processes under a name without directories that does
not begin with `proc_`, when there is no file of that name and no left-over `proc*_name.p` of
another process: `load_object` run by as many processes gives each its own object. Missing: names
with directories (`Ex.C64_negation_directory`), a file of the same name
(`Ex.C64_negation_stale`), left-over files (`Ex.C64_negation_leftover`). -/
theorem C64_own_files_partial (toGlobal : List Obj → Except Err (List Obj)) (winner : Nat)
    (objs gs : List Obj) (f : FileName) (fs fs' : FileSys Obj)
    (hn : ProperName f) (hp : ProperFiles fs) (hdir : f.dir = [])
    (hres : "proc_".toList.isPrefixOf f.full = false) (hsize : 2 ≤ objs.length)
    (hnone : fs.get f.file = none)
    (hclean : ∀ p ∈ globProc fs f, ∃ r, r < objs.length ∧ p = (f.proc r).file)
    (h : saveObject toGlobal winner objs f false fs = .ok (gs, fs')) (toLocal : Obj → Except Err Obj)
    (localize : Bool) (depth : Nat) (r : Nat) (hr : r < objs.length) :
    gs = objs ∧
      loadObject toLocal objs.length r fs' (depth + 2) f localize = .ok objs[r] := by
  unfold saveObject at h
  simp only [Bool.false_eq_true, if_false, if_pos (show objs.length > 1 by omega), pure_eq_ok] at h
  cases h
  refine ⟨rfl, ?_⟩
  obtain ⟨-, h2, h3, -⟩ := putAll_all f objs fs hp
  have hf : (fs.putAll f objs).get f.file = none := by
    rw [h3 _ fun r _ => (proc_ne f r).symm, hnone]
  have h0 : (fs.putAll f objs).get ("proc0_".toList ++ f.file) = some objs[0] := by
    rw [← h2 0 objs[0] (List.getElem?_eq_getElem (by omega))]
    congr 1
    simp [FileName.file, FileName.proc, FileName.full, hdir]
  have hlen := length_globProc_putAll f objs fs hp hn.2 hclean
  have hr' := h2 r objs[r] (List.getElem?_eq_getElem hr)
  have hpr := proc_not_reserved f hdir r
  simp only [loadObject, hres, if_false, hf, h0, Option.isNone_none, Option.isSome_some, true_and,
    if_true, hlen, hpr, Bool.false_eq_true, hr', Option.isNone_some, false_and, loadFile,
    orErr_some, ok_bind]
  rfl

/-- With `load_object_parallel` the same holds in every directory, and a file of that name does not
matter. -/
theorem C64_parallel_files_partial (toGlobal : List Obj → Except Err (List Obj)) (winner : Nat)
    (objs gs : List Obj) (f : FileName) (fs fs' : FileSys Obj)
    (hn : ProperName f) (hp : ProperFiles fs) (hsize : 2 ≤ objs.length)
    (hclean : ∀ p ∈ globProc fs f, ∃ r, r < objs.length ∧ p = (f.proc r).file)
    (h : saveObject toGlobal winner objs f false fs = .ok (gs, fs')) (toLocal : Obj → Except Err Obj)
    (depth : Nat) (r : Nat) (hr : r < objs.length) :
    loadObjectParallel toLocal objs.length r fs' (depth + 1) f = .ok objs[r] := by
  unfold saveObject at h
  simp only [Bool.false_eq_true, if_false, if_pos (show objs.length > 1 by omega), pure_eq_ok] at h
  cases h
  obtain ⟨-, h2, -, -⟩ := putAll_all f objs fs hp
  have hlen := length_globProc_putAll f objs fs hp hn.2 hclean
  have hr' := h2 r objs[r] (List.getElem?_eq_getElem hr)
  unfold loadObjectParallel
  rw [if_pos hlen]
  by_cases hpr : "proc_".toList.isPrefixOf (f.proc r).full = true
  · simp only [loadObject, hpr, if_true, loadFile, hr', orErr_some, ok_bind]
    rfl
  · simp only [loadObject, hpr, if_false, loadFile, hr', orErr_some, ok_bind, Option.isNone_some,
      Bool.false_eq_true, false_and]
    rfl

/-- Loading raises when there is neither the file nor a parallel file of process 0; and an object
is returned only if it is the content of a file. -/
theorem C64_missing (toLocal : Obj → Except Err Obj) (size rank : Nat) (fs : FileSys Obj)
    (depth : Nat) (f : FileName) :
    (∀ localize, fs.get f.file = none → fs.get ("proc0_".toList ++ f.file) = none →
      loadObject toLocal size rank fs (depth + 1) f localize = .error .fileNotFound) ∧
    (∀ o, loadObject toLocal size rank fs depth f false = .ok o →
      ∃ p, fs.get p = some o) := by
  constructor
  · intro localize h1 h2
    simp only [loadObject, h1, h2, loadFile, Option.isSome_none, Bool.false_eq_true, and_false,
      if_false, orErr_none, error_bind]
    split <;> rfl
  · intro o
    induction depth generalizing f with
    | zero => intro h; simp [loadObject] at h
    | succ d ih =>
      intro h
      have hfile : ∀ g : FileName, loadFile toLocal fs g false = .ok o → ∃ p, fs.get p = some o := by
        intro g hg
        simp only [loadFile, bind_eq_ok, orErr_eq_ok, Bool.false_eq_true, if_false, pure_eq_ok] at hg
        obtain ⟨o', h1, rfl⟩ := hg
        exact ⟨_, h1⟩
      simp only [loadObject] at h
      split at h
      · exact hfile _ h
      · split at h
        · split at h
          · exact ih _ h
          · simp at h
        · exact hfile _ h

/-- Saving touches no file but those of the given name. -/
theorem C64_other_files (toGlobal : List Obj → Except Err (List Obj)) (winner : Nat)
    (objs gs : List Obj) (f : FileName) (globalize : Bool) (fs fs' : FileSys Obj)
    (hp : ProperFiles fs) (h : saveObject toGlobal winner objs f globalize fs = .ok (gs, fs')) :
    ProperFiles fs' ∧ ∀ p, p ≠ f.file → (∀ r, r < objs.length → p ≠ (f.proc r).file) →
      fs'.get p = fs.get p := by
  have hone : ∀ gs : List Obj, ProperFiles (fs.putOne f gs winner) ∧ ∀ p, p ≠ f.file →
      (fs.putOne f gs winner).get p = fs.get p := by
    intro gs
    unfold FileSys.putOne
    cases gs[winner]? with
    | none => exact ⟨hp, fun _ _ => rfl⟩
    | some o => exact ⟨proper_put _ _ _ hp, fun p hpf => get_put_other _ _ hpf⟩
  unfold saveObject at h
  split at h
  · simp only [bind_eq_ok, pure_eq_ok] at h
    obtain ⟨gs', -, h2⟩ := h
    cases h2
    exact ⟨(hone _).1, fun p h1 _ => (hone _).2 p h1⟩
  · split at h
    · cases h
      obtain ⟨h1, -, h3, -⟩ := putAll_all f objs fs hp
      exact ⟨h1, fun p _ h => h3 p h⟩
    · cases h
      exact ⟨(hone _).1, fun p h1 _ => (hone _).2 p h1⟩

/-! ### Concrete cases and deviations -/

namespace Ex

/-- An object: a global and a local array. -/
abbrev SavedObj := Nat × Nat

def two : List SavedObj := [(7, 70), (7, 71)]

def setName : FileName := ⟨[], "set".toList⟩

def inDir : FileName := ⟨"out/".toList, "set".toList⟩

/-- Save without globalizing, then load as process `r` of two. -/
def roundtrip (f : FileName) (globalize : Bool) (fs : FileSys SavedObj) (r : Nat) :
    Option SavedObj :=
  (saveObject .ok 0 two f globalize fs).toOption.bind fun q =>
    (loadObject .ok 2 r q.2 10 f false).toOption

example : roundtrip setName false [] 0 = some (7, 70) ∧ roundtrip setName false [] 1 = some (7, 71) := by
  decide +kernel

example : roundtrip inDir true [] 0 = some (7, 70) := by decide +kernel

example : Spec.ProperName setName ∧ Spec.ProperName inDir :=
  ⟨⟨Or.inl rfl, by decide⟩, ⟨Or.inr ⟨"out".toList, by decide⟩, by decide⟩⟩

/-- A globalized save by two processes: process 1 gets the local array of process 0. -/
theorem C64_negation_local_parts : roundtrip setName true [] 1 = some (7, 70) := by decide +kernel

/-- An unglobalized save into a directory cannot be loaded by `load_object`. -/
theorem C64_negation_directory :
    roundtrip inDir false [] 0 = none ∧ roundtrip inDir false [] 1 = none := by decide +kernel

/-- With an older file `set.p` present, the old object is loaded instead. -/
theorem C64_negation_stale : roundtrip setName false [("set.p".toList, (1, 1))] 0 = some (1, 1) := by
  decide +kernel

/-- With a file left over from a run with more processes, or one of another set with a name ending
in the same way, loading is refused. -/
theorem C64_negation_leftover :
    roundtrip setName false [("proc2_set.p".toList, (1, 1))] 0 = none ∧
    roundtrip setName false [("proc0_other_set.p".toList, (1, 1))] 0 = none := by decide +kernel

end Ex

end BET
