import Verif.Model.Py
import Verif.Model.Dict

/-!
Files: `writefile` of both parsers, the backups of the command line tools and the cache of parsed recipes.

The file system is a map from names to inodes and from inodes to contents (POSIX semantics, not code of the repository).
Simplified: directories, symbolic links, permissions and other processes are not modelled; failures of system calls are
inputs.  A function returns the states of the file system that it goes through after the initial one, in order.  A process
that is killed, or a write that fails, leaves one of them behind.
-/

namespace Verif

structure FS where
  names : Dict Str Nat
  inodes : List Str

/-- the content of a file -/
def FS.content (fs : FS) (n : Str) : Option Str := (dGet n fs.names).bind fun i => fs.inodes[i]?

/-- `os.path.exists` -/
def FS.has (fs : FS) (n : Str) : Bool := dHas n fs.names

/-- `os.link`; fails if the new name exists -/
def FS.link (fs : FS) (src dst : Str) : Option FS :=
  match dGet src fs.names with
  | none => none
  | some i => if fs.has dst then none else some { fs with names := dSet dst i fs.names }

/-- `os.unlink` -/
def FS.unlink (fs : FS) (n : Str) : Option FS :=
  if fs.has n then some { fs with names := dDel n fs.names } else none

/-- `os.rename` on Windows; fails if the new name exists -/
def FS.rename (fs : FS) (src dst : Str) : Option FS :=
  match dGet src fs.names with
  | none => none
  | some i => if fs.has dst then none else some { fs with names := dDel src (dSet dst i fs.names) }

/-- `open(name, "w")`: truncates the file, or creates it with a new inode -/
def FS.openW (fs : FS) (n : Str) : FS :=
  match dGet n fs.names with
  | some i => { fs with inodes := fs.inodes.set i [] }
  | none => ⟨dSet n fs.inodes.length fs.names, fs.inodes ++ [[]]⟩

/-- the file gets the given content -/
def FS.put (fs : FS) (n : Str) (c : Str) : FS :=
  match dGet n fs.names with
  | some i => { fs with inodes := fs.inodes.set i c }
  | none => fs

/-- The states while a new content is written, one for each character.  Simplified: real writes come in blocks, the states
after them are among these. -/
def FS.save (fs : FS) (n : Str) (c : Str) : List FS :=
  fs.openW n :: (List.range c.length).map fun k => (fs.openW n).put n (c.take (k + 1))

/-- a run: the states after the initial one, and whether it ended without exception -/
structure Steps where
  states : List FS
  ok : Bool

/-- the state at the end of a run that starts in `fs` -/
def Steps.final (fs : FS) (s : Steps) : FS := s.states.getLast?.getD fs

/-! ## `writefile` -/

/-- interpreter/endf_parser.py:1231-1240 `writefile`.  `conv` is the outcome of `self.write` (none: exception), `enc` the
text encoding of the file, which may refuse characters. -/
def pyWritefile (enc : Str → Option Str) (fs : FS) (name : Str) (overwrite : Bool) (conv : Option (List Str)) : Steps :=
  if fs.has name && !overwrite then ⟨[], false⟩
  else match conv with
    | none => ⟨[], false⟩
    | some lines =>
      match enc (List.intercalate ['\n'] lines) with
      | none => ⟨[fs.openW name], false⟩
      | some bytes => ⟨fs.save name bytes, true⟩

/-- cpp_parsers/endf_parser_cpp.py:308-318 and compiler/code_generator_writing.py:507-530 `writefile` of the C++ parsers:
the file is opened first and the conversion writes into it.  `conv` is the text that the conversion emits and whether it
ends without exception. -/
def cppWritefile (fs : FS) (name : Str) (overwrite : Bool) (conv : Str × Bool) : Steps :=
  if fs.has name && !overwrite then ⟨[], false⟩
  else ⟨fs.save name conv.1, conv.2⟩

/-! ## Backups -/

/-- failures of system calls decided by the environment (permissions, full disk), in the order of the tries -/
structure OsFail where
  link : Bool
  unlink : Bool

/-- cli/cmd_utils.py:115-124 `atomic_rename`; `win` is `OS_NAME == "Windows"`.  Other systems than Windows, Linux and
Darwin raise an exception, which is covered by a failing link. -/
def atomicRename (win : Bool) (fs : FS) (src dst : Str) (f : OsFail) : Steps :=
  if win then
    match fs.rename src dst with
    | none => ⟨[], false⟩
    | some fs' => if f.link then ⟨[], false⟩ else ⟨[fs'], true⟩
  else
    match fs.link src dst with
    | none => ⟨[], false⟩
    | some fs1 =>
      if f.link then ⟨[], false⟩
      else match fs1.unlink src with
        | none => ⟨[fs1], false⟩
        | some fs2 => if f.unlink then ⟨[fs1], false⟩ else ⟨[fs1, fs2], true⟩

/-- ".bak" -/
def bakSuffix : Str := ".bak".toList

/-- cli/cmd_utils.py:130-137 the loop of `create_backup_file` with the remaining tries -/
def backupLoop (win : Bool) (fails : Nat → OsFail) (file : Str) : Nat → FS → Str → Steps
  | 0, _, _ => ⟨[], false⟩
  | t + 1, fs, last =>
    let name := last ++ bakSuffix
    let r := atomicRename win fs file name (fails t)
    if r.ok then r
    else
      let r' := backupLoop win fails file t (r.final fs) name
      ⟨r.states ++ r'.states, r'.ok⟩

/-- cli/cmd_utils.py:127-139 `create_backup_file` -/
def createBackup (win : Bool) (fails : Nat → OsFail) (fs : FS) (file : Str) : Steps :=
  backupLoop win fails file 10 fs file

/-! ## Editing commands -/

/-- what reading, changing and converting a file leads to: an exception before the backup is made, or a call of `writefile`
of the Python parser or of the C++ parser with the given outcome of the conversion -/
inductive EditRes
  | early
  | py (conv : Option (List Str))
  | cpp (conv : Str × Bool)

/-- the environment: operating system, text encoding -/
structure OsEnv where
  win : Bool
  enc : Str → Option Str

/-- the call of `writefile` in the editing commands, `create_backup` is the setting of the command -/
def editWrite (e : OsEnv) (createBackup : Bool) (fs : FS) (file : Str) (res : EditRes) : Steps :=
  match res with
  | .early => ⟨[], false⟩
  | .py conv => pyWritefile e.enc fs file (!createBackup) conv
  | .cpp conv => cppWritefile fs file (!createBackup) conv

/-- cli/actions/replace.py:94-98, insert_text.py:47-54, update_directory.py:42-47: one file is edited -/
def editFile (e : OsEnv) (backup : Bool) (fails : Nat → OsFail) (fs : FS) (file : Str) (res : EditRes) : Steps :=
  match res with
  | .early => ⟨[], false⟩
  | _ =>
    let b : Steps := if backup then createBackup e.win fails fs file else ⟨[], true⟩
    if !b.ok then b
    else
      let w := editWrite e backup (b.final fs) file res
      ⟨b.states ++ w.states, w.ok⟩

/-- cli/actions/replace.py:93-99 the loop over the files; the result of editing may depend on the file system -/
def editFiles (e : OsEnv) (backup : Bool) (fails : Nat → Nat → OsFail) (edit : FS → Str → EditRes) : Nat → FS → List Str → Steps
  | _, _, [] => ⟨[], true⟩
  | n, fs, f :: files =>
    let r := editFile e backup (fails n) fs f (edit fs f)
    if !r.ok then r
    else
      let r' := editFiles e backup fails edit (n + 1) (r.final fs) files
      ⟨r.states ++ r'.states, r'.ok⟩

/-- the name after `k` appended suffixes -/
def bakName (f : Str) : Nat → Str
  | 0 => f
  | k + 1 => bakName f k ++ bakSuffix

/-! ## The cache of parsed recipes -/

/-- What the cache depends on: the hash, the recipe parser, `pickle.dump` and `pickle.load` (none: exception). -/
structure Cache (τ : Type) where
  hash : Str → Str
  parse : Str → Str → Option τ
  dump : τ → Str
  load : Str → Option τ

/-- endf_recipe_utils.py:31-32, 47: the file name in the cache directory; `g` is the grammar -/
def Cache.file {τ : Type} (c : Cache τ) (g r : Str) : Str := c.hash (c.hash g ++ c.hash r) ++ ".pkl".toList

/-- endf_recipe_utils.py:28-42 `get_recipe_parsetree` with a cache directory: the states and the tree -/
def Cache.get {τ : Type} (c : Cache τ) (fs : FS) (g r : Str) : List FS × Option τ :=
  if !fs.has (c.file g r) then
    match c.parse g r with
    | none => ([], none)
    | some t => (fs.save (c.file g r) (c.dump t), some t)
  else ([], (fs.content (c.file g r)).bind c.load)

end Verif
