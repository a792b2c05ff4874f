import Verif.Model.File

/-!
# Directories, whole files and the name of the process

Transcribed from `fn_file.h` (read_line 197-205, read_content 206-223, is_dir 225-241, create_dir 253-282,
process_name 300-344, the branches without `WIN32` and `__APPLE__`) and `fn_out_file_device.h` 262-281.

Simplifications:
* The file system is a tree without symbolic links; an entry is a regular file or a directory that can or can not
  be read (`opendir`).  A path is resolved as the kernel does it: empty and `.` components do nothing, `..` goes to
  the parent, every component but the last one has to be a directory.
* `mkdir` asks an oracle for permission and space; a directory it makes can be read.
* Other processes may change the tree in front of every call of `opendir` and `mkdir`.
* `fread` returns less than asked for at the end of the file and at a read error.
-/

namespace FNLog

/-! ## Path names -/

/-- The text split at every `/`. -/
def splitSlash : List Char → List (List Char)
  | [] => [[]]
  | c :: r =>
    if c = '/' then [] :: splitSlash r
    else match splitSlash r with
      | h :: t => (c :: h) :: t
      | [] => [[c]]

/-- The components of a path. -/
def rawComps (p : List Char) : List (List Char) := (splitSlash p).filter (· ≠ [])

/-- A place in the tree: the names from the root on. -/
abbrev Loc := List (List Char)

/-- An entry of the tree. -/
inductive Entry where
  | file
  | dir (readable : Bool)
deriving DecidableEq

/-- The tree. -/
abbrev Tree := Loc → Option Entry

/-- There is a directory. -/
def Tree.isDir (t : Tree) (l : Loc) : Bool :=
  match t l with
  | some (.dir _) => true
  | _ => false

/-- One component further. -/
def descend (l : Loc) (c : List Char) : Loc :=
  if c = ['.'] then l else if c = ['.', '.'] then l.dropLast else l ++ [c]

/-- Path resolution; `none`: a component in front of the last one is not a directory. -/
def Tree.walk (t : Tree) : Loc → List (List Char) → Option Loc
  | l, [] => some l
  | l, c :: r => if t.isDir l then t.walk (descend l c) r else none

/-- Where the resolution of a path begins. -/
def startOf (cwd : Loc) (p : List Char) : Loc := if p.head? = some '/' then [] else cwd

/-- What the path names. -/
def Tree.lookup (t : Tree) (cwd : Loc) (p : List Char) : Option Entry :=
  if p = [] then none else (t.walk (startOf cwd p) (rawComps p)).bind t

/-- is_dir (fn_file.h 225-241): `opendir` succeeds. -/
def isDirCall (t : Tree) (cwd : Loc) (p : List Char) : Bool := t.lookup cwd p = some (.dir true)

/-- `mkdir(2)`; `none`: it fails. -/
def mkdirCall (grant : Loc → Bool) (t : Tree) (cwd : Loc) (p : List Char) : Option Tree :=
  match (rawComps p).getLast? with
  | none => none
  | some c =>
    if c = ['.'] ∨ c = ['.', '.'] then none
    else match t.walk (startOf cwd p) (rawComps p).dropLast with
      | none => none
      | some l =>
        if t.isDir l ∧ t (l ++ [c]) = none ∧ grant (l ++ [c]) = true then
          some fun q => if q = l ++ [c] then some (.dir true) else t q
        else none

/-! ## create_dir -/

/-- What the rest of the world does in front of the `k`-th call. -/
abbrev World := Nat → Tree → Tree

/-- One round of the loop (fn_file.h 263-277) for the text `cur`; `none`: return false. -/
def createOne (grant : Loc → Bool) (w : World) (k : Nat) (cwd : Loc) (cur : List Char) (t : Tree) : Bool × Tree :=
  if cur.length > 0 then
    let t := w (2 * k) t
    if isDirCall t cwd cur then (true, t)
    else
      let t := w (2 * k + 1) t
      match mkdirCall grant t cwd cur with
      | none => (false, t)
      | some t => (true, t)
  else (true, t)

/-- The loop of create_dir (fn_file.h 261-279): `cur` is the text in front of the position, the second text is the
one that `find` still has to search. -/
def createLoop (grant : Loc → Bool) (w : World) (cwd : Loc) : Nat → List Char → List Char → Tree → Bool × Tree
  | _, _, [], t => (true, t)
  | k, cur, c :: r, t =>
    if c = '/' then
      match createOne grant w k cwd cur t with
      | (false, t) => (false, t)
      | (true, t) => createLoop grant w cwd (k + 1) (cur ++ [c]) r t
    else createLoop grant w cwd k (cur ++ [c]) r t

/-- create_dir (fn_file.h 253-282). -/
def createDir (grant : Loc → Bool) (w : World) (cwd : Loc) (path : List Char) (t : Tree) : Bool × Tree :=
  if path.length = 0 then (true, t) else createLoop grant w cwd 0 [] path t

/-- Nobody else changes the tree. -/
def quiet : World := fun _ t => t

/-- Lines 266-275 of fn_out_file_device.h: the directory of the file is made; the answer of create_dir is ignored. -/
def prepareDir (grant : Loc → Bool) (w : World) (cwd : Loc) (path : List Char) (t : Tree) : Tree :=
  if path = [] then t
  else if isDirCall t cwd (dirPath path) then t
  else (createDir grant w cwd (dirPath path) t).2

/-- `fopen(path, "ab")` (fn_file.h 133): the place of the file, if its directory exists, the path does not end
with `/` and does not name a directory. -/
def fopenPlace (t : Tree) (cwd : Loc) (path : List Char) : Option Loc :=
  match (splitSlash path).getLast? with
  | none => none
  | some c =>
    if c = [] ∨ c = ['.'] ∨ c = ['.', '.'] then none
    else match t.walk (startOf cwd path) (rawComps path).dropLast with
      | none => none
      | some l => if t.isDir l ∧ t.isDir (l ++ [c]) = false then some (l ++ [c]) else none

/-! ## Reading files -/

/-- read_content (fn_file.h 206-223) behind the test of `file_`: blocks of `n + 1` bytes; `good` bytes can be read,
then `fread` reports the end or an error. -/
def readContent (n : Nat) (good : List Char) : List Char :=
  if _h : (good.take (n + 1)).length = n + 1 then good.take (n + 1) ++ readContent n (good.drop (n + 1))
  else good.take (n + 1)
termination_by good.length
decreasing_by
  rw [List.length_take] at _h
  rw [List.length_drop]
  omega

/-- `fgets(buf, n, file)`: up to and with the first line feed, at most `n - 1` bytes. -/
def fgets (n : Nat) (s : List Char) : List Char :=
  let line := s.takeWhile (· ≠ '\n')
  ((if line.length < s.length then line ++ ['\n'] else line)).take (n - 1)

/-- read_line (fn_file.h 197-205): the text in the buffer ends at its first NUL. -/
def readTextLine (s : List Char) : List Char := (fgets 500 s).takeWhile (· ≠ Char.ofNat 0)

/-- The text behind the last `/`. -/
def afterSlash (s : List Char) : List Char := (s.reverse.takeWhile (· ≠ '/')).reverse

/-- process_name (fn_file.h 300-344); `cmdline` is the content of `/proc/<pid>/cmdline` if it can be opened. -/
def processName (cmdline : Option (List Char)) : List Char :=
  match cmdline with
  | none => "process".toList
  | some s => afterSlash (readTextLine s)

end FNLog
