import Verif.Scripts.PartitionModel
import Verif.Xml.Text
/-
Files: what the importers and the scripts do to the file system.

A file system has directories, and files with their contents as text (how characters are encoded is left
out).  There are no links, and nothing else changes files at the same time.  What was done before an
exception stays done.
-/

namespace Xigt.Files

/-- the names from the root on -/
abbrev Path := List Str

/-- the files with their contents, the directories and the current directory -/
structure FS where
  files : Dict Path Str
  dirs : List Path
  cwd : Path

/-- the exceptions of programs that use files -/
inductive FErr where
  /-- OSError -/
  | os
  /-- `sys.exit(n)` -/
  | exit (n : Nat)
  | py (e : PyErr)
  deriving DecidableEq, Repr

/-- a program that uses files; `files` are changed also if there is an exception -/
def Act (α : Type) : Type := FS → Except FErr α × FS

instance : Monad Act where
  pure a := fun fs => (.ok a, fs)
  bind m f := fun fs => match m fs with
    | (.ok a, fs') => f a fs'
    | (.error e, fs') => (.error e, fs')

/-- raise an exception -/
def fail {α : Type} (e : FErr) : Act α := fun fs => (.error e, fs)

/-- an exception of the code -/
def lift {α : Type} : Py α → Act α
  | .ok a => fun fs => (.ok a, fs)
  | .error e => fail (.py e)

/-! ### Paths -/

/-- `s.split('/')` -/
def splitSlash : Str → List Str
  | [] => [[]]
  | c :: s =>
    if c = '/' then [] :: splitSlash s
    else match splitSlash s with
      | [] => [[c]]
      | w :: ws => (c :: w) :: ws

/-- one name of a path: it is looked up in a directory -/
def step (fs : FS) (p : Option Path) (c : Str) : Option Path :=
  p.bind fun p => if p ∈ fs.dirs then
    some (if c = [] ∨ c = ['.'] then p else if c = ['.', '.'] then p.dropLast else p ++ [c])
  else none

/-- what a string denotes for the operating system; `none` if it leads through something that is no
directory -/
def resolve (fs : FS) (s : Str) : Option Path :=
  if s = [] then none
  else if s.head? = some '/' then (splitSlash s).foldl (step fs) (some [])
  else (splitSlash s).foldl (step fs) (some fs.cwd)

/-- `os.path.isfile` -/
def isFile (fs : FS) (s : Str) : Bool := match resolve fs s with
  | some p => Dict.has fs.files p
  | none => false

/-- `os.path.isdir` -/
def isDir (fs : FS) (s : Str) : Bool := match resolve fs s with
  | some p => decide (p ∈ fs.dirs)
  | none => false

/-- the contents of the file a string denotes -/
def contents (fs : FS) (s : Str) : Option Str := (resolve fs s).bind (Dict.get? fs.files)

/-- `open(s, 'r')`, and reading all of it -/
def readFile (s : Str) : Act Str := fun fs => match contents fs s with
  | some t => (.ok t, fs)
  | none => (.error .os, fs)

/-- the path of a file that can be opened for writing: no directory, but in a directory -/
def writable (fs : FS) (s : Str) : Option Path :=
  (resolve fs s).bind fun p => if p ∉ fs.dirs ∧ p ≠ [] ∧ p.dropLast ∈ fs.dirs then some p else none

/-- `open(s, 'w')`: the file is made or emptied -/
def openW (s : Str) : Act Path := fun fs => match writable fs s with
  | some p => (.ok p, { fs with files := Dict.set fs.files p [] })
  | none => (.error .os, fs)

/-- writing to an open file -/
def put (p : Path) (t : Str) : Act Unit := fun fs =>
  (.ok (), { fs with files := Dict.set fs.files p (((Dict.get? fs.files p).getD []) ++ t) })

/-- `os.mkdir(s)` -/
def mkdir (s : Str) : Act Unit := fun fs => match writable fs s with
  | some p => if Dict.has fs.files p then (.error .os, fs) else (.ok (), { fs with dirs := p :: fs.dirs })
  | none => (.error .os, fs)

/-! ### Importing -/

/-- odin.py:79-87 `_xigt_import`, toolbox.py:121-130: both files are open before anything is read; the IGTs
are read from the one while the document is made, which is then written at once.  `imp` is the text
made of a text. -/
def importFile (imp : Str → Py Str) (infile outfile : Str) : Act Unit := do
  let _ ← readFile infile
  let p ← openW outfile
  let t ← readFile infile
  let r ← lift (imp t)
  put p r

/-- one suffix of a pattern `suffix$`, in which `.` stands for a character: what remains after it -/
def matchDots : Str → Str → Option Str
  | [], s => some s
  | _ :: _, [] => none
  | c :: cs, d :: ds => if c = '.' then (if d = '\n' then none else matchDots cs ds) else if c = d then matchDots cs ds else none

/-- `$`, at the end or before a newline there -/
def atEnd (s : Str) : Bool := s == [] || s == ['\n']

/-- odin.py:71 `re.sub(suffix + r'$', '.xml', name)`, for a suffix of one or more characters none of which
but `.` is special in a pattern -/
def subSuffix (suffix : Str) : Str → Str
  | [] => []
  | c :: s => match matchDots suffix (c :: s) with
    | some r => if atEnd r then lit! ".xml" ++ r else c :: subSuffix suffix s
    | none => c :: subSuffix suffix s

/-- the names in a directory -/
def names (fs : FS) (d : Path) : List Str :=
  ((fs.files.map Prod.fst ++ fs.dirs).filter fun p => decide (p ≠ []) && decide (p.dropLast = d)).filterMap List.getLast?

/-- odin.py:69-70: the basenames of `glob.glob(os.path.join(inpath, '*' + suffix))`; inpath and suffix without
the special characters of glob -/
def globNames (fs : FS) (inpath suffix : Str) : List Str := match resolve fs inpath with
  | some d => if d ∈ fs.dirs then (names fs d).filter fun n => decide (suffix <:+ n) && decide (n.head? ≠ some '.') else []
  | none => []

/-- odin.py:90-97 `prepare_outdir` -/
def prepareOutdir (outpath : Str) : Act Unit := fun fs => match mkdir outpath fs with
  | (.ok _, fs') => (.ok (), fs')
  | (.error _, fs') => (.error (.py .xigtImportError), fs')

/-- odin.py:70-72 -/
def importAll (imp : Str → Py Str) (suffix inpath outpath : Str) : List Str → Act Unit
  | [] => pure ()
  | n :: ns => do
    importFile imp (Part.pathJoin inpath n) (Part.pathJoin outpath (subSuffix suffix n))
    importAll imp suffix inpath outpath ns

/-- `os.path.exists` -/
def exists? (fs : FS) (s : Str) : Bool := isFile fs s || isDir fs s

/-- odin.py:48-76 `xigt_import` -/
def odinImport (imp : Str → Py Str) (suffix inpath outpath : Str) : Act Unit := fun fs =>
  if isFile fs inpath && !isDir fs outpath then importFile imp inpath outpath fs
  else if isDir fs inpath && !isFile fs outpath then
    (do
      if exists? fs outpath then pure () else prepareOutdir outpath
      fun fs' => importAll imp suffix inpath outpath (globNames fs' inpath suffix) fs' : Act Unit) fs
  else (.error (.py .xigtImportError), fs)

end Xigt.Files
