import Verif.Files.Export
import Verif.Import.Options
import Verif.Scripts.QueryMain
import Verif.Scripts.ValidateOut
import Verif.Scripts.CommandOrigin
/-
The whole command `xigt`: from the arguments to the files, /repo/xigt/main.py and the functions `run` of the scripts.

Simplifications: what is printed is modelled for `sort`, `query` and `validate` (help, messages of errors and the log are left out; for the log
of `validate` see Scripts/ValidatePrint.lean).  Of standard output that goes to a file nothing is said.  An exception that is not caught ends the program with status 1.
-/

set_option linter.unusedSectionVars false

namespace Xigt.Files


/-- what is not modelled, or by parameters only -/
structure World where
  /-- XigtPath (Path/Model.lean) -/
  path : XP.PCfg
  /-- how the parser reads ahead (Xml/Stream.lean) -/
  look : Nat → Nat
  /-- steps that sorting may take (C31) -/
  steps : Nat
  /-- Python's recursion limit, for `validate` and `export` -/
  depth : Nat
  fmt : Qry.QEnv
  /-- `json.load` -/
  json : Str → Py Opt.V
  /-- importing a text with options -/
  toolbox : Dict Str Opt.V → Str → Py Str
  odin : Dict Str Opt.V → Str → Py Str
  /-- latex.py:47-53 `prepare_config`; options of another kind raise an exception here, in the code when they are used -/
  latex : Option Opt.V → Py Ltx.Cfg
  /-- itsdb.py:23-32 `xigt_export` with the library it uses, for a configuration, the corpus and the output -/
  itsdb : Option Opt.V → Opened → Str → Act Unit

/-- how the program ends -/
structure Ended where
  status : Nat
  out : Str
  deriving DecidableEq

/-- what the interpreter makes of the end of a program: 0, the argument of `sys.exit`, or 1 for an exception -/
def ended : Except FErr Str → Ended
  | .ok s => ⟨0, s⟩
  | .error (.exit n) => ⟨n, []⟩
  | .error _ => ⟨1, []⟩

/-! ### Namespaces -/

/-- `args.d` where it is a string -/
def strOf (ns : Dict Str Cmd.Val) (d : Str) : Option Str := match Dict.get? ns d with
  | some (.str s) => some s
  | _ => none

/-- `args.d` where it is a list of strings -/
def listOf (ns : Dict Str Cmd.Val) (d : Str) : List Str := match Dict.get? ns d with
  | some (.list l) => l
  | _ => []

/-- `args.d` where it is a bool -/
def flagOf (ns : Dict Str Cmd.Val) (d : Str) : Bool := match Dict.get? ns d with
  | some (.bool b) => b
  | _ => false

/-- `args.d` where it is a number -/
def natOf (ns : Dict Str Cmd.Val) (d : Str) : Nat := match Dict.get? ns d with
  | some (.nat n) => n
  | _ => 0

/-- `s.split(',')` -/
def splitComma : Str → List Str
  | [] => [[]]
  | c :: s =>
    if c = ',' then [] :: splitComma s
    else match splitComma s with
      | [] => [[c]]
      | w :: ws => (c :: w) :: ws

section
variable [Uni]

/-- xigt_sort.py:13-29: keys and dependencies that are None or empty count as not given -/
def sortArgs (ns : Dict Str Cmd.Val) : Srt.Args where
  igtKey := listOf ns (lit! "igt_key")
  tierKey := listOf ns (lit! "tier_key")
  tierDeps := match strOf ns (lit! "tier_deps") with
    | some (c :: cs) => (splitComma (c :: cs)).map strip
    | _ => []
  itemKey := listOf ns (lit! "item_key")

/-- the elements of `args.agenda`, xigt_query.py:73-85, 145-149 -/
def optOf : Str × Cmd.Value → Option Qry.Opt
  | (d, .many [q]) =>
    if d = lit! "find" then some (.act (.find q))
    else if d = lit! "unique" then some (.act (.unique q))
    else if d = lit! "count" then some (.act (.count q))
    else none
  | (d, .many [q, s]) => if d = lit! "tally" then some (.act (.tally q s)) else none
  | (d, .one s) => if d = lit! "description" then some (.description s) else none
  | _ => none

/-- xigt_query.py:73 `args.agenda` -/
def agendaOf (ns : Dict Str Cmd.Val) : List Qry.Opt := match Dict.get? ns (lit! "agenda") with
  | some (.agenda l) => l.filterMap optOf
  | _ => []

variable [XmlLex]

/-! ### The scripts -/

/-- xigt_sort.py:93-95, 11-33 -/
def sortC (w : World) (ns : Dict Str Cmd.Val) (fs : FS) : Option (Except FErr Str × FS) :=
  sortF w.path w.look w.steps (sortArgs ns) (flagOf ns (lit! "in_place")) ((strOf ns (lit! "infile")).getD []) fs

/-- xigt_partition.py:20-22, 39-43 for the path None, which is no string (xigtpath.py:57): any IGT raises an AttributeError -/
def indexNone (look : Nat → Nat) : List Str → Act Unit
  | [] => pure ()
  | fn :: fns => do
    let t ← readFile fn
    let f ← lift (pfile look t)
    if f.igts.isEmpty then indexNone look fns else fail (.py .attributeError)

/-- xigt_partition.py:60-93, 12-27 -/
def partitionC (w : World) (ns : Dict Str Cmd.Val) : Act Unit :=
  let outdir := (strOf ns (lit! "outdir")).getD []
  let infiles := listOf ns (lit! "infiles")
  match strOf ns (lit! "key_path") with
  | some k => partition ⟨w.path, k, (strOf ns (lit! "default_key")).getD [], outdir, w.look⟩ infiles
  | none => do
    createOutdir outdir
    indexNone w.look infiles

/-- a file for `query`: FileNotFoundError and the like is any exception here -/
def queryFile (w : World) (fs : FS) (fn : Str) : Py XP.PV := match contents fs fn with
  | none => .error .runtimeError
  | some t => (loadsXml w.look t).map fun x => .node x []

/-- xigt_query.py:195-200, 53-63 -/
def queryC (w : World) (ns : Dict Str Cmd.Val) (fs : FS) : Ended × FS :=
  let r := Qry.queryMain w.fmt w.path ⟨agendaOf ns, strOf ns (lit! "file_description"), flagOf ns (lit! "basename"),
    (listOf ns (lit! "infiles")).map fun fn => (fn, queryFile w fs fn)⟩
  (⟨match r.2 with
    | .done => 0
    | .usage => 2
    | .raised _ => 1, r.1.flatMap fun l => l ++ ['\n']⟩, fs)

/-- a file for `validate` -/
def validateFile (w : World) (fs : FS) (fn : Str) : Py Opened := match contents fs fn with
  | none => .error .runtimeError
  | some t => openText w.look t

/-- xigt_validate.py:430-437, 389-416 -/
def validateC (w : World) (ns : Dict Str Cmd.Val) (fs : FS) : Ended × FS :=
  let r := Vld.outFiles (flagOf ns (lit! "color")) (60 - natOf ns (lit! "verbosity") * 10) w.depth 0
    ((listOf ns (lit! "files")).map fun fn => (fn, validateFile w fs fn)) []
  (⟨match r.2 with
    | .ok bs => if bs.all id then 0 else 1
    | .error _ => 1, r.1.flatMap fun l => l ++ ['\n']⟩, fs)

/-- odin.py:63-76 where the suffix is no string: a TypeError for a directory (in the code, only if a file in it has a name that ends in the text of it) -/
def odinNoSuffix (imp : Str → Py Str) (inpath outpath : Str) : Act Unit := fun fs =>
  if isFile fs inpath && !isDir fs outpath then importFile imp inpath outpath fs
  else if isDir fs inpath && !isFile fs outpath then
    (do
      if exists? fs outpath then pure () else prepareOutdir outpath
      fail (.py .typeError) : Act Unit) fs
  else (.error (.py .xigtImportError), fs)

/-- xigt_import.py:7-19 -/
def importC (w : World) (ns : Dict Str Cmd.Val) : Act Unit :=
  let infile := (strOf ns (lit! "input")).getD []
  let outfile := (strOf ns (lit! "output")).getD []
  let config := strOf ns (lit! "config")
  if strOf ns (lit! "format") = some (lit! "odin") then do
    let v ← Opt.readConfig w.json config
    let o ← lift (Opt.odinOptions v)
    match (Dict.get? o Opt.SUF).bind Opt.V.str? with
    | some suffix => odinImport (w.odin o) suffix infile outfile
    | none => odinNoSuffix (w.odin o) infile outfile
  else Opt.runToolbox w.json w.toolbox config infile outfile

/-- xigt_export.py:8-11: an empty name of a configuration counts as none -/
def exportConfig (w : World) : Option Str → Act (Option Opt.V)
  | some (c :: cs) => do
    let t ← readFile (c :: cs)
    let v ← lift (w.json t)
    pure (some v)
  | _ => pure none

/-- xigt_export.py:7-19 -/
def exportC (w : World) (ns : Dict Str Cmd.Val) : Act Unit := do
  let infile := (strOf ns (lit! "input")).getD []
  let outpath := (strOf ns (lit! "output")).getD []
  let v ← exportConfig w (strOf ns (lit! "config"))
  let t ← readFile infile
  let o ← lift (openText w.look t)
  if strOf ns (lit! "format") = some (lit! "itsdb") then w.itsdb v o outpath
  else do
    let cfg ← lift (w.latex v)
    exportF cfg w.depth w.look infile outpath

/-- a script that prints nothing -/
def silent (r : Except FErr Unit × FS) : Option (Ended × FS) := some (ended (r.1.map fun _ => []), r.2)

/-- main.py:25-37: `xigt` with its arguments; `none` if sorting does not end within the steps.  `process` ends with a message and status 1. -/
def xigtF (w : World) (argv : List Str) (fs : FS) : Option (Ended × FS) :=
  match Cmd.xigt argv with
  | .error .usage => some (⟨2, []⟩, fs)
  | .error .help => some (⟨0, []⟩, fs)
  | .ok (_, none) => some (⟨1, []⟩, fs)
  | .ok (s, some ns) => match s with
    | .sort => (sortC w ns fs).map fun r => (ended r.1, r.2)
    | .partition => silent (partitionC w ns fs)
    | .query => some (queryC w ns fs)
    | .validate => some (validateC w ns fs)
    | .import => silent (importC w ns fs)
    | .export => silent (exportC w ns fs)
    | .process => some (⟨1, []⟩, fs)

end
end Xigt.Files
