import Verif.Scripts.Argparse
/- The command line of `xigt`: /repo/xigt/main.py, and the parsers of the scripts in /repo/xigt/scripts. -/

namespace Xigt.Cmd

/-- `-v`, the same in all scripts (xigt_sort.py:56-59 and so on) -/
def verboseAction : Action := { opts := [lit! "-v", lit! "--verbose"], dest := lit! "verbosity", nargs := .num 0, kind := .count, default := .nat 2 }

/-- xigt_sort.py:48-92 -/
def sortParser : Parser where
  actions := [helpAction, verboseAction,
    { dest := lit! "infile" },
    { opts := [lit! "--in-place"], dest := lit! "in_place", nargs := .num 0, kind := .const (.bool true), default := .bool false },
    { opts := [lit! "--igt-key"], dest := lit! "igt_key", kind := .append },
    { opts := [lit! "--tier-key"], dest := lit! "tier_key", kind := .append },
    { opts := [lit! "--tier-deps"], dest := lit! "tier_deps" },
    { opts := [lit! "--item-key"], dest := lit! "item_key", kind := .append }]
  groups := [[5, 6]]

/-- xigt_partition.py:60-86 -/
def partitionParser : Parser where
  actions := [helpAction, verboseAction,
    { dest := lit! "outdir" },
    { dest := lit! "infiles", nargs := .star },
    { opts := [lit! "--key-path"], dest := lit! "key_path" },
    { opts := [lit! "--default-key"], dest := lit! "default_key", default := .str (lit! "---") }]

/-- xigt_query.py:153-194 -/
def queryParser : Parser where
  actions := [helpAction, verboseAction,
    { dest := lit! "infiles", nargs := .plus },
    { opts := [lit! "-f", lit! "--find"], dest := lit! "find", nargs := .num 1, kind := .agenda },
    { opts := [lit! "-t", lit! "--tally"], dest := lit! "tally", nargs := .num 2, kind := .agenda },
    { opts := [lit! "-u", lit! "--unique"], dest := lit! "unique", nargs := .num 1, kind := .agenda },
    { opts := [lit! "-c", lit! "--count"], dest := lit! "count", nargs := .num 1, kind := .agenda },
    { opts := [lit! "-d", lit! "--description"], dest := lit! "description", kind := .agenda },
    { opts := [lit! "-D", lit! "--file-description"], dest := lit! "file_description" },
    { opts := [lit! "--basename"], dest := lit! "basename", nargs := .num 0, kind := .const (.bool true), default := .bool false }]

/-- xigt_import.py:22-35 and xigt_export.py:22-35: they differ in the formats only, of which the first is the default -/
def formatParser (fs : List Str) : Parser where
  actions := [helpAction, verboseAction,
    { opts := [lit! "-i", lit! "--input"], dest := lit! "input", required := true },
    { opts := [lit! "-o", lit! "--output"], dest := lit! "output", required := true },
    { opts := [lit! "-f", lit! "--format"], dest := lit! "format", choices := some fs, default := .str (fs.headD []) },
    { opts := [lit! "-c", lit! "--config"], dest := lit! "config" }]

/-- xigt_import.py:29-31 -/
def importParser : Parser := formatParser [lit! "toolbox", lit! "odin"]

/-- xigt_export.py:29-31 -/
def exportParser : Parser := formatParser [lit! "latex", lit! "itsdb"]

/-- xigt_validate.py:419-428 -/
def validateParser : Parser where
  actions := [helpAction,
    { dest := lit! "files", nargs := .plus },
    { opts := [lit! "--color"], dest := lit! "color", nargs := .num 0, kind := .const (.bool true), default := .bool false },
    verboseAction,
    { opts := [lit! "-q", lit! "--quiet"], dest := lit! "verbosity", nargs := .num 0, kind := .const (.nat 0) }]

/-- main.py:14-22 `cmdmap` -/
inductive Script where
  | export | import | partition | process | sort | query | validate
  deriving DecidableEq

/-- main.py:14-22 -/
def cmdmap : Dict Str Script :=
  [(lit! "export", .export), (lit! "import", .import), (lit! "partition", .partition), (lit! "process", .process),
   (lit! "sort", .sort), (lit! "query", .query), (lit! "validate", .validate)]

/-- main.py:26-34 -/
def mainParser : Parser where
  actions := [helpAction,
    { dest := lit! "command", choices := some (cmdmap.map Prod.fst) },
    { dest := lit! "args", nargs := .remainder }]

/-- the scripts' parsers; `process` parses nothing (xigt_process.py:5-6) -/
def Script.parser : Script → Option Parser
  | .export => some exportParser
  | .import => some importParser
  | .partition => some partitionParser
  | .process => none
  | .sort => some sortParser
  | .query => some queryParser
  | .validate => some validateParser

section
variable [Uni]

/-- main.py:36-37: the script that is called, and with what arguments -/
def dispatch (argv : List Str) : Run (Script × List Str) := do
  let ns ← parseArgs mainParser argv
  match ns.get? (lit! "command"), ns.get? (lit! "args") with
  | some (.str c), some (.list l) =>
    match Dict.get? cmdmap c with
    | some s => .ok (s, l)
    | none => .error .usage
  | _, _ => .error .usage

/-- the whole command line: the script with its namespace (none for `process`) -/
def xigt (argv : List Str) : Run (Script × Option (Dict Str Val)) := do
  let (s, l) ← dispatch argv
  match s.parser with
  | none => .ok (s, none)
  | some P =>
    let ns ← parseArgs P l
    return (s, some ns)

end
end Xigt.Cmd
