import Verif.Scripts.QueryModel
import Verif.Scripts.FormatModel
/-
Model of what /repo/xigt/scripts/xigt_query.py prints: descriptions (15-94), the lines for matches (110-112) and
the table of results (136-142).

Simplifications: lines are texts (they may contain line breaks); for what was printed before an exception see
Scripts/QueryMain.lean; options come as the list that `AgendaAction` makes (145-149).
-/

namespace Xigt.Qry
open Fmt

/-- texts of values in format strings -/
structure QEnv extends Fmt.Env where
  /-- a string -/
  str : Str → Val
  /-- a match -/
  val : XP.PV → Val
  /-- a group of a tally (xigt_query.py:48-50 `CSTuple`) -/
  tup : List HKey → Val

/-- the options that make up the agenda, in order (xigt_query.py:145-149) -/
inductive Opt where
  | act (a : Action)
  | description (d : Str)

/-- xigt_query.py:76-78, 86-93 -/
structure Agendum where
  action : Action
  description : Str

/-- xigt_query.py:77, 88, 91 -/
def QUERY : Str := lit! "query"
/-- xigt_query.py:77, 88, 91 -/
def SUBQUERY : Str := lit! "subquery"
/-- xigt_query.py:115, 124, 131, 136 -/
def MATCH : Str := lit! "match"

/-- xigt_query.py:81, 84, 88 `agendum['query']` -/
def Action.query : Action → Str
  | .find q | .tally q _ | .unique q | .count q => q
/-- xigt_query.py:81, 84, 89 `agendum['subquery']` -/
def Action.subquery : Action → Str
  | .tally _ s => s
  | _ => []

/-- xigt_query.py:76-78, 90-92: query and subquery put into a description -/
def describe (env : QEnv) (a : Action) (d : Str) : Py Str :=
  safeFormat env.toEnv [(QUERY, env.str a.query), (SUBQUERY, env.str a.subquery)] d

/-- xigt_query.py:80-85: the description of an action unless one is given -/
def Action.default : Action → Str
  | .tally _ _ => lit! "{query}\t{subquery}\t{match!s}"
  | _ => lit! "{query}\t{match!s}"

/-- one step of xigt_query.py:73-93; a description without an action before it finds `query` unbound (the check
in 197-198 prevents that) -/
def addOpt (env : QEnv) (agenda : List Agendum) : Opt → Py (List Agendum)
  | .description d =>
    match agenda.getLast? with
    | some a => do
      let t ← describe env a.action d
      .ok (agenda.dropLast ++ [⟨a.action, t⟩])
    | none => .error .unboundLocal
  | .act a => do
    let t ← describe env a a.default
    .ok (agenda ++ [⟨a, t⟩])

/-- xigt_query.py:65-94 `make_job`: the agenda -/
def makeJob (env : QEnv) : List Agendum → List Opt → Py (List Agendum)
  | agenda, [] => .ok agenda
  | agenda, o :: os => do
    let agenda ← addOpt env agenda o
    makeJob env agenda os

/-- `description.format(match=match)` -/
def fillMatch (env : QEnv) (v : Val) (d : Str) : Py Str := strFormat env.toEnv [(MATCH, v)] d

/-- the descriptions of several matches -/
def fillAll (env : QEnv) (d : Str) : List Val → Py (List Str)
  | [] => .ok []
  | v :: vs => do
    let t ← fillMatch env v d
    let ts ← fillAll env d vs
    .ok (t :: ts)

section
variable [Uni]

/-- xigt_query.py:113-115 `find_pattern`: the printed lines -/
def findLines (env : QEnv) (c : XP.PCfg) (xc : XP.PV) (query d : Str) : Py (List Str) := do
  let ms ← XP.findall c xc query
  let ts ← fillAll env d (ms.map env.val)
  .ok (ts.map fun t => lit! "  " ++ t)

/-- xigt_query.py:99-109: what an agendum prints and its results -/
def processOne (env : QEnv) (c : XP.PCfg) (xc : XP.PV) (a : Agendum) : Py (List Str × List (Nat × Str)) :=
  match a.action with
  | .find q => do
    let ls ← findLines env c xc q a.description
    .ok (ls, [])
  | .tally q sub => do
    let r ← tally c xc q sub
    let ts ← fillAll env a.description (r.map fun p => env.tup p.1)
    .ok ([], (r.map Prod.snd).zip ts)
  | .unique q => do
    let n ← unique c xc q
    let t ← fillMatch env (env.str []) a.description
    .ok ([], [(n, t)])
  | .count q => do
    let n ← count c xc q
    let t ← fillMatch env (env.str []) a.description
    .ok ([], [(n, t)])

/-- xigt_query.py:97-110 `process_agenda`: the printed lines and the results -/
def processAgenda (env : QEnv) (c : XP.PCfg) (xc : XP.PV) : List Agendum → Py (List Str × List (Nat × Str))
  | [] => .ok ([], [])
  | a :: as => do
    let p ← processOne env c xc a
    let q ← processAgenda env c xc as
    .ok (p.1 ++ q.1, p.2 ++ q.2)

end

/-- `s.rjust(n)` -/
def rjust (n : Nat) (s : Str) : Str := List.replicate (n - s.length) ' ' ++ s

/-- `max` of lengths -/
def maxLen : List (Nat × Str) → Nat
  | [] => 0
  | p :: ps => max (natStr p.1).length (maxLen ps)

/-- xigt_query.py:139-143 `print_results` -/
def resultLines (rs : List (Nat × Str)) : List Str :=
  rs.map fun p => ' ' :: rjust (maxLen rs) (natStr p.1) ++ '\t' :: p.2

section
variable [Uni]

/-- xigt_query.py:53-63 `run`, the lines for one file: its name, what the agenda prints, the results, an empty line -/
def fileLines (env : QEnv) (c : XP.PCfg) (fileDescription filename : Str) (xc : XP.PV) (agenda : List Agendum) : Py (List Str) := do
  let h ← strFormat env.toEnv [(lit! "filename", env.str filename)] fileDescription
  let p ← processAgenda env c xc agenda
  .ok (h :: p.1 ++ resultLines p.2 ++ [[]])

end
end Xigt.Qry
