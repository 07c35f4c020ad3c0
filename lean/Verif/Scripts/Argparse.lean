import Verif.Regex
/-
Command lines: the part of argparse (CPython 3.11, Lib/argparse.py) that the scripts use.

Not from /repo; part of the trusted reading of Python.  The parsers of the scripts are in Scripts/Command.lean.

Simplifications: options take a fixed number of arguments; positional arguments have no default; no types, files with
arguments, subparsers or other prefixes than `-`; what is printed on errors and for `--help` is left out.  That a value
which is the very object of the default does not count for exclusive groups (argparse.py:1946) does not matter, since
the options in such groups have the default None.
-/

namespace Xigt.Cmd

/-- the argument `nargs` of `add_argument` -/
inductive Nargs where
  | one            -- None
  | num (n : Nat)
  | star           -- '*'
  | plus           -- '+'
  | remainder      -- argparse.REMAINDER
  deriving DecidableEq

/-- the values that an action gets: a string, or a list of them -/
inductive Value where
  | one (s : Str)
  | many (l : List Str)
  deriving DecidableEq

/-- the values of attributes of a namespace -/
inductive Val where
  | none
  | str (s : Str)
  | list (l : List Str)
  | nat (n : Nat)
  | bool (b : Bool)
  | agenda (l : List (Str × Value))
  deriving DecidableEq

/-- the classes of actions (argparse.py:958-1125), and `AgendaAction` of xigt_query.py:145-149 -/
inductive Kind where
  | store
  | const (v : Val)    -- store_const, store_true
  | append
  | count
  | help
  | agenda
  deriving DecidableEq

/-- argparse.py `Action`: what `add_argument` makes, of what the scripts use -/
structure Action where
  opts : List Str := []
  dest : Str
  nargs : Nargs := .one
  kind : Kind := .store
  default : Val := .none
  choices : Option (List Str) := none
  required : Bool := false

/-- actions are known by their places -/
structure Parser where
  actions : List Action
  groups : List (List Nat) := []

/-- how parsing ends the program: exit status 2 with a message, or 0 after printing help -/
inductive Stop where
  | usage
  | help
  deriving DecidableEq

/-- parsing that may end the program -/
abbrev Run := Except Stop

/-- argparse.py:1544: the action of `-h` -/
def helpAction : Action := { opts := [lit! "-h", lit! "--help"], dest := lit! "help", nargs := .num 0, kind := .help }

/-- `_option_string_actions` -/
def Parser.table (P : Parser) : List (Str × Nat) := P.actions.zipIdx.flatMap fun a => a.1.opts.map fun o => (o, a.2)

/-- `_option_string_actions[s]` -/
def Parser.find (P : Parser) (s : Str) : Option Nat := (P.table.find? fun p => decide (p.1 = s)).map Prod.snd

/-- how an argument is read as an option: the action (none if there is no such option), the string that was found, what separates it
from the argument that is part of the string, and that argument -/
structure OptTuple where
  action : Option Nat
  str : Str
  sep : Option Str := none
  arg : Option Str := none
  deriving DecidableEq

/-- `str.partition('=')`; without `=` the separator is None here -/
def partitionEq : Str → Str × Option Str
  | [] => ([], none)
  | c :: s => if c = '=' then ([], some s) else ((c :: (partitionEq s).1), (partitionEq s).2)

/-- argparse.py:2271-2309 `_get_option_tuples`, for strings that begin with `-` and have two characters or more -/
def optionTuples (P : Parser) (s : Str) : List OptTuple :=
  if (lit! "--").isPrefixOf s then
    let p := partitionEq s
    (P.table.filter fun o => p.1.isPrefixOf o.1).map fun o => ⟨some o.2, o.1, p.2.map fun _ => lit! "=", p.2⟩
  else
    P.table.filterMap fun o =>
      if o.1 = s.take 2 then some ⟨some o.2, o.1, some [], some (s.drop 2)⟩
      else if s.isPrefixOf o.1 then some ⟨some o.2, o.1, none, none⟩
      else none

section
variable [Uni]

/-- argparse.py:1386: `^-\d+$|^-\d*\.\d+$` -/
def negativeNumber : Re :=
  .alt (.cat [.bos, .chr '-', .plus (.cls Uni.isDigit), .eos])
    (.cat [.bos, .chr '-', .star (.cls Uni.isDigit), .chr '.', .plus (.cls Uni.isDigit), .eos])

/-- argparse.py:2217-2269 `_parse_optional` (no parser has options that look like negative numbers) -/
def parseOptional (P : Parser) (s : Str) : Run (Option OptTuple) :=
  if s.head? ≠ some '-' then .ok none
  else match P.find s with
  | some i => .ok (some ⟨some i, s, none, none⟩)
  | none =>
    if s.length = 1 then .ok none
    else match (partitionEq s).2.bind fun e => (P.find (partitionEq s).1).map fun i => (⟨some i, (partitionEq s).1, some (lit! "="), some e⟩ : OptTuple) with
    | some t => .ok (some t)
    | none =>
      match optionTuples P s with
      | _ :: _ :: _ => .error .usage
      | [t] => .ok (some t)
      | [] =>
        if (negativeNumber.match? s).isSome then .ok none
        else if ' ' ∈ s then .ok none
        else .ok (some ⟨none, s, none, none⟩)

/-- the arguments with what they are taken for (argparse.py:1907-1930): argument, option, or `--` -/
inductive Tok where
  | arg (s : Str)
  | opt (s : Str) (t : OptTuple)
  | dashes
  deriving DecidableEq

/-- the string that was given -/
def Tok.text : Tok → Str
  | .arg s => s
  | .opt s _ => s
  | .dashes => lit! "--"

/-- the letters of `arg_strings_pattern` -/
def Tok.letter : Tok → Char
  | .arg _ => 'A'
  | .opt _ _ => 'O'
  | .dashes => '-'

/-- whether the letter is `O` -/
def Tok.isOpt : Tok → Bool
  | .opt _ _ => true
  | _ => false

/-- argparse.py:1907-1930 -/
def classify (P : Parser) : List Str → Run (List Tok)
  | [] => .ok []
  | s :: ss =>
    if s = lit! "--" then .ok (.dashes :: ss.map .arg)
    else do
      let t ← parseOptional P s
      let ts ← classify P ss
      return (match t with
        | some t => .opt s t
        | none => .arg s) :: ts

end

/-- what has been parsed so far: the namespace, the actions taken, the positional arguments that are left, and what was not recognised -/
structure St where
  ns : Dict Str Val
  seen : List Nat
  pos : List Nat
  extras : List Str

/-- argparse.py:2491-2554 `_get_values` with `_check_value` -/
def getValues (a : Action) (args : List Str) : Run Value :=
  let args := if a.opts = [] ∧ a.nargs ≠ .remainder then args.erase (lit! "--") else args
  let fine := fun s => match a.choices with
    | none => true
    | some cs => decide (s ∈ cs)
  match a.nargs with
  | .remainder => .ok (.many args)
  | .one => match args with
    | [s] => if fine s then .ok (.one s) else .error .usage
    | _ => if args.all fine then .ok (.many args) else .error .usage
  | _ => if args.all fine then .ok (.many args) else .error .usage

/-- the actions (argparse.py:958-1125, xigt_query.py:145-149) -/
def act (a : Action) (v : Value) (ns : Dict Str Val) : Run (Dict Str Val) :=
  match a.kind with
  | .store => .ok (ns.set a.dest (match v with
    | .one s => .str s
    | .many l => .list l))
  | .const c => .ok (ns.set a.dest c)
  | .append => .ok (ns.set a.dest (.list ((match ns.get? a.dest with
    | some (.list l) => l
    | _ => []) ++ (match v with
      | .one s => [s]
      | .many l => l))))
  | .count => .ok (ns.set a.dest (.nat ((match ns.get? a.dest with
    | some (.nat n) => n
    | _ => 0) + 1)))
  | .help => .error .help
  | .agenda => .ok (ns.set (lit! "agenda") (.agenda ((match ns.get? (lit! "agenda") with
    | some (.agenda l) => l
    | _ => []) ++ [(a.dest, v)])))

/-- argparse.py:1939-1957 `take_action` -/
def takeAction (P : Parser) (st : St) (i : Nat) (args : List Str) : Run St :=
  match P.actions[i]? with
  | none => .error .usage
  | some a => do
    let v ← getValues a args
    if P.groups.any (fun g => decide (i ∈ g) && g.any fun j => decide (j ≠ i) && decide (j ∈ st.seen)) then .error .usage
    else
      let ns ← act a v st.ns
      return { st with ns := ns, seen := i :: st.seen }

/-- argparse.py: `take_action` for each of the actions -/
def takeAll (P : Parser) : St → List (Nat × List Str) → Run St
  | st, [] => .ok st
  | st, (i, args) :: l => do
    let st ← takeAction P st i args
    takeAll P st l

/-- the number of arguments of an option -/
def Parser.number (P : Parser) (i : Nat) : Nat :=
  match P.actions[i]? with
  | some a => (match a.nargs with
    | .one => 1
    | .num n => n
    | _ => 0)
  | none => 0

/-- what an argument that begins with an option says: the actions with their arguments, an option that takes its arguments from what follows, and
what was not recognised -/
structure Glued where
  acts : List (Nat × List Str)
  open' : Option Nat := none
  extra : Option Str := none

/-- argparse.py:1962-2010: the loop of `consume_optional` while there is an explicit argument `e`; `long`: the option begins with `--` -/
def glued (P : Parser) (i : Nat) (long : Bool) (eq : Bool) : Str → Run Glued
  | [] => if P.number i = 1 then .ok ⟨[(i, [[]])], none, none⟩ else .error .usage
  | c :: e =>
    if P.number i = 1 then .ok ⟨[(i, [c :: e])], none, none⟩
    else if P.number i ≠ 0 ∨ long = true then .error .usage
    else if eq = true ∨ c = '-' then .error .usage
    else match P.find ['-', c] with
      | none => .ok ⟨[(i, [])], none, some ('-' :: c :: e)⟩
      | some j => (match e with
        | [] => .ok ⟨[(i, [])], some j, none⟩
        | '=' :: e' => do
          let g ← glued P j false true e'
          return { g with acts := (i, []) :: g.acts }
        | d :: e' => do
          let g ← glued P j false false (d :: e')
          return { g with acts := (i, []) :: g.acts })

/-- the arguments of an option (`_match_argument` with the pattern `(A...A)`) -/
def takeArgs : Nat → List Tok → Option (List Str × List Tok)
  | 0, ts => some ([], ts)
  | n + 1, .arg s :: ts => (takeArgs n ts).map fun r => (s :: r.1, r.2)
  | _ + 1, _ => none

/-- argparse.py:1962-2010: what an argument says -/
def said (P : Parser) (t : OptTuple) (i : Nat) : Run Glued :=
  match t.arg with
  | none => .ok ⟨[], some i, none⟩
  | some e => glued P i ((lit! "--").isPrefixOf t.str) (decide (t.sep = some (lit! "="))) e

/-- argparse.py:1959-2033 `consume_optional`; `s` is the argument -/
def consumeOptional (P : Parser) (st : St) (s : Str) (t : OptTuple) (ts : List Tok) : Run (St × List Tok) :=
  match t.action with
  | none => .ok ({ st with extras := st.extras ++ [s] }, ts)
  | some i => do
    let g ← said P t i
    match g.open' with
    | none =>
      let st ← takeAll P { st with extras := st.extras ++ g.extra.toList } g.acts
      return (st, ts)
    | some j =>
      match takeArgs (P.number j) ts with
      | none => .error .usage
      | some (args, ts') =>
        let st ← takeAll P st (g.acts ++ [(j, args)])
        return (st, ts')

/-- argparse.py:2311-2358 `_get_nargs_pattern` for positional arguments, as group `n` -/
def nargsRe (n : Nat) : Nargs → Re
  | .one => .grp n (.cat [.star (.chr '-'), .chr 'A', .star (.chr '-')])
  | .star => .grp n (.cat [.star (.chr '-'), .star (.cls fun c => c == 'A' || c == '-')])
  | .plus => .grp n (.cat [.star (.chr '-'), .chr 'A', .star (.cls fun c => c == 'A' || c == '-')])
  | .remainder => .grp n (.star (.cls fun c => c == '-' || c == 'A' || c == 'O'))
  | .num k => .grp n (.cat ([.star (.chr '-')] ++ (List.replicate k [.chr 'A', .star (.chr '-')]).flatten))

/-- `nargs` of an action -/
def Parser.nargs (P : Parser) (i : Nat) : Nargs := ((P.actions[i]?).map fun a => a.nargs).getD .one

/-- argparse.py:2200-2215 `_match_arguments_partial`, for the first `k` actions and fewer -/
def matchPartial (ns : List Nargs) (s : Str) : Nat → List Nat
  | 0 => []
  | k + 1 =>
    match (Re.cat ((ns.take (k + 1)).zipIdx.map fun p => nargsRe p.2 p.1)).match? s with
    | some m => (List.range (k + 1)).map fun n => (m.2.group n).length
    | none => matchPartial ns s k

/-- argparse.py:2045-2054: the positional arguments with their arguments -/
def takePositionals (P : Parser) : St → List (Nat × Nat) → List Tok → Run (St × List Tok)
  | st, [], ts => .ok (st, ts)
  | st, (i, n) :: l, ts => do
    let st ← takeAction P st i ((ts.take n).map Tok.text)
    takePositionals P st l (ts.drop n)

/-- argparse.py:2039-2059 `consume_positionals` -/
def consumePositionals (P : Parser) (st : St) (ts : List Tok) : Run (St × List Tok) :=
  let counts := matchPartial (st.pos.map P.nargs) (ts.map Tok.letter) st.pos.length
  takePositionals P { st with pos := st.pos.drop counts.length } (st.pos.zip counts) ts

/-- argparse.py:2063-2096: the loop, to the last option; every round takes at least one argument, so that their number is enough as `fuel` -/
def optionLoop (P : Parser) : Nat → St → List Tok → Run (St × List Tok)
  | 0, st, ts => .ok (st, ts)
  | fuel + 1, st, ts =>
    if ts.any Tok.isOpt then
      match ts with
      | .opt s t :: ts' => do
        let r ← consumeOptional P st s t ts'
        optionLoop P fuel r.1 r.2
      | _ => do
        let r ← consumePositionals P st ts
        if r.2.length < ts.length then optionLoop P fuel r.1 r.2
        else
          let st := { r.1 with extras := r.1.extras ++ (r.2.takeWhile fun t => !t.isOpt).map Tok.text }
          match r.2.dropWhile fun t => !t.isOpt with
          | .opt s t :: ts' => do
            let r ← consumeOptional P st s t ts'
            optionLoop P fuel r.1 r.2
          | ts' => .ok (st, ts')
    else .ok (st, ts)

/-- argparse.py:1881-1890: the defaults -/
def Parser.defaults (P : Parser) : Dict Str Val :=
  P.actions.foldl (fun ns a => if a.kind = .help ∨ ns.has a.dest = true then ns else ns.set a.dest a.default) []

/-- argparse.py:1549-1563: positional arguments are required here, since none has a default -/
def Action.must (a : Action) : Bool := a.required || a.opts.isEmpty

/-- the positional arguments -/
def Parser.positionals (P : Parser) : List Nat := (P.actions.zipIdx.filter fun a => a.1.opts.isEmpty).map Prod.snd

/-- argparse.py:2098-2174, and `parse_args` (argparse.py:1867-1872): what follows the last option; then all that is required must be there, and
nothing unrecognised -/
def finish (P : Parser) (r : St × List Tok) : Run (Dict Str Val) := do
  let r ← consumePositionals P r.1 r.2
  if P.actions.zipIdx.any fun a => a.1.must && !decide (a.2 ∈ r.1.seen) then .error .usage
  else if r.1.extras ++ r.2.map Tok.text = [] then .ok r.1.ns
  else .error .usage

/-- argparse.py:1867-2174 `parse_args` with `_parse_known_args`: the namespace, or how the program ends -/
def parseArgs [Uni] (P : Parser) (argv : List Str) : Run (Dict Str Val) := do
  let ts ← classify P argv
  let r ← optionLoop P ts.length ⟨P.defaults, [], P.positionals, []⟩ ts
  finish P r

end Xigt.Cmd
