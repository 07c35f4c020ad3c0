import Verif.Py
/-
A backtracking matcher with the priority order of Python's `re` (CPython `_sre`), restricted to
the constructs occurring in the patterns of /repo: character classes, sequence, alternation,
greedy and lazy repetition, groups, `^`, `$`.

Not from /repo; part of the trusted reading of Python.  No flags (MULTILINE, DOTALL, ...) are
modelled because the modelled patterns use none: `^` matches only at the start, `$` at the end or
before a final newline, `.` everything but a newline (a character class here).

Bodies of repetitions in the modelled patterns never match the empty string; the matcher requires
each repetition to make progress, which is then no restriction.
-/

namespace Xigt

/-- Regular expressions -/
inductive Re where
  | cls (p : Char → Bool)      -- one character of a class
  | eps                        -- empty
  | seq (a b : Re)
  | alt (a b : Re)             -- `a|b`, left first
  | star (a : Re)              -- `a*`
  | starLazy (a : Re)          -- `a*?`
  | grp (n : Nat) (a : Re)     -- `(a)`, group number n
  | bos                        -- `^`
  | eos                        -- `$`

namespace Re
/-- literal character -/
def chr (c : Char) : Re := cls (· == c)
/-- `a+` -/
def plus (a : Re) : Re := seq a (star a)
/-- `a+?` -/
def plusLazy (a : Re) : Re := seq a (starLazy a)
/-- `a?` -/
def opt (a : Re) : Re := alt a eps
/-- literal string -/
def str : Str → Re
  | [] => eps
  | [c] => chr c
  | c :: cs => seq (chr c) (str cs)
/-- sequence of several -/
def cat : List Re → Re
  | [] => eps
  | [r] => r
  | r :: rs => seq r (cat rs)
end Re

/-- matcher state: at position 0?, remaining input, captured groups (latest first) -/
structure MSt where
  bol : Bool
  rest : Str
  caps : List (Nat × Str)

/-- text captured by a group; Python's `findall` gives `''` for a group that did not take part -/
def MSt.group (m : MSt) (n : Nat) : Str :=
  match m.caps.find? (·.1 == n) with
  | some p => p.2
  | none => []

/-- whether a group took part in the match -/
def MSt.hasGroup (m : MSt) (n : Nat) : Bool := (m.caps.find? (·.1 == n)).isSome

/-- `f` repeated, in priority order (greedy: more first). `fuel` bounds the repetitions; each makes
progress so `rest.length` is enough. -/
def starRun (f : MSt → List (Str × MSt)) (greedy : Bool) : Nat → MSt → List (Str × MSt)
  | 0, st => [([], st)]
  | fuel + 1, st =>
    let more := ((f st).filter (fun x => !x.1.isEmpty)).flatMap fun x =>
      (starRun f greedy fuel x.2).map fun y => (x.1 ++ y.1, y.2)
    if greedy then more ++ [([], st)] else ([], st) :: more

/-- all matches at a state in priority order: consumed text and resulting state -/
def Re.run : Re → MSt → List (Str × MSt)
  | .cls p, st => match st.rest with
    | [] => []
    | c :: cs => if p c then [([c], { st with bol := false, rest := cs })] else []
  | .eps, st => [([], st)]
  | .seq a b, st => (a.run st).flatMap fun x => (b.run x.2).map fun y => (x.1 ++ y.1, y.2)
  | .alt a b, st => a.run st ++ b.run st
  | .star a, st => starRun a.run true st.rest.length st
  | .starLazy a, st => starRun a.run false st.rest.length st
  | .grp n a, st => (a.run st).map fun x => (x.1, { x.2 with caps := (n, x.1) :: x.2.caps })
  | .bos, st => if st.bol then [([], st)] else []
  | .eos, st => if st.rest = [] ∨ st.rest = ['\n'] then [([], st)] else []

/-- `pattern.match(s)` : first match at the start -/
def Re.match? (r : Re) (s : Str) : Option (Str × MSt) := (r.run ⟨true, s, []⟩).head?

/-- first match at a position; `must` excludes the empty match (set after an empty match,
CPython's `must_advance`) -/
def Re.matchAt (r : Re) (bol : Bool) (s : Str) (must : Bool) : Option (Str × MSt) :=
  ((r.run ⟨bol, s, []⟩).filter (fun x => !must || !x.1.isEmpty)).head?

/-- The scanning loop of `findall`/`finditer`/`split`/`sub` (CPython >= 3.7): yields for every
match the skipped text, the matched text and the state; at the end the unmatched tail.
`fuel` is taken as `2 * length + 2`, which is enough (`scan_unfold`). -/
def Re.scanAux (r : Re) : Nat → Bool → Str → Bool → Str → List (Str × Str × MSt) × Str
  | 0, _, s, _, skip => ([], skip ++ s)
  | fuel + 1, bol, s, must, skip =>
    match r.matchAt bol s must with
    | some (c, st) =>
      let (ms, tl) := Re.scanAux r fuel (bol && c.isEmpty) st.rest c.isEmpty []
      ((skip, c, st) :: ms, tl)
    | none => match s with
      | [] => ([], skip)
      | x :: xs => Re.scanAux r fuel false xs false (skip ++ [x])

/-- complete scan of a string -/
def Re.scan (r : Re) (s : Str) : List (Str × Str × MSt) × Str :=
  Re.scanAux r (2 * s.length + 2) true s false []

/-- matches of `finditer` : matched text and groups -/
def Re.findAll (r : Re) (s : Str) : List (Str × MSt) := (r.scan s).1.map fun m => m.2

end Xigt
