import Verif.Py
/-
Python format strings (`str.format`, `string.Formatter`), and the formatter of
/repo/xigt/scripts/xigt_query.py:15-42.

The reading of format strings follows CPython (`MarkupIterator_next` and `parse_field` in
Objects/stringlib/unicode_format.h, `Formatter._vformat` in Lib/string.py).

Simplifications: only keyword arguments are known; what a value gives for the attributes and indices,
the conversion and the specification of a field is a function (`Val`); `str.isdigit` and the exception
for a name that is not known (KeyError, or IndexError for a number) are parameters; if more than one
thing is wrong with one field, the exception may be another one.
-/

namespace Xigt.Fmt

/-- a value: its text for what follows the name in a field (`.x`, `[x]`), the conversion and the specification -/
abbrev Val := Str → Option Char → Str → Py Str

/-- what is not modelled of Python -/
structure Env where
  /-- `str.isdigit` -/
  isdigit : Str → Bool
  /-- the exception for a name that is not known -/
  unknown : Str → PyErr

/-- a field: name, conversion, specification -/
structure Field where
  name : Str
  conv : Option Char
  spec : Str
  deriving DecidableEq

/-- what `parse` yields: literal text and possibly a field -/
structure Tok where
  lit : Str
  field : Option Field
  deriving DecidableEq

/-- puts a character before the first component -/
def push {α : Type} (c : Char) : Py (Str × α) → Py (Str × α)
  | .ok (s, r) => .ok (c :: s, r)
  | .error e => .error e

/-- the name of a field, the character that ends it and the rest; between `[` and `]` everything belongs to the name -/
def nameLoop : Bool → Str → Py (Str × Char × Str)
  | _, [] => .error .valueError
  | true, c :: cs => push c (nameLoop (c != ']') cs)
  | false, c :: cs =>
    if c = '{' then .error .valueError
    else if c = '}' ∨ c = ':' ∨ c = '!' then .ok ([], c, cs)
    else push c (nameLoop (c == '[') cs)

/-- the specification up to the brace that ends the field, and the rest; `n` counts open braces -/
def specLoop : Nat → Str → Py (Str × Str)
  | _, [] => .error .valueError
  | n, c :: cs =>
    if c = '{' then push c (specLoop (n + 1) cs)
    else if c = '}' then
      if n = 0 then .ok ([], cs) else push c (specLoop (n - 1) cs)
    else push c (specLoop n cs)

/-- a field after its opening brace, and the rest -/
def parseField (cs : Str) : Py (Field × Str) :=
  match nameLoop false cs with
  | .error e => .error e
  | .ok (name, c, r) =>
    if c = '}' then .ok (⟨name, none, []⟩, r)
    else if c = ':' then
      match specLoop 0 r with
      | .error e => .error e
      | .ok (s, r) => .ok (⟨name, none, s⟩, r)
    else match r with
      | [] => .error .valueError
      | [_] => .error .valueError
      | v :: d :: r =>
        if d = '}' then .ok (⟨name, some v, []⟩, r)
        else if d = ':' then
          match specLoop 0 r with
          | .error e => .error e
          | .ok (s, r) => .ok (⟨name, some v, s⟩, r)
        else .error .valueError

/-- a character that `parse` keeps -/
def notBrace (c : Char) : Bool := c != '{' && c != '}'

/-- one step of `parse` on a string that is not empty, and the rest -/
def next (cs : Str) : Py (Tok × Str) :=
  match cs.dropWhile notBrace with
  | [] => .ok (⟨cs.takeWhile notBrace, none⟩, [])
  | [_] => .error .valueError
  | c :: d :: r =>
    if c = d then .ok (⟨cs.takeWhile notBrace ++ [c], none⟩, r)
    else if c = '}' then .error .valueError
    else match parseField (d :: r) with
      | .error e => .error e
      | .ok (f, r) => .ok (⟨cs.takeWhile notBrace, some f⟩, r)

/-- `parse`; `n` bounds the length -/
def parseN : Nat → Str → Py (List Tok)
  | 0, _ => .ok []
  | _ + 1, [] => .ok []
  | n + 1, c :: cs =>
    match next (c :: cs) with
    | .error e => .error e
    | .ok (t, r) =>
      match parseN n r with
      | .error e => .error e
      | .ok ts => .ok (t :: ts)

/-- `Formatter.parse`: each step uses up a character -/
def parse (s : Str) : Py (List Tok) := parseN s.length s

/-- the first part of a name and the rest: up to `.` or `[` -/
def first (name : Str) : Str := name.takeWhile fun c => c != '[' && c != '.'
/-- the rest of a name -/
def rest (name : Str) : Str := name.dropWhile fun c => c != '[' && c != '.'

/-- the text of a field; `expand` formats the specification -/
def fieldText (env : Env) (expand : Str → Py Str) (args : Dict Str Val) (f : Field) : Py Str :=
  match Dict.get? args (first f.name) with
  | none => .error (env.unknown (first f.name))
  | some v =>
    match expand f.spec with
    | .error e => .error e
    | .ok s => v (rest f.name) f.conv s

/-- the text of what `parse` yields -/
def tokText (env : Env) (expand : Str → Py Str) (args : Dict Str Val) (t : Tok) : Py Str :=
  match t.field with
  | none => .ok t.lit
  | some f =>
    match fieldText env expand args f with
    | .error e => .error e
    | .ok s => .ok (t.lit ++ s)

/-- formatting; parsing and formatting take turns -/
def fmtN (env : Env) (expand : Str → Py Str) (args : Dict Str Val) : Nat → Str → Py Str
  | 0, _ => .ok []
  | _ + 1, [] => .ok []
  | n + 1, c :: cs =>
    match next (c :: cs) with
    | .error e => .error e
    | .ok (t, r) =>
      match tokText env expand args t with
      | .error e => .error e
      | .ok s =>
        match fmtN env expand args n r with
        | .error e => .error e
        | .ok s' => .ok (s ++ s')

/-- `Formatter._vformat` with recursion depth `d - 1`; specifications are always formatted -/
def vformatD (env : Env) (args : Dict Str Val) : Nat → Str → Py Str
  | 0, _ => .error .valueError
  | d + 1, s => fmtN env (vformatD env args d) args s.length s

/-- `Formatter.vformat` -/
def vformat (env : Env) (args : Dict Str Val) (s : Str) : Py Str := vformatD env args 3 s

/-- `build_string` of `str.format` with recursion depth `d`; specifications with braces are formatted -/
def strFormatD (env : Env) (args : Dict Str Val) : Nat → Str → Py Str
  | 0, _ => .error .valueError
  | d + 1, s => fmtN env (fun t => if '{' ∈ t then strFormatD env args d t else .ok t) args s.length s

/-- `s.format(**args)` -/
def strFormat (env : Env) (args : Dict Str Val) (s : Str) : Py Str := strFormatD env args 2 s

/-- xigt_query.py:21: `lit.replace('{', '{{').replace('}', '}}')` -/
def esc (s : Str) : Str := s.flatMap fun c => if c = '{' ∨ c = '}' then [c, c] else [c]

/-- a field between its braces (xigt_query.py:27-28, 36-39) -/
def Field.inner (f : Field) : Str :=
  f.name ++ (match f.conv with | none => [] | some c => ['!', c]) ++ (if f.spec = [] then [] else ':' :: f.spec)

/-- xigt_query.py:19-39: a part of the format string, put back -/
def safeTok (env : Env) (keys : List Str) (t : Tok) : Str :=
  match t.field with
  | none => esc t.lit
  | some f =>
    if first f.name = [] ∨ env.isdigit (first f.name) = true ∨ first f.name ∈ keys then
      esc t.lit ++ '{' :: f.inner ++ ['}']
    else esc t.lit ++ lit! "{{" ++ f.inner ++ lit! "}}"

/-- xigt_query.py:16-42 `SafeFormatter.vformat` -/
def safeFormat (env : Env) (args : Dict Str Val) (s : Str) : Py Str :=
  match parse s with
  | .error e => .error e
  | .ok ts => vformat env args (ts.flatMap (safeTok env (Dict.keys args)))

end Xigt.Fmt
