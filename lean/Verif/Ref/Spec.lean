import Verif.Ref.Model
/-
What a well-formed reference expression is and what it denotes, independently of the regular
expressions in ref.py.  (Only the character properties of `Uni` and Python slicing are shared with the model.)
-/

namespace Xigt
variable [Uni]

/-- an ASCII letter -/
def letter (c : Char) : Bool :=
  ('A'.toNat ≤ c.toNat && c.toNat ≤ 'Z'.toNat) || ('a'.toNat ≤ c.toNat && c.toNat ≤ 'z'.toNat)
/-- a character that may continue an ID: a word character (letter, digit, `_`), `-`, or `.` -/
def idChar (c : Char) : Bool := c == '-' || c == '.' || Uni.isWord c

/-- an XML-style ID: a letter followed by letters, digits, `_`, `-`, `.` -/
def IdOK (i : Str) : Prop :=
  ∃ c cs, i = c :: cs ∧ letter c = true ∧ ∀ x ∈ cs, idChar x = true

/-- a (possibly negative) decimal numeral -/
structure Num where
  neg : Bool
  digits : Str

def Num.OK (n : Num) : Prop := n.digits ≠ [] ∧ ∀ c ∈ n.digits, (Uni.digit c).isSome = true
def Num.render (n : Num) : Str := (if n.neg then ['-'] else []) ++ n.digits
/-- decimal value of a digit string -/
def decVal (ds : Str) : Nat := ds.foldl (fun acc c => 10 * acc + (Uni.digit c).getD 0) 0
def Num.value (n : Num) : Int := if n.neg then -(decVal n.digits : Int) else decVal n.digits

/-- a span `a:b` -/
structure SpanE where
  a : Num
  b : Num

def SpanE.OK (s : SpanE) : Prop := s.a.OK ∧ s.b.OK
def SpanE.render (s : SpanE) : Str := s.a.render ++ ':' :: s.b.render

/-- the spans of a selection: a first span and further ones with their delimiters -/
structure RangeE where
  head : SpanE
  tail : List (Char × SpanE)

/-- a delimiter character: not part of an ID and not one of `:` `[` `]` or newline;
`+`, `,` and space are such -/
def DelimOK (d : Char) : Prop :=
  idChar d = false ∧ d ≠ ':' ∧ d ≠ '[' ∧ d ≠ ']' ∧ d ≠ '\n'

def RangeE.OK (r : RangeE) : Prop := r.head.OK ∧ ∀ p ∈ r.tail, DelimOK p.1 ∧ p.2.OK
def RangeE.render (r : RangeE) : Str :=
  r.head.render ++ r.tail.flatMap fun p => p.1 :: p.2.render

/-- a selection: an ID, optionally with spans -/
structure Sel where
  id : Str
  range : Option RangeE

def Sel.OK (s : Sel) : Prop := IdOK s.id ∧ ∀ r, s.range = some r → r.OK
/-- the bracketed spans -/
def Sel.rangeStr (s : Sel) : Str :=
  match s.range with
  | none => []
  | some r => '[' :: (r.render ++ [']'])
def Sel.render (s : Sel) : Str := s.id ++ s.rangeStr

/-- a separator between selections: non-empty, without letters and newlines, and not beginning
with something that would continue the preceding selection -/
def SepOK (s : Str) : Prop :=
  (∃ c cs, s = c :: cs ∧ idChar c = false ∧ c ≠ '[') ∧
  ∀ c ∈ s, letter c = false ∧ c ≠ '\n'

/-- a separator that merely keeps IDs apart (any white space, including newlines) -/
def IdSepOK (s : Str) : Prop :=
  (∃ c cs, s = c :: cs ∧ idChar c = false) ∧ ∀ c ∈ s, letter c = false

/-- a reference expression: selections with separators between them -/
structure Expr where
  head : Sel
  tail : List (Str × Sel)

/-- well-formed, arbitrary separators (covers space separated ID lists) -/
def Expr.OK (e : Expr) : Prop := e.head.OK ∧ ∀ p ∈ e.tail, SepOK p.1 ∧ p.2.OK
/-- well-formed with one-character delimiters (such as `+` and `,`) -/
def Expr.Simple (e : Expr) : Prop :=
  e.head.OK ∧ ∀ p ∈ e.tail, (∃ d, p.1 = [d] ∧ DelimOK d) ∧ p.2.OK
def Expr.render (e : Expr) : Str := e.head.render ++ e.tail.flatMap fun p => p.1 ++ p.2.render

/-- the selections in order, without separators -/
def Expr.sels (e : Expr) : List Sel := e.head :: e.tail.map Prod.snd

/-! ### Expected results -/

/-- IDs in order -/
def Expr.ids (e : Expr) : List Str := e.sels.map Sel.id

/-- selections and separators in order -/
def Expr.tokens (e : Expr) : List Str :=
  e.head.render :: e.tail.flatMap fun p => [p.1, p.2.render]

/-- one selection as single-span selections: the first, and the others with their delimiters -/
def Sel.split (s : Sel) : Sel × List (Str × Sel) :=
  match s.range with
  | none => (s, [])
  | some r => (⟨s.id, some ⟨r.head, []⟩⟩, r.tail.map fun p => ([p.1], ⟨s.id, some ⟨p.2, []⟩⟩))

/-- every selection split into single spans -/
def Expr.split (e : Expr) : Expr :=
  ⟨e.head.split.1, e.head.split.2 ++ e.tail.flatMap fun p => (p.1, p.2.split.1) :: p.2.split.2⟩

/-- no selection has more than one span -/
def Expr.IsSplit (e : Expr) : Prop := ∀ s ∈ e.sels, ∀ r, s.range = some r → r.tail = []

/-- merge a tail into a current selection: adjacent span selections of the same ID are joined;
delimiters are single characters -/
def mergeTail : Sel → List (Str × Sel) → Expr
  | s, [] => ⟨s, []⟩
  | s, (d, t) :: rest =>
    match s.range, t.range, d with
    | some r, some q, [c] =>
      if s.id = t.id then mergeTail ⟨s.id, some ⟨r.head, r.tail ++ (c, q.head) :: q.tail⟩⟩ rest
      else let m := mergeTail t rest; ⟨s, (d, m.head) :: m.tail⟩
    | _, _, _ => let m := mergeTail t rest; ⟨s, (d, m.head) :: m.tail⟩

/-- adjacent span selections of the same ID merged -/
def Expr.merge (e : Expr) : Expr := mergeTail e.head e.tail

/-- no two adjacent selections that could be merged -/
def Mergeable (s t : Sel) : Prop := s.id = t.id ∧ s.range.isSome = true ∧ t.range.isSome = true
def Expr.IsMerged (e : Expr) : Prop :=
  ∀ l s t r, e.sels = l ++ s :: t :: r → ¬ Mergeable s t

/-- selections that could be merged (spans of one ID) are joined by a one-character delimiter -/
def JoinOK : Sel → List (Str × Sel) → Prop
  | _, [] => True
  | s, (d, t) :: rest => (Mergeable s t → ∃ c, d = [c] ∧ DelimOK c) ∧ JoinOK t rest

/-- well-formed: any selections joined by `+` or `,`, and lists of IDs with arbitrary separators -/
def Expr.WF (e : Expr) : Prop := e.OK ∧ JoinOK e.head e.tail

/-- The IDs of an arbitrary string, left to right: skip what is not a letter, then take a maximal
ID. -/
inductive IdSplit : Str → List Str → Prop
  | nil : IdSplit [] []
  | skip {c s l} : letter c = false → IdSplit s l → IdSplit (c :: s) l
  | take {i s l} : IdOK i → (∀ c cs, s = c :: cs → idChar c = false) → IdSplit s l →
      IdSplit (i ++ s) (i :: l)

/-! ### Denotation -/

/-- text standing for a delimiter: a comma is a space, anything else nothing -/
def sepText (d : Str) : Str := if d = [','] then [' '] else []

/-- the part of a value selected by a span -/
def SpanE.select (s : SpanE) (v : Str) : Str := pySlice v (some s.a.value) (some s.b.value)

/-- text selected from an item value -/
def Sel.select (s : Sel) (v : Str) : Str :=
  match s.range with
  | none => v
  | some r => r.head.select v ++ r.tail.flatMap fun p => sepText [p.1] ++ p.2.select v

/-- the text of one selection; `get i` is the item's value (or why it has none), if it exists -/
def Sel.denote (get : Str → Option (Py (Option Str))) (s : Sel) : Py Str :=
  match get s.id with
  | none => .error .xigtStructureError
  | some (.error e) => .error e
  | some (.ok v) => .ok (s.select (v.getD []))

def denoteTail (get : Str → Option (Py (Option Str))) : List (Str × Sel) → Py Str
  | [] => .ok []
  | (d, s) :: rest => do
    let a ← s.denote get
    let b ← denoteTail get rest
    .ok (sepText d ++ a ++ b)

/-- the text denoted by an expression: texts of the selections joined by the texts of the
delimiters; the first failing selection decides the error -/
def Expr.denote (get : Str → Option (Py (Option Str))) (e : Expr) : Py Str := do
  let a ← e.head.denote get
  let b ← denoteTail get e.tail
  .ok (a ++ b)

end Xigt
