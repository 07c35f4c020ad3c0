import Verif.Regex
/- Model of the string operations of /repo/xigt/ref.py (lines 1-210) and its deprecated helpers
(lines 288-352). -/

namespace Xigt
variable [Uni]

/-- `[a-zA-Z]` -/
def isLetter (c : Char) : Bool :=
  (65 ≤ c.toNat && c.toNat ≤ 90) || (97 ≤ c.toNat && c.toNat ≤ 122)
/-- `[-.\w]` -/
def isIdChar (c : Char) : Bool := c == '-' || c == '.' || Uni.isWord c
/-- `[.\d]` -/
def isNumChar (c : Char) : Bool := c == '.' || Uni.isDigit c
/-- `[^-.:\d]` -/
def isSpanDelim (c : Char) : Bool := !(c == '-' || c == '.' || c == ':' || Uni.isDigit c)
/-- `.` -/
def isAny (c : Char) : Bool := c != '\n'
/-- `[^-a-zA-Z:.]` -/
def isSelDelim (c : Char) : Bool := !(c == '-' || isLetter c || c == ':' || c == '.')

/-- ref.py:13 `id_re = [a-zA-Z][-.\w]*` -/
def idRe : Re := .seq (.cls isLetter) (.star (.cls isIdChar))

/-- mixins.py:214-217: whether the `id` setter accepts a string (`id_re.match(value)`) -/
def idAccepted (s : Str) : Bool := (idRe.match? s).isSome

/-- ref.py:14 `reflist_re = ^\s*([a-zA-Z][-.\w]*)(\s+[a-zA-Z][-.\w]*)*\s*$` -/
def reflistRe : Re := .cat [.bos, .star (.cls Uni.isSpace), .grp 1 idRe,
  .star (.grp 2 (.seq (.plus (.cls Uni.isSpace)) idRe)), .star (.cls Uni.isSpace), .eos]

/-- `-?[.\d]+` -/
def numRe : Re := .seq (.opt (.chr '-')) (.plus (.cls isNumChar))

/-- `[^-.:\d]?-?[.\d]+:-?[.\d]+` (ref.py:19) -/
def rangeUnitRe : Re := .seq (.opt (.cls isSpanDelim)) (.seq numRe (.seq (.chr ':') numRe))

/-- `\[((?:[^-.:\d]?-?[.\d]+:-?[.\d]+)+)\]` (ref.py:19) -/
def rangeRe : Re := .seq (.chr '[') (.seq (.grp 3 (.plus rangeUnitRe)) (.chr ']'))

/-- ref.py:16-20
`robust_ref_re = (^|.+?)($|[a-zA-Z][\-.\w]*)(?:$|\[((?:[^-.:\d]?-?[.\d]+:-?[.\d]+)+)\])?` -/
def robustRefRe : Re :=
  .seq (.grp 1 (.alt .bos (.plusLazy (.cls isAny))))
    (.seq (.grp 2 (.alt .eos idRe)) (.opt (.alt .eos rangeRe)))

/-- ref.py:21-25 `selection_re = (^|[^-a-zA-Z:.])([a-zA-Z][-.\w]*)(?:\[([^\]]*)\])?` -/
def selectionRe : Re :=
  .seq (.grp 1 (.alt .bos (.cls isSelDelim)))
    (.seq (.grp 2 idRe)
      (.opt (.seq (.chr '[') (.seq (.grp 3 (.star (.cls (· != ']')))) (.chr ']')))))

/-- ref.py:26 `span_re = ([^-.:\d])?(-?[.\d]+):(-?[.\d]+)` -/
def spanRe : Re :=
  .seq (.opt (.grp 1 (.cls isSpanDelim)))
    (.seq (.grp 2 numRe) (.seq (.chr ':') (.grp 3 numRe)))

/-- `findall` of a pattern with three groups: the triples of group texts -/
def findTriples (r : Re) (s : Str) : List (Str × Str × Str) :=
  (r.findAll s).map fun m => (m.2.group 1, m.2.group 2, m.2.group 3)

/-- ref.py:28-31 `delimiters.get(d, '')` with `delimiters = {',': ' ', '+': ''}` -/
def delimText (d : Str) : Str :=
  if d = [','] then [' '] else if d = ['+'] then [] else []

/-- `'{}[{}:{}]'.format(_id, start, end)` -/
def spanStr (i a b : Str) : Str := i ++ '[' :: (a ++ ':' :: (b ++ [']']))

/-- ref.py:36-62 `expand` -/
def expand (e : Str) : Str :=
  (findTriples robustRefRe e).flatMap fun t =>
    let (pre, i, rng) := t
    if rng = [] then pre ++ i
    else pre ++ (findTriples spanRe rng).flatMap fun u => u.1 ++ spanStr i u.2.1 u.2.2

/-- ref.py:90-92 and 99-101: closing a pending selection -/
def finishC : Str × Option Str → Str
  | (tokens, some s) => tokens ++ s ++ [']']
  | (tokens, none) => tokens

/-- loop of `compress` (ref.py:86-98): `tokens` and `selection` are kept as concatenated strings
(`selection = []` is `none`); both are only ever joined or tested for emptiness. -/
def compressLoop : List (Str × Str × Str) → Str → Option Str → Option Str → Str × Option Str
  | [], tokens, selection, _ => (tokens, selection)
  | (pre, i, rng) :: ts, tokens, selection, lastId =>
    if rng ≠ [] ∧ some i = lastId then
      compressLoop ts tokens (some (selection.getD [] ++ pre ++ rng)) lastId
    else
      let tokens := finishC (tokens, selection) ++ pre ++ i
      if rng ≠ [] then compressLoop ts tokens (some ('[' :: rng)) (some i)
      else compressLoop ts tokens none none

/-- ref.py:65-101 `compress` -/
def compress (e : Str) : Str :=
  finishC (compressLoop (findTriples robustRefRe e) [] none none)

/-- ref.py:104-134 `selections` -/
def selections (e : Str) (keep : Bool := true) : List Str :=
  (findTriples robustRefRe e).flatMap fun t =>
    let (pre, i, rng) := t
    (if keep = true ∧ pre ≠ [] then [pre] else []) ++
    (if i ≠ [] then [if rng ≠ [] then i ++ '[' :: (rng ++ [']']) else i] else [])

/-- ref.py:138-159 `spans` -/
def spans (e : Str) (keep : Bool := true) : List Str := selections (expand e) keep

/-- ref.py:162-176 `ids` -/
def ids (e : Str) : List Str := ((idRe.findAll e).map (·.1)).filter (· ≠ [])

/-- ref.py:201-207: the spans of one range -/
def resolveSpans (value : Str) : List (Str × Str × Str) → Py Str
  | [] => .ok []
  | (d, a, b) :: us => do
    let lo ← if a = [] then pure none else (pyInt a).map some
    let hi ← if b = [] then pure none else (pyInt b).map some
    let tl ← resolveSpans value us
    .ok (delimText d ++ pySlice value lo hi ++ tl)

/-- ref.py:189-209: the selections. `get i` is `itemgetter(i)`: `none` if there is no such item,
otherwise the outcome of the item's `value()`. -/
def resolveSels (get : Str → Option (Py (Option Str))) : List (Str × Str × Str) → Py Str
  | [] => .ok []
  | (d, i, rng) :: ts =>
    match get i with
    | none => .error .xigtStructureError
    | some v => do
      let value := (← v).getD []
      let here ← if rng ≠ [] then resolveSpans value (findTriples spanRe rng) else pure value
      let tl ← resolveSels get ts
      .ok (delimText d ++ here ++ tl)

/-- ref.py:181-210 `resolve` -/
def resolve (get : Str → Option (Py (Option Str))) (e : Str) : Py Str :=
  resolveSels get (findTriples selectionRe (strip e))

end Xigt
