import Verif.Igt.Model
import Verif.Tree.Build
/-
Model of the Toolbox importer, /repo/xigt/importers/toolbox.py.

Not modelled: the third-party module `toolbox` (reading records, normalising and aligning fields).
Its results are arbitrary inputs here: a record is a list of fields and a context, and what
`align_fields` gives for it is an arbitrary list of aligned fields, each of which may raise an
exception instead.  Reading options, files and warnings are not modelled either.
-/

namespace Xigt.Tbx

/-- the facts of `str.lower` and `str.isalpha` that are used (toolbox.py:163, 303) -/
class Lex where
  lower : Str → Str
  isAlpha : Char → Bool
  ascii_alpha : ∀ c : Char, c.toNat < 128 → isAlpha c = isLetter c

/-- An instance for examples: of the characters outside ASCII, those below 256 are letters; only
ASCII letters have a lower case (which keeps the length). -/
@[reducible] def asciiLex : Lex where
  lower s := s.map fun c => if 65 ≤ c.toNat ∧ c.toNat ≤ 90 then Char.ofNat (c.toNat + 32) else c
  isAlpha c := isLetter c || (192 ≤ c.toNat && c.toNat ≤ 255)
  ascii_alpha := by
    intro c h
    have : (decide (192 ≤ c.toNat) && decide (c.toNat ≤ 255)) = false := by
      simp only [Bool.and_eq_false_iff, decide_eq_false_iff_not]; omega
    simp [this]

/-- a pair of `align_fields`: the aligned text (or None) and the tokens (or None) -/
abbrev Aln := Option Str × Option (List Str)

/-- toolbox.py:107 `default_bounds` -/
def bounds : Str := lit! "-=~."

/-- toolbox.py:265, 304 -/
def WORDS : Str := lit! "words"
/-- toolbox.py:265, 309 -/
def MORPHEMES : Str := lit! "morphemes"

/-- `s.strip(default_bounds)` -/
def bare (s : Str) : Str := stripChars bounds s

/-- toolbox.py:323-332, the loop over the previous morphemes; `error n` is the early return with
`len(prev_toks) = n` -/
def prevLoop (tgt : Str) : List Str → Str → Str → Except Nat Str
  | [], prev, _ => .ok prev
  | t :: ts, prev, rest =>
    let hyphen := rest.head? = some '-'
    let prev := if hyphen then prev ++ ['-'] else prev
    let rest := if hyphen then rest.drop 1 else rest
    if (prev ++ bare t).isPrefixOf tgt then
      prevLoop tgt ts (prev ++ bare t) (rest.drop (prev ++ bare t).length)
    else .error prev.length

section
variable [Lex]

/-- toolbox.py:309-340: the morpheme at `s` of several (`tgt` is already in lower case) -/
def alignMorph (s : Nat) (tgt : Str) (toks : List Str) (tok : Str) : Int × Int × Int :=
  if toks.length = 1 then (0, tok.length, 0)
  else if s = 0 then
    if (bare tok).isPrefixOf tgt then (0, (bare tok).length, 0) else (0, tgt.length, -1)
  else
    match prevLoop tgt (toks.take s) [] tgt with
    | .error n => (n, tgt.length, -1)
    | .ok prev =>
      if prev.isPrefixOf tgt then
        if s + 1 = toks.length then (prev.length, tgt.length, 0)
        else
          let rest := tgt.drop prev.length
          if (bare tok).isPrefixOf rest then (prev.length, (bare tok).length + prev.length, 0)
          else (prev.length, rest.length, -1)
      else (prev.length, tgt.length, -1)

/-- toolbox.py:304-308: the word at `s` -/
def alignWords (s : Nat) (toks : List Str) (tok : Str) : Int × Int × Int :=
  let beg := ((toks.take s).map List.length).sum + s
  (beg, beg + tok.length, 0)

/-- toolbox.py:299-341 `align_word`; `tok` is `src_toks[s]`.  (`None.lower()` is the
AttributeError.) -/
def alignWord (ttype : Option Str) (s : Nat) (tgt : Option Str) (toks : List Str) (tok : Str) :
    Py (Int × Int × Int) :=
  match tgt with
  | none => .error .attributeError
  | some t =>
    if ttype = some WORDS then .ok (alignWords s toks tok)
    else if ttype = some MORPHEMES then .ok (alignMorph s (Lex.lower t) toks tok)
    else .ok (0, 0, 0)

/-- toolbox.py:263-266: the span of the token at `s`, if the type of the tier asks for one -/
def spanOf (ttype : Option Str) (tgt : Option Str) (s : Nat) (toks : List Str) (tok : Str) :
    Py (Option (Int × Int × Int)) :=
  if ttype = some WORDS ∨ ttype = some MORPHEMES then (alignWord ttype s tgt toks tok).map some
  else .ok none

/-- toolbox.py:267-285: the reference with ID `i` and a span, if there is one -/
def fmtRef (i : Str) : Option (Int × Int × Int) → Str
  | some (b, e, _) => if b ≠ -1 then spanStr i (intStr b) (intStr e) else i
  | none => i

/-- toolbox.py:263-285: the reference of the token at `s` to `item`.
(`None.id` is the AttributeError; items of imported tiers have IDs.) -/
def refOf (ttype : Option Str) (item : Option Obj) (tgt : Option Str) (s : Nat) (toks : List Str)
    (tok : Str) : Py Str :=
  match spanOf ttype tgt s toks tok, item with
  | .error e, _ => .error e
  | .ok _, none => .error .attributeError
  | .ok span, some it => .ok (fmtRef (it.data.id.getD (lit! "None")) span)

section
variable [Uni]

/-- `Item(id='{}{}'.format(tier_id, i), text=…, attributes=…)` -/
def mkItem (tid : Str) (i : Nat) (text : Str) (attrs : Dict Str Str) : Py Obj :=
  construct { cls := .item, id := some (tid ++ natStr i), attrs := attrs, text := some text } [] []

/-- toolbox.py:262-287: the items of one alignment, from the token at `s` on -/
def refItems (ttype : Option Str) (tid ra : Str) (item : Option Obj) (tgt : Option Str)
    (toks : List Str) : List Str → Nat → Nat → Py (List Obj)
  | [], _, _ => .ok []
  | t :: ts, s, i => do
    let r ← refOf ttype item tgt s toks t
    let x ← mkItem tid i t [(ra, r)]
    let xs ← refItems ttype tid ra item tgt toks ts (s + 1) (i + 1)
    .ok (x :: xs)

/-- `zip_longest(xs, ys)` -/
def zipLongest {α β : Type} : List α → List β → List (Option α × Option β)
  | [], ys => ys.map fun y => (none, some y)
  | xs, [] => xs.map fun x => (some x, none)
  | x :: xs, y :: ys => (some x, some y) :: zipLongest xs ys

/-- toolbox.py:260-287; unpacking None and `len(None)` are the TypeErrors -/
def alnItems (ttype : Option Str) (tid ra : Str) :
    List (Option Obj × Option Aln) → Nat → Py (List Obj)
  | [], _ => .ok []
  | (_, none) :: _, _ => .error .typeError
  | (_, some (_, none)) :: _, _ => .error .typeError
  | (item, some (tgt, some toks)) :: ps, i => do
    let xs ← refItems ttype tid ra item tgt toks toks 0 i
    let ys ← alnItems ttype tid ra ps (i + toks.length)
    .ok (xs ++ ys)

/-- toolbox.py:290-292: items without references -/
def plainToks (tid : Str) : List Str → Nat → Py (List Obj)
  | [], _ => .ok []
  | t :: ts, i => do
    let x ← mkItem tid i t []
    let xs ← plainToks tid ts (i + 1)
    .ok (x :: xs)

/-- toolbox.py:289-292; iterating over None is the TypeError -/
def plainItems (tid : Str) : List Aln → Nat → Py (List Obj)
  | [], _ => .ok []
  | (_, none) :: _, _ => .error .typeError
  | (_, some toks) :: as, i => do
    let xs ← plainToks tid toks i
    let ys ← plainItems tid as (i + toks.length)
    .ok (xs ++ ys)

/-- `Tier(id=tier_id, type=tier_type, items=items, attributes=attrs)` -/
def mkTier (ttype : Option Str) (tid : Str) (attrs : Dict Str Str) (items : List Obj) : Py Obj :=
  construct { cls := .tier, id := some tid, type := ttype, attrs := attrs } [] items

/-- toolbox.py:251-293 `make_tier` -/
def makeTier (ttype : Option Str) (tid : Str) (ra : Option Str) (aln : List Aln)
    (algn : Option Obj) : Py Obj :=
  if aln = [(none, none)] then mkTier ttype tid [] []
  else
    match ra, algn with
    | some ra, some t => do
      let xs ← alnItems ttype tid ra (zipLongest t.kids aln) 1
      mkTier ttype tid [(ra, t.data.id.getD (lit! "None"))] xs
    | _, _ => do
      let xs ← plainItems tid aln 1
      mkTier ttype tid [] xs

/-- toolbox.py:238-248 `make_phrase_tier` -/
def makePhraseTier (tid : Str) (aln : List Aln) : Py Obj := do
  let x ← mkItem tid 1 (join [' '] (aln.flatMap fun a => a.2.getD [])) []
  mkTier (some (lit! "phrases")) tid [] [x]

/-- the options (toolbox.py:65-103, 112-120) that are used below; of the tier types only `type` -/
structure Opts where
  keyMarkers : List Str
  attMap : Dict Str Str
  tierMap : Dict Str Str
  phrase : Option (Str × Str)
  tierTypes : Dict Str (Option Str)
  alignments : Dict Str (Option Str × Str)

/-- toolbox.py:65-101, the default options -/
def defaults : Opts where
  keyMarkers := [lit! "\\id", lit! "\\ref"]
  attMap := [(lit! "\\id", lit! "corpus-id")]
  tierMap := [(lit! "\\t", lit! "w"), (lit! "\\m", lit! "m"), (lit! "\\g", lit! "g"),
    (lit! "\\p", lit! "pos"), (lit! "\\f", lit! "t")]
  phrase := some (lit! "w", lit! "p")
  tierTypes := [(lit! "p", some (lit! "phrases")), (lit! "w", some WORDS),
    (lit! "m", some MORPHEMES), (lit! "g", some (lit! "glosses")), (lit! "pos", some (lit! "pos")),
    (lit! "t", some (lit! "translations"))]
  alignments := [(lit! "w", (some SEGMENTATION, lit! "p")), (lit! "m", (some SEGMENTATION, lit! "w")),
    (lit! "g", (some ALIGNMENT, lit! "m")), (lit! "pos", (some ALIGNMENT, lit! "m")),
    (lit! "t", (some ALIGNMENT, lit! "p"))]

/-- a field of the record as aligned by `toolbox.align_fields`: a marker and its alignments -/
abbrev Field := Str × List Aln

/-- toolbox.py:228-233: AttributeError and AssertionError become XigtImportError -/
def asImportError {α : Type} : Py α → Py α
  | .error .attributeError => .error .xigtImportError
  | .error .assertionError => .error .xigtImportError
  | r => r

/-- yielding a tier to the `extend` of the Igt (mixins.py:103-107, 115-117): `done` are the tiers
already there -/
def yieldTier (done : List Obj) (t : Obj) : Py (List Obj) :=
  if done.any fun y => decide (y.data.id = t.data.id) then .error .xigtError else .ok (done ++ [t])

/-- toolbox.py:221-224: the phrase tier made before the tier of the words -/
def phraseStep (o : Opts) (tid : Str) (aln : List Aln) (prev : Dict Str Obj) (done : List Obj) :
    Py (Dict Str Obj × List Obj) :=
  match o.phrase with
  | none => .ok (prev, done)
  | some (wid, pid) =>
    if wid = tid then do
      let t ← makePhraseTier pid aln
      let done ← yieldTier done t
      .ok (Dict.set prev pid t, done)
    else .ok (prev, done)

/-- toolbox.py:226 `alignments.get(tier_id, (None, None))` -/
def alignmentOf (o : Opts) (tid : Str) : Option Str × Option Str :=
  match Dict.get? o.alignments tid with
  | some (ra, aid) => (ra, some aid)
  | none => (none, none)

/-- toolbox.py:204-235 `make_all_tiers`, together with the Igt that takes the tiers one by one;
`prev` maps tier IDs to the tiers made so far -/
def makeAllTiers (o : Opts) : List (Py Field) → Dict Str Obj → List Obj → Py (List Obj)
  | [], _, done => .ok done
  | .error e :: _, _, _ => .error e
  | .ok (mkr, aln) :: fs, prev, done =>
    match Dict.get? o.tierMap mkr with
    | none => makeAllTiers o fs prev done
    | some tid => do
      let (prev, done) ← phraseStep o tid aln prev done
      let ttype ← Dict.getItem o.tierTypes tid
      let algn := (alignmentOf o tid).2.bind (Dict.get? prev)
      let t ← asImportError (makeTier ttype tid (alignmentOf o tid).1 aln algn)
      let done ← yieldTier done t
      makeAllTiers o fs (Dict.set prev tid t) done

/-- toolbox.py:162-164: the ID made of the key of the record (`assert key`) -/
def igtId : Str → Py Str
  | [] => .error .assertionError
  | c :: cs => .ok (if Lex.isAlpha c then c :: cs else lit! "igt" ++ (c :: cs))

/-- toolbox.py:167-173: the attributes taken from the fields and the context -/
def igtAttrs (o : Opts) (fields : List (Str × Option Str)) : Dict Str Str :=
  fields.foldl (fun d f => match f.2, Dict.get? o.attMap f.1 with
    | some v, some a => Dict.set d a v
    | _, _ => d) []

/-- toolbox.py:160-201 `make_igt`: `none` if the record cannot be imported.  (A ToolboxError from
`align_fields` is treated alike and is modelled as a XigtImportError.) -/
def makeIgt (o : Opts) (key : Str) (data context : List (Str × Option Str))
    (fields : List (Py Field)) : Py (Option Obj) := do
  let i ← igtId key
  if idAccepted i = false then .error .valueError
  else
    match makeAllTiers o fields [] [] with
    | .ok ts => .ok (some (.mk { cls := .igt, id := some i, attrs := igtAttrs o (data ++ context) } [] ts))
    | .error .xigtImportError => .ok none
    | .error e => .error e

/-- a record of `toolbox.records`: its context, its fields, and the aligned fields -/
structure Record where
  context : Dict Str (Option Str)
  data : List (Str × Option Str)
  fields : List (Py Field)

/-- toolbox.py:145-158 `toolbox_igts`; `k` is the last of the record markers -/
def toolboxIgts (o : Opts) (k : Str) : List Record → Py (List Obj)
  | [] => .ok []
  | r :: rs =>
    match Dict.get? r.context k with
    | some (some key) => do
      let x ← makeIgt o key r.data r.context r.fields
      let xs ← toolboxIgts o k rs
      .ok (x.toList ++ xs)
    | _ => toolboxIgts o k rs

end
end

/-! ### Respacing -/

/-- lines of a file opened with `rb` (toolbox.py:125-126) -/
abbrev Bytes := List UInt8

/-- `\s` in a bytes pattern: space, tab, newline, carriage return, form feed, vertical tab -/
def isWs (b : UInt8) : Bool := b == 32 || (9 ≤ b && b ≤ 13)

/-- `line.rstrip(b'\n')` -/
def rstripNl (l : Bytes) : Bytes := (l.reverse.dropWhile (· == 10)).reverse

/-- the matches of `\s*\S+\s*` found by `finditer` (toolbox.py:348) in what remains of the line:
the classes are disjoint, so each match is a maximal run of white space, a maximal run of other
bytes and a maximal run of white space; there is none where only white space remains.  `fuel` is at
least the length. -/
def chunks : Nat → Bytes → List Bytes
  | 0, _ => []
  | fuel + 1, l =>
    let lead := l.takeWhile isWs
    let l₁ := l.dropWhile isWs
    let tok := l₁.takeWhile (!isWs ·)
    let l₂ := l₁.dropWhile (!isWs ·)
    let trail := l₂.takeWhile isWs
    if tok = [] then [] else (lead ++ tok ++ trail) :: chunks fuel (l₂.dropWhile isWs)

/-- `s.ljust(n)` -/
def ljust (n : Nat) (s : Str) : Str := s ++ List.replicate (n - s.length) ' '

/-- toolbox.py:348-352, decoding, padding and joining the matches -/
def respaceChunks (dec : Bytes → Py Str) : List Bytes → Py Str
  | [] => .ok []
  | c :: cs => do
    let t ← dec c
    let r ← respaceChunks dec cs
    .ok (ljust c.length t ++ r)

/-- toolbox.py:345-352 `_respace_decode`; `dec` is `bytes.decode(encoding)` -/
def respace (dec : Bytes → Py Str) (line : Bytes) : Py Str :=
  let l := rstripNl line
  respaceChunks dec (chunks l.length l)

end Xigt.Tbx
