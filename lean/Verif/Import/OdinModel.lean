import Verif.Igt.Model
import Verif.Tree.Build
/-
Model of the ODIN importer, /repo/xigt/importers/odin.py.

Not modelled: the third-party module `odintxt`; a block it reads is an arbitrary input here, a
dictionary with strings as values (except for its lists of lines).  Reading options and files.
-/

namespace Xigt.Odin
variable [Uni]

/-- odin.py:224-227 `invalid_char_re` (the range outside the BMP is commented out there).  Strings of
this model have no surrogates. -/
def invalid (c : Char) : Bool :=
  !(c.toNat == 0x09 || c.toNat == 0x0A || c.toNat == 0x0D || (0x20 ≤ c.toNat && c.toNat ≤ 0xD7FF) ||
    (0xE000 ≤ c.toNat && c.toNat ≤ 0xFFFD))

/-- odin.py:230-232 `replace_invalid_xml_chars`.  The replacement is a template of `re.sub`; it is
assumed to have no backslash. -/
def clean (s repl : Str) : Str := s.flatMap fun c => if invalid c then repl else [c]

/-- the fields of a block (odin.py:110-200); `none` where the dictionary has no such key -/
structure Block where
  igtId : Option Str := none
  docId : Option Str := none
  lineRange : Option Str := none
  lineTypes : Option Str := none
  headerLines : Option (List Str) := none
  iso : Option Str := none
  language : Option Str := none
  lines : Option (List (Dict Str Str)) := none

/-- the options that are used (odin.py:52-56) -/
structure Opts where
  repl : Str := ['�']
  keepHeaders : Bool := false

/-- `s.split()`: the words of `s`, after the characters `cur` (in reverse) of a word -/
def splitGo : Str → Str → List Str
  | cur, [] => if cur = [] then [] else [cur.reverse]
  | cur, c :: cs =>
    if Uni.isSpace c then (if cur = [] then splitGo [] cs else cur.reverse :: splitGo [] cs)
    else splitGo (c :: cur) cs

/-- `s.split()` -/
def split (s : Str) : List Str := splitGo [] s

/-- odin.py:125-128; unpacking other than two parts is the ValueError -/
def lineRange (s : Str) : Py Str :=
  match split s with
  | [a, b] => .ok (join ['-'] [a, b])
  | _ => .error .valueError

/-- odin.py:124-130 `make_igt_attributes`; a missing key is the KeyError -/
def attributes (b : Block) : Py (Dict Str Str) :=
  match b.lineRange with
  | none => .error .keyError
  | some r => do
    let r ← lineRange r
    match b.docId, b.lineTypes with
    | some d, some t => .ok [(lit! "doc-id", d), (lit! "line-range", r), (lit! "tag-types", t)]
    | _, _ => .error .keyError

/-- odin.py:42-46 `_nsmap` -/
def nsmap : Dict Str Str :=
  [(lit! "olac", lit! "http://www.language-archives.org/OLAC/1.1/"),
   (lit! "dc", lit! "http://purl.org/dc/elements/1.1/"),
   (lit! "xsi", lit! "http://www.w3.org/2001/XMLSchema-instance")]

/-- odin.py:133-141 `qattrname` with the namespaces used (all in `_nsmap`) -/
def xsiType : Str := lit! "{http://www.w3.org/2001/XMLSchema-instance}type"
/-- odin.py:166, 175 `qattrname('code', 'olac')` -/
def olacCode : Str := lit! "{http://www.language-archives.org/OLAC/1.1/}code"
/-- odin.py:44, 169, 178 `_nsmap['dc']` -/
def dc : Str := lit! "http://purl.org/dc/elements/1.1/"

/-- odin.py:164-167, 173-176 -/
def langAttrs (code : Str) : Dict Str Str := [(xsiType, lit! "olac:language"), (olacCode, code)]

/-- odin.py:162-170, 171-179: a MetaChild with a language -/
def langChild (name code text : Str) : Py Obj :=
  construct { cls := .metaChild, name := some name, attrs := langAttrs code, text := some text, ns := some dc } [] []

/-- odin.py:149-152 -/
def headerData (hs : List Str) : Data :=
  { cls := .metaC, id := some (lit! "meta" ++ natStr 1), type := some (lit! "odin-header"), text := some (join ['\n'] hs) }

/-- odin.py:148-153: the Meta with the header -/
def headerMeta (o : Opts) (b : Block) : Py (List Obj) :=
  match b.headerLines with
  | some (h :: hs) =>
    if o.keepHeaders then do
      let m ← construct (headerData (h :: hs)) [] []
      .ok [m]
    else .ok []
  | _ => .ok []

/-- odin.py:144-182 `make_igt_metadata`; `title` is `str.title` -/
def metadata (title : Str → Str) (o : Opts) (b : Block) : Py Obj := do
  let hs ← headerMeta o b
  let subj ← langChild (lit! "subject") (strip (b.iso.getD (lit! "und"))) (title (strip (b.language.getD [])))
  let lang ← langChild (lit! "language") (lit! "en") (lit! "English")
  let m ← construct { cls := .metaC, id := some (lit! "meta" ++ natStr (hs.length + 1)) } [] [subj, lang]
  construct { cls := .metadata } [] (hs ++ [m])

/-- odin.py:188-194 -/
def itemData (o : Opts) (l : Dict Str Str) (j : Nat) (t : Str) : Data :=
  { cls := .item, id := some (lit! "r" ++ natStr j), attrs := Dict.del l (lit! "content"), text := some (clean t o.repl) }

/-- odin.py:187-194: the items from the line numbered `j` on; `del attrs['content']` is the KeyError -/
def rawItems (o : Opts) : List (Dict Str Str) → Nat → Py (List Obj)
  | [], _ => .ok []
  | l :: ls, j =>
    match Dict.get? l (lit! "content") with
    | none => .error .keyError
    | some t => do
      let x ← construct (itemData o l j t) [] []
      let xs ← rawItems o ls (j + 1)
      .ok (x :: xs)

/-- odin.py:195-200 -/
def tierData : Data :=
  { cls := .tier, id := some (lit! "r"), type := some (lit! "odin"), attrs := [(lit! "state", lit! "raw")] }

/-- odin.py:185-201 `make_igt_raw_tier` -/
def rawTier (o : Opts) (b : Block) : Py Obj := do
  let xs ← rawItems o (b.lines.getD []) 1
  construct tierData [] xs

/-- odin.py:109-121 `make_igt` -/
def makeIgt (title : Str → Str) (o : Opts) (b : Block) : Py Obj := do
  let as ← attributes b
  let md ← metadata title o b
  let t ← rawTier o b
  construct { cls := .igt, id := b.igtId, attrs := as } [md] [t]

/-- odin.py:102-106 `odin_igts` -/
def odinIgts (title : Str → Str) (o : Opts) : List Block → Py (List Obj)
  | [] => .ok []
  | b :: bs => do
    let x ← makeIgt title o b
    let xs ← odinIgts title o bs
    .ok (if (contGet x.kids (lit! "r")).isSome then x :: xs else xs)

/-- odin.py:79-87 `_xigt_import`, up to writing: the corpus (in transient mode repeated IDs of IGTs
are not noticed) -/
def corpus (igts : List Obj) : Obj := .mk { cls := .corpus, nsmap := some nsmap } [] igts

end Xigt.Odin
