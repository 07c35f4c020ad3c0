import Verif.Xml.Stream
import Verif.Xml.Decl
/-
The text layer of the XML codec: how element trees are written (the serialiser of
xml.etree.ElementTree that xigtxml.py:74, 527-566 calls) and a reader of XML text that works
character by character, as expat does.  `Xml/TextProps.lean` proves that `parseElem`, by which the
other files describe the text layer, is what the two do together.

The reader knows elements, attributes, character data and references, comments, processing
instructions, CDATA sections, the XML declaration (`Xml/Decl.lean` has its contents) and a byte order mark.
Comments and processing instructions are forgotten, as by the parser of xml.etree.ElementTree, which makes
no elements of them unless it is told to.
It does not know document types (it rejects them; the serialiser never writes them), and it accepts `]]>` in
character data and targets of processing instructions that are no names.  The encoding that a declaration
names is ignored, as it is for text that was decoded before.  Line ends are
normalised in character data after references are resolved, so `&#13;` is read there as a newline (expat
keeps it; the serialiser does not write it).
-/

namespace Xigt

/-! ### Writing -/

/-- `_escape_cdata` of xml.etree.ElementTree -/
def escText (s : Str) : Str :=
  s.flatMap fun c => if c = '&' then lit! "&amp;" else if c = '<' then lit! "&lt;" else if c = '>' then lit! "&gt;" else [c]

/-- `_escape_attrib` of xml.etree.ElementTree (python 3.9+) -/
def escAttr (s : Str) : Str :=
  s.flatMap fun c =>
    if c = '&' then lit! "&amp;" else if c = '<' then lit! "&lt;" else if c = '>' then lit! "&gt;"
    else if c = '"' then lit! "&quot;" else if c = '\r' then lit! "&#13;" else if c = '\n' then lit! "&#10;"
    else if c = '\t' then lit! "&#09;" else [c]

/-- the attributes in `_serialize_xml` of xml.etree.ElementTree -/
def serAttrs (attrs : Dict Str Str) : Str :=
  attrs.flatMap fun p => ' ' :: (p.1 ++ '=' :: '"' :: (escAttr p.2 ++ ['"']))

mutual
/-- `_serialize_xml` of xml.etree.ElementTree, for elements whose names are written as they are (names
that begin with `{`, which the codec never makes, would be given prefixes) -/
def ser : Elem → Str
  | .mk tag attrs text tail kids =>
    '<' :: (tag ++ (serAttrs attrs ++
      ((if (text.getD []).isEmpty && kids.isEmpty then lit! " />"
        else '>' :: (escText (text.getD []) ++ (sers kids ++ ('<' :: '/' :: (tag ++ ['>'])))))
      ++ escText (tail.getD []))))
/-- `_serialize_xml` for each child -/
def sers : List Elem → Str
  | [] => []
  | x :: xs => ser x ++ sers xs
end

/-! ### Reading -/

/-- a digit of a character reference -/
def digitVal (base : Nat) (c : Char) : Option Nat :=
  let v := if '0' ≤ c ∧ c ≤ '9' then some (c.toNat - 48)
    else if 'a' ≤ c ∧ c ≤ 'f' then some (c.toNat - 87) else if 'A' ≤ c ∧ c ≤ 'F' then some (c.toNat - 55) else none
  v.bind fun n => if n < base then some n else none

/-- the number in a character reference -/
def numVal (base : Nat) : Nat → Str → Option Nat
  | acc, [] => some acc
  | acc, c :: cs => (digitVal base c).bind fun d => numVal base (acc * base + d) cs

/-- the character with that number, if XML has it -/
def charOf (n : Nat) : Option Char :=
  if h : n.isValidChar then (let c := Char.ofNatAux n h; if isXmlChar c then some c else none) else none

/-- the character a reference `&…;` stands for -/
def refChar (s : Str) : Option Char :=
  if s = lit! "amp" then some '&' else if s = lit! "lt" then some '<' else if s = lit! "gt" then some '>'
  else if s = lit! "quot" then some '"' else if s = lit! "apos" then some '\''
  else match s with
    | '#' :: 'x' :: c :: cs => (numVal 16 0 (c :: cs)).bind charOf
    | '#' :: c :: cs => (numVal 10 0 (c :: cs)).bind charOf
    | _ => none

/-- where the reader is -/
inductive RdMode where
  /-- in character data, or outside the root -/
  | content
  /-- after `&` in character data -/
  | ref (s : Str)
  /-- after `<` -/
  | lt
  /-- in the name of a start tag -/
  | name (n : Str)
  /-- in a start tag; `w`: after white space -/
  | tag (n : Str) (attrs : Dict Str Str) (w : Bool)
  /-- in the name of an attribute -/
  | attr (n : Str) (attrs : Dict Str Str) (k : Str)
  /-- before `=` -/
  | eq (n : Str) (attrs : Dict Str Str) (k : Str)
  /-- after `=` -/
  | quote (n : Str) (attrs : Dict Str Str) (k : Str)
  /-- in the value of an attribute, in quotes `q` -/
  | value (n : Str) (attrs : Dict Str Str) (k : Str) (q : Char) (v : Str)
  /-- after `&` in a value -/
  | vref (n : Str) (attrs : Dict Str Str) (k : Str) (q : Char) (v : Str) (s : Str)
  /-- after `/` in a start tag -/
  | empty (n : Str) (attrs : Dict Str Str)
  /-- in the name of an end tag -/
  | close (n : Str)
  /-- after the name of an end tag -/
  | closed (n : Str)
  /-- after `<!` -/
  | bang (s : Str)
  /-- in a comment, after so many `-` -/
  | comment (d : Nat)
  /-- in a CDATA section, after so many `]` -/
  | cdata (d : Nat)
  /-- in the target of a processing instruction -/
  | target (t : Str)
  /-- in a processing instruction, after the target; `q`: after `?` -/
  | pi (q : Bool)
  /-- at the end of a processing instruction that is only a target -/
  | piEnd

/-- an open element; the children are in reverse -/
structure Frame where
  tag : Str
  attrs : Dict Str Str
  text : Str := []
  kids : List Elem := []

/-- a reader: what it is in the middle of, the open elements, and the root element if it is complete -/
structure Rd where
  mode : RdMode := .content
  stack : List Frame := []
  root : Option Elem := none

/-- ElementTree has None for no text -/
def someText (s : Str) : Option Str := if s = [] then none else some s

/-- character data after an element -/
def addTail (c : Char) : Elem → Elem
  | .mk tag attrs text tail kids => .mk tag attrs text (some (tail.getD [] ++ [c])) kids

/-- character data: before the first child the text of the element, then the tail of the last child -/
def Frame.add (f : Frame) (c : Char) : Frame :=
  match f.kids with
  | [] => { f with text := f.text ++ [c] }
  | k :: ks => { f with kids := addTail c k :: ks }

/-- a complete element -/
def Rd.attach (r : Rd) (e : Elem) : Rd :=
  match r.stack with
  | [] => { r with mode := .content, root := some e }
  | f :: fs => { r with mode := .content, stack := { f with kids := e :: f.kids } :: fs }

/-- a character of character data -/
def Rd.data (r : Rd) (c : Char) : Py Rd :=
  match r.stack with
  | [] => if xmlSpace c then .ok r else .error .parseError
  | f :: fs => if isXmlChar c then .ok { r with stack := f.add c :: fs } else .error .parseError

/-- an end tag -/
def Rd.end (r : Rd) (n : Str) : Py Rd :=
  match r.stack with
  | [] => .error .parseError
  | f :: fs => if f.tag = n then .ok ({ r with stack := fs }.attach (.mk f.tag f.attrs (someText f.text) none f.kids.reverse)) else .error .parseError

/-- a character in a start tag, after the name -/
def Rd.inTag (r : Rd) (n : Str) (as : Dict Str Str) (w : Bool) (c : Char) : Py Rd :=
  if xmlSpace c then .ok { r with mode := .tag n as true }
  else if c = '>' then
    (if (as.map Prod.fst).Nodup then .ok { r with mode := .content, stack := ⟨n, as, [], []⟩ :: r.stack } else .error .parseError)
  else if c = '/' then .ok { r with mode := .empty n as }
  else if w && !nameEnd c then .ok { r with mode := .attr n as [c] }
  else .error .parseError

/-- a character in a CDATA section that does not end it, with so many `]` before it -/
def Rd.cdata (r : Rd) : Nat → Char → Py Rd
  | 0, c => r.data c
  | d + 1, c => do
    let r ← r.data ']'
    r.cdata d c

/-- targets of processing instructions -/
def targetOK (t : Str) : Bool :=
  !t.isEmpty && match t with
    | [x, m, l] => !((x = 'x' || x = 'X') && (m = 'm' || m = 'M') && (l = 'l' || l = 'L'))
    | _ => true

/-- one character -/
def Rd.step (r : Rd) (c : Char) : Py Rd :=
  match r.mode with
  | .content =>
    if c = '<' then .ok { r with mode := .lt }
    else if c = '&' then (if r.stack.isEmpty then .error .parseError else .ok { r with mode := .ref [] })
    else r.data c
  | .ref s =>
    if c = ';' then (match refChar s with
      | some d => { r with mode := .content }.data d
      | none => .error .parseError)
    else .ok { r with mode := .ref (s ++ [c]) }
  | .lt =>
    if c = '/' then .ok { r with mode := .close [] }
    else if c = '!' then .ok { r with mode := .bang [] }
    else if c = '?' then .ok { r with mode := .target [] }
    else if nameEnd c then .error .parseError
    else if r.stack.isEmpty && r.root.isSome then .error .parseError
    else .ok { r with mode := .name [c] }
  | .name n => if nameEnd c then r.inTag n [] false c else .ok { r with mode := .name (n ++ [c]) }
  | .tag n as w => r.inTag n as w c
  | .attr n as k =>
    if c = '=' then .ok { r with mode := .quote n as k }
    else if xmlSpace c then .ok { r with mode := .eq n as k }
    else if nameEnd c then .error .parseError
    else .ok { r with mode := .attr n as (k ++ [c]) }
  | .eq n as k =>
    if c = '=' then .ok { r with mode := .quote n as k }
    else if xmlSpace c then .ok r
    else .error .parseError
  | .quote n as k =>
    if c = '"' || c = '\'' then .ok { r with mode := .value n as k c [] }
    else if xmlSpace c then .ok r
    else .error .parseError
  | .value n as k q v =>
    if c = q then .ok { r with mode := .tag n (as ++ [(k, v)]) false }
    else if c = '&' then .ok { r with mode := .vref n as k q v [] }
    else if c = '<' then .error .parseError
    else if !isXmlChar c then .error .parseError
    else .ok { r with mode := .value n as k q (v ++ [if xmlSpace c then ' ' else c]) }
  | .vref n as k q v s =>
    if c = ';' then (match refChar s with
      | some d => .ok { r with mode := .value n as k q (v ++ [d]) }
      | none => .error .parseError)
    else .ok { r with mode := .vref n as k q v (s ++ [c]) }
  | .empty n as =>
    if c = '>' then
      (if (as.map Prod.fst).Nodup then .ok (r.attach (.mk n as none none [])) else .error .parseError)
    else .error .parseError
  | .close n =>
    if c = '>' then r.end n
    else if xmlSpace c then .ok { r with mode := .closed n }
    else if nameEnd c then .error .parseError
    else .ok { r with mode := .close (n ++ [c]) }
  | .closed n =>
    if c = '>' then r.end n else if xmlSpace c then .ok r else .error .parseError
  | .bang s =>
    if s ++ [c] = lit! "--" then .ok { r with mode := .comment 0 }
    else if s ++ [c] = lit! "[CDATA[" then (if r.stack.isEmpty then .error .parseError else .ok { r with mode := .cdata 0 })
    else if (s ++ [c]).isPrefixOf (lit! "--") || (s ++ [c]).isPrefixOf (lit! "[CDATA[") then .ok { r with mode := .bang (s ++ [c]) }
    else .error .parseError
  | .comment d =>
    if d = 2 then (if c = '>' then .ok { r with mode := .content } else .error .parseError)
    else if c = '-' then .ok { r with mode := .comment (d + 1) }
    else if isXmlChar c then .ok { r with mode := .comment 0 }
    else .error .parseError
  | .cdata d =>
    if c = ']' then
      (if d = 2 then (r.data ']').map fun r => { r with mode := .cdata 2 } else .ok { r with mode := .cdata (d + 1) })
    else if c = '>' ∧ d = 2 then .ok { r with mode := .content }
    else (r.cdata d c).map fun r => { r with mode := .cdata 0 }
  | .target t =>
    if xmlSpace c then (if targetOK t then .ok { r with mode := .pi false } else .error .parseError)
    else if c = '?' then (if targetOK t then .ok { r with mode := .piEnd } else .error .parseError)
    else if nameEnd c then .error .parseError
    else .ok { r with mode := .target (t ++ [c]) }
  | .pi q =>
    if q && c = '>' then .ok { r with mode := .content }
    else if isXmlChar c then .ok { r with mode := .pi (c = '?') }
    else .error .parseError
  | .piEnd => if c = '>' then .ok { r with mode := .content } else .error .parseError

/-- all characters -/
def Rd.run : Rd → Str → Py Rd
  | r, [] => .ok r
  | r, c :: cs => do
    let r ← r.step c
    r.run cs

/-- the element tree of a document, before namespaces are looked at -/
def scanXml (s : Str) : Py Elem := do
  let t ← dropDecl (eol (dropBom s))
  let r ← Rd.run {} t
  match r.mode, r.stack, r.root with
  | .content, [], some e => .ok e
  | _, _, _ => .error .parseError

section
variable [XmlLex]
/-- reading a document -/
def readText (s : Str) : Py PElem := do
  let e ← scanXml s
  parseElem [] e
end

section
variable [Uni] [XmlLex]
/-- xigtxml.py:75-80, 527-532: `dumps(xc, indent=ind)` -/
def dumpsXml (ind : Option Int) (x : Obj) : Py Str := do
  let e ← buildCorpus x
  return ser (indent ind e)

/-- xigtxml.py:53-60: `loads(s)` -/
def loadsXml (look : Nat → Nat) (s : Str) : Py Obj := do
  let p ← readText s
  loadXml look p
end

end Xigt
