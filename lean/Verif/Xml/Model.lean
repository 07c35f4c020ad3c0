import Verif.Json.Model
import Verif.Attr.Model
/-
Model of the XML codec (/repo/xigt/codecs/xigtxml.py) between objects and element trees.

The text layer (ElementTree's serialiser, expat) is modelled by its effect on element trees
(`parseElem`; Xml/TextProps.lean proves it of the characters that are written): prefixes become namespaces, empty texts disappear, line ends are normalised,
names and characters that XML does not allow and prefixes that are not declared are parse errors.
White space in attribute values survives (ElementTree of python 3.9+ writes it as character
references).  Which names XML allows is left open (`XmlLex`).
-/

namespace Xigt

/-- characters that end a name in a tag -/
def nameEnd (c : Char) : Bool := [' ', '\t', '\n', '\r', '=', '/', '>', '<', '"', '\'', '&', '!', '?'].contains c

/-- what counts as a name in XML (NCName) -/
class XmlLex where
  ncName : Str → Bool
  not_nil : ncName [] = false
  no_colon : ∀ s, ncName s = true → ':' ∉ s
  no_brace : ∀ s, ncName s = true → '{' ∉ s
  no_delim : ∀ s, ncName s = true → ∀ c ∈ s, nameEnd c = false
  names : ∀ s ∈ [lit! "xigt-corpus", lit! "igt", lit! "tier", lit! "item", lit! "metadata", lit! "meta", lit! "id", lit! "type",
    lit! "xml"], ncName s = true

/-- an element that is written: `xml.etree.ElementTree.Element`, with attributes in order -/
inductive Elem where
  | mk (tag : Str) (attrs : Dict Str Str) (text tail : Option Str) (kids : List Elem)

namespace Elem
/-- `e.tag` -/
def tag : Elem → Str
  | mk t _ _ _ _ => t
/-- `e.attrib` -/
def attrs : Elem → Dict Str Str
  | mk _ a _ _ _ => a
/-- `e.text` -/
def text : Elem → Option Str
  | mk _ _ t _ _ => t
/-- `e.tail` -/
def tail : Elem → Option Str
  | mk _ _ _ t _ => t
/-- `list(e)` -/
def kids : Elem → List Elem
  | mk _ _ _ _ k => k
end Elem

/-- an element that was read, with the namespace map `ns_iterparse` puts on it when its start is
processed (xigtxml.py:175-196); there is none before that and after `clear()`.
Its tail is never looked at and left out. -/
inductive PElem where
  | mk (tag : Str) (attrs : Dict Str Str) (nsmap : Option (Dict Str Str)) (text : Option Str) (kids : List PElem)

namespace PElem
/-- `e.tag` (xigtxml.py:187) -/
def tag : PElem → Str
  | mk t _ _ _ _ => t
/-- `e.attrib` (xigtxml.py:188) -/
def attrs : PElem → Dict Str Str
  | mk _ a _ _ _ => a
/-- `e.attrib.nsmap` (xigtxml.py:161) -/
def nsmap : PElem → Option (Dict Str Str)
  | mk _ _ n _ _ => n
/-- `e.text` -/
def text : PElem → Option Str
  | mk _ _ _ t _ => t
/-- `list(e)` -/
def kids : PElem → List PElem
  | mk _ _ _ _ k => k
end PElem

/-! ### Encoding -/

/-- xigtxml.py:16: what the prefix `xml` stands for -/
def xmlNs : Str := lit! "http://www.w3.org/XML/1998/namespace"
/-- what no prefix may stand for (Namespaces in XML) -/
def xmlnsNs : Str := lit! "http://www.w3.org/2000/xmlns/"

/-- xigtxml.py:10-20 `_namespace_map` (as in the standard library) -/
def knownNs : Dict Str Str :=
  [(xmlNs, lit! "xml"), (lit! "http://www.w3.org/1999/xhtml", lit! "html"),
    (lit! "http://www.w3.org/1999/02/22-rdf-syntax-ns#", lit! "rdf"), (lit! "http://schemas.xmlsoap.org/wsdl/", lit! "wsdl"),
    (lit! "http://www.w3.org/2001/XMLSchema", lit! "xs"), (lit! "http://www.w3.org/2001/XMLSchema-instance", lit! "xsi"),
    (lit! "http://purl.org/dc/elements/1.1/", lit! "dc")]

/-- xigtxml.py:375-383: the name of an attribute -/
def xmlKey (rev : Dict Str Str) (k : Str) : Py Str :=
  match k with
  | '{' :: r =>
    match splitOnce '}' r with
    | none => .error .valueError
    | some (uri, key) =>
      if uri = [] then .ok key
      else match Dict.get? rev uri with
        | some pre => .ok (pre ++ ':' :: key)
        | none => (Dict.getItem knownNs uri).map fun pre => pre ++ ':' :: key
  | _ => .ok k

/-- xigtxml.py:373-384 -/
def xmlAttrs (rev : Dict Str Str) : Dict Str Str → Dict Str Str → Py (Dict Str Str)
  | acc, [] => .ok acc
  | acc, (k, v) :: rest => do
    let k ← xmlKey rev k
    xmlAttrs rev (Dict.set acc k v) rest

/-- `e.set(k, v)` if there is a value -/
def setSome (attrs : Dict Str Str) (k : Str) : Option Str → Dict Str Str
  | none => attrs
  | some v => Dict.set attrs k v

/-- xigtxml.py:368 -/
def XMLNS : Str := lit! "xmlns:"

/-- xigtxml.py:365-368: namespace declarations -/
def xmlDecls (m eff : Dict Str Str) : Dict Str Str :=
  m.foldl (fun acc p => if Dict.get? eff p.1 = some p.2 then acc else Dict.set acc (XMLNS ++ p.1) p.2) []

/-- xigtxml.py:360-362: the tag -/
def xmlTag (rev : Dict Str Str) (tag : Str) (ns : Option Str) : Str :=
  match ns.bind (Dict.get? rev) with
  | some pre => pre ++ ':' :: tag
  | none => tag

/-- xigtxml.py:358-385 `_build_elem` and the children; `eff` is the namespace map of the parent
(`nscontext` is the same map) -/
def buildElem (tag : Str) (d : Data) (eff : Dict Str Str) (text : Option Str) (kids : List Elem) : Py Elem := do
  let rev := inverse (effNs d eff)
  let attrs := setSome (setSome (xmlDecls (effNs d eff) eff) (lit! "id") d.id) (lit! "type") d.type
  let attrs ← xmlAttrs rev attrs d.attrs
  return .mk (xmlTag rev tag d.ns) attrs text none kids

mutual
/-- xigtxml.py:441-447 `_build_metachild` -/
def buildMc (eff : Dict Str Str) : Obj → Py Elem
  | .mk d _ kids => do
    let ks ← buildMcs (effNs d eff) kids
    buildElem (d.name.getD []) d eff d.text ks
/-- xigtxml.py:445-446: the children -/
def buildMcs (eff : Dict Str Str) : List Obj → Py (List Elem)
  | [] => .ok []
  | x :: xs => do
    let y ← buildMc eff x
    let ys ← buildMcs eff xs
    return y :: ys
end

/-- xigtxml.py:432-438 `_build_meta` -/
def buildMeta (eff : Dict Str Str) (x : Obj) : Py Elem := do
  let ks ← buildMcs (effNs x.data eff) x.kids
  buildElem (lit! "meta") x.data eff x.data.text ks

/-- xigtxml.py:424-429 `_build_metadata` -/
def buildMd (eff : Dict Str Str) (x : Obj) : Py Elem := do
  let ks ← mapPy (buildMeta (effNs x.data eff)) x.kids
  buildElem (lit! "metadata") x.data eff none ks

/-- xigtxml.py:418-421 `_build_item` -/
def buildItem (eff : Dict Str Str) (x : Obj) : Py Elem :=
  buildElem (lit! "item") x.data eff x.data.text []

/-- xigtxml.py:408-415 `_build_tier` -/
def buildTier (eff : Dict Str Str) (x : Obj) : Py Elem := do
  let ms ← mapPy (buildMd (effNs x.data eff)) x.md
  let ks ← mapPy (buildItem (effNs x.data eff)) x.kids
  buildElem (lit! "tier") x.data eff none (ms ++ ks)

/-- xigtxml.py:398-405 `_build_igt` -/
def buildIgt (eff : Dict Str Str) (x : Obj) : Py Elem := do
  let ms ← mapPy (buildMd (effNs x.data eff)) x.md
  let ks ← mapPy (buildTier (effNs x.data eff)) x.kids
  buildElem (lit! "igt") x.data eff none (ms ++ ks)

/-- xigtxml.py:388-395 `_build_corpus` -/
def buildCorpus (x : Obj) : Py Elem := do
  let ms ← mapPy (buildMd (effNs x.data [])) x.md
  let ks ← mapPy (buildIgt (effNs x.data [])) x.kids
  buildElem (lit! "xigt-corpus") x.data [] none (ms ++ ks)

/-! ### Indentation -/

section
variable [Uni]

/-- `not s or not s.strip()` -/
def blank (s : Option Str) : Bool := (strip (s.getD [])).isEmpty

/-- `' ' * n` -/
def spaces (n : Int) : Str := List.replicate n.toNat ' '

/-- `if not elem.tail or not elem.tail.strip(): elem.tail = i` -/
def fixTail (i : Str) : Elem → Elem
  | .mk tag attrs text tail kids => .mk tag attrs text (if blank tail then some i else tail) kids

/-- applied to the last of a list of elements -/
def onLast (f : Elem → Elem) : List Elem → List Elem
  | [] => []
  | [x] => [f x]
  | x :: y :: ys => x :: onLast f (y :: ys)

mutual
/-- xigtxml.py:451-468 `_indent` for an indent other than None -/
def indentElem (ind : Int) (level : Nat) : Elem → Elem
  | .mk tag attrs text tail [] =>
    .mk tag attrs text (if level ≠ 0 ∧ blank tail = true then some ('\n' :: spaces (ind * level)) else tail) []
  | .mk tag attrs text tail (k :: ks) =>
    .mk tag attrs (if blank text then some ('\n' :: spaces (ind * level) ++ spaces ind) else text)
      (if blank tail then some ('\n' :: spaces (ind * level)) else tail)
      (onLast (fixTail ('\n' :: spaces (ind * level))) (indentElem ind (level + 1) k :: indentElems ind (level + 1) ks))
/-- xigtxml.py:451-468: the children -/
def indentElems (ind : Int) (level : Nat) : List Elem → List Elem
  | [] => []
  | x :: xs => indentElem ind level x :: indentElems ind level xs
end

/-- xigtxml.py:451-455 `_indent(root, indent)` -/
def indent : Option Int → Elem → Elem
  | none, e => e
  | some ind, e => indentElem ind 0 e
end

/-! ### Text layer -/

/-- characters allowed in XML 1.0 -/
def isXmlChar (c : Char) : Bool :=
  c = '\t' || c = '\n' || c = '\r' || (32 ≤ c.toNat && c.toNat ≠ 65534 && c.toNat ≠ 65535)

/-- line ends are normalised -/
def eol : Str → Str
  | '\r' :: '\n' :: r => '\n' :: eol r
  | '\r' :: r => '\n' :: eol r
  | c :: r => c :: eol r
  | [] => []

/-- text as read back -/
def parseText : Option Str → Py (Option Str)
  | none => .ok none
  | some s => if s.all isXmlChar then .ok (if s.isEmpty then none else some (eol s)) else .error .parseError

/-- the prefix an attribute declares, if it is a declaration -/
def declOf (k : Str) : Option Str :=
  if k = lit! "xmlns" then some []
  else match splitOnce ':' k with
    | some (p, q) => if p = lit! "xmlns" ∧ q ≠ [] then some q else none
    | none => none

section
variable [XmlLex]

/-- whether a declaration is allowed -/
def declOK (p u : Str) : Bool :=
  u.all isXmlChar && !u.contains '}' && decide (u ≠ xmlnsNs) &&
    (if p = [] then decide (u ≠ xmlNs)
     else XmlLex.ncName p && decide (p ≠ lit! "xmlns") && decide (u ≠ []) && (decide (p = lit! "xml") == decide (u = xmlNs)))

/-- a name as read back; `dflt` is the namespace of names without prefix -/
def resolveName (scope : Dict Str Str) (dflt : Option Str) (k : Str) : Py Str :=
  match splitOnce ':' k with
  | none =>
    if XmlLex.ncName k then
      match dflt with
      | none => .ok k
      | some u => if u = [] then .ok k else .ok (qual u k)
    else .error .parseError
  | some (p, l) =>
    if XmlLex.ncName p && XmlLex.ncName l then
      if p = lit! "xml" then .ok (qual xmlNs l)
      else match Dict.get? scope p with
        | some u => .ok (qual u l)
        | none => .error .parseError
    else .error .parseError

/-- an attribute as read back -/
def parseAttr (scope : Dict Str Str) (p : Str × Str) : Py (Str × Str) := do
  let k ← resolveName scope none p.1
  if p.2.all isXmlChar then .ok (k, p.2) else .error .parseError

/-- the namespaces an element declares -/
def declsOf (attrs : Dict Str Str) : Dict Str Str :=
  attrs.filterMap fun p => (declOf p.1).map fun q => (q, p.2)

mutual
/-- an element as read back, where the namespaces `scope` are declared around it -/
def parseElem (scope : Dict Str Str) : Elem → Py PElem
  | .mk tag attrs text tail kids => do
    if (declsOf attrs).all fun p => declOK p.1 p.2 then
      let scope' := Dict.update scope (declsOf attrs)
      let tag ← resolveName scope' (Dict.get? scope' []) tag
      let as ← mapPy (parseAttr scope') (attrs.filter fun p => (declOf p.1).isNone)
      if (as.map Prod.fst).Nodup then
        let text ← parseText text
        let _ ← parseText tail
        let kids ← parseElems scope' kids
        .ok (.mk tag as (some scope') text kids)
      else .error .parseError
    else .error .parseError
/-- the children -/
def parseElems (scope : Dict Str Str) : List Elem → Py (List PElem)
  | [] => .ok []
  | x :: xs => do
    let y ← parseElem scope x
    let ys ← parseElems scope xs
    return y :: ys
end
end

/-! ### Decoding (of complete elements; see Xml/Stream.lean for the event loop) -/

/-- xigtxml.py:149-155 `_qname_split` -/
def qnameSplit : Str → Py (Option Str × Str)
  | '{' :: r => match splitOnce '}' r with
    | some (u, t) => .ok (some u, t)
    | none => .error .valueError
  | t => .ok (none, t)

/-- xigtxml.py:230-234 `get_attributes` -/
def getAttrs (ignore : List Str) (e : PElem) : Dict Str Str := e.attrs.filter fun p => !ignore.contains p.1

/-- the members all decoders read (e.g. xigtxml.py:255-265); `expect` is the asserted local name -/
def xmlData (cls : Cls) (ignore : List Str) (expect : Option Str) (e : PElem) : Py Data := do
  let (ns, tag) ← qnameSplit e.tag
  if expect.all (· = tag) then
    if e.nsmap.isNone then .error .attributeError
    else .ok { cls := cls, id := Dict.get? e.attrs (lit! "id"), type := Dict.get? e.attrs (lit! "type"), attrs := getAttrs ignore e,
               ns := ns, nsmap := e.nsmap, name := if expect.isNone then some tag else none }
  else .error .assertionError

/-- `elem.findall(tag)` for a tag without namespace -/
def findall (e : PElem) (tag : Str) : List PElem := e.kids.filter fun k => k.tag = tag

/-- `text if text.strip() else None` (xigtxml.py:329, 344) -/
def nonBlank [Uni] (s : Option Str) : Option Str := if blank s then none else s

/-- xigtxml.py:292, 309, 328, 343 -/
def IDTYPE : List Str := [lit! "id", lit! "type"]

section
variable [Uni]

mutual
/-- xigtxml.py:338-350 `decode_metachild` (which passes no `id` and `type` on) -/
def readMc : PElem → Py Obj
  | .mk tag attrs nsmap text kids => do
    let d ← xmlData .metaChild IDTYPE none (.mk tag attrs nsmap text kids)
    let ks ← readMcs kids
    construct { d with id := none, type := none, text := nonBlank text } [] ks
/-- xigtxml.py:330, 345: the children -/
def readMcs : List PElem → Py (List Obj)
  | [] => .ok []
  | x :: xs => do
    let y ← readMc x
    let ys ← readMcs xs
    return y :: ys
end

/-- xigtxml.py:318-335 `decode_meta` -/
def readMeta (e : PElem) : Py Obj := do
  let d ← xmlData .metaC IDTYPE (some (lit! "meta")) e
  let ks ← readMcs e.kids
  construct { d with text := nonBlank e.text } [] ks

/-- xigtxml.py:301-315 `decode_metadata` -/
def readMd (e : PElem) : Py Obj := do
  let d ← xmlData .metadata IDTYPE (some (lit! "metadata")) e
  let ks ← mapPy readMeta (findall e (lit! "meta"))
  construct d [] ks

/-- xigtxml.py:286-298 `decode_item` -/
def readItem (e : PElem) : Py Obj := do
  let d ← xmlData .item IDTYPE (some (lit! "item")) e
  construct { d with text := e.text } [] []

/-- xigtxml.py:270-283 `decode_tier` -/
def readTier (e : PElem) : Py Obj := do
  let d ← xmlData .tier IDTYPE (some (lit! "tier")) e
  let ms ← mapPy readMd (findall e (lit! "metadata"))
  let ks ← mapPy readItem (findall e (lit! "item"))
  construct d ms ks

/-- xigtxml.py:254-267 `decode_igt` -/
def readIgt (e : PElem) : Py Obj := do
  let d ← xmlData .igt IDTYPE (some (lit! "igt")) e
  let ms ← mapPy readMd (findall e (lit! "metadata"))
  let ks ← mapPy readTier (findall e (lit! "tier"))
  construct d ms ks

/-- xigtxml.py:237-251 `decode_xigtcorpus` with all IGTs (which passes no `type` on, and leaves it in
the attributes) -/
def readCorpus (e : PElem) : Py Obj := do
  let d ← xmlData .corpus [lit! "id"] (some (lit! "xigt-corpus")) e
  let ms ← mapPy readMd (findall e (lit! "metadata"))
  let ks ← mapPy readIgt (findall e (lit! "igt"))
  construct { d with type := none } ms ks
end

end Xigt
