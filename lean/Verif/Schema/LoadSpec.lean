import Verif.Schema.Spec
import Verif.Xml.Indent
/-
What it means that a corpus has what is in a document (C100), written without the decoders.
-/

namespace Xigt.Rng

/-- all text among nodes (not that inside elements) -/
def textOf : List Node → Str
  | [] => []
  | .text s :: ns => s ++ textOf ns
  | .elem _ _ _ :: ns => textOf ns

/-- the value of an attribute -/
def Attr (a : List (Str × Str)) (k : Str) (v : Option Str) : Prop := ∀ w, v = some w ↔ (k, w) ∈ a

/-- `{uri}name`, or a name without namespace -/
def expanded : Option Str → Str → Str
  | none, n => n
  | some u, n => '{' :: u ++ '}' :: n

/-- white space -/
def isWs (s : Str) : Bool := s.all xmlSpace

/-- all text among nodes except white space between elements -/
def said : List Node → Str
  | [] => []
  | .text s :: ns => if isWs s then said ns else s ++ said ns
  | .elem _ _ _ :: ns => said ns

/-- the text of an object: none if nothing is said -/
def HasText (ns : List Node) (t : Option Str) : Prop := (said ns = [] ∧ t = none) ∨ (said ns ≠ [] ∧ t = some (said ns))

/-- the object has the identifier, the type and the other attributes of an element -/
structure Has (c : Cls) (a : List (Str × Str)) (d : Data) : Prop where
  cls : d.cls = c
  ns : d.ns = none
  id : Attr a (lit! "id") d.id
  type : Attr a (lit! "type") d.type
  attrs : ∀ k v, (k, v) ∈ d.attrs ↔ (k, v) ∈ a ∧ k ≠ lit! "id" ∧ k ≠ lit! "type"

/-- an element inside a meta: everything is kept -/
inductive IsMc : Obj → Node → Prop
  | mk {d kids n tag a ns} : d.cls = .metaChild → d.name = some n → tag = expanded d.ns n → d.id = none → d.type = none → d.attrs = a →
      HasText ns d.text → All2 IsMc kids (elems ns) → IsMc (.mk d [] kids) (.elem tag a ns)

inductive IsMeta : Obj → Node → Prop
  | mk {d kids tag a ns} : Has .metaC a d → HasText ns d.text → All2 IsMc kids (elems ns) → tag = lit! "meta" → IsMeta (.mk d [] kids) (.elem tag a ns)

inductive IsMd : Obj → Node → Prop
  | mk {d kids tag a ns} : Has .metadata a d → All2 IsMeta kids (elems ns) → tag = lit! "metadata" → IsMd (.mk d [] kids) (.elem tag a ns)

/-- the text of an item is kept as it is -/
inductive IsItem : Obj → Node → Prop
  | mk {d tag a ns} : Has .item a d → (d.text = none ∧ textOf ns = [] ∨ d.text = some (textOf ns) ∧ textOf ns ≠ []) → tag = lit! "item" →
      IsItem (.mk d [] []) (.elem tag a ns)

/-- metadata first -/
inductive IsTier : Obj → Node → Prop
  | mk {d md kids tag a ns l r} : Has .tier a d → elems ns = l ++ r → All2 IsMd md l → All2 IsItem kids r → tag = lit! "tier" →
      IsTier (.mk d md kids) (.elem tag a ns)

inductive IsIgt : Obj → Node → Prop
  | mk {d md kids tag a ns l r} : Has .igt a d → elems ns = l ++ r → All2 IsMd md l → All2 IsTier kids r → tag = lit! "igt" →
      IsIgt (.mk d md kids) (.elem tag a ns)

inductive IsCorpus : Obj → Node → Prop
  | mk {d md kids tag a ns l r} : Has .corpus a d → elems ns = l ++ r → All2 IsMd md l → All2 IsIgt kids r → tag = lit! "xigt-corpus" →
      IsCorpus (.mk d md kids) (.elem tag a ns)

/-! ### What the decoders ask for besides -/

section
variable [Uni]

/-- the name without namespace -/
def localName (tag : Str) : Str := if tag.head? = some '{' then (tag.dropWhile (· ≠ '}')).drop 1 else tag

/-- no text but white space after the first element -/
def TextFirst : List Node → Prop
  | [] => True
  | .text _ :: ns => TextFirst ns
  | .elem _ _ _ :: ns => WsOnly ns

/-- the white space of python is not more than that of XML -/
def PlainText (ns : List Node) : Prop := ∀ s, .text s ∈ ns → Ws s ∨ ∃ c ∈ s, Uni.isSpace c = false

/-- an element inside a meta whose name is one that `name_re` (metadata.py:16) allows and none of those the reader waits
for, without `id` and `type`, and with text only before its first child -/
inductive McClean : Node → Prop
  | mk {tag a ns} : tag ≠ lit! "igt" → tag ≠ lit! "xigt-corpus" → nameOK (localName tag) = true → Lacks a (lit! "id") → Lacks a (lit! "type") →
      TextFirst ns → PlainText ns → (∀ n ∈ elems ns, McClean n) → McClean (.elem tag a ns)

/-- the content of an element -/
def content : Node → List Node
  | .elem _ _ ns => ns
  | .text _ => []
def attrsN : Node → List (Str × Str)
  | .elem _ a _ => a
  | .text _ => []
def tagN : Node → Str
  | .elem tag _ _ => tag
  | .text _ => []

/-- children with a tag -/
def tagged (t : Str) (n : Node) : List Node := (elems (content n)).filter fun k => tagN k = t

def MetaClean (n : Node) : Prop := PlainText (content n) ∧ ∀ k ∈ elems (content n), McClean k
def MdClean (n : Node) : Prop := ∀ k ∈ elems (content n), MetaClean k

/-- no type of the corpus, and everything in metadata as above -/
def DocClean (n : Node) : Prop := Lacks (attrsN n) (lit! "type") ∧ (∀ m ∈ tagged (lit! "metadata") n, MdClean m) ∧
  ∀ i ∈ tagged (lit! "igt") n, (∀ m ∈ tagged (lit! "metadata") i, MdClean m) ∧
    ∀ t ∈ tagged (lit! "tier") i, ∀ m ∈ tagged (lit! "metadata") t, MdClean m

/-- in the notes of a metadata element, text comes first -/
def MdFirst (n : Node) : Prop := ∀ k ∈ elems (content n), TextFirst (content k)

/-- all metadata -/
def InMd (P : Node → Prop) (n : Node) : Prop := (∀ m ∈ tagged (lit! "metadata") n, P m) ∧
  ∀ i ∈ tagged (lit! "igt") n, (∀ m ∈ tagged (lit! "metadata") i, P m) ∧
    ∀ t ∈ tagged (lit! "tier") i, ∀ m ∈ tagged (lit! "metadata") t, P m

example {n : Node} : DocClean n ↔ Lacks (attrsN n) (lit! "type") ∧ InMd MdClean n := .rfl

/-- no two have the same identifier -/
def Apart (ns : List Node) : Prop := ns.Pairwise fun x y => ∀ v, ¬ ((lit! "id", v) ∈ attrsN x ∧ (lit! "id", v) ∈ attrsN y)

def MdUnique (n : Node) : Prop := Apart (elems (content n))

/-- metadata, and other children, have different identifiers -/
def KidsUnique (tag : Str) (n : Node) : Prop :=
  Apart (tagged (lit! "metadata") n) ∧ Apart (tagged tag n) ∧ ∀ m ∈ tagged (lit! "metadata") n, MdUnique m

def DocUnique (n : Node) : Prop := KidsUnique (lit! "igt") n ∧ ∀ i ∈ tagged (lit! "igt") n, KidsUnique (lit! "tier") i ∧
  ∀ t ∈ tagged (lit! "tier") i, KidsUnique (lit! "item") t

/-! ### The outline of a document, which all schemata agree on -/

variable [Xsd]

def MetaS : Node → Prop
  | .elem tag a _ => tag = lit! "meta" ∧ OptIdAttr a
  | .text _ => False
def MdS : Node → Prop
  | .elem tag a ns => tag = lit! "metadata" ∧ OptIdAttr a ∧ WsOnly ns ∧ ∀ n ∈ elems ns, MetaS n
  | .text _ => False
def ItemS : Node → Prop
  | .elem tag a ns => tag = lit! "item" ∧ OptIdAttr a ∧ elems ns = []
  | .text _ => False
def TierS : Node → Prop
  | .elem tag a ns => tag = lit! "tier" ∧ OptIdAttr a ∧ TwoKinds MdS ItemS ns
  | .text _ => False
def IgtS : Node → Prop
  | .elem tag a ns => tag = lit! "igt" ∧ OptIdAttr a ∧ TwoKinds MdS TierS ns
  | .text _ => False
def CorpusS : Node → Prop
  | .elem tag a ns => tag = lit! "xigt-corpus" ∧ OptIdAttr a ∧ TwoKinds MdS IgtS ns
  | .text _ => False

end
end Xigt.Rng
