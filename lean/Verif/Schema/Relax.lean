import Verif.Xml.Text
/-
RELAX NG (the language of the schemata in /repo/schema): patterns, and when they match.

The rules are those of section 9.3 of the RELAX NG specification.  Not from python; part of the
trusted reading of the schemata.  Attributes are matched in any order; a value or the content of an
element that is white space may also be matched as if it were not there.  Left out: `list`, and the
name classes that the schemata do not use.
-/

namespace Xigt.Rng

/-- a node of a document: text, or an element with expanded names (`{uri}name`) -/
inductive Node where
  | text (s : Str)
  | elem (tag : Str) (attrs : List (Str × Str)) (kids : List Node)

/-- white space of XML -/
def Ws (s : Str) : Prop := ∀ c ∈ s, xmlSpace c = true

/-- which names are meant -/
inductive NameClass where
  /-- `*` -/
  | any
  | name (n : Str)
  /-- `* - (n₁ | n₂ | …)` -/
  | except (ns : List Str)

/-- which names those are -/
def NameClass.Has : NameClass → Str → Prop
  | .any, _ => True
  | .name n, m => m = n
  | .except ns, m => m ∉ ns

/-- patterns of RELAX NG (compact syntax in comments) -/
inductive Pat where
  | empty
  | notAllowed
  | text
  /-- a value or a datatype: the strings it allows -/
  | data (P : Str → Prop)
  | choice (p q : Pat)
  /-- `p, q` -/
  | group (p q : Pat)
  /-- `p & q` -/
  | interleave (p q : Pat)
  /-- `p+` -/
  | plus (p : Pat)
  | attr (nc : NameClass) (p : Pat)
  | elem (nc : NameClass) (p : Pat)
  | ref (n : Str)

namespace Pat
/-- `p?` -/
def opt (p : Pat) : Pat := .choice p .empty
/-- `p*` -/
def star (p : Pat) : Pat := .choice (.plus p) .empty
/-- `mixed { p }` -/
def mixed (p : Pat) : Pat := .interleave .text p
end Pat

/-- a sequence shuffled from two -/
inductive Shuffle {α : Type} : List α → List α → List α → Prop
  | nil : Shuffle [] [] []
  | left {x a b c} : Shuffle a b c → Shuffle (x :: a) b (x :: c)
  | right {x a b c} : Shuffle a b c → Shuffle a (x :: b) (x :: c)

/-- nothing but white space -/
def WsNodes (ns : List Node) : Prop := ∀ n ∈ ns, ∃ s, n = .text s ∧ Ws s

/-- a pattern matches attributes and content; `env` are the definitions of the grammar -/
inductive Matches (env : Str → Pat) : Pat → List (Str × Str) → List Node → Prop
  | empty : Matches env .empty [] []
  | text {ns} : (∀ n ∈ ns, ∃ s, n = .text s) → Matches env .text [] ns
  | data {P s} : P s → Matches env (.data P) [] [.text s]
  | left {p q a ns} : Matches env p a ns → Matches env (.choice p q) a ns
  | right {p q a ns} : Matches env q a ns → Matches env (.choice p q) a ns
  | group {p q a a₁ a₂ n₁ n₂} : a.Perm (a₁ ++ a₂) → Matches env p a₁ n₁ → Matches env q a₂ n₂ → Matches env (.group p q) a (n₁ ++ n₂)
  | interleave {p q a a₁ a₂ n n₁ n₂} : a.Perm (a₁ ++ a₂) → Shuffle n₁ n₂ n → Matches env p a₁ n₁ → Matches env q a₂ n₂ →
      Matches env (.interleave p q) a n
  | one {p a ns} : Matches env p a ns → Matches env (.plus p) a ns
  | more {p a a₁ a₂ n₁ n₂} : a.Perm (a₁ ++ a₂) → Matches env p a₁ n₁ → Matches env (.plus p) a₂ n₂ → Matches env (.plus p) a (n₁ ++ n₂)
  | attr {nc p k v} : nc.Has k → Matches env p [] [.text v] → Matches env (.attr nc p) [(k, v)] []
  | attrWs {nc p k v} : nc.Has k → Ws v → Matches env p [] [] → Matches env (.attr nc p) [(k, v)] []
  | elem {nc p tag a ns w₁ w₂} : nc.Has tag → Matches env p a ns → WsNodes w₁ → WsNodes w₂ →
      Matches env (.elem nc p) [] (w₁ ++ .elem tag a ns :: w₂)
  | elemWs {nc p tag a ns w₁ w₂} : nc.Has tag → WsNodes ns → Matches env p a [] → WsNodes w₁ → WsNodes w₂ →
      Matches env (.elem nc p) [] (w₁ ++ .elem tag a ns :: w₂)
  | elemEmpty {nc p tag a ns w₁ w₂} : nc.Has tag → WsNodes ns → Matches env p a [.text []] → WsNodes w₁ → WsNodes w₂ →
      Matches env (.elem nc p) [] (w₁ ++ .elem tag a ns :: w₂)
  | ref {n a ns} : Matches env (env n) a ns → Matches env (.ref n) a ns

/-- a grammar: the start pattern and the definitions -/
structure Grammar where
  start : Pat
  defs : Str → Pat

/-- a document, i.e. its root element, is valid -/
def Valid (g : Grammar) (doc : Node) : Prop := Matches g.defs g.start [] [doc]

/-! ### Documents -/

/-- text, if there is any -/
def textNode : Option Str → List Node
  | none => []
  | some s => if s = [] then [] else [.text s]

mutual
/-- the document: names, attributes and text as read (`parseElem`), with the text between elements,
which `parseElem` leaves out, from the element that was written -/
def node : Elem → PElem → Node
  | .mk _ _ _ _ ks, .mk tag as _ text ps => .elem tag as (textNode text ++ nodes ks ps)
/-- the nodes of the children, with the text after each -/
def nodes : List Elem → List PElem → List Node
  | k :: ks, p :: ps => node k p :: (textNode (k.tail.map eol) ++ nodes ks ps)
  | _, _ => []
end

/-- the document of an element -/
def document [XmlLex] (e : Elem) : Py Node := do
  let p ← parseElem [] e
  return node e p

/-- the document of a text -/
def docText [XmlLex] (s : Str) : Py Node := do
  let e ← scanXml s
  document e

/-! ### Regular expressions of XML Schema (the facet `pattern`, which must match the whole string) -/

/-- regular expressions -/
inductive Rx where
  | cls (p : Char → Bool)
  | eps
  | seq (a b : Rx)
  | alt (a b : Rx)
  | star (a : Rx)

namespace Rx
/-- one character -/
def chr (c : Char) : Rx := cls (· == c)
/-- `a+` -/
def plus (a : Rx) : Rx := seq a (star a)
/-- `a?` -/
def opt (a : Rx) : Rx := alt a eps
end Rx

/-- the strings that match -/
inductive Rx.Mem : Rx → Str → Prop
  | cls {p c} : p c = true → Mem (.cls p) [c]
  | eps : Mem .eps []
  | seq {a b s t} : Mem a s → Mem b t → Mem (.seq a b) (s ++ t)
  | left {a b s} : Mem a s → Mem (.alt a b) s
  | right {a b s} : Mem b s → Mem (.alt a b) s
  | nil {a} : Mem (.star a) []
  | cons {a s t} : Mem a s → Mem (.star a) t → Mem (.star a) (s ++ t)

/-- `\w` (everything but punctuation, separators and "other" characters) and `\d` (decimal digits) of
XML Schema.  Letters and numbers, which are the word characters of python besides `_`, are in `\w`;
symbols, e.g. `+` and `=`, are too; `\d` is that of python. -/
class Xsd [Uni] where
  word : Char → Bool
  digit : Char → Bool
  word_py : ∀ c, Uni.isWord c = true → c ≠ '_' → word c = true
  digit_py : ∀ c, digit c = Uni.isDigit c
  ascii : ∀ c : Char, c.toNat < 128 → word c = (c.isAlphanum || ['$', '+', '<', '=', '>', '^', '`', '|', '~'].contains c)

end Xigt.Rng
