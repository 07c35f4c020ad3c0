import Verif.Xml.Model
import Verif.Json.Spec
/- What an XML round trip keeps: the conditions on an object and its namespaces. -/

namespace Xigt
variable [Uni] [XmlLex]

/-- characters XML can hold -/
def XmlChars (s : Str) : Prop := ∀ c ∈ s, isXmlChar c = true

/-- a prefix that can be declared -/
def PrefixOK (p : Str) : Prop := XmlLex.ncName p = true ∧ p ≠ lit! "xml" ∧ p ≠ lit! "xmlns"

/-- a namespace that can be declared -/
def UriOK (u : Str) : Prop := XmlChars u ∧ '}' ∉ u ∧ u ≠ [] ∧ u ≠ xmlNs ∧ u ≠ xmlnsNs

/-- an attribute name that XML keeps: a name without namespace (not `id`, `type` or `xmlns`), or in a
namespace the map `m` declares, or in the namespace of `xml:lang` -/
def AttrKept (m : Dict Str Str) (k : Str) : Prop :=
  (XmlLex.ncName k = true ∧ k ≠ lit! "id" ∧ k ≠ lit! "type" ∧ k ≠ lit! "xmlns") ∨
  ∃ uri key, k = qual uri key ∧ XmlLex.ncName key = true ∧ (uri = xmlNs ∨ ∃ p, Dict.get? m p = some uri)

/-- the data of an object survives; `m` is the namespace map in force (`nsmap` of the object) -/
structure XmlDataKept (m : Dict Str Str) (d : Data) : Prop where
  decls : ∀ own, d.nsmap = some own → ∀ p u, (p, u) ∈ own → PrefixOK p ∧ UriOK u
  ns : d.cls ≠ .metaChild → d.ns = none
  child : d.cls = .metaChild → d.id = none ∧ d.type = none ∧ (∀ n, d.name = some n → XmlLex.ncName n = true) ∧
    ∀ u, d.ns = some u → ∃ p, Dict.get? m p = some u
  corpus : d.cls = .corpus → d.type = none
  item : d.cls = .item → d.text ≠ some []
  metas : d.cls = .metaC ∨ d.cls = .metaChild → ∀ t, d.text = some t → ∃ c ∈ t, Uni.isSpace c = false
  text : ∀ t, d.text = some t → XmlChars t ∧ '\r' ∉ t
  id : ∀ i, d.id = some i → XmlChars i
  type : ∀ i, d.type = some i → XmlChars i
  attrs : ∀ k v, (k, v) ∈ d.attrs → XmlChars v ∧ AttrKept m k

/-- `XmlDataKept` throughout; `eff` is the namespace map of the parent -/
inductive XmlKept : Dict Str Str → Obj → Prop
  | mk {eff d md kids} : XmlDataKept (d.nsmap.getD eff) d →
      (∀ x ∈ md, XmlKept (d.nsmap.getD eff) x) → (∀ x ∈ kids, XmlKept (d.nsmap.getD eff) x) → XmlKept eff (.mk d md kids)

end Xigt
