import Verif.Equality.Spec
import Verif.Tree.Build
/- What a JSON round trip keeps: the conditions on an object and its namespaces. -/

namespace Xigt

/-- the namespace declarations in scope inside an object: its own and those around it -/
def inner (own : Option (Dict Str Str)) (scope : Str → Option Str) (p : Str) : Option Str :=
  match own with
  | none => scope p
  | some m => (Dict.get? m p).or (scope p)

/-- nothing declared -/
def noScope : Str → Option Str := fun _ => none

/-- the object can be constructed, and so can all objects in it -/
inductive Obj.Valid [Uni] : Obj → Prop
  | mk {d md kids} : (∀ i, d.id = some i → idAccepted i = true) → (∀ n, d.name = some n → nameOK n = true) →
      (md.filterMap fun x => x.data.id).Nodup → (kids.filterMap fun x => x.data.id).Nodup →
      (∀ m, d.nsmap = some m → m.WF) →
      (∀ x ∈ md, x.Valid) → (∀ x ∈ kids, x.Valid) → Obj.Valid (.mk d md kids)

/-- an attribute name that JSON leaves alone: not in a namespace that is in scope -/
def KeyKept (scope : Str → Option Str) (k : Str) : Prop :=
  ∀ r, k = '{' :: r → ∃ uri key, r = uri ++ '}' :: key ∧ '}' ∉ uri ∧ ∀ p, scope p ≠ some uri

/-- the data of an object survives: no empty type, namespace or (of an item) text, no type on the
corpus, no attributes in namespaces that are in scope; the namespace of a MetaChild is declared (under
prefixes without colon) or is no prefix itself; a MetaChild has no ID and type (it never has) -/
structure DataKept (scope : Str → Option Str) (d : Data) : Prop where
  type : d.type ≠ some []
  ns : d.ns ≠ some []
  corpus : d.cls = .corpus → d.type = none
  item : d.cls = .item → d.text ≠ some []
  attrs : ∀ k v, (k, v) ∈ d.attrs → KeyKept scope k
  child : d.cls = .metaChild → d.id = none ∧ d.type = none ∧
    ∀ u, d.ns = some u → (∀ p, scope p = some u → ':' ∉ p) ∧ ((∃ p, scope p = some u) ∨ scope u = none)

/-- `DataKept` throughout -/
inductive JsonKept : (Str → Option Str) → Obj → Prop
  | mk {scope d md kids} : DataKept (inner d.nsmap scope) d →
      (∀ x ∈ md, JsonKept (inner d.nsmap scope) x) → (∀ x ∈ kids, JsonKept (inner d.nsmap scope) x) →
      JsonKept scope (.mk d md kids)

end Xigt
