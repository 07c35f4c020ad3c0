import Verif.Schema.XigtLemmas
/-
When an object fits /repo/schema/xigt.rnc (without extensions), in terms of the object.  Written without
patterns.
-/

namespace Xigt.Rng
section
variable [Uni] [Xsd]

/-- a word with white space around it -/
def Word (w v : Str) : Prop := ∃ a b, v = a ++ w ++ b ∧ Ws a ∧ Ws b

/-- `xml:lang`, or `xml:space` with one of its values -/
def BaseAttr (k v : Str) : Prop :=
  k = xmlName (lit! "lang") ∨ (k = xmlName (lit! "space") ∧ (Word (lit! "default") v ∨ Word (lit! "preserve") v))

/-- no attributes but these -/
def OnlyBase (a : List (Str × Str)) : Prop := ∀ k v, (k, v) ∈ a → BaseAttr k v

/-- no type, but for white space -/
def BlankType (d : Data) : Prop := ∀ v, d.type = some v → Ws v

/-- text only together with children -/
def MetaFitsX (x : Obj) : Prop := OptId x.data ∧ BlankType x.data ∧ OnlyBase x.data.attrs ∧ (x.data.text = none ∨ x.kids ≠ [])
def MdFitsX (x : Obj) : Prop := OptId x.data ∧ BlankType x.data ∧ OnlyBase x.data.attrs ∧ ∀ m ∈ x.kids, MetaFitsX m

/-- no attributes but `xml:lang`, `xml:space`, and references with values in `F` -/
def RefsX (F : Str → Prop) (a : List (Str × Str)) : Prop :=
  (∀ k v, (k, v) ∈ a → BaseAttr k v ∨ ((k = ALN ∨ k = CNT ∨ k = SEG) ∧ F v)) ∧ (Lacks a SEG ∨ (Lacks a ALN ∧ Lacks a CNT))

def ItemFitsX (x : Obj) : Prop := HasId x.data ∧ BlankType x.data ∧ RefsX AlgnFits x.data.attrs
/-- without a type; references are single identifiers -/
def TierFitsX (x : Obj) : Prop :=
  HasId x.data ∧ x.data.type = none ∧ RefsX IdFits x.data.attrs ∧ (∀ m ∈ x.md, MdFitsX m) ∧ ∀ i ∈ x.kids, ItemFitsX i
def IgtFitsX (x : Obj) : Prop :=
  HasId x.data ∧ BlankType x.data ∧ OnlyBase x.data.attrs ∧ (∀ m ∈ x.md, MdFitsX m) ∧ ∀ t ∈ x.kids, TierFitsX t
def CorpusFitsX (x : Obj) : Prop :=
  OptId x.data ∧ OnlyBase x.data.attrs ∧ (∀ m ∈ x.md, MdFitsX m) ∧ ∀ t ∈ x.kids, IgtFitsX t

end
end Xigt.Rng
