import Verif.Schema.Structure
import Verif.Xml.Spec
/-
When an object fits /repo/schema/xigt-structure.rnc, in terms of the object; and the same for
documents.  Written without patterns.
-/

namespace Xigt.Rng
section
variable [Uni] [Xsd]

/-- an identifier the schema allows: an ASCII letter, then `-`, `_`, `.` and word characters of XML Schema -/
def IdFits (i : Str) : Prop := ∃ c r, i = c :: r ∧ letter c = true ∧ ∀ x ∈ r, idCh x = true

/-- `AlgnExpr` -/
def AlgnFits (v : Str) : Prop := algnRx.Mem v

def ALN : Str := lit! "alignment"
def CNT : Str := lit! "content"
def SEG : Str := lit! "segmentation"

/-- no attribute of this name -/
def Lacks (a : List (Str × Str)) (k : Str) : Prop := ∀ v, (k, v) ∉ a

/-- the attributes that refer: `alignment` and `content`, or `segmentation`, with proper values -/
def RefsFit (a : List (Str × Str)) : Prop :=
  ((∀ v, (ALN, v) ∈ a → AlgnFits v) ∧ (∀ v, (CNT, v) ∈ a → AlgnFits v) ∧ Lacks a SEG) ∨
  ((∀ v, (SEG, v) ∈ a → AlgnFits v) ∧ Lacks a ALN ∧ Lacks a CNT)

/-- none of them -/
def NoRefs (a : List (Str × Str)) : Prop := Lacks a ALN ∧ Lacks a CNT ∧ Lacks a SEG

/-! ### Objects -/

def OptId (d : Data) : Prop := ∀ i, d.id = some i → IdFits i
def HasId (d : Data) : Prop := ∃ i, d.id = some i ∧ IdFits i

/-- text or children, not both -/
def MetaFits (x : Obj) : Prop := OptId x.data ∧ NoRefs x.data.attrs ∧ (x.kids = [] ∨ x.data.text = none)
def MdFits (x : Obj) : Prop := OptId x.data ∧ NoRefs x.data.attrs ∧ ∀ m ∈ x.kids, MetaFits m
def ItemFits (x : Obj) : Prop := HasId x.data ∧ RefsFit x.data.attrs
def TierFits (x : Obj) : Prop :=
  HasId x.data ∧ x.data.type.isSome = true ∧ RefsFit x.data.attrs ∧ (∀ m ∈ x.md, MdFits m) ∧ ∀ i ∈ x.kids, ItemFits i
def IgtFits (x : Obj) : Prop :=
  HasId x.data ∧ NoRefs x.data.attrs ∧ (∀ m ∈ x.md, MdFits m) ∧ ∀ t ∈ x.kids, TierFits t
/-- no attributes other than `id` (and `type`, which corpora do not have) -/
def CorpusFits (x : Obj) : Prop :=
  OptId x.data ∧ x.data.attrs = [] ∧ (∀ m ∈ x.md, MdFits m) ∧ ∀ t ∈ x.kids, IgtFits t

/-! ### Documents -/

def Node.isElem : Node → Bool
  | .elem _ _ _ => true
  | .text _ => false

/-- the elements among nodes -/
def elems (ns : List Node) : List Node := ns.filter Node.isElem

/-- all text is white space -/
def WsOnly (ns : List Node) : Prop := ∀ s, Node.text s ∈ ns → Ws s

def OptIdAttr (a : List (Str × Str)) : Prop := ∀ v, (lit! "id", v) ∈ a → IdFits v
def HasIdAttr (a : List (Str × Str)) : Prop := ∃ v, (lit! "id", v) ∈ a ∧ IdFits v

/-- nothing but elements of two kinds, those of the first kind first -/
def TwoKinds (A B : Node → Prop) (ns : List Node) : Prop :=
  WsOnly ns ∧ ∃ l r, elems ns = l ++ r ∧ (∀ n ∈ l, A n) ∧ ∀ n ∈ r, B n

def MetaDoc : Node → Prop
  | .elem tag a ns => tag = lit! "meta" ∧ OptIdAttr a ∧ NoRefs a ∧ (elems ns = [] ∨ WsOnly ns)
  | .text _ => False
def MdDoc : Node → Prop
  | .elem tag a ns => tag = lit! "metadata" ∧ OptIdAttr a ∧ NoRefs a ∧ WsOnly ns ∧ ∀ n ∈ elems ns, MetaDoc n
  | .text _ => False
def ItemDoc : Node → Prop
  | .elem tag a ns => tag = lit! "item" ∧ HasIdAttr a ∧ RefsFit a ∧ elems ns = []
  | .text _ => False
def TierDoc : Node → Prop
  | .elem tag a ns => tag = lit! "tier" ∧ HasIdAttr a ∧ (∃ v, (lit! "type", v) ∈ a) ∧ RefsFit a ∧ TwoKinds MdDoc ItemDoc ns
  | .text _ => False
def IgtDoc : Node → Prop
  | .elem tag a ns => tag = lit! "igt" ∧ HasIdAttr a ∧ NoRefs a ∧ TwoKinds MdDoc TierDoc ns
  | .text _ => False
def CorpusDoc : Node → Prop
  | .elem tag a ns => tag = lit! "xigt-corpus" ∧ OptIdAttr a ∧ (∀ x ∈ a, x.1 = lit! "id" ∨ x.1 = lit! "type") ∧ TwoKinds MdDoc IgtDoc ns
  | .text _ => False

/-- the attributes of every element have distinct names (as in every XML document) -/
inductive Distinct : Node → Prop
  | text {s} : Distinct (.text s)
  | elem {tag a ns} : (a.map Prod.fst).Nodup → (∀ n ∈ ns, Distinct n) → Distinct (.elem tag a ns)

end
end Xigt.Rng
