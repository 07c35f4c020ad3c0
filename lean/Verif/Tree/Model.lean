import Verif.Container.Model
/-
Data of the model classes as immutable trees (/repo/xigt/model.py, metadata.py, mixins.py:161-232):
used where object identity and indexes play no role (equality, codecs, paths, validation).

Simplifications: attribute values are strings; parents are not part of the tree (a node's parent
is where it is found); `_dict` indexes are not part of the tree.
-/

namespace Xigt

/-- what an object holds besides its children: XigtAttributeMixin (mixins.py:161-173), `text` of
Item/Meta/MetaChild (model.py:339, metadata.py:141, 181), `name` of MetaChild (metadata.py:179) -/
structure Data where
  cls : Cls
  id : Option Str := none
  type : Option Str := none
  attrs : Dict Str Str := []
  ns : Option Str := none
  nsmap : Option (Dict Str Str) := none
  text : Option Str := none
  name : Option Str := none
  deriving DecidableEq

/-- an object: its data, its metadata list (`_md`, XigtMetadataMixin) and its list contents -/
inductive Obj where
  | mk (d : Data) (md kids : List Obj)

namespace Obj
/-- what it holds (mixins.py:161-173) -/
def data : Obj → Data
  | mk d _ _ => d
/-- `x.metadata` (mixins.py, XigtMetadataMixin) -/
def md : Obj → List Obj
  | mk _ m _ => m
/-- `list(x)` -/
def kids : Obj → List Obj
  | mk _ _ k => k
/-- `type(x)` -/
def cls (x : Obj) : Cls := x.data.cls

@[simp] theorem data_mk (d m k) : (mk d m k).data = d := rfl
@[simp] theorem md_mk (d m k) : (mk d m k).md = m := rfl
@[simp] theorem kids_mk (d m k) : (mk d m k).kids = k := rfl
@[simp] theorem cls_mk (d m k) : (mk d m k).cls = d.cls := rfl
theorem eta (x : Obj) : x = mk x.data x.md x.kids := by cases x; rfl

/-- induction over trees -/
theorem ind {P : Obj → Prop}
    (h : ∀ d md kids, (∀ x ∈ md, P x) → (∀ x ∈ kids, P x) → P (mk d md kids)) : ∀ x, P x := by
  intro x
  exact Obj.rec (motive_1 := P) (motive_2 := fun l => ∀ y ∈ l, P y)
    (fun d md kids hm hk => h d md kids hm hk) (by intro y hy; cases hy)
    (fun a l ha hl y hy => by
      rcases List.mem_cons.1 hy with rfl | hy
      · exact ha
      · exact hl y hy) x

/-- number of nodes -/
def size : Obj → Nat
  | mk _ md kids => 1 + sizes md + sizes kids
where sizes : List Obj → Nat
  | [] => 0
  | x :: xs => size x + sizes xs

end Obj

namespace Cls
/-- `_contained_type` (model.py:71, 124, 259; metadata.py:77, 134, 171); Item is no container -/
def contained : Cls → Option Cls
  | corpus => some igt
  | igt => some tier
  | tier => some item
  | item => none
  | metadata => some metaC
  | metaC => some metaChild
  | metaChild => some metaChild

/-- classes with XigtMetadataMixin -/
def hasMd : Cls → Bool
  | corpus | igt | tier => true
  | _ => false

/-- classes with a `text` member -/
def hasText : Cls → Bool
  | item | metaC | metaChild => true
  | _ => false
end Cls

/-- The invariants the constructors and containers establish (C08): members that a class does not
have are absent, children are of the contained class, metadata of class Metadata, and attribute
dictionaries have no key twice. -/
inductive Obj.WF : Obj → Prop
  | mk {d md kids} : d.attrs.WF →
      (d.cls.hasText = false → d.text = none) →
      (d.name.isSome = true ↔ d.cls = .metaChild) →
      (d.cls.hasMd = false → md = []) →
      (∀ x ∈ md, x.cls = .metadata) → (∀ x ∈ kids, some x.cls = d.cls.contained) →
      (∀ x ∈ md, x.WF) → (∀ x ∈ kids, x.WF) → Obj.WF (.mk d md kids)

end Xigt
