import Verif.Tree.Model
/- Model of `==` and `!=` on the model classes. -/

namespace Xigt

/-- mixins.py:175-185 XigtAttributeMixin.__eq__ (every class has these members) -/
def attrEq (a b : Data) : Bool :=
  decide (a.id = b.id) && decide (a.type = b.type) && Dict.beq a.attrs b.attrs && decide (a.ns = b.ns)

/-- mixins.py:39-48 XigtContainerMixin.__eq__: contained types `s`, `t` (none: an Item, which has no
`_contained_type`, so AttributeError and False), lengths, and members pairwise equal (`z`) -/
def contEq (s t : Option Cls) (n m : Nat) (z : Bool) : Bool :=
  decide (s = t) && s.isSome && decide (n = m) && z

mutual
/-- `x == y`, dispatched on the class of `x` (no class is a subclass of another, and no `__eq__`
returns NotImplemented):
XigtCorpus/Igt/Tier.__eq__ (model.py:88-93, 144-149, 278-283), Item.__eq__ (model.py:346-353),
Metadata.__eq__ (metadata.py:105-109), Meta.__eq__ (metadata.py:149-157),
MetaChild.__eq__ (metadata.py:189-198).  A missing member (`_md`, `text`, `name`,
`_contained_type`) raises AttributeError inside `__eq__`, which gives False; Metadata.text is the
list of its metas, which is unequal to every text. -/
def Obj.eq : Obj → Obj → Bool
  | .mk a md ks, .mk b md' ks' =>
    match a.cls with
    | .corpus | .igt | .tier =>
      b.cls.hasMd &&
        contEq (some .metadata) (some .metadata) md.length md'.length (Obj.zipEq md md') &&
        contEq a.cls.contained b.cls.contained ks.length ks'.length (Obj.zipEq ks ks') && attrEq a b
    | .item => b.cls.hasText && decide (a.text = b.text) && attrEq a b
    | .metadata => contEq a.cls.contained b.cls.contained ks.length ks'.length (Obj.zipEq ks ks') && attrEq a b
    | .metaC => b.cls.hasText && decide (a.text = b.text) &&
        contEq a.cls.contained b.cls.contained ks.length ks'.length (Obj.zipEq ks ks') && attrEq a b
    | .metaChild => decide (b.cls = .metaChild) && decide (a.name = b.name) &&
        decide (a.text = b.text) && contEq a.cls.contained b.cls.contained ks.length ks'.length (Obj.zipEq ks ks') && attrEq a b
/-- `all(a == b for a, b in zip(xs, ys))` -/
def Obj.zipEq : List Obj → List Obj → Bool
  | x :: xs, y :: ys => Obj.eq x y && Obj.zipEq xs ys
  | _, _ => true
end

/-- `x != y` for objects of one class.  Item inherits `object.__ne__`, which negates `==`; the
other classes are lists, and `list.__ne__` comes first in their method resolution order: it
compares lengths and members (with `==`) and nothing else. -/
def Obj.ne (x y : Obj) : Bool :=
  match x.cls with
  | .item => !Obj.eq x y
  | _ => !(decide (x.kids.length = y.kids.length) && Obj.zipEq x.kids y.kids)

end Xigt
