import Verif.Tree.Model
/- What it means for two objects to hold the same data. -/

namespace Xigt

/-- The same class, ID, type, namespace, text and name; the same attributes in any order; the same
metadata and contents in the same order.  Namespace maps are ignored. -/
inductive SameData : Obj → Obj → Prop
  | mk {a b : Data} {md md' ks ks' : List Obj} :
      a.cls = b.cls → a.id = b.id → a.type = b.type → a.ns = b.ns → a.text = b.text →
      a.name = b.name → a.attrs.Perm b.attrs →
      md.length = md'.length → ks.length = ks'.length →
      (∀ (i : Nat) x y, md[i]? = some x → md'[i]? = some y → SameData x y) →
      (∀ (i : Nat) x y, ks[i]? = some x → ks'[i]? = some y → SameData x y) →
      SameData (.mk a md ks) (.mk b md' ks')

/-- pairs of classes for which `==` is not symmetric -/
def MixedPair (a b : Cls) : Prop := a ≠ b ∧ a.hasText = true ∧ b.hasText = true

end Xigt
