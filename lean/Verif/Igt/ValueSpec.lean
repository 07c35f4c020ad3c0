import Verif.Igt.Model
import Verif.Ref.Spec
/- Reference chains between items. -/

namespace Xigt
variable [Uni]

/-- an item together with the tier it is in -/
abbrev Node := Obj × Obj

/-- the nodes of an igt -/
def nodes (igt : Obj) : List Node := igt.kids.flatMap fun t => t.kids.map fun i => (t, i)

/-- the reference attribute that gives an item its value: `content` before `segmentation`, and none
if the item has text -/
def ValueAttr (i : Obj) (ra : Str) : Prop :=
  i.data.text = none ∧ ((ra = CONTENT ∧ ∃ v, (ra, v) ∈ i.data.attrs) ∨
    (ra = SEGMENTATION ∧ (∃ v, (ra, v) ∈ i.data.attrs) ∧ ∀ v, (CONTENT, v) ∉ i.data.attrs))

/-- IDs selected by an expression in `resolve` -/
def selIds (e : Str) : List Str := (findTriples selectionRe (strip e)).map fun t => t.2.1

/-- `Needs igt x y`: the value of `x` is composed of the value of `y` (and others) -/
def Needs (igt : Obj) (x y : Node) : Prop :=
  ∃ ra e tid, ValueAttr x.2 ra ∧ Dict.get? x.2.data.attrs ra = some e ∧
    Dict.get? x.1.data.attrs ra = some tid ∧ contGet igt.kids tid = some y.1 ∧
    ∃ i ∈ selIds e, contGet y.1.kids i = some y.2

/-- a chain of needs of the given length -/
inductive Chain {α : Type} (R : α → α → Prop) : Nat → α → α → Prop
  | zero (x) : Chain R 0 x x
  | step {n x y z} : R x y → Chain R n y z → Chain R (n + 1) x z

/-- `x` needs itself through some chain -/
def OnCycle (igt : Obj) (x : Node) : Prop := ∃ n, Chain (Needs igt) (n + 1) x x

/-- every reference of the item is resolvable: the tier has the attribute and names an existing
tier, every selected ID exists there, and span bounds are integers (the evaluation of the
expression fails only if the evaluation of a referred item fails) -/
def Resolvable (igt : Obj) (x : Node) : Prop :=
  ∀ ra e, ValueAttr x.2 ra → Dict.get? x.2.data.attrs ra = some e →
    ∃ tid t, Dict.get? x.1.data.attrs ra = some tid ∧ contGet igt.kids tid = some t ∧
      (∀ i ∈ selIds e, ∃ y, contGet t.kids i = some y) ∧
      ∃ r, resolve (fun _ => some (.ok (some []))) e = .ok r

/-- the value of an item, by its data alone: its text; else the text denoted by the expression of
its value-giving attribute over the values of the items of the referred tier; else nothing -/
inductive Val (igt : Obj) : Obj → Obj → Option Str → Prop
  | text {t i s} : i.data.text = some s → Val igt t i (some s)
  | none {t i} : i.data.text = none → (∀ v, (CONTENT, v) ∉ i.data.attrs) →
      (∀ v, (SEGMENTATION, v) ∉ i.data.attrs) → Val igt t i none
  | ref {t i ra tid} (e : Expr) (r : Obj) (item : Str → Obj) (val : Str → Option Str) {s} :
      ValueAttr i ra → Dict.get? i.data.attrs ra = some e.render → e.Simple →
      Dict.get? t.data.attrs ra = some tid → contGet igt.kids tid = some r →
      (∀ j ∈ e.sels.map Sel.id, contGet r.kids j = some (item j)) →
      (∀ j ∈ e.sels.map Sel.id, Val igt r (item j) (val j)) →
      e.denote (fun j => some (.ok (val j))) = .ok s → Val igt t i (some s)

end Xigt
