import Verif.Tree.Model
/-
Model of item values, references, tier order and the reference queries:
/repo/xigt/model.py:151-240 (Igt), 373-419 (Item), /repo/xigt/ref.py:213-285,
/repo/xigt/query.py.

An igt is a tree (`Obj` of class igt with tiers with items) as far as its contents go; lookups in
its containers are searches of the contents (justified by C01: the index is exact).  Parents are
consistent (C04): an item found in a tier has that tier as its parent.
-/

namespace Xigt
variable [Uni]

/-- consts.py:5 -/
def ALIGNMENT : Str := lit! "alignment"
/-- consts.py:6 -/
def CONTENT : Str := lit! "content"
/-- consts.py:7 -/
def SEGMENTATION : Str := lit! "segmentation"

/-- `container.get(s)` for a string (mixins.py:50-60, 81-86) on the contents: the object with that
ID, else the one at that position, else None -/
def contGet (xs : List Obj) (s : Str) : Option Obj :=
  match xs.find? (fun x => decide (x.data.id = some s)) with
  | some x => some x
  | none =>
    match pyInt s with
    | .ok i => (pyGet xs i).toOption
    | .error _ => none

/-- `container[s]` for a string -/
def contItem (xs : List Obj) (s : Str) : Py Obj :=
  match xs.find? (fun x => decide (x.data.id = some s)) with
  | some x => .ok x
  | none =>
    match pyInt s with
    | .ok i => pyGet xs i
    | .error _ => .error .keyError

/-! ### Item values -/

/-- model.py:382-404 `Item.resolve_ref`; `val` is `value()` of an item found in a tier -/
def resolveRef (val : Obj → Obj → Py (Option Str)) (igt tier : Option Obj) (item : Obj) (ra : Str) :
    Py Str := do
  let expr ← Dict.getItem item.data.attrs ra
  match tier with
  | none => .error .xigtStructureError
  | some tier =>
    let tid ← Dict.getItem tier.data.attrs ra
    match igt with
    | none => .error .xigtStructureError
    | some igt =>
      match contGet igt.kids tid with
      | none => .error .xigtStructureError
      | some reftier => resolve (fun i => (contGet reftier.kids i).map (val reftier)) expr

/-- model.py:373-380: the first of `refattrs` the item has is resolved; `recur` is `resolve_ref` -/
def valueBy (recur : Str → Py Str) (item : Obj) : List Str → Py (Option Str)
  | [] => .ok none
  | ra :: ras => if Dict.has item.data.attrs ra then (recur ra).map some else valueBy recur item ras

/-- model.py:373-380 `Item.value()` with the default `refattrs`; `fuel` is the number of nested
`value()` calls the interpreter's stack allows -/
def value : Nat → Option Obj → Option Obj → Obj → Py (Option Str)
  | 0, _, _, _ => .error .recursionError
  | fuel + 1, igt, tier, item =>
    match item.data.text with
    | some t => .ok (some t)
    | none =>
      valueBy (resolveRef (fun t i => value fuel igt (some t) i) igt tier item) item
        [CONTENT, SEGMENTATION]

/-- model.py:406-410 `Item.span(start, end)` -/
def itemSpan (fuel : Nat) (igt tier : Option Obj) (item : Obj) (a b : Int) : Py (Option Str) :=
  (value fuel igt tier item).map fun v => v.map fun c => pySlice c (some a) (some b)

end Xigt
